import Mathlib.Analysis.Real.Sqrt
import Mathlib.Data.Matrix.Mul
import Verif.Base.Outcome

/-!
# Model of MultivariteGaussianDistribution (include/arc_utilities/arc_helpers.hpp:1153-1205)

`double` is a real number, so arithmetic is exact and nothing is infinite or not a number. Eigen's decompositions are
parameters. The random number generator together with `std::normal_distribution` is a function from its state to a
draw and the next state.
-/
namespace Verif.Multivariate
open Verif Matrix

/-- A square matrix. Used for arc_helpers.hpp:1171-1186, 1155-1158. -/
abbrev Square (n : Nat) := Matrix (Fin n) (Fin n) ℝ

/-- What is used of Eigen. Used for arc_helpers.hpp:1171-1186, 1189-1199. -/
structure Eigen where
  /-- `LLT`: the factor `matrixL()`, nothing if `info()` is not `Success` -/
  llt : {n : Nat} → Square n → Option (Square n)
  /-- `SelfAdjointEigenSolver`: `eigenvectors()`, as columns, and `eigenvalues()` -/
  eigen : {n : Nat} → Square n → Square n × (Fin n → ℝ)

/-- arc_helpers.hpp:1171-1186 `CalculateNormTransform` -/
noncomputable def normTransform (e : Eigen) {n : Nat} (covariance : Square n) : Square n :=
  match e.llt covariance with
  | some l => l
  | none =>
    let s := e.eigen covariance
    s.1 * Matrix.diagonal fun i => Real.sqrt (max (s.2 i) 0)

/-- arc_helpers.hpp:1155-1158: the members. The size is that of the mean. -/
structure Dist where
  size : Nat
  mean : Fin size → ℝ
  transform : Square size

/-- arc_helpers.hpp:1189-1199: the constructor. For a covariance that is not square `LLT` and the assertion after it
abort alike. -/
noncomputable def construct (e : Eigen) {n rows cols : Nat} (mean : Fin n → ℝ)
    (covariance : Matrix (Fin rows) (Fin cols) ℝ) : Out Dist :=
  if h : n = rows ∧ cols = rows then
    .ok ⟨n, mean, normTransform e (covariance.submatrix (Fin.cast h.1) (Fin.cast (h.1.trans h.2.symm)))⟩
  else .abort

variable {σ : Type} (normal : σ → ℝ × σ)

/-- arc_helpers.hpp:1165-1167: the loop that fills `draw`, from index `idx`, with `left` draws to go -/
def fill {n : Nat} : (left idx : Nat) → (Fin n → ℝ) → σ → (Fin n → ℝ) × σ
  | 0, _, draw, g => (draw, g)
  | left + 1, idx, draw, g =>
    let d := normal g
    fill left (idx + 1) (fun i => if i.val = idx then d.1 else draw i) d.2

/-- arc_helpers.hpp:1160-1170, 1201-1204 `Sample`, `operator()`. The vector is not initialised after `resize`: what it
holds is `garbage`. -/
noncomputable def Dist.sample (d : Dist) (garbage : Fin d.size → ℝ) (g : σ) : (Fin d.size → ℝ) × σ :=
  let r := fill normal d.size 0 garbage g
  (d.transform *ᵥ r.1 + d.mean, r.2)

end Verif.Multivariate
