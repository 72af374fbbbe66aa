import Mathlib.LinearAlgebra.Matrix.NonsingularInverse
import Verif.Model.Projection
import Verif.Model.Averages

/-!
# Model of the solvers of include/arc_utilities/eigen_helpers.hpp (1053-1177)

`double` is a real number. Eigen's decompositions are parameters: the singular value decomposition, the smallest
singular value of a matrix and the solution by a Cholesky decomposition. Matrices have at least the sizes that their
types say; that the sizes of `A`, `b` and `w` agree is part of the types.
-/
namespace Verif.LeastSquares
open Verif Matrix Verif.Projection

/-- eigen_helpers.hpp:1101-1103: what `JacobiSVD` computes with `ComputeFullU | ComputeThinV` -/
structure Svd (m n : Nat) where
  /-- `matrixU` -/
  u : Matrix (Fin m) (Fin m) ℝ
  /-- `singularValues` -/
  s : Fin (min m n) → ℝ
  /-- `matrixV` -/
  v : Matrix (Fin n) (Fin (min m n)) ℝ

/-- A decomposition of matrices of every size. Used for eigen_helpers.hpp:1099-1123, 1090-1130. -/
abbrev Decompose := (m n : Nat) → Matrix (Fin m) (Fin n) ℝ → Svd m n

/-- eigen_helpers.hpp:1086 `SuggestedRcond` -/
noncomputable def suggestedRcond : ℝ := 1 / 1000

/-- eigen_helpers.hpp:1099-1123: the part of `Pinv` between the flips -/
noncomputable def pinvCore (svd : Decompose) {m n : Nat} (a : Matrix (Fin m) (Fin n) ℝ) (rcond : ℝ) :
    Matrix (Fin n) (Fin m) ℝ :=
  let d := svd m n a
  let inverted : Fin (min m n) → ℝ := fun i => if |d.s i| ≤ rcond then 0 else 1 / d.s i
  let adjointU : Matrix (Fin (min m n)) (Fin m) ℝ := of fun i j => d.u j (Fin.castLE (min_le_left m n) i)
  d.v * diagonal inverted * adjointU

/-- eigen_helpers.hpp:1090-1130 `Pinv` -/
noncomputable def pinv (svd : Decompose) {m n : Nat} (b : Matrix (Fin m) (Fin n) ℝ) (rcond : ℝ)
    (enableFlip : Bool := true) : Matrix (Fin n) (Fin m) ℝ :=
  if enableFlip = true ∧ m < n then (pinvCore svd bᵀ rcond)ᵀ else pinvCore svd b rcond

/-- eigen_helpers.hpp:1151, 1169: the smallest singular value of a square matrix, which has one -/
abbrev MinSingular := (n : Nat) → Matrix (Fin n) (Fin n) ℝ → ℝ

/-- eigen_helpers.hpp:1158, 1176: `M.llt().solve(v)` -/
abbrev Llt := (n : Nat) → Matrix (Fin n) (Fin n) ℝ → (Fin n → ℝ) → Fin n → ℝ

/-- eigen_helpers.hpp:1151-1155, 1169-1173: damping. The smallest of no singular values fails an assertion. -/
noncomputable def damped (minSingular : MinSingular) {n : Nat} (lhs : Matrix (Fin n) (Fin n) ℝ)
    (threshold value : ℝ) : Out (Matrix (Fin n) (Fin n) ℝ) := do
  Out.assert (0 < n)
  if minSingular n lhs < threshold then .ok (lhs + value • (1 : Matrix (Fin n) (Fin n) ℝ)) else .ok lhs

/-- eigen_helpers.hpp:1143-1159 `WeightedLeastSquaresSolver` -/
noncomputable def weightedLeastSquaresSolver (minSingular : MinSingular) (llt : Llt) {m n : Nat}
    (A : Matrix (Fin m) (Fin n) ℝ) (b w : Fin m → ℝ) (threshold value : ℝ) : Out (Fin n → ℝ) := do
  let lhs ← damped minSingular (Aᵀ * diagonal w * A) threshold value
  .ok (llt n lhs (Aᵀ *ᵥ (w * b)))

/-- eigen_helpers.hpp:1161-1177 `UnderdeterminedSolver` -/
noncomputable def underdeterminedSolver (minSingular : MinSingular) (llt : Llt) {m n : Nat}
    (A : Matrix (Fin m) (Fin n) ℝ) (b : Fin m → ℝ) (threshold value : ℝ) : Out (Fin n → ℝ) := do
  Out.assert (m < n)
  let lhs ← damped minSingular (A * Aᵀ) threshold value
  .ok (Aᵀ *ᵥ llt m lhs b)

/-- eigen_helpers.hpp:1065: what `JacobiSVD` computes with `ComputeThinU | ComputeThinV` -/
structure ThinSvd (m n : Nat) where
  /-- `matrixU` -/
  u : Matrix (Fin m) (Fin (min m n)) ℝ
  /-- `singularValues` -/
  s : Fin (min m n) → ℝ
  /-- `matrixV` -/
  v : Matrix (Fin n) (Fin (min m n)) ℝ

/-- eigen_helpers.hpp:1070-1078: the search for the smallest singular value; `none` is infinity and no index -/
noncomputable def smallest {k : Nat} (s : Fin k → ℝ) : Option (Fin k) :=
  (List.finRange k).foldl (fun best i => match best with
    | none => some i
    | some j => if s i < s j then some i else some j) none

/-- eigen_helpers.hpp:1056-1084 `FitPlaneToPoints`; the points have the same size `d` -/
noncomputable def fitPlaneToPoints (svd : (m n : Nat) → Matrix (Fin m) (Fin n) ℝ → ThinSvd m n) {d : Nat}
    (points : List (Fin d → ℝ)) : Out (Hyperplane d) := do
  let centroid ← Averages.averageVec (K := ℝ) points []
  let centered : Matrix (Fin d) (Fin points.length) ℝ := of fun k i => (points[i] - centroid) k
  let decomposition := svd d points.length centered
  match smallest decomposition.s with
  | none => .abort
  | some i => .ok ⟨centroid, safeNormal fun k => decomposition.u k i⟩

end Verif.LeastSquares
