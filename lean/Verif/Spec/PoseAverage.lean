import Mathlib.Analysis.Complex.Basic
import Verif.Model.PoseAverage

/-!
# Specification: what the eigenvalue solver has to compute, and deviations of rotations
-/
namespace Verif.PoseAverage
open Matrix Verif.Kinematics

/-- For symmetric matrices, the solver returns eigenvectors of length one for the eigenvalues it returns, which are all that
there are; an eigenvector to a real eigenvalue is real (this is what the documentation of Eigen says). -/
def Solves (solver : Solver) : Prop :=
  ∀ A : Matrix (Fin 4) (Fin 4) ℝ, Aᵀ = A →
    (∀ i k, ∑ j, (A k j : ℂ) * (solver A).2 i j = (solver A).1 i * (solver A).2 i k) ∧
    (∀ i, ∑ j, Complex.normSq ((solver A).2 i j) = 1) ∧
    (∀ (m : ℝ) (x : Fin 4 → ℝ), x ≠ 0 → A *ᵥ x = m • x → ∃ i, (solver A).1 i = m) ∧
    (∀ i, ((solver A).1 i).im = 0 → ∀ j, ((solver A).2 i j).im = 0)

/-- The sum of the squared differences of the entries -/
def apart (R S : Matrix (Fin 3) (Fin 3) ℝ) : ℝ := ∑ i, ∑ j, (R i j - S i j) ^ 2

/-- How far the rotation `R` is from rotations with factors -/
def deviation (R : Matrix (Fin 3) (Fin 3) ℝ) (factors : List ℝ) (rotations : List (Matrix (Fin 3) (Fin 3) ℝ)) : ℝ :=
  (List.zipWith (fun f S => f * apart R S) factors rotations).sum

/-- The weights to use: without weights all are one -/
def usedWeights {A : Type} (weights : List ℝ) (values : List A) : List ℝ :=
  if weights = [] then values.map fun _ => 1 else weights

end Verif.PoseAverage
