import Mathlib.Probability.Distributions.Gaussian.Multivariate
import Mathlib.Probability.ProductMeasure
import Verif.Model.Multivariate
import Verif.Spec.Draws

/-!
# Specification: samples of a multivariate normal distribution
-/
namespace Verif.Multivariate
open Matrix MeasureTheory ProbabilityTheory

/-- The symmetric matrix with the lower triangle of `a`: Eigen reads no more of it. -/
def mirror {n : Nat} (a : Square n) : Square n := fun i j => if j ≤ i then a i j else a j i

/-- The contract of Eigen's decompositions, in exact arithmetic -/
structure Eigen.Correct (e : Eigen) : Prop where
  /-- A Cholesky factor that is reported gives the matrix. -/
  llt : ∀ {n : Nat} (a l : Square n), e.llt a = some l → l * lᵀ = mirror a
  /-- The eigenvectors are orthonormal and diagonalise the matrix. -/
  eigen : ∀ {n : Nat} (a : Square n), (e.eigen a).1 * (e.eigen a).1ᵀ = 1 ∧
    (e.eigen a).1 * Matrix.diagonal (e.eigen a).2 * (e.eigen a).1ᵀ = mirror a

/-- Independent draws of the standard normal distribution -/
noncomputable def standardDraws : Measure (ℕ → ℝ) := Measure.infinitePi fun _ => gaussianReal 0 1

/-- `p` is the positive part of the symmetric matrix `a`: both are split by the same directions. -/
def IsPositivePart {n : Nat} (a p : Square n) : Prop :=
  p.PosSemidef ∧ (p - a).PosSemidef ∧ p * (p - a) = 0

end Verif.Multivariate
