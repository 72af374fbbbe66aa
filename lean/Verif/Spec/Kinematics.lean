import Mathlib.LinearAlgebra.CrossProduct
import Mathlib.LinearAlgebra.Matrix.Determinant.Basic
import Mathlib.Data.Real.Basic

/-!
# Specification: rotations
-/
namespace Verif.Kinematics
open Matrix

/-- A map of space that keeps sums, multiples, lengths and angles, and orientation. -/
structure IsRotation (f : (Fin 3 → ℝ) → (Fin 3 → ℝ)) : Prop where
  add : ∀ v w, f (v + w) = f v + f w
  smul : ∀ (a : ℝ) v, f (a • v) = a • f v
  dot : ∀ v w, f v ⬝ᵥ f w = v ⬝ᵥ w
  cross : ∀ v w, f (v ⨯₃ w) = f v ⨯₃ f w

/-- A matrix of a rotation: orthogonal, with determinant one. -/
def IsRotationMatrix (R : Matrix (Fin 3) (Fin 3) ℝ) : Prop := Rᵀ * R = 1 ∧ R.det = 1

end Verif.Kinematics
