import Mathlib.Analysis.SpecialFunctions.Trigonometric.Basic
import Mathlib.LinearAlgebra.CrossProduct
import Mathlib.LinearAlgebra.Matrix.Notation
import Verif.Spec.Kinematics

/-!
# Specification: turning by an angle about an axis
-/
namespace Verif.Pose
open Matrix

/-- The vector `v` turned by the angle `a` about the axis `u` of length one (the formula of Rodrigues) -/
noncomputable def turn (u : Fin 3 → ℝ) (a : ℝ) (v : Fin 3 → ℝ) : Fin 3 → ℝ :=
  Real.cos a • v + Real.sin a • (u ⨯₃ v) + ((1 - Real.cos a) * ∑ i, u i * v i) • u

/-- The matrix turns by the angle `a` about the axis `u`. -/
def TurnsBy (R : Matrix (Fin 3) (Fin 3) ℝ) (u : Fin 3 → ℝ) (a : ℝ) : Prop :=
  ∑ i, u i ^ 2 = 1 ∧ ∀ v, R *ᵥ v = turn u a v

/-- The rotations about the three axes -/
noncomputable def aboutX (a : ℝ) : Matrix (Fin 3) (Fin 3) ℝ :=
  !![1, 0, 0; 0, Real.cos a, -Real.sin a; 0, Real.sin a, Real.cos a]
noncomputable def aboutY (a : ℝ) : Matrix (Fin 3) (Fin 3) ℝ :=
  !![Real.cos a, 0, Real.sin a; 0, 1, 0; -Real.sin a, 0, Real.cos a]
noncomputable def aboutZ (a : ℝ) : Matrix (Fin 3) (Fin 3) ℝ :=
  !![Real.cos a, -Real.sin a, 0; Real.sin a, Real.cos a, 0; 0, 0, 1]

end Verif.Pose
