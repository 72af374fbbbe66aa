import Verif.Spec.Pose

/-!
# Specification: points of a body
-/
namespace Verif.RobotBody
open Matrix

/-- Where the point `q` of a body is that stands at `(x, y)` in the plane and is turned by `a` about the vertical axis -/
noncomputable def planar (x y a : ℝ) (q : Fin 3 → ℝ) : Fin 3 → ℝ := Pose.aboutZ a *ᵥ q + ![x, y, 0]

/-- The distance of two places in the plane -/
noncomputable def planarDistance (x y x' y' : ℝ) : ℝ := √ ((x' - x) ^ 2 + (y' - y) ^ 2)

/-- Where the point `q` of a body is at time `t` that starts with rotation `R` at place `p`, and, seen from itself, moves with
velocity `v` while it turns about the axis `u` with angular velocity `s` -/
noncomputable def moving (R : Matrix (Fin 3) (Fin 3) ℝ) (p u : Fin 3 → ℝ) (s : ℝ) (v q : Fin 3 → ℝ) (t : ℝ) : Fin 3 → ℝ :=
  R *ᵥ (Pose.turn u (s * t) q + t • v) + p

end Verif.RobotBody
