import Verif.Model.LinkedRobot
import Verif.Spec.Angles

/-!
# What is expected of the values of joints
-/
namespace Verif.LinkedRobot

/-- The value is between the limits of the joint. -/
def Within (j : Joint) (v : ℝ) : Prop := (∀ l, j.lower = some l → l ≤ v) ∧ ∀ u, j.upper = some u → v ≤ u

/-- A joint as it should be: there are values between the limits; a continuous joint has no limits and its value is an
angle in (-π, π], and the value of any other joint is between the limits. -/
structure Valid (j : Joint) : Prop where
  limits : ∃ v, Within j v
  continuous : j.type = CONTINUOUS → j.lower = none ∧ j.upper = none ∧ Angles.Principal Real.pi j.value
  other : j.type ≠ CONTINUOUS → Within j j.value

/-- The joint has the value it should have when it is set to `v`: the same angle for a continuous joint, and the closest
value between the limits for any other. -/
def SetTo (j : Joint) (v : ℝ) : Prop :=
  (j.type = CONTINUOUS → Angles.SameAngle Real.pi v j.value) ∧
  (j.type ≠ CONTINUOUS → ∀ w, Within j w → |v - j.value| ≤ |v - w|)

end Verif.LinkedRobot
