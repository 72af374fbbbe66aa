import Verif.Model.JointSpecial

/-!
# Specification of joints with special doubles
-/
namespace Verif.JointSpecial
open Verif Verif.LinkedRobot

/-- The limits admit a value: none of them is a number, or an infinity, on the wrong side of it. A limit that is not a
number does not exclude anything. -/
def Admits (j : Joint) (v : Dbl) : Prop :=
  j.type = CONTINUOUS ∨ ¬ Ieee.lt v j.lower ∧ ¬ Ieee.lt j.upper v

/-- Minus infinity as an upper limit or plus infinity as a lower one: no number is admitted. -/
def Unreachable (j : Joint) : Prop := j.lower = .inf false ∨ j.upper = .inf true

end Verif.JointSpecial
