import Verif.Base.Ieee
import Verif.Base.Outcome
import Verif.Model.LinkedRobot

/-!
# Model of SimpleJointModel with special doubles

include/arc_utilities/simple_linked_robot_model.hpp:20-57, 150-187, 213 again, for all doubles: limits and
values can be infinite or not a number. Wrapping an angle that is a number, `EnforceContinuousRevoluteBounds`, is a
parameter.
-/
namespace Verif.JointSpecial
open Verif Verif.LinkedRobot

/-- simple_linked_robot_model.hpp:23-25: the members -/
@[ext] structure Joint where
  lower : Dbl
  upper : Dbl
  value : Dbl
  type : JointType

open Classical in
/-- simple_linked_robot_model.hpp:154-164 `InLimits` -/
noncomputable def inLimits (j : Joint) (v : Dbl) : Bool :=
  if j.type = CONTINUOUS then true
  else if Ieee.lt v j.lower ∨ Ieee.lt j.upper v then false
  else true

open Classical in
/-- simple_linked_robot_model.hpp:166-182 `EnforceLimits` -/
noncomputable def enforceLimits (wrap : ℝ → ℝ) (j : Joint) (v : Dbl) : Out Dbl :=
  match v with
  | .nan => .throws .invalidArgument
  | .inf _ => .throws .invalidArgument
  | .num x =>
    if j.type = CONTINUOUS then .ok (.num (wrap x))
    else if Ieee.lt (.num x) j.lower then .ok j.lower
    else if Ieee.lt j.upper (.num x) then .ok j.upper
    else .ok (.num x)

/-- simple_linked_robot_model.hpp:184-187 `SetValue` -/
noncomputable def setValue (wrap : ℝ → ℝ) (j : Joint) (v : Dbl) : Out Joint := do
  let real ← enforceLimits wrap j v
  .ok { j with value := real }

open Classical in
/-- simple_linked_robot_model.hpp:39-51: the constructor; the member `value_` is not initialized before line 50, here
it is zero, and it is not read -/
noncomputable def make (wrap : ℝ → ℝ) (lower upper value : Dbl) (type : JointType) : Out Joint :=
  if type = CONTINUOUS then setValue wrap ⟨.inf true, .inf false, .num 0, type⟩ value
  else if Ieee.lt upper lower then .throws .invalidArgument
  else setValue wrap ⟨lower, upper, .num 0, type⟩ value

/-- simple_linked_robot_model.hpp:213 `CopyWithNewValue` -/
noncomputable def copyWithNewValue (wrap : ℝ → ℝ) (j : Joint) (v : Dbl) : Out Joint :=
  make wrap j.lower j.upper v j.type

/-- A call of `SetValue` by a caller that goes on after an exception; an exception leaves the joint as it is. Used for
simple_linked_robot_model.hpp:184-187. -/
noncomputable def trySet (wrap : ℝ → ℝ) (j : Joint) (v : Dbl) : Joint :=
  match setValue wrap j v with
  | .ok j' => j'
  | _ => j

end Verif.JointSpecial
