import Verif.Model.LinkedRobot

/-!
# Model of the names of joint types

include/arc_utilities/simple_linked_robot_model.hpp:136-148.
-/
namespace Verif.LinkedRobot.Joint
open Verif

/-- simple_linked_robot_model.hpp:136-148 `GetTypeString` -/
def getTypeString (j : Joint) : Out String :=
  if j.isContinuous = true then .ok "Continuous"
  else if j.isRevolute = true then .ok "Revolute"
  else if j.isPrismatic = true then .ok "Prismatic"
  else if j.isFixed = true then .ok "Fixed"
  else .throws .runtimeError

end Verif.LinkedRobot.Joint
