import Verif.Model.LinkedRobot

/-!
# Model of include/arc_utilities/simple_linked_robot_model.hpp: the argument of `SetPosition` is a reference

Model/LinkedRobot gives `SetPosition` a list of values. Here its argument is what it is in the program, a reference, which
is read while the position of the robot is cleared and filled again. It may refer to a configuration of the caller, or to
the position of the robot itself, as `GetPosition` returns it. Otherwise as in Model/LinkedRobot.
-/
namespace Verif.LinkedRobotAlias
open Verif Verif.LinkedRobot Verif.Kinematics Verif.Pose

/-- simple_linked_robot_model.hpp:369, 629: what the argument of `SetConfig` and `SetPosition` refers to: a configuration
of the caller with the given values, or the position of the robot (627: `GetPosition` returns a reference to it) -/
inductive Source
  | separate (values : List (Option ℝ))
  | own

/-- simple_linked_robot_model.hpp:370, 380-381: the values read through the reference while the position is `config` -/
def Source.read (s : Source) (config : List Joint) : List (Option ℝ) :=
  match s with
  | .separate values => values
  | .own => config.map fun j => some j.value

/-- simple_linked_robot_model.hpp:373-388: the loop of `SetConfig`, from `config_idx` and `config_` on: the outcome, the
joints and the position -/
noncomputable def setLoop (s : Source) : List RobotJoint → Nat → List Joint → Out Unit × List RobotJoint × List Joint
  | [], _, config => (.ok (), [], config)
  | j :: js, i, config =>
    if j.model.isFixed = true then
      let r := setLoop s js i config
      (r.1, j :: r.2.1, r.2.2)
    else
      match (s.read config)[i]? with
      | none => (.throws .runtimeError, j :: js, config)
      | some v =>
        match j.model.setValue v with
        | .ok m =>
          let r := setLoop s js (i + 1) (config ++ [m])
          (r.1, { j with model := m } :: r.2.1, r.2.2)
        | .throws e => (.throws e, j :: js, config)
        | .abort => (.abort, j :: js, config)
        | .ub => (.ub, j :: js, config)

/-- simple_linked_robot_model.hpp:369-394 `SetConfig`, and 629-632 `SetPosition` -/
noncomputable def setPosition (s : Source) : M Robot (List Joint) := fun r =>
  if (s.read r.config).length = r.numActive then
    let t := setLoop s r.joints 0 []
    let r := { r with joints := t.2.1, config := t.2.2 }
    match t.1 with
    | .ok () =>
      match updateTransforms r.base r.joints r.links with
      | .ok links => (.ok r.config, { r with links := links })
      | .throws e => (.throws e, r)
      | .abort => (.abort, r)
      | .ub => (.ub, r)
    | .throws e => (.throws e, r)
    | .abort => (.abort, r)
    | .ub => (.ub, r)
  else (.throws .invalidArgument, r)

end Verif.LinkedRobotAlias
