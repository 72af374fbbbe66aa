import Verif.Base.Matrix
import Verif.Model.LinkedRobot

/-!
# Model of include/arc_utilities/simple_robot_models.hpp: geometry and allowed self collisions
-/
namespace Verif.RobotGeometry
open Verif Verif.Kinematics

/-- `Eigen::MatrixXi` as a function of row and column; it is only used between 0 and the number of links. Used for
simple_robot_models.hpp:205-215, 202-217. -/
abbrev Map := Nat → Nat → Int

/-- simple_robot_models.hpp:205-215: the loop over the allowed pairs. An index `int64_t` is compared with `num_links` as a
`size_t`, and so is the same number. -/
def allowLoop (numLinks : Nat) : List (Nat × Nat) → Map → Out Map
  | [], m => .ok m
  | p :: rest, m =>
    let first := p.1
    let second := p.2
    if first ≥ numLinks ∨ second ≥ numLinks then .throws .invalidArgument
    else
      let m : Map := fun i j => if i = first ∧ j = second then 1 else m i j
      let m' : Map := fun i j => if i = second ∧ j = first then 1 else m i j
      allowLoop numLinks rest m'

/-- simple_robot_models.hpp:202-217 `GenerateAllowedSelfColllisionMap` -/
def generateMap (numLinks : Nat) (allowed : List (Nat × Nat)) : Out Map :=
  allowLoop numLinks allowed fun i j => if i = j then 1 else 0

/-- simple_robot_models.hpp:162-168: the names have to agree -/
def checkNames : List String → List String → Out Unit
  | link :: links, geometry :: geometries => if link ≠ geometry then .throws .invalidArgument else checkNames links geometries
  | _, _ => .ok ()

/-- simple_robot_models.hpp:147-148: the members of `LinkedRobotWithGeometry`, with those of the robot -/
structure Robot (G : Type) where
  robot : LinkedRobot.Robot
  geometries : List (String × G)
  map : Map

/-- simple_robot_models.hpp:151-174: the constructor -/
noncomputable def make {G : Type} (base : Transform) (links : List LinkedRobot.Link) (joints : List LinkedRobot.RobotJoint)
    (initial : List (Option ℝ)) (weights : List ℝ) (geometries : List (String × G)) (allowed : List (Nat × Nat)) :
    Out (Robot G) := do
  let robot ← LinkedRobot.make base links joints initial weights
  if links.length = geometries.length then do
    checkNames (links.map (·.name)) (geometries.map (·.1))
    let map ← generateMap robot.links.length allowed
    .ok ⟨robot, geometries, map⟩
  else .throws .invalidArgument

/-- simple_robot_models.hpp:182 `GetLinkGeometries` -/
def linkGeometries {G : Type} (r : Robot G) : List (String × G) := r.geometries

/-- simple_robot_models.hpp:184-200 `CheckIfSelfCollisionAllowed` -/
def selfCollisionAllowed {G : Type} (r : Robot G) (link1 link2 : Nat) : Out Bool :=
  if link1 < r.robot.links.length ∧ link2 < r.robot.links.length then
    if link1 = link2 then .ok true
    else
      let stored := r.map link1 link2
      if stored > 0 then .ok true else .ok false
  else .throws .invalidArgument

/-- simple_robot_models.hpp:107-111, 137-141 `CheckIfSelfCollisionAllowed` of robots with one link -/
def selfCollisionAllowedSingle (_link1 _link2 : Nat) : Bool := true

/-- simple_robot_models.hpp:90-97, 120-127: the geometries of robots with one link -/
def singleGeometries {G : Type} (linkName : String) (geometry : G) : List (String × G) := [(linkName, geometry)]

end Verif.RobotGeometry
