import Verif.Base.Outcome

/-!
# Model of include/arc_utilities/simple_robot_models.hpp: who owns the points of a robot

`PointSphereGeometry` holds a `std::shared_ptr` to a vector of points. The copies that `Clone` makes are copies of the
pointer. The heap is a list of vectors with the number of pointers to each (the count of `std::shared_ptr`); a vector is
freed when the count becomes zero. `P` is the type of points (`Eigen::Vector4d`), `C` that of configurations. Freed
places are not used again, temporary copies of pointers are left out. Using a robot that was deleted or a pointer that
was given up is undefined behaviour.
-/
namespace Verif.GeometrySharing
open Verif

/-- simple_robot_models.hpp:84-87, 114-117, 144-148: the members of a robot with point geometry, as far as they matter
here: the configuration, and the names and the pointers (30) of the geometries -/
structure Robot (C : Type) where
  config : C
  geometries : List (String × Nat)

/-- The heap, the robots and the pointers that the caller holds. Used for simple_robot_models.hpp:33-37, 90-97,
120-127. -/
structure World (P C : Type) where
  cells : List (Option (List P × Nat))
  robots : List (Option (Robot C))
  pointers : List (Option Nat)

variable {P C : Type}

/-- Before anything is made. Used for simple_robot_models.hpp:31-45. -/
def World.empty : World P C := ⟨[], [], []⟩

/-- Copying a `std::shared_ptr`. Used for simple_robot_models.hpp:90-97, 120-127, 99-103, 129-133. -/
def acquire (a : Nat) (w : World P C) : Out (World P C) :=
  match w.cells[a]? with
  | some (some (points, n)) => .ok { w with cells := w.cells.set a (some (points, n + 1)) }
  | _ => .ub

/-- Destroying a `std::shared_ptr`. Used for simple_robot_models.hpp:31-45. -/
def release (a : Nat) (w : World P C) : Out (World P C) :=
  match w.cells[a]? with
  | some (some (points, n)) => .ok { w with cells := w.cells.set a (if n = 1 then none else some (points, n - 1)) }
  | _ => .ub

/-- Copying all geometries of a robot. Used for simple_robot_models.hpp:90-97, 120-127, 99-103, 129-133. -/
def acquireAll : List Nat → World P C → Out (World P C)
  | [], w => .ok w
  | a :: rest, w => do
    let w ← acquire a w
    acquireAll rest w

/-- Destroying all geometries of a robot. Used for simple_robot_models.hpp:31-45, 90-133. -/
def releaseAll : List Nat → World P C → Out (World P C)
  | [], w => .ok w
  | a :: rest, w => do
    let w ← release a w
    releaseAll rest w

/-- The robot with a number. Used for simple_robot_models.hpp:99-103, 129-133 and simple_se2_robot_model.hpp:80-83. -/
def robotAt (robots : List (Option (Robot C))) (i : Nat) : Out (Robot C) :=
  match robots[i]? with
  | some (some r) => .ok r
  | _ => .ub

/-- The pointers with given numbers. Used for simple_robot_models.hpp:90-97, 120-127. -/
def pointersAt (pointers : List (Option Nat)) : List (String × Nat) → Out (List (String × Nat))
  | [] => .ok []
  | (name, h) :: rest =>
    match pointers[h]? with
    | some (some a) => do
      let others ← pointersAt pointers rest
      .ok ((name, a) :: others)
    | _ => .ub

/-- What a caller does. Used for simple_robot_models.hpp:33-37, 90-133. -/
inductive Op (P C : Type) where
  /-- make a vector of points, with a pointer to it -/
  | newPoints (points : List P)
  /-- give up a pointer -/
  | dropPoints (h : Nat)
  /-- make a robot from a configuration and the pointers with these numbers -/
  | newRobot (config : C) (geometries : List (String × Nat))
  | clone (i : Nat)
  | delete (i : Nat)
  | setPosition (i : Nat) (config : C)
  | getPosition (i : Nat)
  /-- change the points of link `k` -/
  | write (i k : Nat) (points : List P)
  /-- read the points of link `k` -/
  | read (i k : Nat)

/-- What the caller gets. Used for simple_robot_models.hpp:33-37, 90-97, 120-127. -/
inductive Res (P C : Type) where
  | done
  /-- the number of the new object -/
  | made (n : Nat)
  | position (config : C)
  | points (points : List P)
  deriving DecidableEq

/-- simple_robot_models.hpp:33-37: making a vector, and a pointer to it -/
def newPoints (points : List P) (w : World P C) : Out (Res P C × World P C) :=
  .ok (.made w.pointers.length,
    { w with cells := w.cells ++ [some (points, 1)], pointers := w.pointers ++ [some w.cells.length] })

/-- Destroying one of the pointers of the caller. Used for simple_robot_models.hpp:31-45. -/
def dropPoints (h : Nat) (w : World P C) : Out (Res P C × World P C) :=
  match w.pointers[h]? with
  | some (some a) => do
    let w ← release a w
    .ok (.done, { w with pointers := w.pointers.set h none })
  | _ => .ub

/-- simple_robot_models.hpp:90-97, 120-127 and 151-174: the constructors copy the geometries and with them the
pointers (33-35). The checks of the names and the numbers of links are in Model/RobotGeometry.lean -/
def newRobot (config : C) (geometries : List (String × Nat)) (w : World P C) : Out (Res P C × World P C) := do
  let geometries ← pointersAt w.pointers geometries
  let w ← acquireAll (geometries.map (·.2)) w
  .ok (.made w.robots.length, { w with robots := w.robots ++ [some ⟨config, geometries⟩] })

/-- simple_robot_models.hpp:99-103, 129-133 and 176-180 `Clone`: the copy constructor copies every member -/
def clone (i : Nat) (w : World P C) : Out (Res P C × World P C) := do
  let r ← robotAt w.robots i
  let w ← acquireAll (r.geometries.map (·.2)) w
  .ok (.made w.robots.length, { w with robots := w.robots ++ [some r] })

/-- Destroying a robot. Used for simple_robot_models.hpp:90-133. -/
def delete (i : Nat) (w : World P C) : Out (Res P C × World P C) := do
  let r ← robotAt w.robots i
  let w ← releaseAll (r.geometries.map (·.2)) w
  .ok (.done, { w with robots := w.robots.set i none })

/-- simple_se2_robot_model.hpp:80-83 `SetPosition`, and those of the other robots -/
def setPosition (i : Nat) (config : C) (w : World P C) : Out (Res P C × World P C) := do
  let r ← robotAt w.robots i
  .ok (.done, { w with robots := w.robots.set i (some { r with config := config }) })

/-- simple_se2_robot_model.hpp:78 `GetPosition`, and those of the other robots -/
def getPosition (i : Nat) (w : World P C) : Out (Res P C × World P C) := do
  let r ← robotAt w.robots i
  .ok (.position r.config, w)

/-- simple_robot_models.hpp:105, 135 and 182 `GetLinkGeometries`, and 41 `Geometry`: the pointer of link `k` -/
def pointerOf (r : Robot C) (k : Nat) : Out Nat :=
  match r.geometries[k]? with
  | some (_, a) => .ok a
  | none => .ub

/-- Assigning to `*GetLinkGeometries()[k].second.Geometry()`: the pointer got from a constant robot points to a vector
that is not constant (41). Used for simple_robot_models.hpp:41, 105, 135. -/
def write (i k : Nat) (points : List P) (w : World P C) : Out (Res P C × World P C) := do
  let r ← robotAt w.robots i
  let a ← pointerOf r k
  match w.cells[a]? with
  | some (some (_, n)) => .ok (.done, { w with cells := w.cells.set a (some (points, n)) })
  | _ => .ub

/-- Reading `*GetLinkGeometries()[k].second.Geometry()`. Used for simple_robot_models.hpp:41, 105, 135. -/
def read (i k : Nat) (w : World P C) : Out (Res P C × World P C) := do
  let r ← robotAt w.robots i
  let a ← pointerOf r k
  match w.cells[a]? with
  | some (some (points, _)) => .ok (.points points, w)
  | _ => .ub

/-- One operation. Used for simple_robot_models.hpp:33-37, 90-133. -/
def step : Op P C → World P C → Out (Res P C × World P C)
  | .newPoints points, w => newPoints points w
  | .dropPoints h, w => dropPoints h w
  | .newRobot config geometries, w => newRobot config geometries w
  | .clone i, w => clone i w
  | .delete i, w => delete i w
  | .setPosition i config, w => setPosition i config w
  | .getPosition i, w => getPosition i w
  | .write i k points, w => write i k points w
  | .read i k, w => read i k w

/-- A history. Used for simple_robot_models.hpp:33-37, 90-133. -/
def run : List (Op P C) → World P C → Out (List (Res P C) × World P C)
  | [], w => .ok ([], w)
  | op :: ops, w => do
    let (r, w) ← step op w
    let (rs, w) ← run ops w
    .ok (r :: rs, w)

end Verif.GeometrySharing
