import Verif.Base.State

/-!
# Model of src/arc_utilities/trajectory_utils.cpp

Times are numbers of nanoseconds; `ros::Duration` holds seconds as a 32-bit number and its addition throws
`std::runtime_error` when the seconds do not fit. The error messages are left out. `append` takes the
arguments to be different objects; `appendSelf` is the call with the same object twice.
-/
namespace Verif.Trajectory
open Verif

/-- `trajectory_msgs::JointTrajectoryPoint`: the time and everything else. Used for trajectory_utils.cpp:34-38. -/
structure Point (P : Type) where
  time : Int
  data : P
  deriving DecidableEq

/-- `trajectory_msgs::JointTrajectory`; of the header only the frame is used. Used for trajectory_utils.cpp:28-33,
34-38. -/
structure Traj (P : Type) where
  names : List String
  frame : String
  points : List (Point P)
  deriving DecidableEq

/-- `std::equal(first1, last1, first2)`: compares as many elements as the first list has; reading past the end
of the second is undefined. Used for trajectory_utils.cpp:8-22. -/
def equalNames : List String → List String → Out Bool
  | [], _ => .ok true
  | _ :: _, [] => .ub
  | a :: as, b :: bs => if a = b then equalNames as bs else .ok false

/-- The seconds (rounded down) fit into 32 bits. Used for trajectory_utils.cpp:28-33, 34-38. -/
def Fits (t : Int) : Prop := -2 ^ 31 ≤ t / 1000000000 ∧ t / 1000000000 < 2 ^ 31

instance (t : Int) : Decidable (Fits t) := inferInstanceAs (Decidable (_ ∧ _))

/-- addition of durations. Used for trajectory_utils.cpp:34-38. -/
def addDuration (a b : Int) : Out Int := if Fits (a + b) then .ok (a + b) else .throws .runtimeError

/-- trajectory_utils.cpp:28-33: the time of the last point -/
def lastTime {P : Type} (t : Traj P) : Int :=
  match t.points.getLast? with
  | some p => p.time
  | none => 0

/-- trajectory_utils.cpp:34-38: the loop over the points of the second trajectory -/
def appendLoop {P : Type} (last : Int) : List (Point P) → M (Traj P) Unit
  | [] => pure ()
  | p :: ps => do
    let time ← M.lift (addDuration last p.time)
    M.modify fun t => { t with points := t.points ++ [{ p with time := time }] }
    appendLoop last ps

/-- trajectory_utils.cpp:8-22: the check of the joint names -/
def checkNames {P : Type} (t2 : Traj P) : M (Traj P) Unit := do
  let t1 ← M.get
  if t1.names = [] then M.modify fun t => { t with names := t2.names }
  else do
    let same ← M.lift (equalNames t1.names t2.names)
    if same then pure () else M.throw .runtimeError

/-- trajectory_utils.cpp:6-39 `append` -/
def append {P : Type} (t2 : Traj P) : M (Traj P) Unit := do
  checkNames t2
  M.modify fun t => if t.frame = "" then { t with frame := t2.frame } else t
  let t ← M.get
  appendLoop (lastTime t) t2.points

/-- trajectory_utils.cpp:34-38 when both arguments are the same object: the loop runs over the points it adds
to. The end of the range is taken before the loop, and adding a point invalidates it ([vector.modifiers]), so
the comparison after the first added point is undefined. -/
def appendSelfLoop {P : Type} (last : Int) : List (Point P) → M (Traj P) Unit
  | [] => pure ()
  | p :: _ => do
    let time ← M.lift (addDuration last p.time)
    M.modify fun t => { t with points := t.points ++ [{ p with time := time }] }
    M.lift .ub

/-- trajectory_utils.cpp:6-39 `append` with the same object as both arguments -/
def appendSelf {P : Type} : M (Traj P) Unit := do
  let t ← M.get
  checkNames t
  M.modify fun s => if s.frame = "" then { s with frame := t.frame } else s
  let t ← M.get
  appendSelfLoop (lastTime t) t.points

end Verif.Trajectory
