import Verif.Base.Python
import Mathlib.Analysis.InnerProductSpace.PiL2
import Mathlib.Algebra.Order.Floor.Ring

/-!
# Model of src/arc_utilities/path_utils.py

Waypoints are numpy arrays of one length, here elements of a Euclidean space `E` (of `EuclideanSpace ℝ (Fin n)`, whose
norm is `np.linalg.norm`). Arithmetic is exact.
-/
namespace Verif.PyPath
open Verif

variable {E : Type} [NormedAddCommGroup E] [InnerProductSpace ℝ E]

/-- `clamp` (src/arc_utilities/path_utils.py:17-18) -/
noncomputable def clamp (num minVal maxVal : ℝ) : ℝ := min (max minVal num) maxVal

/-- `dist` (src/arc_utilities/path_utils.py:21-22) -/
noncomputable def dist (p1 p2 : E) : ℝ := ‖p1 - p2‖

/-- `10 * sys.float_info.epsilon`, ten times `2^-52` (src/arc_utilities/path_utils.py:32) -/
noncomputable def tiny : ℝ := 10 * (1 / 2 ^ 52)

open Classical in
/-- `closest_point_to_line_segment` (src/arc_utilities/path_utils.py:25-41) -/
noncomputable def closestPointToLineSegment (line0 line1 point : E) : E × ℝ :=
  let vLine := line1 - line0
  if ‖vLine‖ < tiny then (line0, 0)
  else
    let nVLine := (1 / ‖vLine‖) • vLine
    let vL0Point := point - line0
    let alpha := clamp (inner ℝ vL0Point nVLine / ‖vLine‖) 0 1
    (line0 + alpha • vLine, alpha)

/-- The variables of the loop of `closest_point`. Used for path_utils.py:59-65, 58-65. -/
structure Closest (E : Type) where
  d : ℝ
  alpha : ℝ
  point : E
  ind : Nat

open Classical in
/-- One round of the loop (src/arc_utilities/path_utils.py:59-65) -/
noncomputable def closestRound (queryPoint : E) (s : Closest E) (ind : Nat) (a b : E) : Closest E :=
  let r := closestPointToLineSegment a b queryPoint
  let d := dist r.1 queryPoint
  if d < s.d then ⟨d, r.2, r.1, ind⟩ else s

/-- The loop (src/arc_utilities/path_utils.py:58-65): the rounds `ind`, `ind + 1`, … for the waypoints from `ind` on -/
noncomputable def closestLoop (queryPoint : E) : List E → Nat → Closest E → Closest E
  | a :: b :: rest, ind, s => closestLoop queryPoint (b :: rest) (ind + 1) (closestRound queryPoint s ind a b)
  | _, _, s => s

open Classical in
/-- `closest_point` (src/arc_utilities/path_utils.py:44-70): the point, `ind`, `alpha`. `path[0]` raises for an empty
path. -/
noncomputable def closestPoint (path : List E) (queryPoint : E) : Except PyExc (E × Nat × ℝ) :=
  match path with
  | [] => .error .indexError
  | p :: rest =>
    let s := closestLoop queryPoint (p :: rest) 0 ⟨dist p queryPoint, 0, p, 0⟩
    if s.alpha = 1 then .ok (s.point, s.ind + 1, 0)
    else .ok (s.point, s.ind, s.alpha)

/-- `densify_line` (src/arc_utilities/path_utils.py:73-81). The division by zero gives an infinity or a NaN, which
`int` rejects (an `OverflowError` or a `ValueError`); `range` of a negative number is empty. -/
noncomputable def densifyLine (startPoint endPoint : E) (maxDist : ℝ) : Except PyExc (List E) :=
  open Classical in
  if maxDist = 0 then .error .valueError
  else
    let numPoints : Int := ⌈dist startPoint endPoint / maxDist⌉
    let dir := endPoint - startPoint
    .ok ((List.range numPoints.toNat).map fun idx : Nat => startPoint + (((idx : ℝ) + 1) / (numPoints : ℝ)) • dir)

/-- The loop of `densify` (src/arc_utilities/path_utils.py:93-94); `new_path` has a last element -/
noncomputable def densifyLoop (maxDist : ℝ) : List E → List E → Except PyExc (List E)
  | [], newPath => .ok newPath
  | p :: rest, newPath =>
    match newPath.getLast? with
    | none => .error .indexError
    | some last =>
      match densifyLine last p maxDist with
      | .error e => .error e
      | .ok line => densifyLoop maxDist rest (newPath ++ line)

/-- `densify` (src/arc_utilities/path_utils.py:84-96) -/
noncomputable def densify (path : List E) (maxDist : ℝ) : Except PyExc (List E) :=
  match path with
  | [] => .ok []
  | p :: rest => densifyLoop maxDist rest [p]

open Classical in
/-- One round of the loop of `travel_along` after `ind` has moved to a waypoint `next`
(src/arc_utilities/path_utils.py:134-140): the last point if the way ends before `next` -/
noncomputable def lastPoint (q next : E) (distToGo : ℝ) : Option E :=
  if dist q next > distToGo then
    let motion := next - q
    let motion := (1 / ‖motion‖) • motion
    some (distToGo • motion + q)
  else none

open Classical in
/-- The loop of `travel_along` forwards (src/arc_utilities/path_utils.py:126-146) -/
noncomputable def travelForwards (path : List E) (ind : Nat) (q : E) (distToGo : ℝ) (newpath : List E) :
    Except PyExc (List E) :=
  if distToGo > 0 then
    if ind + 1 = path.length then .ok newpath
    else
      match _h : path[ind + 1]? with
      | none => .error .indexError
      | some next =>
        match lastPoint q next distToGo with
        | some p => .ok (newpath ++ [p])
        | none => travelForwards path (ind + 1) next (distToGo - dist q next) (newpath ++ [next])
  else .ok newpath
termination_by path.length - ind
decreasing_by
  have := (List.getElem?_eq_some_iff.mp _h).1
  omega

open Classical in
/-- The loop of `travel_along` backwards (src/arc_utilities/path_utils.py:126-146) -/
noncomputable def travelBackwards (path : List E) : Nat → E → ℝ → List E → Except PyExc (List E)
  | 0, _, _, newpath => .ok newpath
  | ind + 1, q, distToGo, newpath =>
    if distToGo > 0 then
      match path[ind]? with
      | none => .error .indexError
      | some next =>
        match lastPoint q next distToGo with
        | some p => .ok (newpath ++ [p])
        | none => travelBackwards path ind next (distToGo - dist q next) (newpath ++ [next])
    else .ok newpath

open Classical in
/-- `travel_along` (src/arc_utilities/path_utils.py:99-146). With distance zero the loop does not run. -/
noncomputable def travelAlong (path : List E) (distance : ℝ) (startingPoint : Option E) : Except PyExc (List E) :=
  match path with
  | [] => .error .indexError
  | p :: rest =>
    let start := startingPoint.getD p
    match closestPoint (p :: rest) start with
    | .error e => .error e
    | .ok (q, ind, alpha) =>
      let inserted := (p :: rest).take (ind + 1) ++ [q] ++ (p :: rest).drop (ind + 1)
      let path' := if alpha ≠ 0 then inserted else p :: rest
      let ind' := if alpha ≠ 0 then ind + 1 else ind
      if distance > 0 then travelForwards path' ind' q |distance| [q]
      else if distance < 0 then travelBackwards path' ind' q |distance| [q]
      else .ok [q]

/-- The loop of `path_length` (src/arc_utilities/path_utils.py:154-158) -/
noncomputable def lengthLoop : List E → E → ℝ → ℝ
  | [], _, d => d
  | p :: rest, q, d => lengthLoop rest p (d + dist q p)

/-- `path_length` (src/arc_utilities/path_utils.py:149-160) -/
noncomputable def pathLength : List E → ℝ
  | [] => 0
  | p :: rest => lengthLoop rest p 0

/-! ### Trajectories -/

/-- A `trajectory_msgs/JointTrajectoryPoint`; times are exact. Used for path_utils.py:168-171, 163-172. -/
structure TrajectoryPoint where
  positions : List ℝ
  velocities : List ℝ
  accelerations : List ℝ
  effort : List ℝ
  time : ℝ

/-- The loop of `reverse_trajectory` (src/arc_utilities/path_utils.py:168-171): `points` are those of the trajectory
from the back, and `reversed` their copies, the first of which is done -/
def reverseLoop : List TrajectoryPoint → List TrajectoryPoint → ℝ → List TrajectoryPoint
  | ptNext :: pt :: rest, r :: reversed, time =>
    let time := time + (ptNext.time - pt.time)
    { r with time := time } :: reverseLoop (pt :: rest) reversed time
  | _, reversed, _ => reversed

/-- `reverse_trajectory` (src/arc_utilities/path_utils.py:163-172): the points of the result -/
def reverseTrajectory (points : List TrajectoryPoint) : Except PyExc (List TrajectoryPoint) :=
  match points.reverse with
  | [] => .error .indexError
  | r :: reversed => .ok ({ r with time := 0 } :: reverseLoop (r :: reversed) reversed 0)

end Verif.PyPath
