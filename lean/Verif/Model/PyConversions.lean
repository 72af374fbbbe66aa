import Verif.Model.TransformationHelper
import Mathlib.Data.Rat.Floor
/-!
# Model of `src/arc_utilities/conversions.py` (but for file sizes), `normalize_point_msg.py`, `numpy_conversions.py`,
`marker_utils.py`, `dict_tools.py` and `ros_init.py`

Arithmetic is exact. `none` in place of a number is NaN, which NumPy gives when it divides by zero. Messages are values:
that a message is changed in place, or shared with the result, is said where it matters.
-/
namespace Verif.PyConversions
open Verif Verif.Conversions Verif.Kinematics

/-- What `normalize_quaternion` may be given (src/arc_utilities/conversions.py:33,40,47) -/
inductive QuatArg where
  | message (q : Quaternion ℝ)
  | list (l : List ℝ)
  | other

open Classical in
/-- `normalize_quaternion` (src/arc_utilities/conversions.py:32-48); the message is changed and returned. A list has no
attribute `x`. -/
noncomputable def normalizeQuaternion : QuatArg → Except PyExc (Option (Quaternion ℝ))
  | .message q =>
    let norm := Real.sqrt (q.x ^ 2 + q.y ^ 2 + q.z ^ 2 + q.w ^ 2)
    if norm = 0 then .ok none else .ok (some ⟨q.x / norm, q.y / norm, q.z / norm, q.w / norm⟩)
  | .list _ => .error .attributeError
  | .other => .error .notImplementedError

/-- `tf.transformations.quaternion_from_euler` with its axes `sxyz`, called at src/arc_utilities/conversions.py:65 -/
noncomputable def quaternionFromEuler (ai aj ak : ℝ) : Quat :=
  let ci := Real.cos (ai / 2)
  let si := Real.sin (ai / 2)
  let cj := Real.cos (aj / 2)
  let sj := Real.sin (aj / 2)
  let ck := Real.cos (ak / 2)
  let sk := Real.sin (ak / 2)
  let cc := ci * ck
  let cs := ci * sk
  let sc := si * ck
  let ss := si * sk
  { x := cj * sc - sj * cs, y := cj * ss + sj * cc, z := cj * cs - sj * sc, w := cj * cc + sj * ss }

/-- `geometry_msgs/PoseStamped` (src/arc_utilities/conversions.py:7): the header and the pose -/
structure PoseStamped where
  frame : String
  stamp : ℝ
  pose : Conversions.Pose ℝ

/-- What `convert_to_pose_msg` may be given (src/arc_utilities/conversions.py:52,54,58,82) -/
inductive PoseArg where
  | stamped (p : PoseStamped)
  | pose (p : Conversions.Pose ℝ)
  | list (l : List ℝ)
  | other

/-- `convert_to_pose_msg` (src/arc_utilities/conversions.py:51-85), called at the time `now` -/
noncomputable def convertToPoseMsg (now : ℝ) : PoseArg → Except PyExc PoseStamped
  | .stamped p => .ok p
  | .pose p => .ok ⟨"", now, p⟩
  | .list [x, y, z, r, p, w] =>
    let q := quaternionFromEuler r p w
    .ok ⟨"", now, ⟨x, y, z⟩, ⟨q.x, q.y, q.z, q.w⟩⟩
  | .list [x, y, z, qx, qy, qz, qw] => .ok ⟨"", now, ⟨x, y, z⟩, ⟨qx, qy, qz, qw⟩⟩
  | .list _ => .error .valueError
  | .other => .error .notImplementedError

/-- What `convert_to_position` may be given: a message, a stamped one, or anything with places
(src/arc_utilities/conversions.py:89,91,93) -/
inductive PositionArg where
  | point (p : Point ℝ)
  | stamped (p : Stamped (Point ℝ))
  | places (l : List ℝ)

/-- `convert_to_position` (src/arc_utilities/conversions.py:88-98) -/
def convertToPosition : PositionArg → Except PyExc (Point ℝ)
  | .point p => .ok p
  | .stamped p => .ok p.value
  | .places l =>
    match l[0]?, l[1]?, l[2]? with
    | some x, some y, some z => .ok ⟨x, y, z⟩
    | _, _, _ => .error .indexError

/-- `convert_to_positions` (src/arc_utilities/conversions.py:101-105); a dictionary is the list of its keys and values -/
def convertToPositions (d : List (String × PositionArg)) : Except PyExc (List (String × Point ℝ)) :=
  d.mapM fun e => do return (e.1, ← convertToPosition e.2)

open Classical in
/-- `make_unit_point` (src/arc_utilities/normalize_point_msg.py:6-13) -/
noncomputable def makeUnitPoint (x y z : ℝ) : Except PyExc (Point ℝ) :=
  let mag := Real.sqrt (x ^ 2 + y ^ 2 + z ^ 2)
  if mag > 0 then .ok ⟨x / mag, y / mag, z / mag⟩ else .error .assertionError

/-- `normalize_point` (src/arc_utilities/normalize_point_msg.py:16-17) -/
noncomputable def normalizePoint (p : Point ℝ) : Except PyExc (Point ℝ) := makeUnitPoint p.x p.y p.z

/-- `ListPointsToNpArray` (src/arc_utilities/numpy_conversions.py:3-19): an array of three rows, a column for each
point. -/
def listPointsToNpArray (points : List (Point ℝ)) (transform : Option (Matrix (Fin 4) (Fin 4) ℝ)) :
    Matrix (Fin 3) (Fin points.length) ℝ := fun i j =>
  match transform with
  | some m => (m.mulVec ![points[j].x, points[j].y, points[j].z, 1]) (Fin.castSucc i)
  | none => ![points[j].x, points[j].y, points[j].z] i

/-- A marker: its scale, and the rest (`visualization_msgs/Marker`, src/arc_utilities/marker_utils.py:5) -/
structure Marker (R : Type) where
  scale : Vector3 ℝ
  rest : R

/-- `scale_marker_array` (src/arc_utilities/marker_utils.py:4-10) -/
def scaleMarkerArray {R : Type} (msg : List (Marker R)) (s : ℝ) : List (Marker R) :=
  msg.map fun m => { m with scale := ⟨m.scale.x * s, m.scale.y * s, m.scale.z * s⟩ }

/-- Python's `round` with places: the nearest multiple of a power of ten, and the even one of two
(src/arc_utilities/dict_tools.py:5) -/
def pyRound (v : ℚ) (places : Int) : ℚ :=
  let t := v * 10 ^ places
  let f := ⌊t⌋
  let n := if t - f < 1 / 2 then f else if 1 / 2 < t - f then f + 1 else if f % 2 = 0 then f else f + 1
  n / 10 ^ places

/-- `dict_round` (src/arc_utilities/dict_tools.py:4-5) -/
def dictRound (d : List (String × ℚ)) (places : Int) : List (String × ℚ) := d.map fun e => (e.1, pyRound e.2 places)

/-- What a program that uses `with_ros` does (src/arc_utilities/ros_init.py:21,22,66,28,29) -/
inductive RosAct where
  | initCpp (name : String)
  | initPy (name : String)
  | body
  | shutdownPy
  | shutdownCpp
deriving DecidableEq

/-- A run: what was done, in order, and the outcome. Used for ros_init.py:9-22, 25-29. -/
abbrev Run (α : Type) := List RosAct × Except PyExc α

/-- Do one thing, which ends as given. Used for ros_init.py:9-22, 25-29. -/
def act {α : Type} (a : RosAct) (r : Except PyExc α) : Run α := ([a], r)

/-- Do one thing after another; an exception of the first is the end. Used for ros_init.py:9-22, 25-29. -/
def andThen {α : Type} (a : Run Unit) (b : Run α) : Run α :=
  match a.2 with
  | .ok _ => (a.1 ++ b.1, b.2)
  | .error e => (a.1, .error e)

/-- `rospy_and_cpp_init` (src/arc_utilities/ros_init.py:9-22); `cpp` and `py` are how the two calls end -/
def rosInit (name : String) (cpp py : Except PyExc Unit) : Run Unit :=
  andThen (act (.initCpp ("cpp_" ++ name)) cpp) (act (.initPy name) py)

/-- `shutdown` (src/arc_utilities/ros_init.py:25-29) -/
def shutdown (py cpp : Except PyExc Unit) : Run Unit := andThen (act .shutdownPy py) (act .shutdownCpp cpp)

/-- A `with` statement over an object whose `__exit__` returns nothing: the object is made, the body run, and `__exit__`
called however the body ended (src/arc_utilities/ros_init.py:32-40,65-66). -/
def withStatement {α : Type} (make : Run Unit) (body : Run α) (exit : Run Unit) : Run α :=
  andThen make
    (match exit.2 with
     | .ok _ => (body.1 ++ exit.1, body.2)
     | .error e => (body.1 ++ exit.1, .error e))

/-- A function wrapped by `with_ros` (src/arc_utilities/ros_init.py:43-70); `f` is how the function ends. -/
def withRos {α : Type} (name : String) (initCpp initPy : Except PyExc Unit) (f : Except PyExc α)
    (downPy downCpp : Except PyExc Unit) : Run α :=
  withStatement (rosInit name initCpp initPy) (act .body f) (shutdown downPy downCpp)

end Verif.PyConversions
