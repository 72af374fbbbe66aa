import Verif.Model.TransformationHelper
/-!
# Model of `TF2Wrapper` of `src/arc_utilities/tf2wrapper.py`

What the buffer of tf answers in each round of waiting is an argument. Time is a number; how long a round takes is left
out, and so are the messages that are logged.
-/
namespace Verif.TfLookup
open Verif Verif.Conversions Verif.Kinematics Verif.TransformationHelper

/-- Exceptions that come out of a lookup (src/arc_utilities/tf2wrapper.py:53): the three of tf that are caught, and others -/
inductive TfExc where
  | lookup
  | connectivity
  | extrapolation
  | other (e : PyExc)
deriving DecidableEq

/-- The loop and the lookup of `get_transform_msg` (src/arc_utilities/tf2wrapper.py:59-74). `can i` is the answer of
`can_transform` in round `i`, `down i` whether ROS is shut down then, `look i` the result of the lookup after it. `none`:
not ended after so many rounds. -/
def getTransformMsg {α : Type} (can down : Nat → Bool) (look : Nat → Except TfExc α) :
    (rounds i : Nat) → Option (Except TfExc α)
  | 0, _ => none
  | rounds + 1, i =>
    if ¬ can i then
      if down i then some (.error (.other .keyboardInterrupt)) else getTransformMsg can down look rounds (i + 1)
    else some (look i)

/-- `get_transform` (src/arc_utilities/tf2wrapper.py:26-57); the inner `none` is Python's `None` -/
def getTransform (tf : Tf) (can down : Nat → Bool) (look : Nat → Except TfExc (TransformMsg ℝ)) (rounds : Nat) :
    Option (Except TfExc (Option Mat)) :=
  match getTransformMsg can down look rounds 0 with
  | none => none
  | some (.error .lookup) => some (.ok none)
  | some (.error .connectivity) => some (.ok none)
  | some (.error .extrapolation) => some (.ok none)
  | some (.error e) => some (.error e)
  | some (.ok t) => some (.ok (some (buildMatrixRos tf t.translation t.rotation)))

/-- `geometry_msgs/TransformStamped`. Used for tf2wrapper.py:13-24, 104-108, 138-142. -/
structure TransformStamped where
  stamp : ℝ
  frame : String
  child : String
  transform : TransformMsg ℝ

/-- The object (src/arc_utilities/tf2wrapper.py:13-24): the static transforms so far, and what was sent on `/tf_static` and
on `/tf` -/
structure Wrapper where
  statics : List TransformStamped
  sentStatic : List (List TransformStamped)
  sent : List TransformStamped

/-- The end of both functions that send (src/arc_utilities/tf2wrapper.py:104-108, 138-142) -/
def Wrapper.publish (w : Wrapper) (t : TransformStamped) (isStatic : Bool) : Wrapper :=
  if isStatic then
    { w with statics := w.statics ++ [t], sentStatic := w.sentStatic ++ [w.statics ++ [t]] }
  else { w with sent := w.sent ++ [t] }

/-- `send_transform` (src/arc_utilities/tf2wrapper.py:110-142), called at the time `now` -/
def Wrapper.sendTransform (w : Wrapper) (now : ℝ) (translation : Fin 3 → ℝ) (quaternion : Quat) (parent child : String)
    (isStatic : Bool) (time : Option ℝ) : Wrapper :=
  w.publish ⟨time.getD now, parent, child, transformFromComponents translation quaternion⟩ isStatic

/-- `send_transform_from_pose_msg` (src/arc_utilities/tf2wrapper.py:91-108) -/
def Wrapper.sendTransformFromPose (w : Wrapper) (now : ℝ) (pose : Conversions.Pose ℝ) (parent child : String)
    (isStatic : Bool) (time : Option ℝ) : Wrapper :=
  w.publish ⟨time.getD now, parent, child,
    ⟨⟨pose.position.x, pose.position.y, pose.position.z⟩, pose.orientation⟩⟩ isStatic

/-- `send_transform_matrix` (src/arc_utilities/tf2wrapper.py:76-89) -/
def Wrapper.sendTransformMatrix (tf : Tf) (w : Wrapper) (now : ℝ) (m : Mat) (parent child : String) (isStatic : Bool)
    (time : Option ℝ) : Wrapper :=
  let (translation, quaternion) := extractFromMatrix tf m
  w.sendTransform now translation quaternion parent child isStatic time

end Verif.TfLookup
