import Mathlib.Logic.Relation
import Verif.Spec.LinkedRobot
import Verif.Spec.RobotJoint

/-!
# What is expected of the poses of links
-/
namespace Verif.LinkedRobot
open Verif Matrix Verif.Kinematics

/-- Where a transform takes a point -/
def point (T : Transform) (v : Fin 3 → ℝ) : Fin 3 → ℝ := T.rotation *ᵥ v + T.translation

/-- How a joint moves a point: it turns it about the axis by the value, or moves it along the axis by the value, or not at
all if it is fixed. -/
noncomputable def motion (type : JointType) (axis : Fin 3 → ℝ) (value : ℝ) (v : Fin 3 → ℝ) : Fin 3 → ℝ :=
  if type = REVOLUTE ∨ type = CONTINUOUS then Pose.turn axis value v
  else if type = PRISMATIC then v + value • axis
  else v

/-- The poses `T` of the links agree with the pose of the base and the values of the joints: link 0 is at the base, and the
child of a joint is placed with respect to its parent by the transform and the motion of the joint. -/
def Placed (base : Transform) (joints : List RobotJoint) (T : Int → Transform) : Prop :=
  T 0 = base ∧ ∀ j ∈ joints, ∀ v,
    point (T j.child) v = point (T j.parent) (point j.transform (motion j.model.type j.axis j.model.value v))

/-- The poses of the links of a robot -/
def poses (links : List Link) (i : Int) : Transform := ((links.map (·.transform))[i.toNat]?).getD ⟨1, 0⟩

/-- Each joint comes after the joint that moves its parent link, if there is one. -/
def Ordered (joints : List RobotJoint) : Prop :=
  ∀ k (hk : k < joints.length), joints[k].parent = 0 ∨ ∃ i, ∃ hi : i < k, joints[i].child = joints[k].parent

/-- The axes of the joints have length one. -/
def UnitAxes (joints : List RobotJoint) : Prop := ∀ j ∈ joints, ∑ i, j.axis i ^ 2 = 1

/-- The joints that are not fixed -/
def activeJoints (js : List RobotJoint) : List RobotJoint := js.filter fun j => decide (j.model.type ≠ FIXED)

/-- The joint with another value -/
def RobotJoint.withValue (j : RobotJoint) (v : ℝ) : RobotJoint := { j with model := { j.model with value := v } }

/-- The joint is fixed or moves in one of the known ways. -/
def Known (j : RobotJoint) : Prop :=
  j.model.type = FIXED ∨ j.model.type = REVOLUTE ∨ j.model.type = CONTINUOUS ∨ j.model.type = PRISMATIC

/-- Link `i` is the child of joint `j`, or further away from link 0 on the same branch. -/
def Moves (joints : List RobotJoint) (j : RobotJoint) (i : Int) : Prop :=
  Relation.ReflTransGen (fun p c => (p, c) ∈ joints.map fun j => (j.parent, j.child)) j.child i

end Verif.LinkedRobot
