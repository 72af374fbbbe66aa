import Verif.Spec.Pose
import Verif.Model.Kinematics

/-!
# Specification: the links of a robot arm

The joints of the arms, as their robot description gives them: where the joint is in the frame of the link
before it, its roll, pitch and yaw there, and the axis it turns about.
-/
namespace Verif.FkFast
open Matrix Verif.Kinematics

/-- The axis of a joint -/
inductive Axis
  | x | y | z

/-- The rotation about an axis -/
noncomputable def Axis.turn : Axis → ℝ → Matrix (Fin 3) (Fin 3) ℝ
  | .x => Pose.aboutX
  | .y => Pose.aboutY
  | .z => Pose.aboutZ

/-- A joint of a robot description: its place, its roll, pitch and yaw, and its axis -/
structure Joint where
  place : Fin 3 → ℝ
  rpy : Fin 3 → ℝ
  axis : Axis

/-- The frame of the link after a joint at value `v`, in the frame of the link before it: yaw, pitch and roll turn
about the fixed axes, in the order roll, pitch, yaw. -/
noncomputable def Joint.at (j : Joint) (v : ℝ) : Transform :=
  ⟨Pose.aboutZ (j.rpy 2) * Pose.aboutY (j.rpy 1) * Pose.aboutX (j.rpy 0) * j.axis.turn v, j.place⟩

/-- The frames of all links: the base, then every link in the frame of the one before it -/
noncomputable def links (base : Transform) : List (Joint × ℝ) → List Transform
  | [] => [base]
  | (j, v) :: js => base :: links ⟨base.rotation * (j.at v).rotation,
      base.rotation *ᵥ (j.at v).translation + base.translation⟩ js

/-- The joints of the Universal Robots UR10, from its base on -/
noncomputable def ur10Joints : List Joint :=
  [⟨![0, 0, 0.1273], ![0, 0, 0], .z⟩,
   ⟨![0, 0.220941, 0], ![0, Real.pi / 2, 0], .y⟩,
   ⟨![0, -0.1719, 0.612], ![0, 0, 0], .y⟩,
   ⟨![0, 0, 0.5723], ![0, Real.pi / 2, 0], .y⟩,
   ⟨![0, 0.1149, 0], ![0, 0, 0], .z⟩,
   ⟨![0, 0, 0.1157], ![0, 0, 0], .y⟩]

/-- The joints of the KUKA iiwa 7, from its base on -/
noncomputable def iiwa7Joints : List Joint :=
  [⟨![0, 0, 0.15], ![0, 0, 0], .z⟩,
   ⟨![0, 0, 0.19], ![Real.pi / 2, 0, Real.pi], .z⟩,
   ⟨![0, 0.21, 0], ![Real.pi / 2, 0, Real.pi], .z⟩,
   ⟨![0, 0, 0.19], ![Real.pi / 2, 0, 0], .z⟩,
   ⟨![0, 0.21, 0], ![-(Real.pi / 2), Real.pi, 0], .z⟩,
   ⟨![0, 0.0607, 0.19], ![Real.pi / 2, 0, 0], .z⟩,
   ⟨![0, 0.081, 0.0607], ![-(Real.pi / 2), Real.pi, 0], .z⟩]

/-- The joints of the KUKA iiwa 14, from its base on -/
noncomputable def iiwa14Joints : List Joint :=
  [⟨![0, 0, 0.1575], ![0, 0, 0], .z⟩,
   ⟨![0, 0, 0.2025], ![Real.pi / 2, 0, Real.pi], .z⟩,
   ⟨![0, 0.2045, 0], ![Real.pi / 2, 0, Real.pi], .z⟩,
   ⟨![0, 0, 0.2155], ![Real.pi / 2, 0, 0], .z⟩,
   ⟨![0, 0.1845, 0], ![-(Real.pi / 2), Real.pi, 0], .z⟩,
   ⟨![0, 0, 0.2155], ![Real.pi / 2, 0, 0], .z⟩,
   ⟨![0, 0.081, 0], ![-(Real.pi / 2), Real.pi, 0], .z⟩]

/-- The joints of the ABB IRB 1600-1.45, from its base on -/
noncomputable def abbJoints : List Joint :=
  [⟨![0, 0, 0.1245], ![0, 0, 0], .z⟩,
   ⟨![0.15, -0.1395, 0.362], ![0, 0, 0], .y⟩,
   ⟨![0, 0.028, 0.7], ![0, 0, 0], .y⟩,
   ⟨![0.314, 0.107, 0], ![0, 0, 0], .x⟩,
   ⟨![0.286, 0, 0], ![0, 0, 0], .y⟩,
   ⟨![0, 0, 0], ![0, 0, 0], .x⟩]

/-- The four arms -/
inductive Arm
  | ur10 | iiwa7 | iiwa14 | abb

/-- The joints of an arm -/
noncomputable def Arm.joints : Arm → List Joint
  | .ur10 => ur10Joints
  | .iiwa7 => iiwa7Joints
  | .iiwa14 => iiwa14Joints
  | .abb => abbJoints

/-- The names of the joints of an arm, in the order of its joints -/
def Arm.jointNames : Arm → List String
  | .ur10 => ["shoulder_pan_joint", "shoulder_lift_joint", "elbow_joint", "wrist_1_joint", "wrist_2_joint",
      "wrist_3_joint"]
  | .abb => ["joint_1", "joint_2", "joint_3", "joint_4", "joint_5", "joint_6"]
  | _ => ["iiwa_joint_1", "iiwa_joint_2", "iiwa_joint_3", "iiwa_joint_4", "iiwa_joint_5", "iiwa_joint_6",
      "iiwa_joint_7"]

/-- The names of the links of an arm, from its base on -/
def Arm.linkNames : Arm → List String
  | .ur10 => ["base_link", "shoulder_link", "upper_arm_link", "forearm_link", "wrist_1_link", "wrist_2_link",
      "wrist_3_link"]
  | .abb => ["link_0", "link_1", "link_2", "link_3", "link_4", "link_5", "link_6", "link_7"]
  | _ => ["iiwa_link_0", "iiwa_link_1", "iiwa_link_2", "iiwa_link_3", "iiwa_link_4", "iiwa_link_5", "iiwa_link_6",
      "iiwa_link_7"]

/-- The length of a vector -/
noncomputable def length (v : Fin 3 → ℝ) : ℝ := √(v 0 ^ 2 + v 1 ^ 2 + v 2 ^ 2)

end Verif.FkFast
