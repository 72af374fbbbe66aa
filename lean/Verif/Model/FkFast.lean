import Verif.Model.Pose

/-!
# Model of the forward kinematics of four robot arms: include/arc_utilities/ur_10_fk_fast.hpp, iiwa_7_fk_fast.hpp,
iiwa_14_fk_fast.hpp and abb_irb1600_145_fk_fast.hpp

`double` is a real number, and `M_PI` is the number pi. A `std::map` is the function that gives the value stored
under a key.
-/
namespace Verif.FkFast
open Verif Matrix Verif.Kinematics

/-- Eigen's product of a translation and a quaternion, an `Eigen::Isometry3d`: in every header, for example
include/arc_utilities/ur_10_fk_fast.hpp:36 -/
noncomputable def ofTranslationQuat (t : Fin 3 → ℝ) (q : Quat) : Transform := ⟨Pose.toRotationMatrix q, t⟩

/-- The common body of the functions for one joint, for example include/arc_utilities/ur_10_fk_fast.hpp:33-41:
the transform before the joint, then the turn of the joint about its axis -/
noncomputable def linkJoint (t : Fin 3 → ℝ) (q : Quat) (axis : Fin 3 → ℝ) (val : ℝ) : Transform :=
  (ofTranslationQuat t q).mul (ofTranslationQuat ![0, 0, 0] (Pose.ofAngleAxis val axis))

/-- The assignments `map[name] = transform`, one after the other, to a map that is empty at first: for example
include/arc_utilities/ur_10_fk_fast.hpp:124-130 -/
def assignAll (entries : List (String × Transform)) : String → Option Transform :=
  entries.foldl (fun m e n => if n = e.1 then some e.2 else m n) (fun _ => none)

/-! ### ur_10_fk_fast.hpp -/

namespace Ur10

/-- `Get_link_0_joint_1_LinkJointTransform` (include/arc_utilities/ur_10_fk_fast.hpp:33-41) -/
noncomputable def joint1 (val : ℝ) : Transform :=
  linkJoint ![0, 0, 0.1273] (Pose.quaternionFromUrdfRPY 0 0 0) ![0, 0, 1] val

/-- `Get_link_1_joint_2_LinkJointTransform` (include/arc_utilities/ur_10_fk_fast.hpp:43-51) -/
noncomputable def joint2 (val : ℝ) : Transform :=
  linkJoint ![0, 0.220941, 0] (Pose.quaternionFromUrdfRPY 0 (Real.pi / 2) 0) ![0, 1, 0] val

/-- `Get_link_2_joint_3_LinkJointTransform` (include/arc_utilities/ur_10_fk_fast.hpp:53-61) -/
noncomputable def joint3 (val : ℝ) : Transform :=
  linkJoint ![0, -0.1719, 0.612] (Pose.quaternionFromUrdfRPY 0 0 0) ![0, 1, 0] val

/-- `Get_link_3_joint_4_LinkJointTransform` (include/arc_utilities/ur_10_fk_fast.hpp:63-71) -/
noncomputable def joint4 (val : ℝ) : Transform :=
  linkJoint ![0, 0, 0.5723] (Pose.quaternionFromUrdfRPY 0 (Real.pi / 2) 0) ![0, 1, 0] val

/-- `Get_link_4_joint_5_LinkJointTransform` (include/arc_utilities/ur_10_fk_fast.hpp:73-81) -/
noncomputable def joint5 (val : ℝ) : Transform :=
  linkJoint ![0, 0.1149, 0] (Pose.quaternionFromUrdfRPY 0 0 0) ![0, 0, 1] val

/-- `Get_link_5_joint_6_LinkJointTransform` (include/arc_utilities/ur_10_fk_fast.hpp:83-91) -/
noncomputable def joint6 (val : ℝ) : Transform :=
  linkJoint ![0, 0, 0.1157] (Pose.quaternionFromUrdfRPY 0 0 0) ![0, 1, 0] val

/-- `GetLinkTransforms` of a vector (include/arc_utilities/ur_10_fk_fast.hpp:93-105): the assertion on the size, then
one link after the other -/
noncomputable def getLinkTransforms (configuration : List ℝ) (base : Transform) : Out (List Transform) :=
  match configuration with
  | [c0, c1, c2, c3, c4, c5] =>
    let l0 := base
    let l1 := l0.mul (joint1 c0)
    let l2 := l1.mul (joint2 c1)
    let l3 := l2.mul (joint3 c2)
    let l4 := l3.mul (joint4 c3)
    let l5 := l4.mul (joint5 c4)
    let l6 := l5.mul (joint6 c5)
    .ok [l0, l1, l2, l3, l4, l5, l6]
  | _ => .abort

/-- The names of the active joints (include/arc_utilities/ur_10_fk_fast.hpp:18-23) -/
def jointNames : List String :=
  ["shoulder_pan_joint", "shoulder_lift_joint", "elbow_joint", "wrist_1_joint", "wrist_2_joint", "wrist_3_joint"]

/-- The names of the links (include/arc_utilities/ur_10_fk_fast.hpp:25-31) -/
def linkNames : List String :=
  ["base_link", "shoulder_link", "upper_arm_link", "forearm_link", "wrist_1_link", "wrist_2_link", "wrist_3_link"]

/-- `GetLinkTransforms` of a map (include/arc_utilities/ur_10_fk_fast.hpp:107-118) -/
noncomputable def getLinkTransformsOfMap (configuration : String → Option ℝ) (base : Transform) :
    Out (List Transform) :=
  getLinkTransforms (jointNames.map fun n => (configuration n).getD 0) base

/-- `GetLinkTransformsMap` of a vector (include/arc_utilities/ur_10_fk_fast.hpp:120-132) -/
noncomputable def getLinkTransformsMap (configuration : List ℝ) (base : Transform) :
    Out (String → Option Transform) := do
  let links ← getLinkTransforms configuration base
  .ok (assignAll (linkNames.zip links))

/-- `GetLinkTransformsMap` of a map (include/arc_utilities/ur_10_fk_fast.hpp:134-147) -/
noncomputable def getLinkTransformsMapOfMap (configuration : String → Option ℝ) (base : Transform) :
    Out (String → Option Transform) := do
  let links ← getLinkTransformsOfMap configuration base
  .ok (assignAll (linkNames.zip links))

end Ur10

/-! ### iiwa_7_fk_fast.hpp -/

namespace Iiwa7

/-- `Get_link_0_joint_1_LinkJointTransform` (include/arc_utilities/iiwa_7_fk_fast.hpp:35-43) -/
noncomputable def joint1 (val : ℝ) : Transform :=
  linkJoint ![0, 0, 0.15] (Pose.quaternionFromUrdfRPY 0 0 0) ![0, 0, 1] val

/-- `Get_link_1_joint_2_LinkJointTransform` (include/arc_utilities/iiwa_7_fk_fast.hpp:45-53) -/
noncomputable def joint2 (val : ℝ) : Transform :=
  linkJoint ![0, 0, 0.19] (Pose.quaternionFromUrdfRPY (Real.pi / 2) 0 Real.pi) ![0, 0, 1] val

/-- `Get_link_2_joint_3_LinkJointTransform` (include/arc_utilities/iiwa_7_fk_fast.hpp:55-63) -/
noncomputable def joint3 (val : ℝ) : Transform :=
  linkJoint ![0, 0.21, 0] (Pose.quaternionFromUrdfRPY (Real.pi / 2) 0 Real.pi) ![0, 0, 1] val

/-- `Get_link_3_joint_4_LinkJointTransform` (include/arc_utilities/iiwa_7_fk_fast.hpp:65-73) -/
noncomputable def joint4 (val : ℝ) : Transform :=
  linkJoint ![0, 0, 0.19] (Pose.quaternionFromUrdfRPY (Real.pi / 2) 0 0) ![0, 0, 1] val

/-- `Get_link_4_joint_5_LinkJointTransform` (include/arc_utilities/iiwa_7_fk_fast.hpp:75-83) -/
noncomputable def joint5 (val : ℝ) : Transform :=
  linkJoint ![0, 0.21, 0] (Pose.quaternionFromUrdfRPY (-(Real.pi / 2)) Real.pi 0) ![0, 0, 1] val

/-- `Get_link_5_joint_6_LinkJointTransform` (include/arc_utilities/iiwa_7_fk_fast.hpp:85-93) -/
noncomputable def joint6 (val : ℝ) : Transform :=
  linkJoint ![0, 0.0607, 0.19] (Pose.quaternionFromUrdfRPY (Real.pi / 2) 0 0) ![0, 0, 1] val

/-- `Get_link_6_joint_7_LinkJointTransform` (include/arc_utilities/iiwa_7_fk_fast.hpp:95-103) -/
noncomputable def joint7 (val : ℝ) : Transform :=
  linkJoint ![0, 0.081, 0.0607] (Pose.quaternionFromUrdfRPY (-(Real.pi / 2)) Real.pi 0) ![0, 0, 1] val

/-- `GetLinkTransforms` of a vector (include/arc_utilities/iiwa_7_fk_fast.hpp:105-118): the assertion on the size, then
one link after the other -/
noncomputable def getLinkTransforms (configuration : List ℝ) (base : Transform) : Out (List Transform) :=
  match configuration with
  | [c0, c1, c2, c3, c4, c5, c6] =>
    let l0 := base
    let l1 := l0.mul (joint1 c0)
    let l2 := l1.mul (joint2 c1)
    let l3 := l2.mul (joint3 c2)
    let l4 := l3.mul (joint4 c3)
    let l5 := l4.mul (joint5 c4)
    let l6 := l5.mul (joint6 c5)
    let l7 := l6.mul (joint7 c6)
    .ok [l0, l1, l2, l3, l4, l5, l6, l7]
  | _ => .abort

/-- The names of the active joints (include/arc_utilities/iiwa_7_fk_fast.hpp:18-24) -/
def jointNames : List String :=
  ["iiwa_joint_1", "iiwa_joint_2", "iiwa_joint_3", "iiwa_joint_4", "iiwa_joint_5", "iiwa_joint_6", "iiwa_joint_7"]

/-- The names of the links (include/arc_utilities/iiwa_7_fk_fast.hpp:26-33) -/
def linkNames : List String :=
  ["iiwa_link_0", "iiwa_link_1", "iiwa_link_2", "iiwa_link_3", "iiwa_link_4", "iiwa_link_5", "iiwa_link_6", "iiwa_link_7"]

/-- `GetLinkTransforms` of a map (include/arc_utilities/iiwa_7_fk_fast.hpp:120-132) -/
noncomputable def getLinkTransformsOfMap (configuration : String → Option ℝ) (base : Transform) :
    Out (List Transform) :=
  getLinkTransforms (jointNames.map fun n => (configuration n).getD 0) base

/-- `GetLinkTransformsMap` of a vector (include/arc_utilities/iiwa_7_fk_fast.hpp:134-147) -/
noncomputable def getLinkTransformsMap (configuration : List ℝ) (base : Transform) :
    Out (String → Option Transform) := do
  let links ← getLinkTransforms configuration base
  .ok (assignAll (linkNames.zip links))

/-- `GetLinkTransformsMap` of a map (include/arc_utilities/iiwa_7_fk_fast.hpp:149-163) -/
noncomputable def getLinkTransformsMapOfMap (configuration : String → Option ℝ) (base : Transform) :
    Out (String → Option Transform) := do
  let links ← getLinkTransformsOfMap configuration base
  .ok (assignAll (linkNames.zip links))

end Iiwa7

/-! ### iiwa_14_fk_fast.hpp -/

namespace Iiwa14

/-- `Get_link_0_joint_1_LinkJointTransform` (include/arc_utilities/iiwa_14_fk_fast.hpp:35-43) -/
noncomputable def joint1 (val : ℝ) : Transform :=
  linkJoint ![0, 0, 0.1575] (Pose.quaternionFromUrdfRPY 0 0 0) ![0, 0, 1] val

/-- `Get_link_1_joint_2_LinkJointTransform` (include/arc_utilities/iiwa_14_fk_fast.hpp:45-53) -/
noncomputable def joint2 (val : ℝ) : Transform :=
  linkJoint ![0, 0, 0.2025] (Pose.quaternionFromUrdfRPY (Real.pi / 2) 0 Real.pi) ![0, 0, 1] val

/-- `Get_link_2_joint_3_LinkJointTransform` (include/arc_utilities/iiwa_14_fk_fast.hpp:55-63) -/
noncomputable def joint3 (val : ℝ) : Transform :=
  linkJoint ![0, 0.2045, 0] (Pose.quaternionFromUrdfRPY (Real.pi / 2) 0 Real.pi) ![0, 0, 1] val

/-- `Get_link_3_joint_4_LinkJointTransform` (include/arc_utilities/iiwa_14_fk_fast.hpp:65-73) -/
noncomputable def joint4 (val : ℝ) : Transform :=
  linkJoint ![0, 0, 0.2155] (Pose.quaternionFromUrdfRPY (Real.pi / 2) 0 0) ![0, 0, 1] val

/-- `Get_link_4_joint_5_LinkJointTransform` (include/arc_utilities/iiwa_14_fk_fast.hpp:75-83) -/
noncomputable def joint5 (val : ℝ) : Transform :=
  linkJoint ![0, 0.1845, 0] (Pose.quaternionFromUrdfRPY (-(Real.pi / 2)) Real.pi 0) ![0, 0, 1] val

/-- `Get_link_5_joint_6_LinkJointTransform` (include/arc_utilities/iiwa_14_fk_fast.hpp:85-93) -/
noncomputable def joint6 (val : ℝ) : Transform :=
  linkJoint ![0, 0, 0.2155] (Pose.quaternionFromUrdfRPY (Real.pi / 2) 0 0) ![0, 0, 1] val

/-- `Get_link_6_joint_7_LinkJointTransform` (include/arc_utilities/iiwa_14_fk_fast.hpp:95-103) -/
noncomputable def joint7 (val : ℝ) : Transform :=
  linkJoint ![0, 0.081, 0] (Pose.quaternionFromUrdfRPY (-(Real.pi / 2)) Real.pi 0) ![0, 0, 1] val

/-- `GetLinkTransforms` of a vector (include/arc_utilities/iiwa_14_fk_fast.hpp:105-118): the assertion on the size, then
one link after the other -/
noncomputable def getLinkTransforms (configuration : List ℝ) (base : Transform) : Out (List Transform) :=
  match configuration with
  | [c0, c1, c2, c3, c4, c5, c6] =>
    let l0 := base
    let l1 := l0.mul (joint1 c0)
    let l2 := l1.mul (joint2 c1)
    let l3 := l2.mul (joint3 c2)
    let l4 := l3.mul (joint4 c3)
    let l5 := l4.mul (joint5 c4)
    let l6 := l5.mul (joint6 c5)
    let l7 := l6.mul (joint7 c6)
    .ok [l0, l1, l2, l3, l4, l5, l6, l7]
  | _ => .abort

/-- The names of the active joints (include/arc_utilities/iiwa_14_fk_fast.hpp:18-24) -/
def jointNames : List String :=
  ["iiwa_joint_1", "iiwa_joint_2", "iiwa_joint_3", "iiwa_joint_4", "iiwa_joint_5", "iiwa_joint_6", "iiwa_joint_7"]

/-- The names of the links (include/arc_utilities/iiwa_14_fk_fast.hpp:26-33) -/
def linkNames : List String :=
  ["iiwa_link_0", "iiwa_link_1", "iiwa_link_2", "iiwa_link_3", "iiwa_link_4", "iiwa_link_5", "iiwa_link_6", "iiwa_link_7"]

/-- `GetLinkTransforms` of a map (include/arc_utilities/iiwa_14_fk_fast.hpp:120-132) -/
noncomputable def getLinkTransformsOfMap (configuration : String → Option ℝ) (base : Transform) :
    Out (List Transform) :=
  getLinkTransforms (jointNames.map fun n => (configuration n).getD 0) base

/-- `GetLinkTransformsMap` of a vector (include/arc_utilities/iiwa_14_fk_fast.hpp:134-147) -/
noncomputable def getLinkTransformsMap (configuration : List ℝ) (base : Transform) :
    Out (String → Option Transform) := do
  let links ← getLinkTransforms configuration base
  .ok (assignAll (linkNames.zip links))

/-- `GetLinkTransformsMap` of a map (include/arc_utilities/iiwa_14_fk_fast.hpp:149-163) -/
noncomputable def getLinkTransformsMapOfMap (configuration : String → Option ℝ) (base : Transform) :
    Out (String → Option Transform) := do
  let links ← getLinkTransformsOfMap configuration base
  .ok (assignAll (linkNames.zip links))

end Iiwa14

/-! ### abb_irb1600_145_fk_fast.hpp -/

namespace Abb

/-- `Get_base_joint1_LinkJointTransform` (include/arc_utilities/abb_irb1600_145_fk_fast.hpp:34-42) -/
noncomputable def joint1 (val : ℝ) : Transform :=
  linkJoint ![0, 0, 0.1245] ⟨1, 0, 0, 0⟩ ![0, 0, 1] val

/-- `Get_link_1_joint_2_LinkJointTransform` (include/arc_utilities/abb_irb1600_145_fk_fast.hpp:44-52) -/
noncomputable def joint2 (val : ℝ) : Transform :=
  linkJoint ![0.15, -0.1395, 0.362] ⟨1, 0, 0, 0⟩ ![0, 1, 0] val

/-- `Get_link_2_joint_3_LinkJointTransform` (include/arc_utilities/abb_irb1600_145_fk_fast.hpp:54-62) -/
noncomputable def joint3 (val : ℝ) : Transform :=
  linkJoint ![0, 0.028, 0.7] ⟨1, 0, 0, 0⟩ ![0, 1, 0] val

/-- `Get_link_3_joint_4_LinkJointTransform` (include/arc_utilities/abb_irb1600_145_fk_fast.hpp:64-72) -/
noncomputable def joint4 (val : ℝ) : Transform :=
  linkJoint ![0.314, 0.107, 0] ⟨1, 0, 0, 0⟩ ![1, 0, 0] val

/-- `Get_link_4_joint_5_LinkJointTransform` (include/arc_utilities/abb_irb1600_145_fk_fast.hpp:74-82) -/
noncomputable def joint5 (val : ℝ) : Transform :=
  linkJoint ![0.286, 0, 0] ⟨1, 0, 0, 0⟩ ![0, 1, 0] val

/-- `Get_link_5_joint_6_LinkJointTransform` (include/arc_utilities/abb_irb1600_145_fk_fast.hpp:84-92) -/
noncomputable def joint6 (val : ℝ) : Transform :=
  linkJoint ![0, 0, 0] ⟨1, 0, 0, 0⟩ ![1, 0, 0] val

/-- `Get_Fixed_link_6_joint_tool_LinkJointTransform` (include/arc_utilities/abb_irb1600_145_fk_fast.hpp:94-99) -/
noncomputable def tool : Transform := ofTranslationQuat ![0.065, 0, 0] ⟨0.7071067811865476, 0, 0.7071067811865476, 0⟩

/-- `GetLinkTransforms` of a vector (include/arc_utilities/abb_irb1600_145_fk_fast.hpp:101-114): the assertion on the size, then
one link after the other -/
noncomputable def getLinkTransforms (configuration : List ℝ) (base : Transform) : Out (List Transform) :=
  match configuration with
  | [c0, c1, c2, c3, c4, c5] =>
    let l0 := base
    let l1 := l0.mul (joint1 c0)
    let l2 := l1.mul (joint2 c1)
    let l3 := l2.mul (joint3 c2)
    let l4 := l3.mul (joint4 c3)
    let l5 := l4.mul (joint5 c4)
    let l6 := l5.mul (joint6 c5)
    let l7 := l6.mul tool
    .ok [l0, l1, l2, l3, l4, l5, l6, l7]
  | _ => .abort

/-- The names of the active joints (include/arc_utilities/abb_irb1600_145_fk_fast.hpp:18-23) -/
def jointNames : List String :=
  ["joint_1", "joint_2", "joint_3", "joint_4", "joint_5", "joint_6"]

/-- The names of the links (include/arc_utilities/abb_irb1600_145_fk_fast.hpp:25-32) -/
def linkNames : List String :=
  ["link_0", "link_1", "link_2", "link_3", "link_4", "link_5", "link_6", "link_7"]

/-- `GetLinkTransforms` of a map (include/arc_utilities/abb_irb1600_145_fk_fast.hpp:116-127) -/
noncomputable def getLinkTransformsOfMap (configuration : String → Option ℝ) (base : Transform) :
    Out (List Transform) :=
  getLinkTransforms (jointNames.map fun n => (configuration n).getD 0) base

/-- `GetLinkTransformsMap` of a vector (include/arc_utilities/abb_irb1600_145_fk_fast.hpp:129-142) -/
noncomputable def getLinkTransformsMap (configuration : List ℝ) (base : Transform) :
    Out (String → Option Transform) := do
  let links ← getLinkTransforms configuration base
  .ok (assignAll (linkNames.zip links))

/-- `GetLinkTransformsMap` of a map (include/arc_utilities/abb_irb1600_145_fk_fast.hpp:144-158) -/
noncomputable def getLinkTransformsMapOfMap (configuration : String → Option ℝ) (base : Transform) :
    Out (String → Option Transform) := do
  let links ← getLinkTransformsOfMap configuration base
  .ok (assignAll (linkNames.zip links))

end Abb

end Verif.FkFast
