import Verif.Model.LinkedRobot

/-!
# Model of include/arc_utilities/simple_se2_robot_model.hpp

`double` is a real number and arithmetic is exact.
-/
namespace Verif.Se2Robot
open Verif Matrix Verif.Kinematics Verif.Pose

/-- simple_se2_robot_model.hpp:16 `SimpleSE2Configuration`: x, y and the angle -/
abbrev Config := Fin 3 → ℝ

/-- simple_se2_robot_model.hpp:36-40: the members of `SimpleSE2Robot` -/
structure Robot where
  pose : Transform
  config : Config
  positionWeight : ℝ
  rotationWeight : ℝ
  linkName : String

/-- simple_se2_robot_model.hpp:50-59 `ComputePose` -/
noncomputable def computePose (current : Config) : Transform :=
  let position : Fin 3 → ℝ := ![current 0, current 1, 0]
  let angle := current 2
  let joint : Transform := ⟨toRotationMatrix ⟨1, 0, 0, 0⟩, position⟩
  joint.mul ⟨toRotationMatrix (ofAngleAxis angle ![0, 0, 1]), 0⟩

/-- simple_se2_robot_model.hpp:42-48, 80-83 `SetConfig`, `SetPosition` -/
noncomputable def setPosition (r : Robot) (position : Config) : Robot :=
  let config : Config := ![position 0, position 1, Angles.enforceBounds Real.pi (position 2)]
  { r with config := config, pose := computePose config }

/-- simple_se2_robot_model.hpp:64-71: the constructor. The pose and the configuration before the first position is set are
never read; they are arbitrary here. -/
noncomputable def make (initial : Config) (positionWeight rotationWeight : ℝ) (linkName : String) : Robot :=
  setPosition ⟨⟨0, 0⟩, 0, |positionWeight|, |rotationWeight|, linkName⟩ initial

/-- simple_se2_robot_model.hpp:78 `GetPosition` -/
def getPosition (r : Robot) : Config := r.config

/-- simple_se2_robot_model.hpp:85 `GetLinkNames` -/
def linkNames (r : Robot) : List String := [r.linkName]

/-- simple_se2_robot_model.hpp:87-93 `GetLinkTransform` -/
def linkTransform (r : Robot) (name : String) : Out Transform :=
  if name = r.linkName then .ok r.pose else .throws .invalidArgument

/-- simple_se2_robot_model.hpp:95 `GetLinkTransforms` -/
def linkTransforms (r : Robot) : List Transform := [r.pose]

/-- simple_se2_robot_model.hpp:97-101 `GetLinkTransformsMap` -/
def linkTransformsMap (r : Robot) : List (String × Transform) := [(r.linkName, r.pose)]

/-- simple_se2_robot_model.hpp:103-111 `ComputePerDimensionConfigurationSignedDistance` -/
noncomputable def signedDistances (c1 c2 : Config) : Fin 3 → ℝ :=
  ![c2 0 - c1 0, c2 1 - c1 1, Angles.signedDistance Real.pi (c1 2) (c2 2)]

/-- simple_robot_model_interface.hpp:36-39 `ComputePerDimensionConfigurationDistance` -/
noncomputable def distances (c1 c2 : Config) : Fin 3 → ℝ := fun i => |signedDistances c1 c2 i|

/-- simple_se2_robot_model.hpp:113-119 `ComputeConfigurationDistance` -/
noncomputable def configurationDistance (r : Robot) (c1 c2 : Config) : ℝ :=
  let d := signedDistances c1 c2
  let trans := Real.sqrt (d 0 * d 0 + d 1 * d 1)
  let rots := |d 2|
  trans * r.positionWeight + rots * r.rotationWeight

/-- simple_robot_model_interface.hpp:44-46 `ComputeConfigurationDistanceTo` -/
noncomputable def configurationDistanceTo (r : Robot) (c : Config) : ℝ := configurationDistance r (getPosition r) c

/-- simple_se2_robot_model.hpp:121-129 `InterpolateBetweenConfigurations` -/
noncomputable def interpolate (start finish : Config) (ratio : ℝ) : Config :=
  ![Angles.interpolate (start 0) (finish 0) ratio, Angles.interpolate (start 1) (finish 1) ratio,
    Angles.interpolateRevolute Real.pi (start 2) (finish 2) ratio]

/-- simple_se2_robot_model.hpp:131-153 `AverageConfigurations` -/
noncomputable def average (configurations : List Config) : Out Config :=
  if configurations.length > 0 then do
    let translations : List (Fin 2 → ℝ) := configurations.map fun c => ![c 0, c 1]
    let angles := configurations.map fun c => c 2
    let translation ← Averages.averageVec translations ([] : List ℝ)
    let angle ← Averages.averageRevolute angles []
    .ok ![translation 0, translation 1, angle]
  else .ok 0

/-- simple_se2_robot_model.hpp:155-179 `ComputeLinkPointTranslationJacobian`: the columns -/
noncomputable def linkPointJacobian (r : Robot) (name : String) (p : Fin 4 → ℝ) : Out (Fin 3 → Fin 3 → ℝ) :=
  if name = r.linkName then
    let current := getPosition r
    let position : Fin 3 → ℝ := ![current 0, current 1, 0]
    let world := LinkedRobot.apply r.pose p
    let axis := r.pose.rotation *ᵥ ![0, 0, 1]
    .ok ![![1, 0, 0], ![0, 1, 0], axis ⨯₃ (world - position)]
  else .throws .invalidArgument

end Verif.Se2Robot
