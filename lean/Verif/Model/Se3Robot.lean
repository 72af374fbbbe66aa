import Mathlib.Data.Matrix.ColumnRowPartitioned
import Verif.Model.PoseAverage

/-!
# Model of include/arc_utilities/simple_se3_robot_model.hpp

`double` is a real number and arithmetic is exact.
-/
namespace Verif.Se3Robot
open Verif Matrix Verif.Kinematics Verif.Pose

/-- simple_se3_robot_model.hpp:36-39: the members of `SimpleSE3Robot` -/
structure Robot where
  config : Transform
  positionWeight : ℝ
  rotationWeight : ℝ
  linkName : String

/-- simple_se3_robot_model.hpp:41, 62-65 `SetConfig`, `SetPosition` -/
def setPosition (r : Robot) (position : Transform) : Robot := { r with config := position }

/-- simple_se3_robot_model.hpp:46-53: the constructor; the transform before the first position is set is arbitrary -/
noncomputable def make (initial : Transform) (positionWeight rotationWeight : ℝ) (linkName : String) : Robot :=
  setPosition ⟨⟨0, 0⟩, |positionWeight|, |rotationWeight|, linkName⟩ initial

/-- simple_se3_robot_model.hpp:60 `GetPosition` -/
def getPosition (r : Robot) : Transform := r.config

/-- simple_se3_robot_model.hpp:67 `GetLinkNames` -/
def linkNames (r : Robot) : List String := [r.linkName]

/-- simple_se3_robot_model.hpp:69-75 `GetLinkTransform` -/
def linkTransform (r : Robot) (name : String) : Out Transform :=
  if name = r.linkName then .ok (getPosition r) else .throws .invalidArgument

/-- simple_se3_robot_model.hpp:77-79 `GetLinkTransforms` -/
def linkTransforms (r : Robot) : List Transform := [r.config]

/-- simple_se3_robot_model.hpp:81-85 `GetLinkTransformsMap` -/
def linkTransformsMap (r : Robot) : List (String × Transform) := [(r.linkName, r.config)]

/-- simple_se3_robot_model.hpp:87-100 `ComputePerDimensionConfigurationSignedDistance` -/
noncomputable def signedDistances (c1 c2 : Transform) : Fin 4 → ℝ :=
  ![c2.translation 0 - c1.translation 0, c2.translation 1 - c1.translation 1, c2.translation 2 - c1.translation 2,
    distanceQuat (ofMatrix c1.rotation) (ofMatrix c2.rotation)]

/-- simple_robot_model_interface.hpp:36-39 `ComputePerDimensionConfigurationDistance` -/
noncomputable def distances (c1 c2 : Transform) : Fin 4 → ℝ := fun i => |signedDistances c1 c2 i|

/-- simple_se3_robot_model.hpp:102-111 `ComputeConfigurationDistance` -/
noncomputable def configurationDistance (r : Robot) (c1 c2 : Transform) : ℝ :=
  let vdist := distanceVector c1.translation c2.translation
  let qdist := distanceQuat (ofMatrix c1.rotation) (ofMatrix c2.rotation)
  vdist * r.positionWeight + qdist * r.rotationWeight

/-- simple_robot_model_interface.hpp:44-46 `ComputeConfigurationDistanceTo` -/
noncomputable def configurationDistanceTo (r : Robot) (c : Transform) : ℝ := configurationDistance r (getPosition r) c

/-- simple_se3_robot_model.hpp:113-117 `InterpolateBetweenConfigurations` -/
noncomputable def interpolate (start finish : Transform) (ratio : ℝ) : Transform := interpolateIsometry start finish ratio

/-- simple_se3_robot_model.hpp:119-126 `AverageConfigurations` -/
noncomputable def average (solver : PoseAverage.Solver) (configurations : List Transform) : Out Transform :=
  if configurations.length > 0 then PoseAverage.averageIsometry solver configurations []
  else .ok ⟨1, 0⟩

/-- simple_se3_robot_model.hpp:128-144 `ComputeLinkPointTranslationJacobian`: the columns for a velocity (first three) and
an angular velocity (last three) of the body -/
noncomputable def linkPointJacobian (r : Robot) (name : String) (p : Fin 4 → ℝ) : Out (Matrix (Fin 3) (Fin 3 ⊕ Fin 3) ℝ) :=
  if name = r.linkName then
    let rot := (getPosition r).rotation
    let hatted := skew ![p 0, p 1, p 2]
    .ok (rot * fromCols 1 (-hatted))
  else .throws .invalidArgument

end Verif.Se3Robot
