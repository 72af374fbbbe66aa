import Verif.Model.Pose

/-!
# Model of the conversions between ROS messages and Eigen: include/arc_utilities/eigen_helpers_conversions.hpp,
eigen_ros_conversions.hpp, geometry_msgs_builders.hpp, eigen_transforms.hpp and eigen_std_conversions.hpp

Conversions that only copy coordinates are modelled for any type `K` of coordinates, so they hold for `double`
itself; those that compute with a rotation are over the real numbers. Messages have their coordinates and the name of
the frame; the other fields of a header stay at their default.
-/
namespace Verif.Conversions
open Verif Matrix Verif.Kinematics

/-- `geometry_msgs::Point`. Used for eigen_helpers_conversions.hpp:22-25, 27-33. -/
structure Point (K : Type) where
  x : K
  y : K
  z : K

/-- `geometry_msgs::Vector3`. Used for eigen_helpers_conversions.hpp:56-59, 61-67. -/
structure Vector3 (K : Type) where
  x : K
  y : K
  z : K

/-- `geometry_msgs::Quaternion`. Used for eigen_helpers_conversions.hpp:82-85, 87-94. -/
structure Quaternion (K : Type) where
  x : K
  y : K
  z : K
  w : K

/-- `Eigen::Quaternion`. Used for eigen_helpers_conversions.hpp:82-85, 87-94. -/
structure EQuaternion (K : Type) where
  w : K
  x : K
  y : K
  z : K

/-- `geometry_msgs::Pose`. Used for geometry_msgs_builders.hpp:52-58, 60-68. -/
structure Pose (K : Type) where
  position : Point K
  orientation : Quaternion K

/-- `geometry_msgs::Transform`. Used for geometry_msgs_builders.hpp:34-40, 42-50. -/
structure TransformMsg (K : Type) where
  translation : Vector3 K
  rotation : Quaternion K

/-- The stamped messages: the frame of the header and the message. Used for eigen_helpers_conversions.hpp:48-54,
152-158. -/
structure Stamped (α : Type) where
  frame : String
  value : α

/-- `geometry_msgs::Wrench`. Used for eigen_helpers_conversions.hpp:349-355. -/
structure Wrench (K : Type) where
  force : Vector3 K
  torque : Vector3 K

section copies
variable {K : Type}

/-- `GeometryPointToEigenVector3d` (include/arc_utilities/eigen_helpers_conversions.hpp:22-25) -/
def pointToVector3d (p : Point K) : Fin 3 → K := ![p.x, p.y, p.z]

/-- `EigenVector3dToGeometryPoint` (include/arc_utilities/eigen_helpers_conversions.hpp:27-33) -/
def vector3dToPoint (v : Fin 3 → K) : Point K := { x := v 0, y := v 1, z := v 2 }

/-- `GeometryPointToEigenVector4d` (include/arc_utilities/eigen_helpers_conversions.hpp:35-38) -/
def pointToVector4d [One K] (p : Point K) : Fin 4 → K := ![p.x, p.y, p.z, 1]

/-- `EigenVector4dToGeometryPoint` (include/arc_utilities/eigen_helpers_conversions.hpp:40-46) -/
def vector4dToPoint (v : Fin 4 → K) : Point K := { x := v 0, y := v 1, z := v 2 }

/-- `EigenVector3dToGeometryPointStamped` (include/arc_utilities/eigen_helpers_conversions.hpp:48-54) -/
def vector3dToPointStamped (v : Fin 3 → K) (frame : String) : Stamped (Point K) :=
  { frame := frame, value := vector3dToPoint v }

/-- `GeometryVector3ToEigenVector3d` (include/arc_utilities/eigen_helpers_conversions.hpp:56-59) -/
def vector3ToVector3d (v : Vector3 K) : Fin 3 → K := ![v.x, v.y, v.z]

/-- `EigenVector3dToGeometryVector3` (include/arc_utilities/eigen_helpers_conversions.hpp:61-67) -/
def vector3dToVector3 (v : Fin 3 → K) : Vector3 K := { x := v 0, y := v 1, z := v 2 }

/-- `GeometryVector3ToEigenVector4d` (include/arc_utilities/eigen_helpers_conversions.hpp:69-72) -/
def vector3ToVector4d [Zero K] (v : Vector3 K) : Fin 4 → K := ![v.x, v.y, v.z, 0]

/-- `EigenVector4dToGeometryVector3` (include/arc_utilities/eigen_helpers_conversions.hpp:74-80) -/
def vector4dToVector3 (v : Fin 4 → K) : Vector3 K := { x := v 0, y := v 1, z := v 2 }

/-- `GeometryQuaternionToEigenQuaterniond` (include/arc_utilities/eigen_helpers_conversions.hpp:82-85): the
constructor of Eigen takes the scalar part first -/
def quaternionToEigen (q : Quaternion K) : EQuaternion K := ⟨q.w, q.x, q.y, q.z⟩

/-- `EigenQuaterniondToGeometryQuaternion` (include/arc_utilities/eigen_helpers_conversions.hpp:87-94) -/
def eigenToQuaternion (q : EQuaternion K) : Quaternion K := { w := q.w, x := q.x, y := q.y, z := q.z }

/-- `GeometryWrenchToEigenPairVector` (include/arc_utilities/eigen_helpers_conversions.hpp:349-355) -/
def wrenchToPair (w : Wrench K) : (Fin 3 → K) × (Fin 3 → K) :=
  (![w.force.x, w.force.y, w.force.z], ![w.torque.x, w.torque.y, w.torque.z])

/-- The loop of the conversions of vectors: a vector of the same size, whose elements are assigned one after the
other (for example include/arc_utilities/eigen_helpers_conversions.hpp:252-256) -/
def eachLoop {α β : Type} (f : α → β) (input : List α) : Nat → List β → Out (List β)
  | idx, output =>
    if h : idx < input.length then
      if idx < output.length then eachLoop f input (idx + 1) (output.set idx (f input[idx])) else .ub
    else .ok output
termination_by idx => input.length - idx

/-- include/arc_utilities/eigen_ros_conversions.hpp:228-235 `ConvertTo` of a vector, and the same loop in
include/arc_utilities/eigen_helpers_conversions.hpp:250-346 -/
def each {α β : Type} [Inhabited β] (f : α → β) (input : List α) : Out (List β) :=
  eachLoop f input 0 (List.replicate input.length default)

/-- A matrix of three rows, as the list of its columns; `VectorGeometryPointToEigenMatrix3Xd`
(include/arc_utilities/eigen_helpers_conversions.hpp:218-224) -/
def pointsToMatrix [Inhabited K] (points : List (Point K)) : Out (List (Fin 3 → K)) := each pointToVector3d points

/-- `EigenMatrix3XdToVectorGeometryPoint` (include/arc_utilities/eigen_helpers_conversions.hpp:226-232) -/
def matrixToPoints [Inhabited (Point K)] (columns : List (Fin 3 → K)) : Out (List (Point K)) :=
  each vector3dToPoint columns

/-- `VectorEigenVector3dToEigenMatrix3Xd` (include/arc_utilities/eigen_helpers_conversions.hpp:234-240) -/
def vectorsToMatrix [Inhabited K] (vectors : List (Fin 3 → K)) : Out (List (Fin 3 → K)) := each (fun v => v) vectors

/-- `EigenMatrix3XdToVectorEigenVector3d` (include/arc_utilities/eigen_helpers_conversions.hpp:242-248) -/
def matrixToVectors [Inhabited K] (columns : List (Fin 3 → K)) : Out (List (Fin 3 → K)) := each (fun v => v) columns

/-- `MakePoint` (include/arc_utilities/geometry_msgs_builders.hpp:9-15) -/
def makePoint (x y z : K) : Point K := { x := x, y := y, z := z }

/-- `MakeVector3` (include/arc_utilities/geometry_msgs_builders.hpp:17-23) -/
def makeVector3 (x y z : K) : Vector3 K := { x := x, y := y, z := z }

/-- `MakeQuaternion` (include/arc_utilities/geometry_msgs_builders.hpp:25-32) -/
def makeQuaternion (x y z w : K) : Quaternion K := { x := x, y := y, z := z, w := w }

/-- `MakeTransform` of a vector (include/arc_utilities/geometry_msgs_builders.hpp:34-40) -/
def makeTransform (t : Vector3 K) (r : Quaternion K) : TransformMsg K := { translation := t, rotation := r }

/-- `MakeTransform` of a point (include/arc_utilities/geometry_msgs_builders.hpp:42-50) -/
def makeTransformOfPoint (t : Point K) (r : Quaternion K) : TransformMsg K :=
  { translation := { x := t.x, y := t.y, z := t.z }, rotation := r }

/-- `MakePose` of a point (include/arc_utilities/geometry_msgs_builders.hpp:52-58) -/
def makePose (p : Point K) (r : Quaternion K) : Pose K := { position := p, orientation := r }

/-- `MakePose` of a vector (include/arc_utilities/geometry_msgs_builders.hpp:60-68) -/
def makePoseOfVector (p : Vector3 K) (r : Quaternion K) : Pose K :=
  { position := { x := p.x, y := p.y, z := p.z }, orientation := r }

/-- `ConvertTo<Eigen::Vector3f>` of a point (include/arc_utilities/eigen_ros_conversions.hpp:24-27): the coordinates
are narrowed to `float` -/
def pointToVector3f {F : Type} (narrow : K → F) (p : Point K) : Fin 3 → F := ![narrow p.x, narrow p.y, narrow p.z]

/-- `ConvertTo<Eigen::Vector3f>` of a vector (include/arc_utilities/eigen_ros_conversions.hpp:29-32) -/
def vector3ToVector3f {F : Type} (narrow : K → F) (v : Vector3 K) : Fin 3 → F := ![narrow v.x, narrow v.y, narrow v.z]

/-- `ConvertTo<geometry_msgs::Point>` of floats (include/arc_utilities/eigen_ros_conversions.hpp:34-41) -/
def vector3fToPoint {F : Type} (widen : F → K) (v : Fin 3 → F) : Point K :=
  { x := widen (v 0), y := widen (v 1), z := widen (v 2) }

/-- `ConvertTo<geometry_msgs::Vector3>` of floats (include/arc_utilities/eigen_ros_conversions.hpp:43-50) -/
def vector3fToVector3 {F : Type} (widen : F → K) (v : Fin 3 → F) : Vector3 K :=
  { x := widen (v 0), y := widen (v 1), z := widen (v 2) }

/-- `ConvertTo<Eigen::Quaternionf>` (include/arc_utilities/eigen_ros_conversions.hpp:97-100) -/
def quaternionToEigenf {F : Type} (narrow : K → F) (q : Quaternion K) : EQuaternion F :=
  ⟨narrow q.w, narrow q.x, narrow q.y, narrow q.z⟩

/-- `ConvertTo<geometry_msgs::Quaternion>` of floats (include/arc_utilities/eigen_ros_conversions.hpp:102-110) -/
def eigenfToQuaternion {F : Type} (widen : F → K) (q : EQuaternion F) : Quaternion K :=
  { x := widen q.x, y := widen q.y, z := widen q.z, w := widen q.w }

/-- `ConvertTo<Eigen::Vector3d>` of a point (include/arc_utilities/eigen_ros_conversions.hpp:52-55) -/
def convertPoint (p : Point K) : Fin 3 → K := ![p.x, p.y, p.z]

/-- `ConvertTo<Eigen::Vector3d>` of a vector (include/arc_utilities/eigen_ros_conversions.hpp:57-60) -/
def convertVector3 (v : Vector3 K) : Fin 3 → K := ![v.x, v.y, v.z]

/-- `ConvertTo<geometry_msgs::Point>` (include/arc_utilities/eigen_ros_conversions.hpp:62-69) -/
def convertToPoint (v : Fin 3 → K) : Point K := { x := v 0, y := v 1, z := v 2 }

/-- `ConvertTo<geometry_msgs::Vector3>` (include/arc_utilities/eigen_ros_conversions.hpp:71-78) -/
def convertToVector3 (v : Fin 3 → K) : Vector3 K := { x := v 0, y := v 1, z := v 2 }

/-- `ConvertTo<Eigen::Quaterniond>` (include/arc_utilities/eigen_ros_conversions.hpp:118-121) -/
def convertQuaternion (q : Quaternion K) : EQuaternion K := ⟨q.w, q.x, q.y, q.z⟩

/-- `ConvertTo<geometry_msgs::Quaternion>` (include/arc_utilities/eigen_ros_conversions.hpp:123-131) -/
def convertToQuaternion (q : EQuaternion K) : Quaternion K := { x := q.x, y := q.y, z := q.z, w := q.w }

/-- `ConvertTo<geometry_msgs::Transform>` of a translation (include/arc_utilities/eigen_ros_conversions.hpp:194-205) -/
def translationToTransform [Zero K] [One K] (t : Fin 3 → K) : TransformMsg K :=
  { translation := { x := t 0, y := t 1, z := t 2 }, rotation := { x := 0, y := 0, z := 0, w := 1 } }

/-- `ConvertTo<std::vector<double>>` of a vector (include/arc_utilities/eigen_std_conversions.hpp:11-14): the range
of the constructor ends `size * sizeof(double)` elements after the first. Reading past the end of the data is
undefined. -/
def vectorXdToStd (v : List K) : Out (List K) :=
  if v.length * 8 ≤ v.length then .ok (v.take (v.length * 8)) else .ub

end copies

section transforms

/-- The quaternion of `Verif.Kinematics` with the coordinates of one of Eigen. Used for
eigen_helpers_conversions.hpp:96-101, 103-108. -/
def quat (q : EQuaternion ℝ) : Quat := ⟨q.w, q.x, q.y, q.z⟩

/-- Eigen's product of a translation and a quaternion, as an isometry or an affine transform. Used for
eigen_helpers_conversions.hpp:96-101, 103-108. -/
noncomputable def translationTimesQuat (t : Fin 3 → ℝ) (q : EQuaternion ℝ) : Transform :=
  ⟨Verif.Pose.toRotationMatrix (quat q), t⟩

/-- `GeometryPoseToEigenIsometry3d` (include/arc_utilities/eigen_helpers_conversions.hpp:96-101);
`ConvertTo<Eigen::Isometry3d>` of a pose (include/arc_utilities/eigen_ros_conversions.hpp:152-157) is the same -/
noncomputable def poseToIsometry (p : Pose ℝ) : Transform :=
  translationTimesQuat ![p.position.x, p.position.y, p.position.z]
    ⟨p.orientation.w, p.orientation.x, p.orientation.y, p.orientation.z⟩

/-- `GeometryPoseToEigenAffine3d` (include/arc_utilities/eigen_helpers_conversions.hpp:103-108);
`ConvertTo<Eigen::Affine3d>` of a pose (include/arc_utilities/eigen_ros_conversions.hpp:159-164) is the same. The
`rotation` of the result is its linear part. -/
noncomputable def poseToAffine (p : Pose ℝ) : Transform :=
  translationTimesQuat ![p.position.x, p.position.y, p.position.z]
    ⟨p.orientation.w, p.orientation.x, p.orientation.y, p.orientation.z⟩

/-- `GeometryTransformToEigenIsometry3d` (include/arc_utilities/eigen_helpers_conversions.hpp:168-173);
`ConvertTo<Eigen::Isometry3d>` of a transform (include/arc_utilities/eigen_ros_conversions.hpp:212-217) -/
noncomputable def transformToIsometry (t : TransformMsg ℝ) : Transform :=
  translationTimesQuat ![t.translation.x, t.translation.y, t.translation.z]
    ⟨t.rotation.w, t.rotation.x, t.rotation.y, t.rotation.z⟩

/-- `GeometryTransformToEigenAffine3d` (include/arc_utilities/eigen_helpers_conversions.hpp:175-180);
`ConvertTo<Eigen::Affine3d>` of a transform (include/arc_utilities/eigen_ros_conversions.hpp:219-224) -/
noncomputable def transformToAffine (t : TransformMsg ℝ) : Transform :=
  translationTimesQuat ![t.translation.x, t.translation.y, t.translation.z]
    ⟨t.rotation.w, t.rotation.x, t.rotation.y, t.rotation.z⟩

/-- The singular value decomposition of a three by three matrix, Eigen's `JacobiSVD` with full factors. Used for
eigen_helpers_conversions.hpp:110-122, 138-150. -/
structure Svd where
  u : Verif.Pose.Mat3
  s : Fin 3 → ℝ
  v : Verif.Pose.Mat3

/-- Eigen's `Transform::rotation`, through `computeRotationScaling`: the first column of `U` is divided by the
determinant of `U Vᵀ`, and the result is multiplied by `Vᵀ`. Newer versions of Eigen return the linear part of an
isometry as it is, which is the same for rotation matrices (C125_rotation_part). Used for
eigen_helpers_conversions.hpp:110-122, 138-150. -/
noncomputable def rotationPart (svd : Verif.Pose.Mat3 → Svd) (linear : Verif.Pose.Mat3) : Verif.Pose.Mat3 :=
  let d := svd linear
  let x := (d.u * d.vᵀ).det
  Matrix.of (fun i j => if j = 0 then d.u i j / x else d.u i j) * d.vᵀ

/-- Eigen's quaternion of a rotation matrix. Used for eigen_helpers_conversions.hpp:110-122, 138-150. -/
noncomputable def eigenOfMatrix (m : Verif.Pose.Mat3) : EQuaternion ℝ :=
  let q := Verif.Pose.ofMatrix m
  ⟨q.w, q.x, q.y, q.z⟩

/-- `EigenIsometry3dToGeometryPose` (include/arc_utilities/eigen_helpers_conversions.hpp:110-122) -/
noncomputable def isometryToPose (svd : Verif.Pose.Mat3 → Svd) (t : Transform) : Pose ℝ :=
  let q := eigenOfMatrix (rotationPart svd t.rotation)
  { position := { x := t.translation 0, y := t.translation 1, z := t.translation 2 },
    orientation := { w := q.w, x := q.x, y := q.y, z := q.z } }

/-- `EigenAffine3dToGeometryPose` (include/arc_utilities/eigen_helpers_conversions.hpp:138-150);
`EigenAffine3fToGeometryPose` (124-136) is the same but for the type of numbers -/
noncomputable def affineToPose (svd : Verif.Pose.Mat3 → Svd) (t : Transform) : Pose ℝ :=
  let q := eigenOfMatrix (rotationPart svd t.rotation)
  { position := { x := t.translation 0, y := t.translation 1, z := t.translation 2 },
    orientation := { w := q.w, x := q.x, y := q.y, z := q.z } }

/-- `EigenIsometry3dToGeometryPoseStamped` (include/arc_utilities/eigen_helpers_conversions.hpp:152-158) -/
noncomputable def isometryToPoseStamped (svd : Verif.Pose.Mat3 → Svd) (t : Transform) (frame : String) :
    Stamped (Pose ℝ) :=
  { frame := frame, value := isometryToPose svd t }

/-- `EigenAffine3dToGeometryPoseStamped` (include/arc_utilities/eigen_helpers_conversions.hpp:160-166) -/
noncomputable def affineToPoseStamped (svd : Verif.Pose.Mat3 → Svd) (t : Transform) (frame : String) :
    Stamped (Pose ℝ) :=
  { frame := frame, value := affineToPose svd t }

/-- `EigenIsometry3dToGeometryTransform` (include/arc_utilities/eigen_helpers_conversions.hpp:182-194);
`ConvertTo<geometry_msgs::Transform>` of an isometry (include/arc_utilities/eigen_ros_conversions.hpp:180-192) -/
noncomputable def isometryToTransform (svd : Verif.Pose.Mat3 → Svd) (t : Transform) : TransformMsg ℝ :=
  let q := eigenOfMatrix (rotationPart svd t.rotation)
  { translation := { x := t.translation 0, y := t.translation 1, z := t.translation 2 },
    rotation := { w := q.w, x := q.x, y := q.y, z := q.z } }

/-- `EigenAffine3dToGeometryTransform` (include/arc_utilities/eigen_helpers_conversions.hpp:196-208);
`ConvertTo<geometry_msgs::Transform>` of an affine transform
(include/arc_utilities/eigen_ros_conversions.hpp:166-178) -/
noncomputable def affineToTransform (svd : Verif.Pose.Mat3 → Svd) (t : Transform) : TransformMsg ℝ :=
  let q := eigenOfMatrix (rotationPart svd t.rotation)
  { translation := { x := t.translation 0, y := t.translation 1, z := t.translation 2 },
    rotation := { w := q.w, x := q.x, y := q.y, z := q.z } }

/-- `EigenIsometry3dToGeometryTransformStamped` (include/arc_utilities/eigen_helpers_conversions.hpp:210-216) -/
noncomputable def isometryToTransformStamped (svd : Verif.Pose.Mat3 → Svd) (t : Transform) (frame : String) :
    Stamped (TransformMsg ℝ) :=
  { frame := frame, value := isometryToTransform svd t }

/-- `ConvertTo<geometry_msgs::Quaternion>` of a matrix (include/arc_utilities/eigen_ros_conversions.hpp:133-136);
that of floats (112-115) is the same but for the type of numbers -/
noncomputable def matrixToQuaternion (m : Verif.Pose.Mat3) : Quaternion ℝ := convertToQuaternion (eigenOfMatrix m)

/-- Eigen's product of a transform and a point. Used for eigen_transforms.hpp:7-10, 17-25. -/
noncomputable def apply (t : Transform) (v : Fin 3 → ℝ) : Fin 3 → ℝ := t.rotation *ᵥ v + t.translation

/-- `Transform` of a pair of points (include/arc_utilities/eigen_transforms.hpp:7-10) -/
noncomputable def transformPair (t : Transform) (input : (Fin 3 → ℝ) × (Fin 3 → ℝ)) : (Fin 3 → ℝ) × (Fin 3 → ℝ) :=
  (apply t input.1, apply t input.2)

/-- `Transform` of a pair of translations (include/arc_utilities/eigen_transforms.hpp:12-15): a translation is the
transform without a rotation -/
noncomputable def transformTranslations (t : Transform) (input : (Fin 3 → ℝ) × (Fin 3 → ℝ)) : Transform × Transform :=
  (t.mul ⟨1, input.1⟩, t.mul ⟨1, input.2⟩)

/-- `Transform` of a vector of points (include/arc_utilities/eigen_transforms.hpp:17-25) -/
noncomputable def transformPoints (t : Transform) (input : List (Fin 3 → ℝ)) : Out (List (Fin 3 → ℝ)) :=
  each (apply t) input

/-- `Transform` of a vector of poses (include/arc_utilities/eigen_transforms.hpp:17-25) -/
noncomputable def transformPoses [Inhabited Transform] (t : Transform) (input : List Transform) : Out (List Transform) :=
  each t.mul input

end transforms

end Verif.Conversions
