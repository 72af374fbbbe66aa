import Verif.Base.Python
import Verif.Model.Conversions
import Mathlib.LinearAlgebra.Matrix.NonsingularInverse

/-!
# Model of `src/arc_utilities/transformation_helper.py`

Arithmetic is exact. The functions `quaternion_matrix` and `quaternion_from_matrix` of `tf.transformations` are
parameters; what they do is stated in `Spec/TransformationHelper.lean`. `np.linalg.inv` is the inverse of a regular
matrix. A list `[x, y, z, w]` is a `Quat`, a translation a vector of three. `none` is a result with NaN, which NumPy
gives when it divides by zero.
-/
namespace Verif.TransformationHelper
open Verif Verif.Conversions Verif.Kinematics

/-- A matrix of size 4. Used for transformation_helper.py:78, 358-361. -/
abbrev Mat := Matrix (Fin 4) (Fin 4) ℝ

/-- The functions of `tf.transformations` (imported in src/arc_utilities/transformation_helper.py:78) -/
structure Tf where
  quaternionMatrix : Quat → Mat
  quaternionFromMatrix : Mat → Quat

/-! ### Assist functions and conversions -/

open Classical in
/-- `NormalizeQuaternion` (src/arc_utilities/transformation_helper.py:221-227) and `NormalizeQuaternionRos` (230-237) -/
noncomputable def normalizeQuaternion (q : Quat) : Option Quat :=
  let magnitude := Real.sqrt (q.x ^ 2 + q.y ^ 2 + q.z ^ 2 + q.w ^ 2)
  if magnitude = 0 then none
  else some { x := q.x / magnitude, y := q.y / magnitude, z := q.z / magnitude, w := q.w / magnitude }

/-- `PointToVector` (src/arc_utilities/transformation_helper.py:243-244) -/
def pointToVector (p : Point ℝ) : Fin 4 → ℝ := ![p.x, p.y, p.z, 1]

/-- `PointFromVector` (src/arc_utilities/transformation_helper.py:247-252) -/
def pointFromVector (v : Fin 4 → ℝ) : Point ℝ := ⟨v 0, v 1, v 2⟩

/-- `PoseFromTransform` (src/arc_utilities/transformation_helper.py:255-264) -/
def poseFromTransform (t : TransformMsg ℝ) : Conversions.Pose ℝ :=
  ⟨⟨t.translation.x, t.translation.y, t.translation.z⟩, ⟨t.rotation.x, t.rotation.y, t.rotation.z, t.rotation.w⟩⟩

/-- `PoseToTransform` (src/arc_utilities/transformation_helper.py:267-276) -/
def poseToTransform (p : Conversions.Pose ℝ) : TransformMsg ℝ :=
  ⟨⟨p.position.x, p.position.y, p.position.z⟩, ⟨p.orientation.x, p.orientation.y, p.orientation.z, p.orientation.w⟩⟩

/-- `PoseFromComponents` (src/arc_utilities/transformation_helper.py:279-288) -/
def poseFromComponents (t : Fin 3 → ℝ) (q : Quat) : Conversions.Pose ℝ :=
  ⟨⟨t 0, t 1, t 2⟩, { x := q.x, y := q.y, z := q.z, w := q.w }⟩

/-- `ComponentsFromPose` (src/arc_utilities/transformation_helper.py:291-294) -/
def componentsFromPose (p : Conversions.Pose ℝ) : (Fin 3 → ℝ) × Quat :=
  (![p.position.x, p.position.y, p.position.z],
    { x := p.orientation.x, y := p.orientation.y, z := p.orientation.z, w := p.orientation.w })

/-- `TransformFromComponents` (src/arc_utilities/transformation_helper.py:297-306) -/
def transformFromComponents (t : Fin 3 → ℝ) (q : Quat) : TransformMsg ℝ :=
  ⟨⟨t 0, t 1, t 2⟩, { x := q.x, y := q.y, z := q.z, w := q.w }⟩

/-- `ComponentsFromTransform` (src/arc_utilities/transformation_helper.py:309-313) -/
def componentsFromTransform (t : TransformMsg ℝ) : (Fin 3 → ℝ) × Quat :=
  (![t.translation.x, t.translation.y, t.translation.z],
    { x := t.rotation.x, y := t.rotation.y, z := t.rotation.z, w := t.rotation.w })

/-- `ExtractFromMatrix` (src/arc_utilities/transformation_helper.py:358-361) -/
def extractFromMatrix (tf : Tf) (m : Mat) : (Fin 3 → ℝ) × Quat :=
  let quaternion := tf.quaternionFromMatrix m
  let translation := ![m 0 3, m 1 3, m 2 3]
  (translation, quaternion)

/-- `BuildMatrix` (src/arc_utilities/transformation_helper.py:364-369) -/
def buildMatrix (tf : Tf) (t : Fin 3 → ℝ) (q : Quat) : Mat :=
  (((tf.quaternionMatrix q).updateRow 0 (Function.update (tf.quaternionMatrix q 0) 3 (t 0))).updateRow 1
    (Function.update (tf.quaternionMatrix q 1) 3 (t 1))).updateRow 2 (Function.update (tf.quaternionMatrix q 2) 3 (t 2))

/-- `BuildMatrixRos` (src/arc_utilities/transformation_helper.py:372-375) -/
def buildMatrixRos (tf : Tf) (t : Vector3 ℝ) (q : Quaternion ℝ) : Mat :=
  let quat : Quat := { x := q.x, y := q.y, z := q.z, w := q.w }
  let trans := ![t.x, t.y, t.z]
  buildMatrix tf trans quat

/-- `TransformToMatrix` (src/arc_utilities/transformation_helper.py:316-319) -/
def transformToMatrix (tf : Tf) (t : TransformMsg ℝ) : Mat :=
  let c := componentsFromTransform t
  buildMatrix tf c.1 c.2

/-- `TransformFromMatrix` (src/arc_utilities/transformation_helper.py:322-325) -/
def transformFromMatrix (tf : Tf) (m : Mat) : TransformMsg ℝ :=
  let c := extractFromMatrix tf m
  transformFromComponents c.1 c.2

/-- `PoseToMatrix` (src/arc_utilities/transformation_helper.py:328-332) -/
def poseToMatrix (tf : Tf) (p : Conversions.Pose ℝ) : Mat :=
  let c := componentsFromTransform (poseToTransform p)
  buildMatrix tf c.1 c.2

/-- `PoseFromMatrix` (src/arc_utilities/transformation_helper.py:335-339) -/
def poseFromMatrix (tf : Tf) (m : Mat) : Conversions.Pose ℝ :=
  let c := extractFromMatrix tf m
  poseFromTransform (transformFromComponents c.1 c.2)

/-- `ExtractRawFromMatrix` (src/arc_utilities/transformation_helper.py:342-347) -/
def extractRawFromMatrix (tm : Mat) : Matrix (Fin 3) (Fin 3) ℝ × (Fin 3 → ℝ) :=
  (!![tm 0 0, tm 0 1, tm 0 2; tm 1 0, tm 1 1, tm 1 2; tm 2 0, tm 2 1, tm 2 2], ![tm 0 3, tm 1 3, tm 2 3])

/-- `BuildRawMatrix` (src/arc_utilities/transformation_helper.py:350-355) and `BuildMatrixFromTransRot` (381-387) -/
def buildRawMatrix (rm : Matrix (Fin 3) (Fin 3) ℝ) (tv : Fin 3 → ℝ) : Mat :=
  !![rm 0 0, rm 0 1, rm 0 2, tv 0; rm 1 0, rm 1 1, rm 1 2, tv 1; rm 2 0, rm 2 1, rm 2 2, tv 2; 0, 0, 0, 1]

/-! ### High-level functions -/

/-- `AddPoints` (src/arc_utilities/transformation_helper.py:83-88) -/
def addPoints (p1 p2 : Point ℝ) : Point ℝ := ⟨p2.x + p1.x, p2.y + p1.y, p2.z + p1.z⟩

/-- `SubtractPoints` (src/arc_utilities/transformation_helper.py:91-96) -/
def subtractPoints (p1 p2 : Point ℝ) : Point ℝ := ⟨p2.x - p1.x, p2.y - p1.y, p2.z - p1.z⟩

/-- `TranslationNorm` (src/arc_utilities/transformation_helper.py:99-100) -/
noncomputable def translationNorm (t : Vector3 ℝ) : ℝ := Real.sqrt (t.x ^ 2 + t.y ^ 2 + t.z ^ 2)

/-- `ComposeTransformWithPoint` (src/arc_utilities/transformation_helper.py:111-116) -/
def composeTransformWithPoint (tf : Tf) (t : TransformMsg ℝ) (p : Point ℝ) : Point ℝ :=
  pointFromVector ((transformToMatrix tf t).mulVec (pointToVector p))

/-- `ComposePoseWithPoint` (src/arc_utilities/transformation_helper.py:103-108) -/
def composePoseWithPoint (tf : Tf) (pose : Conversions.Pose ℝ) (p : Point ℝ) : Point ℝ :=
  pointFromVector ((transformToMatrix tf (poseToTransform pose)).mulVec (pointToVector p))

/-- `ComposeTransforms` (src/arc_utilities/transformation_helper.py:119-124) -/
def composeTransforms (tf : Tf) (t1 t2 : TransformMsg ℝ) : TransformMsg ℝ :=
  transformFromMatrix tf (transformToMatrix tf t1 * transformToMatrix tf t2)

/-- `ComposePoses` (src/arc_utilities/transformation_helper.py:127-131) -/
def composePoses (tf : Tf) (p1 p2 : Conversions.Pose ℝ) : Conversions.Pose ℝ :=
  poseFromTransform (composeTransforms tf (poseToTransform p1) (poseToTransform p2))

/-- `InvertTransform` (src/arc_utilities/transformation_helper.py:134-138) -/
noncomputable def invertTransform (tf : Tf) (t : TransformMsg ℝ) : TransformMsg ℝ :=
  transformFromMatrix tf (transformToMatrix tf t)⁻¹

/-- `InvertPose` (src/arc_utilities/transformation_helper.py:141-145) -/
noncomputable def invertPose (tf : Tf) (p : Conversions.Pose ℝ) : Conversions.Pose ℝ :=
  poseFromTransform (invertTransform tf (poseToTransform p))

/-- `ComposeMatrices` (src/arc_utilities/transformation_helper.py:148-149) -/
def composeMatrices (m1 m2 : Mat) : Mat := m1 * m2

/-- `InvertMatrix` (src/arc_utilities/transformation_helper.py:152-153): the module `numpy` has no attribute `np` -/
def invertMatrix (_m : Mat) : Except PyExc Mat := .error .attributeError

/-- `ComposeQuaternions` (src/arc_utilities/transformation_helper.py:156-163) -/
noncomputable def composeQuaternions (q1 q2 : Quat) : Option Quat := do
  let a ← normalizeQuaternion q1
  let b ← normalizeQuaternion q2
  let x := a.w * b.x + b.w * a.x + a.y * b.z - b.y * a.z
  let y := a.w * b.y + b.w * a.y + b.x * a.z - a.x * b.z
  let z := a.w * b.z + b.w * a.z + a.x * b.y - b.x * a.y
  let w := a.w * b.w - a.x * b.x - a.y * b.y - a.z * b.z
  normalizeQuaternion { x := x, y := y, z := z, w := w }

open Classical in
/-- `AxisFromQuaternion` (src/arc_utilities/transformation_helper.py:166-176): the angle and the axis -/
noncomputable def axisFromQuaternion (q : Quat) : Option (ℝ × (Fin 3 → ℝ)) := do
  let n ← normalizeQuaternion q
  let a := Real.arccos n.w * 2
  let sina2 := Real.sin (a * 0.5)
  if |sina2| > 0.000000001 then some (a, ![n.x / sina2, n.y / sina2, n.z / sina2])
  else some (0, ![0, 0, 1])

open Classical in
/-- `NormalizeVector3` (src/arc_utilities/transformation_helper.py:179-183) -/
noncomputable def normalizeVector3 : List ℝ → Except PyExc (Fin 3 → ℝ)
  | [x, y, z] =>
    let mag := Real.sqrt (x ^ 2 + y ^ 2 + z ^ 2)
    if ¬ mag > 0 then .error .assertionError else .ok ![x / mag, y / mag, z / mag]
  | _ => .error .assertionError

/-- `QuaternionFromAxisAngle` (src/arc_utilities/transformation_helper.py:186-196) -/
noncomputable def quaternionFromAxisAngle (axis : List ℝ) (angle : ℝ) : Option Quat :=
  match normalizeVector3 axis with
  | .ok n =>
    let w := Real.cos (angle * 0.5)
    let x := Real.sin (angle * 0.5) * n 0
    let y := Real.sin (angle * 0.5) * n 1
    let z := Real.sin (angle * 0.5) * n 2
    normalizeQuaternion { x := x, y := y, z := z, w := w }
  | .error _ => some { x := 0, y := 0, z := 0, w := 1 }

open Classical in
/-- The angle of a product of quaternions (src/arc_utilities/transformation_helper.py:202-206) -/
noncomputable def angleOf (dotProduct : ℝ) : ℝ :=
  if dotProduct < 0.9999 then Real.arccos (2 * dotProduct ^ 2 - 1) else 0

/-- `AngleBetweenQuaternions` (src/arc_utilities/transformation_helper.py:199-206) -/
noncomputable def angleBetweenQuaternions (q1 q2 : Quat) : Option ℝ := do
  let a ← normalizeQuaternion q1
  let b ← normalizeQuaternion q2
  return angleOf |a.x * b.x + a.y * b.y + a.z * b.z + a.w * b.w|

/-- `AngleBetweenQuaternionsRos` (src/arc_utilities/transformation_helper.py:209-216): the last product takes `z` of the
first quaternion -/
noncomputable def angleBetweenQuaternionsRos (q1 q2 : Quat) : Option ℝ := do
  let a ← normalizeQuaternion q1
  let b ← normalizeQuaternion q2
  return angleOf |a.x * b.x + a.y * b.y + a.z * b.z + a.z * b.w|

/-! ### Denavit–Hartenberg parameters -/

/-- `BuildMatrixFromDH` (src/arc_utilities/transformation_helper.py:390-396); `a` is not used -/
noncomputable def buildMatrixFromDH (d _a theta alpha : ℝ) : Mat :=
  open Real in
  !![cos theta, -sin theta * cos alpha, sin theta * sin alpha, alpha * cos theta;
     sin theta, cos theta * cos alpha, -cos theta * sin alpha, alpha * sin theta;
     0, sin alpha, cos alpha, d;
     0, 0, 0, 1]

/-- `TransformFromDH` (src/arc_utilities/transformation_helper.py:405-407) -/
noncomputable def transformFromDH (tf : Tf) (d a theta alpha : ℝ) : TransformMsg ℝ :=
  transformFromMatrix tf (buildMatrixFromDH d a theta alpha)

/-! ### Spherical coordinates -/

/-- `spherical_to_vector3` (src/arc_utilities/transformation_helper.py:415-425) -/
noncomputable def sphericalToVector3 (r phi theta : ℝ) : ℝ × ℝ × ℝ :=
  (r * Real.sin theta * Real.cos phi, r * Real.sin theta * Real.sin phi, r * Real.cos theta)

open Classical in
/-- `vector3_to_spherical` (src/arc_utilities/transformation_helper.py:428-446) -/
noncomputable def vector3ToSpherical (x y z : ℝ) : ℝ × ℝ × ℝ :=
  let r := Real.sqrt (x ^ 2 + y ^ 2 + z ^ 2)
  let phi := Pose.atan2 y x
  let theta := if r > 1e-6 then Real.arccos (z / r) else 0
  (r, phi, theta)

end Verif.TransformationHelper
