import Mathlib.Analysis.SpecialFunctions.Trigonometric.Inverse
import Mathlib.Analysis.SpecialFunctions.Complex.Arg
import Mathlib.LinearAlgebra.Matrix.Trace
import Verif.Model.Kinematics
import Verif.Model.Angles

/-!
# Model of the distances, interpolation and Euler angles of include/arc_utilities/eigen_helpers.hpp (270-363, 522-580)

`double` is a real number, so arithmetic is exact. What the code calls of Eigen 3.3 on quaternions is modelled
too: `slerp`, `toRotationMatrix`, the conversion of a rotation matrix to a quaternion and `eulerAngles(0, 1, 2)`.
-/
namespace Verif.Pose
open Verif Matrix Verif.Kinematics

/-- A matrix of size 3. Used for eigen_helpers.hpp:347-351, 540-543. -/
abbrev Mat3 := Matrix (Fin 3) (Fin 3) ℝ

/-! ### Parts of Eigen -/

/-- Eigen's `dot` of quaternions. Used for eigen_helpers.hpp:284-289. -/
noncomputable def dot (a b : Quat) : ℝ := a.w * b.w + a.x * b.x + a.y * b.y + a.z * b.z

/-- Eigen's `toRotationMatrix`. Used for eigen_helpers.hpp:291-303, 546-548. -/
noncomputable def toRotationMatrix (q : Quat) : Mat3 :=
  !![1 - (2 * q.y * q.y + 2 * q.z * q.z), 2 * q.y * q.x - 2 * q.z * q.w, 2 * q.z * q.x + 2 * q.y * q.w;
     2 * q.y * q.x + 2 * q.z * q.w, 1 - (2 * q.x * q.x + 2 * q.z * q.z), 2 * q.z * q.y - 2 * q.x * q.w;
     2 * q.z * q.x - 2 * q.y * q.w, 2 * q.z * q.y + 2 * q.x * q.w, 1 - (2 * q.x * q.x + 2 * q.y * q.y)]

/-- Eigen's quaternion of a rotation matrix. Used for eigen_helpers.hpp:291-303, 353-363. -/
noncomputable def ofMatrix (m : Mat3) : Quat :=
  if 0 < m.trace then
    let t := Real.sqrt (m.trace + 1)
    let s := 1 / 2 / t
    ⟨1 / 2 * t, (m 2 1 - m 1 2) * s, (m 0 2 - m 2 0) * s, (m 1 0 - m 0 1) * s⟩
  else
    let i := if m 1 1 > m 0 0 then 1 else 0
    if m 2 2 > m i i then
      let t := Real.sqrt (m 2 2 - m 0 0 - m 1 1 + 1)
      let s := 1 / 2 / t
      ⟨(m 1 0 - m 0 1) * s, (m 0 2 + m 2 0) * s, (m 1 2 + m 2 1) * s, 1 / 2 * t⟩
    else if m 1 1 > m 0 0 then
      let t := Real.sqrt (m 1 1 - m 2 2 - m 0 0 + 1)
      let s := 1 / 2 / t
      ⟨(m 0 2 - m 2 0) * s, (m 0 1 + m 1 0) * s, 1 / 2 * t, (m 2 1 + m 1 2) * s⟩
    else
      let t := Real.sqrt (m 0 0 - m 1 1 - m 2 2 + 1)
      let s := 1 / 2 / t
      ⟨(m 2 1 - m 1 2) * s, 1 / 2 * t, (m 1 0 + m 0 1) * s, (m 2 0 + m 0 2) * s⟩

/-- `std::numeric_limits<double>::epsilon()`. Used for eigen_helpers.hpp:335-342. -/
noncomputable def epsilon : ℝ := 1 / 2 ^ 52

/-- The two factors of Eigen's `slerp`. Used for eigen_helpers.hpp:284-289. -/
noncomputable def slerpScales (absD t : ℝ) : ℝ × ℝ :=
  if absD ≥ 1 - epsilon then (1 - t, t)
  else
    let theta := Real.arccos absD
    let sinTheta := Real.sin theta
    (Real.sin ((1 - t) * theta) / sinTheta, Real.sin (t * theta) / sinTheta)

/-- Eigen's `slerp`. Used for eigen_helpers.hpp:284-289. -/
noncomputable def slerp (q1 : Quat) (t : ℝ) (q2 : Quat) : Quat :=
  let d := dot q1 q2
  let s := slerpScales |d| t
  let s1 := if d < 0 then -s.2 else s.2
  ⟨s.1 * q1.w + s1 * q2.w, s.1 * q1.x + s1 * q2.x, s.1 * q1.y + s1 * q2.y, s.1 * q1.z + s1 * q2.z⟩

/-- The quaternion of an `Eigen::AngleAxisd`. Used for eigen_helpers.hpp:522-528, 531-537. -/
noncomputable def ofAngleAxis (a : ℝ) (u : Fin 3 → ℝ) : Quat :=
  ⟨Real.cos (1 / 2 * a), Real.sin (1 / 2 * a) * u 0, Real.sin (1 / 2 * a) * u 1, Real.sin (1 / 2 * a) * u 2⟩

/-- `atan2`. Used for eigen_helpers.hpp:540-543. -/
noncomputable def atan2 (y x : ℝ) : ℝ := Complex.arg ⟨x, y⟩

/-- Eigen's `eulerAngles(0, 1, 2)` before the last change of sign: the first angle, and whether it was moved by pi.
Used for eigen_helpers.hpp:540-543. -/
noncomputable def eulerFirst (m : Mat3) : ℝ × Bool :=
  let a := atan2 (m 1 2) (m 2 2)
  if a > 0 then (a - Real.pi, true) else (a, false)

/-- Eigen's `eulerAngles(0, 1, 2)`. Used for eigen_helpers.hpp:540-543. -/
noncomputable def eulerAngles (m : Mat3) : Fin 3 → ℝ :=
  let a := eulerFirst m
  let c2 := Real.sqrt (m 0 0 * m 0 0 + m 0 1 * m 0 1)
  let b := if a.2 = true then atan2 (-m 0 2) (-c2) else atan2 (-m 0 2) c2
  let s1 := Real.sin a.1
  let c1 := Real.cos a.1
  let c := atan2 (s1 * m 2 0 - c1 * m 1 0) (c1 * m 1 1 - s1 * m 2 1)
  ![-a.1, -b, -c]

/-! ### Interpolation -/

/-- eigen_helpers.hpp:270-282 `Interpolate` for vectors -/
noncomputable def interpolateVector (v1 v2 : List ℝ) (ratio : ℝ) : Out (List ℝ) :=
  if v1.length ≠ v2.length then .throws .invalidArgument
  else
    let r := (Angles.safetyCheckUnitInterval ratio).1
    .ok (List.zipWith (· + ·) (v1.map (· * (1 - r))) (v2.map (· * r)))

/-- eigen_helpers.hpp:284-289 `Interpolate` for quaternions -/
noncomputable def interpolateQuat (q1 q2 : Quat) (ratio : ℝ) : Quat :=
  slerp q1 (Angles.safetyCheckUnitInterval ratio).1 q2

/-- eigen_helpers.hpp:291-303 `Interpolate` for isometries. The sizes of the translations agree by typing. -/
noncomputable def interpolateIsometry (t1 t2 : Transform) (ratio : ℝ) : Transform :=
  let r := (Angles.safetyCheckUnitInterval ratio).1
  let q := interpolateQuat (ofMatrix t1.rotation) (ofMatrix t2.rotation) r
  let r' := (Angles.safetyCheckUnitInterval r).1
  ⟨toRotationMatrix q, (1 - r') • t1.translation + r' • t2.translation⟩

/-! ### Distances -/

/-- eigen_helpers.hpp:335-342 `Distance` for quaternions -/
noncomputable def distanceQuat (q1 q2 : Quat) : ℝ :=
  let dq := |q1.w * q2.w + q1.x * q2.x + q1.y * q2.y + q1.z * q2.z|
  if dq < 1 - epsilon then Real.arccos (2 * (dq * dq) - 1) else 0

/-- eigen_helpers.hpp:347-351 `Distance` for rotation matrices -/
noncomputable def distanceRotation (r1 r2 : Mat3) : ℝ :=
  Real.arccos (((r1 * r2ᵀ).trace - 1) / 2)

/-- eigen_helpers.hpp:317-324 `Distance` for vectors of three numbers -/
noncomputable def distanceVector (v1 v2 : Fin 3 → ℝ) : ℝ :=
  let xd := v2 0 - v1 0
  let yd := v2 1 - v1 1
  let zd := v2 2 - v1 2
  Real.sqrt (xd * xd + yd * yd + zd * zd)

/-- eigen_helpers.hpp:353-363 `Distance` for isometries -/
noncomputable def distanceIsometry (t1 t2 : Transform) (alpha : ℝ) : Out ℝ := do
  Out.assert (alpha ≥ 0)
  Out.assert (alpha ≤ 1)
  let vdist := distanceVector t1.translation t2.translation * (1 - alpha)
  let qdist := distanceQuat (ofMatrix t1.rotation) (ofMatrix t2.rotation) * alpha
  .ok (vdist + qdist)

/-! ### Roll, pitch and yaw -/

/-- eigen_helpers.hpp:522-528 `QuaternionFromRPY` -/
noncomputable def quaternionFromRPY (r p y : ℝ) : Quat :=
  ((ofAngleAxis r ![1, 0, 0]).mul (ofAngleAxis p ![0, 1, 0])).mul (ofAngleAxis y ![0, 0, 1])

/-- eigen_helpers.hpp:531-537 `QuaternionFromUrdfRPY` -/
noncomputable def quaternionFromUrdfRPY (r p y : ℝ) : Quat :=
  ((ofAngleAxis y ![0, 0, 1]).mul (ofAngleAxis p ![0, 1, 0])).mul (ofAngleAxis r ![1, 0, 0])

/-- eigen_helpers.hpp:540-543 `EulerAnglesFromRotationMatrix` -/
noncomputable def eulerAnglesFromRotationMatrix (m : Mat3) : Fin 3 → ℝ := eulerAngles m

/-- eigen_helpers.hpp:546-548 `EulerAnglesFromQuaternion` -/
noncomputable def eulerAnglesFromQuaternion (q : Quat) : Fin 3 → ℝ :=
  eulerAnglesFromRotationMatrix (toRotationMatrix q)

/-- eigen_helpers.hpp:551-553 `EulerAnglesFromIsometry3d` -/
noncomputable def eulerAnglesFromIsometry (t : Transform) : Fin 3 → ℝ := eulerAnglesFromRotationMatrix t.rotation

/-- eigen_helpers.hpp:561-565 `TransformFromRPY`; 555-559 is the same with six numbers -/
noncomputable def transformFromRPY (translation rotation : Fin 3 → ℝ) : Transform :=
  ⟨toRotationMatrix (quaternionFromRPY (rotation 0) (rotation 1) (rotation 2)), translation⟩

/-- eigen_helpers.hpp:567-572 `TransformFromRPY` for a vector of any size -/
noncomputable def transformFromComponents (c : List ℝ) : Out Transform :=
  match c with
  | [x, y, z, r, p, w] => .ok ⟨toRotationMatrix (quaternionFromRPY r p w), ![x, y, z]⟩
  | _ => .abort

/-- eigen_helpers.hpp:574-580 `TransformToRPY` -/
noncomputable def transformToRPY (t : Transform) : List ℝ :=
  let e := eulerAnglesFromRotationMatrix t.rotation
  [t.translation 0, t.translation 1, t.translation 2, e 0, e 1, e 2]

end Verif.Pose
