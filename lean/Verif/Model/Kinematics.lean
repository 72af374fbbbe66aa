import Mathlib.Analysis.SpecialFunctions.Trigonometric.Basic
import Mathlib.Data.Matrix.Block
import Mathlib.LinearAlgebra.Matrix.Notation
import Verif.Model.Projection

/-!
# Model of the kinematics functions of include/arc_utilities/eigen_helpers.hpp (125-135, 157-264)

`double` is a real number. A vector of 6 numbers is given by its two segments of 3 numbers, and matrices of
size 4 and 6 by their blocks, which is how the code fills them. Transforms are those of `Eigen::Isometry3d`,
whose `rotation()` is the upper left block.
-/
namespace Verif.Kinematics
open Verif Matrix Verif.Projection

/-- `Eigen::Quaterniond`. Used for eigen_helpers.hpp:125-129, 131-135. -/
@[ext] structure Quat where
  w : ℝ
  x : ℝ
  y : ℝ
  z : ℝ

namespace Quat

/-- Eigen's product of quaternions. Used for eigen_helpers.hpp:125-129, 131-135. -/
noncomputable def mul (a b : Quat) : Quat where
  w := a.w * b.w - a.x * b.x - a.y * b.y - a.z * b.z
  x := a.w * b.x + a.x * b.w + a.y * b.z - a.z * b.y
  y := a.w * b.y + a.y * b.w + a.z * b.x - a.x * b.z
  z := a.w * b.z + a.z * b.w + a.x * b.y - a.y * b.x

/-- Eigen's `squaredNorm` of a quaternion. Used for eigen_helpers.hpp:125-129, 131-135. -/
noncomputable def squaredNorm (q : Quat) : ℝ := q.w ^ 2 + q.x ^ 2 + q.y ^ 2 + q.z ^ 2

/-- Eigen's `inverse`: the conjugate over the squared norm, and zero for zero. Used for eigen_helpers.hpp:125-129,
131-135. -/
noncomputable def inverse (q : Quat) : Quat :=
  if 0 < q.squaredNorm then
    ⟨q.w / q.squaredNorm, -q.x / q.squaredNorm, -q.y / q.squaredNorm, -q.z / q.squaredNorm⟩
  else ⟨0, 0, 0, 0⟩

end Quat

/-- eigen_helpers.hpp:125-129 `RotateVector` -/
noncomputable def rotateVector (q : Quat) (v : Fin 3 → ℝ) : Fin 3 → ℝ :=
  let res := q.mul ((Quat.mk 0 (v 0) (v 1) (v 2)).mul q.inverse)
  ![res.x, res.y, res.z]

/-- eigen_helpers.hpp:131-135 `RotateVectorReverse` -/
noncomputable def rotateVectorReverse (q : Quat) (v : Fin 3 → ℝ) : Fin 3 → ℝ :=
  let res := q.inverse.mul ((Quat.mk 0 (v 0) (v 1) (v 2)).mul q)
  ![res.x, res.y, res.z]

/-- eigen_helpers.hpp:157-161 `Skew` -/
def skew (v : Fin 3 → ℝ) : Matrix (Fin 3) (Fin 3) ℝ :=
  !![0, -v 2, v 1; v 2, 0, -v 0; -v 1, v 0, 0]

/-- eigen_helpers.hpp:163-167 `Unskew` -/
noncomputable def unskew (m : Matrix (Fin 3) (Fin 3) ℝ) : Fin 3 → ℝ :=
  let s := (1 / 2 : ℝ) • (m - mᵀ)
  ![s 2 1, s 0 2, s 1 0]

/-- A twist: `segment<3>(0)` and `segment<3>(3)`. Used for eigen_helpers.hpp:169-176, 178-185. -/
@[ext] structure Twist where
  trans : Fin 3 → ℝ
  rot : Fin 3 → ℝ

/-- A matrix of size 4, by blocks. Used for eigen_helpers.hpp:169-176, 178-185. -/
abbrev Mat4 := Matrix (Fin 3 ⊕ Fin 1) (Fin 3 ⊕ Fin 1) ℝ

/-- A matrix of size 6, by blocks. Used for eigen_helpers.hpp:187-201. -/
abbrev Mat6 := Matrix (Fin 3 ⊕ Fin 3) (Fin 3 ⊕ Fin 3) ℝ

/-- A vector as a matrix with one column. Used for eigen_helpers.hpp:169-176. -/
def column (v : Fin 3 → ℝ) : Matrix (Fin 3) (Fin 1) ℝ := fun i _ => v i

/-- eigen_helpers.hpp:169-176 `TwistHat` -/
def twistHat (ξ : Twist) : Mat4 := fromBlocks (skew ξ.rot) (column ξ.trans) 0 0

/-- eigen_helpers.hpp:178-185 `TwistUnhat` -/
noncomputable def twistUnhat (m : Mat4) : Twist := ⟨fun i => m.toBlocks₁₂ i 0, unskew m.toBlocks₁₁⟩

/-- `Eigen::Isometry3d`. Used for eigen_helpers.hpp:187-201, 203-209. -/
@[ext] structure Transform where
  rotation : Matrix (Fin 3) (Fin 3) ℝ
  translation : Fin 3 → ℝ

namespace Transform

/-- `matrix()`. Used for eigen_helpers.hpp:211-218. -/
def matrix (T : Transform) : Mat4 := fromBlocks T.rotation (column T.translation) 0 1

/-- Eigen's product of transforms. Used for eigen_helpers.hpp:125-129, 131-135. -/
def mul (T S : Transform) : Transform :=
  ⟨T.rotation * S.rotation, T.rotation *ᵥ S.translation + T.translation⟩

end Transform

/-- eigen_helpers.hpp:187-201 `AdjointFromTransform` -/
def adjointFromTransform (T : Transform) : Mat6 :=
  fromBlocks T.rotation (skew T.translation * T.rotation) 0 T.rotation

/-- eigen_helpers.hpp:203-209 `TransformTwist` -/
def transformTwist (T : Transform) (ξ : Twist) : Twist :=
  let r := adjointFromTransform T *ᵥ Sum.elim ξ.trans ξ.rot
  ⟨r ∘ Sum.inl, r ∘ Sum.inr⟩

/-- eigen_helpers.hpp:220-225 `ExpMatrixExact` -/
noncomputable def expMatrixExact (h : Matrix (Fin 3) (Fin 3) ℝ) (dt : ℝ) : Out (Matrix (Fin 3) (Fin 3) ℝ) := do
  Out.assert (|Projection.norm (unskew h) - 1| < 1 / 10 ^ 10)
  .ok (1 + Real.sin dt • h + (1 - Real.cos dt) • (h * h))

/-- eigen_helpers.hpp:234-242, and again 250-258: rotation and translation by a twist with rotation -/
noncomputable def screw (ξ : Twist) (dt : ℝ) : Out Transform :=
  let n := Projection.norm ξ.rot
  let scaledDt := dt * n
  let scaledTrans := (1 / n) • ξ.trans
  let scaledRot := (1 / n) • ξ.rot
  do
    let R ← expMatrixExact (skew scaledRot) scaledDt
    .ok ⟨R, (1 - R) *ᵥ (scaledRot ⨯₃ scaledTrans) + scaledDt • (vecMulVec scaledRot scaledRot *ᵥ scaledTrans)⟩

/-- eigen_helpers.hpp:227-264 `ExpTwist`; the warning of lines 247-249 is left out -/
noncomputable def expTwist (ξ : Twist) (dt : ℝ) : Out Transform :=
  if 1 / 10 ^ 100 ≤ Projection.norm ξ.rot then screw ξ dt
  else if 1 / 10 ^ 100 ≤ Projection.norm ξ.trans ∨ Projection.norm ξ.rot = 0 then .ok ⟨1, dt • ξ.trans⟩
  else screw ξ dt

namespace Transform

/-- Eigen's `inverse(Isometry)`. Used for eigen_helpers.hpp:125-129, 131-135. -/
def inverse (T : Transform) : Transform := ⟨T.rotationᵀ, -(T.rotationᵀ *ᵥ T.translation)⟩

end Transform

/-- eigen_helpers.hpp:211-218 `TwistBetweenTransforms`, for isometries; Eigen's matrix logarithm is a parameter -/
noncomputable def twistBetweenTransforms (log : Mat4 → Mat4) (start finish : Transform) : Twist :=
  twistUnhat (log (start.inverse.mul finish).matrix)

end Verif.Kinematics
