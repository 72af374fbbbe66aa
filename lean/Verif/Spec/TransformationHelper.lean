import Verif.Model.TransformationHelper
import Verif.Spec.Pose

/-!
# Specification of the transformation helpers
-/
namespace Verif.TransformationHelper
open Verif Verif.Conversions Verif.Kinematics

/-- The matrix of size 4 with this rotation and this translation -/
def rigid (R : Matrix (Fin 3) (Fin 3) ℝ) (t : Fin 3 → ℝ) : Mat := fun i j =>
  match i, j with
  | 0, 3 => t 0 | 1, 3 => t 1 | 2, 3 => t 2 | 3, 3 => 1
  | 3, _ => 0
  | 0, 0 => R 0 0 | 0, 1 => R 0 1 | 0, 2 => R 0 2
  | 1, 0 => R 1 0 | 1, 1 => R 1 1 | 1, 2 => R 1 2
  | 2, 0 => R 2 0 | 2, 1 => R 2 1 | 2, 2 => R 2 2

/-- What `tf.transformations` promises: the matrix of a quaternion of length one is that of its rotation, and a rigid
matrix gives a quaternion of length one with its rotation. -/
structure IsTf (tf : Tf) : Prop where
  toMatrix : ∀ q : Quat, q.squaredNorm = 1 → tf.quaternionMatrix q = rigid (Pose.toRotationMatrix q) 0
  fromMatrix : ∀ R t, IsRotationMatrix R → (tf.quaternionFromMatrix (rigid R t)).squaredNorm = 1 ∧
    Pose.toRotationMatrix (tf.quaternionFromMatrix (rigid R t)) = R

/-- The quaternion of a message -/
def quat (q : Quaternion ℝ) : Quat := { x := q.x, y := q.y, z := q.z, w := q.w }

/-- The coordinates of a point -/
def coords (p : Point ℝ) : Fin 3 → ℝ := ![p.x, p.y, p.z]

/-- The motion which a transform message with a rotation of length one stands for: turn the point, then move it. -/
noncomputable def act (t : TransformMsg ℝ) (v : Fin 3 → ℝ) : Fin 3 → ℝ :=
  rotateVector (quat t.rotation) v + ![t.translation.x, t.translation.y, t.translation.z]

/-- A message whose rotation has length one -/
def Unit (t : TransformMsg ℝ) : Prop := (quat t.rotation).squaredNorm = 1

end Verif.TransformationHelper
