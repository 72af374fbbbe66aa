import Mathlib.Data.Matrix.Mul
import Mathlib.Data.Real.Basic

/-!
# Model of the transformation of vectors of data

include/arc_utilities/eigen_helpers.hpp:110-118. Arithmetic is exact. The elements are points or transforms, of any
dimension.
-/
namespace Verif.TransformData

/-- `Eigen::Transform`: a linear part and a translation. Used for eigen_helpers.hpp:110-118. -/
@[ext] structure Transform (n : Nat) where
  linear : Matrix (Fin n) (Fin n) ℝ
  translation : Fin n → ℝ

/-- `transform * item` for a point. Used for eigen_helpers.hpp:115-117. -/
def Transform.point {n : Nat} (t : Transform n) (p : Fin n → ℝ) : Fin n → ℝ := t.linear.mulVec p + t.translation

/-- `transform * item` for a transform. Used for eigen_helpers.hpp:115-117. -/
def Transform.compose {n : Nat} (a b : Transform n) : Transform n :=
  ⟨a.linear * b.linear, a.linear.mulVec b.translation + a.translation⟩

/-- eigen_helpers.hpp:115-117: the loop -/
def loop {α β : Type} (times : α → β) : List α → List β → List β
  | [], retval => retval
  | item :: data, retval => loop times data (retval ++ [times item])

/-- eigen_helpers.hpp:110-118 `TransformData` of points -/
def transformPoints {n : Nat} (t : Transform n) (data : List (Fin n → ℝ)) : List (Fin n → ℝ) := loop t.point data []

/-- eigen_helpers.hpp:110-118 `TransformData` of transforms -/
def transformPoses {n : Nat} (t : Transform n) (data : List (Transform n)) : List (Transform n) := loop t.compose data []

end Verif.TransformData
