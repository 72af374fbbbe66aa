import Mathlib.Data.Real.Basic
import Mathlib.Algebra.Order.Group.Abs
/-!
# Model of the comparisons of include/arc_utilities/eigen_helpers.hpp

Lines 33-93 and math_helpers.hpp:16-20. A `double` is a real number, an infinity or not a number; rounding and the sign of
zero are not modelled.
-/
namespace Verif.Closeness

/-- A `double`. Used for math_helpers.hpp:16-20 and eigen_helpers.hpp:33-39. -/
inductive Double where
  | nan
  | finite (x : ℝ)
  | infinite (negative : Bool)

namespace Double

/-- The negative. Used for math_helpers.hpp:16-20 and eigen_helpers.hpp:53-65. -/
noncomputable def neg : Double → Double
  | nan => nan
  | finite x => finite (-x)
  | infinite b => infinite (!b)

/-- The sum. Used for math_helpers.hpp:16-20 and eigen_helpers.hpp:53-65. -/
noncomputable def add : Double → Double → Double
  | nan, _ => nan
  | _, nan => nan
  | finite x, finite y => finite (x + y)
  | finite _, infinite b => infinite b
  | infinite b, finite _ => infinite b
  | infinite b, infinite c => if b = c then infinite b else nan

/-- The difference. Used for math_helpers.hpp:16-20 and eigen_helpers.hpp:53-65. -/
noncomputable def sub (x y : Double) : Double := x.add y.neg

/-- `std::abs`. Used for math_helpers.hpp:16-20 and eigen_helpers.hpp:53-65. -/
noncomputable def abs : Double → Double
  | nan => nan
  | finite x => finite |x|
  | infinite _ => infinite false

/-- `<=`: false if one of the two is not a number. Used for math_helpers.hpp:16-20. -/
def le : Double → Double → Prop
  | nan, _ => False
  | _, nan => False
  | finite x, finite y => x ≤ y
  | finite _, infinite b => b = false
  | infinite b, finite _ => b = true
  | infinite b, infinite c => b = true ∨ c = false

/-- `>`: false if one of the two is not a number. Used for eigen_helpers.hpp:53-65. -/
def gt : Double → Double → Prop
  | nan, _ => False
  | _, nan => False
  | finite x, finite y => y < x
  | finite _, infinite b => b = true
  | infinite b, finite _ => b = false
  | infinite b, infinite c => b = false ∧ c = true

/-- `==`: false if one of the two is not a number. Used for eigen_helpers.hpp:33-39, 41-47. -/
def eq : Double → Double → Prop
  | finite x, finite y => x = y
  | infinite b, infinite c => b = c
  | _, _ => False

end Double

/-- math_helpers.hpp:16-20 -/
def closeEnough (p1 p2 threshold : Double) : Prop := (p2.sub p1).abs.le threshold.abs

/-- eigen_helpers.hpp:33-39 `Equal3d` -/
def equal3d (v1 v2 : Fin 3 → Double) : Prop := (v1 0).eq (v2 0) ∧ (v1 1).eq (v2 1) ∧ (v1 2).eq (v2 2)

/-- eigen_helpers.hpp:41-47 `Equal4d` -/
def equal4d (v1 v2 : Fin 4 → Double) : Prop :=
  (v1 0).eq (v2 0) ∧ (v1 1).eq (v2 1) ∧ (v1 2).eq (v2 2) ∧ (v1 3).eq (v2 3)

/-- eigen_helpers.hpp:49-51 `CloseEnough` for two coordinates -/
def closeEnough2 (v1 v2 : Fin 2 → Double) (threshold : Double) : Prop :=
  closeEnough (v1 0) (v2 0) threshold ∧ closeEnough (v1 1) (v2 1) threshold

open Classical in
/-- eigen_helpers.hpp:53-65 `CloseEnough` for three coordinates: three tests that return false -/
noncomputable def closeEnough3 (v1 v2 : Fin 3 → Double) (threshold : Double) : Bool :=
  if ((v1 0).sub (v2 0)).abs.gt threshold.abs then false
  else if ((v1 1).sub (v2 1)).abs.gt threshold.abs then false
  else if ((v1 2).sub (v2 2)).abs.gt threshold.abs then false
  else true

/-- eigen_helpers.hpp:67-79 and 81-93: `CloseEnough` and `IsApprox` for vectors of Eigen vectors; the comparison of two
elements is an argument. -/
def allClose {α : Type} (close : α → α → Bool) (a b : List α) : Bool :=
  if a.length ≠ b.length then false else loop a b
where
  /-- lines 73-77 and 87-91 -/
  loop : List α → List α → Bool
    | x :: a, y :: b => if !close x y then false else loop a b
    | _, _ => true

end Verif.Closeness
