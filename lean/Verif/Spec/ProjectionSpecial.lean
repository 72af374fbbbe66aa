import Verif.Base.Ieee

/-!
# Specification of the choice of eigenvalues with special doubles
-/
namespace Verif.ProjectionSpecial
open Verif

/-- `i` is the first position of a largest value; values that are not a number do not count. -/
def FirstLargest (values : List Dbl) (i : Nat) : Prop :=
  ∃ x, values[i]? = some x ∧ Ieee.lt (.inf true) x ∧
    ∀ j y, values[j]? = some y → y ≠ .nan → Ieee.le y x ∧ (j < i → Ieee.lt y x)

/-- `i` is the first position of a smallest value; values that are not a number do not count. -/
def FirstSmallest (values : List Dbl) (i : Nat) : Prop :=
  ∃ x, values[i]? = some x ∧ Ieee.lt x (.inf false) ∧
    ∀ j y, values[j]? = some y → y ≠ .nan → Ieee.le x y ∧ (j < i → Ieee.lt x y)

end Verif.ProjectionSpecial
