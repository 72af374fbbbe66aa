import Mathlib.Order.Defs.LinearOrder

/-!
# Doubles that may not be a number

Not a model of a particular file: a double that may be NaN ("not a number") is an `Option`, with `none`
for NaN. A comparison with NaN is false and a sum with NaN is NaN, as IEEE 754 demands.
-/
namespace Verif.NotANumber

variable {W : Type}

/-- `a < b` for doubles: false if either is not a number -/
def lt [LinearOrder W] (a b : Option W) : Bool :=
  match a, b with
  | some a, some b => decide (a < b)
  | _, _ => false

/-- `a + b` for doubles: not a number if either is not -/
def add [Add W] (a b : Option W) : Option W :=
  match a, b with
  | some a, some b => some (a + b)
  | _, _ => none

end Verif.NotANumber
