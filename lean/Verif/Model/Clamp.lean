import Verif.Base.Outcome

/-!
# Model of ClampValue, SpreadValue and their warning versions
(include/arc_utilities/arc_helpers.hpp:201-254)

Generic in the type, as the templates are: only the comparisons of the type are used, so floating point
numbers with not-a-number values are an instance.
-/
namespace Verif.Clamp
open Verif

section
variable {T : Type} [LT T] [LE T] [DecidableLT T] [DecidableLE T]

/-- `std::max(a, b)`. Used for arc_helpers.hpp:201-205. -/
def stdMax (a b : T) : T := if a < b then b else a

/-- `std::min(a, b)`. Used for arc_helpers.hpp:201-205. -/
def stdMin (a b : T) : T := if b < a then b else a

/-- arc_helpers.hpp:201-205 `ClampValue` -/
def clampValue (val min max : T) : Out T := do
  Out.assert (min ≤ max)
  .ok (stdMin max (stdMax min val))

/-- What the warning versions print: nothing, or a message with the old and the new value. Used for
arc_helpers.hpp:207-220, 238-254. -/
inductive Warning (T : Type) where
  | none
  | toMin (val bound : T)
  | toMax (val bound : T)

/-- arc_helpers.hpp:207-220 `ClampValueAndWarn`; the second component is what goes to `std::cerr` -/
def clampValueAndWarn (val min max : T) : Out (T × Warning T) := do
  Out.assert (min ≤ max)
  if val < min then .ok (min, .toMin val min)
  else if max < val then .ok (max, .toMax val max)
  else .ok (val, .none)

/-- arc_helpers.hpp:224-234 `SpreadValue` -/
def spreadValue (val low mid high : T) : Out T := do
  Out.assert (low ≤ mid)
  Out.assert (mid ≤ high)
  if mid ≤ val ∧ val < high then .ok high
  else if val < mid ∧ low < val then .ok low
  else .ok val

/-- arc_helpers.hpp:238-254 `SpreadValueAndWarn` -/
def spreadValueAndWarn (val low mid high : T) : Out (T × Warning T) := do
  Out.assert (low ≤ mid)
  Out.assert (mid ≤ high)
  if mid ≤ val ∧ val < high then .ok (high, .toMax val high)
  else if val < mid ∧ low < val then .ok (low, .toMin val low)
  else .ok (val, .none)

end

/-- Numbers extended with a not-a-number value, all of whose comparisons are false. Used for arc_helpers.hpp:201-205,
207-220. -/
inductive WithNan (K : Type) where
  | nan
  | num (x : K)
  deriving DecidableEq

section
variable {K : Type}

instance [LT K] : LT (WithNan K) where
  lt
    | .num x, .num y => x < y
    | _, _ => False

instance [LE K] : LE (WithNan K) where
  le
    | .num x, .num y => x ≤ y
    | _, _ => False

instance [LT K] [h : DecidableLT K] : DecidableLT (WithNan K) := fun a b =>
  match a, b with
  | .num x, .num y => h x y
  | .num _, .nan => .isFalse (fun h => h)
  | .nan, .num _ => .isFalse (fun h => h)
  | .nan, .nan => .isFalse (fun h => h)

instance [LE K] [h : DecidableLE K] : DecidableLE (WithNan K) := fun a b =>
  match a, b with
  | .num x, .num y => h x y
  | .num _, .nan => .isFalse (fun h => h)
  | .nan, .num _ => .isFalse (fun h => h)
  | .nan, .nan => .isFalse (fun h => h)

end

end Verif.Clamp
