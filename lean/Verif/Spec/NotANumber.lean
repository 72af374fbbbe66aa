import Verif.Base.Cost

/-!
# Specification of distances that may not be a number

A distance is `none` if it is not a number.
-/
namespace Verif.NotANumber
open Verif

variable {α β W : Type} [Cost W]

/-- The distance with what is not a number replaced by infinity. -/
def orInf (distance : α → β → Option W) (a : α) (b : β) : W := (distance a b).getD Cost.inf

/-- The distance is a number below infinity. -/
def usable (d : Option W) : Bool :=
  match d with
  | some d => decide (d < Cost.inf)
  | none => false

/-- `result` lists the `K` nearest of the items whose distance is a number below infinity. -/
structure NearestNumbers (items : List α) (current : β) (distance : α → β → Option W) (K : Nat)
    (result : List (Int × Option W)) : Prop where
  /-- as many as asked for, or as there are with such a distance -/
  length : result.length = min K (items.countP fun item => usable (distance item current))
  /-- no item twice -/
  distinct : (result.map (·.1)).Nodup
  /-- every entry is an item with its true distance, a number below infinity -/
  distances : ∀ e ∈ result, ∃ (i : Nat) (item : α) (d : W), items[i]? = some item ∧
    distance item current = some d ∧ d < Cost.inf ∧ e = ((i : Int), some d)
  /-- no item left out is closer than one returned -/
  nearest : ∀ (i : Nat) (item : α) (d : W), items[i]? = some item → distance item current = some d →
    (i : Int) ∉ result.map (·.1) → ∀ e ∈ result, ∃ d', e.2 = some d' ∧ d' ≤ d

end Verif.NotANumber
