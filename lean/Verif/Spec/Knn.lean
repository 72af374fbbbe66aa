import Verif.Base.Cost

/-!
# Specification of K nearest neighbours and of parallel schedules
-/
namespace Verif.Knn
open Verif

variable {α β W : Type} [Cost W]

/-- A schedule of a parallel loop over `0 … n-1`: one list of indices per thread; together they
execute every index exactly once. -/
def Schedule (n : Nat) (schedule : List (List Nat)) : Prop :=
  schedule.flatten.Perm (List.range n)

/-- `result` is a correct answer to the query for the `K` nearest of `items`. -/
structure KNearest (items : List α) (current : β) (distance : α → β → W) (K : Nat)
    (result : List (Int × W)) : Prop where
  /-- as many as asked for, or as there are -/
  length : result.length = min K items.length
  /-- no item twice -/
  distinct : (result.map (·.1)).Nodup
  /-- every entry is an item with its true distance -/
  distances : ∀ e ∈ result, ∃ (i : Nat) (item : α), items[i]? = some item ∧ e.1 = (i : Int) ∧
    e.2 = distance item current
  /-- no item left out is closer than one returned -/
  nearest : ∀ (i : Nat) (item : α), items[i]? = some item → (i : Int) ∉ result.map (·.1) →
    ∀ e ∈ result, e.2 ≤ distance item current

end Verif.Knn
