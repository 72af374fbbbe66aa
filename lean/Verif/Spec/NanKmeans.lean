import Mathlib.Order.Defs.LinearOrder

/-!
# Specification of labels when distances may not be a number
-/
namespace Verif.NanKmeans

variable {α W : Type} [LinearOrder W]

/-- What the label `j` of a point says: the distance of that center is a number below infinity, no other
center has a distance that is a smaller number, and none before it has one that is as small. -/
def ClosestNumber (inf : W) (distance : α → α → Option W) (centers : List α) (p : α) (j : Nat) : Prop :=
  ∃ c d, centers[j]? = some c ∧ distance c p = some d ∧ d < inf ∧
    ∀ (j' : Nat) c' d', centers[j']? = some c' → distance c' p = some d' → d ≤ d' ∧ (j' < j → d < d')

end Verif.NanKmeans
