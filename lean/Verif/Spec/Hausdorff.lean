import Verif.Base.Cost

/-!
# Specification of the directed Hausdorff distance
-/
namespace Verif.Hausdorff
open Verif

variable {α β W : Type} [Cost W]

/-- `D` is the largest, over the items of `A`, of the distance to the nearest item of `B` (infinite if
`B` is empty), or zero if that is larger: it is at most `x` exactly if `x` is not negative and every
item of `A` has an item of `B` within `x` (or `x` is infinite). -/
def Directed (A : List α) (B : List β) (distance : α → β → W) (D : W) : Prop :=
  ∀ x : W, D ≤ x ↔ 0 ≤ x ∧ ∀ a ∈ A, x = Cost.inf ∨ ∃ b ∈ B, distance a b ≤ x

/-- There is only one such value. -/
theorem Directed.unique {A : List α} {B : List β} {distance : α → β → W} {D D' : W}
    (h : Directed A B distance D) (h' : Directed A B distance D') : D = D' :=
  le_antisymm ((h D').2 ((h' D').1 (le_refl _))) ((h' D).2 ((h D).1 (le_refl _)))

end Verif.Hausdorff
