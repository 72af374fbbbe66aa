import Verif.Base.Cost

/-!
# Specification of dynamic time warping with distances that may not be a number
-/
namespace Verif.NanDtw
open Verif

variable {α β W : Type} [Cost W]

/-- `C` is the cost of a monotone warping path that pairs the first items, ends by pairing item `i` of the
first sequence with item `j` of the second, in each step advances in one sequence or in both, and meets only
pairs whose distance is a number: the sum of these distances. -/
inductive Warp (firsts : List α) (seconds : List β) (distance : α → β → Option W) : Nat → Nat → W → Prop
  | start {x : α} {y : β} {d : W} : firsts[0]? = some x → seconds[0]? = some y → distance x y = some d →
      Warp firsts seconds distance 0 0 (0 + d)
  | first {i j : Nat} {C d : W} {x : α} {y : β} : Warp firsts seconds distance i j C →
      firsts[i + 1]? = some x → seconds[j]? = some y → distance x y = some d →
      Warp firsts seconds distance (i + 1) j (C + d)
  | second {i j : Nat} {C d : W} {x : α} {y : β} : Warp firsts seconds distance i j C →
      firsts[i]? = some x → seconds[j + 1]? = some y → distance x y = some d →
      Warp firsts seconds distance i (j + 1) (C + d)
  | both {i j : Nat} {C d : W} {x : α} {y : β} : Warp firsts seconds distance i j C →
      firsts[i + 1]? = some x → seconds[j + 1]? = some y → distance x y = some d →
      Warp firsts seconds distance (i + 1) (j + 1) (C + d)

/-- Some pair on the diagonal that ends with the last items of both sequences, as far as it goes, has a
distance that is not a number. -/
def BrokenDiagonal (firsts : List α) (seconds : List β) (distance : α → β → Option W) : Prop :=
  ∃ (i j : Nat) (x : α) (y : β), firsts[i]? = some x ∧ seconds[j]? = some y ∧
    firsts.length + j = seconds.length + i ∧ distance x y = none

end Verif.NanDtw
