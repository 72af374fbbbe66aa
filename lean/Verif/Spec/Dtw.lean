import Verif.Base.Cost

/-!
# Specification of dynamic time warping
-/
namespace Verif.Dtw
open Verif

variable {α β W : Type} [Cost W]

/-- `C` is the cost of a monotone warping path that pairs the first items, ends by pairing item `i` of
the first sequence with item `j` of the second, and in each step advances in one sequence or in both:
the sum of the distances of all pairs on the path. -/
inductive Warp (firsts : List α) (seconds : List β) (distance : α → β → W) : Nat → Nat → W → Prop
  | start {x : α} {y : β} : firsts[0]? = some x → seconds[0]? = some y →
      Warp firsts seconds distance 0 0 (0 + distance x y)
  | first {i j : Nat} {C : W} {x : α} {y : β} : Warp firsts seconds distance i j C →
      firsts[i + 1]? = some x → seconds[j]? = some y →
      Warp firsts seconds distance (i + 1) j (C + distance x y)
  | second {i j : Nat} {C : W} {x : α} {y : β} : Warp firsts seconds distance i j C →
      firsts[i]? = some x → seconds[j + 1]? = some y →
      Warp firsts seconds distance i (j + 1) (C + distance x y)
  | both {i j : Nat} {C : W} {x : α} {y : β} : Warp firsts seconds distance i j C →
      firsts[i + 1]? = some x → seconds[j + 1]? = some y →
      Warp firsts seconds distance (i + 1) (j + 1) (C + distance x y)

/-- `C` is the least cost of a warping path that ends at `(i, j)`. -/
def Least (firsts : List α) (seconds : List β) (distance : α → β → W) (i j : Nat) (C : W) : Prop :=
  Warp firsts seconds distance i j C ∧ ∀ C', Warp firsts seconds distance i j C' → C ≤ C'

/-- Nowhere are the least costs of the two one-sided predecessors of a pair equal and below the least
cost of its diagonal predecessor. -/
def NoTie (firsts : List α) (seconds : List β) (distance : α → β → W) : Prop :=
  ∀ (i j : Nat) (C C' : W), Least firsts seconds distance i (j + 1) C →
    Least firsts seconds distance (i + 1) j C → Least firsts seconds distance i j C' → C' ≤ C

open Classical in
/-- `T i j` are costs of warping paths that end at `(i, j)`, found in the way the code finds them. Along
the borders there is one way to go. Inside, the cheapest of the three predecessors is extended, except
when the two one-sided ones tie below the diagonal one: then the diagonal one is extended. -/
structure Recurrence (firsts : List α) (seconds : List β) (distance : α → β → W)
    (T : Nat → Nat → W) : Prop where
  start : ∀ (x : α) (y : β), firsts[0]? = some x → seconds[0]? = some y → T 0 0 = 0 + distance x y
  column : ∀ (i : Nat) (x : α) (y : β), firsts[i + 1]? = some x → seconds[0]? = some y →
    T (i + 1) 0 = T i 0 + distance x y
  row : ∀ (j : Nat) (x : α) (y : β), firsts[0]? = some x → seconds[j + 1]? = some y →
    T 0 (j + 1) = T 0 j + distance x y
  inside : ∀ (i j : Nat) (x : α) (y : β), firsts[i + 1]? = some x → seconds[j + 1]? = some y →
    T (i + 1) (j + 1) =
      (if T i (j + 1) = T (i + 1) j ∧ T i (j + 1) < T i j then T i j
       else min (T i (j + 1)) (min (T (i + 1) j) (T i j))) + distance x y

end Verif.Dtw
