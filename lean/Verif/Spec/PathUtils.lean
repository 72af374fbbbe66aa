import Verif.Model.PathUtils

/-!
# What is expected of path smoothing and resampling
-/
namespace Verif.PathUtils

/-- `a` and `b` follow each other in the list. -/
def Consecutive {C : Type} (l : List C) (a b : C) : Prop :=
  ∃ i : Nat, l[i]? = some a ∧ l[i + 1]? = some b

section
variable {K C : Type} [Field K] [LinearOrder K]

/-- `n` is the least number of pieces of length at most `resolution` a distance can be cut into. -/
def LeastPieces (d resolution : K) (n : Nat) : Prop :=
  d ≤ (n : K) * resolution ∧ ∀ m : Nat, d ≤ (m : K) * resolution → n ≤ m

/-- The states that cut the way from `a` to `b` into `n` equal pieces, without `a` but with `b`. -/
def steps (interp : C → C → K → C) (a b : C) (n : Nat) : List C :=
  (List.range n).map fun k => interp a b (((k + 1 : Nat) : K) / (n : K))

/-- The second path is the first one with every segment cut into the least number of equal pieces of length
at most the resolution. -/
inductive Resampled (dist : C → C → K) (interp : C → C → K → C) (resolution : K) : List C → List C → Prop
  | single (a : C) : Resampled dist interp resolution [a] [a]
  | step (a b : C) (rest out : List C) (n : Nat) : LeastPieces (dist a b) resolution n →
      Resampled dist interp resolution (b :: rest) (b :: out) →
      Resampled dist interp resolution (a :: b :: rest) (a :: (steps interp a b n ++ out))

/-- The states at positive distance from their predecessor. -/
def moved (dist : C → C → K) : List C → List C
  | a :: b :: rest => if dist a b = 0 then moved dist (b :: rest) else b :: moved dist (b :: rest)
  | _ => []

/-- The states that cut the way from `a` to `b` into `n` equal pieces, with `a` but without `b`. -/
def starts (interp : C → C → K → C) (a b : C) (n : Nat) : List C :=
  (List.range n).map fun k : Nat => interp a b ((k : K) / (n : K))

/-- The path with its segments cut into the given numbers of pieces. -/
def upsampled (interp : C → C → K → C) : List C → List Nat → List C
  | a :: b :: rest, n :: counts => starts interp a b n ++ upsampled interp (b :: rest) counts
  | a :: _, [] => [a]
  | _, _ => []

/-- The lengths of the segments. -/
def segmentLengths (dist : C → C → K) : List C → List K
  | a :: b :: rest => dist a b :: segmentLengths dist (b :: rest)
  | _ => []

end

end Verif.PathUtils
