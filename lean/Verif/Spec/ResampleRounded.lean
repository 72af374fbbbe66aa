import Verif.Base.Rounding
import Verif.Spec.PathUtils

/-!
# Specification of resampling with rounding
-/
namespace Verif.ResampleRounded
open Verif Verif.PathUtils

/-- `n` pieces for a segment of length `d`: none exactly for length zero, the least number of pieces of length at most
`resolution` or one fewer, and then the pieces are too long by a share of at most about one rounding unit. -/
structure Pieces (d resolution : ℝ) (n : Nat) : Prop where
  zero : n = 0 ↔ d = 0
  least : ∃ m, LeastPieces d resolution m ∧ (n = m ∨ n + 1 = m)
  long : d * (1 - unit) ≤ n * resolution

/-- The ratios of the states of a segment cut into `n` pieces: growing, above zero, the last one exactly one, each
one next to what it should be. -/
structure Ratios (n : Nat) (ts : List ℝ) : Prop where
  length : ts.length = n
  grow : ts.Pairwise (· < ·)
  pos : ∀ t ∈ ts, 0 < t
  last : n ≠ 0 → ts.getLast? = some 1
  near : ∀ (k : Nat) (t : ℝ), ts[k]? = some t → |t - ((k + 1 : Nat) : ℝ) / n| ≤ unit * (((k + 1 : Nat) : ℝ) / n)

/-- The second path is the first one with every segment cut into pieces. -/
inductive Resampled (dist : C → C → ℝ) (interp : C → C → ℝ → C) (resolution : ℝ) : List C → List C → Prop
  | single (a : C) : Resampled dist interp resolution [a] [a]
  | step (a b : C) (rest out : List C) (n : Nat) (ts : List ℝ) : Pieces (dist a b) resolution n → Ratios n ts →
      Resampled dist interp resolution (b :: rest) (b :: out) →
      Resampled dist interp resolution (a :: b :: rest) (a :: (ts.map (interp a b) ++ out))

end Verif.ResampleRounded
