import Verif.Base.Rounding
import Verif.Spec.PathUtils

/-!
# Specification of upsampling with rounding
-/
namespace Verif.UpsampleRounded
open Verif Verif.PathUtils

/-- The ratios of the states of a segment cut into `n` pieces, without its end: growing from zero on, below one, each one
next to what it should be. -/
structure Fractions (n : Nat) (ts : List ℝ) : Prop where
  length : ts.length = n
  grow : ts.Pairwise (· < ·)
  first : n ≠ 0 → ts.head? = some 0
  below : ∀ t ∈ ts, t < 1
  near : ∀ (k : Nat) (t : ℝ), ts[k]? = some t → |t - (k : ℝ) / n| ≤ 3 * unit * ((k : ℝ) / n)

/-- The last path is the first one with the segments cut into the given numbers of pieces. -/
inductive Upsampled (interp : C → C → ℝ → C) : List C → List Nat → List C → Prop
  | single (a : C) : Upsampled interp [a] [] [a]
  | step (a b : C) (rest : List C) (n : Nat) (counts : List Nat) (ts : List ℝ) (out : List C) : Fractions n ts →
      Upsampled interp (b :: rest) counts out →
      Upsampled interp (a :: b :: rest) (n :: counts) (ts.map (interp a b) ++ out)

/-- No distribution of as many pieces has a longest piece that is shorter, by more than a few rounding units. -/
def NearlyBest (lengths : List ℝ) (counts : List Nat) : Prop :=
  ∀ other : List Nat, other.length = counts.length → other.sum = counts.sum → (∀ c ∈ other, 1 ≤ c) →
    ∀ (i c : Nat) (d : ℝ), counts[i]? = some c → lengths[i]? = some d →
      ∃ (j cj : Nat) (dj : ℝ), other[j]? = some cj ∧ lengths[j]? = some dj ∧ d / c ≤ dj / cj * (1 + 4 * unit)

end Verif.UpsampleRounded
