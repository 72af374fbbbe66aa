import Mathlib.Algebra.Order.Field.Basic
import Verif.Model.Color

/-!
# What is expected of colors

`FloatRounding` lists the only facts about single precision rounding that are used: it keeps the order of
numbers, is exact on the channel values 0, 1, …, 255, and has a relative error of at most 2^-24 for numbers
from 1/1000 to 1000. Round-to-nearest of IEEE 754 single precision has them; so does exact arithmetic.
-/
namespace Verif.Colors
open Verif

structure FloatRounding {K : Type} [Field K] [LinearOrder K] (rnd : K → K) : Prop where
  mono : ∀ x y, x ≤ y → rnd x ≤ rnd y
  exact : ∀ n : Nat, n ≤ 255 → rnd (n : K) = (n : K)
  error : ∀ x, 1 / 1000 ≤ x → x ≤ 1000 → |rnd x - x| ≤ x / 2 ^ 24

/-- All four channels lie between 0 and 1. -/
def Valid {K : Type} [Field K] [LinearOrder K] (c : Color K) : Prop :=
  (0 ≤ c.r ∧ c.r ≤ 1) ∧ (0 ≤ c.g ∧ c.g ≤ 1) ∧ (0 ≤ c.b ∧ c.b ≤ 1) ∧ (0 ≤ c.a ∧ c.a ≤ 1)

/-- Red, green and blue of a color. -/
def Color.rgb {K : Type} (c : Color K) : K × K × K := (c.r, c.g, c.b)

/-- Cutting a number off at 0 and 1. -/
def cut {K : Type} [Field K] [LinearOrder K] (x : K) : K := if x < 0 then 0 else if 1 < x then 1 else x

/-- Calling `next` `n` times: the colors in order and the generator afterwards. -/
def Generator.take {K : Type} [Field K] [LinearOrder K] (rnd : K → K) :
    Nat → Generator K → Out (List (Color K) × Generator K)
  | 0, g => .ok ([], g)
  | n + 1, g => do
    let r ← g.next rnd
    let rs ← Generator.take rnd n r.2
    .ok (r.1 :: rs.1, rs.2)

/-- The color at the fraction `t` of the way from blue (0) over cyan (1/4), green (1/2) and yellow (3/4) to
red (1). -/
def hotToCold {K : Type} [Field K] [LinearOrder K] (t : K) : Color K :=
  if t < 1 / 4 then ⟨0, 4 * t, 1, 1⟩
  else if t < 1 / 2 then ⟨0, 1, 2 - 4 * t, 1⟩
  else if t < 3 / 4 then ⟨4 * t - 2, 1, 0, 1⟩
  else ⟨1, 4 - 4 * t, 0, 1⟩

end Verif.Colors
