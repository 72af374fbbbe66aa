import Verif.Base.Ieee

/-!
# Specification of norms of vectors with special doubles
-/
namespace Verif.VectorSpecial
open Verif

/-- All entries are numbers. -/
def Numbers (v : List Dbl) : Prop := ∀ x ∈ v, x.Finite

/-- No entry is NaN and one is infinite. -/
def Infinite (v : List Dbl) : Prop := .nan ∉ v ∧ ∃ s, .inf s ∈ v

/-- All entries are numbers and the square of one is too large for a `double`. -/
def TooLong (A : Ieee) (v : List Dbl) : Prop := Numbers v ∧ ∃ x, .num x ∈ v ∧ A.top < |A.R.rd (x * x)|

/-- An infinity or a number that is not negative. -/
def Long (n : Dbl) : Prop := n = .inf false ∨ ∃ x : ℝ, n = .num x ∧ 0 ≤ x

/-- The sum of the squares of numbers. -/
def squares : List ℝ → ℝ
  | [] => 0
  | x :: xs => x * x + squares xs

end Verif.VectorSpecial
