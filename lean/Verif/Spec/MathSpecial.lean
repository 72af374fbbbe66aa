import Verif.Base.Ieee

/-!
# Specification of the scalar functions with special doubles
-/
namespace Verif.MathSpecial
open Verif

/-- A value that a `double` can have: a number has 53 binary digits and is not above the largest finite one. -/
def IsDouble (A : Ieee) (d : Dbl) : Prop := ∀ x, d = .num x → A.R.Fp x ∧ |x| ≤ A.top

/-- Two coordinates whose difference is not a number: one of them is not a number, or both are the same infinity. -/
def Incomparable (a b : Dbl) : Prop := a = .nan ∨ b = .nan ∨ ∃ s, a = .inf s ∧ b = .inf s

end Verif.MathSpecial
