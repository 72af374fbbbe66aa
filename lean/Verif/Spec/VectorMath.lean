/-!
# Specification of arithmetic on vectors of integers: what fits into a word
-/
namespace Verif.VectorMath

/-- `x` is a signed integer of `w` bits -/
def Fits (w : Nat) (x : Int) : Prop := -2 ^ (w - 1) ≤ x ∧ x < 2 ^ (w - 1)

instance (w : Nat) (x : Int) : Decidable (Fits w x) := inferInstanceAs (Decidable (_ ∧ _))

end Verif.VectorMath
