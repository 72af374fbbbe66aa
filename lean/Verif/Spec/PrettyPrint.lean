import Verif.Model.PrettyPrint
/-!
# Specification of printed values
-/
namespace Verif.PrettyPrint

/-- A text without the characters that stand between and around values -/
def Plain (t : Text) : Prop := ∀ c ∈ t, c ∉ [' ', ',', ':', '<', '>', '[', ']', '(', ')', '{', '}']

/-- All numbers and strings in the value have plain texts -/
def AllPlain : (t : Ty) → Val t → Prop
  | .atom, v => Plain v
  | .bool, _ => True
  | .vector2, (x, y) => Plain x ∧ Plain y
  | .vector3, (x, y, z) => Plain x ∧ Plain y ∧ Plain z
  | .vector4, (x, y, z, w) => Plain x ∧ Plain y ∧ Plain z ∧ Plain w
  | .quaternion, (x, y, z, w) => Plain x ∧ Plain y ∧ Plain z ∧ Plain w
  | .isometry, ((x, y, z), (a, b, c, d)) => Plain x ∧ Plain y ∧ Plain z ∧ Plain a ∧ Plain b ∧ Plain c ∧ Plain d
  | .pair a b, (x, y) => AllPlain a x ∧ AllPlain b y
  | .seq a, l => ∀ x ∈ (show List (Val a) from l), AllPlain a x
  | .map a b, l => ∀ x ∈ (show List (Val a × Val b) from l), AllPlain a x.1 ∧ AllPlain b x.2
  | .set a, l => ∀ x ∈ (show List (Val a) from l), AllPlain a x

end Verif.PrettyPrint
