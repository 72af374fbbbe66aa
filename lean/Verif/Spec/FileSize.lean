/-!
# Specification of file sizes
-/
namespace Verif.FileSize

/-- A text of decimal digits -/
def Digits (l : List Char) : Prop := ∀ c ∈ l, '0' ≤ c ∧ c ≤ '9'

/-- The units and their factors -/
inductive Unit : List Char → Nat → Prop where
  | none : Unit [] 1
  | kilo (c : Char) : c = 'k' ∨ c = 'K' → Unit [c] (10 ^ 3)
  | mega (c : Char) : c = 'm' ∨ c = 'M' → Unit [c] (10 ^ 6)
  | giga (c : Char) : c = 'g' ∨ c = 'G' → Unit [c] (10 ^ 9)

/-- A text that is a size: digits with a dot or without, at least one digit, a unit or none, and a `b` or none. It stands
for the number `num / den`. -/
inductive Size : List Char → (num den : Nat) → Prop where
  | whole (a u y : List Char) (f n : Nat) : a ≠ [] → Digits a → Unit u f → y = [] ∨ y = ['b'] ∨ y = ['B'] →
      a.foldl (fun n c => 10 * n + (c.toNat - 48)) 0 = n → Size (a ++ u ++ y) (n * f) 1
  | fraction (a b u y : List Char) (f n : Nat) : a ++ b ≠ [] → Digits a → Digits b → Unit u f →
      y = [] ∨ y = ['b'] ∨ y = ['B'] → (a ++ b).foldl (fun n c => 10 * n + (c.toNat - 48)) 0 = n →
      Size (a ++ '.' :: b ++ u ++ y) (n * f) (10 ^ b.length)

/-- A whole number next to a fraction; of two, the even one -/
def Nearest (num den r : Nat) : Prop :=
  2 * num ≤ (2 * r + 1) * den ∧ 2 * r * den ≤ 2 * num + den ∧
    ((2 * num = (2 * r + 1) * den ∨ 2 * r * den = 2 * num + den) → r % 2 = 0)

end Verif.FileSize
