import Mathlib.Order.Defs.LinearOrder

/-!
# Costs

Not a model of a particular file: what is assumed of the arithmetic on costs and distances. The laws
hold for the reals extended with infinity, and also for IEEE doubles without NaN (rounding is
monotone); addition is neither associative nor commutative nor cancellative here.
-/
namespace Verif

/-- Costs with infinity. -/
class Cost (W : Type) extends LinearOrder W, Add W, Zero W where
  /-- infinity -/
  inf : W
  le_inf : ∀ a : W, a ≤ inf
  /-- adding on the right is monotone -/
  add_mono : ∀ {a b : W} (c : W), a ≤ b → a + c ≤ b + c
  /-- adding a non-negative cost does not decrease -/
  le_add : ∀ (a : W) {c : W}, 0 ≤ c → a ≤ a + c

/-- Sums of finite costs are finite: true of exact arithmetic, and of doubles as long as nothing
overflows. -/
class NoOverflow (W : Type) [Cost W] : Prop where
  add_lt : ∀ {a b : W}, a < Cost.inf → b < Cost.inf → a + b < Cost.inf
  zero_lt : (0 : W) < Cost.inf

/-- Natural numbers with infinity, for the concrete cases beside the theorems. -/
inductive Dist where
  | fin (n : Nat)
  | inf
  deriving DecidableEq, Repr

namespace Dist

/-- The order. -/
def leb : Dist → Dist → Bool
  | _, .inf => true
  | .inf, .fin _ => false
  | .fin a, .fin b => a ≤ b

/-- Addition. -/
def add : Dist → Dist → Dist
  | .fin a, .fin b => .fin (a + b)
  | _, _ => .inf

instance : LE Dist := ⟨fun a b => leb a b = true⟩
instance : LT Dist := ⟨fun a b => leb b a = false⟩
instance (a b : Dist) : Decidable (a ≤ b) := inferInstanceAs (Decidable (leb a b = true))
instance (a b : Dist) : Decidable (a < b) := inferInstanceAs (Decidable (leb b a = false))

theorem le_def (a b : Dist) : a ≤ b ↔ leb a b = true := Iff.rfl
theorem lt_def (a b : Dist) : a < b ↔ leb b a = false := Iff.rfl

instance : LinearOrder Dist where
  le_refl a := by cases a <;> simp [le_def, leb]
  le_trans a b c := by cases a <;> cases b <;> cases c <;> simp [le_def, leb]; omega
  le_antisymm a b := by cases a <;> cases b <;> simp [le_def, leb]; omega
  le_total a b := by cases a <;> cases b <;> simp [le_def, leb]; omega
  lt_iff_le_not_ge a b := by cases a <;> cases b <;> simp [le_def, lt_def, leb]; omega
  toDecidableLE := fun a b => inferInstance
  toDecidableLT := fun a b => inferInstance
  toDecidableEq := inferInstance

instance : Cost Dist where
  add := add
  zero := .fin 0
  inf := .inf
  le_inf a := by cases a <;> rfl
  add_mono {a b} c h := by
    change add a c ≤ add b c
    cases a <;> cases b <;> cases c <;> simp_all [le_def, leb, add]
  le_add a c h := by
    change a ≤ add a c
    cases a <;> cases c <;> simp_all [le_def, leb, add]

instance (n : Nat) : OfNat Dist n := ⟨.fin n⟩

instance : NoOverflow Dist where
  add_lt {a b} := by
    change a < Dist.inf → b < Dist.inf → add a b < Dist.inf
    cases a <;> cases b <;> simp [lt_def, leb, add]
  zero_lt := by decide

end Dist
end Verif
