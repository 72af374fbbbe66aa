import Mathlib.Analysis.Real.Sqrt
import Verif.Base.Rounding

/-!
# Doubles with special values

Not a model of a particular file: the arithmetic of `double` with infinities, values that are not a number and
overflow. The sign of zero, the payload of values that are not a number and underflow are left out: a divisor that is
zero counts as positive, and small numbers have 53 binary digits however small they are.
-/
namespace Verif

/-- A `double`. -/
inductive Dbl where
  | nan
  | inf (negative : Bool)
  | num (x : ℝ)

/-- A way of rounding and the largest finite `double`. -/
structure Ieee where
  R : Rounding
  top : ℝ
  /-- whole numbers of 63 binary digits are far from overflow -/
  large : 2 ^ 64 ≤ top

namespace Dbl

/-- A `double` that is a number: neither infinite nor not a number. -/
def Finite (a : Dbl) : Prop := ∃ x, a = num x

/-- A number that is positive and finite. -/
def Positive (a : Dbl) : Prop := ∃ x, a = num x ∧ 0 < x

end Dbl

namespace Ieee
variable (A : Ieee)

open Classical in
/-- The result of an operation whose exact result is `x`. -/
noncomputable def round (x : ℝ) : Dbl := if |A.R.rd x| ≤ A.top then .num (A.R.rd x) else .inf (decide (x < 0))

/-- `a + b` -/
noncomputable def add : Dbl → Dbl → Dbl
  | .nan, _ => .nan
  | _, .nan => .nan
  | .inf s, .inf t => if s = t then .inf s else .nan
  | .inf s, .num _ => .inf s
  | .num _, .inf t => .inf t
  | .num x, .num y => A.round (x + y)

open Classical in
/-- `a * b` -/
noncomputable def mul : Dbl → Dbl → Dbl
  | .nan, _ => .nan
  | _, .nan => .nan
  | .inf s, .inf t => .inf (s != t)
  | .inf s, .num y => if y = 0 then .nan else .inf (s != decide (y < 0))
  | .num x, .inf t => if x = 0 then .nan else .inf (decide (x < 0) != t)
  | .num x, .num y => A.round (x * y)

open Classical in
/-- `a / b` -/
noncomputable def div : Dbl → Dbl → Dbl
  | .nan, _ => .nan
  | _, .nan => .nan
  | .inf _, .inf _ => .nan
  | .inf s, .num y => .inf (s != decide (y < 0))
  | .num _, .inf _ => .num 0
  | .num x, .num y => if y = 0 then (if x = 0 then .nan else .inf (decide (x < 0))) else A.round (x / y)

/-- `a - b` -/
noncomputable def sub : Dbl → Dbl → Dbl
  | .nan, _ => .nan
  | _, .nan => .nan
  | .inf s, .inf t => if s = t then .nan else .inf s
  | .inf s, .num _ => .inf s
  | .num _, .inf t => .inf (!t)
  | .num x, .num y => A.round (x - y)

open Classical in
/-- `sqrt(a)` -/
noncomputable def sqrt : Dbl → Dbl
  | .nan => .nan
  | .inf s => if s then .nan else .inf false
  | .num x => if x < 0 then .nan else A.round (Real.sqrt x)

/-- `-a` -/
noncomputable def neg : Dbl → Dbl
  | .nan => .nan
  | .inf s => .inf (!s)
  | .num x => .num (-x)

/-- `std::abs(a)` -/
noncomputable def abs : Dbl → Dbl
  | .nan => .nan
  | .inf _ => .inf false
  | .num x => .num |x|

/-- `std::isnan(a)` -/
def isNan : Dbl → Bool
  | .nan => true
  | _ => false

/-- `std::isinf(a)` -/
def isInf : Dbl → Bool
  | .inf _ => true
  | _ => false

/-- `a < b`: false if one of them is not a number -/
def lt : Dbl → Dbl → Prop
  | .nan, _ => False
  | _, .nan => False
  | .inf s, .inf t => s = true ∧ t = false
  | .inf s, .num _ => s = true
  | .num _, .inf t => t = false
  | .num x, .num y => x < y

/-- `a <= b`: false if one of them is not a number -/
def le : Dbl → Dbl → Prop
  | .nan, _ => False
  | _, .nan => False
  | .inf s, .inf t => s = true ∨ t = false
  | .inf s, .num _ => s = true
  | .num _, .inf t => t = false
  | .num x, .num y => x ≤ y

/-! ## What is not finite stays so -/

theorem add_finite {a b : Dbl} (h : (A.add a b).Finite) : a.Finite ∧ b.Finite := by
  obtain ⟨z, h⟩ := h
  cases a with
  | nan => cases h
  | inf s =>
    cases b with
    | nan => cases h
    | inf t => simp only [add] at h; split at h <;> cases h
    | num y => cases h
  | num x =>
    cases b with
    | nan => cases h
    | inf t => cases h
    | num y => exact ⟨⟨x, rfl⟩, ⟨y, rfl⟩⟩

theorem mul_finite {a b : Dbl} (h : (A.mul a b).Finite) : a.Finite ∧ b.Finite := by
  obtain ⟨z, h⟩ := h
  cases a with
  | nan => cases h
  | inf s =>
    cases b with
    | nan => cases h
    | inf t => cases h
    | num y => simp only [mul] at h; split at h <;> cases h
  | num x =>
    cases b with
    | nan => cases h
    | inf t => simp only [mul] at h; split at h <;> cases h
    | num y => exact ⟨⟨x, rfl⟩, ⟨y, rfl⟩⟩

theorem sub_finite {a b : Dbl} (h : (A.sub a b).Finite) : a.Finite ∧ b.Finite := by
  obtain ⟨z, h⟩ := h
  cases a with
  | nan => cases h
  | inf s =>
    cases b with
    | nan => cases h
    | inf t => simp only [sub] at h; split at h <;> cases h
    | num y => cases h
  | num x =>
    cases b with
    | nan => cases h
    | inf t => cases h
    | num y => exact ⟨⟨x, rfl⟩, ⟨y, rfl⟩⟩

theorem neg_finite {a : Dbl} (h : (neg a).Finite) : a.Finite := by
  obtain ⟨z, h⟩ := h
  cases a with
  | nan => cases h
  | inf s => cases h
  | num x => exact ⟨x, rfl⟩

/-- A result that does not overflow is the rounded one. -/
theorem round_eq {x : ℝ} (h : |A.R.rd x| ≤ A.top) : A.round x = .num (A.R.rd x) := by
  unfold round
  rw [if_pos h]

/-- Results up to `2 ^ 64` do not overflow. -/
theorem round_small {x : ℝ} (h : |x| ≤ 2 ^ 64) : A.round x = .num (A.R.rd x) := by
  apply A.round_eq
  have e : A.R.rd ((2 : ℝ) ^ 64) = 2 ^ 64 := by
    have := A.R.fixed 1 64 (by norm_num)
    simpa using this
  have e' : A.R.rd (-(2 : ℝ) ^ 64) = -2 ^ 64 := by rw [A.R.odd, e]
  obtain ⟨h1, h2⟩ := abs_le.1 h
  have k1 := A.R.mono h1
  have k2 := A.R.mono h2
  rw [e'] at k1
  rw [e] at k2
  exact le_trans (abs_le.2 ⟨k1, k2⟩) A.large

theorem round_num {x y : ℝ} (h : A.round x = .num y) : y = A.R.rd x := by
  unfold round at h
  split at h
  · injection h with h; exact h.symm
  · cases h

theorem add_num {a b : Dbl} {z : ℝ} (h : A.add a b = .num z) :
    ∃ x y, a = .num x ∧ b = .num y ∧ z = A.R.rd (x + y) := by
  obtain ⟨⟨x, rfl⟩, ⟨y, rfl⟩⟩ := A.add_finite ⟨z, h⟩
  exact ⟨x, y, rfl, rfl, A.round_num h⟩

theorem sub_num {a b : Dbl} {z : ℝ} (h : A.sub a b = .num z) :
    ∃ x y, a = .num x ∧ b = .num y ∧ z = A.R.rd (x - y) := by
  obtain ⟨⟨x, rfl⟩, ⟨y, rfl⟩⟩ := A.sub_finite ⟨z, h⟩
  exact ⟨x, y, rfl, rfl, A.round_num h⟩

theorem mul_num {a b : Dbl} {z : ℝ} (h : A.mul a b = .num z) :
    ∃ x y, a = .num x ∧ b = .num y ∧ z = A.R.rd (x * y) := by
  obtain ⟨⟨x, rfl⟩, ⟨y, rfl⟩⟩ := A.mul_finite ⟨z, h⟩
  exact ⟨x, y, rfl, rfl, A.round_num h⟩

theorem round_over {x : ℝ} (h : A.top < |A.R.rd x|) : A.round x = .inf (decide (x < 0)) := by
  unfold round
  rw [if_neg (not_le.2 h)]

theorem round_cases (x : ℝ) : (A.round x = .num (A.R.rd x) ∧ |A.R.rd x| ≤ A.top) ∨
    (∃ s, A.round x = .inf s) ∧ A.top < |A.R.rd x| := by
  by_cases h : |A.R.rd x| ≤ A.top
  · exact .inl ⟨A.round_eq h, h⟩
  · exact .inr ⟨⟨_, A.round_over (not_le.1 h)⟩, not_le.1 h⟩

end Ieee
end Verif
