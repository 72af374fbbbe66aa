import Mathlib.Algebra.Order.Group.Abs
import Mathlib.Tactic.Linarith
import Verif.Model.Clamp

/-!
# C43, C67: clamping and spreading values
-/
namespace Verif.Clamp
open Verif

section
variable {T : Type} [LinearOrder T]

theorem clamp_eq {v lo hi : T} (h : lo ≤ hi) :
    clampValue v lo hi = .ok (if v < lo then lo else if hi < v then hi else v) := by
  unfold clampValue stdMin stdMax
  rw [Out.assert_true h]
  simp only [Out.bind_ok]
  congr 1
  by_cases h1 : v < lo
  · rw [if_pos h1, if_neg (not_lt.2 h1.le)]
    by_cases h4 : lo < hi
    · rw [if_pos h4]
    · rw [if_neg h4]; exact le_antisymm (not_lt.1 h4) h
  · rw [if_neg h1]
    by_cases h2 : lo < v
    · rw [if_pos h2]
      by_cases h3 : hi < v
      · rw [if_neg (not_lt.2 h3.le), if_pos h3]
      · rw [if_neg h3]
        by_cases h4 : v < hi
        · rw [if_pos h4]
        · rw [if_neg h4]; exact le_antisymm (not_lt.1 h4) (not_lt.1 h3)
    · have : v = lo := le_antisymm (not_lt.1 h2) (not_lt.1 h1)
      subst this
      rw [if_neg h2, if_neg (not_lt.2 h)]
      by_cases h4 : v < hi
      · rw [if_pos h4]
      · rw [if_neg h4]; exact le_antisymm (not_lt.1 h4) h

/-- With `lo ≤ hi`, `ClampValue(v, lo, hi)` lies in `[lo, hi]` and equals `v` exactly if `v` already does;
otherwise it is the bound on the side of `v`. -/
theorem C43_clamp (v lo hi : T) (h : lo ≤ hi) :
    ∃ r, clampValue v lo hi = .ok r ∧ lo ≤ r ∧ r ≤ hi ∧ (r = v ↔ lo ≤ v ∧ v ≤ hi) ∧
      (v < lo → r = lo) ∧ (hi < v → r = hi) := by
  refine ⟨_, clamp_eq h, ?_⟩
  by_cases h1 : v < lo
  · rw [if_pos h1]
    exact ⟨le_refl _, h, ⟨fun e => absurd e (ne_of_gt h1), fun e => absurd e.1 (not_le.2 h1)⟩, fun _ => rfl,
      fun e => absurd (lt_of_lt_of_le h1 h) (not_lt.2 e.le)⟩
  · rw [if_neg h1]
    by_cases h2 : hi < v
    · rw [if_pos h2]
      exact ⟨h, le_refl _, ⟨fun e => absurd e (ne_of_lt h2), fun e => absurd e.2 (not_le.2 h2)⟩,
        fun e => absurd e h1, fun _ => rfl⟩
    · rw [if_neg h2]
      exact ⟨not_lt.1 h1, not_lt.1 h2, ⟨fun _ => ⟨not_lt.1 h1, not_lt.1 h2⟩, fun _ => rfl⟩,
        fun e => absurd e h1, fun e => absurd e h2⟩

/-- `ClampValueAndWarn` gives the value of `ClampValue`, and prints a message exactly when that differs
from the argument, naming the old and the new value. -/
theorem C43_warn (v lo hi : T) (h : lo ≤ hi) :
    ∃ r w, clampValue v lo hi = .ok r ∧ clampValueAndWarn v lo hi = .ok (r, w) ∧
      (w = .none ↔ r = v) ∧ (w = .toMin v lo ↔ v < lo) ∧ (w = .toMax v hi ↔ hi < v) := by
  unfold clampValueAndWarn
  rw [clamp_eq h, Out.assert_true h]
  simp only [Out.bind_ok]
  by_cases h1 : v < lo
  · simp only [if_pos h1]
    exact ⟨_, _, rfl, rfl, by simp [ne_of_gt h1], by simp [h1], by simp [not_lt.2 (h1.le.trans h)]⟩
  · simp only [if_neg h1]
    by_cases h2 : hi < v
    · simp only [if_pos h2]
      exact ⟨_, _, rfl, rfl, by simp [ne_of_lt h2], by simp [h1], by simp [h2]⟩
    · simp only [if_neg h2]
      exact ⟨_, _, rfl, rfl, by simp, by simp [h1], by simp [h2]⟩

/-- With `hi < lo` all four functions fail an assertion. -/
theorem C43_bad_bounds (v lo hi : T) (h : hi < lo) :
    clampValue v lo hi = .abort ∧ clampValueAndWarn v lo hi = .abort := by
  unfold clampValue clampValueAndWarn
  rw [Out.assert_false (not_le.2 h)]
  exact ⟨rfl, rfl⟩

/-- With `low ≤ mid ≤ high`, `SpreadValue` never gives a value strictly between the thresholds, leaves
values outside them as they are, sends those from the midpoint up to the high and those below it to the
low threshold, and keeps the order of values. -/
theorem C67_spread (low mid high : T) (h1 : low ≤ mid) (h2 : mid ≤ high) :
    (∀ v, ∃ r, spreadValue v low mid high = .ok r ∧ (r ≤ low ∨ high ≤ r) ∧
      (v < low ∨ high ≤ v → r = v) ∧ (low ≤ v → v < mid → r = low) ∧ (mid ≤ v → v < high → r = high)) ∧
    (∀ v v' r r', v ≤ v' → spreadValue v low mid high = .ok r → spreadValue v' low mid high = .ok r' →
      r ≤ r') := by
  have key : ∀ v, spreadValue v low mid high = .ok (if v < low ∨ high ≤ v then v
      else if v < mid then low else high) := by
    intro v
    unfold spreadValue
    rw [Out.assert_true h1, Out.assert_true h2]
    simp only [Out.bind_ok]
    by_cases c0 : v < low
    · have d1 : ¬ (mid ≤ v ∧ v < high) := fun c => absurd (c0.trans_le h1) (not_lt.2 c.1)
      have d2 : ¬ (v < mid ∧ low < v) := fun c => absurd c.2 (not_lt.2 c0.le)
      simp only [if_neg d1, if_neg d2, if_pos (show v < low ∨ high ≤ v from .inl c0)]
    · by_cases c1 : high ≤ v
      · have d1 : ¬ (mid ≤ v ∧ v < high) := fun c => absurd c.2 (not_lt.2 c1)
        have d2 : ¬ (v < mid ∧ low < v) := fun c => absurd (h2.trans c1) (not_le.2 c.1)
        simp only [if_neg d1, if_neg d2, if_pos (show v < low ∨ high ≤ v from .inr c1)]
      · have d0 : ¬ (v < low ∨ high ≤ v) := fun c => c.elim c0 c1
        simp only [if_neg d0]
        by_cases c2 : v < mid
        · have d1 : ¬ (mid ≤ v ∧ v < high) := fun c => absurd c.1 (not_le.2 c2)
          simp only [if_pos c2, if_neg d1]
          by_cases c3 : low < v
          · rw [if_pos ⟨c2, c3⟩]
          · rw [if_neg (fun c => c3 c.2), le_antisymm (not_lt.1 c3) (not_lt.1 c0)]
        · rw [if_neg c2, if_pos ⟨not_lt.1 c2, not_le.1 c1⟩]
  constructor
  · intro v
    refine ⟨_, key v, ?_⟩
    by_cases c : v < low ∨ high ≤ v
    · rw [if_pos c]
      refine ⟨c.imp le_of_lt id, fun _ => rfl, fun a b => ?_, fun a b => ?_⟩
      · exact c.elim (fun c => absurd c (not_lt.2 a)) (fun c => absurd (b.trans_le h2) (not_lt.2 c))
      · exact c.elim (fun c => absurd (c.trans_le h1) (not_lt.2 a)) (fun c => absurd b (not_lt.2 c))
    · rw [if_neg c]
      by_cases c2 : v < mid
      · rw [if_pos c2]
        exact ⟨.inl (le_refl _), fun e => absurd e c, fun _ _ => rfl, fun a => absurd a (not_le.2 c2)⟩
      · rw [if_neg c2]
        exact ⟨.inr (le_refl _), fun e => absurd e c, fun _ a => absurd a c2, fun _ _ => rfl⟩
  · intro v v' r r' h e e'
    rw [key] at e e'
    injection e with e
    injection e' with e'
    rw [← e, ← e']
    have hlh : low ≤ high := h1.trans h2
    by_cases c : v < low ∨ high ≤ v
    · rw [if_pos c]
      by_cases c' : v' < low ∨ high ≤ v'
      · rw [if_pos c']; exact h
      · rw [if_neg c']
        rcases c with c | c
        · by_cases d : v' < mid
          · rw [if_pos d]; exact c.le
          · rw [if_neg d]; exact c.le.trans hlh
        · exact absurd (.inr (c.trans h)) c'
    · rw [if_neg c]
      have c0 : low ≤ v := not_lt.1 (fun e => c (.inl e))
      by_cases d : v < mid
      · rw [if_pos d]
        by_cases c' : v' < low ∨ high ≤ v'
        · rw [if_pos c']; exact c0.trans h
        · rw [if_neg c']
          by_cases d' : v' < mid
          · rw [if_pos d']
          · rw [if_neg d']; exact hlh
      · rw [if_neg d]
        by_cases c' : v' < low ∨ high ≤ v'
        · rw [if_pos c']
          exact c'.elim (fun e => absurd (c0.trans h) (not_le.2 e)) id
        · rw [if_neg c', if_neg (fun e => d (h.trans_lt e))]

/-- `SpreadValueAndWarn` gives the value of `SpreadValue` and prints a message exactly when the value was
between the thresholds; both fail an assertion when the thresholds are out of order. -/
theorem C67_spread_warn (v low mid high : T) :
    (∃ w, spreadValueAndWarn v low mid high = (spreadValue v low mid high >>= fun r => .ok (r, w))) ∧
    (low ≤ mid → mid ≤ high → ∀ r w, spreadValueAndWarn v low mid high = .ok (r, w) →
      (w ≠ .none ↔ (mid ≤ v ∧ v < high) ∨ (low < v ∧ v < mid))) ∧
    (¬ (low ≤ mid ∧ mid ≤ high) → spreadValue v low mid high = .abort) := by
  refine ⟨?_, ?_, ?_⟩
  · unfold spreadValueAndWarn spreadValue
    by_cases h1 : low ≤ mid
    · by_cases h2 : mid ≤ high
      · rw [Out.assert_true h1, Out.assert_true h2]
        simp only [Out.bind_ok]
        by_cases c1 : mid ≤ v ∧ v < high
        · simp only [if_pos c1, Out.bind_ok]; exact ⟨_, rfl⟩
        · simp only [if_neg c1]
          by_cases c2 : v < mid ∧ low < v
          · simp only [if_pos c2, Out.bind_ok]; exact ⟨_, rfl⟩
          · simp only [if_neg c2, Out.bind_ok]; exact ⟨_, rfl⟩
      · rw [Out.assert_true h1, Out.assert_false h2]; exact ⟨.none, rfl⟩
    · rw [Out.assert_false h1]; exact ⟨.none, rfl⟩
  · intro h1 h2 r w h
    unfold spreadValueAndWarn at h
    rw [Out.assert_true h1, Out.assert_true h2] at h
    simp only [Out.bind_ok] at h
    by_cases c1 : mid ≤ v ∧ v < high
    · rw [if_pos c1] at h
      injection h with h; injection h with _ h; subst h
      simp [c1]
    · rw [if_neg c1] at h
      by_cases c2 : v < mid ∧ low < v
      · rw [if_pos c2] at h
        injection h with h; injection h with _ h; subst h
        simp [c2]
      · rw [if_neg c2] at h
        injection h with h; injection h with _ h; subst h
        simp only [ne_eq, not_true_eq_false, false_iff, not_or]
        exact ⟨c1, fun e => c2 ⟨e.2, e.1⟩⟩
  · intro h
    unfold spreadValue
    by_cases h1 : low ≤ mid
    · rw [Out.assert_true h1, Out.assert_false (fun h2 => h ⟨h1, h2⟩)]; rfl
    · rw [Out.assert_false h1]; rfl

end

/-- Over an ordered group, the clamped value is the point of `[lo, hi]` nearest to `v`, and the only such
point. -/
theorem C43_nearest {K : Type} [AddCommGroup K] [LinearOrder K] [IsOrderedAddMonoid K] (v lo hi : K)
    (h : lo ≤ hi) : ∃ r, clampValue v lo hi = .ok r ∧ ∀ x, lo ≤ x → x ≤ hi →
      |r - v| ≤ |x - v| ∧ (|x - v| = |r - v| → x = r) := by
  refine ⟨_, clamp_eq h, ?_⟩
  intro x hx1 hx2
  by_cases h1 : v < lo
  · rw [if_pos h1, abs_of_nonneg (sub_nonneg.2 h1.le), abs_of_nonneg (sub_nonneg.2 (h1.le.trans hx1))]
    exact ⟨sub_le_sub_right hx1 v, fun e => sub_left_inj.1 e⟩
  · rw [if_neg h1]
    by_cases h2 : hi < v
    · rw [if_pos h2, abs_of_nonpos (sub_nonpos.2 h2.le), abs_of_nonpos (sub_nonpos.2 (hx2.trans h2.le))]
      exact ⟨neg_le_neg (sub_le_sub_right hx2 v), fun e => sub_left_inj.1 (neg_inj.1 e)⟩
    · rw [if_neg h2, sub_self, abs_zero]
      exact ⟨abs_nonneg _, fun e => sub_eq_zero.1 (abs_eq_zero.1 e)⟩

/-- Not-a-number arguments: `ClampValue` gives the lower bound, but `ClampValueAndWarn` gives not-a-number
back without a warning; a not-a-number bound fails the assertion. -/
theorem C43_nan {K : Type} [LinearOrder K] (lo hi : K) (h : lo ≤ hi) :
    clampValue (WithNan.nan : WithNan K) (.num lo) (.num hi) = .ok (.num lo) ∧
    clampValueAndWarn (WithNan.nan : WithNan K) (.num lo) (.num hi) = .ok (.nan, .none) ∧
    ∀ v b : WithNan K, clampValue v .nan b = .abort ∧ clampValue v b .nan = .abort := by
  have hle : (WithNan.num lo : WithNan K) ≤ .num hi := h
  have n1 : ¬ (WithNan.num lo : WithNan K) < .nan := fun h => h
  have n2 : ¬ (WithNan.nan : WithNan K) < .num lo := fun h => h
  have n3 : ¬ (WithNan.num hi : WithNan K) < .nan := fun h => h
  have n4 : ¬ (WithNan.num lo : WithNan K) < .num lo := fun h => lt_irrefl lo h
  refine ⟨?_, ?_, ?_⟩
  · unfold clampValue stdMin stdMax
    rw [Out.assert_true hle, if_neg n1]
    simp only [Out.bind_ok]
    by_cases hh : (WithNan.num lo : WithNan K) < .num hi
    · rw [if_pos hh]
    · rw [if_neg hh]
      have : ¬ lo < hi := hh
      rw [le_antisymm h (not_lt.1 this)]
  · unfold clampValueAndWarn
    rw [Out.assert_true hle]
    simp only [Out.bind_ok, if_neg n2, if_neg n3]
  · intro v b
    have m1 : ¬ (WithNan.nan : WithNan K) ≤ b := by intro h; cases b <;> exact h
    have m2 : ¬ b ≤ (WithNan.nan : WithNan K) := by intro h; cases b <;> exact h
    unfold clampValue
    rw [Out.assert_false m1, Out.assert_false m2]
    exact ⟨rfl, rfl⟩

example : clampValue (7 : Int) 2 5 = .ok 5 ∧ clampValue (3 : Int) 2 5 = .ok 3 ∧
    clampValue (7 : Int) 5 2 = .abort ∧ spreadValue (3 : Int) 1 2 5 = .ok 5 ∧
    spreadValue (1 : Int) 0 2 5 = .ok 0 ∧ spreadValue (2 : Int) 2 2 5 = .ok 5 := by decide

end Verif.Clamp
