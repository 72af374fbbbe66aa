import Verif.Model.AngleSpecial
import Verif.Props.VectorSpecial
import Mathlib.Analysis.SpecialFunctions.Trigonometric.Inverse

/-!
# Properties of angles between vectors with special doubles: C203
-/
namespace Verif.AngleSpecial
open Verif Verif.VectorSpecial

variable (A : Ieee)

/-! ## Limiting the cosine -/

/-- **C203, cosines.** Every value is limited to [-1, 1]. A value that is not a number becomes -1. -/
theorem C203_limit (raw : Dbl) :
    limit raw = .num (match raw with
      | .nan => -1
      | .inf negative => if negative then -1 else 1
      | .num x => max (-1) (min 1 x)) := by
  classical
  unfold limit ColorSpecial.stdMax MathSpecial.stdMin
  cases raw with
  | nan =>
    rw [if_neg (show ¬ Ieee.lt (.num 1) .nan from id), if_neg (show ¬ Ieee.lt (.num (-1)) .nan from id)]
  | inf s =>
    cases s with
    | true =>
      rw [if_neg (show ¬ Ieee.lt (.num 1) (.inf true) by simp [Ieee.lt]),
        if_neg (show ¬ Ieee.lt (.num (-1)) (.inf true) by simp [Ieee.lt])]
      simp
    | false =>
      rw [if_pos (show Ieee.lt (.num 1) (.inf false) from rfl),
        if_pos (show Ieee.lt (.num (-1)) (.num 1) by show (-1 : ℝ) < 1; norm_num)]
      simp
  | num x =>
    simp only
    by_cases h1 : 1 < x
    · rw [if_pos (show Ieee.lt (.num 1) (.num x) from h1),
        if_pos (show Ieee.lt (.num (-1)) (.num 1) by show (-1 : ℝ) < 1; norm_num), min_eq_left h1.le,
        max_eq_right (by norm_num)]
    · rw [if_neg (show ¬ Ieee.lt (.num 1) (.num x) from h1), min_eq_right (not_lt.1 h1)]
      by_cases h2 : -1 < x
      · rw [if_pos (show Ieee.lt (.num (-1)) (.num x) from h2), max_eq_right h2.le]
      · rw [if_neg (show ¬ Ieee.lt (.num (-1)) (.num x) from h2), max_eq_left (not_lt.1 h2)]

theorem limit_range (raw : Dbl) : ∃ c : ℝ, limit raw = .num c ∧ |c| ≤ 1 := by
  refine ⟨_, C203_limit raw, ?_⟩
  cases raw with
  | nan => simp
  | inf s => cases s <;> simp
  | num x =>
    simp only
    rw [abs_le]
    exact ⟨le_max_left _ _, max_le (by norm_num) (min_le_left _ _)⟩

/-! ## Sums with a summand that is not finite -/

theorem total_finite {l : List Dbl} {t : Dbl} (h : Total A l t) (hf : t.Finite) : ∀ x ∈ l, x.Finite := by
  induction h with
  | zero => simp
  | one a => intro x hx; rw [List.mem_singleton] at hx; exact hx ▸ hf
  | @two l m n a b h1 h2 hp ih1 ih2 =>
    obtain ⟨fa, fb⟩ := A.add_finite hf
    intro x hx
    rcases List.mem_append.1 (hp.mem_iff.1 hx) with hx | hx
    · exact ih1 fa x hx
    · exact ih2 fb x hx

theorem total_zero {l : List Dbl} {t : Dbl} (h : Total A l t) (hz : ∀ x ∈ l, x = .num 0) : t = .num 0 := by
  induction h with
  | zero => rfl
  | one a => exact hz a (by simp)
  | @two l m n a b h1 h2 hp ih1 ih2 =>
    rw [ih1 fun x hx => hz x (hp.mem_iff.2 (List.mem_append_left _ hx)),
      ih2 fun x hx => hz x (hp.mem_iff.2 (List.mem_append_right _ hx))]
    show A.round (0 + 0) = _
    rw [add_zero, A.round_small (by norm_num), A.R.zero]

theorem zip_left {f : Dbl → Dbl → Dbl} {l m : List Dbl} (hl : l.length = m.length) {x : Dbl} (hx : x ∈ l) :
    ∃ y ∈ m, f x y ∈ List.zipWith f l m := by
  induction l generalizing m with
  | nil => cases hx
  | cons a l ih =>
    cases m with
    | nil => cases hl
    | cons b m =>
      rcases List.mem_cons.1 hx with rfl | hx
      · exact ⟨b, by simp, by simp⟩
      · obtain ⟨y, hy, h⟩ := ih (by simpa using hl) hx
        exact ⟨y, List.mem_cons_of_mem _ hy, by rw [List.zipWith_cons_cons]; exact List.mem_cons_of_mem _ h⟩

theorem zip_right {f : Dbl → Dbl → Dbl} {l m : List Dbl} (hl : l.length = m.length) {y : Dbl} (hy : y ∈ m) :
    ∃ x ∈ l, f x y ∈ List.zipWith f l m := by
  induction l generalizing m with
  | nil => cases m with
    | nil => cases hy
    | cons => cases hl
  | cons a l ih =>
    cases m with
    | nil => cases hl
    | cons b m =>
      rcases List.mem_cons.1 hy with rfl | hy
      · exact ⟨a, by simp, by simp⟩
      · obtain ⟨x, hx, h⟩ := ih (by simpa using hl) hy
        exact ⟨x, List.mem_cons_of_mem _ hx, by rw [List.zipWith_cons_cons]; exact List.mem_cons_of_mem _ h⟩

theorem zip_mem {f : Dbl → Dbl → Dbl} {l m : List Dbl} {z : Dbl} (h : z ∈ List.zipWith f l m) :
    ∃ x ∈ l, ∃ y ∈ m, z = f x y := by
  induction l generalizing m with
  | nil => simp at h
  | cons a l ih =>
    cases m with
    | nil => simp at h
    | cons b m =>
      rw [List.zipWith_cons_cons] at h
      rcases List.mem_cons.1 h with rfl | h
      · exact ⟨a, by simp, b, by simp, rfl⟩
      · obtain ⟨x, hx, y, hy, e⟩ := ih h
        exact ⟨x, List.mem_cons_of_mem _ hx, y, List.mem_cons_of_mem _ hy, e⟩

theorem mul_nan_right (a : Dbl) : A.mul a .nan = .nan := by cases a <;> rfl

theorem mul_nan_left (a : Dbl) : A.mul .nan a = .nan := by cases a <;> rfl

theorem not_positive_nan : ¬ Ieee.lt (.num 0) .nan := id

theorem div_inf {d : Dbl} (h : ¬ d.Finite) : A.div d (.inf false) = .nan := by
  cases d with
  | nan => rfl
  | inf s => rfl
  | num x => exact absurd ⟨x, rfl⟩ h

/-! ## Weighted angles -/

/-- **C203, the assertion.** A vector with an entry that is not a number fails the assertion, whatever the weights. -/
theorem C203_not_a_number (v1 v2 w : List Dbl) (h1 : v1.length = w.length) (h2 : v2.length = w.length)
    (n1 n2 d : Dbl) (hn1 : IsWeightedNorm A v1 w n1) (hn2 : IsWeightedNorm A v2 w n2)
    (h : .nan ∈ v1 ∨ .nan ∈ v2) : weightedCosine A n1 n2 d = .abort := by
  classical
  have key : ∀ (v : List Dbl) (n : Dbl), v.length = w.length → IsWeightedNorm A v w n → .nan ∈ v → n = .nan := by
    rintro v n hl ⟨t, ht, rfl⟩ hv
    have hz : (List.zipWith A.mul v w).length = v.length := by simp [hl]
    obtain ⟨x, _, hx⟩ := zip_right (f := A.mul) hz hv
    rw [mul_nan_right] at hx
    rw [(total_cases A ht).1 hx]
    rfl
  unfold weightedCosine
  rw [Out.assert_false]
  · rfl
  · rintro ⟨p1, p2⟩
    rcases h with h | h
    · rw [key v1 n1 h1 hn1 h] at p1; exact p1
    · rw [key v2 n2 h2 hn2 h] at p2; exact p2

theorem long_round {x : ℝ} (h : 0 ≤ x) : Long (A.round x) := by
  unfold Ieee.round
  split
  · exact .inr ⟨_, rfl, A.R.nonneg h⟩
  · left
    rw [decide_eq_false (not_lt.2 h)]

/-- a summand of a weighted norm -/
theorem long_weighted {x y : Dbl} (hx : x ≠ .nan) (hy : y.Positive) :
    Long (A.mul (A.mul x y) x) ∧ ∀ s, x = .inf s → A.mul (A.mul x y) x = .inf false := by
  obtain ⟨w, rfl, hw⟩ := hy
  cases x with
  | nan => exact absurd rfl hx
  | inf s =>
    have e : A.mul (A.mul (.inf s) (.num w)) (.inf s) = .inf false := by
      simp [Ieee.mul, ne_of_gt hw, not_lt.2 hw.le]
    exact ⟨.inl e, fun _ _ => e⟩
  | num x =>
    refine ⟨?_, fun s h => by cases h⟩
    show Long (A.mul (A.round (x * w)) (.num x))
    rcases lt_trichotomy x 0 with h | h | h
    · have hn : 0 ≤ (-x) * w := mul_nonneg (neg_nonneg.2 h.le) hw.le
      have hr : A.R.rd (x * w) ≤ 0 := by
        have := A.R.nonneg hn
        rw [neg_mul, A.R.odd] at this
        linarith
      unfold Ieee.round
      split
      · exact long_round A (mul_nonneg_of_nonpos_of_nonpos hr h.le)
      · left
        simp [Ieee.mul, h.ne, h, mul_neg_of_neg_of_pos h hw]
    · subst h
      rw [zero_mul, A.round_small (by norm_num), A.R.zero]
      exact long_round A (by norm_num)
    · have hr := A.R.nonneg (mul_nonneg h.le hw.le)
      unfold Ieee.round
      split
      · exact long_round A (mul_nonneg hr h.le)
      · left
        simp [Ieee.mul, h.ne', not_lt.2 h.le, not_lt.2 (mul_pos h hw).le]

theorem weighted_mem {v w : List Dbl} {s : Dbl} (hs : s ∈ List.zipWith A.mul (List.zipWith A.mul v w) v) :
    ∃ x ∈ v, ∃ y ∈ w, s = A.mul (A.mul x y) x := by
  induction v generalizing w with
  | nil => simp at hs
  | cons a v ih =>
    cases w with
    | nil => simp at hs
    | cons b w =>
      rw [List.zipWith_cons_cons, List.zipWith_cons_cons] at hs
      rcases List.mem_cons.1 hs with rfl | hs
      · exact ⟨a, by simp, b, by simp, rfl⟩
      · obtain ⟨x, hx, y, hy, e⟩ := ih hs
        exact ⟨x, List.mem_cons_of_mem _ hx, y, List.mem_cons_of_mem _ hy, e⟩

theorem weighted_at {v w : List Dbl} (hl : v.length = w.length) {x : Dbl} (hx : x ∈ v) :
    ∃ y ∈ w, A.mul (A.mul x y) x ∈ List.zipWith A.mul (List.zipWith A.mul v w) v := by
  induction v generalizing w with
  | nil => cases hx
  | cons a v ih =>
    cases w with
    | nil => cases hl
    | cons b w =>
      rw [List.zipWith_cons_cons, List.zipWith_cons_cons]
      rcases List.mem_cons.1 hx with rfl | hx
      · exact ⟨b, by simp, by simp⟩
      · obtain ⟨y, hy, h⟩ := ih (by simpa using hl) hx
        exact ⟨y, List.mem_cons_of_mem _ hy, List.mem_cons_of_mem _ h⟩

/-- **C203, weighted norms.** With positive weights, in whatever order Eigen adds up: a norm is never negative and not
NaN unless an entry is, and it is infinite if an entry is. -/
theorem C203_weighted_norm (v w : List Dbl) (hl : v.length = w.length) (hw : ∀ y ∈ w, y.Positive) (n : Dbl)
    (h : IsWeightedNorm A v w n) :
    (.nan ∈ v → n = .nan) ∧ (.nan ∉ v → Long n) ∧ (Infinite v → n = .inf false) := by
  obtain ⟨t, ht, rfl⟩ := h
  obtain ⟨h1, h2, h3⟩ := total_cases A ht
  have all : .nan ∉ v → ∀ s ∈ List.zipWith A.mul (List.zipWith A.mul v w) v, Long s := by
    intro hn s hs
    obtain ⟨x, hx, y, hy, rfl⟩ := weighted_mem A hs
    exact (long_weighted A (fun e => hn (e ▸ hx)) (hw y hy)).1
  refine ⟨?_, fun hn => sqrt_long A (h2 (all hn)), ?_⟩
  · intro hn
    obtain ⟨y, _, hm⟩ := weighted_at A hl hn
    rw [mul_nan_right] at hm
    rw [h1 hm]
    rfl
  · rintro ⟨hn, s, hs⟩
    obtain ⟨y, hy, hm⟩ := weighted_at A hl hs
    rw [(long_weighted A (by simp) (hw y hy)).2 s rfl] at hm
    rw [h3 (all hn) hm]
    simp [Ieee.sqrt]

theorem positive_long {n : Dbl} (h : Long n) : Ieee.lt (.num 0) n ↔ n ≠ .num 0 := by
  rcases h with rfl | ⟨x, rfl, hx⟩
  · simp [Ieee.lt]
  · constructor
    · rintro h e
      injection e with e
      subst e
      exact lt_irrefl _ h
    · intro h
      exact lt_of_le_of_ne hx (fun e => h (by rw [← e]))

/-- **C203, overflow.** If the product of the norms is too large for a `double`, the cosine is 0 when the dot product is
a number and -1 when it is not. -/
theorem C203_overflow (n1 n2 d : Dbl) (h1 : Ieee.lt (.num 0) n1) (h2 : Ieee.lt (.num 0) n2)
    (hm : A.mul n1 n2 = .inf false) :
    (d.Finite → weightedCosine A n1 n2 d = .ok (.num 0)) ∧
      (¬ d.Finite → weightedCosine A n1 n2 d = .ok (.num (-1))) := by
  classical
  constructor
  · rintro ⟨x, rfl⟩
    unfold weightedCosine
    rw [Out.assert_true ⟨h1, h2⟩, Out.bind_ok, hm]
    show Out.ok (limit (.num 0)) = _
    rw [C203_limit]
    norm_num
  · intro hf
    unfold weightedCosine
    rw [Out.assert_true ⟨h1, h2⟩, Out.bind_ok, hm, div_inf A hf, C203_limit]

theorem mul_inf_positive {n : Dbl} (h : Ieee.lt (.num 0) n) :
    A.mul (.inf false) n = .inf false ∧ A.mul n (.inf false) = .inf false := by
  cases n with
  | nan => cases h
  | inf t => have : t = false := h; subst this; simp [Ieee.mul]
  | num x =>
    have hx : 0 < x := h
    simp [Ieee.mul, ne_of_gt hx, not_lt.2 hx.le]

open Classical in
/-- **C203, infinite entries.** If an entry of one of the vectors is infinite, none is NaN, and the weights are
positive, the cosine is -1, also that of a vector and itself, unless a norm is zero, which fails the assertion. -/
theorem C203_infinite (v1 v2 w : List Dbl) (h1 : v1.length = w.length) (h2 : v2.length = w.length)
    (hw : ∀ y ∈ w, y.Positive) (n1 n2 d : Dbl) (hn1 : IsWeightedNorm A v1 w n1) (hn2 : IsWeightedNorm A v2 w n2)
    (hd : IsWeightedDot A v1 v2 w d) (k1 : .nan ∉ v1) (k2 : .nan ∉ v2) (h : Infinite v1 ∨ Infinite v2) :
    weightedCosine A n1 n2 d = if n1 = .num 0 ∨ n2 = .num 0 then .abort else .ok (.num (-1)) := by
  have hz : (List.zipWith A.mul v1 w).length = v2.length := by simp [h1, h2]
  have nf : ¬ d.Finite := by
    intro hf
    have all := total_finite A hd hf
    rcases h with ⟨_, s, hs⟩ | ⟨_, s, hs⟩
    · obtain ⟨y, hy, hm⟩ := zip_left (f := A.mul) h1 hs
      obtain ⟨z, _, hm⟩ := zip_left (f := A.mul) hz hm
      obtain ⟨q, hq⟩ := (A.mul_finite (A.mul_finite (all _ hm)).1).1
      cases hq
    · obtain ⟨x, _, hm⟩ := zip_right (f := A.mul) hz hs
      obtain ⟨-, ⟨q, hq⟩⟩ := A.mul_finite (all _ hm)
      cases hq
  have c1 := C203_weighted_norm A v1 w h1 hw n1 hn1
  have c2 := C203_weighted_norm A v2 w h2 hw n2 hn2
  have p1 := positive_long (c1.2.1 k1)
  have p2 := positive_long (c2.2.1 k2)
  by_cases hp : n1 = .num 0 ∨ n2 = .num 0
  · rw [if_pos hp]
    unfold weightedCosine
    rw [Out.assert_false (by rw [p1, p2]; tauto)]
    rfl
  · rw [if_neg hp]
    push Not at hp
    refine (C203_overflow A n1 n2 d (p1.2 hp.1) (p2.2 hp.2) ?_).2 nf
    rcases h with h | h
    · rw [c1.2.2 h]; exact (mul_inf_positive A (p2.2 hp.2)).1
    · rw [c2.2.2 h]; exact (mul_inf_positive A (p1.2 hp.1)).2

/-- **C203, a long vector and itself.** With weights of one, the cosine of a vector whose entry has too large a square
with itself is -1 and not 1. -/
theorem C203_opposite_to_itself (acos : ℝ → ℝ) (v w : List Dbl) (hl : v.length = w.length) (hw : ∀ y ∈ w, y = .num 1)
    (hv : ∀ x, .num x ∈ v → A.R.Fp x ∧ |x| ≤ A.top) (h : TooLong A v) (n1 n2 d : Dbl)
    (hn1 : IsWeightedNorm A v w n1) (hn2 : IsWeightedNorm A v w n2) (hd : IsWeightedDot A v v w d) :
    weightedCosine A n1 n2 d = .ok (.num (-1)) ∧ weightedAngle A acos n1 n2 d = .ok (.num (acos (-1))) := by
  have hinf : ∀ t, IsWeightedDot A v v w t → t = .inf false := by
    intro t ht
    obtain ⟨hf, x, hx, ho⟩ := h
    refine (total_cases A ht).2.2 ?_ ?_
    · intro s hs
      obtain ⟨x, hx, y, hy, rfl⟩ := weighted_mem A hs
      refine (long_weighted A ?_ ⟨1, hw y hy, by norm_num⟩).1
      rintro rfl
      obtain ⟨q, hq⟩ := hf _ hx
      cases hq
    · obtain ⟨y, hy, hm⟩ := weighted_at A hl hx
      have e : A.mul (A.mul (.num x) y) (.num x) = .inf false := by
        rw [hw y hy]
        show A.mul (A.round (x * 1)) (.num x) = _
        rw [mul_one, A.round_eq (by rw [(hv x hx).1]; exact (hv x hx).2), (hv x hx).1]
        show A.round (x * x) = _
        rw [A.round_over ho, decide_eq_false (not_lt.2 (mul_self_nonneg x))]
      rwa [e] at hm
  have hn : ∀ n, IsWeightedNorm A v w n → n = .inf false := by
    rintro n ⟨t, ht, rfl⟩
    rw [hinf t ht]
    simp [Ieee.sqrt]
  rw [hn n1 hn1, hn n2 hn2, hinf d hd]
  have hp : Ieee.lt (.num 0) (.inf false) := rfl
  have e := (C203_overflow A _ _ (.inf false) hp hp (mul_inf_positive A hp).1).2 (by rintro ⟨x, hx⟩; cases hx)
  refine ⟨e, ?_⟩
  unfold weightedAngle
  rw [e, Out.bind_ok]
  simp [arc]

/-- **C203, numbers.** Otherwise the cosine is the rounded quotient, limited to [-1, 1]; norms that are not positive fail
the assertion. -/
theorem C203_numbers (x y d : ℝ) :
    (x ≤ 0 ∨ y ≤ 0 → weightedCosine A (.num x) (.num y) (.num d) = .abort) ∧
    (0 < x → 0 < y → |A.R.rd (x * y)| ≤ A.top → A.R.rd (x * y) ≠ 0 → |A.R.rd (d / A.R.rd (x * y))| ≤ A.top →
      weightedCosine A (.num x) (.num y) (.num d) = .ok (.num (max (-1) (min 1 (A.R.rd (d / A.R.rd (x * y))))))) := by
  classical
  constructor
  · intro h
    unfold weightedCosine
    rw [Out.assert_false]
    · rfl
    · rintro ⟨p1, p2⟩
      rcases h with h | h
      · exact absurd p1 (not_lt.2 h)
      · exact absurd p2 (not_lt.2 h)
  · intro hx hy h1 h2 h3
    unfold weightedCosine
    rw [Out.assert_true ⟨hx, hy⟩, Out.bind_ok]
    show Out.ok (limit (A.div (.num d) (A.round (x * y)))) = _
    rw [A.round_eq h1]
    simp only [Ieee.div]
    rw [if_neg h2, A.round_eq h3, C203_limit]

/-- **C203, angles.** Whatever the vectors, an angle that is returned is the arc cosine of a number in [-1, 1], so it
does not show that the input was not a number or infinite. -/
theorem C203_angle (acos : ℝ → ℝ) (n1 n2 d : Dbl) :
    weightedAngle A acos n1 n2 d = .abort ∨
    ∃ c : ℝ, |c| ≤ 1 ∧ weightedCosine A n1 n2 d = .ok (.num c) ∧ weightedAngle A acos n1 n2 d = .ok (.num (acos c)) := by
  classical
  unfold weightedAngle
  by_cases hp : Ieee.lt (.num 0) n1 ∧ Ieee.lt (.num 0) n2
  · right
    obtain ⟨c, hc, h⟩ := limit_range (A.div d (A.mul n1 n2))
    have e : weightedCosine A n1 n2 d = .ok (.num c) := by
      unfold weightedCosine
      rw [Out.assert_true hp, Out.bind_ok, hc]
    refine ⟨c, h, e, ?_⟩
    rw [e, Out.bind_ok]
    simp [arc, h]
  · left
    have e : weightedCosine A n1 n2 d = .abort := by
      unfold weightedCosine
      rw [Out.assert_false hp]
      rfl
    rw [e]
    rfl

/-! ## Angles defined by points -/

theorem zip_finite {f : Dbl → Dbl → Dbl} (hf : ∀ {a b}, (f a b).Finite → a.Finite ∧ b.Finite) {l m : List Dbl}
    (hl : l.length = m.length) (h : ∀ z ∈ List.zipWith f l m, z.Finite) :
    (∀ x ∈ l, x.Finite) ∧ ∀ y ∈ m, y.Finite := by
  constructor
  · intro x hx
    obtain ⟨y, _, hm⟩ := zip_left (f := f) hl hx
    exact (hf (h _ hm)).1
  · intro y hy
    obtain ⟨x, _, hm⟩ := zip_right (f := f) hl hy
    exact (hf (h _ hm)).2

theorem normalized_length (v : List Dbl) (z : Dbl) : (normalized A v z).length = v.length := by
  unfold normalized
  split <;> simp

/-- what a vector with an entry that is not finite is normalised to has an entry that is not a number -/
theorem normalized_nan {v : List Dbl} {z : Dbl} (hz : IsSquaredNorm A v z) (h : ¬ Numbers v) :
    .nan ∈ normalized A v z := by
  classical
  obtain ⟨h1, h2, h3⟩ := sum_cases A hz
  unfold normalized
  by_cases hn : .nan ∈ v
  · rw [h1 hn, if_neg (show ¬ Ieee.lt (.num 0) .nan from id)]
    exact hn
  · unfold Numbers at h
    push Not at h
    obtain ⟨x, hx, hf⟩ := h
    cases x with
    | nan => exact absurd hx hn
    | num x => exact absurd ⟨x, rfl⟩ hf
    | inf s =>
      rw [h3 (.inl ⟨hn, s, hx⟩), if_pos (show Ieee.lt (.num 0) (.inf false) from rfl)]
      exact List.mem_map.2 ⟨_, hx, by simp [Ieee.sqrt, Ieee.div]⟩

/-- **C203, points.** If a coordinate of one of the three points is infinite or not a number, the angle is the arc cosine
of -1, that is, a straight line is reported. -/
theorem C203_points (acos : ℝ → ℝ) (a b c : List Dbl) (hab : a.length = b.length) (hcb : c.length = b.length)
    (raw : Dbl) (hr : IsRawCosine A a b c raw) (h : ¬ Numbers a ∨ ¬ Numbers b ∨ ¬ Numbers c) :
    angleFromRaw acos raw = .num (acos (-1)) := by
  obtain ⟨z1, z2, hz1, hz2, hd⟩ := hr
  have hl : (normalized A (List.zipWith A.sub a b) z1).length = (normalized A (List.zipWith A.sub c b) z2).length := by
    rw [normalized_length, normalized_length]; simp [hab, hcb]
  have bad : ¬ Numbers (List.zipWith A.sub a b) ∨ ¬ Numbers (List.zipWith A.sub c b) := by
    by_contra hc
    push Not at hc
    obtain ⟨k1, k2⟩ := zip_finite (f := A.sub) (fun h => A.sub_finite h) hab hc.1
    obtain ⟨k3, -⟩ := zip_finite (f := A.sub) (fun h => A.sub_finite h) hcb hc.2
    rcases h with h | h | h
    · exact h k1
    · exact h k2
    · exact h k3
  have e : raw = .nan := by
    rcases bad with hb | hb
    · obtain ⟨y, _, hm⟩ := zip_left (f := A.mul) hl (normalized_nan A hz1 hb)
      rw [mul_nan_left] at hm
      exact (total_cases A hd).1 hm
    · obtain ⟨y, _, hm⟩ := zip_right (f := A.mul) hl (normalized_nan A hz2 hb)
      rw [mul_nan_right] at hm
      exact (total_cases A hd).1 hm
  subst e
  unfold angleFromRaw
  rw [C203_limit]
  simp [arc]

theorem normalized_zero {v : List Dbl} {z : Dbl} (hz : IsSquaredNorm A v z) (h : TooLong A v) :
    normalized A v z = v.map (fun _ => .num 0) := by
  classical
  unfold normalized
  rw [(sum_cases A hz).2.2 (.inr h), if_pos (show Ieee.lt (.num 0) (.inf false) from rfl)]
  apply List.map_congr_left
  intro x hx
  obtain ⟨q, rfl⟩ := h.1 x hx
  simp [Ieee.sqrt, Ieee.div]

/-- **C203, points far apart.** If the first and the last point are so far from the middle one that the square of a
difference is too large for a `double`, the angle is the arc cosine of 0, wherever they are, also if they are the same
point. -/
theorem C203_far_points (acos : ℝ → ℝ) (a b c : List Dbl) (raw : Dbl) (hr : IsRawCosine A a b c raw)
    (h1 : TooLong A (List.zipWith A.sub a b)) (h2 : TooLong A (List.zipWith A.sub c b)) :
    angleFromRaw acos raw = .num (acos 0) := by
  obtain ⟨z1, z2, hz1, hz2, hd⟩ := hr
  rw [normalized_zero A hz1 h1, normalized_zero A hz2 h2] at hd
  have e : raw = .num 0 := by
    refine total_zero A hd ?_
    intro x hx
    obtain ⟨p, hp, q, hq, rfl⟩ := zip_mem hx
    obtain ⟨_, _, rfl⟩ := List.mem_map.1 hp
    obtain ⟨_, _, rfl⟩ := List.mem_map.1 hq
    show A.round (0 * 0) = _
    rw [mul_zero, A.round_small (by norm_num), A.R.zero]
  subst e
  unfold angleFromRaw
  rw [C203_limit]
  norm_num [arc]

/-- **C203, points at ordinary distances.** With squared distances that are positive numbers the angle comes from the
rounded quotients by the root of each; a point that is the middle one is not divided. -/
theorem C203_normalized (v : List ℝ) (z : ℝ) :
    (0 < z → normalized A (v.map .num) (.num z) = v.map (fun x => A.div (.num x) (A.round (Real.sqrt z)))) ∧
    (z ≤ 0 → normalized A (v.map .num) (.num z) = v.map .num) := by
  classical
  constructor
  · intro h
    unfold normalized
    rw [if_pos (show Ieee.lt (.num 0) (.num z) from h), List.map_map]
    apply List.map_congr_left
    intro x _
    simp [Ieee.sqrt, not_lt.2 h.le]
  · intro h
    unfold normalized
    rw [if_neg (show ¬ Ieee.lt (.num 0) (.num z) from not_lt.2 h)]

/-! ## The hypotheses are met -/

theorem total_exists (l : List Dbl) : ∃ t, Total A l t := by
  induction l with
  | nil => exact ⟨_, .zero⟩
  | cons a l ih => exact ⟨_, .two (.one a) ih.choose_spec (List.Perm.refl _)⟩

/-- Every two vectors have a weighted dot product and weighted norms. -/
example (v1 v2 w : List Dbl) : (∃ d, IsWeightedDot A v1 v2 w d) ∧ ∃ n, IsWeightedNorm A v1 w n :=
  ⟨total_exists A _, _, _, (total_exists A _).choose_spec, rfl⟩

/-- Every three points have a cosine. -/
example (a b c : List Dbl) : ∃ raw, IsRawCosine A a b c raw := by
  obtain ⟨z1, h1⟩ := total_exists A ((List.zipWith A.sub a b).map (fun x => A.mul x x))
  obtain ⟨z2, h2⟩ := total_exists A ((List.zipWith A.sub c b).map (fun x => A.mul x x))
  obtain ⟨raw, h⟩ := total_exists A (List.zipWith A.mul (normalized A (List.zipWith A.sub a b) z1)
    (normalized A (List.zipWith A.sub c b) z2))
  exact ⟨raw, z1, z2, h1, h2, h⟩

/-- The points of a right angle, one of them at infinity, and the angle is reported as straight. -/
example (raw : Dbl) (h : IsRawCosine A [.inf false, .num 0] [.num 0, .num 0] [.num 0, .num 1] raw) :
    angleFromRaw Real.arccos raw = .num Real.pi := by
  rw [C203_points A Real.arccos [.inf false, .num 0] [.num 0, .num 0] [.num 0, .num 1] rfl rfl raw h (.inl (by
    intro hn
    obtain ⟨x, hx⟩ := hn (.inf false) (by simp)
    cases hx)), Real.arccos_neg_one]

/-- A vector with an infinite entry and itself: the cosine is -1. -/
example (n1 n2 d : Dbl) (h1 : IsWeightedNorm A [.inf false] [.num 2] n1) (h2 : IsWeightedNorm A [.inf false] [.num 2] n2)
    (hd : IsWeightedDot A [.inf false] [.inf false] [.num 2] d) : weightedCosine A n1 n2 d = .ok (.num (-1)) := by
  classical
  have hw : ∀ y ∈ [Dbl.num 2], y.Positive := by
    intro y hy
    rw [List.mem_singleton] at hy
    exact ⟨2, hy, by norm_num⟩
  have hi : Infinite [.inf false] := ⟨by simp, false, by simp⟩
  rw [C203_infinite A [.inf false] [.inf false] [.num 2] rfl rfl hw n1 n2 d h1 h2 hd (by simp) (by simp) (.inl hi), if_neg]
  rw [(C203_weighted_norm A [.inf false] [.num 2] rfl hw n1 h1).2.2 hi, (C203_weighted_norm A [.inf false] [.num 2] rfl hw n2 h2).2.2 hi]
  simp

/-- There are numbers whose square is too large. -/
theorem large_number : ∃ x : ℝ, A.R.Fp x ∧ |x| ≤ A.top ∧ A.top < |A.R.rd (x * x)| := by
  have hl := A.large
  obtain ⟨n, h1, h2⟩ := exists_nat_pow_near (le_trans (by norm_num) hl : (1 : ℝ) ≤ A.top) (by norm_num : (1 : ℝ) < 2)
  have f : ∀ k : ℕ, A.R.rd ((2 : ℝ) ^ k) = 2 ^ k := by
    intro k
    have := A.R.fixed 1 k (by norm_num)
    simpa using this
  have hn : 1 ≤ n := by
    rcases Nat.eq_zero_or_pos n with rfl | h
    · norm_num at h2; linarith
    · exact h
  refine ⟨2 ^ n, f n, by rw [abs_of_pos (by positivity)]; exact h1, ?_⟩
  rw [← pow_add, f, abs_of_pos (by positivity)]
  exact lt_of_lt_of_le h2 (pow_le_pow_right₀ (by norm_num) (by omega))

/-- A vector that is opposite to itself. -/
example : ∃ v : List Dbl, TooLong A v ∧ ∀ x, .num x ∈ v → A.R.Fp x ∧ |x| ≤ A.top := by
  obtain ⟨x, h1, h2, h3⟩ := large_number A
  refine ⟨[.num x], ⟨by simp [Numbers, Dbl.Finite], x, by simp, h3⟩, ?_⟩
  intro y hy
  simp only [List.mem_singleton, Dbl.num.injEq] at hy
  subst hy
  exact ⟨h1, h2⟩

/-- The same point twice, seen from far away: a right angle is reported. -/
example : ∃ a b : List Dbl, ∀ raw, IsRawCosine A a b a raw →
    angleFromRaw Real.arccos raw = .num (Real.pi / 2) := by
  obtain ⟨x, h1, h2, h3⟩ := large_number A
  refine ⟨[.num x], [.num 0], fun raw h => ?_⟩
  have e : List.zipWith A.sub [.num x] [.num 0] = [.num x] := by
    show [A.round (x - 0)] = _
    rw [sub_zero, A.round_eq (by rw [h1]; exact h2), h1]
  have t : TooLong A (List.zipWith A.sub [.num x] [.num 0]) := by
    rw [e]; exact ⟨by simp [Numbers, Dbl.Finite], x, by simp, h3⟩
  rw [C203_far_points A Real.arccos _ _ _ raw h t t, Real.arccos_zero]

end Verif.AngleSpecial
