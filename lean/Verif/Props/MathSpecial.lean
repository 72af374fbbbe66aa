import Verif.Model.MathSpecial
import Verif.Spec.MathSpecial
import Verif.Props.AnglesRounded
import Verif.Props.RoundedChecks

/-!
# C189: scalar functions and angles with special doubles
-/
namespace Verif.MathSpecial
open Verif

variable (A : Ieee)

/-! ## Comparisons -/

theorem le_round {x e : ℝ} (he : |e| ≤ A.top) :
    Ieee.le (Ieee.abs (A.round x)) (.num |e|) ↔ |A.R.rd x| ≤ |e| := by
  rcases A.round_cases x with ⟨h, _⟩ | ⟨⟨s, h⟩, ht⟩
  · rw [h]; rfl
  · rw [h]
    constructor
    · intro h; cases h
    · intro h; exact absurd (lt_of_lt_of_le ht (le_trans h he)) (lt_irrefl _)

theorem le_inf_round (x : ℝ) : Ieee.le (Ieee.abs (A.round x)) (.inf false) := by
  rcases A.round_cases x with ⟨h, _⟩ | ⟨⟨s, h⟩, _⟩
  · rw [h]; rfl
  · rw [h]; exact .inr rfl

theorem close_iff (p1 p2 t : Dbl) :
    closeEnough A p1 p2 t = true ↔ Ieee.le (Ieee.abs (A.sub p2 p1)) (Ieee.abs t) := by
  unfold closeEnough
  classical exact decide_eq_true_iff

theorem close_false (p1 p2 t : Dbl) :
    closeEnough A p1 p2 t = false ↔ ¬ Ieee.le (Ieee.abs (A.sub p2 p1)) (Ieee.abs t) := by
  rw [← close_iff, Bool.not_eq_true]

/-- **C189.** `CloseEnough`: with a finite threshold exactly the numbers whose rounded difference is within it; with an
infinite threshold everything, but for values that are not a number and an infinity compared with itself; with a
threshold that is not a number nothing. -/
theorem C189_close (p1 p2 : Dbl) :
    (∀ e : ℝ, |e| ≤ A.top → (closeEnough A p1 p2 (.num e) = true ↔
      ∃ x y, p1 = .num x ∧ p2 = .num y ∧ |A.R.rd (y - x)| ≤ |e|)) ∧
    (∀ s, closeEnough A p1 p2 (.inf s) = true ↔ p1 ≠ .nan ∧ p2 ≠ .nan ∧ ¬ ∃ u, p1 = .inf u ∧ p2 = .inf u) ∧
    closeEnough A p1 p2 .nan = false := by
  refine ⟨fun e he => ?_, fun s => ?_, ?_⟩
  · rw [close_iff]
    cases p1 with
    | nan => cases p2 <;> simp [Ieee.sub, Ieee.abs, Ieee.le]
    | inf u =>
      cases p2 with
      | nan => simp [Ieee.sub, Ieee.abs, Ieee.le]
      | inf v => simp only [Ieee.sub]; split <;> simp [Ieee.abs, Ieee.le]
      | num y => simp [Ieee.sub, Ieee.abs, Ieee.le]
    | num x =>
      cases p2 with
      | nan => simp [Ieee.sub, Ieee.abs, Ieee.le]
      | inf v => simp [Ieee.sub, Ieee.abs, Ieee.le]
      | num y =>
        simp only [Ieee.sub]
        rw [show Ieee.abs (.num e) = .num |e| from rfl, le_round A he]
        constructor
        · intro h; exact ⟨x, y, rfl, rfl, h⟩
        · rintro ⟨x', y', h1, h2, h⟩
          cases h1; cases h2; exact h
  · rw [close_iff, show Ieee.abs (.inf s) = .inf false from rfl]
    cases p1 with
    | nan => cases p2 <;> simp [Ieee.sub, Ieee.abs, Ieee.le]
    | inf u =>
      cases p2 with
      | nan => simp [Ieee.sub, Ieee.abs, Ieee.le]
      | inf v => cases u <;> cases v <;> simp [Ieee.sub, Ieee.abs, Ieee.le]
      | num y => simp [Ieee.sub, Ieee.abs, Ieee.le]
    | num x =>
      cases p2 with
      | nan => simp [Ieee.sub, Ieee.abs, Ieee.le]
      | inf v => simp [Ieee.sub, Ieee.abs, Ieee.le]
      | num y =>
        simp only [Ieee.sub]
        refine iff_of_true (le_inf_round A _) ⟨by simp, by simp, ?_⟩
        rintro ⟨u, h, _⟩; cases h
  · rw [close_false]
    cases A.sub p2 p1 <;> exact id

/-- **C189.** `CloseEnough` for vectors: same length, and every pair is close. -/
theorem C189_close_vectors (v1 v2 : List Dbl) (t : Dbl) : ∃ b, closeEnoughVec A v1 v2 t = .ok b ∧
    (b = true ↔ List.Forall₂ (fun x y => closeEnough A x y t = true) v1 v2) := by
  unfold closeEnoughVec
  by_cases hl : v1.length = v2.length
  · rw [if_neg (not_not.2 hl)]
    induction v1 generalizing v2 with
    | nil =>
      cases v2 with
      | nil => exact ⟨true, rfl, by simp⟩
      | cons y ys => simp at hl
    | cons x xs ih =>
      cases v2 with
      | nil => simp at hl
      | cons y ys =>
        unfold closeEnoughLoop
        by_cases h : closeEnough A x y t = false
        · rw [if_pos h]; exact ⟨false, rfl, by simp [h]⟩
        · rw [if_neg h]
          obtain ⟨b, h1, h2⟩ := ih ys (by simpa using hl)
          exact ⟨b, h1, by rw [List.forall₂_cons, ← h2]; simp [h]⟩
  · rw [if_pos hl]
    exact ⟨false, rfl, by simp only [Bool.false_eq_true, false_iff]; exact fun h => hl h.length_eq⟩

/-- A product with a factor of at most one does not overflow. -/
theorem shrink {e x : ℝ} (he : |e| ≤ 1) (fx : A.R.Fp x) (hx : |x| ≤ A.top) :
    |A.R.rd (e * x)| ≤ |x| ∧ A.mul (.num e) (.num x) = .num (A.R.rd (e * x)) ∧
    A.mul (.num x) (.num e) = .num (A.R.rd (x * e)) := by
  have h1 : |e * x| ≤ |x| := by
    rw [abs_mul]; exact mul_le_of_le_one_left (abs_nonneg _) he
  have h2 : |A.R.rd (e * x)| ≤ |x| := RoundedMath.rd_abs_le A.R (RoundedMath.fp_abs A.R fx) h1
  refine ⟨h2, A.round_eq (le_trans h2 hx), A.round_eq ?_⟩
  rw [mul_comm x e]
  exact le_trans h2 hx

theorem stdMin_num (x y : ℝ) : stdMin (.num x) (.num y) = .num (min x y) := by
  unfold stdMin
  by_cases h : y < x
  · rw [if_pos (show Ieee.lt (.num y) (.num x) from h), min_eq_right h.le]
  · rw [if_neg (show ¬ Ieee.lt (.num y) (.num x) from h), min_eq_left (not_lt.1 h)]

/-- **C189.** `IsApprox`, with a precision of at most one. Numbers are compared as `CloseEnough` does. A number is never
approximately infinite, and nothing is approximately not a number. The two infinities are approximately equal, however
small the precision, while none is approximately equal to itself. -/
theorem C189_approx (e : ℝ) (h0 : e ≠ 0) (h1 : |e| ≤ 1) :
    (∀ s t, isApprox A (.inf s) (.inf t) (.num e) = (s != t)) ∧
    (∀ x s, IsDouble A (.num x) → isApprox A (.num x) (.inf s) (.num e) = false ∧
      isApprox A (.inf s) (.num x) (.num e) = false) ∧
    (∀ p, isApprox A p .nan (.num e) = false ∧ isApprox A .nan p (.num e) = false) ∧
    (∀ p q, isApprox A p q .nan = false) ∧
    (∀ x y, IsDouble A (.num x) → IsDouble A (.num y) → (isApprox A (.num x) (.num y) (.num e) = true ↔
      |A.R.rd (y - x)| ≤ |A.R.rd (e * min |x| |y|)|)) := by
  have fmin : ∀ x y, IsDouble A (.num x) → IsDouble A (.num y) → A.R.Fp (min |x| |y|) ∧ |min (|x|) (|y|)| ≤ A.top := by
    intro x y hx hy
    obtain ⟨a, b⟩ := hx x rfl
    obtain ⟨c, d⟩ := hy y rfl
    rcases min_choice (|x|) (|y|) with h | h <;> rw [h, abs_abs]
    · exact ⟨RoundedMath.fp_abs A.R a, b⟩
    · exact ⟨RoundedMath.fp_abs A.R c, d⟩
  refine ⟨fun s t => ?_, fun x s hx => ?_, fun p => ?_, fun p q => ?_, fun x y hx hy => ?_⟩
  · unfold isApprox
    have hm : stdMin (Ieee.abs (.inf s)) (Ieee.abs (.inf t)) = .inf false := by
      unfold stdMin; split <;> rfl
    rw [hm, show A.mul (.num e) (.inf false) = .inf (decide (e < 0) != false) by
      simp only [Ieee.mul]; rw [if_neg h0]]
    rw [Bool.eq_iff_iff, (C189_close A _ _).2.1]
    cases s <;> cases t <;> simp
  · obtain ⟨fx, tx⟩ := hx x rfl
    have key : ∀ p q, stdMin (Ieee.abs p) (Ieee.abs q) = .num |x| → (p = .inf s ∨ q = .inf s) →
        isApprox A p q (.num e) = false := by
      intro p q hm hpq
      unfold isApprox
      obtain ⟨k1, k2, _⟩ := shrink A h1 (RoundedMath.fp_abs A.R fx) (by rwa [abs_abs])
      rw [abs_abs] at k1
      rw [hm, k2, Bool.eq_false_iff]
      intro h
      obtain ⟨u, v, e1, e2, _⟩ := ((C189_close A p q).1 _ (le_trans k1 tx)).1 h
      rcases hpq with h | h
      · rw [h] at e1; cases e1
      · rw [h] at e2; cases e2
    refine ⟨key _ _ ?_ (.inr rfl), key _ _ ?_ (.inl rfl)⟩
    · unfold stdMin; exact if_neg (by intro h; cases h)
    · unfold stdMin; exact if_pos rfl
  · have hn : ∀ (p q t : Dbl), p = .nan ∨ q = .nan → closeEnough A p q t = false := by
      intro p q t h
      rw [close_false]
      have : A.sub q p = .nan := by
        rcases h with rfl | rfl
        · cases q <;> rfl
        · rfl
      rw [this]
      exact id
    exact ⟨hn _ _ _ (.inr rfl), hn _ _ _ (.inl rfl)⟩
  · exact (C189_close A p q).2.2
  · unfold isApprox
    obtain ⟨f, t⟩ := fmin x y hx hy
    obtain ⟨k1, k2, _⟩ := shrink A h1 f t
    rw [show Ieee.abs (.num x) = .num |x| from rfl, show Ieee.abs (.num y) = .num |y| from rfl, stdMin_num, k2,
      (C189_close A _ _).1 _ (le_trans k1 t)]
    constructor
    · rintro ⟨u, v, e1, e2, h⟩; cases e1; cases e2; exact h
    · intro h; exact ⟨x, y, rfl, rfl, h⟩

/-- **C189.** `Sign` is one above zero, also for plus infinity, minus one below, and zero for zero and for what is not a
number. -/
theorem C189_sign (v : Dbl) : (sign v = 1 ↔ v = .inf false ∨ ∃ x, v = .num x ∧ 0 < x) ∧
    (sign v = -1 ↔ v = .inf true ∨ ∃ x, v = .num x ∧ x < 0) ∧ (sign v = 0 ↔ v = .nan ∨ v = .num 0) := by
  unfold sign
  cases v with
  | nan => simp [Ieee.lt]
  | inf s => cases s <;> simp [Ieee.lt]
  | num x =>
    simp only [Ieee.lt, reduceCtorEq, false_or, Dbl.num.injEq, exists_eq_left']
    rcases lt_trichotomy x 0 with h | h | h
    · simp [h, h.ne, not_lt.2 h.le]
    · simp [h]
    · simp [h, h.ne', not_lt.2 h.le]

/-! ## Interpolation -/

/-- **C189.** `SafetyCheckUnitInterval`: ratios below zero and above one, also infinite ones, are replaced with a
message. What is not a number is passed on, silently. -/
theorem C189_ratio (ratio : Dbl) :
    safetyCheckUnitInterval .nan = (.nan, false) ∧ safetyCheckUnitInterval (.inf true) = (.num 0, true) ∧
    safetyCheckUnitInterval (.inf false) = (.num 1, true) ∧
    (∀ x, safetyCheckUnitInterval (.num x) =
      (.num (Angles.safetyCheckUnitInterval x).1, (Angles.safetyCheckUnitInterval x).2)) ∧
    (ratio ≠ .nan → ∃ r, (safetyCheckUnitInterval ratio).1 = .num r ∧ 0 ≤ r ∧ r ≤ 1) := by
  have hn : ∀ x, safetyCheckUnitInterval (.num x) =
      (.num (Angles.safetyCheckUnitInterval x).1, (Angles.safetyCheckUnitInterval x).2) := by
    intro x
    unfold safetyCheckUnitInterval Angles.safetyCheckUnitInterval
    simp only [Ieee.lt]
    by_cases h1 : x < 0 <;> by_cases h2 : 1 < x <;> simp [h1, h2]
  have hi : safetyCheckUnitInterval (.inf true) = (.num 0, true) ∧
      safetyCheckUnitInterval (.inf false) = (.num 1, true) := by
    unfold safetyCheckUnitInterval
    simp [Ieee.lt]
  refine ⟨by unfold safetyCheckUnitInterval; simp [Ieee.lt], hi.1, hi.2, hn, fun h => ?_⟩
  cases ratio with
  | nan => exact absurd rfl h
  | inf s =>
    cases s with
    | true => rw [hi.1]; exact ⟨0, rfl, le_refl _, by norm_num⟩
    | false => rw [hi.2]; exact ⟨1, rfl, by norm_num, le_refl _⟩
  | num x => rw [hn]; exact ⟨_, rfl, Angles.unit_bounds x⟩

theorem mul_nan (a : Dbl) : A.mul a .nan = .nan := by cases a <;> rfl
theorem add_nan (a : Dbl) : A.add a .nan = .nan := by cases a <;> rfl
theorem sub_nan (a : Dbl) : A.sub a .nan = .nan := by cases a <;> rfl
theorem nan_mul (a : Dbl) : A.mul .nan a = .nan := rfl
theorem nan_add (a : Dbl) : A.add .nan a = .nan := rfl
theorem nan_sub (a : Dbl) : A.sub .nan a = .nan := rfl

/-- **C189.** `Interpolate` with arguments that are not a number or infinite. At the end that is reached, the other end
matters: if it is infinite, the result is not a number. Within, an infinite end decides. -/
theorem C189_interpolate_special (x : ℝ) (hx : IsDouble A (.num x)) (s : Bool) :
    (∀ p q r, p = .nan ∨ q = .nan ∨ r = .nan → interpolate A p q r = .nan) ∧
    (∀ ratio, Ieee.le ratio (.num 0) → interpolate A (.num x) (.inf s) ratio = .nan) ∧
    (∀ ratio, Ieee.le (.num 1) ratio → interpolate A (.inf s) (.num x) ratio = .nan) ∧
    (∀ r : ℝ, 0 < r → r < 1 → interpolate A (.num x) (.inf s) (.num r) = .inf s ∧
      interpolate A (.inf s) (.num x) (.num r) = .inf s ∧
      interpolate A (.inf s) (.inf s) (.num r) = .inf s ∧ interpolate A (.inf s) (.inf (!s)) (.num r) = .nan) := by
  obtain ⟨fx, tx⟩ := hx x rfl
  have e1 : A.sub (.num 1) (.num 1) = .num 0 := by
    simp only [Ieee.sub]
    rw [sub_self, A.round_small (by norm_num), A.R.zero]
  refine ⟨?_, ?_, ?_, ?_⟩
  · intro p q r h
    unfold interpolate
    dsimp only
    rcases h with rfl | rfl | rfl
    · rfl
    · rw [nan_mul, add_nan]
    · rw [(C189_ratio .nan).1, mul_nan A q, add_nan]
  · intro ratio h
    have : (safetyCheckUnitInterval ratio).1 = .num 0 := by
      cases ratio with
      | nan => cases h
      | inf t =>
        have : t = true := h
        rw [this, (C189_ratio .nan).2.1]
      | num y =>
        have hy : y ≤ 0 := h
        rw [(C189_ratio .nan).2.2.2.1, Angles.unit_eq, max_eq_left hy]
        simp
    unfold interpolate
    dsimp only
    rw [this, show A.mul (.inf s) (.num 0) = .nan by simp [Ieee.mul], add_nan]
  · intro ratio h
    have : (safetyCheckUnitInterval ratio).1 = .num 1 := by
      cases ratio with
      | nan => cases h
      | inf t =>
        have : t = false := h
        rw [this, (C189_ratio .nan).2.2.1]
      | num y =>
        have hy : 1 ≤ y := h
        rw [(C189_ratio .nan).2.2.2.1, Angles.unit_eq, max_eq_right (by linarith), min_eq_left hy]
    unfold interpolate
    dsimp only
    rw [this, e1, show A.mul (.inf s) (.num 0) = .nan by simp [Ieee.mul]]
    rfl
  · intro r h0 h1
    have hr : (safetyCheckUnitInterval (.num r)).1 = .num r := by
      rw [(C189_ratio .nan).2.2.2.1, Angles.unit_eq, max_eq_right h0.le, min_eq_right h1.le]
    have hc : A.sub (.num 1) (.num r) = .num (A.R.rd (1 - r)) := by
      simp only [Ieee.sub]
      exact A.round_small (by rw [abs_of_pos (by linarith)]; norm_num; linarith)
    have c0 : 0 < A.R.rd (1 - r) :=
      lt_of_le_of_ne (A.R.nonneg (by linarith)) (fun h => by have := A.R.eq_zero.1 h.symm; linarith)
    have c1 : |A.R.rd (1 - r)| ≤ 1 := RoundedMath.rd_abs_le A.R A.R.fp_one (abs_le.2 ⟨by linarith, by linarith⟩)
    have m : ∀ (t : Bool) (y : ℝ), 0 < y → A.mul (.inf t) (.num y) = .inf t := by
      intro t y hy
      simp only [Ieee.mul]
      rw [if_neg hy.ne', decide_eq_false (not_lt.2 hy.le)]
      cases t <;> rfl
    obtain ⟨_, _, p1⟩ := shrink A c1 fx tx
    obtain ⟨_, _, p2⟩ := shrink A (e := r) (abs_le.2 ⟨by linarith, h1.le⟩) fx tx
    unfold interpolate
    dsimp only
    rw [hr, hc, m _ _ h0, m _ _ h0, m _ _ c0, p1, p2]
    refine ⟨rfl, rfl, by simp [Ieee.add], ?_⟩
    simp only [Ieee.add]
    cases s <;> rfl

/-- **C189.** `Interpolate` with numbers is never not a number. The result is what rounding gives, unless it overflows;
it does not if the ends have different signs or are at most `2 ^ 62`. -/
theorem C189_interpolate_numbers (x y r : ℝ) (hx : IsDouble A (.num x)) (hy : IsDouble A (.num y)) :
    interpolate A (.num x) (.num y) (.num r) = A.round
      (A.R.rd (x * A.R.rd (1 - min 1 (max 0 r))) + A.R.rd (y * min 1 (max 0 r))) ∧
    (∀ z, interpolate A (.num x) (.num y) (.num r) = .num z → z = RoundedMath.interpolate A.R x y r) ∧
    (x * y ≤ 0 ∨ |x| ≤ 2 ^ 62 ∧ |y| ≤ 2 ^ 62 →
      interpolate A (.num x) (.num y) (.num r) = .num (RoundedMath.interpolate A.R x y r)) := by
  obtain ⟨fx, tx⟩ := hx x rfl
  obtain ⟨fy, ty⟩ := hy y rfl
  obtain ⟨r0, r1⟩ := Angles.unit_bounds r
  have hu := Angles.unit_eq r
  have hs : (safetyCheckUnitInterval (.num r)).1 = .num (Angles.safetyCheckUnitInterval r).1 := by
    rw [(C189_ratio .nan).2.2.2.1]
  unfold interpolate RoundedMath.interpolate
  dsimp only
  rw [hs, ← hu]
  generalize (Angles.safetyCheckUnitInterval r).1 = t at *
  have hc : A.sub (.num 1) (.num t) = .num (A.R.rd (1 - t)) := by
    simp only [Ieee.sub]
    exact A.round_small (by rw [abs_of_nonneg (by linarith)]; norm_num; linarith)
  have c0 : 0 ≤ A.R.rd (1 - t) := A.R.nonneg (by linarith)
  have c1 : |A.R.rd (1 - t)| ≤ 1 := RoundedMath.rd_abs_le A.R A.R.fp_one (abs_le.2 ⟨by linarith, by linarith⟩)
  obtain ⟨b1, _, p1⟩ := shrink A c1 fx tx
  obtain ⟨b2, _, p2⟩ := shrink A (e := t) (abs_le.2 ⟨by linarith, r1⟩) fy ty
  rw [mul_comm] at b1 b2
  rw [hc, p1, p2]
  refine ⟨rfl, fun z hz => A.round_num hz, fun h => ?_⟩
  simp only [Ieee.add]
  rcases h with h | ⟨h1, h2⟩
  · apply A.round_eq
    have key : ∀ a b X Y : ℝ, A.R.Fp X → A.R.Fp Y → |X| ≤ A.top → |Y| ≤ A.top → 0 ≤ a → b ≤ 0 → |a| ≤ |X| →
        |b| ≤ |Y| → |A.R.rd (a + b)| ≤ A.top := by
      intro a b X Y fX fY tX tY ha hb hX hY
      by_cases hab : 0 ≤ a + b
      · refine le_trans (RoundedMath.rd_abs_le A.R (RoundedMath.fp_abs A.R fX) ?_) tX
        rw [abs_of_nonneg hab]
        rw [abs_of_nonneg ha] at hX
        linarith
      · refine le_trans (RoundedMath.rd_abs_le A.R (RoundedMath.fp_abs A.R fY) ?_) tY
        rw [abs_of_neg (not_le.1 hab)]
        rw [abs_of_nonpos hb] at hY
        linarith
    rcases le_total 0 x with h0 | h0
    · rcases le_total y 0 with k0 | k0
      · exact key _ _ x y fx fy tx ty (A.R.nonneg (mul_nonneg h0 c0))
          (by have := A.R.mono (mul_nonpos_of_nonpos_of_nonneg k0 r0); rwa [A.R.zero] at this) b1 b2
      · rcases mul_nonpos_iff.1 h with ⟨_, q⟩ | ⟨q, _⟩
        · have hy0 : y = 0 := le_antisymm q k0
          subst hy0
          exact key _ _ x 0 fx fy tx ty (A.R.nonneg (mul_nonneg h0 c0)) (by rw [zero_mul, A.R.zero]) b1 b2
        · have hx0 : x = 0 := le_antisymm q h0
          subst hx0
          rw [add_comm]
          exact key _ _ y 0 fy fx ty tx (A.R.nonneg (mul_nonneg k0 r0)) (by rw [zero_mul, A.R.zero]) b2 b1
    · rcases le_total 0 y with k0 | k0
      · rw [add_comm]
        exact key _ _ y x fy fx ty tx (A.R.nonneg (mul_nonneg k0 r0))
          (by have := A.R.mono (mul_nonpos_of_nonpos_of_nonneg h0 c0); rwa [A.R.zero] at this) b2 b1
      · rcases mul_nonpos_iff.1 h with ⟨q, _⟩ | ⟨_, q⟩
        · have hx0 : x = 0 := le_antisymm h0 q
          subst hx0
          exact key _ _ 0 y fx fy tx ty (by rw [zero_mul, A.R.zero])
            (by have := A.R.mono (mul_nonpos_of_nonpos_of_nonneg k0 r0); rwa [A.R.zero] at this) b1 b2
        · have hy0 : y = 0 := le_antisymm k0 q
          subst hy0
          rw [add_comm]
          exact key _ _ 0 x fy fx ty tx (by rw [zero_mul, A.R.zero])
            (by have := A.R.mono (mul_nonpos_of_nonpos_of_nonneg h0 c0); rwa [A.R.zero] at this) b2 b1
  · apply A.round_small
    have := abs_add_le (A.R.rd (x * A.R.rd (1 - t))) (A.R.rd (y * t))
    have h3 : (2 : ℝ) ^ 62 + 2 ^ 62 ≤ 2 ^ 64 := by norm_num
    linarith

/-! ## Cases that meet the hypotheses -/

/-- Rounding to nearest and the largest finite `double`. -/
noncomputable def exIeee : Ieee := ⟨Nearest.nearest, 2 ^ 1024 - 2 ^ 970, by
  have h1 : (2 : ℝ) ^ 64 + 2 ^ 970 ≤ 2 ^ 970 + 2 ^ 970 :=
    add_le_add_left (pow_le_pow_right₀ (by norm_num) (by norm_num)) _
  have h2 : (2 : ℝ) ^ 970 + 2 ^ 970 = 2 ^ 971 := by rw [← two_mul, ← pow_succ']
  have h3 : (2 : ℝ) ^ 971 ≤ 2 ^ 1024 := pow_le_pow_right₀ (by norm_num) (by norm_num)
  exact le_sub_iff_add_le.2 (le_trans h1 (le_trans (le_of_eq h2) h3))⟩

/-- One and three are doubles. -/
example : IsDouble exIeee (.num 1) ∧ IsDouble exIeee (.num 3) := by
  have hl := exIeee.large
  refine ⟨fun x h => ?_, fun x h => ?_⟩
  · cases h
    refine ⟨exIeee.R.fp_one, ?_⟩
    have : (1 : ℝ) ≤ 2 ^ 64 := by norm_num
    rw [abs_one]; linarith
  · cases h
    refine ⟨by have := exIeee.R.fp_int 3 (by norm_num); simpa using this, ?_⟩
    have : (3 : ℝ) ≤ 2 ^ 64 := by norm_num
    rw [abs_of_pos (by norm_num)]; linarith

/-- A precision that is neither zero nor above one. -/
example : isApprox exIeee (.inf true) (.inf false) (.num (1 / 1024)) = true :=
  (C189_approx exIeee (1 / 1024) (by norm_num) (by rw [abs_of_pos] <;> norm_num)).1 true false

end Verif.MathSpecial
