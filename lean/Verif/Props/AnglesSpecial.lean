import Verif.Props.MathSpecial

/-!
# C189: angles with special doubles
-/
namespace Verif.MathSpecial
open Verif

variable (A : Ieee)

/-- Numbers as small as angles do not overflow, and rounding does not make them much larger. -/
theorem small {x : ℝ} (n : ℤ) (hn : |n| ≤ 2 ^ 53) (h : |x| ≤ n) :
    A.round x = .num (A.R.rd x) ∧ |A.R.rd x| ≤ n := by
  have hb := RoundedMath.rd_abs_le A.R (A.R.fp_int n hn) h
  refine ⟨A.round_small (le_trans h ?_), hb⟩
  have h1 : (n : ℝ) ≤ |(n : ℝ)| := le_abs_self _
  have h2 : |(n : ℝ)| ≤ 2 ^ 53 := by exact_mod_cast hn
  have h3 : (2 : ℝ) ^ 53 ≤ 2 ^ 64 := by norm_num
  linarith

variable {pi : ℝ}

theorem turn_eq (hp : 0 < pi) (h4 : pi ≤ 4) : turn A pi = .num (A.R.rd (2 * pi)) := by
  unfold turn
  simp only [Ieee.mul]
  exact (small A 8 (by norm_num) (by rw [abs_of_pos (by linarith)]; push_cast; linarith)).1

/-- **C189.** `EnforceContinuousRevoluteBounds` returns what is not a number for infinities and for what is not a
number, and what rounding gives for every number. -/
theorem C189_wrap (hp : 0 < pi) (h4 : pi ≤ 4) (fpi : A.R.Fp pi) (v : Dbl) :
    (¬ v.Finite → enforceBounds A pi v = .nan) ∧
    ∀ x, v = .num x → enforceBounds A pi v = .num (RoundedMath.enforceBounds A.R pi x) := by
  have e2 : A.R.rd (2 * pi) = 2 * pi := A.R.fp_two_mul fpi
  constructor
  · intro h
    unfold enforceBounds
    rw [turn_eq A hp h4]
    cases v with
    | nan => simp [Ieee.le, Ieee.lt]
    | inf s => cases s <;> simp [Ieee.le, Ieee.lt, fmod]
    | num x => exact absurd ⟨x, rfl⟩ h
  · rintro x rfl
    unfold enforceBounds RoundedMath.enforceBounds
    obtain ⟨b1, b2⟩ := RoundedMath.fmod_bounds x (y := A.R.rd (2 * pi)) (by rw [e2]; linarith)
    rw [e2] at b1 b2
    have r1 : A.add (.num (Angles.fmod x (2 * pi))) (.num (2 * pi)) = .num (A.R.rd (Angles.fmod x (2 * pi) + 2 * pi)) := by
      simp only [Ieee.add]
      exact (small A 16 (by norm_num) (by push_cast; exact abs_le.2 ⟨by linarith, by linarith⟩)).1
    have r2 : A.sub (.num (Angles.fmod x (2 * pi))) (.num (2 * pi)) = .num (A.R.rd (Angles.fmod x (2 * pi) - 2 * pi)) := by
      simp only [Ieee.sub]
      exact (small A 16 (by norm_num) (by push_cast; exact abs_le.2 ⟨by linarith, by linarith⟩)).1
    rw [turn_eq A hp h4, e2]
    simp only [fmod, Ieee.le, Ieee.lt, r1, r2]
    by_cases c1 : x ≤ -pi ∨ pi < x
    · simp only [if_pos c1]
      by_cases c2 : Angles.fmod x (2 * pi) ≤ -pi
      · simp only [if_pos c2]
      · simp only [if_neg c2]
        by_cases c3 : pi < Angles.fmod x (2 * pi)
        · simp only [if_pos c3]
        · simp only [if_neg c3]
    · simp only [if_neg c1]

/-- What a function of two angles makes of arguments that are not finite. -/
theorem signed_nan (hp : 0 < pi) (h4 : pi ≤ 4) (fpi : A.R.Fp pi) {a b : Dbl} (h : ¬ (a.Finite ∧ b.Finite)) :
    signedDistance A pi a b = .nan := by
  have raw : A.sub (enforceBounds A pi b) (enforceBounds A pi a) = .nan := by
    rcases not_and_or.1 h with h | h
    · rw [(C189_wrap A hp h4 fpi a).1 h, sub_nan]
    · rw [(C189_wrap A hp h4 fpi b).1 h]; rfl
  unfold signedDistance
  rw [raw]
  simp [Ieee.le, Ieee.lt]

theorem wrap_bound (hp : 0 < pi) (fpi : A.R.Fp pi) {x : ℝ} (fx : A.R.Fp x) :
    |RoundedMath.enforceBounds A.R pi x| ≤ pi := by
  obtain ⟨_, ⟨h1, h2⟩, _⟩ := RoundedMath.C159_wrap A.R pi hp fpi x fx
  exact abs_le.2 ⟨h1.le, h2⟩

theorem signed_num (hp : 0 < pi) (h4 : pi ≤ 4) (fpi : A.R.Fp pi) {x y : ℝ} (fx : A.R.Fp x) (fy : A.R.Fp y) :
    signedDistance A pi (.num x) (.num y) = .num (RoundedMath.signedDistance A.R pi x y) := by
  obtain ⟨a1, a2⟩ := abs_le.1 (wrap_bound A hp fpi fx)
  obtain ⟨b1, b2⟩ := abs_le.1 (wrap_bound A hp fpi fy)
  have e2 : A.R.rd (2 * pi) = 2 * pi := A.R.fp_two_mul fpi
  unfold signedDistance RoundedMath.signedDistance
  rw [(C189_wrap A hp h4 fpi _).2 x rfl, (C189_wrap A hp h4 fpi _).2 y rfl, turn_eq A hp h4, e2]
  generalize RoundedMath.enforceBounds A.R pi x = u at *
  generalize RoundedMath.enforceBounds A.R pi y = v at *
  obtain ⟨s1, s2⟩ := small A (x := v - u) 8 (by norm_num) (by push_cast; exact abs_le.2 ⟨by linarith, by linarith⟩)
  push_cast at s2
  obtain ⟨d1, d2⟩ := abs_le.1 s2
  have r1 : A.sub (Ieee.neg (.num (2 * pi))) (.num (A.R.rd (v - u))) = .num (A.R.rd (-(2 * pi) - A.R.rd (v - u))) := by
    simp only [Ieee.sub, Ieee.neg]
    exact (small A 16 (by norm_num) (by push_cast; exact abs_le.2 ⟨by linarith, by linarith⟩)).1
  have r2 : A.sub (.num (2 * pi)) (.num (A.R.rd (v - u))) = .num (A.R.rd (2 * pi - A.R.rd (v - u))) := by
    simp only [Ieee.sub]
    exact (small A 16 (by norm_num) (by push_cast; exact abs_le.2 ⟨by linarith, by linarith⟩)).1
  have r0 : A.sub (.num v) (.num u) = .num (A.R.rd (v - u)) := by
    simp only [Ieee.sub]; exact s1
  rw [r0]
  simp only [Ieee.le, Ieee.lt, r1, r2]
  by_cases c1 : A.R.rd (v - u) ≤ -pi
  · simp only [c1, true_or, if_true]
  · by_cases c2 : pi < A.R.rd (v - u)
    · simp only [c1, c2, or_true, if_true, if_false]
    · simp only [c1, c2, or_self, if_false]

/-- **C189.** If one of two angles is infinite or not a number, then so is everything computed from them: the distances,
the range, the sum and what is interpolated are not a number, and no range contains the angle. -/
theorem C189_angles_special (hp : 0 < pi) (h4 : pi ≤ 4) (fpi : A.R.Fp pi) (a b : Dbl) (h : ¬ (a.Finite ∧ b.Finite)) :
    signedDistance A pi a b = .nan ∧ revoluteDistance A pi a b = .nan ∧ getRange A pi a b = .nan ∧
    addRevolute A pi a b = .nan ∧ (∀ ratio, interpolateRevolute A pi a b ratio = .nan) ∧
    (∀ range, checkInRange A pi a range b = false) ∧
    (∀ c, checkInBounds A pi a b c = false ∧ checkInBounds A pi a c b = false) := by
  have hs := signed_nan A hp h4 fpi h
  have hg : getRange A pi a b = .nan := by
    unfold getRange
    rw [hs]
    dsimp only
    rw [if_neg (show ¬ Ieee.le (.num 0) .nan from id)]
    exact add_nan A _
  have hc : ∀ a b, ¬ (Dbl.Finite a ∧ Dbl.Finite b) → ∀ range, checkInRange A pi a range b = false := by
    intro a b h range
    have hs : signedDistance A pi (enforceBounds A pi a) (enforceBounds A pi b) = .nan := by
      apply signed_nan A hp h4 fpi
      rintro ⟨k1, k2⟩
      apply h
      constructor
      · exact Classical.byContradiction fun hn => by
          rw [(C189_wrap A hp h4 fpi a).1 hn] at k1; obtain ⟨z, hz⟩ := k1; cases hz
      · exact Classical.byContradiction fun hn => by
          rw [(C189_wrap A hp h4 fpi b).1 hn] at k2; obtain ⟨z, hz⟩ := k2; cases hz
    unfold checkInRange
    dsimp only
    rw [hs, if_neg (show ¬ Ieee.le (.num 0) .nan from id), add_nan]
    classical exact decide_eq_false (show ¬ Ieee.le .nan range from id)
  have hr : ∀ s v, checkInRange A pi s .nan v = false := by
    intro s v
    unfold checkInRange
    dsimp only
    have : ∀ d, ¬ Ieee.le d .nan := by intro d; cases d <;> exact id
    simp only [this, decide_false, ite_self]
  refine ⟨hs, by unfold revoluteDistance; rw [hs]; rfl, hg, ?_, fun ratio => ?_, hc a b h, fun c => ⟨?_, ?_⟩⟩
  · unfold addRevolute
    exact (C189_wrap A hp h4 fpi _).1 fun hf => h (A.add_finite hf)
  · have raw : A.sub (enforceBounds A pi b) (enforceBounds A pi a) = .nan := by
      rcases not_and_or.1 h with h | h
      · rw [(C189_wrap A hp h4 fpi a).1 h, sub_nan]
      · rw [(C189_wrap A hp h4 fpi b).1 h]; rfl
    unfold interpolateRevolute
    dsimp only
    rw [raw]
    simp [Ieee.abs, Ieee.le, Ieee.lt, sub_nan, nan_mul]
  · unfold checkInBounds; rw [hg]; exact hr _ _
  · unfold checkInBounds; exact hc a b h _

open Classical in
/-- The last step of `InterpolateContinuousRevolute`. -/
theorem tail_num (hp : 0 < pi) (h4 : pi ≤ 4) {u t : ℝ} (a1 : -pi ≤ u) (a2 : u ≤ pi) (r0 : 0 ≤ t) (r1 : t ≤ 1)
    (D : ℝ) (hD : |D| ≤ 16) :
    (let i := A.sub (.num u) (A.mul (.num D) (.num t))
      if Ieee.lt (.num pi) i then A.sub i (.num (2 * pi))
      else if Ieee.lt i (.num (-pi)) then A.add i (.num (2 * pi)) else i) =
    .num (let i := A.R.rd (u - A.R.rd (D * t))
      if pi < i then A.R.rd (i - 2 * pi) else if i < -pi then A.R.rd (i + 2 * pi) else i) := by
  have step : ∀ z : ℝ, |z| ≤ 1000 → A.round z = .num (A.R.rd z) := fun z hz =>
    (small A 1000 (by norm_num) (by push_cast; exact hz)).1
  have p : |D * t| ≤ 16 := by
    rw [abs_mul, abs_of_nonneg r0]
    exact le_trans (mul_le_of_le_one_right (abs_nonneg _) r1) hD
  have q := (small A (x := D * t) 16 (by norm_num) (by push_cast; exact p)).2
  push_cast at q
  obtain ⟨q1, q2⟩ := abs_le.1 q
  have k := (small A (x := u - A.R.rd (D * t)) 20 (by norm_num)
    (by push_cast; exact abs_le.2 ⟨by linarith, by linarith⟩)).2
  push_cast at k
  obtain ⟨k1, k2⟩ := abs_le.1 k
  rw [show A.mul (.num D) (.num t) = .num (A.R.rd (D * t)) from step _ (by linarith)]
  rw [show A.sub (.num u) (.num (A.R.rd (D * t))) = .num (A.R.rd (u - A.R.rd (D * t))) from
    step _ (abs_le.2 ⟨by linarith, by linarith⟩)]
  generalize A.R.rd (u - A.R.rd (D * t)) = i at *
  have j1 : A.sub (.num i) (.num (2 * pi)) = .num (A.R.rd (i - 2 * pi)) :=
    step _ (abs_le.2 ⟨by linarith, by linarith⟩)
  have j2 : A.add (.num i) (.num (2 * pi)) = .num (A.R.rd (i + 2 * pi)) :=
    step _ (abs_le.2 ⟨by linarith, by linarith⟩)
  dsimp only
  rw [j1, j2]
  by_cases g1 : pi < i
  · rw [if_pos (show Ieee.lt (.num pi) (.num i) from g1), if_pos g1]
  · rw [if_neg (show ¬ Ieee.lt (.num pi) (.num i) from g1), if_neg g1]
    by_cases g2 : i < -pi
    · rw [if_pos (show Ieee.lt (.num i) (.num (-pi)) from g2), if_pos g2]
    · rw [if_neg (show ¬ Ieee.lt (.num i) (.num (-pi)) from g2), if_neg g2]

/-- **C189.** For angles that are numbers nothing overflows, except a sum: the results are those of rounding. A ratio
that is not a number makes what is interpolated not a number. -/
theorem C189_angles (hp : 0 < pi) (h4 : pi ≤ 4) (fpi : A.R.Fp pi) (x y : ℝ) (fx : A.R.Fp x) (fy : A.R.Fp y) :
    signedDistance A pi (.num x) (.num y) = .num (RoundedMath.signedDistance A.R pi x y) ∧
    revoluteDistance A pi (.num x) (.num y) = .num (RoundedMath.revoluteDistance A.R pi x y) ∧
    getRange A pi (.num x) (.num y) = .num (RoundedMath.getRange A.R pi x y) ∧
    addRevolute A pi (.num x) (.num y) =
      (match A.round (x + y) with
        | .num _ => .num (RoundedMath.addRevolute A.R pi x y)
        | _ => .nan) ∧
    (∀ r : ℝ, interpolateRevolute A pi (.num x) (.num y) (.num r) =
      .num (RoundedMath.interpolateRevolute A.R pi x y r)) ∧
    interpolateRevolute A pi (.num x) (.num y) .nan = .nan ∧
    (∀ range : ℝ, checkInRange A pi (.num x) (.num range) (.num y) = RoundedMath.checkInRange A.R pi x range y) ∧
    (∀ s, checkInRange A pi (.num x) (.inf s) (.num y) = !s) ∧
    checkInRange A pi (.num x) .nan (.num y) = false := by
  have e2 : A.R.rd (2 * pi) = 2 * pi := A.R.fp_two_mul fpi
  have hs := signed_num A hp h4 fpi fx fy
  obtain ⟨_, _, t1, t2⟩ := RoundedMath.C159_signed A.R pi hp fpi x y fx fy
  have range_num : ∀ d : ℝ, -pi ≤ d → d ≤ pi → A.add (.num (2 * pi)) (.num d) = .num (A.R.rd (2 * pi + d)) := by
    intro d h1 h2
    simp only [Ieee.add]
    exact (small A 12 (by norm_num) (by push_cast; exact abs_le.2 ⟨by linarith, by linarith⟩)).1
  have f1 := (RoundedMath.C159_wrap A.R pi hp fpi x fx).1
  have f2 := (RoundedMath.C159_wrap A.R pi hp fpi y fy).1
  have hs' := signed_num A hp h4 fpi f1 f2
  obtain ⟨_, _, t3, t4⟩ := RoundedMath.C159_signed A.R pi hp fpi _ _ f1 f2
  have w1 := (C189_wrap A hp h4 fpi _).2 x rfl
  have w2 := (C189_wrap A hp h4 fpi _).2 y rfl
  refine ⟨hs, by unfold revoluteDistance; rw [hs]; rfl, ?_, ?_, fun r => ?_, ?_, fun range => ?_, fun s => ?_, ?_⟩
  · unfold getRange RoundedMath.getRange
    rw [hs, turn_eq A hp h4, e2]
    simp only [Ieee.le, range_num _ t1 t2]
    by_cases c : 0 ≤ RoundedMath.signedDistance A.R pi x y
    · simp only [if_pos c]
    · simp only [if_neg c]
  · unfold addRevolute RoundedMath.addRevolute
    simp only [Ieee.add]
    rcases A.round_cases (x + y) with ⟨h, _⟩ | ⟨⟨s, h⟩, _⟩
    · rw [h]; exact (C189_wrap A hp h4 fpi _).2 _ rfl
    · rw [h]; exact (C189_wrap A hp h4 fpi _).1 (by rintro ⟨z, hz⟩; cases hz)
  · obtain ⟨r0, r1⟩ := Angles.unit_bounds r
    have hr : (safetyCheckUnitInterval (.num r)).1 = .num (Angles.safetyCheckUnitInterval r).1 := by
      rw [(C189_ratio .nan).2.2.2.1]
    obtain ⟨a1, a2⟩ := abs_le.1 (wrap_bound A hp fpi fx)
    obtain ⟨b1, b2⟩ := abs_le.1 (wrap_bound A hp fpi fy)
    have em : A.mul (.num (-2)) (.num pi) = .num (A.R.rd (-2 * pi)) := by
      simp only [Ieee.mul]
      exact (small A 8 (by norm_num) (by push_cast; exact abs_le.2 ⟨by linarith, by linarith⟩)).1
    have em2 : A.R.rd (-2 * pi) = -(2 * pi) := by rw [show -2 * pi = -(2 * pi) by ring, A.R.odd, e2]
    unfold interpolateRevolute RoundedMath.interpolateRevolute
    rw [w1, w2, turn_eq A hp h4, em, em2, e2, hr]
    generalize RoundedMath.enforceBounds A.R pi x = u at *
    generalize RoundedMath.enforceBounds A.R pi y = v at *
    generalize (Angles.safetyCheckUnitInterval r).1 = t at *
    have step : ∀ z : ℝ, |z| ≤ 1000 → A.round z = .num (A.R.rd z) := fun z hz =>
      (small A 1000 (by norm_num) (by push_cast; exact hz)).1
    have bound : ∀ (z : ℝ) (n : ℤ), |n| ≤ 2 ^ 53 → |z| ≤ n → |A.R.rd z| ≤ n := fun z n hn hz =>
      (small A n hn hz).2
    have part : ∀ (z : ℝ) (n : ℤ), |z| ≤ n → |z * t| ≤ n := by
      intro z n hz
      rw [abs_mul, abs_of_nonneg r0]
      exact le_trans (mul_le_of_le_one_right (abs_nonneg _) r1) hz
    have hd := bound (v - u) 8 (by norm_num) (by push_cast; exact abs_le.2 ⟨by linarith, by linarith⟩)
    have r0' : A.sub (.num v) (.num u) = .num (A.R.rd (v - u)) := by
      simp only [Ieee.sub]
      exact step _ (abs_le.2 ⟨by linarith, by linarith⟩)
    dsimp only
    rw [r0']
    generalize A.R.rd (v - u) = d at *
    by_cases c : |d| ≤ pi
    · rw [if_pos (show Ieee.le (Ieee.abs (.num d)) (.num pi) from c), if_pos c]
      have p := part d 8 hd
      have q := bound _ 8 (by norm_num) p
      push_cast at p q
      obtain ⟨q1, q2⟩ := abs_le.1 q
      rw [show A.mul (.num d) (.num t) = .num (A.R.rd (d * t)) from step _ (by linarith)]
      exact step (u + A.R.rd (d * t)) (abs_le.2 ⟨by linarith, by linarith⟩)
    · rw [if_neg (show ¬ Ieee.le (Ieee.abs (.num d)) (.num pi) from c), if_neg c]
      push_cast at hd
      obtain ⟨d1, d2⟩ := abs_le.1 hd
      by_cases c0 : 0 < d
      · rw [if_pos (show Ieee.lt (.num 0) (.num d) from c0), if_pos c0]
        have k := bound (2 * pi - d) 16 (by norm_num) (by push_cast; exact abs_le.2 ⟨by linarith, by linarith⟩)
        push_cast at k
        rw [show A.sub (.num (2 * pi)) (.num d) = .num (A.R.rd (2 * pi - d)) from
          step _ (abs_le.2 ⟨by linarith, by linarith⟩)]
        exact tail_num A hp h4 a1 a2 r0 r1 _ k
      · rw [if_neg (show ¬ Ieee.lt (.num 0) (.num d) from c0), if_neg c0]
        have k := bound (-(2 * pi) - d) 16 (by norm_num) (by push_cast; exact abs_le.2 ⟨by linarith, by linarith⟩)
        push_cast at k
        rw [show A.sub (.num (-(2 * pi))) (.num d) = .num (A.R.rd (-(2 * pi) - d)) from
          step _ (abs_le.2 ⟨by linarith, by linarith⟩)]
        exact tail_num A hp h4 a1 a2 r0 r1 _ k
  · unfold interpolateRevolute
    dsimp only
    rw [(C189_ratio .nan).1]
    simp [mul_nan, add_nan, sub_nan, Ieee.lt]
  · unfold checkInRange RoundedMath.checkInRange
    rw [w1, w2, turn_eq A hp h4, e2]
    simp only [hs', Ieee.le, range_num _ t3 t4]
  · unfold checkInRange
    rw [w1, w2, turn_eq A hp h4, e2]
    simp only [hs', Ieee.le, range_num _ t3 t4]
    cases s <;> simp
  · unfold checkInRange
    dsimp only
    have : ∀ d, ¬ Ieee.le d .nan := by intro d; cases d <;> exact id
    simp only [this, decide_false, ite_self]

/-- **C189.** The check against two bounds, for numbers. -/
theorem C189_bounds (hp : 0 < pi) (h4 : pi ≤ 4) (fpi : A.R.Fp pi) (x y z : ℝ) (fx : A.R.Fp x) (fy : A.R.Fp y)
    (fz : A.R.Fp z) : checkInBounds A pi (.num x) (.num y) (.num z) = RoundedMath.checkInBounds A.R pi x y z := by
  unfold checkInBounds RoundedMath.checkInBounds
  rw [(C189_angles A hp h4 fpi x y fx fy).2.2.1]
  exact (C189_angles A hp h4 fpi x z fx fz).2.2.2.2.2.2.1 _

/-! ## Cases that meet the hypotheses -/

/-- `M_PI` is a double between zero and four. -/
example : 0 < RoundedMath.mPi ∧ RoundedMath.mPi ≤ 4 ∧ exIeee.R.Fp RoundedMath.mPi :=
  ⟨by unfold RoundedMath.mPi; norm_num, by unfold RoundedMath.mPi; norm_num, RoundedMath.fp_mPi _⟩

/-- An infinite angle and a number. -/
example : ¬ (Dbl.Finite (.inf true) ∧ Dbl.Finite (.num 1)) := by rintro ⟨⟨x, h⟩, _⟩; cases h

end Verif.MathSpecial
