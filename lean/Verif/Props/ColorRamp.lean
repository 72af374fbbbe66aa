import Verif.Props.ColorSpecial
import Verif.Spec.Color

/-!
# Accuracy of the colors from blue to red: C201
-/
namespace Verif.ColorSpecial
open Verif Verif.Colors

variable (A : Ieee) (F : Single)

theorem rd_near (R : Rounding) {x B : ℝ} (h : |x| ≤ B) : |R.rd x - x| ≤ unit * B :=
  (R.err x).trans (mul_le_mul_of_nonneg_left h Rounding.unit_pos.le)

theorem unit_small : unit ≤ 1 / 2 ^ 50 := by unfold unit; norm_num

/-- a value near a channel is near it as a channel -/
theorem shade_near {w target : ℝ} (h0 : 0 ≤ target) (h1 : target ≤ 1) (h : |w - target| ≤ 64 * unit) :
    |channel (F.conv (.num w)) - target| ≤ 1 / 2 ^ 23 := by
  have hu := unit_small
  obtain ⟨a, b⟩ := abs_le.1 h
  have hw : |w| ≤ 2 := by
    rw [abs_le]
    constructor <;> norm_num at hu ⊢ <;> linarith
  obtain ⟨c, d⟩ := abs_le.1 (F.err w hw)
  obtain ⟨hw1, hw2⟩ := abs_le.1 hw
  have hc : F.conv (.num w) = .num (F.rd w) := by
    show F.round w = _
    refine single_small F ?_
    rw [abs_le]
    constructor <;> norm_num at c d ⊢ <;> linarith
  rw [hc]
  have k1 : |F.rd w - target| ≤ 1 / 2 ^ 23 := by
    rw [abs_le]
    constructor <;> norm_num at c d hu ⊢ <;> linarith
  obtain ⟨k2, k3⟩ := abs_le.1 k1
  have kp : (0 : ℝ) ≤ 1 / 2 ^ 23 := by positivity
  simp only [channel]
  rw [abs_le]
  constructor
  · have : min target (F.rd w) ≤ max 0 (min 1 (F.rd w)) :=
      le_max_of_le_right (min_le_min_right _ h1)
    rcases le_total target (F.rd w) with h' | h'
    · rw [min_eq_left h'] at this; linarith
    · rw [min_eq_right h'] at this; linarith
  · have : max 0 (min 1 (F.rd w)) ≤ max target (F.rd w) :=
      max_le (le_max_of_le_left h0) (le_max_of_le_right (min_le_right _ _))
    rcases le_total target (F.rd w) with h' | h'
    · rw [max_eq_right h'] at this; linarith
    · rw [max_eq_left h'] at this; linarith

/-- four times a part of the range, divided by it -/
theorem slope {s d : ℝ} (hs : 0 < s) (hb : s ≤ 2 ^ 60) (hd : |d| ≤ 2 * s) :
    ∃ z, A.div (A.mul (.num 4) (.num d)) (.num s) = .num z ∧ |z - 4 * d / s| ≤ 17 * unit := by
  have hu := unit_small
  have hu0 := Rounding.unit_pos
  have h4 : |4 * d| ≤ 8 * s := by rw [abs_mul, abs_of_pos (by norm_num : (0 : ℝ) < 4)]; linarith
  have e1 := rd_near A.R h4
  have m : A.mul (.num 4) (.num d) = .num (A.R.rd (4 * d)) :=
    A.round_small (h4.trans (by norm_num at hb ⊢; linarith))
  have e2 : |A.R.rd (4 * d) / s - 4 * d / s| ≤ 8 * unit := by
    rw [← sub_div, abs_div, abs_of_pos hs, div_le_iff₀ hs]
    linarith
  have e3 : |4 * d / s| ≤ 8 := by
    rw [abs_div, abs_of_pos hs, div_le_iff₀ hs]
    exact h4
  have e4 : |A.R.rd (4 * d) / s| ≤ 9 := by
    obtain ⟨a, b⟩ := abs_le.1 e2
    obtain ⟨c, d⟩ := abs_le.1 e3
    rw [abs_le]
    constructor <;> norm_num at hu ⊢ <;> linarith
  have e5 := rd_near A.R e4
  refine ⟨A.R.rd (A.R.rd (4 * d) / s), ?_, ?_⟩
  · rw [m]
    show (if s = 0 then _ else A.round (A.R.rd (4 * d) / s)) = _
    rw [if_neg (ne_of_gt hs), A.round_small (e4.trans (by norm_num))]
  · obtain ⟨a, b⟩ := abs_le.1 e2
    obtain ⟨c, d⟩ := abs_le.1 e5
    rw [abs_le]
    constructor <;> linarith

/-- one plus a slope -/
theorem one_plus {z y : ℝ} (hy : |y| ≤ 1) (h : |z - y| ≤ 30 * unit) :
    ∃ w, A.add (.num 1) (.num z) = .num w ∧ |w - (1 + y)| ≤ 64 * unit := by
  have hu := unit_small
  have hu0 := Rounding.unit_pos
  obtain ⟨a, b⟩ := abs_le.1 h
  obtain ⟨c, d⟩ := abs_le.1 hy
  have e : |1 + z| ≤ 3 := by
    rw [abs_le]
    constructor <;> norm_num at hu ⊢ <;> linarith
  obtain ⟨k1, k2⟩ := abs_le.1 (rd_near A.R e)
  refine ⟨A.R.rd (1 + z), A.round_small (e.trans (by norm_num)), ?_⟩
  rw [abs_le]
  constructor <;> linarith

/-- a difference, times four, divided by the range -/
theorem slope_sub {s a b : ℝ} (hs : 0 < s) (hb : s ≤ 2 ^ 60) (hd : |a - b| ≤ s) :
    ∃ z, A.div (A.mul (.num 4) (A.sub (.num a) (.num b))) (.num s) = .num z ∧
      |z - 4 * (a - b) / s| ≤ 30 * unit := by
  have hu := unit_small
  have hu0 := Rounding.unit_pos
  have h1 : A.sub (.num a) (.num b) = .num (A.R.rd (a - b)) :=
    A.round_small (hd.trans (hb.trans (by norm_num)))
  have e1 := rd_near A.R hd
  obtain ⟨k1, k2⟩ := abs_le.1 e1
  obtain ⟨k3, k4⟩ := abs_le.1 hd
  have hus : unit * s ≤ s := by nlinarith [Rounding.unit_lt_one]
  obtain ⟨z, hz, hz'⟩ := slope A hs hb (d := A.R.rd (a - b)) (by rw [abs_le]; constructor <;> linarith)
  refine ⟨z, by rw [h1]; exact hz, ?_⟩
  have e2 : |4 * A.R.rd (a - b) / s - 4 * (a - b) / s| ≤ 4 * unit := by
    rw [← sub_div, abs_div, abs_of_pos hs, div_le_iff₀ hs, ← mul_sub, abs_mul, abs_of_pos (by norm_num : (0 : ℝ) < 4)]
    linarith
  obtain ⟨k5, k6⟩ := abs_le.1 e2
  obtain ⟨k7, k8⟩ := abs_le.1 hz'
  rw [abs_le]
  constructor <;> linarith

/-- **C201, accuracy.** Where the range is a power of two and its quarters are doubles, as for the default bounds 0 and
1, every channel differs from the exact ramp from blue over cyan, green and yellow to red by at most 2^-23. -/
theorem C201_ramp (lo x : ℝ) (k : ℤ) (hk : (2 : ℝ) ^ k ≤ 2 ^ 60) (hlo : |lo| ≤ 2 ^ 60)
    (h1 : A.R.Fp (lo + 1 / 4 * 2 ^ k)) (h2 : A.R.Fp (lo + 1 / 2 * 2 ^ k)) (h3 : A.R.Fp (lo + 3 / 4 * 2 ^ k))
    (hx0 : lo ≤ x) (hx1 : x ≤ lo + 2 ^ k) :
    ∃ r g b, interpolateHotToCold A F (.num x) (.num lo) (.num (lo + 2 ^ k)) =
        .ok ⟨.num r, .num g, .num b, .num 1⟩ ∧
      |r - (hotToCold ((x - lo) / 2 ^ k)).r| ≤ 1 / 2 ^ 23 ∧ |g - (hotToCold ((x - lo) / 2 ^ k)).g| ≤ 1 / 2 ^ 23 ∧
      |b - (hotToCold ((x - lo) / 2 ^ k)).b| ≤ 1 / 2 ^ 23 := by
  classical
  have hs : (0 : ℝ) < 2 ^ k := zpow_pos (by norm_num) k
  have q4 : (1 / 4 : ℝ) * 2 ^ k = ((1 : ℤ) : ℝ) * 2 ^ (k - 2) := by
    rw [zpow_sub₀ (by norm_num)]; norm_num; ring
  have q2 : (1 / 2 : ℝ) * 2 ^ k = ((2 : ℤ) : ℝ) * 2 ^ (k - 2) := by
    rw [zpow_sub₀ (by norm_num)]; norm_num; ring
  have q3 : (3 / 4 : ℝ) * 2 ^ k = ((3 : ℤ) : ℝ) * 2 ^ (k - 2) := by
    rw [zpow_sub₀ (by norm_num)]; norm_num; ring
  have r1 : A.R.rd ((2 : ℝ) ^ k) = 2 ^ k := by simpa using A.R.fixed 1 k (by norm_num)
  have r4 : A.R.rd ((1 / 4 : ℝ) * 2 ^ k) = 1 / 4 * 2 ^ k := by rw [q4]; exact A.R.fixed 1 _ (by norm_num)
  have r2 : A.R.rd ((1 / 2 : ℝ) * 2 ^ k) = 1 / 2 * 2 ^ k := by rw [q2]; exact A.R.fixed 2 _ (by norm_num)
  have r3 : A.R.rd ((3 / 4 : ℝ) * 2 ^ k) = 3 / 4 * 2 ^ k := by rw [q3]; exact A.R.fixed 3 _ (by norm_num)
  clear q4 q2 q3
  generalize (2 : ℝ) ^ k = s at *
  obtain ⟨l1, l2⟩ := abs_le.1 hlo
  have hr : A.sub (.num (lo + s)) (.num lo) = .num s := by
    show A.round (lo + s - lo) = _
    rw [add_sub_cancel_left, A.round_small (by rw [abs_of_pos hs]; exact hk.trans (by norm_num)), r1]
  have small : ∀ q : ℝ, 0 < q → q < 1 → |q * s| ≤ 2 ^ 64 := by
    intro q hq hq1
    rw [abs_of_pos (mul_pos hq hs)]
    have : q * s ≤ 1 * s := mul_le_mul_of_nonneg_right hq1.le hs.le
    norm_num at hk ⊢
    linarith
  have part : ∀ q : ℝ, 0 < q → q < 1 → A.R.rd (q * s) = q * s → A.R.Fp (lo + q * s) →
      A.add (.num lo) (A.mul (.num q) (.num s)) = .num (lo + q * s) := by
    intro q hq hq1 h h'
    have m : A.mul (.num q) (.num s) = .num (q * s) := by
      show A.round (q * s) = _
      rw [A.round_small (small q hq hq1), h]
    rw [m]
    show A.round (lo + q * s) = _
    rw [A.round_small, h']
    have hp := mul_pos hq hs
    have : q * s ≤ 1 * s := mul_le_mul_of_nonneg_right hq1.le hs.le
    rw [abs_le]
    constructor <;> norm_num at l1 l2 hk ⊢ <;> linarith
  have p4 := part (1 / 4) (by norm_num) (by norm_num) r4 h1
  have p2 := part (1 / 2) (by norm_num) (by norm_num) r2 h2
  have p3 := part (3 / 4) (by norm_num) (by norm_num) r3 h3
  have m2 : A.mul (.num (1 / 2)) (.num s) = .num (1 / 2 * s) := by
    show A.round (1 / 2 * s) = _
    rw [A.round_small (small _ (by norm_num) (by norm_num)), r2]
  have hlt : Ieee.lt (.num lo) (.num (lo + s)) := show lo < lo + s by linarith
  have hcut : cutTo (.num x) (.num lo) (.num (lo + s)) = .num x := by
    by_cases hxl : lo < x
    · unfold cutTo stdMax MathSpecial.stdMin
      rw [if_pos (show Ieee.lt (.num lo) (.num x) from hxl)]
      by_cases hxh : x < lo + s
      · rw [if_pos (show Ieee.lt (.num x) (.num (lo + s)) from hxh)]
      · rw [if_neg (show ¬ Ieee.lt (.num x) (.num (lo + s)) from hxh), le_antisymm hx1 (not_lt.1 hxh)]
    · rw [cut_low hlt (show ¬ Ieee.lt (.num lo) (.num x) from hxl), le_antisymm hx0 (not_lt.1 hxl)]
  have e0 : channel (F.conv (.num 0)) = 0 := by rw [conv_zero]; simp [channel]
  have e1 : channel (F.conv (.num 1)) = 1 := by rw [conv_one]; simp [channel]
  have c1 : channel (.num 1) = 1 := by simp [channel]
  have z0 : |(0 : ℝ) - 0| ≤ 1 / 2 ^ 23 := by norm_num
  have z1 : |(1 : ℝ) - 1| ≤ 1 / 2 ^ 23 := by norm_num
  have ht : (x - lo) / s * s = x - lo := div_mul_cancel₀ _ (ne_of_gt hs)
  have ht0 : 0 ≤ (x - lo) / s := div_nonneg (by linarith) hs.le
  have ht1 : (x - lo) / s ≤ 1 := by rw [div_le_one hs]; linarith
  have cmp : ∀ q : ℝ, x < lo + q * s ↔ (x - lo) / s < q := by
    intro q
    rw [div_lt_iff₀ hs]
    constructor <;> intro h <;> linarith
  unfold interpolateHotToCold
  rw [Out.assert_true hlt, clamp_eq hlt]
  simp only [Out.bind_ok]
  rw [hcut, hr, p4, p2, p3, m2]
  generalize htt : (x - lo) / s = t at *
  have hx : x = lo + t * s := by linarith
  have hu0 := Rounding.unit_pos
  unfold hotToCold
  by_cases g1 : t < 1 / 4
  · rw [if_pos (show Ieee.lt (.num x) (.num (lo + 1 / 4 * s)) from (cmp _).2 g1), if_pos g1]
    obtain ⟨z, hz, hz'⟩ := slope_sub A hs hk (a := x) (b := lo) (by rw [abs_le]; constructor <;> linarith)
    refine ⟨_, _, _, (C201_make _ _ _ _).1.trans (by rw [c1]), ?_, ?_, ?_⟩
    · rw [e0]; exact z0
    · rw [hz]
      refine shade_near F (by simpa using ht0) (by simp only; linarith) ?_
      have : 4 * (x - lo) / s = 4 * t := by rw [mul_div_assoc, htt]
      rw [this] at hz'
      exact hz'.trans (by linarith)
    · rw [e1]; exact z1
  · rw [if_neg (show ¬ Ieee.lt (.num x) (.num (lo + 1 / 4 * s)) from fun h => g1 ((cmp _).1 h)), if_neg g1]
    by_cases g2 : t < 1 / 2
    · rw [if_pos (show Ieee.lt (.num x) (.num (lo + 1 / 2 * s)) from (cmp _).2 g2), if_pos g2]
      have hd : lo + 1 / 4 * s - x = (1 / 4 - t) * s := by rw [hx]; ring
      obtain ⟨z, hz, hz'⟩ := slope_sub A hs hk (a := lo + 1 / 4 * s) (b := x)
        (by rw [abs_le]; constructor <;> linarith)
      have : 4 * (lo + 1 / 4 * s - x) / s = 1 - 4 * t := by
        rw [hd, mul_div_assoc, mul_div_assoc, div_self (ne_of_gt hs)]; ring
      rw [this] at hz'
      obtain ⟨w, hw, hw'⟩ := one_plus A (z := z) (y := 1 - 4 * t)
        (by rw [abs_le]; constructor <;> linarith) hz'
      refine ⟨_, _, _, (C201_make _ _ _ _).1.trans (by rw [c1]), ?_, ?_, ?_⟩
      · rw [e0]; exact z0
      · rw [e1]; exact z1
      · rw [hz, hw]
        refine shade_near F (by simp only; linarith) (by simp only; linarith) ?_
        have : (1 : ℝ) + (1 - 4 * t) = 2 - 4 * t := by ring
        rw [this] at hw'
        exact hw'
    · rw [if_neg (show ¬ Ieee.lt (.num x) (.num (lo + 1 / 2 * s)) from fun h => g2 ((cmp _).1 h)), if_neg g2]
      by_cases g3 : t < 3 / 4
      · rw [if_pos (show Ieee.lt (.num x) (.num (lo + 3 / 4 * s)) from (cmp _).2 g3), if_pos g3]
        have hu1 := Rounding.unit_lt_one
        have b1 : |x - lo| ≤ s := by rw [abs_le]; constructor <;> linarith
        have n1 := rd_near A.R b1
        obtain ⟨n2, n3⟩ := abs_le.1 n1
        have hus : unit * s ≤ s := by nlinarith
        have d1 : A.sub (.num x) (.num lo) = .num (A.R.rd (x - lo)) :=
          A.round_small (b1.trans (hk.trans (by norm_num)))
        obtain ⟨z, hz, hz'⟩ := slope_sub A hs hk (a := A.R.rd (x - lo)) (b := 1 / 2 * s) (by
          have u := A.R.upper (show 0 ≤ x - lo by linarith)
          have l := A.R.nonneg (show 0 ≤ x - lo by linarith)
          have hsm : (x - lo) * unit ≤ 1 / 4 * s := by
            have := unit_small
            have h5 : unit ≤ 1 / 4 := by norm_num at this ⊢; linarith
            nlinarith
          have hts : x - lo ≤ 3 / 4 * s := by
            rw [← ht]; exact mul_le_mul_of_nonneg_right g3.le hs.le
          rw [abs_le]
          constructor <;> linarith)
        have k0 : |4 * (A.R.rd (x - lo) - 1 / 2 * s) / s - (4 * t - 2)| ≤ 4 * unit := by
          have : 4 * (A.R.rd (x - lo) - 1 / 2 * s) / s - (4 * t - 2) = 4 * (A.R.rd (x - lo) - (x - lo)) / s := by
            rw [← htt]; field_simp; ring
          rw [this, abs_div, abs_of_pos hs, div_le_iff₀ hs, abs_mul, abs_of_pos (by norm_num : (0 : ℝ) < 4)]
          linarith
        refine ⟨_, _, _, (C201_make _ _ _ _).1.trans (by rw [c1]), ?_, ?_, ?_⟩
        · rw [d1, hz]
          refine shade_near F (by simp only; linarith) (by simp only; linarith) ?_
          obtain ⟨a, b⟩ := abs_le.1 hz'
          obtain ⟨c, d⟩ := abs_le.1 k0
          simp only
          rw [abs_le]
          constructor <;> linarith
        · rw [e1]; exact z1
        · rw [e0]; exact z0
      · rw [if_neg (show ¬ Ieee.lt (.num x) (.num (lo + 3 / 4 * s)) from fun h => g3 ((cmp _).1 h)), if_neg g3]
        have hd : lo + 3 / 4 * s - x = (3 / 4 - t) * s := by rw [hx]; ring
        have hts : 3 / 4 * s ≤ x - lo := by
          rw [← ht]; exact mul_le_mul_of_nonneg_right (not_lt.1 g3) hs.le
        obtain ⟨z, hz, hz'⟩ := slope_sub A hs hk (a := lo + 3 / 4 * s) (b := x)
          (by rw [abs_le]; constructor <;> linarith)
        have : 4 * (lo + 3 / 4 * s - x) / s = 3 - 4 * t := by
          rw [hd, mul_div_assoc, mul_div_assoc, div_self (ne_of_gt hs)]; ring
        rw [this] at hz'
        obtain ⟨w, hw, hw'⟩ := one_plus A (z := z) (y := 3 - 4 * t)
          (by rw [abs_le]; constructor <;> linarith) hz'
        refine ⟨_, _, _, (C201_make _ _ _ _).1.trans (by rw [c1]), ?_, ?_, ?_⟩
        · rw [e1]; exact z1
        · rw [hz, hw]
          refine shade_near F (by simp only; linarith) (by simp only; linarith) ?_
          have : (1 : ℝ) + (3 - 4 * t) = 4 - 4 * t := by ring
          rw [this] at hw'
          exact hw'
        · rw [e0]; exact z0

/-- The default bounds meet the hypotheses. -/
example : (2 : ℝ) ^ (0 : ℤ) ≤ 2 ^ 60 ∧ |(0 : ℝ)| ≤ 2 ^ 60 ∧ A.R.Fp (0 + 1 / 4 * 2 ^ (0 : ℤ)) ∧
    A.R.Fp (0 + 1 / 2 * 2 ^ (0 : ℤ)) ∧ A.R.Fp (0 + 3 / 4 * 2 ^ (0 : ℤ)) := by
  refine ⟨by norm_num, by norm_num, ?_, ?_, ?_⟩
  · have := A.R.fixed 1 (-2) (by norm_num)
    unfold Rounding.Fp
    convert this using 2 <;> norm_num
  · have := A.R.fixed 2 (-2) (by norm_num)
    unfold Rounding.Fp
    convert this using 2 <;> norm_num
  · have := A.R.fixed 3 (-2) (by norm_num)
    unfold Rounding.Fp
    convert this using 2 <;> norm_num

end Verif.ColorSpecial
