import Verif.Spec.PyColor
import Mathlib.Tactic.Linarith
import Mathlib.Tactic.Positivity
import Mathlib.Tactic.FieldSimp
import Mathlib.Tactic.NormNum
import Mathlib.Tactic.Ring

/-!
# C132: conversions between colour spaces and colour maps (Python)
-/
namespace Verif.PyColor
open Verif

/-! ### Conversions -/

theorem rgbXyz_det : IsUnit rgbXyz.det := by
  rw [isUnit_iff_ne_zero, rgbXyz, Matrix.det_fin_three]
  simp
  norm_num

theorem rowDot_rowDot (c : Triple) (m n : Matrix (Fin 3) (Fin 3) ℝ) : rowDot (rowDot c m) n = rowDot c (m * n) := by
  have : ![(rowDot c m).1, (rowDot c m).2.1, (rowDot c m).2.2] = Matrix.vecMul ![c.1, c.2.1, c.2.2] m := by
    funext i
    fin_cases i <;> rfl
  unfold rowDot at this ⊢
  simp only at this ⊢
  rw [this, Matrix.vecMul_vecMul]

theorem rowDot_one (c : Triple) : rowDot c 1 = c := by
  unfold rowDot
  rw [Matrix.vecMul_one]
  rfl

/-- C132: RGB to XYZ and back is the identity, both ways. -/
theorem C132_rgb_xyz (c : Triple) :
    convertXyzToRgb (convertRgbToXyz c) = c ∧ convertRgbToXyz (convertXyzToRgb c) = c := by
  unfold convertXyzToRgb convertRgbToXyz
  rw [rowDot_rowDot, rowDot_rowDot, Matrix.mul_nonsing_inv _ rgbXyz_det, Matrix.nonsing_inv_mul _ rgbXyz_det]
  exact ⟨rowDot_one c, rowDot_one c⟩

theorem cube_root {v : ℝ} (h : 0 ≤ v) : (v ^ ((1 : ℝ) / 3)) ^ 3 = v := by
  rw [← Real.rpow_natCast, ← Real.rpow_mul h]
  norm_num

theorem root_cube {v : ℝ} (h : 0 ≤ v) : (v ^ 3) ^ ((1 : ℝ) / 3) = v := by
  rw [← Real.rpow_natCast, ← Real.rpow_mul h]
  norm_num

/-- C132: the two functions of CIELAB are inverse to each other on all the numbers. -/
theorem C132_cielab (v : ℝ) : cielabFinv (cielabF v) = v ∧ cielabF (cielabFinv v) = v := by
  constructor
  · unfold cielabF
    split
    · rename_i h
      have h0 : 0 ≤ v := le_trans (by norm_num) h.le
      have hc := cube_root h0
      have hp : 0 ≤ v ^ ((1 : ℝ) / 3) := Real.rpow_nonneg h0 _
      unfold cielabFinv
      rw [if_pos, hc]
      by_contra hle
      have hle := not_lt.mp hle
      have := pow_le_pow_left₀ hp hle 3
      rw [hc] at this
      norm_num at this
      linarith
    · rename_i h
      unfold cielabFinv
      rw [if_neg (by linarith)]
      ring
  · unfold cielabFinv
    split
    · rename_i h
      have h0 : 0 ≤ v := le_trans (by norm_num) h.le
      unfold cielabF
      rw [if_pos, root_cube h0]
      have := pow_lt_pow_left₀ h (by norm_num) (by norm_num : 3 ≠ 0)
      norm_num at this
      linarith
    · rename_i h
      unfold cielabF
      rw [if_neg (by linarith)]
      ring

/-- C132: the way from XYZ to LAB and back loses the reference white: each coordinate comes back divided by that of the
reference. The way from LAB with the reference put back in, is the identity. -/
theorem C132_xyz_lab (x y z : ℝ) :
    convertLabToXyz (convertXyzToLab (x, y, z)) = (x / 95.047, y / 100, z / 108.883) ∧
    (∀ l a b X Y Z, convertLabToXyz (l, a, b) = (X, Y, Z) →
      convertXyzToLab (95.047 * X, 100 * Y, 108.883 * Z) = (l, a, b)) := by
  constructor
  · unfold convertLabToXyz convertXyzToLab refXyz
    simp only [Prod.mk.injEq]
    refine ⟨?_, ?_, ?_⟩
    · rw [show (116 * (cielabF (y / 100) - 16 / 116) + 16) * (1 / 116) +
        500 * (cielabF (x / 95.047) - cielabF (y / 100)) * (1 / 500) = cielabF (x / 95.047) by ring]
      exact (C132_cielab _).1
    · rw [show (116 * (cielabF (y / 100) - 16 / 116) + 16) * (1 / 116) = cielabF (y / 100) by ring]
      exact (C132_cielab _).1
    · rw [show (116 * (cielabF (y / 100) - 16 / 116) + 16) * (1 / 116) -
        200 * (cielabF (y / 100) - cielabF (z / 108.883)) * (1 / 200) = cielabF (z / 108.883) by ring]
      exact (C132_cielab _).1
  · intro l a b X Y Z h
    simp only [convertLabToXyz, Prod.mk.injEq] at h
    obtain ⟨rfl, rfl, rfl⟩ := h
    unfold convertXyzToLab refXyz
    simp only
    rw [mul_div_cancel_left₀ _ (by norm_num : (95.047 : ℝ) ≠ 0), mul_div_cancel_left₀ _ (by norm_num : (100 : ℝ) ≠ 0),
      mul_div_cancel_left₀ _ (by norm_num : (108.883 : ℝ) ≠ 0), (C132_cielab _).2, (C132_cielab _).2, (C132_cielab _).2]
    simp only [Prod.mk.injEq]
    refine ⟨?_, ?_, ?_⟩ <;> ring

theorem msh_ok {l a b : ℝ} (ha : a ≠ 0) :
    convertLabToMsh (l, a, b) =
      .ok (Real.sqrt (l ^ 2 + a ^ 2 + b ^ 2), Real.arccos (l / Real.sqrt (l ^ 2 + a ^ 2 + b ^ 2)), Real.arctan (b / a)) ∧
    0 < Real.sqrt (l ^ 2 + a ^ 2 + b ^ 2) ∧
    Real.sqrt (l ^ 2 + a ^ 2 + b ^ 2) * Real.sin (Real.arccos (l / Real.sqrt (l ^ 2 + a ^ 2 + b ^ 2))) =
      Real.sqrt (a ^ 2 + b ^ 2) := by
  have hsum : 0 < l ^ 2 + a ^ 2 + b ^ 2 := by positivity
  have hm : 0 < Real.sqrt (l ^ 2 + a ^ 2 + b ^ 2) := Real.sqrt_pos.mpr hsum
  refine ⟨?_, hm, ?_⟩
  · unfold convertLabToMsh pyDiv
    simp only [if_neg hm.ne', if_neg ha]
    rfl
  · rw [Real.sin_arccos]
    nth_rewrite 1 [← Real.sqrt_sq hm.le]
    rw [← Real.sqrt_mul (sq_nonneg _), Real.sq_sqrt hsum.le, div_pow, Real.sq_sqrt hsum.le]
    congr 1
    field_simp
    ring

/-- C132: the polar form of LAB: where `a` is positive, the way there and back is the identity; where it is negative
both `a` and `b` come back with the other sign; where it is zero the conversion raises. -/
theorem C132_lab_msh (l a b : ℝ) :
    (0 < a → ∃ c, convertLabToMsh (l, a, b) = .ok c ∧ convertMshToLab c = (l, a, b)) ∧
    (a < 0 → ∃ c, convertLabToMsh (l, a, b) = .ok c ∧ convertMshToLab c = (l, -a, -b)) ∧
    (a = 0 → convertLabToMsh (l, a, b) = .error .zeroDivisionError) := by
  have key : ∀ a : ℝ, a ≠ 0 → ∃ c, convertLabToMsh (l, a, b) = .ok c ∧ convertMshToLab c = (l, |a|, |a| * (b / a)) := by
    intro a ha
    obtain ⟨h, hm, hs⟩ := msh_ok (l := l) (b := b) ha
    refine ⟨_, h, ?_⟩
    unfold convertMshToLab
    simp only [hs]
    have hab : 0 < a ^ 2 + b ^ 2 := by positivity
    have h1 : Real.sqrt (1 + (b / a) ^ 2) = Real.sqrt (a ^ 2 + b ^ 2) / |a| := by
      rw [← Real.sqrt_sq_eq_abs, ← Real.sqrt_div hab.le]
      congr 1
      field_simp
    have hr : Real.sqrt (a ^ 2 + b ^ 2) ≠ 0 := (Real.sqrt_pos.mpr hab).ne'
    have ha' : |a| ≠ 0 := abs_ne_zero.mpr ha
    have hle : |l / Real.sqrt (l ^ 2 + a ^ 2 + b ^ 2)| ≤ 1 := by
      rw [abs_div, abs_of_pos hm, div_le_one hm, ← Real.sqrt_sq_eq_abs]
      exact Real.sqrt_le_sqrt (by nlinarith [sq_nonneg a, sq_nonneg b])
    rw [abs_le] at hle
    rw [Real.cos_arccos hle.1 hle.2, Real.cos_arctan, Real.sin_arctan, h1]
    simp only [Prod.mk.injEq]
    refine ⟨by field_simp, by field_simp, by field_simp⟩
  refine ⟨fun ha => ?_, fun ha => ?_, fun ha => ?_⟩
  · obtain ⟨c, h1, h2⟩ := key a ha.ne'
    refine ⟨c, h1, ?_⟩
    rw [h2, abs_of_pos ha, mul_div_cancel₀ _ ha.ne']
  · obtain ⟨c, h1, h2⟩ := key a ha.ne
    refine ⟨c, h1, ?_⟩
    rw [h2, abs_of_neg ha, neg_mul, mul_div_cancel₀ _ ha.ne]
  · subst ha
    unfold convertLabToMsh pyDiv
    simp only [if_true]
    by_cases hm : Real.sqrt (l ^ 2 + 0 ^ 2 + b ^ 2) = 0
    · simp only [hm, if_true]; rfl
    · simp only [if_neg hm]; rfl

/-- C132: black cannot be converted to MSH. -/
theorem C132_black : rgbToMsh (0, 0, 0) = .error .zeroDivisionError := by
  have h : convertXyzToLab (convertRgbToXyz (0, 0, 0)) = (0, 0, 0) := by
    have : convertRgbToXyz (0, 0, 0) = (0, 0, 0) := by
      unfold convertRgbToXyz rowDot
      have : (![0, 0, 0] : Fin 3 → ℝ) = 0 := by funext i; fin_cases i <;> rfl
      simp [this]
    rw [this]
    unfold convertXyzToLab
    simp only [zero_div, sub_self, mul_zero]
    unfold cielabF
    norm_num
  unfold rgbToMsh
  rw [h]
  exact (C132_lab_msh 0 0 0).2.2 rfl

/-- C132: red converted to MSH and back is not red. -/
theorem C132_red_wrong : ∃ c, rgbToMsh (1, 0, 0) = .ok c ∧ mshToRgb c ≠ (1, 0, 0) := by
  have hx : convertRgbToXyz (1, 0, 0) = (0.4124, 0.2126, 0.0193) := by
    unfold convertRgbToXyz rowDot rgbXyz
    simp [Matrix.vecMul, dotProduct, Fin.sum_univ_three]
  obtain ⟨l, a, b, hlab⟩ : ∃ l a b, convertXyzToLab (0.4124, 0.2126, 0.0193) = (l, a, b) := ⟨_, _, _, rfl⟩
  have ha : 0 < a := by
    have : a = (convertXyzToLab (0.4124, 0.2126, 0.0193)).2.1 := by rw [hlab]
    rw [this]
    unfold convertXyzToLab refXyz cielabF
    norm_num
  obtain ⟨c, h1, h2⟩ := (C132_lab_msh l a b).1 ha
  refine ⟨c, by unfold rgbToMsh; rw [hx, hlab, h1], ?_⟩
  unfold mshToRgb
  rw [h2, ← hlab, (C132_xyz_lab _ _ _).1]
  intro h
  have h' := congrArg convertRgbToXyz h
  rw [(C132_rgb_xyz _).2, hx] at h'
  have := congrArg Prod.fst h'
  norm_num at this

/-! ### Hues -/

/-- C132: the difference of two angles at most a turn apart is the shortest way around the circle. -/
theorem C132_rad_diff (x y : ℝ) (h : |x - y| ≤ 2 * Real.pi) :
    0 ≤ radDiff x y ∧ radDiff x y ≤ Real.pi ∧ (∃ k : ℤ, radDiff x y = |x - y + 2 * Real.pi * k|) ∧
      ∀ k : ℤ, radDiff x y ≤ |x - y + 2 * Real.pi * k| := by
  have hpi := Real.pi_pos
  have hmin : radDiff x y = min |x - y| (2 * Real.pi - |x - y|) := by
    unfold radDiff
    simp only
    split
    · rw [min_eq_right (by linarith)]; ring
    · rw [min_eq_left (by linarith)]
  rw [hmin]
  refine ⟨le_min (abs_nonneg _) (by linarith), ?_, ?_, ?_⟩
  · rcases le_total |x - y| Real.pi with h' | h'
    · exact (min_le_left _ _).trans h'
    · exact (min_le_right _ _).trans (by linarith)
  · rcases le_total |x - y| (2 * Real.pi - |x - y|) with h' | h'
    · exact ⟨0, by rw [min_eq_left h']; simp⟩
    · rw [min_eq_right h']
      rcases le_total 0 (x - y) with h0 | h0
      · refine ⟨-1, ?_⟩
        rw [abs_of_nonneg h0] at h ⊢
        push_cast
        rw [abs_of_nonpos (by linarith)]; ring
      · refine ⟨1, ?_⟩
        rw [abs_of_nonpos h0] at h ⊢
        push_cast
        rw [abs_of_nonneg (by linarith)]; ring
  · intro k
    rcases eq_or_ne k 0 with rfl | hk
    · simp
    · refine (min_le_right _ _).trans ?_
      have h1 : (1 : ℝ) ≤ |(k : ℝ)| := by exact_mod_cast Int.one_le_abs hk
      have h2 : |2 * Real.pi * (k : ℝ)| = 2 * Real.pi * |(k : ℝ)| := by
        rw [abs_mul, abs_of_pos (by positivity)]
      have h3 := abs_sub_abs_le_abs_sub (2 * Real.pi * (k : ℝ)) (-(x - y))
      rw [abs_neg, h2, sub_neg_eq_add, add_comm] at h3
      nlinarith

theorem rgbToMsh_inv {c d : Triple} (h : rgbToMsh c = .ok d) : 0 < d.1 ∧ 0 < Real.sin d.2.1 := by
  unfold rgbToMsh at h
  obtain ⟨l, a, b, hlab⟩ : ∃ l a b, convertXyzToLab (convertRgbToXyz c) = (l, a, b) := ⟨_, _, _, rfl⟩
  rw [hlab] at h
  by_cases ha : a = 0
  · rw [(C132_lab_msh l a b).2.2 ha] at h; exact absurd h (by simp)
  · obtain ⟨h1, hm, hs⟩ := msh_ok (l := l) (b := b) ha
    rw [h1] at h
    obtain rfl := Except.ok.inj h
    refine ⟨hm, ?_⟩
    have : 0 < Real.sqrt (a ^ 2 + b ^ 2) := Real.sqrt_pos.mpr (by positivity)
    rw [← hs] at this
    exact pos_of_mul_pos_right this hm.le

theorem adjustHue_ok {c : Triple} (m : ℝ) (hm : 0 < c.1) (hs : 0 < Real.sin c.2.1) : ∃ h, adjustHue c m = .ok h := by
  unfold adjustHue pyDiv
  simp only
  split
  · exact ⟨_, rfl⟩
  · rw [if_neg (mul_pos hm hs).ne']
    by_cases h : c.2.2 > -(Real.pi / 3)
    · simp only [if_pos h]; exact ⟨_, rfl⟩
    · simp only [if_neg h]; exact ⟨_, rfl⟩

/-- The state before the interpolation: brightness and saturation are those which `placeWhite` gives, and the hue too for
a saturated colour. -/
theorem adjustHues_ok (c1 c2 : Triple) (h1 : c1.2.1 > 0.05 → 0 < c1.1 ∧ 0 < Real.sin c1.2.1)
    (h2 : c2.2.1 > 0.05 → 0 < c2.1 ∧ 0 < Real.sin c2.2.1) :
    ∃ u, adjustHues c1 c2 = .ok u ∧ u.1.1 = c1.1 ∧ u.1.2.1 = c1.2.1 ∧ u.2.1 = c2.1 ∧ u.2.2.1 = c2.2.1 ∧
      (c1.2.1 > 0.05 → u.1 = c1) ∧ (c2.2.1 > 0.05 → u.2 = c2) := by
  unfold adjustHues
  split
  · rename_i h
    obtain ⟨k, hk⟩ := adjustHue_ok c1.1 (h2 h.2).1 (h2 h.2).2
    rw [hk]
    exact ⟨_, rfl, rfl, rfl, rfl, rfl, fun h' => absurd h' (not_lt.mpr h.1.le), fun _ => rfl⟩
  · split
    · rename_i h
      obtain ⟨k, hk⟩ := adjustHue_ok c2.1 (h1 h.2).1 (h1 h.2).2
      rw [hk]
      exact ⟨_, rfl, rfl, rfl, rfl, rfl, fun _ => rfl, fun h' => absurd h' (not_lt.mpr h.1.le)⟩
    · exact ⟨_, rfl, rfl, rfl, rfl, rfl, fun _ => rfl, fun _ => rfl⟩

/-- C132: the interpolation of two colours raises exactly outside the range from zero to one, and when one of the
colours has no MSH form. -/
theorem C132_coolwarm_raises (rgb1 rgb2 : Triple) (i : ℝ) :
    (¬ (0 ≤ i ∧ i ≤ 1) → interpolateCoolwarm rgb1 rgb2 i = .error .assertionError) ∧
    ((0 ≤ i ∧ i ≤ 1) → ((∃ r, interpolateCoolwarm rgb1 rgb2 i = .ok r) ↔
      (∃ c1, rgbToMsh rgb1 = .ok c1) ∧ ∃ c2, rgbToMsh rgb2 = .ok c2)) := by
  refine ⟨fun h => if_pos h, fun h => ?_⟩
  unfold interpolateCoolwarm
  rw [if_neg (not_not.mpr h)]
  cases e1 : rgbToMsh rgb1 with
  | error e => simp [bind, Except.bind]
  | ok c1 =>
    cases e2 : rgbToMsh rgb2 with
    | error e => simp [bind, Except.bind]
    | ok c2 =>
      simp only [Except.ok.injEq, exists_eq', and_self, iff_true]
      obtain ⟨u, hu, -⟩ := adjustHues_ok (placeWhite c1 c2 i).1 (placeWhite c1 c2 i).2.1 (by
        intro h5
        unfold placeWhite at h5 ⊢
        simp only at h5 ⊢
        split at h5
        · split at h5
          · rename_i hA hB
            rw [if_pos hA, if_pos hB]; exact rgbToMsh_inv e1
          · norm_num at h5
        · rename_i hA
          rw [if_neg hA]; exact rgbToMsh_inv e1) (by
        intro h5
        unfold placeWhite at h5 ⊢
        simp only at h5 ⊢
        split at h5
        · split at h5
          · norm_num at h5
          · rename_i hA hB
            rw [if_pos hA, if_neg hB]; exact rgbToMsh_inv e2
        · rename_i hA
          rw [if_neg hA]; exact rgbToMsh_inv e2)
      simp [bind, Except.bind, hu, pure, Except.pure]

theorem coolwarm_eq {rgb1 rgb2 c1 c2 d1 d2 : Triple} {i k : ℝ} {u : Triple × Triple} (h1 : rgbToMsh rgb1 = .ok c1)
    (h2 : rgbToMsh rgb2 = .ok c2) (hi : 0 ≤ i ∧ i ≤ 1) (hw : placeWhite c1 c2 i = (d1, d2, k))
    (hu : adjustHues d1 d2 = .ok u) : interpolateCoolwarm rgb1 rgb2 i =
      .ok (mshToRgb ((1 - k) * u.1.1 + k * u.2.1, (1 - k) * u.1.2.1 + k * u.2.2.1, (1 - k) * u.1.2.2 + k * u.2.2.2)) := by
  unfold interpolateCoolwarm
  rw [if_neg (not_not.mpr hi), h1, h2]
  simp only [bind, Except.bind, hw, hu]
  rfl

/-- C132: between two saturated colours the interpolation starts at the first and ends at the second, as far as these
survive the way to MSH and back. -/
theorem C132_coolwarm_ends (rgb1 rgb2 c1 c2 : Triple) (h1 : rgbToMsh rgb1 = .ok c1) (h2 : rgbToMsh rgb2 = .ok c2)
    (s1 : c1.2.1 > 0.05) (s2 : c2.2.1 > 0.05) :
    interpolateCoolwarm rgb1 rgb2 0 = .ok (mshToRgb c1) ∧ interpolateCoolwarm rgb1 rgb2 1 = .ok (mshToRgb c2) := by
  have i1 := rgbToMsh_inv h1
  have i2 := rgbToMsh_inv h2
  by_cases hd : radDiff c1.2.2 c2.2.2 > Real.pi / 3
  · constructor
    · obtain ⟨u, hu, -, -, -, -, hu1, -⟩ := adjustHues_ok c1 (max (max c1.1 c2.1) 88, 0, 0) (fun _ => i1) (by norm_num)
      have hw : placeWhite c1 c2 0 = (c1, (max (max c1.1 c2.1) 88, 0, 0), 0 * 2) := by
        unfold placeWhite
        rw [if_pos ⟨s1, s2, hd⟩, if_pos (by norm_num)]
      rw [coolwarm_eq h1 h2 (by norm_num) hw hu, hu1 s1]
      simp
    · obtain ⟨u, hu, -, -, -, -, -, hu2⟩ := adjustHues_ok (max (max c1.1 c2.1) 88, 0, 0) c2 (by norm_num) (fun _ => i2)
      have hw : placeWhite c1 c2 1 = ((max (max c1.1 c2.1) 88, 0, 0), c2, 2 * 1 - 1) := by
        unfold placeWhite
        rw [if_pos ⟨s1, s2, hd⟩, if_neg (by norm_num)]
      rw [coolwarm_eq h1 h2 (by norm_num) hw hu, hu2 s2]
      norm_num
  · obtain ⟨u, hu, -, -, -, -, hu1, hu2⟩ := adjustHues_ok c1 c2 (fun _ => i1) (fun _ => i2)
    have hw : ∀ i, placeWhite c1 c2 i = (c1, c2, i) := fun i => if_neg (fun h => hd h.2.2)
    constructor
    · rw [coolwarm_eq h1 h2 (by norm_num) (hw 0) hu, hu1 s1]
      simp
    · rw [coolwarm_eq h1 h2 (by norm_num) (hw 1) hu, hu2 s2]
      simp

/-- C132: half-way between two saturated colours of different hue is a grey, at least as bright as both and as 88. -/
theorem C132_coolwarm_middle (rgb1 rgb2 c1 c2 : Triple) (h1 : rgbToMsh rgb1 = .ok c1) (h2 : rgbToMsh rgb2 = .ok c2)
    (s1 : c1.2.1 > 0.05) (s2 : c2.2.1 > 0.05) (hd : radDiff c1.2.2 c2.2.2 > Real.pi / 3) :
    interpolateCoolwarm rgb1 rgb2 (1 / 2) =
      .ok (convertXyzToRgb (convertLabToXyz (max (max c1.1 c2.1) 88, 0, 0))) := by
  have i2 := rgbToMsh_inv h2
  obtain ⟨u, hu, hm, hs, -, -, -, -⟩ := adjustHues_ok (max (max c1.1 c2.1) 88, 0, 0) c2 (by norm_num) (fun _ => i2)
  have hw : placeWhite c1 c2 (1 / 2) = ((max (max c1.1 c2.1) 88, 0, 0), c2, 2 * (1 / 2) - 1) := by
    unfold placeWhite
    rw [if_pos ⟨s1, s2, hd⟩, if_neg (by norm_num)]
  rw [coolwarm_eq h1 h2 (by norm_num) hw hu, hm, hs]
  have e : (2 : ℝ) * (1 / 2) - 1 = 0 := by norm_num
  rw [e]
  simp [mshToRgb, convertMshToLab]

/-- The hypotheses are met: red and blue are saturated and of different hue. -/
theorem red_blue : ∃ c1 c2, rgbToMsh (1, 0, 0) = .ok c1 ∧ rgbToMsh (0, 0, 1) = .ok c2 ∧ c1.2.1 > 0.05 ∧ c2.2.1 > 0.05 ∧
    radDiff c1.2.2 c2.2.2 > Real.pi / 3 := by
  have key : ∀ l a b : ℝ, 0 < a → 0 ≤ l → 4 * l ^ 2 ≤ l ^ 2 + a ^ 2 + b ^ 2 →
      (0.05 : ℝ) < Real.arccos (l / Real.sqrt (l ^ 2 + a ^ 2 + b ^ 2)) := by
    intro l a b ha hl h
    have hm : 0 < Real.sqrt (l ^ 2 + a ^ 2 + b ^ 2) := Real.sqrt_pos.mpr (by positivity)
    have hle : l / Real.sqrt (l ^ 2 + a ^ 2 + b ^ 2) ≤ 1 / 2 := by
      rw [div_le_iff₀ hm]
      have : Real.sqrt (4 * l ^ 2) ≤ Real.sqrt (l ^ 2 + a ^ 2 + b ^ 2) := Real.sqrt_le_sqrt h
      rw [show 4 * l ^ 2 = (2 * l) ^ 2 by ring, Real.sqrt_sq (by linarith)] at this
      linarith
    have h3 : Real.arccos (1 / 2) = Real.pi / 3 := by
      rw [← Real.cos_pi_div_three]
      exact Real.arccos_cos (by positivity) (by linarith [Real.pi_pos])
    have := Real.arccos_le_arccos hle
    have := Real.two_le_pi
    norm_num
    linarith
  have hr : convertXyzToLab (convertRgbToXyz (1, 0, 0)) =
      (116 * 841 / 108 * (0.2126 / 100), 500 * 841 / 108 * (0.4124 / 95.047 - 0.2126 / 100),
        200 * 841 / 108 * (0.2126 / 100 - 0.0193 / 108.883)) := by
    have hx : convertRgbToXyz (1, 0, 0) = (0.4124, 0.2126, 0.0193) := by
      unfold convertRgbToXyz rowDot rgbXyz
      simp [Matrix.vecMul, dotProduct, Fin.sum_univ_three]
    rw [hx]
    unfold convertXyzToLab refXyz cielabF
    norm_num
  have hb : convertXyzToLab (convertRgbToXyz (0, 0, 1)) =
      (116 * 841 / 108 * (0.0722 / 100), 500 * 841 / 108 * (0.1805 / 95.047 - 0.0722 / 100),
        200 * 841 / 108 * (0.0722 / 100 - 0.9505 / 108.883)) := by
    have hx : convertRgbToXyz (0, 0, 1) = (0.1805, 0.0722, 0.9505) := by
      unfold convertRgbToXyz rowDot rgbXyz
      simp [Matrix.vecMul, dotProduct, Fin.sum_univ_three]
    rw [hx]
    unfold convertXyzToLab refXyz cielabF
    norm_num
  have e1 : rgbToMsh (1, 0, 0) = _ := congrArg convertLabToMsh hr
  have e2 : rgbToMsh (0, 0, 1) = _ := congrArg convertLabToMsh hb
  rw [(msh_ok (by norm_num)).1] at e1 e2
  refine ⟨_, _, e1, e2, ?_, ?_, ?_⟩
  · exact key _ _ _ (by norm_num) (by norm_num) (by norm_num)
  · exact key _ _ _ (by norm_num) (by norm_num) (by norm_num)
  · simp only
    have h1 : 0 ≤ Real.arctan (200 * 841 / 108 * (0.2126 / 100 - 0.0193 / 108.883) /
        (500 * 841 / 108 * (0.4124 / 95.047 - 0.2126 / 100))) := Real.arctan_nonneg.mpr (by norm_num)
    have h1' := Real.arctan_lt_pi_div_two (200 * 841 / 108 * (0.2126 / 100 - 0.0193 / 108.883) /
        (500 * 841 / 108 * (0.4124 / 95.047 - 0.2126 / 100)))
    have h2' := Real.neg_pi_div_two_lt_arctan (200 * 841 / 108 * (0.0722 / 100 - 0.9505 / 108.883) /
        (500 * 841 / 108 * (0.1805 / 95.047 - 0.0722 / 100)))
    have h2 : Real.arctan (200 * 841 / 108 * (0.0722 / 100 - 0.9505 / 108.883) /
        (500 * 841 / 108 * (0.1805 / 95.047 - 0.0722 / 100))) < -(Real.pi / 3) := by
      have h3 : Real.arctan (-2) < -(Real.pi / 3) := by
        rw [Real.arctan_neg, neg_lt_neg_iff]
        have h4 : Real.arctan (Real.sqrt 3) = Real.pi / 3 := by
          rw [← Real.tan_pi_div_three]
          exact Real.arctan_tan (by linarith [Real.pi_pos]) (by linarith [Real.pi_pos])
        rw [← h4]
        exact Real.arctan_strictMono (by rw [Real.sqrt_lt' two_pos]; norm_num)
      refine lt_of_le_of_lt ?_ h3
      exact Real.arctan_strictMono.monotone (by norm_num)
    unfold radDiff
    simp only
    rw [abs_of_pos (by linarith [Real.pi_pos]), if_neg (by linarith)]
    linarith

/-! ### Colour maps -/

theorem jetBase_eq (v : ℝ) : jetBase v = unit (3 / 2 - 2 * |v|) := by
  unfold jetBase jetInterpolate unit
  rcases abs_cases v with ⟨ha, h0⟩ | ⟨ha, h0⟩ <;> rw [ha]
  · rw [if_neg (by linarith), if_neg (by linarith)]
    split
    · rw [min_eq_left (by norm_num at *; linarith), max_eq_right zero_le_one]
    · split
      · rw [min_eq_right (by norm_num at *; linarith), max_eq_right (by norm_num at *; linarith)]; norm_num; ring
      · rw [min_eq_right (by norm_num at *; linarith), max_eq_left (by norm_num at *; linarith)]
  · split
    · rw [min_eq_right (by norm_num at *; linarith), max_eq_left (by norm_num at *; linarith)]
    · split
      · rw [min_eq_right (by norm_num at *; linarith), max_eq_right (by norm_num at *; linarith)]; norm_num; ring
      · rw [if_pos (by norm_num; linarith), min_eq_left (by norm_num at *; linarith), max_eq_right zero_le_one]

/-- C132: the jet map, on either range; other values raise. -/
theorem C132_jet (v : ℝ) :
    interpolateJet v true = (if -1 ≤ v ∧ v ≤ 1 then .ok (jet v) else .error .assertionError) ∧
    interpolateJet v false = (if 0 ≤ v ∧ v ≤ 1 then .ok (jet (2 * v - 1)) else .error .assertionError) := by
  have key : ∀ v, (jetBase (v - 0.5), jetBase v, jetBase (v + 0.5)) = jet v := by
    intro v
    unfold jet
    rw [jetBase_eq, jetBase_eq, jetBase_eq]
    norm_num
  have hv : (if v > 0.5 then (v - 0.5) * 2 else if v < 0.5 then -(0.5 - v) * 2 else 0) = 2 * v - 1 := by
    split
    · norm_num; ring
    · split
      · norm_num; ring
      · have : v = 1 / 2 := by norm_num at *; linarith
        rw [this]; norm_num
  unfold interpolateJet
  simp only [if_true, Bool.false_eq_true, if_false, hv, key]
  constructor <;> split <;> simp_all

/-- C132: the map from cold to hot is right in the first three quarters of its range. -/
theorem C132_hot_to_cold (v lo hi : ℝ) (h : lo < hi) (hv : v < lo + 3 / 4 * (hi - lo)) :
    interpolateHotToCold v lo hi = .ok (blueToRed ((max lo v - lo) / (hi - lo))) := by
  have hr : 0 < hi - lo := sub_pos.mpr h
  unfold interpolateHotToCold
  rw [if_neg (not_not.mpr h)]
  have hval : (if v < lo then lo else if v > hi then hi else v) = max lo v := by
    split
    · rw [max_eq_left (by linarith)]
    · rw [if_neg (by linarith), max_eq_right (by linarith)]
  simp only [hval]
  obtain ⟨u, hu⟩ : ∃ u, u = (max lo v - lo) / (hi - lo) := ⟨_, rfl⟩
  have hw : max lo v = lo + u * (hi - lo) := by rw [hu]; field_simp; ring
  have hu0 : 0 ≤ u := by rw [hu]; exact div_nonneg (by linarith [le_max_left lo v]) hr.le
  have hu1 : u < 3 / 4 := by
    rw [hu, div_lt_iff₀ hr]
    rcases max_choice lo v with h' | h' <;> rw [h'] <;> linarith
  rw [← hu, hw]
  unfold blueToRed unit
  have c1 : (lo + u * (hi - lo) < lo + 0.25 * (hi - lo)) ↔ u < 1 / 4 := by
    rw [add_lt_add_iff_left, mul_lt_mul_iff_left₀ hr]; norm_num
  have c2 : (lo + u * (hi - lo) < lo + 0.5 * (hi - lo)) ↔ u < 1 / 2 := by
    rw [add_lt_add_iff_left, mul_lt_mul_iff_left₀ hr]; norm_num
  have c3 : (lo + u * (hi - lo) < lo + 0.75 * (hi - lo)) ↔ u < 3 / 4 := by
    rw [add_lt_add_iff_left, mul_lt_mul_iff_left₀ hr]; norm_num
  simp only [c1, c2, c3, if_pos hu1]
  split
  · rename_i q
    rw [min_eq_right (by linarith : 4 * u - 2 ≤ 1), max_eq_left (by linarith : 4 * u - 2 ≤ 0),
      min_eq_left (by linarith : 4 * u ≤ 4 - 4 * u), min_eq_right (by linarith : 4 * u ≤ 1), max_eq_right (by linarith : 0 ≤ 4 * u),
      min_eq_left (by linarith : 1 ≤ 2 - 4 * u), max_eq_right zero_le_one]
    congr 3
    field_simp; ring
  · split
    · rename_i q1 q
      have g : (1 : ℝ) ≤ min (4 * u) (4 - 4 * u) := le_min (by linarith) (by linarith)
      rw [min_eq_right (by linarith : 4 * u - 2 ≤ 1), max_eq_left (by linarith : 4 * u - 2 ≤ 0),
        min_eq_left g, max_eq_right zero_le_one,
        min_eq_right (by linarith : 2 - 4 * u ≤ 1), max_eq_right (by linarith : 0 ≤ 2 - 4 * u)]
      congr 3
      norm_num
      field_simp; ring
    · rename_i q1 q
      have g : (1 : ℝ) ≤ min (4 * u) (4 - 4 * u) := le_min (by linarith) (by linarith)
      rw [min_eq_right (by linarith : 4 * u - 2 ≤ 1), max_eq_right (by linarith : 0 ≤ 4 * u - 2),
        min_eq_left g, max_eq_right zero_le_one,
        min_eq_right (by linarith : 2 - 4 * u ≤ 1), max_eq_left (by linarith : 2 - 4 * u ≤ 0)]
      congr 2
      norm_num
      field_simp; ring

/-- C132: in the last quarter the green part is four, whatever the value; a message made of it is yellow up to and
including the hottest value. An empty range raises. -/
theorem C132_hot_to_cold_wrong (v lo hi : ℝ) :
    (lo < hi → lo + 3 / 4 * (hi - lo) ≤ v → interpolateHotToCold v lo hi = .ok (1, 4, 0)) ∧
    (¬ lo < hi → interpolateHotToCold v lo hi = .error .assertionError) ∧
    mapColor 1 = .ok ⟨1, 1, 0, 1⟩ ∧ blueToRed 1 = (1, 0, 0) := by
  have h1 : ∀ v lo hi : ℝ, lo < hi → lo + 3 / 4 * (hi - lo) ≤ v → interpolateHotToCold v lo hi = .ok (1, 4, 0) := by
    intro v lo hi h hv
    have hr : 0 < hi - lo := sub_pos.mpr h
    unfold interpolateHotToCold
    rw [if_neg (not_not.mpr h)]
    have hval : lo + 3 / 4 * (hi - lo) ≤ (if v < lo then lo else if v > hi then hi else v) := by
      split
      · linarith
      · split <;> linarith
    simp only
    rw [if_neg (by norm_num; linarith), if_neg (by norm_num; linarith), if_neg (by norm_num; linarith)]
    congr 3
    norm_num
    field_simp
    norm_num
  refine ⟨h1 v lo hi, fun h => if_pos h, ?_, ?_⟩
  · unfold mapColor
    rw [h1 1 0 1 zero_lt_one (by norm_num)]
    simp [bind, Except.bind, pure, Except.pure, makeColor, safeColorVal]
  · unfold blueToRed unit
    norm_num

/-- C132: the components of a colour message are the given ones moved into the range from zero to one. -/
theorem C132_make_color (r g b a : ℝ) : makeColor r g b a = ⟨unit r, unit g, unit b, unit a⟩ := by
  have key : ∀ x, safeColorVal x = unit x := by
    intro x
    unfold safeColorVal unit
    split
    · rename_i h; rw [min_eq_left h, max_eq_right zero_le_one]
    · split
      · rw [min_eq_right (by linarith), max_eq_left (by linarith)]
      · rw [min_eq_right (by linarith), max_eq_right (by linarith)]
  unfold makeColor
  rw [key, key, key, key]

/-- The hypotheses are met: the colours half-way between two values -/
example : interpolateHotToCold 0.5 0 1 = .ok (blueToRed ((max 0 0.5 - 0) / (1 - 0))) :=
  C132_hot_to_cold 0.5 0 1 zero_lt_one (by norm_num)

/-- C132: an unsaturated colour which is no brighter takes the hue of the saturated one. A brighter one takes it turned
away from purple. -/
theorem C132_adjust_hue (m s h mu : ℝ) :
    (mu ≤ m → adjustHue (m, s, h) mu = .ok h) ∧
    (m < mu → 0 < m → 0 < s → s < Real.pi → ∃ spin, 0 < spin ∧
      spin * (m * Real.sin s) = s * Real.sqrt (mu ^ 2 - m ^ 2) ∧
      adjustHue (m, s, h) mu = .ok (if -(Real.pi / 3) < h then h + spin else h - spin)) := by
  constructor
  · intro hm
    exact if_pos hm
  · intro hm hm0 hs hpi
    have hsin := Real.sin_pos_of_pos_of_lt_pi hs hpi
    have hd : 0 < m * Real.sin s := mul_pos hm0 hsin
    have hr : 0 < Real.sqrt (mu ^ 2 - m ^ 2) := Real.sqrt_pos.mpr (by nlinarith)
    refine ⟨s * Real.sqrt (mu ^ 2 - m ^ 2) / (m * Real.sin s), by positivity, div_mul_cancel₀ _ hd.ne', ?_⟩
    unfold adjustHue
    simp only
    rw [if_neg (not_le.mpr hm)]
    unfold pyDiv
    rw [if_neg hd.ne']
    simp only [bind, Except.bind, pure, Except.pure]
    split <;> rfl

end Verif.PyColor
