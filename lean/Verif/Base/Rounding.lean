import Mathlib.Algebra.Order.Round
import Mathlib.Data.Int.Log
import Mathlib.Algebra.Order.Archimedean.Real.Basic
import Mathlib.Tactic.FieldSimp
import Mathlib.Tactic.Linarith
import Mathlib.Tactic.Positivity
import Mathlib.Tactic.Ring
import Mathlib.Tactic.NormNum

/-!
# Rounding

Not a model of a particular file: what is assumed of the arithmetic of `double` where rounding is modelled. Results
are rounded to 53 binary digits; the range of the exponent is not limited, so there is no overflow and no underflow.
-/
namespace Verif

/-- Half the distance of one to the next `double`. -/
noncomputable def unit : ℝ := 1 / 2 ^ 53

/-- A way of rounding the exact result of an operation to a `double`. -/
structure Rounding where
  rd : ℝ → ℝ
  /-- the relative error is at most `unit` -/
  err : ∀ x, |rd x - x| ≤ unit * |x|
  /-- a `double` is not changed -/
  idem : ∀ x, rd (rd x) = rd x
  /-- the sign does not matter -/
  odd : ∀ x, rd (-x) = -rd x
  /-- the order is kept -/
  mono : ∀ {x y}, x ≤ y → rd x ≤ rd y
  /-- numbers with at most 53 binary digits are `double`s -/
  fixed : ∀ k e : ℤ, |k| ≤ 2 ^ 53 → rd ((k : ℝ) * 2 ^ e) = (k : ℝ) * 2 ^ e
  /-- and there are no others -/
  digits : ∀ x, ∃ k e : ℤ, |k| ≤ 2 ^ 53 ∧ rd x = (k : ℝ) * 2 ^ e

namespace Rounding
variable (R : Rounding)

/-- A number that is a `double`. -/
def Fp (x : ℝ) : Prop := R.rd x = x

theorem zero : R.rd 0 = 0 := by
  have h := R.err 0
  simp at h
  exact h

theorem fp_rd (x : ℝ) : R.Fp (R.rd x) := R.idem x

theorem fp_zero : R.Fp 0 := R.zero

/-- Small whole numbers are `double`s. -/
theorem int (n : ℤ) (h : |n| ≤ 2 ^ 53) : R.rd n = n := by
  have := R.fixed n 0 h
  simpa using this

theorem fp_int (n : ℤ) (h : |n| ≤ 2 ^ 53) : R.Fp (n : ℝ) := R.int n h

theorem fp_one : R.Fp 1 := by
  have := R.int 1 (by norm_num)
  simpa [Fp] using this

theorem fp_neg {x : ℝ} (h : R.Fp x) : R.Fp (-x) := by
  unfold Fp at *
  rw [R.odd, h]

theorem nonneg {x : ℝ} (h : 0 ≤ x) : 0 ≤ R.rd x := by
  have := R.mono h
  rwa [R.zero] at this

theorem unit_pos : 0 < unit := by unfold unit; positivity

theorem unit_lt_one : unit < 1 := by unfold unit; norm_num

theorem upper {x : ℝ} (h : 0 ≤ x) : R.rd x ≤ x * (1 + unit) := by
  have := (abs_le.1 (R.err x)).2
  rw [abs_of_nonneg h] at this
  linarith

theorem lower {x : ℝ} (h : 0 ≤ x) : x * (1 - unit) ≤ R.rd x := by
  have := (abs_le.1 (R.err x)).1
  rw [abs_of_nonneg h] at this
  linarith

theorem eq_zero {x : ℝ} : R.rd x = 0 ↔ x = 0 := by
  constructor
  · intro h
    have h1 := R.err x
    rw [h, zero_sub, abs_neg] at h1
    have h2 := unit_lt_one
    have h3 := abs_nonneg x
    have : |x| = 0 := by nlinarith
    exact abs_eq_zero.1 this
  · rintro rfl; exact R.zero

theorem fp_digits {x : ℝ} (h : R.Fp x) : ∃ k e : ℤ, |k| ≤ 2 ^ 53 ∧ x = (k : ℝ) * 2 ^ e := by
  obtain ⟨k, e, hk, hx⟩ := R.digits x
  exact ⟨k, e, hk, by rw [← hx]; exact h.symm⟩

/-- A multiple of the last digit of a `double` that is not larger than it is a `double`. -/
theorem fp_of_le {k e n : ℤ} (hk : |k| ≤ 2 ^ 53) (h : |(n : ℝ) * 2 ^ e| ≤ |(k : ℝ) * 2 ^ e|) :
    R.Fp ((n : ℝ) * 2 ^ e) := by
  have hp : (0 : ℝ) < 2 ^ e := zpow_pos (by norm_num) e
  rw [abs_mul, abs_mul, abs_of_pos hp] at h
  have h1 : |(n : ℝ)| ≤ |(k : ℝ)| := le_of_mul_le_mul_right h hp
  have h2 : |n| ≤ |k| := by exact_mod_cast h1
  exact R.fixed n e (le_trans h2 hk)

theorem zpow_split {e f : ℤ} (h : e ≤ f) : ∃ m : ℤ, (2 : ℝ) ^ f = (m : ℝ) * 2 ^ e := by
  obtain ⟨n, hn⟩ := Int.eq_ofNat_of_zero_le (sub_nonneg.2 h)
  refine ⟨2 ^ n, ?_⟩
  have : f = n + e := by omega
  rw [this, zpow_add₀ (by norm_num), zpow_natCast]
  push_cast; ring

/-- An integer combination of two `double`s that is not larger than either of them is a `double`. -/
theorem fp_combination {x y : ℝ} (hx : R.Fp x) (hy : R.Fp y) (q : ℤ) (h1 : |x - q * y| ≤ |x|)
    (h2 : |x - q * y| ≤ |y|) : R.Fp (x - q * y) := by
  obtain ⟨k, e, hk, rfl⟩ := R.fp_digits hx
  obtain ⟨l, f, hl, rfl⟩ := R.fp_digits hy
  rcases le_total e f with h | h
  · obtain ⟨m, hm⟩ := zpow_split h
    have e1 : (k : ℝ) * 2 ^ e - q * (l * 2 ^ f) = ((k - q * l * m : ℤ) : ℝ) * 2 ^ e := by
      rw [hm]; push_cast; ring
    rw [e1] at h1 ⊢
    exact R.fp_of_le hk h1
  · obtain ⟨m, hm⟩ := zpow_split h
    have e1 : (k : ℝ) * 2 ^ e - q * (l * 2 ^ f) = ((k * m - q * l : ℤ) : ℝ) * 2 ^ f := by
      rw [hm]; push_cast; ring
    rw [e1] at h2 ⊢
    exact R.fp_of_le hl h2

/-- Sterbenz: the difference of two `double`s not further apart than a factor of two is exact. -/
theorem sterbenz {x y : ℝ} (hx : R.Fp x) (hy : R.Fp y) (h1 : y ≤ 2 * x) (h2 : x ≤ 2 * y) : R.Fp (x - y) := by
  have hx0 : 0 ≤ x := by linarith
  have hy0 : 0 ≤ y := by linarith
  have := R.fp_combination hx hy 1
  simp only [Int.cast_one, one_mul] at this
  apply this
  · rw [abs_le, abs_of_nonneg hx0]; constructor <;> linarith
  · rw [abs_le, abs_of_nonneg hy0]; constructor <;> linarith

theorem fp_two_mul {x : ℝ} (h : R.Fp x) : R.Fp (2 * x) := by
  obtain ⟨k, e, hk, rfl⟩ := R.fp_digits h
  have := R.fixed k (e + 1) hk
  rw [zpow_add_one₀ (by norm_num)] at this
  unfold Fp
  rw [show (2 : ℝ) * (k * 2 ^ e) = k * (2 ^ e * 2) by ring]
  exact this

/-- Rounding between two `double`s stays between them. -/
theorem between {x a b : ℝ} (ha : R.Fp a) (hb : R.Fp b) (h1 : a ≤ x) (h2 : x ≤ b) : a ≤ R.rd x ∧ R.rd x ≤ b := by
  have h3 := R.mono h1
  have h4 := R.mono h2
  rw [ha] at h3
  rw [hb] at h4
  exact ⟨h3, h4⟩

end Rounding

/-! ## Rounding to the nearest number with 53 binary digits -/

namespace Nearest

/-- The exponent of the last of 53 binary digits. -/
noncomputable def ex (x : ℝ) : ℤ := Int.log 2 x - 52

/-- The nearest whole number, halves to the even one. -/
noncomputable def whole (x : ℝ) : ℤ := open Classical in if Int.fract x = 1 / 2 ∧ Even ⌊x⌋ then ⌊x⌋ else round x

theorem whole_mono : Monotone whole := by
  intro x y hxy
  have hr : round x ≤ round y := by
    rw [round_eq, round_eq]
    exact Int.floor_le_floor (by linarith)
  have hf : ⌊x⌋ ≤ ⌊y⌋ := Int.floor_le_floor hxy
  have hfr : ∀ z : ℝ, ⌊z⌋ ≤ round z := by
    intro z
    rw [round_eq]
    exact Int.floor_le_floor (by linarith)
  unfold whole
  split
  · split
    · exact hf
    · exact le_trans (hfr x) hr
  · next hx =>
    split
    · next hy =>
      rcases eq_or_lt_of_le hxy with rfl | hlt
      · exact absurd hy hx
      · rw [round_eq, ← Int.lt_add_one_iff, Int.floor_lt]
        have := Int.floor_add_fract y
        rw [hy.1] at this
        push_cast
        linarith
    · exact hr

theorem whole_int (k : ℤ) : whole (k : ℝ) = k := by
  unfold whole
  rw [if_neg (by rintro ⟨h, -⟩; rw [Int.fract_intCast] at h; norm_num at h), round_intCast]

theorem abs_sub_whole (x : ℝ) : |x - whole x| ≤ 1 / 2 := by
  unfold whole
  split
  · next h =>
    have := Int.floor_add_fract x
    rw [h.1] at this
    rw [show x - (⌊x⌋ : ℝ) = 1 / 2 by linarith]
    norm_num
  · exact abs_sub_round x

/-- Rounding of a positive number. -/
noncomputable def pos (x : ℝ) : ℝ := (whole (x / 2 ^ ex x) : ℝ) * 2 ^ ex x

/-- Rounding to the nearest number with 53 binary digits, halves to the one with an even last digit. -/
noncomputable def rd (x : ℝ) : ℝ := if 0 < x then pos x else if x < 0 then -pos (-x) else 0

theorem two_zpow_pos (e : ℤ) : (0 : ℝ) < 2 ^ e := zpow_pos (by norm_num) e

theorem scaled {x : ℝ} (h : 0 < x) : (2 : ℝ) ^ 52 ≤ x / 2 ^ ex x ∧ x / 2 ^ ex x < 2 ^ 53 := by
  have h1 := Int.zpow_log_le_self (b := 2) (by norm_num) h
  have h2 := Int.lt_zpow_succ_log_self (b := 2) (by norm_num) x
  have hp := two_zpow_pos (ex x)
  have e1 : (2 : ℝ) ^ 52 * 2 ^ ex x = 2 ^ Int.log 2 x := by
    rw [← zpow_natCast, ← zpow_add₀ (by norm_num)]
    congr 1; unfold ex; push_cast; ring
  have e2 : (2 : ℝ) ^ 53 * 2 ^ ex x = 2 ^ (Int.log 2 x + 1) := by
    rw [← zpow_natCast, ← zpow_add₀ (by norm_num)]
    congr 1; unfold ex; push_cast; ring
  push_cast at h1 h2
  constructor
  · rw [le_div_iff₀ hp, e1]; exact h1
  · rw [div_lt_iff₀ hp, e2]; exact h2

theorem round_scaled {x : ℝ} (h : 0 < x) :
    (2 : ℤ) ^ 52 ≤ whole (x / 2 ^ ex x) ∧ whole (x / 2 ^ ex x) ≤ (2 : ℤ) ^ 53 := by
  obtain ⟨h1, h2⟩ := scaled h
  have m : Monotone whole := whole_mono
  constructor
  · have := m h1
    rwa [show ((2 : ℝ) ^ 52) = (((2 : ℤ) ^ 52 : ℤ) : ℝ) by push_cast; ring, whole_int] at this
  · have := m h2.le
    rwa [show ((2 : ℝ) ^ 53) = (((2 : ℤ) ^ 53 : ℤ) : ℝ) by push_cast; ring, whole_int] at this

theorem pos_pos {x : ℝ} (h : 0 < x) : 0 < pos x := by
  obtain ⟨h1, _⟩ := round_scaled h
  have : (0 : ℝ) < (whole (x / 2 ^ ex x) : ℝ) := by
    have : (0 : ℤ) < whole (x / 2 ^ ex x) := lt_of_lt_of_le (by norm_num) h1
    exact_mod_cast this
  exact mul_pos this (two_zpow_pos _)

theorem pos_err {x : ℝ} (h : 0 < x) : |pos x - x| ≤ unit * x := by
  have hp := two_zpow_pos (ex x)
  have h1 : x = x / 2 ^ ex x * 2 ^ ex x := by field_simp
  have h2 := abs_sub_whole (x / 2 ^ ex x)
  have h3 : |pos x - x| = |x / 2 ^ ex x - whole (x / 2 ^ ex x)| * 2 ^ ex x := by
    conv_lhs => rw [h1]
    rw [show pos (x / 2 ^ ex x * 2 ^ ex x) = pos x by rw [← h1]]
    unfold pos
    rw [← sub_mul, abs_mul, abs_of_pos hp, abs_sub_comm]
  rw [h3]
  have h4 := (scaled h).1
  rw [le_div_iff₀ hp] at h4
  unfold unit
  calc |x / 2 ^ ex x - whole (x / 2 ^ ex x)| * 2 ^ ex x ≤ 1 / 2 * 2 ^ ex x :=
        mul_le_mul_of_nonneg_right h2 hp.le
    _ ≤ 1 / 2 ^ 53 * x := by
        have : (1 : ℝ) / 2 * 2 ^ ex x = 1 / 2 ^ 53 * (2 ^ 52 * 2 ^ ex x) := by ring
        rw [this]
        exact mul_le_mul_of_nonneg_left h4 (by positivity)

/-- A number with at most 53 binary digits is not changed. -/
theorem pos_fixed {k : ℤ} {e : ℤ} (h0 : 0 < k) (h1 : k ≤ 2 ^ 53) : pos ((k : ℝ) * 2 ^ e) = (k : ℝ) * 2 ^ e := by
  have hk : (0 : ℝ) < (k : ℝ) := by exact_mod_cast h0
  have hx : 0 < (k : ℝ) * 2 ^ e := mul_pos hk (two_zpow_pos e)
  -- the exponent of the value is not above `e`, or `k` is a power of two
  have key : ∃ m : ℤ, (k : ℝ) * 2 ^ e / 2 ^ ex ((k : ℝ) * 2 ^ e) = m := by
    obtain ⟨s1, s2⟩ := scaled hx
    by_cases hle : ex ((k : ℝ) * 2 ^ e) ≤ e
    · obtain ⟨n, hn⟩ := Int.eq_ofNat_of_zero_le (sub_nonneg.2 hle)
      refine ⟨k * 2 ^ n, ?_⟩
      rw [mul_div_assoc, ← zpow_sub₀ (by norm_num), hn]
      push_cast
      rw [zpow_natCast]
    · -- then the exponent is `e + 1` and `k` is `2 ^ 53`
      have hgt : e + 1 ≤ ex ((k : ℝ) * 2 ^ e) := by omega
      have hp := two_zpow_pos (ex ((k : ℝ) * 2 ^ e))
      rw [le_div_iff₀ hp] at s1
      have hmono : (2 : ℝ) ^ (e + 1) ≤ 2 ^ ex ((k : ℝ) * 2 ^ e) := zpow_le_zpow_right₀ (by norm_num) hgt
      have hk53 : (k : ℝ) ≤ 2 ^ 53 := by exact_mod_cast h1
      have he := two_zpow_pos e
      rw [zpow_add_one₀ (by norm_num)] at hmono
      have a1 : (2 : ℝ) ^ 53 * 2 ^ e ≤ (k : ℝ) * 2 ^ e := by nlinarith
      have a2 : (2 : ℝ) ^ 53 ≤ k := le_of_mul_le_mul_right a1 he
      have hkeq : (k : ℝ) = 2 ^ 53 := le_antisymm hk53 a2
      have a3 : (2 : ℝ) ^ ex ((k : ℝ) * 2 ^ e) ≤ 2 ^ e * 2 := by
        rw [hkeq] at s1 ⊢
        nlinarith
      have a4 : (2 : ℝ) ^ ex ((k : ℝ) * 2 ^ e) = 2 ^ e * 2 := le_antisymm a3 hmono
      refine ⟨2 ^ 52, ?_⟩
      rw [a4, hkeq]
      push_cast
      field_simp
      norm_num
  obtain ⟨m, hm⟩ := key
  unfold pos
  rw [hm, whole_int, ← hm]
  have := (two_zpow_pos (ex ((k : ℝ) * 2 ^ e))).ne'
  field_simp

theorem pos_idem {x : ℝ} (h : 0 < x) : pos (pos x) = pos x := by
  obtain ⟨h1, h2⟩ := round_scaled h
  unfold pos
  exact pos_fixed (lt_of_lt_of_le (by norm_num) h1) h2

theorem pos_mono {x y : ℝ} (h : 0 < x) (hxy : x ≤ y) : pos x ≤ pos y := by
  have hy : 0 < y := lt_of_lt_of_le h hxy
  have hl : ex x ≤ ex y := by
    unfold ex
    have := Int.log_mono_right (b := 2) h hxy
    omega
  rcases eq_or_lt_of_le hl with he | he
  · unfold pos
    rw [← he]
    have hp := two_zpow_pos (ex x)
    apply mul_le_mul_of_nonneg_right _ hp.le
    have : whole (x / 2 ^ ex x) ≤ whole (y / 2 ^ ex x) := whole_mono (div_le_div_of_nonneg_right hxy hp.le)
    exact_mod_cast this
  · obtain ⟨_, hx⟩ := round_scaled h
    obtain ⟨hy', _⟩ := round_scaled hy
    have e1 : pos x ≤ 2 ^ 53 * 2 ^ ex x := by
      unfold pos
      apply mul_le_mul_of_nonneg_right _ (two_zpow_pos _).le
      exact_mod_cast hx
    have e2 : 2 ^ 52 * 2 ^ ex y ≤ pos y := by
      unfold pos
      apply mul_le_mul_of_nonneg_right _ (two_zpow_pos _).le
      exact_mod_cast hy'
    have e3 : (2 : ℝ) ^ (ex x + 1) ≤ 2 ^ ex y := zpow_le_zpow_right₀ (by norm_num) he
    rw [zpow_add_one₀ (by norm_num)] at e3
    nlinarith

theorem rd_odd (x : ℝ) : rd (-x) = -rd x := by
  unfold rd
  rcases lt_trichotomy x 0 with h | h | h
  · rw [if_pos (by linarith), if_neg (by linarith), if_pos h, neg_neg]
  · subst h; simp
  · rw [if_neg (by linarith), if_pos (by linarith), if_pos h, neg_neg]

theorem rd_pos {x : ℝ} (h : 0 < x) : rd x = pos x := by unfold rd; rw [if_pos h]

theorem rd_zero : rd 0 = 0 := by unfold rd; simp

theorem rd_nonneg {x : ℝ} (h : 0 ≤ x) : 0 ≤ rd x := by
  rcases eq_or_lt_of_le h with h | h
  · rw [← h, rd_zero]
  · rw [rd_pos h]; exact (pos_pos h).le

/-- The hypotheses on rounding are met by rounding to nearest. -/
noncomputable def nearest : Rounding where
  rd := rd
  err x := by
    rcases lt_trichotomy x 0 with h | h | h
    · have := pos_err (neg_pos.2 h)
      have e : rd x = -pos (-x) := by
        unfold rd; rw [if_neg (by linarith), if_pos h]
      rw [e, abs_of_neg h, ← abs_neg]
      rw [show -(-pos (-x) - x) = pos (-x) - -x by ring]
      exact this
    · subst h; rw [rd_zero]; simp
    · rw [rd_pos h, abs_of_pos h]; exact pos_err h
  idem x := by
    rcases lt_trichotomy x 0 with h | h | h
    · have e : rd x = -rd (-x) := by rw [rd_odd, neg_neg]
      rw [e, rd_odd, rd_pos (neg_pos.2 h), rd_pos (pos_pos (neg_pos.2 h)), pos_idem (neg_pos.2 h)]
    · subst h; rw [rd_zero, rd_zero]
    · rw [rd_pos h, rd_pos (pos_pos h), pos_idem h]
  odd := rd_odd
  mono {x y} hxy := by
    rcases le_or_gt 0 x with hx | hx
    · rcases eq_or_lt_of_le hx with h | h
      · rw [← h, rd_zero]; exact rd_nonneg (le_trans hx hxy)
      · rw [rd_pos h, rd_pos (lt_of_lt_of_le h hxy)]; exact pos_mono h hxy
    · have ex' : rd x = -rd (-x) := by rw [rd_odd, neg_neg]
      have ey : rd y = -rd (-y) := by rw [rd_odd, neg_neg]
      rcases le_or_gt 0 y with hy | hy
      · rw [ex']
        have h1 := rd_nonneg (neg_pos.2 hx).le
        have h2 := rd_nonneg hy
        linarith
      · rw [ex', ey, rd_pos (neg_pos.2 hx), rd_pos (neg_pos.2 hy)]
        have := pos_mono (neg_pos.2 hy) (neg_le_neg hxy)
        linarith
  fixed k e h := by
    obtain ⟨h1, h2⟩ := abs_le.1 h
    have hp := two_zpow_pos e
    rcases lt_trichotomy k 0 with h0 | h0 | h0
    · have hk : (0 : ℝ) < ((-k : ℤ) : ℝ) := by exact_mod_cast (by omega : 0 < -k)
      have := pos_fixed (e := e) (k := -k) (by omega) (by omega)
      rw [← rd_pos (mul_pos hk hp)] at this
      push_cast at this
      rw [neg_mul, rd_odd] at this
      linarith
    · subst h0; simpa using rd_zero
    · have hk : (0 : ℝ) < (k : ℝ) := by exact_mod_cast h0
      rw [rd_pos (mul_pos hk hp)]
      exact pos_fixed h0 h2
  digits x := by
    rcases lt_trichotomy x 0 with h | h | h
    · obtain ⟨h1, h2⟩ := round_scaled (neg_pos.2 h)
      refine ⟨-whole (-x / 2 ^ ex (-x)), ex (-x), ?_, ?_⟩
      · rw [abs_neg, abs_of_nonneg (le_trans (by norm_num) h1)]; exact h2
      · have e : rd x = -rd (-x) := by rw [rd_odd, neg_neg]
        rw [e, rd_pos (neg_pos.2 h)]
        unfold pos
        push_cast; ring
    · exact ⟨0, 0, by norm_num, by rw [h, rd_zero]; simp⟩
    · obtain ⟨h1, h2⟩ := round_scaled h
      refine ⟨whole (x / 2 ^ ex x), ex x, ?_, ?_⟩
      · rw [abs_of_nonneg (le_trans (by norm_num) h1)]; exact h2
      · rw [rd_pos h]; rfl

end Nearest

end Verif
