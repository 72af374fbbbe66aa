import Verif.Spec.HashedGridRounded
import Verif.Props.VoxelRounded

/-! # Hashed voxel grids with rounding: one axis -/
namespace Verif.HashedGridRounded
open Verif Verif.HashedGrid
open Verif.Voxel (truncate int64)

variable (R : Rounding)

theorem scaled_err {c : ℝ} (hc : 0 < c) (x : ℝ) : |R.rd x / c - x / c| ≤ unit * |x / c| := by
  rw [← sub_div, abs_div, abs_div, abs_of_pos hc, ← mul_div_assoc]
  exact div_le_div_of_nonneg_right (R.err x) hc.le

/-- The size of a chunk along one axis. -/
noncomputable def size (c : ℝ) (n : ℤ) : ℝ := R.rd (c * R.rd n)

/-- The base of chunk `k` along one axis. -/
noncomputable def base1 (c : ℝ) (n k : ℤ) : ℝ := R.rd (R.rd k * size R c n)

/-- A chunk number that is not too large for the arithmetic. -/
def Near1 (n k : ℤ) : Prop := |(k : ℝ) * n| * unit ≤ 1 / 32

theorem unit_le : unit ≤ 1 / 2 ^ 53 := le_of_eq rfl

theorem near_abs {n k : ℤ} (hn : 0 < n) (h : Near1 n k) : |k| ≤ 2 ^ 48 := by
  have hnr : (1 : ℝ) ≤ n := by exact_mod_cast hn
  unfold Near1 at h
  rw [abs_mul, abs_of_pos (by linarith : (0 : ℝ) < n)] at h
  have hk := abs_nonneg (k : ℝ)
  have h1 : |(k : ℝ)| * unit ≤ 1 / 32 := by
    refine le_trans ?_ h
    exact mul_le_mul_of_nonneg_right (le_mul_of_one_le_right hk hnr) Rounding.unit_pos.le
  have h2 : |(k : ℝ)| ≤ 2 ^ 48 := by
    unfold unit at h1
    rw [mul_one_div, div_le_iff₀ (by positivity)] at h1
    refine le_trans h1 (by norm_num)
  exact_mod_cast h2

/-- The size of a chunk in cells. -/
theorem size_err {c : ℝ} (hc : 0 < c) {n : ℤ} (hn : 0 < n) (hn' : n ≤ 2 ^ 53) :
    |size R c n / c - n| ≤ unit * n ∧ 0 < size R c n := by
  have hnr : (0 : ℝ) < n := by exact_mod_cast hn
  have e : R.rd (n : ℝ) = n := R.int n (by rw [abs_of_pos hn]; exact hn')
  have h := scaled_err R hc (c * n)
  rw [mul_div_cancel_left₀ _ hc.ne', abs_of_pos hnr] at h
  unfold size
  rw [e]
  refine ⟨h, ?_⟩
  have hl := R.lower (mul_pos hc hnr).le
  have := mul_pos (mul_pos hc hnr) (sub_pos.2 Rounding.unit_lt_one)
  linarith

/-- The base of a chunk in cells. -/
theorem base_err {c : ℝ} (hc : 0 < c) {n : ℤ} (hn : 0 < n) (hn' : n ≤ 2 ^ 53) {k : ℤ} (hk : Near1 n k) :
    |base1 R c n k / c - k * n| ≤ 3 * (unit * |(k : ℝ) * n|) := by
  have hu := Rounding.unit_pos
  have hnr : (0 : ℝ) < n := by exact_mod_cast hn
  have e : R.rd (k : ℝ) = k := R.int k (le_trans (near_abs hn hk) (by norm_num))
  obtain ⟨h1, _⟩ := size_err R hc hn hn'
  have h2 := scaled_err R hc (k * size R c n)
  rw [mul_div_assoc] at h2
  have h3 : |(k : ℝ) * (size R c n / c) - k * n| ≤ unit * |(k : ℝ) * n| := by
    rw [← mul_sub, abs_mul]
    calc |(k : ℝ)| * |size R c n / c - n| ≤ |(k : ℝ)| * (unit * n) := mul_le_mul_of_nonneg_left h1 (abs_nonneg _)
      _ = unit * |(k : ℝ) * n| := by rw [abs_mul, abs_of_pos hnr]; ring
  have h4 : |(k : ℝ) * (size R c n / c)| ≤ 2 * |(k : ℝ) * n| := by
    have := abs_sub_abs_le_abs_sub ((k : ℝ) * (size R c n / c)) (k * n)
    have h5 : unit * |(k : ℝ) * n| ≤ 1 * |(k : ℝ) * n| :=
      mul_le_mul_of_nonneg_right Rounding.unit_lt_one.le (abs_nonneg _)
    linarith
  have h6 := mul_le_mul_of_nonneg_left h4 hu.le
  unfold base1
  rw [e]
  have := abs_sub_le (R.rd (k * size R c n) / c) (k * (size R c n / c)) (k * n)
  linarith

theorem base_inj {c : ℝ} (hc : 0 < c) {n : ℤ} (hn : 0 < n) (hn' : n ≤ 2 ^ 53) {j k : ℤ} (hj : Near1 n j)
    (hk : Near1 n k) (e : base1 R c n j = base1 R c n k) : j = k := by
  have h1 := base_err R hc hn hn' hj
  have h2 := base_err R hc hn hn' hk
  rw [e] at h1
  unfold Near1 at hj hk
  have h3 := abs_sub_le ((j : ℝ) * n) (base1 R c n k / c) (k * n)
  rw [abs_sub_comm ((j : ℝ) * n) (base1 R c n k / c)] at h3
  have hnr : (1 : ℝ) ≤ n := by exact_mod_cast hn
  rw [← sub_mul, abs_mul, abs_of_pos (by linarith : (0 : ℝ) < n)] at h3
  have h4 : |(j : ℝ) - k| < 1 := by
    have := le_mul_of_one_le_right (abs_nonneg ((j : ℝ) - k)) hnr
    linarith
  have h5 : |j - k| < 1 := by exact_mod_cast h4
  rw [Int.abs_lt_one_iff] at h5
  omega

/-- The cell of a location along one axis. -/
noncomputable def cell1 (c l t : ℝ) : ℤ := ⌊(l - t) / c⌋

section
variable {c l t : ℝ} {n : ℤ}

theorem well_bounds (hn : 0 < n) (hw : WellInside n ((l - t) / c)) :
    unit * (|(cell1 c l t : ℝ)| + n) ≤ 1 / 32 ∧ n ≤ 2 ^ 53 ∧ Near1 n (cell1 c l t / n) ∧
    |((cell1 c l t / n : ℤ) : ℝ) * n| ≤ |(cell1 c l t : ℝ)| + n ∧
    |(((cell1 c l t / n : ℤ) : ℝ) + 1) * n| ≤ |(cell1 c l t : ℝ)| + n := by
  have hu := Rounding.unit_pos
  obtain ⟨h1, h2⟩ := hw
  change (cell1 c l t : ℝ) + 16 * unit * (|(cell1 c l t : ℝ)| + n) ≤ _ at h1
  change _ ≤ (cell1 c l t : ℝ) + 1 - 16 * unit * (|(cell1 c l t : ℝ)| + n) at h2
  generalize cell1 c l t = i at *
  have hW : unit * (|(i : ℝ)| + n) ≤ 1 / 32 := by linarith
  have hnr : (0 : ℝ) < n := by exact_mod_cast hn
  have hi := abs_nonneg (i : ℝ)
  have hk1 : i / n * n ≤ i := Int.ediv_mul_le i hn.ne'
  have hk2 : i < i / n * n + n := by
    have := Int.mul_ediv_add_emod i n
    have := Int.emod_lt_of_pos i hn
    have e := Int.mul_comm n (i / n)
    omega
  have hk1r : ((i / n : ℤ) : ℝ) * n ≤ i := by exact_mod_cast hk1
  have hk2r : (i : ℝ) < ((i / n : ℤ) : ℝ) * n + n := by exact_mod_cast hk2
  obtain ⟨a1, a2⟩ := abs_le.1 (le_refl |(i : ℝ)|)
  have b1 : |((i / n : ℤ) : ℝ) * n| ≤ |(i : ℝ)| + n := by
    rw [abs_le]; constructor <;> linarith
  refine ⟨hW, ?_, ?_, b1, ?_⟩
  · have h3 : unit * n ≤ unit * (|(i : ℝ)| + n) := mul_le_mul_of_nonneg_left (by linarith) hu.le
    have h4 : unit * (n : ℝ) ≤ 1 / 32 := by linarith
    have h5 : (n : ℝ) ≤ 2 ^ 53 := by
      unfold unit at h4
      rw [one_div_mul_eq_div, div_le_iff₀ (by positivity)] at h4
      refine le_trans h4 (by norm_num)
    exact_mod_cast h5
  · unfold Near1
    have := mul_le_mul_of_nonneg_right b1 hu.le
    linarith
  · rw [add_mul, one_mul, abs_le]; constructor <;> linarith

/-- The number of the chunk along one axis, and the position in the chunk. -/
theorem axis (hc : 0 < c) (hn : 0 < n) (hw : WellInside n ((l - t) / c)) :
    ⌊R.rd (R.rd (l - t) / size R c n)⌋ = cell1 c l t / n ∧
    0 ≤ R.rd (R.rd (l - t) - base1 R c n (cell1 c l t / n)) ∧
    R.rd (R.rd (l - t) - base1 R c n (cell1 c l t / n)) ≤ size R c n ∧
    truncate (R.rd (R.rd (R.rd (l - t) - base1 R c n (cell1 c l t / n)) / c)) = .ok (cell1 c l t % n) := by
  have hu := Rounding.unit_pos
  obtain ⟨hW, hn', hnear, hk1, hk2⟩ := well_bounds hn hw
  obtain ⟨w1, w2⟩ := hw
  change (cell1 c l t : ℝ) + 16 * unit * (|(cell1 c l t : ℝ)| + n) ≤ _ at w1
  change _ ≤ (cell1 c l t : ℝ) + 1 - 16 * unit * (|(cell1 c l t : ℝ)| + n) at w2
  generalize cell1 c l t = i at *
  have hnr : (1 : ℝ) ≤ n := by exact_mod_cast hn
  obtain ⟨z1, z2⟩ := size_err R hc hn hn'
  have hb := base_err R hc hn hn' hnear
  have hkint : R.rd ((i / n : ℤ) : ℝ) = ((i / n : ℤ) : ℝ) :=
    R.int _ (le_trans (near_abs hn hnear) (by norm_num))
  have hP := scaled_err R hc (l - t)
  have hj0 := Int.emod_nonneg i hn.ne'
  have hj1 := Int.emod_lt_of_pos i hn
  have hij : (i : ℝ) = ((i / n : ℤ) : ℝ) * n + ((i % n : ℤ) : ℝ) := by
    have := Int.mul_ediv_add_emod i n
    have e := Int.mul_comm n (i / n)
    exact_mod_cast (by omega : i = i / n * n + i % n)
  have hj0r : (0 : ℝ) ≤ ((i % n : ℤ) : ℝ) := by exact_mod_cast hj0
  have hj1r : ((i % n : ℤ) : ℝ) + 1 ≤ n := by exact_mod_cast hj1
  obtain ⟨ia1, ia2⟩ := abs_le.1 (le_refl |(i : ℝ)|)
  have hia := abs_nonneg (i : ℝ)
  set M : ℝ := |(i : ℝ)| + n with hM
  have hWM : 16 * unit * M = 16 * (unit * M) := by ring
  rw [hWM] at w1 w2
  have hM1 : 1 ≤ M := by linarith
  have hWpos : 0 < unit * M := mul_pos hu (by linarith)
  -- everything in cells
  have hs : |(l - t) / c| ≤ M := by rw [abs_le]; constructor <;> linarith
  have hP' : |R.rd (l - t) / c - (l - t) / c| ≤ unit * M := le_trans hP (mul_le_mul_of_nonneg_left hs hu.le)
  obtain ⟨p1, p2⟩ := abs_le.1 hP'
  have hun : unit * n ≤ unit * M := mul_le_mul_of_nonneg_left (by linarith) hu.le
  obtain ⟨z3, z4⟩ := abs_le.1 z1
  have kC : ∀ k : ℝ, |k * n| ≤ M → |k * (size R c n / c) - k * n| ≤ unit * M := by
    intro k hk
    rw [← mul_sub, abs_mul]
    calc |k| * |size R c n / c - n| ≤ |k| * (unit * n) := mul_le_mul_of_nonneg_left z1 (abs_nonneg _)
      _ = unit * |k * n| := by rw [abs_mul, abs_of_pos (by linarith : (0 : ℝ) < n)]; ring
      _ ≤ unit * M := mul_le_mul_of_nonneg_left hk hu.le
  obtain ⟨c1, c2⟩ := abs_le.1 (kC _ hk1)
  obtain ⟨c3, c4⟩ := abs_le.1 (kC _ hk2)
  have hb' : |base1 R c n (i / n) / c - ((i / n : ℤ) : ℝ) * n| ≤ 3 * (unit * M) :=
    le_trans hb (mul_le_mul_of_nonneg_left (mul_le_mul_of_nonneg_left hk1 hu.le) (by norm_num))
  obtain ⟨b1, b2⟩ := abs_le.1 hb'
  have hCn : 0 < size R c n / c := div_pos z2 hc
  have hpC : R.rd (l - t) / size R c n = (R.rd (l - t) / c) / (size R c n / c) := by
    rw [div_div_div_cancel_right₀ hc.ne']
  refine ⟨?_, ?_, ?_, ?_⟩
  · rw [Int.floor_eq_iff]
    constructor
    · have hx : ((i / n : ℤ) : ℝ) ≤ R.rd (l - t) / size R c n := by
        rw [hpC, le_div_iff₀ hCn]
        linarith
      have := R.mono hx
      rwa [hkint] at this
    · have he := (abs_le.1 (R.err (R.rd (l - t) / size R c n))).2
      have h1 : R.rd (l - t) / size R c n * (size R c n / c) = R.rd (l - t) / c := by
        rw [hpC, div_mul_cancel₀ _ hCn.ne']
      have h2 : |R.rd (l - t) / size R c n| * (size R c n / c) = |R.rd (l - t) / c| := by
        rw [← h1, abs_mul, abs_of_pos hCn]
      have h3 : |R.rd (l - t) / c| ≤ 2 * M := by
        have := abs_sub_abs_le_abs_sub (R.rd (l - t) / c) ((l - t) / c)
        linarith
      have h4 := mul_le_mul_of_nonneg_left h3 hu.le
      have h5 := mul_le_mul_of_nonneg_right he hCn.le
      rw [sub_mul, h1, mul_assoc, h2] at h5
      have h6 : R.rd (R.rd (l - t) / size R c n) * (size R c n / c) <
          (((i / n : ℤ) : ℝ) + 1) * (size R c n / c) := by linarith
      exact lt_of_mul_lt_mul_right h6 hCn.le
  · apply R.nonneg
    have h1 : 0 ≤ (R.rd (l - t) - base1 R c n (i / n)) / c := by rw [sub_div]; linarith
    have := mul_nonneg h1 hc.le
    rwa [div_mul_cancel₀ _ hc.ne'] at this
  · have h1 : (R.rd (l - t) - base1 R c n (i / n)) / c ≤ size R c n / c := by rw [sub_div]; linarith
    have h2 := R.mono ((div_le_div_iff_of_pos_right hc).1 h1)
    have h3 : R.rd (size R c n) = size R c n := R.idem _
    rwa [h3] at h2
  · have y1 : ((i % n : ℤ) : ℝ) + 12 * (unit * M) ≤ (R.rd (l - t) - base1 R c n (i / n)) / c := by
      rw [sub_div]; linarith
    have y2 : (R.rd (l - t) - base1 R c n (i / n)) / c ≤ ((i % n : ℤ) : ℝ) + 1 - 12 * (unit * M) := by
      rw [sub_div]; linarith
    have hq := scaled_err R hc (R.rd (l - t) - base1 R c n (i / n))
    generalize (R.rd (l - t) - base1 R c n (i / n)) / c = y at *
    have hy : |y| ≤ M := by rw [abs_le]; constructor <;> linarith
    obtain ⟨q1, q2⟩ := abs_le.1 (le_trans hq (mul_le_mul_of_nonneg_left hy hu.le))
    generalize R.rd (R.rd (l - t) - base1 R c n (i / n)) / c = z at *
    have hz : |z| ≤ M := by rw [abs_le]; constructor <;> linarith
    obtain ⟨r1, r2⟩ := abs_le.1 (le_trans (R.err z) (mul_le_mul_of_nonneg_left hz hu.le))
    exact VoxelRounded.truncate_of_mem hj0 (by omega) (by linarith) (by linarith)

end

end Verif.HashedGridRounded
