import Verif.Spec.VoxelRoundedSizes
import Verif.Props.VoxelRounded

/-!
# Property C172 (voxel_grid.hpp): how many cells a grid made from sizes has, with rounding
-/
namespace Verif.VoxelRounded
open Verif Verif.Voxel

variable {T : Type} (R : Rounding)

theorem int64_ok {v : Int} (h : -2 ^ 63 ≤ v) (h' : v < 2 ^ 63) : int64 v = .ok v := if_pos ⟨h, h'⟩

/-- **C172.** The number of cells along an axis is at least one, no layer of cells lies wholly outside the size asked
for, the cells cover all of it but a share of at most one rounding unit, and there are as many cells as needed or one
fewer. -/
theorem C172_cells (s c : ℝ) (hs : 0 < s) (hc : 0 < c) (hb : s ≤ 2 ^ 53 * c) :
    ∃ n, cellsFor R s c = .ok n ∧ CellsFor s c n := by
  have hx : 0 < s / c := div_pos hs hc
  have hx53 : s / c ≤ 2 ^ 53 := by rw [div_le_iff₀ hc]; exact hb
  have hk53 : ⌈s / c⌉ ≤ 2 ^ 53 := by
    rw [Int.ceil_le]; push_cast; linarith
  have hk1 : 1 ≤ ⌈s / c⌉ := Int.one_le_ceil_iff.2 hx
  have up : R.rd (s / c) ≤ (⌈s / c⌉ : ℝ) := by
    have := R.mono (Int.le_ceil (s / c))
    rwa [R.int _ (by rw [abs_le]; constructor <;> omega)] at this
  have down : ((⌈s / c⌉ - 1 : ℤ) : ℝ) ≤ R.rd (s / c) := by
    have h1 : ((⌈s / c⌉ - 1 : ℤ) : ℝ) ≤ s / c := by
      have := Int.ceil_lt_add_one (s / c)
      push_cast; linarith
    have := R.mono h1
    rwa [R.int _ (by rw [abs_le]; constructor <;> omega)] at this
  have hpos : 0 < R.rd (s / c) := by
    have h1 := R.nonneg hx.le
    have h2 : R.rd (s / c) ≠ 0 := fun h => hx.ne' (R.eq_zero.1 h)
    exact lt_of_le_of_ne h1 h2.symm
  have nup : ⌈R.rd (s / c)⌉ ≤ ⌈s / c⌉ := Int.ceil_le.2 up
  have ndown : ⌈s / c⌉ - 1 ≤ ⌈R.rd (s / c)⌉ := by
    have := le_trans down (Int.le_ceil (R.rd (s / c)))
    exact_mod_cast this
  have n1 : 1 ≤ ⌈R.rd (s / c)⌉ := Int.one_le_ceil_iff.2 hpos
  refine ⟨⌈R.rd (s / c)⌉, ?_, n1, ?_, ?_, ?_⟩
  · unfold cellsFor
    rw [abs_of_pos hs, abs_of_pos hc]
    exact int64_ok (by omega) (by omega)
  · have h1 : ((⌈R.rd (s / c)⌉ : ℤ) : ℝ) - 1 < s / c := by
      have h2 := Int.ceil_lt_add_one (s / c)
      have h3 : ((⌈R.rd (s / c)⌉ : ℤ) : ℝ) ≤ ⌈s / c⌉ := by exact_mod_cast nup
      linarith
    rwa [lt_div_iff₀ hc] at h1
  · have h1 := R.lower hx.le
    have h2 := Int.le_ceil (R.rd (s / c))
    have h3 : s / c * (1 - unit) ≤ (⌈R.rd (s / c)⌉ : ℝ) := le_trans h1 h2
    have h4 := mul_le_mul_of_nonneg_right h3 hc.le
    have h5 : s / c * (1 - unit) * c = s * (1 - unit) := by field_simp
    linarith
  · omega

/-- **C172.** A size that is the rounded product of a number of cells and the size of a cell gives that number of cells
or one more. -/
theorem C172_multiple (c : ℝ) (hc : 0 < c) (m : Int) (h1 : 1 ≤ m) (h2 : m ≤ 2 ^ 50) :
    cellsFor R (R.rd (m * c)) c = .ok m ∨ cellsFor R (R.rd (m * c)) c = .ok (m + 1) := by
  have hm : (1 : ℝ) ≤ m := by exact_mod_cast h1
  have hm2 : (m : ℝ) ≤ 2 ^ 50 := by exact_mod_cast h2
  have hmc : 0 < (m : ℝ) * c := mul_pos (by linarith) hc
  have lo := R.lower hmc.le
  have hi := R.upper hmc.le
  have hu : unit = 1 / 2 ^ 53 := rfl
  have hs : 0 < R.rd (m * c) := by
    refine lt_of_lt_of_le (mul_pos hmc ?_) lo
    rw [hu]; norm_num
  have hx : R.rd (m * c) / c ≤ m * (1 + unit) := by
    rw [div_le_iff₀ hc]; linarith
  have hx' : m * (1 - unit) ≤ R.rd (m * c) / c := by
    rw [le_div_iff₀ hc]; linarith
  have hxp : 0 < R.rd (m * c) / c := div_pos hs hc
  have top : R.rd (R.rd (m * c) / c) ≤ ((m + 1 : ℤ) : ℝ) := by
    have h3 : R.rd (m * c) / c ≤ ((m + 1 : ℤ) : ℝ) := by
      refine le_trans hx ?_
      rw [hu]; push_cast; linarith
    have := R.mono h3
    rwa [R.int _ (by rw [abs_le]; constructor <;> omega)] at this
  have bottom : ((m - 1 : ℤ) : ℝ) < R.rd (R.rd (m * c) / c) := by
    have h3 := R.lower hxp.le
    have h4 : (m : ℝ) * (1 - unit) * (1 - unit) ≤ R.rd (m * c) / c * (1 - unit) :=
      mul_le_mul_of_nonneg_right hx' (by rw [hu]; norm_num)
    push_cast
    rw [hu] at *
    nlinarith
  have n1 : ⌈R.rd (R.rd (m * c) / c)⌉ ≤ m + 1 := Int.ceil_le.2 top
  have n2 : m - 1 < ⌈R.rd (R.rd (m * c) / c)⌉ := Int.lt_ceil.2 bottom
  unfold cellsFor
  rw [abs_of_pos hs, abs_of_pos hc, int64_ok (by omega) (by omega)]
  rcases (show ⌈R.rd (R.rd (m * c) / c)⌉ = m ∨ ⌈R.rd (R.rd (m * c) / c)⌉ = m + 1 by omega) with h | h
  · left; rw [h]
  · right; rw [h]

/-- **C172.** A grid made from sizes is the grid made from these numbers of cells, with or without an origin, and sizes
that are not positive are refused. So C158 holds of it. -/
theorem C172_grids (origin : Iso3 ℝ) (cx cy cz sx sy sz : ℝ) (d o : T) :
    (¬ (0 < cx ∧ 0 < cy ∧ 0 < cz ∧ 0 < sx ∧ 0 < sy ∧ 0 < sz) →
      initializeSizes R origin cx cy cz sx sy sz d o = .throws .invalidArgument ∧
      initializeSizesCentred R cx cy cz sx sy sz d o = .throws .invalidArgument) ∧
    (0 < cx ∧ 0 < cy ∧ 0 < cz ∧ 0 < sx ∧ 0 < sy ∧ 0 < sz →
      sx ≤ 2 ^ 53 * cx ∧ sy ≤ 2 ^ 53 * cy ∧ sz ≤ 2 ^ 53 * cz →
      ∃ nx ny nz, cellsFor R sx cx = .ok nx ∧ cellsFor R sy cy = .ok ny ∧ cellsFor R sz cz = .ok nz ∧
        CellsFor sx cx nx ∧ CellsFor sy cy ny ∧ CellsFor sz cz nz ∧
        initializeSizes R origin cx cy cz sx sy sz d o = initializeCells R origin cx cy cz nx ny nz d o ∧
        initializeSizesCentred R cx cy cz sx sy sz d o = initializeCellsCentred R cx cy cz nx ny nz d o) := by
  constructor
  · intro h
    have : safetyCheckSizes cx cy cz sx sy sz = .throws .invalidArgument := by
      unfold safetyCheckSizes
      rw [if_pos]
      by_contra hn
      simp only [not_or, not_le] at hn
      exact h hn
    unfold initializeSizes initializeSizesCentred
    rw [this]
    exact ⟨rfl, rfl⟩
  · rintro ⟨a, b, c, e, f, g⟩ ⟨hx, hy, hz⟩
    have : safetyCheckSizes cx cy cz sx sy sz = .ok () := by
      unfold safetyCheckSizes
      rw [if_neg]
      simp only [not_or, not_le]
      exact ⟨a, b, c, e, f, g⟩
    obtain ⟨nx, x1, x2⟩ := C172_cells R sx cx e a hx
    obtain ⟨ny, y1, y2⟩ := C172_cells R sy cy f b hy
    obtain ⟨nz, z1, z2⟩ := C172_cells R sz cz g c hz
    refine ⟨nx, ny, nz, x1, y1, z1, x2, y2, z2, ?_, ?_⟩
    · unfold initializeSizes; rw [this, x1, y1, z1]; rfl
    · unfold initializeSizesCentred; rw [this, x1, y1, z1]; rfl

/-- **C172.** A grid with rounding has the same cells, values and places in the storage as the one with exact
arithmetic, so what is proved of reads and writes by index holds of it. -/
theorem C172_storage (origin : Iso3 ℝ) (cx cy cz : ℝ) (nx ny nz : Int) (d o : T) :
    initializeCells R origin cx cy cz nx ny nz d o =
      (Voxel.initializeCells origin cx cy cz nx ny nz d o >>= fun g => .ok { g with
        inverseOrigin := inverse R origin
        invCellX := R.rd g.invCellX, invCellY := R.rd g.invCellY, invCellZ := R.rd g.invCellZ
        sizeX := R.rd (R.rd nx * |cx|), sizeY := R.rd (R.rd ny * |cy|), sizeZ := R.rd (R.rd nz * |cz|) }) := by
  unfold initializeCells Voxel.initializeCells
  cases safetyCheckCells cx cy cz nx ny nz with
  | ok u =>
    cases int64 (ny * nz) with
    | ok a => cases int64 (nx * ny * nz) <;> rfl
    | _ => rfl
  | _ => rfl

/-! ## Rounding to nearest -/

/-- Rounding to nearest, for a number whose last digit is known. -/
theorem nearest_of (x : ℝ) (e : ℤ) (h1 : (2 : ℝ) ^ 52 * 2 ^ e ≤ x) (h2 : x < 2 ^ 53 * 2 ^ e) :
    Nearest.rd x = (Nearest.whole (x / 2 ^ e) : ℝ) * 2 ^ e := by
  have hp := Nearest.two_zpow_pos e
  have hx : 0 < x := lt_of_lt_of_le (by positivity) h1
  have hl : Int.log 2 x = e + 52 := by
    apply le_antisymm
    · rw [← Int.lt_add_one_iff, ← Int.lt_zpow_iff_log_lt (by norm_num) hx]
      refine lt_of_lt_of_eq h2 ?_
      push_cast
      rw [show e + 52 + 1 = e + 53 by ring, zpow_add₀ (by norm_num), mul_comm]
      norm_num
    · rw [← Int.zpow_le_iff_le_log (by norm_num) hx]
      refine le_trans (le_of_eq ?_) h1
      push_cast
      rw [zpow_add₀ (by norm_num), mul_comm]
      norm_num
  have hex : Nearest.ex x = e := by unfold Nearest.ex; rw [hl]; ring
  rw [Nearest.rd_pos hx]
  unfold Nearest.pos
  rw [hex]

theorem whole_near (x : ℝ) (k : ℤ) (h : |x - k| < 1 / 2) : Nearest.whole x = k := by
  rw [abs_lt] at h
  unfold Nearest.whole
  have hr : round x = k := by rw [round_eq, Int.floor_eq_iff]; constructor <;> linarith
  rw [if_neg, hr]
  rintro ⟨hf, _⟩
  rcases lt_or_ge x k with hk | hk
  · have : ⌊x⌋ = k - 1 := by rw [Int.floor_eq_iff]; push_cast; constructor <;> linarith
    have h3 := Int.floor_add_fract x
    rw [this, hf] at h3
    push_cast at h3
    linarith
  · have : ⌊x⌋ = k := by rw [Int.floor_eq_iff]; constructor <;> linarith
    have h3 := Int.floor_add_fract x
    rw [this, hf] at h3
    linarith

theorem whole_half (k : ℤ) (h : ¬ Even k) : Nearest.whole (k + 1 / 2 : ℝ) = k + 1 := by
  have hf : ⌊(k + 1 / 2 : ℝ)⌋ = k := by rw [Int.floor_eq_iff]; constructor <;> linarith
  unfold Nearest.whole
  rw [if_neg (by rintro ⟨_, he⟩; rw [hf] at he; exact h he), round_eq, Int.floor_eq_iff]
  push_cast
  constructor <;> linarith

/-- The `double` next to one tenth. -/
noncomputable def tenth : ℝ := 3602879701896397 / 2 ^ 55

theorem nearest_tenth : Nearest.rd (1 / 10) = tenth := by
  have hz : (2 : ℝ) ^ (-56 : ℤ) = 1 / 2 ^ 56 := by rw [zpow_neg, one_div]; norm_cast
  rw [nearest_of (1 / 10) (-56) (by rw [hz]; norm_num) (by rw [hz]; norm_num), hz,
    whole_near _ 7205759403792794 (by rw [abs_lt]; constructor <;> norm_num)]
  unfold tenth
  norm_num

/-- Three times this number is halfway between two `double`s, and rounded up. -/
theorem nearest_three_tenths : Nearest.rd (3 * tenth) = 5404319552844596 / 2 ^ 54 := by
  have hz : (2 : ℝ) ^ (-54 : ℤ) = 1 / 2 ^ 54 := by rw [zpow_neg, one_div]; norm_cast
  have hv : 3 * tenth / (1 / 2 ^ 54) = ((5404319552844595 : ℤ) : ℝ) + 1 / 2 := by unfold tenth; norm_num
  rw [nearest_of (3 * tenth) (-54) (by rw [hz]; unfold tenth; norm_num) (by rw [hz]; unfold tenth; norm_num), hz, hv,
    whole_half _ (by decide)]
  norm_num

/-- **C172.** With rounding to nearest, a grid that is asked to be as large as three cells of 0.1 has four. -/
theorem C172_one_more :
    cellsFor Nearest.nearest (Nearest.nearest.rd (3 * Nearest.nearest.rd (1 / 10))) (Nearest.nearest.rd (1 / 10)) =
      .ok 4 := by
  have e1 : Nearest.nearest.rd (1 / 10) = tenth := nearest_tenth
  have e2 : Nearest.nearest.rd (3 * tenth) = 5404319552844596 / 2 ^ 54 := nearest_three_tenths
  rw [e1, e2]
  have hz : (2 : ℝ) ^ (-51 : ℤ) = 1 / 2 ^ 51 := by rw [zpow_neg, one_div]; norm_cast
  have e3 : Nearest.nearest.rd (5404319552844596 / 2 ^ 54 / tenth) = 6755399441055745 / 2 ^ 51 := by
    show Nearest.rd _ = _
    rw [nearest_of _ (-51) (by rw [hz]; unfold tenth; norm_num) (by rw [hz]; unfold tenth; norm_num), hz,
      whole_near _ 6755399441055745 (by unfold tenth; rw [abs_lt]; constructor <;> norm_num)]
    norm_num
  have hc : ⌈(6755399441055745 / 2 ^ 51 : ℝ)⌉ = 4 := by
    rw [Int.ceil_eq_iff]; norm_num
  unfold cellsFor
  rw [abs_of_pos (by norm_num : (0 : ℝ) < 5404319552844596 / 2 ^ 54),
    abs_of_pos (by unfold tenth; norm_num : (0 : ℝ) < tenth), e3, hc]
  rfl

/-- **C172.** With rounding to nearest, the cells can fail to cover the size asked for: here three cells, whose exact
total size is smaller. -/
theorem C172_one_fewer :
    ∃ s c : ℝ, Nearest.nearest.Fp s ∧ Nearest.nearest.Fp c ∧ 0 < c ∧ cellsFor Nearest.nearest s c = .ok 3 ∧
      3 * c < s := by
  have hz : (2 : ℝ) ^ (-51 : ℤ) = 1 / 2 ^ 51 := by rw [zpow_neg, one_div]; norm_cast
  have hz2 : (2 : ℝ) ^ (-52 : ℤ) = 1 / 2 ^ 52 := by rw [zpow_neg, one_div]; norm_cast
  refine ⟨6755399441055746 / 2 ^ 51, 4503599627370497 / 2 ^ 52, ?_, ?_, by norm_num, ?_, by norm_num⟩
  · show Nearest.rd _ = _
    rw [nearest_of _ (-51) (by rw [hz]; norm_num) (by rw [hz]; norm_num), hz,
      whole_near _ 6755399441055746 (by rw [abs_lt]; constructor <;> norm_num)]
    norm_num
  · show Nearest.rd _ = _
    rw [nearest_of _ (-52) (by rw [hz2]; norm_num) (by rw [hz2]; norm_num), hz2,
      whole_near _ 4503599627370497 (by rw [abs_lt]; constructor <;> norm_num)]
    norm_num
  · have e3 : Nearest.nearest.rd (6755399441055746 / 2 ^ 51 / (4503599627370497 / 2 ^ 52)) = 3 := by
      show Nearest.rd _ = _
      rw [nearest_of _ (-51) (by rw [hz]; norm_num) (by rw [hz]; norm_num), hz,
        whole_near _ 6755399441055744 (by rw [abs_lt]; constructor <;> norm_num)]
      norm_num
    unfold cellsFor
    rw [abs_of_pos (by norm_num), abs_of_pos (by norm_num), e3]
    have hc : ⌈(3 : ℝ)⌉ = 3 := by rw [Int.ceil_eq_iff]; norm_num
    rw [hc]
    rfl

/-- A size that is no multiple of the size of a cell. -/
example : ∃ n, cellsFor R 10 3 = .ok n ∧ CellsFor 10 3 n := C172_cells R 10 3 (by norm_num) (by norm_num) (by norm_num)

end Verif.VoxelRounded
