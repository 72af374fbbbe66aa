import Verif.Model.VoxelRounded
import Verif.Lemmas.VoxelLocation

/-!
# Property C158 (voxel_grid.hpp): indices and locations with rounding
-/
namespace Verif.VoxelRounded
open Verif Verif.Voxel

variable {T : Type} (R : Rounding)

/-! ## One axis -/

/-- Looking up a location along one axis is wrong by less than `4 * unit` times the distance from the origin, in
units of cells. -/
theorem lookup_axis {c l t : ℝ} (hc : 0 < c) (hs : 0 ≤ l - t) :
    |R.rd (R.rd (l - t) * R.rd (1 / c)) - (l - t) / c| ≤ 7 / 2 * unit * ((l - t) / c) := by
  have hu := Rounding.unit_pos
  have hu1 : unit ≤ 1 / 100 := by unfold unit; norm_num
  have hic : 0 < 1 / c := by positivity
  have q0 := R.nonneg hs
  have m0 := R.nonneg hic.le
  have qu := R.upper hs
  have ql := R.lower hs
  have mu := R.upper hic.le
  have ml := R.lower hic.le
  have ru := R.upper (mul_nonneg q0 m0)
  have rl := R.lower (mul_nonneg q0 m0)
  set s := (l - t) / c with hsd
  have hs0 : 0 ≤ s := div_nonneg hs hc.le
  have hle : l - t = s * c := by rw [hsd]; field_simp
  have e1 : R.rd (l - t) * R.rd (1 / c) ≤ s * (1 + unit) * (1 + unit) := by
    calc R.rd (l - t) * R.rd (1 / c) ≤ ((l - t) * (1 + unit)) * (1 / c * (1 + unit)) :=
          mul_le_mul qu mu m0 (by positivity)
      _ = s * (1 + unit) * (1 + unit) := by rw [hle]; field_simp
  have e2 : s * (1 - unit) * (1 - unit) ≤ R.rd (l - t) * R.rd (1 / c) := by
    calc s * (1 - unit) * (1 - unit) = ((l - t) * (1 - unit)) * (1 / c * (1 - unit)) := by
          rw [hle]; field_simp
      _ ≤ R.rd (l - t) * R.rd (1 / c) :=
          mul_le_mul ql ml (mul_nonneg hic.le (by linarith)) q0
  have hsu : 0 ≤ s * unit := mul_nonneg hs0 hu.le
  have hsuu : s * unit * unit ≤ s * unit * (1 / 100) := mul_le_mul_of_nonneg_left hu1 hsu
  have hsuu0 : 0 ≤ s * unit * unit := mul_nonneg hsu hu.le
  have hsuuu : s * unit * unit * unit ≤ s * unit * unit * (1 / 100) := mul_le_mul_of_nonneg_left hu1 hsuu0
  have hsuuu0 : 0 ≤ s * unit * unit * unit := mul_nonneg hsuu0 hu.le
  rw [abs_le]
  constructor
  · have : s * (1 - unit) * (1 - unit) * (1 - unit) ≤ R.rd (R.rd (l - t) * R.rd (1 / c)) :=
      le_trans (mul_le_mul_of_nonneg_right e2 (by linarith)) rl
    nlinarith
  · have : R.rd (R.rd (l - t) * R.rd (1 / c)) ≤ s * (1 + unit) * (1 + unit) * (1 + unit) :=
      le_trans ru (mul_le_mul_of_nonneg_right e1 (by linarith))
    nlinarith

/-- Where a computed centre of a cell is, along one axis, relative to the origin of the grid and in units of cells. -/
theorem center_axis {c t : ℝ} (hc : 0 < c) {i : ℤ} (h0 : 0 ≤ i) (hi : i < 2 ^ 48) (ht : |t| ≤ 2 ^ 48 * c) :
    |(R.rd (R.rd (c * R.rd (R.rd i + 1 / 2)) + t) - t) / c - (i + 1 / 2)| ≤ 9 / 64 := by
  have hu := Rounding.unit_pos
  have hue : unit = 1 / 2 ^ 53 := rfl
  have hir : (0 : ℝ) ≤ (i : ℝ) := by exact_mod_cast h0
  have hir2 : (i : ℝ) + 1 ≤ 2 ^ 48 := by exact_mod_cast hi
  have hint : R.rd (i : ℝ) = i := R.int i (by rw [abs_of_nonneg h0]; omega)
  rw [hint]
  have hx0 : (0 : ℝ) ≤ (i : ℝ) + 1 / 2 := by linarith
  set b := R.rd ((i : ℝ) + 1 / 2) with hb
  have b0 : 0 ≤ b := R.nonneg hx0
  have bu := R.upper hx0
  have bl := R.lower hx0
  rw [← hb] at bu bl
  have hcb : 0 ≤ c * b := mul_nonneg hc.le b0
  have pu := R.upper hcb
  have pl := R.lower hcb
  set p := R.rd (c * b) with hp
  have p0 : 0 ≤ p := R.nonneg hcb
  have le := R.err (p + t)
  set l := R.rd (p + t)
  have hP : p = p / c * c := by field_simp
  have hT : t = t / c * c := by field_simp
  set P := p / c with hPd
  set U := t / c with hUd
  have hPn : 0 ≤ P := div_nonneg p0 hc.le
  have hU : |U| ≤ 2 ^ 48 := by
    rw [hUd, abs_div, abs_of_pos hc, div_le_iff₀ hc]; exact ht
  have hPu : P ≤ b * (1 + unit) := by
    rw [hPd, div_le_iff₀ hc]; linarith
  have hPl : b * (1 - unit) ≤ P := by
    rw [hPd, le_div_iff₀ hc]; linarith
  have hb1 : b ≤ 2 ^ 48 := by
    have h1 : ((i : ℝ) + 1 / 2) * (1 + unit) ≤ (2 ^ 48 - 1 / 2) * (1 + unit) :=
      mul_le_mul_of_nonneg_right (by linarith) (by linarith)
    have h2 : ((2 : ℝ) ^ 48 - 1 / 2) * (1 + unit) ≤ 2 ^ 48 := by rw [hue]; norm_num
    linarith
  have hL : |(l - t) / c - P| ≤ unit * (P + 2 ^ 48) := by
    have h1 : (l - t) / c - P = (l - (p + t)) / c := by rw [hPd]; field_simp; ring
    rw [h1, abs_div, abs_of_pos hc, div_le_iff₀ hc]
    have h2 : |p + t| ≤ (P + 2 ^ 48) * c := by
      have h3 := abs_add_le p t
      rw [abs_of_nonneg p0] at h3
      have : p = P * c := hP
      linarith
    calc |l - (p + t)| ≤ unit * |p + t| := le
      _ ≤ unit * ((P + 2 ^ 48) * c) := mul_le_mul_of_nonneg_left h2 hu.le
      _ = unit * (P + 2 ^ 48) * c := by ring
  obtain ⟨l1, l2⟩ := abs_le.1 hL
  rw [hue] at *
  rw [abs_le]
  constructor <;> nlinarith

/-- A computed coordinate strictly between `i` and `i + 1` has the index `i`. -/
theorem truncate_of_mem {r : ℝ} {i : ℤ} (h0 : 0 ≤ i) (hf : i < 2 ^ 63) (h1 : (i : ℝ) ≤ r) (h2 : r < i + 1) :
    truncate r = .ok i := by
  have hr : (0 : ℝ) ≤ r := le_trans (by exact_mod_cast h0) h1
  unfold truncate
  rw [if_pos hr, Int.floor_eq_iff.2 ⟨h1, h2⟩]
  unfold int64
  rw [if_pos ⟨by omega, hf⟩]

theorem inside_axis {c l t : ℝ} (hc : 0 < c) {i : ℤ} (h0 : 0 ≤ i) (hf : i < 2 ^ 63)
    (h1 : (i : ℝ) + 4 * unit * (i + 1) ≤ (l - t) / c) (h2 : (l - t) / c ≤ i + 1 - 4 * unit * (i + 1)) :
    truncate (R.rd (R.rd (l - t) * R.rd (1 / c))) = .ok i := by
  have hu := Rounding.unit_pos
  have hir : (0 : ℝ) ≤ (i : ℝ) := by exact_mod_cast h0
  have hui : 0 < unit * ((i : ℝ) + 1) := mul_pos hu (by linarith)
  have hs : 0 ≤ (l - t) / c := by nlinarith
  have hs' : 0 ≤ l - t := by
    have := mul_nonneg hs hc.le
    rwa [div_mul_cancel₀ _ hc.ne'] at this
  obtain ⟨a, b⟩ := abs_le.1 (lookup_axis R hc hs')
  have hle : 7 / 2 * unit * ((l - t) / c) ≤ 7 / 2 * unit * (i + 1) :=
    mul_le_mul_of_nonneg_left (by nlinarith) (by positivity)
  apply truncate_of_mem h0 hf <;> nlinarith

theorem roundtrip_axis {c t : ℝ} (hc : 0 < c) {i : ℤ} (h0 : 0 ≤ i) (hi : i < 2 ^ 48) (ht : |t| ≤ 2 ^ 48 * c) :
    truncate (R.rd (R.rd (R.rd (R.rd (c * R.rd (R.rd i + 1 / 2)) + t) - t) * R.rd (1 / c))) = .ok i := by
  obtain ⟨a, b⟩ := abs_le.1 (center_axis R hc h0 hi ht)
  have hir : (0 : ℝ) ≤ (i : ℝ) := by exact_mod_cast h0
  have hir2 : (i : ℝ) + 1 ≤ 2 ^ 48 := by exact_mod_cast hi
  have hm : 4 * unit * ((i : ℝ) + 1) ≤ 1 / 8 := by
    have : unit * ((i : ℝ) + 1) ≤ unit * 2 ^ 48 := mul_le_mul_of_nonneg_left hir2 Rounding.unit_pos.le
    have h2 : unit * 2 ^ 48 = 1 / 32 := by unfold unit; norm_num
    linarith
  apply inside_axis R hc h0 (by omega) <;> linarith

/-! ## Transforms without rotation -/

theorem dot3_x {p : Vec3 ℝ} (h : R.Fp p.x) : dot3 R ⟨1, 0, 0⟩ p = p.x := by
  have e : R.rd p.x = p.x := h
  simp [dot3, R.zero, e]

theorem dot3_y {p : Vec3 ℝ} (h : R.Fp p.y) : dot3 R ⟨0, 1, 0⟩ p = p.y := by
  have e : R.rd p.y = p.y := h
  simp [dot3, R.zero, e]

theorem dot3_z {p : Vec3 ℝ} (h : R.Fp p.z) : dot3 R ⟨0, 0, 1⟩ p = p.z := by
  have e : R.rd p.z = p.z := h
  simp [dot3, R.zero, e]

/-- All three coordinates are `double`s. -/
def Fp3 (p : Vec3 ℝ) : Prop := R.Fp p.x ∧ R.Fp p.y ∧ R.Fp p.z

theorem inverse_translation {t : Vec3 ℝ} (h : Fp3 R t) :
    inverse R (Iso3.translation t) = Iso3.translation ⟨-t.x, -t.y, -t.z⟩ := by
  simp only [inverse, Iso3.translation]
  rw [dot3_x R h.1, dot3_y R h.2.1, dot3_z R h.2.2]

theorem apply_translation {t p : Vec3 ℝ} (hp : Fp3 R p) :
    apply R (Iso3.translation t) p = ⟨R.rd (p.x + t.x), R.rd (p.y + t.y), R.rd (p.z + t.z)⟩ := by
  simp only [apply, Iso3.translation]
  rw [dot3_x R hp.1, dot3_y R hp.2.1, dot3_z R hp.2.2]

theorem apply4_translation {t p : Vec3 ℝ} (ht : Fp3 R t) (hp : Fp3 R p) :
    apply4 R (Iso3.translation t) p 1 = ⟨R.rd (p.x + t.x), R.rd (p.y + t.y), R.rd (p.z + t.z)⟩ := by
  have e1 : R.rd t.x = t.x := ht.1
  have e2 : R.rd t.y = t.y := ht.2.1
  have e3 : R.rd t.z = t.z := ht.2.2
  simp only [apply4, Iso3.translation, mul_one]
  rw [dot3_x R hp.1, dot3_y R hp.2.1, dot3_z R hp.2.2, e1, e2, e3]

theorem fp3_neg {t : Vec3 ℝ} (h : Fp3 R t) : Fp3 R ⟨-t.x, -t.y, -t.z⟩ :=
  ⟨R.fp_neg h.1, R.fp_neg h.2.1, R.fp_neg h.2.2⟩

/-! ## Grids -/

/-- What is known of a grid made by one of the functions. -/
structure Made (t : Vec3 ℝ) (g : Grid (Iso3 ℝ) ℝ T) : Prop where
  cx : 0 < g.cellX
  cy : 0 < g.cellY
  cz : 0 < g.cellZ
  ix : g.invCellX = R.rd (1 / g.cellX)
  iy : g.invCellY = R.rd (1 / g.cellY)
  iz : g.invCellZ = R.rd (1 / g.cellZ)
  origin : g.origin = Iso3.translation t
  inverse : g.inverseOrigin = inverse R (Iso3.translation t)
  fp : Fp3 R t
  fits : g.numX < 2 ^ 63 ∧ g.numY < 2 ^ 63 ∧ g.numZ < 2 ^ 63

theorem fits_of {a b c : ℤ} (ha : 0 < a) (hb : 0 < b) (hc : 0 < c) (h : a * b * c < 2 ^ 63) :
    a < 2 ^ 63 ∧ b < 2 ^ 63 ∧ c < 2 ^ 63 := by
  have hab : 0 < a * b := Int.mul_pos ha hb
  have h1 : a * b ≤ a * b * c := le_mul_of_one_le_right hab.le hc
  have h2 : a ≤ a * b := le_mul_of_one_le_right ha.le hb
  have h3 : b ≤ a * b := le_mul_of_one_le_left hb.le ha
  have h4 : c ≤ a * b * c := le_mul_of_one_le_left hc.le hab
  omega

theorem initialize_eq {origin : Iso3 ℝ} {cx cy cz : ℝ} {nx ny nz : Int} {d o : T} {g : Grid (Iso3 ℝ) ℝ T}
    (h : initializeCells R origin cx cy cz nx ny nz d o = .ok g) :
    (0 < cx ∧ 0 < cy ∧ 0 < cz) ∧ (0 < nx ∧ 0 < ny ∧ 0 < nz) ∧ nx * ny * nz < 2 ^ 63 ∧
    g.origin = origin ∧ g.inverseOrigin = inverse R origin ∧ (g.cellX = cx ∧ g.cellY = cy ∧ g.cellZ = cz) ∧
    (g.invCellX = R.rd (1 / cx) ∧ g.invCellY = R.rd (1 / cy) ∧ g.invCellZ = R.rd (1 / cz)) ∧
    (g.numX = nx ∧ g.numY = ny ∧ g.numZ = nz) ∧
    (g.sizeX = R.rd (R.rd nx * cx) ∧ g.sizeY = R.rd (R.rd ny * cy) ∧ g.sizeZ = R.rd (R.rd nz * cz)) := by
  unfold initializeCells safetyCheckCells at h
  split at h
  · simp at h
  next hc =>
    simp only [not_or, not_le] at hc
    simp only [Out.bind_ok, Out.bind_eq_ok, int64_eq_ok] at h
    obtain ⟨s, ⟨rfl, _⟩, t, ⟨rfl, _, ht⟩, hg⟩ := h
    simp only [Out.ok.injEq] at hg
    subst hg
    simp only [abs_of_pos hc.1, abs_of_pos hc.2.1, abs_of_pos hc.2.2.1]
    refine ⟨⟨hc.1, hc.2.1, hc.2.2.1⟩, hc.2.2.2, ht, ?_⟩
    simp

theorem made_of_cells {t : Vec3 ℝ} (ht : Fp3 R t) {cx cy cz : ℝ} {nx ny nz : Int} {d o : T} {g : Grid (Iso3 ℝ) ℝ T}
    (h : initializeCells R (Iso3.translation t) cx cy cz nx ny nz d o = .ok g) : Made R t g := by
  obtain ⟨⟨a1, a2, a3⟩, ⟨b1, b2, b3⟩, hf, ho, hi, ⟨c1, c2, c3⟩, ⟨d1, d2, d3⟩, ⟨e1, e2, e3⟩, _⟩ := initialize_eq R h
  refine ⟨by rw [c1]; exact a1, by rw [c2]; exact a2, by rw [c3]; exact a3, by rw [d1, c1], by rw [d2, c2],
    by rw [d3, c3], ho, hi, ht, ?_⟩
  rw [e1, e2, e3]
  exact fits_of b1 b2 b3 hf

/-- The location of an index, and where it is looked up. -/
theorem location_eq {t : Vec3 ℝ} {g : Grid (Iso3 ℝ) ℝ T} (h : Made R t g) (i : Index) :
    gridIndexToLocation R g i =
      ⟨R.rd (R.rd (g.cellX * R.rd (R.rd i.x + 1 / 2)) + t.x), R.rd (R.rd (g.cellY * R.rd (R.rd i.y + 1 / 2)) + t.y),
        R.rd (R.rd (g.cellZ * R.rd (R.rd i.z + 1 / 2)) + t.z)⟩ := by
  unfold gridIndexToLocation
  rw [h.origin, apply4_translation R h.fp]
  · rfl
  · exact ⟨R.fp_rd _, R.fp_rd _, R.fp_rd _⟩

theorem lookup_eq {t : Vec3 ℝ} {g : Grid (Iso3 ℝ) ℝ T} (h : Made R t g) {l : Vec3 ℝ} (hl : Fp3 R l) {i : Index}
    (hx : truncate (R.rd (R.rd (l.x - t.x) * R.rd (1 / g.cellX))) = .ok i.x)
    (hy : truncate (R.rd (R.rd (l.y - t.y) * R.rd (1 / g.cellY))) = .ok i.y)
    (hz : truncate (R.rd (R.rd (l.z - t.z) * R.rd (1 / g.cellZ))) = .ok i.z) :
    locationToGridIndex3d R g l = .ok i ∧ locationToGridIndex R g l = .ok i := by
  unfold locationToGridIndex3d locationToGridIndex
  rw [h.inverse, inverse_translation R h.fp, apply_translation R hl, apply4_translation R (fp3_neg R h.fp) hl]
  unfold pointInFrameToGridIndex
  simp only [← sub_eq_add_neg]
  rw [h.ix, h.iy, h.iz, hx, hy, hz]
  exact ⟨rfl, rfl⟩

/-- **C158.** With rounding: in a grid whose origin is moved but not turned, by at most `2 ^ 48` cells, and that has at
most `2 ^ 48` cells along each axis, looking up the computed location of a cell finds that cell. -/
theorem C158_center (t : Vec3 ℝ) (ht : Fp3 R t) (cx cy cz : ℝ) (nx ny nz : Int) (d o : T) (g : Grid (Iso3 ℝ) ℝ T)
    (h : initializeCells R (Iso3.translation t) cx cy cz nx ny nz d o = .ok g)
    (hn : nx ≤ 2 ^ 48 ∧ ny ≤ 2 ^ 48 ∧ nz ≤ 2 ^ 48)
    (hx : |t.x| ≤ 2 ^ 48 * cx) (hy : |t.y| ≤ 2 ^ 48 * cy) (hz : |t.z| ≤ 2 ^ 48 * cz)
    (i : Index) (hi : indexInBounds g i = true) :
    locationToGridIndex3d R g (gridIndexToLocation R g i) = .ok i ∧
    locationToGridIndex R g (gridIndexToLocation R g i) = .ok i := by
  have hm := made_of_cells R ht h
  obtain ⟨_, _, _, _, _, ⟨c1, c2, c3⟩, _, ⟨e1, e2, e3⟩, _⟩ := initialize_eq R h
  obtain ⟨⟨x0, x1⟩, ⟨y0, y1⟩, ⟨z0, z1⟩⟩ := (indexInBounds_iff g i).1 hi
  have hloc := location_eq R hm i
  rw [hloc]
  exact lookup_eq R hm ⟨R.fp_rd _, R.fp_rd _, R.fp_rd _⟩
    (roundtrip_axis R hm.cx x0 (by omega) (by rw [c1]; exact hx))
    (roundtrip_axis R hm.cy y0 (by omega) (by rw [c2]; exact hy))
    (roundtrip_axis R hm.cz z0 (by omega) (by rw [c3]; exact hz))

theorem half_size {c : ℝ} (hc : 0 < c) {n : ℤ} (h0 : 0 < n) (hn : n ≤ 2 ^ 48) :
    |R.rd (-R.rd (R.rd n * c) * (1 / 2))| ≤ 2 ^ 48 * c := by
  have hu := Rounding.unit_pos
  have hu1 : unit ≤ 1 / 100 := by unfold unit; norm_num
  have hnr : (0 : ℝ) ≤ (n : ℝ) := by exact_mod_cast h0.le
  have hnr2 : (n : ℝ) ≤ 2 ^ 48 := by exact_mod_cast hn
  rw [R.int n (by rw [abs_of_pos h0]; omega)]
  have h1 : 0 ≤ (n : ℝ) * c := mul_nonneg hnr hc.le
  have h2 := R.upper h1
  have h3 := R.nonneg h1
  rw [show -R.rd ((n : ℝ) * c) * (1 / 2) = -(R.rd ((n : ℝ) * c) * (1 / 2)) by ring, R.odd, abs_neg]
  have h4 : 0 ≤ R.rd ((n : ℝ) * c) * (1 / 2) := by positivity
  rw [abs_of_nonneg (R.nonneg h4)]
  have h5 := R.upper h4
  have h6 : (n : ℝ) * c ≤ 2 ^ 48 * c := mul_le_mul_of_nonneg_right hnr2 hc.le
  have h7 : (n : ℝ) * c * unit ≤ (n : ℝ) * c * (1 / 100) := mul_le_mul_of_nonneg_left hu1 h1
  have h8 : R.rd ((n : ℝ) * c) * unit ≤ R.rd ((n : ℝ) * c) * (1 / 100) := mul_le_mul_of_nonneg_left hu1 h3
  nlinarith

/-- **C158.** The same for grids centred at zero, whatever their cell sizes. -/
theorem C158_center_centred (cx cy cz : ℝ) (nx ny nz : Int) (d o : T) (g : Grid (Iso3 ℝ) ℝ T)
    (h : initializeCellsCentred R cx cy cz nx ny nz d o = .ok g)
    (hn : nx ≤ 2 ^ 48 ∧ ny ≤ 2 ^ 48 ∧ nz ≤ 2 ^ 48) (i : Index) (hi : indexInBounds g i = true) :
    locationToGridIndex3d R g (gridIndexToLocation R g i) = .ok i ∧
    locationToGridIndex R g (gridIndexToLocation R g i) = .ok i := by
  unfold initializeCellsCentred at h
  simp only [Out.bind_eq_ok, Out.ok.injEq] at h
  obtain ⟨g0, h0, rfl⟩ := h
  obtain ⟨⟨a1, a2, a3⟩, ⟨b1, b2, b3⟩, hf, _, _, ⟨c1, c2, c3⟩, ⟨d1, d2, d3⟩, ⟨e1, e2, e3⟩, ⟨s1, s2, s3⟩⟩ :=
    initialize_eq R h0
  obtain ⟨⟨x0, x1⟩, ⟨y0, y1⟩, ⟨z0, z1⟩⟩ := (indexInBounds_iff _ i).1 hi
  simp only at x1 y1 z1
  have hm : Made R ⟨R.rd (-g0.sizeX * (1 / 2)), R.rd (-g0.sizeY * (1 / 2)), R.rd (-g0.sizeZ * (1 / 2))⟩
      { g0 with
        origin := Iso3.translation
          ⟨R.rd (-g0.sizeX * (1 / 2)), R.rd (-g0.sizeY * (1 / 2)), R.rd (-g0.sizeZ * (1 / 2))⟩
        inverseOrigin := inverse R (Iso3.translation
          ⟨R.rd (-g0.sizeX * (1 / 2)), R.rd (-g0.sizeY * (1 / 2)), R.rd (-g0.sizeZ * (1 / 2))⟩) } := by
    refine ⟨by simp only [c1]; exact a1, by simp only [c2]; exact a2, by simp only [c3]; exact a3,
      by simp only [d1, c1], by simp only [d2, c2], by simp only [d3, c3], rfl, rfl,
      ⟨R.fp_rd _, R.fp_rd _, R.fp_rd _⟩, ?_⟩
    simp only [e1, e2, e3]
    exact fits_of b1 b2 b3 hf
  have hloc := location_eq R hm i
  rw [hloc]
  refine lookup_eq R hm ⟨R.fp_rd _, R.fp_rd _, R.fp_rd _⟩
    (roundtrip_axis R hm.cx x0 (by omega) ?_) (roundtrip_axis R hm.cy y0 (by omega) ?_)
    (roundtrip_axis R hm.cz z0 (by omega) ?_)
  · simp only [s1, c1]; exact half_size R a1 b1 hn.1
  · simp only [s2, c2]; exact half_size R a2 b2 hn.2.1
  · simp only [s3, c3]; exact half_size R a3 b3 hn.2.2

/-- **C158.** A location whose exact place is inside a cell, by `4 * (i + 1)` units of rounding or more from the faces
along each axis, is looked up as that cell. -/
theorem C158_inside (t : Vec3 ℝ) (ht : Fp3 R t) (cx cy cz : ℝ) (nx ny nz : Int) (d o : T) (g : Grid (Iso3 ℝ) ℝ T)
    (h : initializeCells R (Iso3.translation t) cx cy cz nx ny nz d o = .ok g)
    (l : Vec3 ℝ) (hl : Fp3 R l) (i : Index) (hi : indexInBounds g i = true)
    (hx : i.x + 4 * unit * (i.x + 1) ≤ (l.x - t.x) / cx ∧ (l.x - t.x) / cx ≤ i.x + 1 - 4 * unit * (i.x + 1))
    (hy : i.y + 4 * unit * (i.y + 1) ≤ (l.y - t.y) / cy ∧ (l.y - t.y) / cy ≤ i.y + 1 - 4 * unit * (i.y + 1))
    (hz : i.z + 4 * unit * (i.z + 1) ≤ (l.z - t.z) / cz ∧ (l.z - t.z) / cz ≤ i.z + 1 - 4 * unit * (i.z + 1)) :
    locationToGridIndex3d R g l = .ok i ∧ locationToGridIndex R g l = .ok i := by
  have hm := made_of_cells R ht h
  obtain ⟨_, _, _, _, _, ⟨c1, c2, c3⟩, _, _, _⟩ := initialize_eq R h
  obtain ⟨⟨x0, x1⟩, ⟨y0, y1⟩, ⟨z0, z1⟩⟩ := (indexInBounds_iff g i).1 hi
  obtain ⟨f1, f2, f3⟩ := hm.fits
  exact lookup_eq R hm hl
    (inside_axis R hm.cx x0 (by omega) (by rw [c1]; exact hx.1) (by rw [c1]; exact hx.2))
    (inside_axis R hm.cy y0 (by omega) (by rw [c2]; exact hy.1) (by rw [c2]; exact hy.2))
    (inside_axis R hm.cz z0 (by omega) (by rw [c3]; exact hz.1) (by rw [c3]; exact hz.2))

/-- A grid of a thousand cells of a size that is not a binary fraction, with rounding to nearest. -/
example : ∃ g : Grid (Iso3 ℝ) ℝ Nat,
    initializeCellsCentred Nearest.nearest (Nearest.nearest.rd (1 / 10)) 1 1 1000 1 1 0 0 = .ok g ∧
    indexInBounds g ⟨999, 0, 0⟩ = true := by
  have h : 0 < Nearest.nearest.rd (1 / 10) := by
    have := Nearest.nearest.lower (x := 1 / 10) (by norm_num)
    have h2 := Rounding.unit_lt_one
    nlinarith
  have hs : safetyCheckCells (Nearest.nearest.rd (1 / 10)) 1 1 1000 1 1 = .ok () := by
    unfold safetyCheckCells
    rw [if_neg]
    simp only [not_or, not_le]
    exact ⟨h, by norm_num⟩
  unfold initializeCellsCentred initializeCells
  rw [hs]
  exact ⟨_, rfl, rfl⟩

end Verif.VoxelRounded
