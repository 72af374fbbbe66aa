import Verif.Lemmas.HashedGridSpecial

/-!
# C188: hashed voxel grids with special doubles
-/
namespace Verif.HashedGridSpecial
open Verif Verif.HashedGrid
open Verif.Voxel (Vec3 Iso3 int64 truncate)
open Verif.VoxelSpecial (badSize safetyCheckCells toInt64 doubles3 doublesIso Within Turned Finite3)

variable {T : Type} (A : Ieee)

/-- **C188.** Making a hashed grid rejects every cell size that is not a positive number, whether it is infinite, not a
number, zero or negative, and every number of cells that is not positive. Everything else gives an empty grid, if the
cells of a layer of a chunk can be counted. -/
theorem C188_create (origin : Iso3 Dbl) (cx cy cz : Dbl) (nx ny nz : Int) (d : T) :
    (¬ (cx.Positive ∧ cy.Positive ∧ cz.Positive ∧ 0 < nx ∧ 0 < ny ∧ 0 < nz) →
      initializeGrid A origin cx cy cz nx ny nz d = .throws .invalidArgument) ∧
    (cx.Positive ∧ cy.Positive ∧ cz.Positive ∧ 0 < nx ∧ 0 < ny ∧ 0 < nz →
      (2 ^ 63 ≤ ny * nz → initializeGrid A origin cx cy cz nx ny nz d = .ub) ∧
      (ny * nz < 2 ^ 63 → ∃ g, initializeGrid A origin cx cy cz nx ny nz d = .ok g ∧ g.initialized = true ∧
        g.origin = origin ∧ g.inverseOrigin = VoxelSpecial.inverse A origin ∧ g.default = d ∧ (∀ r, g.chunks r = none) ∧
        g.cellX = cx ∧ g.cellY = cy ∧ g.cellZ = cz ∧ g.numX = nx ∧ g.numY = ny ∧ g.numZ = nz ∧
        g.chunkX = A.mul cx (A.round nx) ∧ g.chunkY = A.mul cy (A.round ny) ∧ g.chunkZ = A.mul cz (A.round nz))) := by
  unfold initializeGrid
  constructor
  · intro h
    rw [VoxelSpecial.check_bad h]
    rfl
  · intro h
    rw [VoxelSpecial.check_ok h, Out.bind_ok]
    constructor
    · intro h2
      rw [VoxelSpecial.int64_ub h2]
      rfl
    · intro h2
      rw [VoxelSpecial.int64_ok (le_of_lt (Int.mul_pos h.2.2.2.2.1 h.2.2.2.2.2)) h2, Out.bind_ok]
      refine ⟨_, rfl, rfl, rfl, rfl, rfl, fun _ => rfl, ?_⟩
      simp only
      rw [VoxelSpecial.abs_positive h.1, VoxelSpecial.abs_positive h.2.1, VoxelSpecial.abs_positive h.2.2.1]
      simp only [and_self]

/-- **C188.** Locations are not checked: at a location with a coordinate that is infinite or not a number every access
is undefined, in every grid. -/
theorem C188_not_finite (g : Grid Dbl T) (hg : g.initialized = true) (l : Vec3 Dbl) (h : ¬ Finite3 l) :
    Undefined A g l := by
  apply undefined_of A g hg
  apply region_ub A g hg
  rintro ⟨h1, _, _⟩
  exact h (VoxelSpecial.dot3_finite A (A.add_finite (div_finite A h1)).1).2

/-- **C188.** The origin is not checked either: a grid whose origin has an entry that is infinite or not a number can be
made, but every access to it is undefined. -/
theorem C188_origin (origin : Iso3 Dbl) (cx cy cz : Dbl) (nx ny nz : Int) (d : T)
    (h : ¬ (Finite3 origin.r1 ∧ Finite3 origin.r2 ∧ Finite3 origin.r3 ∧ Finite3 origin.t))
    (hc : cx.Positive ∧ cy.Positive ∧ cz.Positive ∧ 0 < nx ∧ 0 < ny ∧ 0 < nz) (hf : ny * nz < 2 ^ 63) :
    ∃ g, initializeGrid A origin cx cy cz nx ny nz d = .ok g ∧ ∀ l, Undefined A g l := by
  obtain ⟨g, hg, hi, _, ho, _⟩ := ((C188_create A origin cx cy cz nx ny nz d).2 hc).2 hf
  refine ⟨g, hg, fun l => undefined_of A g hi l (region_ub A g hi _ ?_)⟩
  rintro ⟨h1, h2, h3⟩
  rw [ho] at h1 h2 h3
  obtain ⟨a1, a2⟩ := A.add_finite (div_finite A h1)
  obtain ⟨b1, _⟩ := A.add_finite (div_finite A h2)
  obtain ⟨c1, _⟩ := A.add_finite (div_finite A h3)
  obtain ⟨x1, x2, x3⟩ := (VoxelSpecial.dot3_finite A a1).1
  obtain ⟨y1, y2, y3⟩ := (VoxelSpecial.dot3_finite A b1).1
  obtain ⟨z1, z2, z3⟩ := (VoxelSpecial.dot3_finite A c1).1
  exact h ⟨⟨x1, y1, z1⟩, ⟨x2, y2, z2⟩, ⟨x3, y3, z3⟩, (VoxelSpecial.dot3_finite A (Ieee.neg_finite a2)).2⟩

theorem round_zero : A.round 0 = .num 0 := by
  have h0 : A.R.rd 0 = 0 := A.R.zero
  rw [A.round_eq (by rw [h0, abs_zero]; exact le_trans (by norm_num) A.large), h0]

/-- **C188.** A grid made without arguments says that it is initialized, but its chunks have no size: every access is
undefined. It holds no chunks, its cells have no size either, and its origin is the identity. -/
theorem C188_empty (d : T) : (emptyGrid A d).initialized = true ∧ (∀ l, Undefined A (emptyGrid A d) l) ∧
    (∀ r, (emptyGrid A d).chunks r = none) ∧ (emptyGrid A d).default = d ∧
    ((emptyGrid A d).cellX = .num 0 ∧ (emptyGrid A d).cellY = .num 0 ∧ (emptyGrid A d).cellZ = .num 0) ∧
    ((emptyGrid A d).numX = 0 ∧ (emptyGrid A d).numY = 0 ∧ (emptyGrid A d).numZ = 0) ∧
    (emptyGrid A d).origin = ⟨⟨.num 1, .num 0, .num 0⟩, ⟨.num 0, .num 1, .num 0⟩, ⟨.num 0, .num 0, .num 1⟩,
      ⟨.num 0, .num 0, .num 0⟩⟩ := by
  refine ⟨rfl, fun l => ?_, fun _ => rfl, rfl, ⟨rfl, rfl, rfl⟩, ⟨rfl, rfl, rfl⟩, rfl⟩
  refine undefined_of A _ rfl l (region_ub A _ rfl _ ?_)
  rintro ⟨h1, _⟩
  have hx : (emptyGrid A d).chunkX = .num 0 := by
    show A.mul (.num 0) (A.round 0) = .num 0
    rw [round_zero]
    show A.round (0 * 0) = _
    rw [mul_zero, round_zero]
  rw [hx] at h1
  obtain ⟨x, hp⟩ := div_finite A h1
  rw [hp] at h1
  obtain ⟨z, h1⟩ := h1
  simp only [Ieee.div, if_true] at h1
  split at h1 <;> cases h1

/-! ## Chunks whose size overflows -/

theorem sub_nan (a : Dbl) : sub A a .nan = .nan := by
  cases a <;> rfl

theorem div_nan (a : Dbl) : A.div .nan a = .nan := by
  cases a <;> rfl

/-- The index in a chunk whose base is not a number. -/
theorem index_nan (c : Chunk Dbl T) (p : Vec3 Dbl) (h : c.base.x = .nan ∨ c.base.y = .nan ∨ c.base.z = .nan) :
    getLocationDataIndex A c p = .ub ∨ getLocationDataIndex A c p = .ok (-1) := by
  unfold getLocationDataIndex
  dsimp only
  split
  · exact .inr rfl
  · split
    · exact .inr rfl
    · left
      rcases h with h | h | h
      · rw [h, sub_nan, div_nan]; rfl
      · rw [h, sub_nan, div_nan]
        rcases VoxelSpecial.toInt64_cases (A.div (sub A p.x c.base.x) c.cellX) with ⟨n, h1⟩ | h1 <;> rw [h1] <;> rfl
      · rw [h, sub_nan, div_nan]
        rcases VoxelSpecial.toInt64_cases (A.div (sub A p.x c.base.x) c.cellX) with ⟨n, h1⟩ | h1 <;> rw [h1]
        · rcases VoxelSpecial.toInt64_cases (A.div (sub A p.y c.base.y) c.cellY) with ⟨m, h2⟩ | h2 <;>
            simp only [Out.bind_ok] <;> rw [h2] <;> rfl
        · rfl

theorem setCell_nan (c : Chunk Dbl T) (p : Vec3 Dbl) (v : T) (hi : c.cellInit = true)
    (h : c.base.x = .nan ∨ c.base.y = .nan ∨ c.base.z = .nan) :
    chunkSetCell A c p v = .ub ∨ chunkSetCell A c p v = .ok (false, c) := by
  unfold chunkSetCell getCellPosition
  rw [Out.assert_true hi]
  rcases index_nan A c p h with h1 | h1
  · left; simp only [Out.bind_ok]; rw [h1]; rfl
  · right; simp only [Out.bind_ok]; rw [h1]; rfl

/-- The base along an axis along which chunks are infinite. -/
theorem base_nan {p : Dbl} {n : Int} (h : toInt64 (floor (A.div p (.inf false))) = .ok n) :
    A.mul (A.round n) (.inf false) = .nan := by
  have hp := VoxelSpecial.toInt64_ok h
  obtain ⟨x, rfl⟩ := div_finite A (floor_finite hp)
  have h2 : toInt64 (.num ((⌊(0 : ℝ)⌋ : Int) : ℝ)) = .ok n := h
  rw [show toInt64 (.num ((⌊(0 : ℝ)⌋ : Int) : ℝ)) = truncate ((⌊(0 : ℝ)⌋ : Int) : ℝ) from rfl, truncate_int,
    Int.floor_zero] at h2
  have hn : n = 0 := by
    unfold int64 at h2
    rw [if_pos (by norm_num)] at h2
    injection h2 with h2
    exact h2.symm
  rw [hn, Int.cast_zero, round_zero]
  simp only [Ieee.mul, if_true]

/-- Chunks of a grid are infinitely wide along some axis. -/
def Wide (g : Grid Dbl T) : Prop := g.chunkX = .inf false ∨ g.chunkY = .inf false ∨ g.chunkZ = .inf false

theorem wide_region (g : Grid Dbl T) (hi : g.initialized = true) (hw : Wide g) (p r : Vec3 Dbl)
    (h : getContainingChunkRegion A g p = .ok r) : r.x = .nan ∨ r.y = .nan ∨ r.z = .nan := by
  rcases region_cases A g hi p with h1 | ⟨x, y, z, _, _, _, _, _, _, hx, hy, hz, h1⟩
  · rw [h1] at h; cases h
  · rw [h1] at h
    injection h with h
    rw [← h]
    rcases hw with hw | hw | hw
    · left; rw [hw] at hx ⊢; exact base_nan A hx
    · right; left; rw [hw] at hy ⊢; exact base_nan A hy
    · right; right; rw [hw] at hz ⊢; exact base_nan A hz

theorem wide_find (g : Grid Dbl T) (r : Vec3 Dbl) (h : r.x = .nan ∨ r.y = .nan ∨ r.z = .nan) : find g r = none := by
  unfold find
  rw [if_pos]
  rcases h with h | h | h <;> rw [h] <;> simp [Ieee.isNan]

theorem wide_access (g : Grid Dbl T) (hi : g.initialized = true) (hw : Wide g) (l : Vec3 Dbl) (v : T) :
    (getImmutable A g l = .ub ∨ getImmutable A g l = .ok (g.default, .notFound)) ∧
    (setCellValue A g l v = .ub ∨ setCellValue A g l v = .throws .invalidArgument ∨
      setCellValue A g l v = .ok (.notSet, g)) ∧
    (setChunkValue A g l v = .ub ∨ setChunkValue A g l v = .throws .invalidArgument) := by
  rcases region_cases A g hi (VoxelSpecial.apply A g.inverseOrigin l) with h1 | ⟨x, y, z, _, _, _, _, _, _, _, _, _, h1⟩
  · obtain ⟨a, b⟩ := undefined_of A g hi l h1
    exact ⟨.inl a, .inl (b v).1, .inl (b v).2⟩
  · have hn := wide_region A g hi hw _ _ h1
    have hf := wide_find g _ hn
    refine ⟨.inr ?_, ?_, .inr ?_⟩
    · unfold getImmutable
      rw [Out.assert_true hi]
      simp only [Out.bind_ok]
      rw [h1]
      simp only [Out.bind_ok]
      rw [hf]
    · unfold setCellValue setInNewChunk
      rw [Out.assert_true hi]
      simp only [Out.bind_ok]
      rw [h1]
      simp only [Out.bind_ok]
      rw [hf]
      simp only
      generalize (⟨A.mul (A.round x) g.chunkX, A.mul (A.round y) g.chunkY, A.mul (A.round z) g.chunkZ⟩ : Vec3 Dbl) = r
        at hn
      unfold newCellChunk
      by_cases hc : g.cellX.Positive ∧ g.cellY.Positive ∧ g.cellZ.Positive ∧ 0 < g.numX ∧ 0 < g.numY ∧ 0 < g.numZ
      · rw [VoxelSpecial.check_ok hc]
        rcases VoxelSpecial.int64_cases (g.numY * g.numZ) with e1 | e1
        · rcases VoxelSpecial.int64_cases (g.numX * g.numY * g.numZ) with e2 | e2
          · rw [e1, e2]
            simp only [Out.bind_ok]
            generalize hk : (Chunk.mk r g.default _ _ _ _ _ _ _ _ _ _ _ _ _ _ : Chunk Dbl T) = c
            have hb : c.base = r := by rw [← hk]
            have hj : c.cellInit = true := by rw [← hk]
            rcases setCell_nan A c (VoxelSpecial.apply A g.inverseOrigin l) v hj (by rw [hb]; exact hn) with e3 | e3
            · left; rw [e3]; rfl
            · right; right; rw [e3]; rfl
          · left; rw [e1, e2]; rfl
        · left; rw [e1]; rfl
      · right; left
        rw [VoxelSpecial.check_bad hc]
        rfl
    · unfold setChunkValue
      rw [Out.assert_true hi]
      simp only [Out.bind_ok]
      rw [h1]
      simp only [Out.bind_ok]
      rw [hf]
      simp only
      unfold newWholeChunk
      rw [if_pos]
      · rfl
      · have hb : badSize (.inf false) = true := by simp [badSize, Ieee.isInf]
        rcases hw with hw | hw | hw
        · left; rw [hw]; exact hb
        · right; left; rw [hw]; exact hb
        · right; right; rw [hw]; exact hb

theorem wide_of {c : ℝ} {n : Int} (hc : 0 < c) (hn : 0 < n) (hn2 : n < 2 ^ 63) (h : A.top < A.R.rd (c * A.R.rd n)) :
    A.mul (.num c) (A.round n) = .inf false := by
  have hl := A.large
  have hn' : (0 : ℝ) < n := by exact_mod_cast hn
  have hn3 : (n : ℝ) < 2 ^ 63 := by exact_mod_cast hn2
  have b1 := VoxelSpecial.rd_bound A n
  rw [abs_of_pos hn'] at b1
  rw [A.round_eq (x := n) (by norm_num at hl hn3; linarith)]
  show A.round (c * A.R.rd n) = _
  rw [A.round_over (lt_of_lt_of_le h (le_abs_self _))]
  have : ¬ c * A.R.rd n < 0 := not_lt.2 (mul_nonneg (le_of_lt hc) (A.R.nonneg (le_of_lt hn')))
  simp [this]

/-- **C188.** Chunks whose size overflows are accepted, but nothing can ever be stored: each access is undefined, or a
read finds nothing, `SetCellValue` reports that nothing was set, `SetChunkValue` throws `std::invalid_argument`. -/
theorem C188_huge_chunks (origin : Iso3 Dbl) (cx cy cz : ℝ) (nx ny nz : Int) (d : T)
    (hc : 0 < cx ∧ 0 < cy ∧ 0 < cz) (hn : 0 < nx ∧ 0 < ny ∧ 0 < nz) (hx : nx < 2 ^ 63) (hf : ny * nz < 2 ^ 63)
    (h : A.top < A.R.rd (cx * A.R.rd nx) ∨ A.top < A.R.rd (cy * A.R.rd ny) ∨ A.top < A.R.rd (cz * A.R.rd nz)) :
    ∃ g, initializeGrid A origin (.num cx) (.num cy) (.num cz) nx ny nz d = .ok g ∧ ∀ l v,
      (getImmutable A g l = .ub ∨ getImmutable A g l = .ok (d, .notFound)) ∧
      (setCellValue A g l v = .ub ∨ setCellValue A g l v = .throws .invalidArgument ∨
        setCellValue A g l v = .ok (.notSet, g)) ∧
      (setChunkValue A g l v = .ub ∨ setChunkValue A g l v = .throws .invalidArgument) := by
  obtain ⟨c1, c2, c3⟩ := hc
  obtain ⟨n1, n2, n3⟩ := hn
  have hny : ny < 2 ^ 63 := lt_of_le_of_lt (le_mul_of_one_le_right (le_of_lt n2) n3) hf
  have hnz : nz < 2 ^ 63 := lt_of_le_of_lt (le_mul_of_one_le_left (le_of_lt n3) n2) hf
  obtain ⟨g, hg, hi, _, _, hd, _, _, _, _, _, _, _, k1, k2, k3⟩ :=
    ((C188_create A origin (.num cx) (.num cy) (.num cz) nx ny nz d).2
      ⟨⟨cx, rfl, c1⟩, ⟨cy, rfl, c2⟩, ⟨cz, rfl, c3⟩, n1, n2, n3⟩).2 hf
  refine ⟨g, hg, fun l v => ?_⟩
  rw [← hd]
  apply wide_access A g hi
  rcases h with h | h | h
  · left; rw [k1]; exact wide_of A c1 n1 hx h
  · right; left; rw [k2]; exact wide_of A c2 n2 hny h
  · right; right; rw [k3]; exact wide_of A c3 n3 hnz h

theorem mul_zero_num (x : ℝ) : A.mul (.num x) (.num 0) = .num 0 := by
  show A.round (x * 0) = _
  rw [mul_zero, round_zero]

theorem add_zero_num : A.add (.num 0) (.num 0) = .num 0 := by
  show A.round (0 + 0) = _
  rw [add_zero, round_zero]

theorem rd_pos {x : ℝ} (h : 0 < x) : 0 < A.R.rd x :=
  lt_of_lt_of_le (mul_pos h (by linarith [Rounding.unit_lt_one])) (A.R.lower (le_of_lt h))

/-- The width of a chunk is positive or infinite. -/
theorem width_cases {c : ℝ} {n : Int} (hc : 0 < c) (hn : 0 < n) (hn2 : n < 2 ^ 63) :
    (∃ w, A.mul (.num c) (A.round n) = .num w ∧ 0 < w) ∨ A.mul (.num c) (A.round n) = .inf false := by
  have hl := A.large
  have hn' : (0 : ℝ) < n := by exact_mod_cast hn
  have hn3 : (n : ℝ) < 2 ^ 63 := by exact_mod_cast hn2
  have b1 := VoxelSpecial.rd_bound A n
  rw [abs_of_pos hn'] at b1
  by_cases h : A.top < A.R.rd (c * A.R.rd n)
  · exact .inr (wide_of A hc hn hn2 h)
  · left
    rw [A.round_eq (x := n) (by norm_num at hl hn3; linarith)]
    have hp := rd_pos A (mul_pos hc (rd_pos A hn'))
    exact ⟨_, A.round_eq (by rw [abs_of_pos hp]; exact not_lt.1 h), hp⟩

/-- Along one axis, a location at zero. -/
theorem axis_zero {w : Dbl} (hw : (∃ x, w = .num x ∧ 0 < x) ∨ w = .inf false) :
    toInt64 (floor (A.div (.num 0) w)) = .ok 0 ∧
      ¬ Ieee.lt (sub A (.num 0) (A.mul (.num 0) w)) (.num 0) ∧
      ¬ Ieee.lt w (sub A (.num 0) (A.mul (.num 0) w)) ∧
      (w = .inf false → A.mul (.num 0) w = .nan) := by
  have t0 : toInt64 (floor (.num 0)) = .ok 0 := by
    show truncate ((⌊(0 : ℝ)⌋ : Int) : ℝ) = _
    rw [truncate_int, Int.floor_zero]
    exact VoxelSpecial.int64_ok (le_refl 0) (by norm_num)
  rcases hw with ⟨x, rfl, hx⟩ | rfl
  · have e1 : A.div (.num 0) (.num x) = .num 0 := by
      simp only [Ieee.div]
      rw [if_neg (ne_of_gt hx), zero_div, round_zero]
    have e2 : A.mul (.num 0) (.num x) = .num 0 := by
      show A.round (0 * x) = _
      rw [zero_mul, round_zero]
    have e3 : sub A (.num 0) (.num 0) = .num 0 := by
      show A.round (0 + -0) = _
      rw [neg_zero, add_zero, round_zero]
    rw [e1, e2, e3]
    refine ⟨t0, ?_, ?_, fun h => by cases h⟩
    · exact _root_.lt_irrefl (0 : ℝ)
    · exact not_lt.2 (le_of_lt hx)
  · have e2 : A.mul (.num 0) (.inf false) = .nan := by simp only [Ieee.mul, if_true]
    rw [e2, sub_nan]
    exact ⟨t0, id, id, fun _ => rfl⟩

/-- **C188.** At the origin of such a grid: a read finds nothing, setting a chunk throws, setting a cell is undefined. -/
theorem C188_huge_at_origin (cx cy cz : ℝ) (nx ny nz : Int) (d v : T)
    (hc : 0 < cx ∧ 0 < cy ∧ 0 < cz) (hn : 0 < nx ∧ 0 < ny ∧ 0 < nz) (hx : nx < 2 ^ 63) (hf : ny * nz < 2 ^ 63)
    (h : A.top < A.R.rd (cx * A.R.rd nx) ∨ A.top < A.R.rd (cy * A.R.rd ny) ∨ A.top < A.R.rd (cz * A.R.rd nz)) :
    ∃ g, initializeGrid A (VoxelSpecial.translation ⟨.num 0, .num 0, .num 0⟩) (.num cx) (.num cy) (.num cz) nx ny nz d =
        .ok g ∧
      getImmutable A g ⟨.num 0, .num 0, .num 0⟩ = .ok (d, .notFound) ∧
      setCellValue A g ⟨.num 0, .num 0, .num 0⟩ v = .ub ∧
      setChunkValue A g ⟨.num 0, .num 0, .num 0⟩ v = .throws .invalidArgument := by
  obtain ⟨c1, c2, c3⟩ := hc
  obtain ⟨n1, n2, n3⟩ := hn
  have hny : ny < 2 ^ 63 := lt_of_le_of_lt (le_mul_of_one_le_right (le_of_lt n2) n3) hf
  have hnz : nz < 2 ^ 63 := lt_of_le_of_lt (le_mul_of_one_le_left (le_of_lt n3) n2) hf
  have hpos : (Dbl.num cx).Positive ∧ (Dbl.num cy).Positive ∧ (Dbl.num cz).Positive ∧ 0 < nx ∧ 0 < ny ∧ 0 < nz :=
    ⟨⟨cx, rfl, c1⟩, ⟨cy, rfl, c2⟩, ⟨cz, rfl, c3⟩, n1, n2, n3⟩
  obtain ⟨g, hg, hi, _, ho, hd, hnone, e1, e2, e3, m1, m2, m3, k1, k2, k3⟩ :=
    ((C188_create A (VoxelSpecial.translation ⟨.num 0, .num 0, .num 0⟩) (.num cx) (.num cy) (.num cz) nx ny nz d).2
      hpos).2 hf
  have hw : Wide g := by
    rcases h with h | h | h
    · left; rw [k1]; exact wide_of A c1 n1 hx h
    · right; left; rw [k2]; exact wide_of A c2 n2 hny h
    · right; right; rw [k3]; exact wide_of A c3 n3 hnz h
  have w1 := width_cases A c1 n1 hx
  have w2 := width_cases A c2 n2 hny
  have w3 := width_cases A c3 n3 hnz
  rw [← k1] at w1
  rw [← k2] at w2
  rw [← k3] at w3
  obtain ⟨x1, x2, x3, x4⟩ := axis_zero A w1
  obtain ⟨y1, y2, y3, y4⟩ := axis_zero A w2
  obtain ⟨z1, z2, z3, z4⟩ := axis_zero A w3
  have hp : VoxelSpecial.apply A g.inverseOrigin ⟨.num 0, .num 0, .num 0⟩ = ⟨.num 0, .num 0, .num 0⟩ := by
    rw [ho]
    simp only [VoxelSpecial.apply, VoxelSpecial.inverse, VoxelSpecial.translation, VoxelSpecial.dot3, mul_zero_num,
      add_zero_num, Ieee.neg, neg_zero]
  have hreg : getContainingChunkRegion A g ⟨.num 0, .num 0, .num 0⟩ =
      .ok ⟨A.mul (.num 0) g.chunkX, A.mul (.num 0) g.chunkY, A.mul (.num 0) g.chunkZ⟩ := by
    unfold getContainingChunkRegion
    rw [Out.assert_true hi]
    simp only [Out.bind_ok]
    rw [x1, y1, z1]
    simp only [Out.bind_ok, Int.cast_zero, round_zero]
  have hn := wide_region A g hi hw _ _ hreg
  have hfind := wide_find g _ hn
  obtain ⟨r1, r2, r3⟩ := wide_access A g hi hw ⟨.num 0, .num 0, .num 0⟩ v
  refine ⟨g, hg, ?_, ?_, ?_⟩
  · unfold getImmutable
    rw [Out.assert_true hi]
    simp only [Out.bind_ok]
    rw [hp, hreg]
    simp only [Out.bind_ok]
    rw [hfind, hd]
  · unfold setCellValue setInNewChunk newCellChunk
    rw [Out.assert_true hi]
    simp only [Out.bind_ok]
    rw [hp, hreg]
    simp only [Out.bind_ok]
    rw [hfind]
    simp only
    rw [e1, e2, e3, m1, m2, m3, VoxelSpecial.check_ok hpos]
    simp only [Out.bind_ok]
    rw [VoxelSpecial.int64_ok (le_of_lt (Int.mul_pos n2 n3)) hf]
    simp only [Out.bind_ok]
    rcases VoxelSpecial.int64_cases (nx * ny * nz) with q | q
    · rw [q]
      simp only [Out.bind_ok, VoxelSpecial.abs_positive hpos.1, VoxelSpecial.abs_positive hpos.2.1,
        VoxelSpecial.abs_positive hpos.2.2.1]
      rw [← k1, ← k2, ← k3]
      unfold chunkSetCell getCellPosition getLocationDataIndex
      simp only [Out.assert_true, Out.bind_ok]
      rw [if_neg (not_or.2 ⟨x2, not_or.2 ⟨y2, z2⟩⟩), if_neg (not_or.2 ⟨x3, not_or.2 ⟨y3, z3⟩⟩)]
      rcases hn with hn | hn | hn
      · rw [show A.mul (.num 0) g.chunkX = .nan from hn, sub_nan, div_nan]; rfl
      · rw [show A.mul (.num 0) g.chunkY = .nan from hn, sub_nan, div_nan]
        rcases VoxelSpecial.toInt64_cases (A.div (sub A (.num 0) (A.mul (.num 0) g.chunkX)) (.num cx)) with
          ⟨n, h1⟩ | h1 <;> rw [h1] <;> rfl
      · rw [show A.mul (.num 0) g.chunkZ = .nan from hn, sub_nan, div_nan]
        rcases VoxelSpecial.toInt64_cases (A.div (sub A (.num 0) (A.mul (.num 0) g.chunkX)) (.num cx)) with
          ⟨n, h1⟩ | h1 <;> rw [h1]
        · rcases VoxelSpecial.toInt64_cases (A.div (sub A (.num 0) (A.mul (.num 0) g.chunkY)) (.num cy)) with
            ⟨m, h2⟩ | h2 <;> simp only [Out.bind_ok] <;> rw [h2] <;> rfl
        · rfl
    · rw [q]; rfl
  · rcases r3 with r3 | r3
    · exfalso
      unfold setChunkValue at r3
      rw [Out.assert_true hi] at r3
      simp only [Out.bind_ok] at r3
      rw [hp, hreg] at r3
      simp only [Out.bind_ok] at r3
      rw [hfind] at r3
      simp only at r3
      unfold newWholeChunk at r3
      split at r3 <;> cases r3
    · exact r3

/-! ## Agreement with the model with rounding only -/

/-- **C188.** If values are not close to overflow, every history reports exactly what the model with rounding and without
overflow reports, which property C163 is about. -/
theorem C188_agrees (g : Grid ℝ T) (B : ℝ) (hB : 32 * B ≤ A.top) (hg : Near B g) (ops : List (Op T))
    (hl : ∀ o ∈ ops, Within B o.location) : run A (doublesGrid g) ops = runRounded A.R g ops := by
  induction ops generalizing g with
  | nil => rfl
  | cons o ops ih =>
    have h1 := hl o (List.mem_cons_self ..)
    have h2 : ∀ o ∈ ops, Within B o.location := fun o ho => hl o (List.mem_cons_of_mem _ ho)
    cases o with
    | read l =>
      simp only [run, runRounded]
      rw [read_num A hB hg (show Within B l from h1), ih g hg h2]
    | setCell l v =>
      simp only [run, runRounded]
      obtain ⟨e, k⟩ := cell_num A hB hg (show Within B l from h1) v
      rw [e]
      cases h : HashedGridRounded.setCellValue A.R g l v with
      | ok q =>
        show (do let rs ← run A (doublesGrid q.2) ops; .ok (Report.set q.1 :: rs)) = _
        rw [ih q.2 (k q h) h2]
        rfl
      | throws e => rfl
      | abort => rfl
      | ub => rfl
    | setChunk l v =>
      simp only [run, runRounded]
      obtain ⟨e, k⟩ := chunk_num A hB hg (show Within B l from h1) v
      rw [e]
      cases h : HashedGridRounded.setChunkValue A.R g l v with
      | ok q =>
        show (do let rs ← run A (doublesGrid q.2) ops; .ok (Report.set q.1 :: rs)) = _
        rw [ih q.2 (k q h) h2]
        rfl
      | throws e => rfl
      | abort => rfl
      | ub => rfl

theorem inverse_num {t : Iso3 ℝ} {B : ℝ} (hB : 16 * B ≤ A.top) (hr : Turned t) (ht : Within B t.t) :
    VoxelSpecial.inverse A (doublesIso t) = doublesIso (VoxelRounded.inverse A.R t) ∧
      Turned (VoxelRounded.inverse A.R t) ∧ Within (4 * B) (VoxelRounded.inverse A.R t).t := by
  obtain ⟨⟨a11, a12, a13⟩, ⟨a21, a22, a23⟩, ⟨a31, a32, a33⟩⟩ := hr
  have t1 : Within 1 ⟨t.r1.x, t.r2.x, t.r3.x⟩ := ⟨a11, a21, a31⟩
  have t2 : Within 1 ⟨t.r1.y, t.r2.y, t.r3.y⟩ := ⟨a12, a22, a32⟩
  have t3 : Within 1 ⟨t.r1.z, t.r2.z, t.r3.z⟩ := ⟨a13, a23, a33⟩
  obtain ⟨e1, b1⟩ := VoxelSpecial.dot3_num A t1 ht hB
  obtain ⟨e2, b2⟩ := VoxelSpecial.dot3_num A t2 ht hB
  obtain ⟨e3, b3⟩ := VoxelSpecial.dot3_num A t3 ht hB
  refine ⟨?_, ⟨t1, t2, t3⟩, ?_⟩
  · unfold VoxelSpecial.inverse VoxelRounded.inverse doublesIso
    simp only
    rw [show (⟨(doubles3 t.r1).x, (doubles3 t.r2).x, (doubles3 t.r3).x⟩ : Vec3 Dbl) =
        doubles3 ⟨t.r1.x, t.r2.x, t.r3.x⟩ from rfl,
      show (⟨(doubles3 t.r1).y, (doubles3 t.r2).y, (doubles3 t.r3).y⟩ : Vec3 Dbl) =
        doubles3 ⟨t.r1.y, t.r2.y, t.r3.y⟩ from rfl,
      show (⟨(doubles3 t.r1).z, (doubles3 t.r2).z, (doubles3 t.r3).z⟩ : Vec3 Dbl) =
        doubles3 ⟨t.r1.z, t.r2.z, t.r3.z⟩ from rfl, e1, e2, e3]
    rfl
  · refine ⟨?_, ?_, ?_⟩
    · show |-_| ≤ _; rw [abs_neg]; exact b1
    · show |-_| ≤ _; rw [abs_neg]; exact b2
    · show |-_| ≤ _; rw [abs_neg]; exact b3

theorem chunk_bounds {c B : ℝ} {n : Int} (hc : 0 < c) (hn : 0 < n) (h : c * n ≤ B) :
    0 < A.R.rd (|c| * A.R.rd n) ∧ A.R.rd (|c| * A.R.rd n) ≤ 2 * B := by
  have hn' : (0 : ℝ) < n := by exact_mod_cast hn
  have p1 : 0 < A.R.rd n := rd_pos A hn'
  rw [abs_of_pos hc]
  refine ⟨rd_pos A (mul_pos hc p1), ?_⟩
  have b1 := VoxelSpecial.rd_bound A n
  have b2 := VoxelSpecial.rd_bound A (c * A.R.rd n)
  rw [abs_of_pos hn', abs_of_pos p1] at b1
  rw [abs_of_pos (mul_pos hc p1)] at b2
  have b3 : c * A.R.rd n ≤ c * (101 / 100 * n) := mul_le_mul_of_nonneg_left b1 (le_of_lt hc)
  have h0 : 0 < c * n := mul_pos hc hn'
  have := le_abs_self (A.R.rd (c * A.R.rd n))
  linarith

/-- **C188.** A new grid whose origin and chunks are not close to overflow is the grid of the model with rounding, and
meets the conditions of `C188_agrees`. -/
theorem C188_created (origin : Iso3 ℝ) (cx cy cz : ℝ) (nx ny nz : Int) (d : T) (B : ℝ) (hB : 32 * B ≤ A.top)
    (hr : Turned origin) (ht : Within B origin.t) (hx : nx < 2 ^ 63)
    (hs : cx * nx ≤ B ∧ cy * ny ≤ B ∧ cz * nz ≤ B)
    (g : Grid ℝ T) (hg : HashedGridRounded.initializeGrid A.R origin cx cy cz nx ny nz d = .ok g) :
    initializeGrid A (doublesIso origin) (.num cx) (.num cy) (.num cz) nx ny nz d = .ok (doublesGrid g) ∧ Near B g := by
  have h0 : 0 ≤ B := le_trans (abs_nonneg _) ht.1
  obtain ⟨v1, v2, v3⟩ := inverse_num A (by linarith) hr ht
  unfold HashedGridRounded.initializeGrid at hg
  simp only [Out.bind_eq_ok] at hg
  obtain ⟨_, hchk, s1, hs1, hg⟩ := hg
  injection hg with hg
  have hchk' := hchk
  unfold Voxel.safetyCheckCells at hchk
  split at hchk
  · cases hchk
  · next hp =>
    push Not at hp
    obtain ⟨p1, p2, p3, n1, n2, n3⟩ := hp
    have hyz : ny * nz < 2 ^ 63 := by
      unfold int64 at hs1
      split at hs1
      · next hr => exact hr.2
      · cases hs1
    have hny : ny < 2 ^ 63 := lt_of_le_of_lt (le_mul_of_one_le_right (le_of_lt n2) n3) hyz
    have hnz : nz < 2 ^ 63 := lt_of_le_of_lt (le_mul_of_one_le_left (le_of_lt n3) n2) hyz
    have q1 := chunk_bounds A p1 n1 hs.1
    have q2 := chunk_bounds A p2 n2 hs.2.1
    have q3 := chunk_bounds A p3 n3 hs.2.2
    constructor
    · unfold initializeGrid
      rw [check_num, hchk', Out.bind_ok, hs1, Out.bind_ok, v1]
      simp only [Ieee.abs]
      rw [chunkSize_num A hB p1 n1 hx hs.1, chunkSize_num A hB p2 n2 hny hs.2.1, chunkSize_num A hB p3 n3 hnz hs.2.2,
        ← hg]
      unfold doublesGrid
      simp only [Out.ok.injEq, Grid.mk.injEq, true_and, and_true]
      funext r
      split <;> rfl
    · rw [← hg]
      refine ⟨rfl, v2, v3, ⟨q1.1, q2.1, q3.1⟩, ⟨q1.2, q2.2, q3.2⟩, ?_, fun r c h => by cases h⟩
      simp only
      rw [abs_of_pos p1, abs_of_pos p2, abs_of_pos p3]
      exact hs

/-! ## Cases that meet the hypotheses -/

/-- The identity. -/
noncomputable def exOrigin : Iso3 ℝ := Iso3.translation ⟨0, 0, 0⟩

example : Turned exOrigin ∧ Within 1 exOrigin.t := by
  simp [exOrigin, Iso3.translation, Turned, Within]

/-- Chunks of 2^10 cells of a width of 2^60 overflow a format whose largest number is 2^64. -/
example (R : Rounding) : (⟨R, 2 ^ 64, le_refl _⟩ : Ieee).top < R.rd (2 ^ 60 * R.rd ((2 ^ 10 : Int) : ℝ)) := by
  have h1 : R.rd ((2 ^ 10 : Int) : ℝ) = 2 ^ 10 := by
    have := R.fixed 1 10 (by norm_num)
    norm_num at this ⊢
    exact this
  have h2 : R.rd (2 ^ 60 * 2 ^ 10) = 2 ^ 70 := by
    have := R.fixed 1 70 (by norm_num)
    norm_num at this ⊢
    exact this
  rw [h1, h2]
  norm_num

end Verif.HashedGridSpecial
