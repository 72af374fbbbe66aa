import Verif.Spec.HashedGridAnywhere
import Verif.Props.HashedGridRounded

/-!
# Property C163 at any location: no failure, and cells do not overlap
-/
namespace Verif.HashedGridRounded

open Verif.Voxel (Vec3 Iso3 Index safetyCheckCells truncate int64 InGrid rowMajor rowMajor_bounds rowMajor_inj int64_eq_ok)
open Verif.HashedGrid (Chunk Grid Ref Found SetStatus Op Res putChunk readRef writeRef getChunkValue chunkSetValue
  newWholeChunk setDefaultValue)

section
variable {T : Type} (R : Rounding)

/-- What every chunk of a grid satisfies. -/
structure SoundChunk (g : Grid ℝ T) (region : Vec3 ℝ) (c : Chunk ℝ T) : Prop where
  base : c.base = region
  kind : c.cellInit = true ∧ (c.data.length : Int) = g.numX * g.numY * g.numZ ∧
      (c.cellX = g.cellX ∧ c.cellY = g.cellY ∧ c.cellZ = g.cellZ) ∧
      (c.chunkX = g.chunkX ∧ c.chunkY = g.chunkY ∧ c.chunkZ = g.chunkZ) ∧
      (c.numX = g.numX ∧ c.numY = g.numY ∧ c.numZ = g.numZ) ∧ c.stride1 = g.numY * g.numZ ∧ c.stride2 = g.numZ ∨
    c.cellInit = false ∧ c.chunkInit = true ∧ c.data.length = 1

/-- What every grid satisfies. -/
structure Sound (g : Grid ℝ T) : Prop where
  init : g.initialized = true
  cx : 0 < g.cellX
  cy : 0 < g.cellY
  cz : 0 < g.cellZ
  nx : 0 < g.numX
  ny : 0 < g.numY
  nz : 0 < g.numZ
  sx : g.chunkX = R.rd (g.cellX * R.rd g.numX)
  sy : g.chunkY = R.rd (g.cellY * R.rd g.numY)
  sz : g.chunkZ = R.rd (g.cellZ * R.rd g.numZ)
  fits : g.numX * g.numY * g.numZ ≤ 2 ^ 61
  chunks : ∀ region c, g.chunks region = some c → SoundChunk g region c

theorem rd_pos' {x : ℝ} (h : 0 < x) : 0 < R.rd x :=
  lt_of_le_of_ne (R.nonneg h.le) (fun e => h.ne' ((R.eq_zero).1 e.symm))

theorem size_pos {c : ℝ} {n : Int} (hc : 0 < c) (hn : 0 < n) : 0 < R.rd (c * R.rd n) :=
  rd_pos' R (mul_pos hc (rd_pos' R (by exact_mod_cast hn)))

/-- an offset inside the chunk has a cell number that fits in 64 bits -/
theorem truncate_fits {p c : ℝ} {n : Int} (hc : 0 < c) (hn : 0 < n) (hn' : n ≤ 2 ^ 61) (h0 : 0 ≤ p)
    (h1 : p ≤ R.rd (c * R.rd n)) :
    truncate (R.rd (p / c)) = .ok ⌊R.rd (p / c)⌋ := by
  have hq : 0 ≤ R.rd (p / c) := R.nonneg (div_nonneg h0 hc.le)
  have hnr : (0 : ℝ) < n := by exact_mod_cast hn
  have u0 := Rounding.unit_pos
  have u1 := Rounding.unit_lt_one
  have a1 : R.rd n ≤ n * 2 := by have := R.upper hnr.le; nlinarith
  have a0 : 0 ≤ R.rd n := R.nonneg hnr.le
  have a2 : R.rd (c * R.rd n) ≤ c * R.rd n * (1 + unit) := R.upper (mul_nonneg hc.le a0)
  have uu : unit ≤ 1 / 1024 := by unfold unit; norm_num
  have b1 : R.rd n ≤ n * (1 + unit) := R.upper hnr.le
  have a3 : p / c ≤ R.rd n * (1 + unit) := by
    rw [div_le_iff₀ hc]; nlinarith
  have a4 : R.rd (p / c) ≤ R.rd n * (1 + unit) * (1 + unit) := by
    have := R.upper (div_nonneg h0 hc.le)
    nlinarith
  have a5 : R.rd (p / c) ≤ 2 * n := by
    have : R.rd n * (1 + unit) * (1 + unit) ≤ n * (1 + unit) * (1 + unit) * (1 + unit) := by gcongr
    have h3 : (1 + unit) * (1 + unit) * (1 + unit) ≤ 2 := by
      have : (1 + unit) * (1 + unit) ≤ (1 + 1 / 1024) * (1 + 1 / 1024) := by gcongr
      nlinarith
    nlinarith
  have a6 : ⌊R.rd (p / c)⌋ ≤ 2 * n := by
    have : (⌊R.rd (p / c)⌋ : ℝ) ≤ ((2 * n : ℤ) : ℝ) := by push_cast; exact le_trans (Int.floor_le _) a5
    exact_mod_cast this
  have a7 : 0 ≤ ⌊R.rd (p / c)⌋ := Int.floor_nonneg.2 hq
  unfold truncate int64
  rw [if_pos hq, if_pos (by omega)]

theorem Sound.bounds {g : Grid ℝ T} (h : Sound R g) : g.numX ≤ 2 ^ 61 ∧ g.numY ≤ 2 ^ 61 ∧ g.numZ ≤ 2 ^ 61 ∧
    g.numY * g.numZ ≤ 2 ^ 61 ∧ 0 < g.numY * g.numZ := by
  have hx := h.nx
  have hy := h.ny
  have hz := h.nz
  have hf := h.fits
  have yz : 0 < g.numY * g.numZ := Int.mul_pos hy hz
  have e1 : g.numY * g.numZ ≤ g.numX * (g.numY * g.numZ) := by nlinarith
  have e2 : g.numX ≤ g.numX * (g.numY * g.numZ) := by nlinarith
  have e3 : g.numY ≤ g.numY * g.numZ := by nlinarith
  have e4 : g.numZ ≤ g.numY * g.numZ := by nlinarith
  rw [mul_assoc] at hf
  exact ⟨by omega, by omega, by omega, by omega, yz⟩

open Classical in
/-- the element of a point in a chunk of cells -/
theorem position_eq {g : Grid ℝ T} (h : Sound R g) {region p : Vec3 ℝ} {c : Chunk ℝ T}
    (hc : SoundChunk g region c) (hcell : c.cellInit = true) :
    getCellPosition R c p = .ok (if Held R g region p then
      some (rowMajor g.numY g.numZ (cellAt R g region p)).toNat else none) ∧
    (Held R g region p → (rowMajor g.numY g.numZ (cellAt R g region p)).toNat < c.data.length) := by
  rcases hc.kind with ⟨_, hlen, ⟨k1, k2, k3⟩, ⟨s1, s2, s3⟩, ⟨n1, n2, n3⟩, t1, t2⟩ | ⟨hn, _⟩
  swap
  · rw [hcell] at hn; cases hn
  obtain ⟨bx, by', bz, _⟩ := h.bounds
  have lt : Held R g region p → (rowMajor g.numY g.numZ (cellAt R g region p)).toNat < c.data.length := by
    intro hh
    have := rowMajor_bounds hh.2.2.2
    omega
  refine ⟨?_, lt⟩
  have hb := hc.base
  have hidx : getLocationDataIndex R c p =
      .ok (if Held R g region p then rowMajor g.numY g.numZ (cellAt R g region p) else -1) := by
    unfold getLocationDataIndex
    simp only [hb, k1, k2, k3, s1, s2, s3, n1, n2, n3, t1, t2]
    by_cases c1 : R.rd (p.x - region.x) < 0 ∨ R.rd (p.y - region.y) < 0 ∨ R.rd (p.z - region.z) < 0
    · rw [if_pos c1, if_neg]
      rintro ⟨⟨x, _⟩, ⟨y, _⟩, ⟨z, _⟩, _⟩
      simp only [offset] at x y z
      rcases c1 with c1 | c1 | c1 <;> linarith
    · rw [if_neg c1]
      by_cases c2 : g.chunkX < R.rd (p.x - region.x) ∨ g.chunkY < R.rd (p.y - region.y) ∨
          g.chunkZ < R.rd (p.z - region.z)
      · rw [if_pos c2, if_neg]
        rintro ⟨⟨_, x⟩, ⟨_, y⟩, ⟨_, z⟩, _⟩
        simp only [offset] at x y z
        rcases c2 with c2 | c2 | c2 <;> linarith
      · rw [if_neg c2]
        simp only [not_or, not_lt] at c1 c2
        have ex := truncate_fits R h.cx h.nx bx c1.1 (h.sx ▸ c2.1)
        have ey := truncate_fits R h.cy h.ny by' c1.2.1 (h.sy ▸ c2.2.1)
        have ez := truncate_fits R h.cz h.nz bz c1.2.2 (h.sz ▸ c2.2.2)
        rw [ex, ey, ez]
        simp only [Out.bind_ok]
        have iff : Held R g region p ↔ InGrid g.numX g.numY g.numZ (cellAt R g region p) :=
          ⟨fun hh => hh.2.2.2, fun hh => ⟨⟨c1.1, c2.1⟩, ⟨c1.2.1, c2.2.1⟩, ⟨c1.2.2, c2.2.2⟩, hh⟩⟩
        by_cases hh : InGrid g.numX g.numY g.numZ (cellAt R g region p)
        · rw [if_pos (iff.2 hh), if_neg]
          · simp only [rowMajor, cellAt, offset]
            congr 1
            ring
          · obtain ⟨⟨i1, i2⟩, ⟨i3, i4⟩, ⟨i5, i6⟩⟩ := hh
            simp only [cellAt, offset] at i1 i2 i3 i4 i5 i6
            omega
        · rw [if_neg (fun x => hh (iff.1 x)), if_pos]
          by_contra hn
          apply hh
          simp only [not_or, not_lt, not_le] at hn
          exact ⟨⟨hn.1, hn.2.2.2.1⟩, ⟨hn.2.1, hn.2.2.2.2.1⟩, ⟨hn.2.2.1, hn.2.2.2.2.2⟩⟩
  unfold getCellPosition
  rw [Out.assert_true hcell, hidx]
  simp only [Out.bind_ok]
  by_cases hh : Held R g region p
  · have hbnd := rowMajor_bounds hh.2.2.2
    simp only [if_pos hh]
    rw [if_pos hbnd.1, Out.assert_true (by omega)]
    rfl
  · simp only [if_neg hh]
    rw [if_neg (by omega)]

theorem Sound.put {g : Grid ℝ T} (h : Sound R g) {region : Vec3 ℝ} {c : Chunk ℝ T} (hc : SoundChunk g region c) :
    Sound R (putChunk g region c) := by
  refine ⟨h.init, h.cx, h.cy, h.cz, h.nx, h.ny, h.nz, h.sx, h.sy, h.sz, h.fits, ?_⟩
  intro r d hd
  simp only [putChunk] at hd
  split at hd
  · next e => subst e; cases hd; exact ⟨hc.base, hc.kind⟩
  · exact ⟨(h.chunks r d hd).base, (h.chunks r d hd).kind⟩

theorem Sound.default {g : Grid ℝ T} (h : Sound R g) (v : T) : Sound R { g with default := v } :=
  ⟨h.init, h.cx, h.cy, h.cz, h.nx, h.ny, h.nz, h.sx, h.sy, h.sz, h.fits,
    fun r d hd => ⟨(h.chunks r d hd).base, (h.chunks r d hd).kind⟩⟩

theorem SoundChunk.set {g : Grid ℝ T} {region : Vec3 ℝ} {c : Chunk ℝ T} (hc : SoundChunk g region c) (n : Nat) (v : T) :
    SoundChunk g region { c with data := c.data.set n v } := by
  refine ⟨hc.base, ?_⟩
  simp only [List.length_set]
  exact hc.kind

/-- a new chunk of cells -/
theorem newCells {g : Grid ℝ T} (h : Sound R g) (region : Vec3 ℝ) (v : T) :
    ∃ c, newCellChunk R region g.cellX g.cellY g.cellZ g.numX g.numY g.numZ v = .ok c ∧ SoundChunk g region c ∧
      c.cellInit = true ∧ c.data = List.replicate (g.numX * g.numY * g.numZ).toNat v := by
  obtain ⟨_, _, _, b4, b5⟩ := h.bounds
  have hf := h.fits
  have h0 : 0 < g.numX * g.numY * g.numZ := by rw [mul_assoc]; exact Int.mul_pos h.nx b5
  refine ⟨_, by
    unfold newCellChunk safetyCheckCells
    rw [if_neg (by simp only [not_or, not_le]; exact ⟨h.cx, h.cy, h.cz, h.nx, h.ny, h.nz⟩)]
    simp only [Out.bind_ok]
    unfold int64
    rw [if_pos (show (-2 ^ 63 ≤ g.numY * g.numZ ∧ g.numY * g.numZ < 2 ^ 63) by omega),
        if_pos (show (-2 ^ 63 ≤ g.numX * g.numY * g.numZ ∧ g.numX * g.numY * g.numZ < 2 ^ 63) by omega)]
    rfl, ⟨rfl, .inl ⟨rfl, ?_, ⟨abs_of_pos h.cx, abs_of_pos h.cy, abs_of_pos h.cz⟩, ⟨?_, ?_, ?_⟩, ⟨rfl, rfl, rfl⟩,
      rfl, rfl⟩⟩, rfl, rfl⟩
  · simp only [List.length_replicate]; omega
  · simp only [abs_of_pos h.cx, h.sx]
  · simp only [abs_of_pos h.cy, h.sy]
  · simp only [abs_of_pos h.cz, h.sz]

/-- a new chunk with one value -/
theorem newWhole {g : Grid ℝ T} (h : Sound R g) (region : Vec3 ℝ) (v : T) :
    ∃ c, newWholeChunk region g.chunkX g.chunkY g.chunkZ v = .ok c ∧ SoundChunk g region c := by
  have px : 0 < g.chunkX := h.sx ▸ size_pos R h.cx h.nx
  have py : 0 < g.chunkY := h.sy ▸ size_pos R h.cy h.ny
  have pz : 0 < g.chunkZ := h.sz ▸ size_pos R h.cz h.nz
  refine ⟨_, by
    unfold newWholeChunk
    rw [if_neg (by simp only [not_or, not_le]; exact ⟨px, py, pz⟩)], ⟨rfl, .inr ⟨rfl, rfl, rfl⟩⟩⟩

/-- the cells of a region, as `SetCellValue` finds or makes them -/
noncomputable def cellsOf (g : Grid ℝ T) (region : Vec3 ℝ) : List T :=
  match g.chunks region with
  | none => List.replicate (g.numX * g.numY * g.numZ).toNat g.default
  | some c => if c.cellInit then c.data
    else List.replicate (g.numX * g.numY * g.numZ).toNat (c.data.getD 0 g.default)

theorem cellsOf_length {g : Grid ℝ T} (h : Sound R g) (region : Vec3 ℝ) :
    ((cellsOf g region).length : Int) = g.numX * g.numY * g.numZ := by
  obtain ⟨_, _, _, b4, b5⟩ := h.bounds
  have h0 : 0 < g.numX * g.numY * g.numZ := by rw [mul_assoc]; exact Int.mul_pos h.nx b5
  unfold cellsOf
  split
  · rw [List.length_replicate]; omega
  · next c hc =>
    split
    · next hcell =>
      rcases (h.chunks _ _ hc).kind with ⟨_, hl, _⟩ | ⟨hn, _⟩
      · exact hl
      · rw [hcell] at hn; cases hn
    · rw [List.length_replicate]; omega

theorem chunkSet_held {g : Grid ℝ T} (h : Sound R g) {region p : Vec3 ℝ} {c : Chunk ℝ T} (hc : SoundChunk g region c)
    (hcell : c.cellInit = true) (hh : Held R g region p) (v : T) :
    chunkSetCell R c p v =
      .ok (true, { c with data := c.data.set (rowMajor g.numY g.numZ (cellAt R g region p)).toNat v }) := by
  unfold chunkSetCell
  rw [(position_eq R h hc hcell).1, if_pos hh]
  rfl

theorem chunkSet_lost {g : Grid ℝ T} (h : Sound R g) {region p : Vec3 ℝ} {c : Chunk ℝ T} (hc : SoundChunk g region c)
    (hcell : c.cellInit = true) (hh : ¬ Held R g region p) (v : T) : chunkSetCell R c p v = .ok (false, c) := by
  unfold chunkSetCell
  rw [(position_eq R h hc hcell).1, if_neg hh]
  rfl

theorem setInNew_eq {g : Grid ℝ T} (h : Sound R g) (region p : Vec3 ℝ) (initial v : T) :
    (Held R g region p → ∃ c, setInNewChunk R g region p initial v = .ok (.setCell, putChunk g region c) ∧
      SoundChunk g region c ∧ c.cellInit = true ∧ c.data =
        (List.replicate (g.numX * g.numY * g.numZ).toNat initial).set
          (rowMajor g.numY g.numZ (cellAt R g region p)).toNat v) ∧
    (¬ Held R g region p → setInNewChunk R g region p initial v = .ok (.notSet, g)) := by
  obtain ⟨c, e1, e2, e3, e4⟩ := newCells R h region initial
  constructor
  · intro hh
    refine ⟨{ c with data := c.data.set (rowMajor g.numY g.numZ (cellAt R g region p)).toNat v }, ?_, e2.set _ _, e3,
      by simp only [e4]⟩
    unfold setInNewChunk
    rw [e1]
    simp only [Out.bind_ok, chunkSet_held R h e2 e3 hh v, if_true]
  · intro hh
    unfold setInNewChunk
    rw [e1]
    simp only [Out.bind_ok, chunkSet_lost R h e2 e3 hh v]
    rfl

/-- `SetCellValue` -/
theorem setCell_eq {g : Grid ℝ T} (h : Sound R g) {l region : Vec3 ℝ}
    (hreg : getContainingChunkRegion R g (VoxelRounded.apply R g.inverseOrigin l) = .ok region) (v : T) :
    (Held R g region (VoxelRounded.apply R g.inverseOrigin l) →
      ∃ c, setCellValue R g l v = .ok (.setCell, putChunk g region c) ∧ SoundChunk g region c ∧ c.cellInit = true ∧
        c.data = (cellsOf g region).set
          (rowMajor g.numY g.numZ (cellAt R g region (VoxelRounded.apply R g.inverseOrigin l))).toNat v) ∧
    (¬ Held R g region (VoxelRounded.apply R g.inverseOrigin l) → setCellValue R g l v = .ok (.notSet, g)) := by
  unfold setCellValue cellsOf
  rw [Out.assert_true h.init]
  simp only [Out.bind_ok, hreg]
  cases hch : g.chunks region with
  | none => exact setInNew_eq R h region _ _ v
  | some c =>
    have hc := h.chunks _ _ hch
    cases hcell : c.cellInit with
    | true =>
      simp only [hcell, if_true]
      constructor
      · intro hh
        refine ⟨{ c with data := c.data.set (rowMajor g.numY g.numZ
          (cellAt R g region (VoxelRounded.apply R g.inverseOrigin l))).toNat v }, ?_, hc.set _ _, hcell, rfl⟩
        rw [chunkSet_held R h hc hcell hh v]
        simp only [Out.bind_ok, if_true]
      · intro hh
        rw [chunkSet_lost R h hc hcell hh v]
        rfl
    | false =>
      rcases hc.kind with ⟨hn, _⟩ | ⟨_, hw, hl⟩
      · rw [hcell] at hn; cases hn
      · obtain ⟨x, hx⟩ : ∃ x, c.data = [x] := List.length_eq_one_iff.1 hl
        have hv : getChunkValue c = .ok x := by simp [getChunkValue, Out.assert, hw, hx]
        simp only [hcell, hw, hv, Bool.false_eq_true, if_false, if_true, Out.bind_ok, hx]
        exact setInNew_eq R h region _ x v

/-- `SetChunkValue` -/
theorem setChunk_eq {g : Grid ℝ T} (h : Sound R g) {l region : Vec3 ℝ}
    (hreg : getContainingChunkRegion R g (VoxelRounded.apply R g.inverseOrigin l) = .ok region) (v : T) :
    ∃ c, setChunkValue R g l v = .ok (.setChunk, putChunk g region c) ∧ SoundChunk g region c := by
  obtain ⟨n, n1, n2⟩ := newWhole R h region v
  unfold setChunkValue
  rw [Out.assert_true h.init]
  simp only [Out.bind_ok, hreg]
  cases hch : g.chunks region with
  | none => exact ⟨n, by simp only [n1, Out.bind_ok], n2⟩
  | some c =>
    have hc := h.chunks _ _ hch
    cases hcell : c.cellInit with
    | true => exact ⟨n, by simp only [hcell, if_true, n1, Out.bind_ok], n2⟩
    | false =>
      rcases hc.kind with ⟨hn, _⟩ | ⟨_, hw, hl⟩
      · rw [hcell] at hn; cases hn
      · refine ⟨{ c with data := c.data.set 0 v }, ?_, hc.set _ _⟩
        simp [hw, chunkSetValue, Out.assert, hl, hcell]

/-- what a read finds -/
theorem getRef_eq {g : Grid ℝ T} (h : Sound R g) {l region : Vec3 ℝ}
    (hreg : getContainingChunkRegion R g (VoxelRounded.apply R g.inverseOrigin l) = .ok region) :
    (∃ f, getRef R g l = .ok (.default, f)) ∨
    (∃ c n f, g.chunks region = some c ∧ getRef R g l = .ok (.elem region n, f) ∧ n < c.data.length) := by
  unfold getRef
  rw [Out.assert_true h.init]
  simp only [Out.bind_ok, hreg]
  cases hch : g.chunks region with
  | none => exact .inl ⟨_, rfl⟩
  | some c =>
    have hc := h.chunks _ _ hch
    cases hcell : c.cellInit with
    | true =>
      obtain ⟨p1, p2⟩ := position_eq R h (p := VoxelRounded.apply R g.inverseOrigin l) hc hcell
      by_cases hh : Held R g region (VoxelRounded.apply R g.inverseOrigin l)
      · refine .inr ⟨c, _, .inCell, rfl, ?_, p2 hh⟩
        simp only [if_true, p1, if_pos hh, Out.bind_ok, hcell]
      · refine .inl ⟨.notFound, ?_⟩
        simp only [if_true, p1, if_neg hh, Out.bind_ok, hcell]
    | false =>
      rcases hc.kind with ⟨hn, _⟩ | ⟨_, hw, hl⟩
      · rw [hcell] at hn; cases hn
      · obtain ⟨x, hx⟩ : ∃ x, c.data = [x] := List.length_eq_one_iff.1 hl
        have hv : getChunkValue c = .ok x := by simp [getChunkValue, Out.assert, hw, hx]
        refine .inr ⟨c, 0, .inChunk, rfl, ?_, by omega⟩
        simp only [hw, hv, Bool.false_eq_true, if_false, if_true, Out.bind_ok, hcell]

theorem step_sound {g : Grid ℝ T} (h : Sound R g) (op : Op ℝ T)
    (hr : ∀ l, op.location = some l →
      getContainingChunkRegion R g (VoxelRounded.apply R g.inverseOrigin l) ≠ .ub) :
    ∃ r g', step R g op = .ok (r, g') ∧ Sound R g' ∧ g'.inverseOrigin = g.inverseOrigin ∧
      g'.chunkX = g.chunkX ∧ g'.chunkY = g.chunkY ∧ g'.chunkZ = g.chunkZ := by
  have region : ∀ l, op.location = some l → ∃ region,
      getContainingChunkRegion R g (VoxelRounded.apply R g.inverseOrigin l) = .ok region := by
    intro l hl
    have := hr l hl
    revert this
    unfold getContainingChunkRegion
    rw [Out.assert_true h.init]
    unfold int64
    simp only [Out.bind_ok]
    split <;> split <;> split <;> simp
  cases op with
  | get l =>
    obtain ⟨region, hreg⟩ := region l rfl
    rcases getRef_eq R h hreg with ⟨f, e⟩ | ⟨c, n, f, e0, e, hn⟩
    · refine ⟨.read g.default f, g, ?_, h, rfl, rfl, rfl, rfl⟩
      simp only [step, getImmutable, e, Out.bind_ok, readRef]
    · refine ⟨.read c.data[n] f, g, ?_, h, rfl, rfl, rfl, rfl⟩
      simp only [step, getImmutable, e, Out.bind_ok, readRef, e0, List.getElem?_eq_getElem hn]
  | mutate l v =>
    obtain ⟨region, hreg⟩ := region l rfl
    rcases getRef_eq R h hreg with ⟨f, e⟩ | ⟨c, n, f, e0, e, hn⟩
    · refine ⟨.read g.default f, { g with default := v }, ?_, h.default R v, rfl, rfl, rfl, rfl⟩
      simp only [step, e, Out.bind_ok, readRef, writeRef]
    · refine ⟨.read c.data[n] f, putChunk g region { c with data := c.data.set n v }, ?_,
        h.put R ((h.chunks _ _ e0).set n v), rfl, rfl, rfl, rfl⟩
      simp only [step, e, Out.bind_ok, readRef, writeRef, e0, List.getElem?_eq_getElem hn, if_pos hn]
  | setCell l v =>
    obtain ⟨region, hreg⟩ := region l rfl
    obtain ⟨s1, s2⟩ := setCell_eq R h hreg v
    by_cases hh : Held R g region (VoxelRounded.apply R g.inverseOrigin l)
    · obtain ⟨c, e, hc, _⟩ := s1 hh
      refine ⟨.wrote .setCell, putChunk g region c, ?_, h.put R hc, rfl, rfl, rfl, rfl⟩
      simp only [step, e, Out.bind_ok]
    · refine ⟨.wrote .notSet, g, ?_, h, rfl, rfl, rfl, rfl⟩
      simp only [step, s2 hh, Out.bind_ok]
  | setChunk l v =>
    obtain ⟨region, hreg⟩ := region l rfl
    obtain ⟨c, e, hc⟩ := setChunk_eq R h hreg v
    refine ⟨.wrote .setChunk, putChunk g region c, ?_, h.put R hc, rfl, rfl, rfl, rfl⟩
    simp only [step, e, Out.bind_ok]
  | setDefault v => exact ⟨.nothing, { g with default := v }, rfl, h.default R v, rfl, rfl, rfl, rfl⟩

theorem region_congr {g g' : Grid ℝ T} (h : Sound R g) (h' : Sound R g') (e1 : g'.chunkX = g.chunkX)
    (e2 : g'.chunkY = g.chunkY) (e3 : g'.chunkZ = g.chunkZ) (p : Vec3 ℝ) :
    getContainingChunkRegion R g' p = getContainingChunkRegion R g p := by
  unfold getContainingChunkRegion
  rw [e1, e2, e3, Out.assert_true h.init, Out.assert_true h'.init]

theorem run_sound : ∀ (ops : List (Op ℝ T)) {g : Grid ℝ T}, Sound R g →
    (∀ op ∈ ops, ∀ l, op.location = some l →
      getContainingChunkRegion R g (VoxelRounded.apply R g.inverseOrigin l) ≠ .ub) →
    ∃ rs g', run R g ops = .ok (rs, g') ∧ Sound R g' := by
  intro ops
  induction ops with
  | nil => intro g h _; exact ⟨[], g, rfl, h⟩
  | cons op ops ih =>
    intro g h hr
    obtain ⟨r, g1, e, h1, i1, i2, i3, i4⟩ := step_sound R h op (hr op List.mem_cons_self)
    obtain ⟨rs, g2, e2, h2⟩ := ih h1 (fun o ho l hl => by
      rw [region_congr R h h1 i2 i3 i4, i1]
      exact hr o (List.mem_cons_of_mem _ ho) l hl)
    exact ⟨r :: rs, g2, by simp only [run, e, e2, Out.bind_ok], h2⟩

theorem initializeGrid_sound {origin : Iso3 ℝ} {cx cy cz : ℝ} {nx ny nz : Int} {d : T} {g : Grid ℝ T}
    (hf : nx * ny * nz ≤ 2 ^ 61) (h : initializeGrid R origin cx cy cz nx ny nz d = .ok g) : Sound R g := by
  unfold initializeGrid safetyCheckCells at h
  split at h
  · simp at h
  next hc =>
    simp only [not_or, not_le] at hc
    simp only [Out.bind_ok, Out.bind_eq_ok, int64_eq_ok, Out.ok.injEq] at h
    obtain ⟨st, _, rfl⟩ := h
    obtain ⟨h1, h2, h3, h4, h5, h6⟩ := hc
    exact ⟨rfl, abs_pos.2 h1.ne', abs_pos.2 h2.ne', abs_pos.2 h3.ne', h4, h5, h6, rfl, rfl, rfl, hf,
      fun r c hr => by cases hr⟩

/-- At any locations, near a boundary or not, and with any origin: as long as the chunk numbers of the locations fit in
64 bits, no call of any history throws, fails an assertion or is undefined. -/
theorem C163_never_fails (origin : Iso3 ℝ) (cx cy cz : ℝ) (nx ny nz : Int) (d : T) (g : Grid ℝ T)
    (hf : nx * ny * nz ≤ 2 ^ 61) (h : initializeGrid R origin cx cy cz nx ny nz d = .ok g) (ops : List (Op ℝ T))
    (hr : ∀ op ∈ ops, ∀ l, op.location = some l →
      getContainingChunkRegion R g (VoxelRounded.apply R g.inverseOrigin l) ≠ .ub) :
    ∃ rs g', run R g ops = .ok (rs, g') := by
  obtain ⟨rs, g', e, _⟩ := run_sound R ops (initializeGrid_sound R hf h) hr
  exact ⟨rs, g', e⟩

theorem run_sound_of : ∀ (ops : List (Op ℝ T)) {g g' : Grid ℝ T} {rs : List (Res T)}, Sound R g →
    run R g ops = .ok (rs, g') → Sound R g' := by
  intro ops
  induction ops with
  | nil => intro g g' rs h e; cases e; exact h
  | cons op ops ih =>
    intro g g' rs h e
    simp only [run, Out.bind_eq_ok] at e
    obtain ⟨r, e1, rs', e2, e3⟩ := e
    cases e3
    refine ih ?_ e2
    by_cases hr : ∀ l, op.location = some l →
      getContainingChunkRegion R g (VoxelRounded.apply R g.inverseOrigin l) ≠ .ub
    · obtain ⟨r', g1, e', h1, _⟩ := step_sound R h op hr
      rw [e'] at e1
      cases e1
      exact h1
    · exfalso
      simp only [not_forall, not_not] at hr
      obtain ⟨l, hl, hu⟩ := hr
      cases op <;> simp only [Op.location, Option.some.injEq, reduceCtorEq] at hl <;> subst hl <;>
        simp [step, getImmutable, getRef, setCellValue, setChunkValue, Out.assert, h.init, hu] at e1

open Classical in
/-- At any location of any grid after any history: `SetCellValue` reports `SET_CELL` exactly if the location is found in
its region. Then a location of another region reads what it read before. A location found in the same region reads the
new value if it has the same cell number, and otherwise the value it read before. A location that belongs to the region
but is not found there reads the default value. If the location is not found, nothing changes. -/
theorem C163_no_overlap (origin : Iso3 ℝ) (cx cy cz : ℝ) (nx ny nz : Int) (d : T) (g0 g : Grid ℝ T)
    (hf : nx * ny * nz ≤ 2 ^ 61) (h0 : initializeGrid R origin cx cy cz nx ny nz d = .ok g0) (ops : List (Op ℝ T))
    (rs : List (Res T)) (hrun : run R g0 ops = .ok (rs, g)) (l region : Vec3 ℝ) (v : T)
    (hreg : getContainingChunkRegion R g (VoxelRounded.apply R g.inverseOrigin l) = .ok region) :
    (¬ Held R g region (VoxelRounded.apply R g.inverseOrigin l) → setCellValue R g l v = .ok (.notSet, g)) ∧
    (Held R g region (VoxelRounded.apply R g.inverseOrigin l) → ∃ g', setCellValue R g l v = .ok (.setCell, g') ∧
      ∀ l' region', getContainingChunkRegion R g (VoxelRounded.apply R g.inverseOrigin l') = .ok region' →
        (region' ≠ region → getImmutable R g' l' = getImmutable R g l') ∧
        (region' = region → ∀ x f, getImmutable R g l' = .ok (x, f) → getImmutable R g' l' = .ok
          (if Held R g region (VoxelRounded.apply R g.inverseOrigin l') then
            (if cellAt R g region (VoxelRounded.apply R g.inverseOrigin l') =
                cellAt R g region (VoxelRounded.apply R g.inverseOrigin l) then v else x, .inCell)
          else (g.default, .notFound)))) := by
  have h := run_sound_of R ops (initializeGrid_sound R hf h0) hrun
  obtain ⟨s1, s2⟩ := setCell_eq R h hreg v
  refine ⟨s2, fun hh => ?_⟩
  obtain ⟨c, e, hc, hcell, hdata⟩ := s1 hh
  refine ⟨_, e, ?_⟩
  intro l' region' hreg'
  have hreg'' : getContainingChunkRegion R (putChunk g region c)
      (VoxelRounded.apply R g.inverseOrigin l') = .ok region' := hreg'
  have hi : (putChunk g region c).inverseOrigin = g.inverseOrigin := rfl
  constructor
  · intro hne
    unfold getImmutable getRef
    rw [Out.assert_true h.init, Out.assert_true (show (putChunk g region c).initialized = true from h.init)]
    simp only [Out.bind_ok, hi, hreg', hreg'']
    have hch : (putChunk g region c).chunks region' = g.chunks region' := by simp [putChunk, hne]
    have rr : ∀ n, readRef (putChunk g region c) (.elem region' n) = readRef g (.elem region' n) := by
      intro n; simp only [readRef, hch]
    rw [hch]
    cases hg : g.chunks region' with
    | none => rfl
    | some k =>
      have hk := h.chunks _ _ hg
      dsimp only
      cases hkc : k.cellInit with
      | true =>
        simp only [if_true]
        rw [(position_eq R h (p := VoxelRounded.apply R g.inverseOrigin l') hk hkc).1]
        split
        · simp only [Out.bind_ok, rr]
        · rfl
      | false =>
        rcases hk.kind with ⟨hn, _⟩ | ⟨_, hw, hl⟩
        · rw [hkc] at hn; cases hn
        · obtain ⟨y, hy⟩ : ∃ y, k.data = [y] := List.length_eq_one_iff.1 hl
          have hv : getChunkValue k = .ok y := by simp [getChunkValue, Out.assert, hw, hy]
          simp only [hw, hv, Bool.false_eq_true, if_false, if_true, Out.bind_ok, rr]
  · rintro rfl x f hx
    have hp := h.put R hc
    have hch : (putChunk g region' c).chunks region' = some c := by simp [putChunk]
    have hpos := (position_eq R h (p := VoxelRounded.apply R g.inverseOrigin l') hc hcell).1
    have hd : (putChunk g region' c).default = g.default := rfl
    by_cases hh' : Held R g region' (VoxelRounded.apply R g.inverseOrigin l')
    swap
    · rw [if_neg hh'] at hpos ⊢
      unfold getImmutable getRef
      rw [Out.assert_true (show (putChunk g region' c).initialized = true from h.init)]
      simp only [Out.bind_ok, hreg'', hch, hcell, if_true, hi, hpos, readRef, hd]
    · rw [if_pos hh'] at hpos ⊢
      have hb' := rowMajor_bounds hh'.2.2.2
      have hlen := cellsOf_length R h region'
      -- what was read before is what the cells of the region had
      have hold : (cellsOf g region')[(rowMajor g.numY g.numZ
          (cellAt R g region' (VoxelRounded.apply R g.inverseOrigin l'))).toNat]? = some x := by
        unfold getImmutable getRef at hx
        rw [Out.assert_true h.init] at hx
        simp only [Out.bind_ok, hreg'] at hx
        unfold cellsOf at hlen ⊢
        cases hg : g.chunks region' with
        | none =>
          rw [hg] at hx hlen
          simp only [Out.bind_ok, readRef] at hx
          cases hx
          dsimp only at hlen ⊢
          rw [List.length_replicate] at hlen
          rw [List.getElem?_replicate, if_pos (by omega)]
        | some k =>
          have hk := h.chunks _ _ hg
          rw [hg] at hx hlen
          dsimp only at hx hlen ⊢
          cases hkc : k.cellInit with
          | true =>
            simp only [hkc, if_true, (position_eq R h (p := VoxelRounded.apply R g.inverseOrigin l') hk hkc).1,
              if_pos hh', Out.bind_ok, readRef, hg] at hx
            simp only [if_true]
            split at hx
            · next y hy => cases hx; exact hy
            · cases hx
          | false =>
            rcases hk.kind with ⟨hn, _⟩ | ⟨_, hw, hl⟩
            · rw [hkc] at hn; cases hn
            · obtain ⟨y, hy⟩ : ∃ y, k.data = [y] := List.length_eq_one_iff.1 hl
              have hv : getChunkValue k = .ok y := by simp [getChunkValue, Out.assert, hw, hy]
              simp only [hkc, hw, hv, Bool.false_eq_true, if_false, if_true, Out.bind_ok, readRef, hg, hy] at hx
              simp only [hkc, Bool.false_eq_true, if_false, List.length_replicate] at hlen
              cases hx
              simp only [hy, Bool.false_eq_true, if_false]
              rw [List.getElem?_replicate, if_pos (by omega)]
              rfl
      have hnew : c.data[(rowMajor g.numY g.numZ
          (cellAt R g region' (VoxelRounded.apply R g.inverseOrigin l'))).toNat]? =
          some (if cellAt R g region' (VoxelRounded.apply R g.inverseOrigin l') =
                cellAt R g region' (VoxelRounded.apply R g.inverseOrigin l) then v else x) := by
        have hb := rowMajor_bounds hh.2.2.2
        rw [hdata]
        by_cases hs : cellAt R g region' (VoxelRounded.apply R g.inverseOrigin l') =
                cellAt R g region' (VoxelRounded.apply R g.inverseOrigin l)
        · rw [if_pos hs, hs, List.getElem?_set_self (by omega)]
        · rw [if_neg hs, List.getElem?_set_ne, hold]
          intro e
          exact hs (rowMajor_inj hh'.2.2.2 hh.2.2.2 (by omega))
      unfold getImmutable getRef
      rw [Out.assert_true (show (putChunk g region' c).initialized = true from h.init)]
      simp only [Out.bind_ok, hreg'', hch, hcell, if_true, hi, hpos, readRef, hnew]

end

/-- The hypotheses are met: the centre of a cell is found in its region. -/
example : ∃ g : Grid ℝ Nat, quarterGrid = .ok g ∧
    getContainingChunkRegion Nearest.nearest g
      (VoxelRounded.apply Nearest.nearest g.inverseOrigin ⟨1 / 8, 1 / 8, 1 / 8⟩) = .ok ⟨0, 0, 0⟩ ∧
    Held Nearest.nearest g ⟨0, 0, 0⟩ (VoxelRounded.apply Nearest.nearest g.inverseOrigin ⟨1 / 8, 1 / 8, 1 / 8⟩) := by
  have r1 : Nearest.nearest.rd 1 = 1 := Nearest.nearest.fp_one
  have r4 : Nearest.nearest.rd (1 / 4) = 1 / 4 := fixed_eq _ 1 (-2) (by norm_num) (by norm_num)
  have r8 : Nearest.nearest.rd (1 / 8) = 1 / 8 := fixed_eq _ 1 (-3) (by norm_num) (by norm_num)
  have r2 : Nearest.nearest.rd (1 / 2) = 1 / 2 := fixed_eq _ 1 (-1) (by norm_num) (by norm_num)
  have hz : VoxelRounded.Fp3 Nearest.nearest ⟨0, 0, 0⟩ :=
    ⟨Rounding.fp_zero _, Rounding.fp_zero _, Rounding.fp_zero _⟩
  have hl : VoxelRounded.Fp3 Nearest.nearest ⟨1 / 8, 1 / 8, 1 / 8⟩ := ⟨r8, r8, r8⟩
  have ha : |(1 : ℝ) / 4| = 1 / 4 := abs_of_pos (by norm_num)
  have hs : Nearest.nearest.rd (|(1 : ℝ) / 4| * Nearest.nearest.rd ((1 : ℤ) : ℝ)) = 1 / 4 := by
    rw [ha, Int.cast_one, r1, mul_one, r4]
  have hg : ∃ g, quarterGrid = .ok g ∧ g.initialized = true ∧
      g.inverseOrigin = VoxelRounded.inverse Nearest.nearest (Iso3.translation ⟨0, 0, 0⟩) ∧
      (g.chunkX = 1 / 4 ∧ g.chunkY = 1 / 4 ∧ g.chunkZ = 1 / 4) ∧
      (g.cellX = 1 / 4 ∧ g.cellY = 1 / 4 ∧ g.cellZ = 1 / 4) ∧ (g.numX = 1 ∧ g.numY = 1 ∧ g.numZ = 1) := by
    refine ⟨_, by
      unfold quarterGrid initializeGrid safetyCheckCells
      rw [if_neg (by norm_num)]
      simp only [Out.bind_ok]
      rw [show int64 (1 * 1) = .ok (1 * 1) by rfl]
      rfl, rfl, rfl, ⟨hs, hs, hs⟩, ⟨ha, ha, ha⟩, rfl, rfl, rfl⟩
  obtain ⟨g, e, hi, hinv, ⟨s1, s2, s3⟩, ⟨c1, c2, c3⟩, n1, n2, n3⟩ := hg
  have hp : VoxelRounded.apply Nearest.nearest g.inverseOrigin ⟨1 / 8, 1 / 8, 1 / 8⟩ = ⟨1 / 8, 1 / 8, 1 / 8⟩ := by
    rw [hinv, VoxelRounded.inverse_translation _ hz, VoxelRounded.apply_translation _ hl]
    simp only [neg_zero, add_zero, r8]
  have f2 : ⌊(1 : ℝ) / 2⌋ = 0 := by rw [Int.floor_eq_iff]; norm_num
  have h84 : (1 : ℝ) / 8 / (1 / 4) = 1 / 2 := by norm_num
  refine ⟨g, e, ?_, ?_⟩
  · rw [hp]
    unfold getContainingChunkRegion
    rw [Out.assert_true hi]
    simp only [Out.bind_ok, s1, s2, s3, h84, r2, f2]
    rw [show int64 0 = .ok 0 by rfl]
    simp only [Out.bind_ok, Int.cast_zero, Rounding.zero, zero_mul]
  · rw [hp]
    unfold Held cellAt offset
    simp only [sub_zero, r8, s1, s2, s3, c1, c2, c3, n1, n2, n3, h84, r2, f2, InGrid]
    norm_num

end Verif.HashedGridRounded
