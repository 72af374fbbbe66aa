import Verif.Lemmas.HashedGrid
import Verif.Lemmas.HashedGridRoundedAxis

/-! # Hashed voxel grids with rounding: refinement to the abstract grid -/
namespace Verif.HashedGridRounded

open Verif.Voxel (Vec3 Iso3 Index safetyCheckCells truncate int64 InGrid rowMajor rowMajor_bounds rowMajor_inj int64_eq_ok)
open Verif.HashedGrid (Chunk Grid Ref Found SetStatus Op Res ChunkState Contents chunkOf cellOf localOf localOf_in
  localOf_inj specStep specRun putChunk readRef writeRef getChunkValue chunkSetValue newWholeChunk setDefaultValue)
open Verif.VoxelRounded (Fp3)

section
variable {T : Type} (R : Rounding)

/-- The base of a chunk. -/
noncomputable def baseOf (g : Grid ℝ T) (k : Index) : Vec3 ℝ :=
  ⟨base1 R g.cellX g.numX k.x, base1 R g.cellY g.numY k.y, base1 R g.cellZ g.numZ k.z⟩

/-- A chunk whose numbers are not too large for the arithmetic. -/
def Near (g : Grid ℝ T) (k : Index) : Prop := Near1 g.numX k.x ∧ Near1 g.numY k.y ∧ Near1 g.numZ k.z

/-- A chunk of cells of the grid `g`. -/
structure CellChunk (R : Rounding) (g : Grid ℝ T) (k : Index) (ch : Chunk ℝ T) : Prop where
  base : ch.base = baseOf R g k
  cell : ch.cellInit = true
  len : (ch.data.length : Int) = g.numX * g.numY * g.numZ
  cx : ch.cellX = g.cellX
  cy : ch.cellY = g.cellY
  cz : ch.cellZ = g.cellZ
  sx : ch.chunkX = g.chunkX
  sy : ch.chunkY = g.chunkY
  sz : ch.chunkZ = g.chunkZ
  nx : ch.numX = g.numX
  ny : ch.numY = g.numY
  nz : ch.numZ = g.numZ
  s1 : ch.stride1 = g.numY * g.numZ
  s2 : ch.stride2 = g.numZ

/-- A stored chunk represents an abstract chunk. -/
def Rep (R : Rounding) (g : Grid ℝ T) (k : Index) : Option (Chunk ℝ T) → ChunkState T → Prop
  | none, .unset => True
  | some ch, .whole v => ch.cellInit = false ∧ ch.chunkInit = true ∧ ch.data = [v]
  | some ch, .cells f => CellChunk R g k ch ∧ ∀ c, chunkOf g.numX g.numY g.numZ c = k →
      ch.data[(rowMajor g.numY g.numZ (localOf g.numX g.numY g.numZ c)).toNat]? = some (f c)
  | _, _ => False

/-- The geometry of a grid whose frame is translated by `t`. -/
structure Geo (R : Rounding) (t : Vec3 ℝ) (g : Grid ℝ T) : Prop where
  init : g.initialized = true
  fp : Fp3 R t
  inv : g.inverseOrigin = VoxelRounded.inverse R (Iso3.translation t)
  cx : 0 < g.cellX
  cy : 0 < g.cellY
  cz : 0 < g.cellZ
  nx : 0 < g.numX
  ny : 0 < g.numY
  nz : 0 < g.numZ
  sx : g.chunkX = size R g.cellX g.numX
  sy : g.chunkY = size R g.cellY g.numY
  sz : g.chunkZ = size R g.cellZ g.numZ
  fits : g.numX * g.numY * g.numZ < 2 ^ 63

/-- The grid represents the abstract grid. -/
structure Holds (R : Rounding) (t : Vec3 ℝ) (g : Grid ℝ T) (s : Contents T) : Prop where
  geo : Geo R t g
  default : g.default = s.default
  chunks : ∀ k, Near g k → Rep R g k (g.chunks (baseOf R g k)) (s.chunks k)

/-- the cell of a location -/
noncomputable def cellIn (t : Vec3 ℝ) (g : Grid ℝ T) (l : Vec3 ℝ) : Index :=
  cellOf g.cellX g.cellY g.cellZ (relative t l)

/-- the chunk of a location -/
noncomputable def chunkIn (t : Vec3 ℝ) (g : Grid ℝ T) (l : Vec3 ℝ) : Index :=
  chunkOf g.numX g.numY g.numZ (cellIn t g l)

/-- A location that is well inside its cell. -/
def Good (t : Vec3 ℝ) (g : Grid ℝ T) (l : Vec3 ℝ) : Prop :=
  Fp3 R l ∧ CellInterior g.cellX g.cellY g.cellZ g.numX g.numY g.numZ (relative t l)

variable {R} {t : Vec3 ℝ}

theorem Good.small {g : Grid ℝ T} (h : Geo R t g) {l : Vec3 ℝ} (hl : Good R t g l) :
    g.numX ≤ 2 ^ 53 ∧ g.numY ≤ 2 ^ 53 ∧ g.numZ ≤ 2 ^ 53 :=
  ⟨(well_bounds h.nx hl.2.1).2.1, (well_bounds h.ny hl.2.2.1).2.1, (well_bounds h.nz hl.2.2.2).2.1⟩

theorem Good.near {g : Grid ℝ T} (h : Geo R t g) {l : Vec3 ℝ} (hl : Good R t g l) : Near g (chunkIn t g l) :=
  ⟨(well_bounds h.nx hl.2.1).2.2.1, (well_bounds h.ny hl.2.2.1).2.2.1, (well_bounds h.nz hl.2.2.2).2.2.1⟩

theorem baseOf_inj {g : Grid ℝ T} (h : Geo R t g) {l : Vec3 ℝ} (hl : Good R t g l) {j k : Index} (hj : Near g j)
    (hk : Near g k) (e : baseOf R g j = baseOf R g k) : j = k := by
  obtain ⟨s1, s2, s3⟩ := hl.small h
  simp only [baseOf, Vec3.mk.injEq] at e
  cases j; cases k
  simp only [Index.mk.injEq]
  exact ⟨base_inj R h.cx h.nx s1 hj.1 hk.1 e.1, base_inj R h.cy h.ny s2 hj.2.1 hk.2.1 e.2.1,
    base_inj R h.cz h.nz s3 hj.2.2 hk.2.2 e.2.2⟩

theorem int64_near {n k : ℤ} (hn : 0 < n) (h : Near1 n k) : int64 k = .ok k := by
  have := abs_le.1 (near_abs hn h)
  unfold int64
  rw [if_pos (by omega)]

/-- The coordinates that the grid computes for a location. -/
noncomputable def frameOf (R : Rounding) (t l : Vec3 ℝ) : Vec3 ℝ :=
  ⟨R.rd (l.x - t.x), R.rd (l.y - t.y), R.rd (l.z - t.z)⟩

theorem frame {g : Grid ℝ T} (h : Geo R t g) {l : Vec3 ℝ} (hl : Fp3 R l) :
    VoxelRounded.apply R g.inverseOrigin l = frameOf R t l := by
  rw [h.inv, VoxelRounded.inverse_translation R h.fp, VoxelRounded.apply_translation R hl]
  simp only [frameOf, sub_eq_add_neg]

theorem region_eq {g : Grid ℝ T} (h : Geo R t g) {l : Vec3 ℝ} (hl : Good R t g l) :
    getContainingChunkRegion R g (frameOf R t l) = .ok (baseOf R g (chunkIn t g l)) := by
  obtain ⟨hn1, hn2, hn3⟩ := hl.near h
  have e1 := (axis R h.cx h.nx hl.2.1).1
  have e2 := (axis R h.cy h.ny hl.2.2.1).1
  have e3 := (axis R h.cz h.nz hl.2.2.2).1
  unfold getContainingChunkRegion
  rw [Out.assert_true h.init, h.sx, h.sy, h.sz]
  simp only [frameOf, Out.bind_ok]
  rw [e1, e2, e3]
  change Near1 g.numX (cell1 g.cellX l.x t.x / g.numX) at hn1
  change Near1 g.numY (cell1 g.cellY l.y t.y / g.numY) at hn2
  change Near1 g.numZ (cell1 g.cellZ l.z t.z / g.numZ) at hn3
  rw [int64_near h.nx hn1, int64_near h.ny hn2, int64_near h.nz hn3]
  rfl

/-- The position in the storage of a chunk of the cell of a location. -/
theorem cellPosition_eq {g : Grid ℝ T} (h : Geo R t g) {l : Vec3 ℝ} (hl : Good R t g l) {ch : Chunk ℝ T}
    (hc : CellChunk R g (chunkIn t g l) ch) :
    getCellPosition R ch (frameOf R t l) =
      .ok (some (rowMajor g.numY g.numZ (localOf g.numX g.numY g.numZ (cellIn t g l))).toNat) ∧
    (rowMajor g.numY g.numZ (localOf g.numX g.numY g.numZ (cellIn t g l))).toNat < ch.data.length := by
  obtain ⟨_, x1, x2, x3⟩ := axis R h.cx h.nx hl.2.1
  obtain ⟨_, y1, y2, y3⟩ := axis R h.cy h.ny hl.2.2.1
  obtain ⟨_, z1, z2, z3⟩ := axis R h.cz h.nz hl.2.2.2
  have hin := localOf_in h.nx h.ny h.nz (cellIn t g l)
  have hb := rowMajor_bounds hin
  obtain ⟨⟨i1, i2⟩, ⟨i3, i4⟩, ⟨i5, i6⟩⟩ := hin
  have hlen := hc.len
  refine ⟨?_, by omega⟩
  have hidx : getLocationDataIndex R ch (frameOf R t l) =
      .ok (rowMajor g.numY g.numZ (localOf g.numX g.numY g.numZ (cellIn t g l))) := by
    unfold getLocationDataIndex
    simp only [hc.base, baseOf, hc.cx, hc.cy, hc.cz, hc.sx, hc.sy, hc.sz, hc.nx, hc.ny, hc.nz, hc.s1,
      hc.s2, h.sx, h.sy, h.sz, chunkIn, chunkOf, cellIn, cellOf, relative, frameOf]
    simp only [cell1] at x1 x2 x3 y1 y2 y3 z1 z2 z3
    rw [if_neg (by simp only [not_or, not_lt]; exact ⟨x1, y1, z1⟩),
      if_neg (by simp only [not_or, not_lt]; exact ⟨x2, y2, z2⟩)]
    simp only [x3, y3, z3, Out.bind_ok]
    simp only [localOf, cellIn, cellOf, relative] at i1 i2 i3 i4 i5 i6
    rw [if_neg (by omega)]
    simp only [rowMajor, localOf]
    congr 1
    ring
  unfold getCellPosition
  rw [Out.assert_true hc.cell, hidx]
  simp only [Out.bind_ok]
  rw [if_pos hb.1, Out.assert_true (by omega)]
  rfl

theorem rep_none {g : Grid ℝ T} {k : Index} {o : Option (Chunk ℝ T)} (h : Rep R g k o .unset) :
    o = none := by
  cases o with
  | none => rfl
  | some ch => exact h.elim

theorem rep_whole {g : Grid ℝ T} {k : Index} {o : Option (Chunk ℝ T)} {v : T} (h : Rep R g k o (.whole v)) :
    ∃ ch, o = some ch ∧ ch.cellInit = false ∧ ch.chunkInit = true ∧ ch.data = [v] := by
  cases o with
  | none => exact h.elim
  | some ch => exact ⟨ch, rfl, h⟩

theorem rep_cells {g : Grid ℝ T} {k : Index} {o : Option (Chunk ℝ T)} {f : Index → T}
    (h : Rep R g k o (.cells f)) :
    ∃ ch, o = some ch ∧ CellChunk R g k ch ∧ ∀ c, chunkOf g.numX g.numY g.numZ c = k →
      ch.data[(rowMajor g.numY g.numZ (localOf g.numX g.numY g.numZ c)).toNat]? = some (f c) := by
  cases o with
  | none => exact h.elim
  | some ch => exact ⟨ch, rfl, h⟩

theorem holds_put {g : Grid ℝ T} {s : Contents T} (h : Holds R t g s) {l : Vec3 ℝ} (hl : Good R t g l) {k : Index}
    (hk : Near g k) {ch : Chunk ℝ T} {c : ChunkState T} (hr : Rep R g k (some ch) c) : Holds R t (putChunk g (baseOf R g k) ch) (s.put k c) := by
  refine ⟨⟨h.geo.init, h.geo.fp, h.geo.inv, h.geo.cx, h.geo.cy, h.geo.cz, h.geo.nx, h.geo.ny, h.geo.nz,
    h.geo.sx, h.geo.sy, h.geo.sz, h.geo.fits⟩, h.default, ?_⟩
  intro j hj0
  change Near g j at hj0
  have key : ∀ (o : Option (Chunk ℝ T)) (cs : ChunkState T), Rep R g j o cs →
      Rep R (putChunk g (baseOf R g k) ch) j o cs := by
    intro o cs hh
    cases o <;> cases cs <;> first | exact hh | skip
    exact ⟨⟨hh.1.base, hh.1.cell, hh.1.len, hh.1.cx, hh.1.cy, hh.1.cz, hh.1.sx, hh.1.sy, hh.1.sz,
      hh.1.nx, hh.1.ny, hh.1.nz, hh.1.s1, hh.1.s2⟩, hh.2⟩
  apply key
  show Rep R g j (if baseOf R g j = baseOf R g k then some ch else g.chunks (baseOf R g j))
    (if j = k then c else s.chunks j)
  by_cases hj : j = k
  · subst hj
    rw [if_pos rfl, if_pos rfl]
    exact hr
  · rw [if_neg hj, if_neg (fun e => hj (baseOf_inj h.geo hl hj0 hk e))]
    exact h.chunks j hj0

theorem holds_default {g : Grid ℝ T} {s : Contents T} (h : Holds R t g s) (v : T) :
    Holds R t { g with default := v } { s with default := v } := by
  refine ⟨⟨h.geo.init, h.geo.fp, h.geo.inv, h.geo.cx, h.geo.cy, h.geo.cz, h.geo.nx, h.geo.ny, h.geo.nz,
    h.geo.sx, h.geo.sy, h.geo.sz, h.geo.fits⟩, rfl, ?_⟩
  intro j hj0
  have hh := h.chunks j hj0
  show Rep R { g with default := v } j (g.chunks (baseOf R g j)) (s.chunks j)
  cases ho : g.chunks (baseOf R g j) <;> cases hs : s.chunks j <;> rw [ho, hs] at hh <;>
    first | exact hh | skip
  exact ⟨⟨hh.1.base, hh.1.cell, hh.1.len, hh.1.cx, hh.1.cy, hh.1.cz, hh.1.sx, hh.1.sy, hh.1.sz,
      hh.1.nx, hh.1.ny, hh.1.nz, hh.1.s1, hh.1.s2⟩, hh.2⟩

/-- Writing to one cell of a chunk of cells. -/
theorem rep_set {g : Grid ℝ T} (h : Geo R t g) {c0 : Index} {ch : Chunk ℝ T} {f : Index → T} (v : T)
    (hr : Rep R g (chunkOf g.numX g.numY g.numZ c0) (some ch) (.cells f)) :
    Rep R g (chunkOf g.numX g.numY g.numZ c0)
      (some { ch with data := ch.data.set (rowMajor g.numY g.numZ (localOf g.numX g.numY g.numZ c0)).toNat v })
      (.cells fun d => if d = c0 then v else f d) := by
  obtain ⟨hc, hv⟩ := hr
  refine ⟨⟨hc.base, hc.cell, by simpa using hc.len, hc.cx, hc.cy, hc.cz, hc.sx, hc.sy, hc.sz, hc.nx,
    hc.ny, hc.nz, hc.s1, hc.s2⟩, ?_⟩
  intro d hd
  have hin0 := localOf_in h.nx h.ny h.nz c0
  have hb0 := rowMajor_bounds hin0
  have hlen := hc.len
  by_cases hd0 : d = c0
  · subst hd0
    dsimp only
    rw [if_pos rfl]
    rw [List.getElem?_set_self (by omega)]
  · dsimp only
    rw [if_neg hd0]
    show (ch.data.set _ v)[_]? = _
    rw [List.getElem?_set_ne, hv d hd]
    intro he
    have hind := localOf_in h.nx h.ny h.nz d
    have hbd := rowMajor_bounds hind
    have := rowMajor_inj hind hin0 (by omega)
    exact hd0 (localOf_inj hd this)

theorem newCellChunk_rep {g : Grid ℝ T} (h : Geo R t g) (k : Index) (v : T) :
    ∃ ch, newCellChunk R (baseOf R g k) g.cellX g.cellY g.cellZ g.numX g.numY g.numZ v = .ok ch ∧
      Rep R g k (some ch) (.cells fun _ => v) := by
  have hyz : 0 < g.numY * g.numZ := Int.mul_pos h.ny h.nz
  have hle : g.numY * g.numZ ≤ g.numX * g.numY * g.numZ := by
    rw [Int.mul_assoc]
    have hx := h.nx
    have := Int.mul_le_mul_of_nonneg_right (by omega : 1 ≤ g.numX) (by omega : 0 ≤ g.numY * g.numZ)
    omega
  have hf := h.fits
  refine ⟨_, by
    unfold newCellChunk safetyCheckCells
    rw [if_neg (by simp only [not_or, not_le]; exact ⟨h.cx, h.cy, h.cz, h.nx, h.ny, h.nz⟩)]
    simp only [Out.bind_ok]
    unfold int64
    rw [if_pos (show (-2 ^ 63 ≤ g.numY * g.numZ ∧ g.numY * g.numZ < 2 ^ 63) by omega),
        if_pos (show (-2 ^ 63 ≤ g.numX * g.numY * g.numZ ∧ g.numX * g.numY * g.numZ < 2 ^ 63) by omega)]
    rfl, ?_⟩
  refine ⟨⟨rfl, rfl, ?_, abs_of_pos h.cx, abs_of_pos h.cy, abs_of_pos h.cz, ?_, ?_, ?_, rfl, rfl, rfl, rfl,
    rfl⟩, ?_⟩
  · simp only [List.length_replicate]; omega
  · simp only [abs_of_pos h.cx, h.sx, size]
  · simp only [abs_of_pos h.cy, h.sy, size]
  · simp only [abs_of_pos h.cz, h.sz, size]
  · intro c _
    have hb := rowMajor_bounds (localOf_in h.nx h.ny h.nz c)
    simp only [List.getElem?_replicate]
    rw [if_pos (by omega)]

theorem newWholeChunk_rep {g : Grid ℝ T} (h : Geo R t g) {l : Vec3 ℝ} (hl : Good R t g l) (k : Index) (v : T) :
    ∃ ch, newWholeChunk (baseOf R g k) g.chunkX g.chunkY g.chunkZ v = .ok ch ∧
      Rep R g k (some ch) (.whole v) := by
  obtain ⟨s1, s2, s3⟩ := hl.small h
  refine ⟨_, by
    unfold newWholeChunk
    rw [if_neg (by
      simp only [not_or, not_le, h.sx, h.sy, h.sz]
      exact ⟨(size_err R h.cx h.nx s1).2, (size_err R h.cy h.ny s2).2, (size_err R h.cz h.nz s3).2⟩)],
    rfl, rfl, rfl⟩

/-- Setting a cell in a fresh chunk of cells. -/
theorem setInNewChunk_rep {g : Grid ℝ T} {s : Contents T} (h : Holds R t g s) {p : Vec3 ℝ}
    (hp : Good R t g p) (i v : T) :
    ∃ g', setInNewChunk R g (baseOf R g (chunkIn t g p)) (frameOf R t p) i v = .ok (.setCell, g') ∧
      Holds R t g' (s.put (chunkIn t g p) (.cells fun d => if d = cellIn t g p then v else i)) ∧
      g'.origin = g.origin ∧ (g'.cellX = g.cellX ∧ g'.cellY = g.cellY ∧ g'.cellZ = g.cellZ) ∧
      (g'.numX = g.numX ∧ g'.numY = g.numY ∧ g'.numZ = g.numZ) := by
  obtain ⟨ch, hch, hrep⟩ := newCellChunk_rep h.geo (chunkIn t g p) i
  have hpos := (cellPosition_eq h.geo hp hrep.1).1
  refine ⟨_, by
    unfold setInNewChunk chunkSetCell
    rw [hch]
    simp only [Out.bind_ok, hpos, if_true], holds_put h hp (hp.near h.geo) (rep_set h.geo v hrep), rfl, ⟨rfl, rfl, rfl⟩,
    rfl, rfl, rfl⟩

theorem step_refines {g : Grid ℝ T} {s : Contents T} (h : Holds R t g s) (op : Op ℝ T)
    (hr : ∀ p, op.location = some p → Good R t g p) :
    ∃ g', step R g op = .ok ((specStep g.cellX g.cellY g.cellZ g.numX g.numY g.numZ s (inFrame t op)).1, g') ∧
      Holds R t g' (specStep g.cellX g.cellY g.cellZ g.numX g.numY g.numZ s (inFrame t op)).2 ∧
      g'.origin = g.origin ∧ (g'.cellX = g.cellX ∧ g'.cellY = g.cellY ∧ g'.cellZ = g.cellZ) ∧
      (g'.numX = g.numX ∧ g'.numY = g.numY ∧ g'.numZ = g.numZ) := by
  have hread : ∀ p, Good R t g p → ∃ r,
      getRef R g p = .ok (r, s.found (chunkIn t g p)) ∧
      readRef g r = .ok (s.value (chunkIn t g p) (cellIn t g p)) ∧
      ∀ v, ∃ g', writeRef g v r = .ok g' ∧
        Holds R t g' (match s.chunks (chunkIn t g p) with
          | .unset => { s with default := v }
          | .whole _ => s.put (chunkIn t g p) (.whole v)
          | .cells f => s.put (chunkIn t g p) (.cells fun d => if d = cellIn t g p then v else f d)) ∧
        g'.origin = g.origin ∧ (g'.cellX = g.cellX ∧ g'.cellY = g.cellY ∧ g'.cellZ = g.cellZ) ∧
        (g'.numX = g.numX ∧ g'.numY = g.numY ∧ g'.numZ = g.numZ) := by
    intro p hp
    unfold getRef
    simp only [Out.assert_true h.geo.init, Out.bind_ok, frame h.geo hp.1, region_eq h.geo hp]
    have hk := h.chunks (chunkIn t g p) (hp.near h.geo)
    unfold Contents.found Contents.value
    cases hs : s.chunks (chunkIn t g p) with
    | unset =>
      rw [hs] at hk
      rw [rep_none hk]
      refine ⟨.default, rfl, ?_, ?_⟩
      · simp only [readRef, h.default]
      · intro v
        exact ⟨_, rfl, holds_default h v, rfl, ⟨rfl, rfl, rfl⟩, rfl, rfl, rfl⟩
    | whole w =>
      rw [hs] at hk
      obtain ⟨ch, hch, c1, c2, c3⟩ := rep_whole hk
      refine ⟨.elem (baseOf R g (chunkIn t g p)) 0, ?_, ?_, ?_⟩
      · simp only [hch, c1, Bool.false_eq_true, if_false, c2, if_true, getChunkValue,
          Out.assert_true c2, c3]
        simp
      · simp [readRef, hch, c3]
      · intro v
        refine ⟨putChunk g (baseOf R g (chunkIn t g p)) { ch with data := [v] }, by
          simp only [writeRef, hch, c3, List.length_singleton]
          rw [if_pos (by omega)]
          rfl, ?_, rfl, ⟨rfl, rfl, rfl⟩, rfl, rfl, rfl⟩
        exact holds_put h hp (hp.near h.geo) (c := .whole v) ⟨c1, c2, rfl⟩
    | cells f =>
      rw [hs] at hk
      obtain ⟨ch, hch, hc, hv⟩ := rep_cells hk
      obtain ⟨hpos, hlt⟩ := cellPosition_eq h.geo hp hc
      refine ⟨.elem (baseOf R g (chunkIn t g p))
        (rowMajor g.numY g.numZ (localOf g.numX g.numY g.numZ (cellIn t g p))).toNat, ?_, ?_, ?_⟩
      rotate_left 2
      · intro v
        refine ⟨putChunk g (baseOf R g (chunkIn t g p)) { ch with
          data := (ch.data.set
            (rowMajor g.numY g.numZ (localOf g.numX g.numY g.numZ (cellIn t g p))).toNat v) }, by
          simp only [writeRef, hch]
          rw [if_pos hlt], ?_, rfl, ⟨rfl, rfl, rfl⟩, rfl, rfl, rfl⟩
        rw [hch] at hk
        exact holds_put h hp (hp.near h.geo) (rep_set h.geo v hk)
      · simp only [hch, hc.cell, if_true, hpos, Out.bind_ok]
      · simp only [readRef, hch, hv _ rfl]
  cases op with
  | get p =>
    obtain ⟨r, h1, h2, _⟩ := hread p (hr p rfl)
    refine ⟨g, ?_, h, rfl, ⟨rfl, rfl, rfl⟩, rfl, rfl, rfl⟩
    simp only [step, getImmutable, h1, h2, Out.bind_ok]
    rfl
  | mutate p v =>
    obtain ⟨r, h1, h2, h3⟩ := hread p (hr p rfl)
    obtain ⟨g', h4, h5, h6⟩ := h3 v
    refine ⟨g', ?_, h5, h6⟩
    simp only [step, h1, h2, h4, Out.bind_ok]
    rfl
  | setCell p v =>
    have hp := hr p rfl
    simp only [step, setCellValue, Out.assert_true h.geo.init, Out.bind_ok, frame h.geo hp.1,
      region_eq h.geo hp]
    have hk := h.chunks (chunkIn t g p) (hp.near h.geo)
    have hspec : specStep g.cellX g.cellY g.cellZ g.numX g.numY g.numZ s (inFrame t (.setCell p v)) =
      (.wrote .setCell, s.put (chunkIn t g p) (.cells fun d => if d = cellIn t g p then v else
        s.value (chunkIn t g p) d)) := rfl
    rw [hspec]
    unfold Contents.value
    cases hs : s.chunks (chunkIn t g p) with
    | unset =>
      rw [hs] at hk
      rw [rep_none hk, ← h.default]
      obtain ⟨g', h1, h2⟩ := setInNewChunk_rep h hp g.default v
      refine ⟨g', ?_, h2⟩
      simp only [h1, Out.bind_ok]
    | whole w =>
      rw [hs] at hk
      obtain ⟨ch, hch, c1, c2, c3⟩ := rep_whole hk
      obtain ⟨g', h1, h2⟩ := setInNewChunk_rep h hp w v
      refine ⟨g', ?_, h2⟩
      have hv : getChunkValue ch = .ok w := by
        simp only [getChunkValue, Out.assert_true c2, c3]
        simp
      simp only [hch, c1, Bool.false_eq_true, if_false, c2, if_true, hv, Out.bind_ok, h1]
    | cells f =>
      rw [hs] at hk
      obtain ⟨ch, hch, hc, hv⟩ := rep_cells hk
      obtain ⟨hpos, hlt⟩ := cellPosition_eq h.geo hp hc
      rw [hch] at hk
      refine ⟨_, ?_, holds_put h hp (hp.near h.geo) (rep_set h.geo v hk), rfl, ⟨rfl, rfl, rfl⟩, rfl, rfl, rfl⟩
      simp only [hch, hc.cell, if_true, chunkSetCell, hpos, Out.bind_ok]
  | setChunk p v =>
    have hp := hr p rfl
    simp only [step, setChunkValue, Out.assert_true h.geo.init, Out.bind_ok, frame h.geo hp.1,
      region_eq h.geo hp]
    have hk := h.chunks (chunkIn t g p) (hp.near h.geo)
    have hspec : specStep g.cellX g.cellY g.cellZ g.numX g.numY g.numZ s (inFrame t (.setChunk p v)) =
      (.wrote .setChunk, s.put (chunkIn t g p) (.whole v)) := rfl
    rw [hspec]
    obtain ⟨nch, hn, hrep⟩ := newWholeChunk_rep h.geo hp (chunkIn t g p) v
    cases hs : s.chunks (chunkIn t g p) with
    | unset =>
      rw [hs] at hk
      rw [rep_none hk]
      refine ⟨_, ?_, holds_put h hp (hp.near h.geo) hrep, rfl, ⟨rfl, rfl, rfl⟩, rfl, rfl, rfl⟩
      simp only [hn, Out.bind_ok]
    | whole w =>
      rw [hs] at hk
      obtain ⟨ch, hch, c1, c2, c3⟩ := rep_whole hk
      refine ⟨putChunk g (baseOf R g (chunkIn t g p)) { ch with data := [v] }, ?_,
        holds_put h hp (hp.near h.geo) (c := .whole v) ⟨c1, c2, rfl⟩, rfl, ⟨rfl, rfl, rfl⟩, rfl, rfl, rfl⟩
      simp only [hch, c1, Bool.false_eq_true, if_false, c2, if_true, chunkSetValue, Out.assert_true c2, c3,
        Out.bind_ok]
      simp
    | cells f =>
      rw [hs] at hk
      obtain ⟨ch, hch, hc, hv⟩ := rep_cells hk
      refine ⟨_, ?_, holds_put h hp (hp.near h.geo) hrep, rfl, ⟨rfl, rfl, rfl⟩, rfl, rfl, rfl⟩
      simp only [hch, hc.cell, if_true, hn, Out.bind_ok]
  | setDefault v =>
    exact ⟨_, rfl, holds_default h v, rfl, ⟨rfl, rfl, rfl⟩, rfl, rfl, rfl⟩

theorem run_refines (ops : List (Op ℝ T)) : ∀ {g : Grid ℝ T} {s : Contents T}, Holds R t g s →
    (∀ op ∈ ops, ∀ p, op.location = some p → Good R t g p) →
    ∃ g', run R g ops = .ok ((specRun g.cellX g.cellY g.cellZ g.numX g.numY g.numZ s (ops.map (inFrame t))).1, g') ∧
      Holds R t g' (specRun g.cellX g.cellY g.cellZ g.numX g.numY g.numZ s (ops.map (inFrame t))).2 ∧
      g'.origin = g.origin ∧ (g'.cellX = g.cellX ∧ g'.cellY = g.cellY ∧ g'.cellZ = g.cellZ) ∧
      (g'.numX = g.numX ∧ g'.numY = g.numY ∧ g'.numZ = g.numZ) := by
  induction ops with
  | nil => intro g s h _; exact ⟨g, rfl, h, rfl, ⟨rfl, rfl, rfl⟩, rfl, rfl, rfl⟩
  | cons op ops ih =>
    intro g s h hr
    obtain ⟨g1, e1, h1, o1, ⟨a1, a2, a3⟩, b1, b2, b3⟩ :=
      step_refines h op (hr op (by simp))
    have hr' : ∀ op ∈ ops, ∀ p, op.location = some p → Good R t g1 p := by
      intro op hop p hp
      have := hr op (by simp [hop]) p hp
      unfold Good at this ⊢
      rwa [a1, a2, a3, b1, b2, b3]
    obtain ⟨g2, e2, h2, o2, ⟨c1, c2, c3⟩, d1, d2, d3⟩ := ih h1 hr'
    rw [a1, a2, a3, b1, b2, b3] at e2 h2
    refine ⟨g2, ?_, h2, o2.trans o1, ⟨c1.trans a1, c2.trans a2, c3.trans a3⟩, d1.trans b1, d2.trans b2,
      d3.trans b3⟩
    simp only [run, e1, Out.bind_ok, e2, specRun, List.map_cons]

theorem initializeGrid_holds {cx cy cz : ℝ} {nx ny nz : Int} {d : T} {g : Grid ℝ T}
    (ht : Fp3 R t) (hf : nx * ny * nz < 2 ^ 63)
    (h : initializeGrid R (Iso3.translation t) cx cy cz nx ny nz d = .ok g) :
    Holds R t g ⟨d, fun _ => .unset⟩ ∧
      (g.cellX = cx ∧ g.cellY = cy ∧ g.cellZ = cz) ∧ (g.numX = nx ∧ g.numY = ny ∧ g.numZ = nz) := by
  unfold initializeGrid safetyCheckCells at h
  split at h
  · simp at h
  next hc =>
    simp only [not_or, not_le] at hc
    simp only [Out.bind_ok, Out.bind_eq_ok, int64_eq_ok, Out.ok.injEq] at h
    obtain ⟨st, _, rfl⟩ := h
    obtain ⟨h1, h2, h3, h4, h5, h6⟩ := hc
    have e1 := abs_of_pos h1
    have e2 := abs_of_pos h2
    have e3 := abs_of_pos h3
    refine ⟨⟨⟨rfl, ht, rfl, ?_, ?_, ?_, h4, h5, h6, rfl, rfl, rfl, hf⟩, rfl, ?_⟩, ⟨e1, e2, e3⟩, rfl,
      rfl, rfl⟩
    · dsimp only; rwa [e1]
    · dsimp only; rwa [e2]
    · dsimp only; rwa [e3]
    · intro k _; exact trivial

end

end Verif.HashedGridRounded
