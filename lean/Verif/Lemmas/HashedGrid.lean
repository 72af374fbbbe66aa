import Mathlib.Tactic.Ring
import Verif.Spec.HashedGrid
import Verif.Lemmas.VoxelLocation

/-! # Hashed voxel grids: refinement to the abstract grid -/
namespace Verif.HashedGrid
open Verif Verif.Voxel

/-- The index of a cell inside its chunk. -/
def localOf (nx ny nz : Int) (c : Index) : Index := ⟨c.x % nx, c.y % ny, c.z % nz⟩

theorem localOf_in {nx ny nz : Int} (hx : 0 < nx) (hy : 0 < ny) (hz : 0 < nz) (c : Index) :
    InGrid nx ny nz (localOf nx ny nz c) :=
  ⟨⟨Int.emod_nonneg _ (by omega), Int.emod_lt_of_pos _ hx⟩,
   ⟨Int.emod_nonneg _ (by omega), Int.emod_lt_of_pos _ hy⟩,
   ⟨Int.emod_nonneg _ (by omega), Int.emod_lt_of_pos _ hz⟩⟩

theorem localOf_inj {nx ny nz : Int} {c d : Index} (h : chunkOf nx ny nz c = chunkOf nx ny nz d)
    (hl : localOf nx ny nz c = localOf nx ny nz d) : c = d := by
  simp only [chunkOf, localOf, Index.mk.injEq] at h hl
  have e : ∀ a b n : Int, a / n = b / n → a % n = b % n → a = b := by
    intro a b n h1 h2
    rw [← Int.mul_ediv_add_emod a n, ← Int.mul_ediv_add_emod b n, h1, h2]
  cases c; cases d
  simp only [Index.mk.injEq]
  exact ⟨e _ _ _ h.1 hl.1, e _ _ _ h.2.1 hl.2.1, e _ _ _ h.2.2 hl.2.2⟩

set_option linter.unusedSectionVars false

section
variable {K T : Type} [Field K] [LinearOrder K] [IsStrictOrderedRing K] [FloorRing K]

/-- chunk numbers along one axis -/
theorem axis_chunk {p c : K} {n : Int} (hn : 0 < n) : ⌊p / (c * n)⌋ = ⌊p / c⌋ / n := by
  rw [← div_div]
  exact Int.floor_div_cast_of_nonneg hn.le _

/-- the position inside the chunk along one axis -/
theorem axis_local {p c : K} (hc : 0 < c) {n : Int} (hn : 0 < n) (hn' : n < 2 ^ 63) :
    0 ≤ p - ((⌊p / c⌋ / n : Int) : K) * (c * n) ∧
    p - ((⌊p / c⌋ / n : Int) : K) * (c * n) ≤ c * n ∧
    truncate ((p - ((⌊p / c⌋ / n : Int) : K) * (c * n)) / c) = .ok (⌊p / c⌋ % n) := by
  have hnK : (0 : K) < n := by exact_mod_cast hn
  have hcn : 0 < c * n := mul_pos hc hnK
  have e := axis_chunk (p := p) (c := c) hn
  have f1 := Int.floor_le (p / (c * n))
  have f2 := Int.lt_floor_add_one (p / (c * n))
  rw [e] at f1 f2
  rw [le_div_iff₀ hcn] at f1
  rw [div_lt_iff₀ hcn] at f2
  have h0 : 0 ≤ p - ((⌊p / c⌋ / n : Int) : K) * (c * n) := by linarith
  refine ⟨h0, by nlinarith, ?_⟩
  rw [truncate_eq]
  have ht : trunc ((p - ((⌊p / c⌋ / n : Int) : K) * (c * n)) / c) = ⌊p / c⌋ % n := by
    unfold trunc
    rw [if_pos (div_nonneg h0 hc.le)]
    have e1 : (p - ((⌊p / c⌋ / n : Int) : K) * (c * n)) / c = p / c - ((n * (⌊p / c⌋ / n) : Int) : K) := by
      push_cast
      field_simp
    rw [e1, Int.floor_sub_intCast]
    have := Int.mul_ediv_add_emod ⌊p / c⌋ n
    omega
  rw [ht]
  have h1 := Int.emod_nonneg ⌊p / c⌋ (show n ≠ 0 by omega)
  have h2 := Int.emod_lt_of_pos ⌊p / c⌋ hn
  unfold int64
  rw [if_pos (by omega)]

/-- The base of a chunk. -/
def baseOf (g : Grid K T) (k : Index) : Vec3 K := ⟨(k.x : K) * g.chunkX, (k.y : K) * g.chunkY, (k.z : K) * g.chunkZ⟩

/-- A chunk of cells of the grid `g`. -/
structure CellChunk (g : Grid K T) (k : Index) (ch : Chunk K T) : Prop where
  base : ch.base = baseOf g k
  cell : ch.cellInit = true
  len : (ch.data.length : Int) = g.numX * g.numY * g.numZ
  cx : ch.cellX = g.cellX
  cy : ch.cellY = g.cellY
  cz : ch.cellZ = g.cellZ
  sx : ch.chunkX = g.chunkX
  sy : ch.chunkY = g.chunkY
  sz : ch.chunkZ = g.chunkZ
  nx : ch.numX = g.numX
  ny : ch.numY = g.numY
  nz : ch.numZ = g.numZ
  s1 : ch.stride1 = g.numY * g.numZ
  s2 : ch.stride2 = g.numZ

/-- A stored chunk represents an abstract chunk. -/
def Rep (g : Grid K T) (k : Index) : Option (Chunk K T) → ChunkState T → Prop
  | none, .unset => True
  | some ch, .whole v => ch.cellInit = false ∧ ch.chunkInit = true ∧ ch.data = [v]
  | some ch, .cells f => CellChunk g k ch ∧ ∀ c, chunkOf g.numX g.numY g.numZ c = k →
      ch.data[(rowMajor g.numY g.numZ (localOf g.numX g.numY g.numZ c)).toNat]? = some (f c)
  | _, _ => False

/-- The geometry of a grid. -/
structure Geo (g : Grid K T) : Prop where
  init : g.initialized = true
  iso : IsIsometry g.origin
  inv : g.inverseOrigin = g.origin.inverse
  cx : 0 < g.cellX
  cy : 0 < g.cellY
  cz : 0 < g.cellZ
  nx : 0 < g.numX
  ny : 0 < g.numY
  nz : 0 < g.numZ
  sx : g.chunkX = g.cellX * g.numX
  sy : g.chunkY = g.cellY * g.numY
  sz : g.chunkZ = g.cellZ * g.numZ
  fits : g.numX * g.numY * g.numZ < 2 ^ 63

/-- The grid represents the abstract grid. -/
structure Holds (g : Grid K T) (s : Contents T) : Prop where
  geo : Geo g
  default : g.default = s.default
  chunks : ∀ k, Rep g k (g.chunks (baseOf g k)) (s.chunks k)

/-- the cell of a point -/
def cellIn (g : Grid K T) (p : Vec3 K) : Index := cellOf g.cellX g.cellY g.cellZ p

/-- the chunk of a point -/
def chunkIn (g : Grid K T) (p : Vec3 K) : Index := chunkOf g.numX g.numY g.numZ (cellIn g p)

theorem Geo.less {g : Grid K T} (h : Geo g) : g.numX < 2 ^ 63 ∧ g.numY < 2 ^ 63 ∧ g.numZ < 2 ^ 63 := by
  have h1 := h.nx
  have h2 := h.ny
  have h3 := h.nz
  have f := h.fits
  have hyz : 0 < g.numY * g.numZ := by positivity
  have hxy : 0 < g.numX * g.numY := by positivity
  have hxz : 0 < g.numX * g.numZ := by positivity
  have f' : g.numX * (g.numY * g.numZ) < 2 ^ 63 := by linarith
  exact ⟨by nlinarith, by nlinarith, by nlinarith⟩

theorem baseOf_inj {g : Grid K T} (h : Geo g) {j k : Index} (e : baseOf g j = baseOf g k) : j = k := by
  have pos : ∀ {c : K} {n : Int}, 0 < c → 0 < n → c * (n : K) ≠ 0 := by
    intro c n hc hn
    have : (0 : K) < n := by exact_mod_cast hn
    positivity
  simp only [baseOf, Vec3.mk.injEq, h.sx, h.sy, h.sz] at e
  have e1 := mul_right_cancel₀ (pos h.cx h.nx) e.1
  have e2 := mul_right_cancel₀ (pos h.cy h.ny) e.2.1
  have e3 := mul_right_cancel₀ (pos h.cz h.nz) e.2.2
  cases j; cases k
  simp only [Index.mk.injEq]
  exact ⟨by exact_mod_cast e1, by exact_mod_cast e2, by exact_mod_cast e3⟩

theorem Geo.pos {g : Grid K T} (h : Geo g) : 0 < g.chunkX ∧ 0 < g.chunkY ∧ 0 < g.chunkZ := by
  have pos : ∀ {c : K} {n : Int}, 0 < c → 0 < n → 0 < c * (n : K) := by
    intro c n hc hn
    have : (0 : K) < n := by exact_mod_cast hn
    positivity
  rw [h.sx, h.sy, h.sz]
  exact ⟨pos h.cx h.nx, pos h.cy h.ny, pos h.cz h.nz⟩

theorem chunkNumber_eq {p s : K} (hs : 0 < s) : chunkNumber p s = int64 ⌊p / s⌋ := by
  unfold chunkNumber; rw [if_neg hs.ne']

theorem region_eq {g : Grid K T} (h : Geo g) {p : Vec3 K} (hr : Representable (chunkIn g p)) :
    getContainingChunkRegion g p = .ok (baseOf g (chunkIn g p)) := by
  obtain ⟨r1, r2, r3⟩ := hr
  unfold getContainingChunkRegion
  rw [Out.assert_true h.init, chunkNumber_eq h.pos.1, chunkNumber_eq h.pos.2.1, chunkNumber_eq h.pos.2.2,
    h.sx, h.sy, h.sz, axis_chunk h.nx, axis_chunk h.ny, axis_chunk h.nz]
  unfold int64
  simp only [chunkIn, chunkOf, cellIn, cellOf] at r1 r2 r3
  simp only [if_pos r1, if_pos r2, if_pos r3, Out.bind_ok]
  simp only [baseOf, chunkIn, chunkOf, cellIn, cellOf, h.sx, h.sy, h.sz]

theorem region_ub {g : Grid K T} (h : Geo g) {p : Vec3 K} (hr : ¬ Representable (chunkIn g p)) :
    getContainingChunkRegion g p = .ub := by
  unfold getContainingChunkRegion
  rw [Out.assert_true h.init, chunkNumber_eq h.pos.1, chunkNumber_eq h.pos.2.1, chunkNumber_eq h.pos.2.2,
    h.sx, h.sy, h.sz, axis_chunk h.nx, axis_chunk h.ny, axis_chunk h.nz]
  unfold int64
  unfold Representable chunkIn chunkOf cellIn cellOf at hr
  simp only [Out.bind_ok]
  by_cases r1 : -2 ^ 63 ≤ ⌊p.x / g.cellX⌋ / g.numX ∧ ⌊p.x / g.cellX⌋ / g.numX < 2 ^ 63
  · by_cases r2 : -2 ^ 63 ≤ ⌊p.y / g.cellY⌋ / g.numY ∧ ⌊p.y / g.cellY⌋ / g.numY < 2 ^ 63
    · have r3 : ¬ (-2 ^ 63 ≤ ⌊p.z / g.cellZ⌋ / g.numZ ∧ ⌊p.z / g.cellZ⌋ / g.numZ < 2 ^ 63) :=
        fun r3 => hr ⟨r1, r2, r3⟩
      simp only [if_pos r1, if_pos r2, if_neg r3, Out.bind_ok, Out.bind_ub]
    · simp only [if_pos r1, if_neg r2, Out.bind_ok, Out.bind_ub]
  · simp only [if_neg r1, Out.bind_ub]

/-- The position in the storage of a chunk of the cell of a point. -/
theorem cellPosition_eq {g : Grid K T} (h : Geo g) {p : Vec3 K} {ch : Chunk K T}
    (hc : CellChunk g (chunkIn g p) ch) :
    getCellPosition ch p =
      .ok (some (rowMajor g.numY g.numZ (localOf g.numX g.numY g.numZ (cellIn g p))).toNat) ∧
    (rowMajor g.numY g.numZ (localOf g.numX g.numY g.numZ (cellIn g p))).toNat < ch.data.length := by
  obtain ⟨l1, l2, l3⟩ := h.less
  obtain ⟨x1, x2, x3⟩ := axis_local (p := p.x) h.cx h.nx l1
  obtain ⟨y1, y2, y3⟩ := axis_local (p := p.y) h.cy h.ny l2
  obtain ⟨z1, z2, z3⟩ := axis_local (p := p.z) h.cz h.nz l3
  have hin := localOf_in h.nx h.ny h.nz (cellIn g p)
  have hb := rowMajor_bounds hin
  obtain ⟨⟨i1, i2⟩, ⟨i3, i4⟩, ⟨i5, i6⟩⟩ := hin
  have hl := hc.len
  refine ⟨?_, by omega⟩
  have hidx : getLocationDataIndex ch p =
      .ok (rowMajor g.numY g.numZ (localOf g.numX g.numY g.numZ (cellIn g p))) := by
    unfold getLocationDataIndex
    simp only [hc.base, baseOf, hc.cx, hc.cy, hc.cz, hc.sx, hc.sy, hc.sz, hc.nx, hc.ny, hc.nz, hc.s1,
      hc.s2, h.sx, h.sy, h.sz, chunkIn, chunkOf, cellIn, cellOf]
    rw [if_neg (by simp only [not_or, not_lt]; exact ⟨x1, y1, z1⟩),
      if_neg (by simp only [not_or, not_lt]; exact ⟨x2, y2, z2⟩)]
    simp only [x3, y3, z3, Out.bind_ok]
    simp only [localOf, cellIn, cellOf] at i1 i2 i3 i4 i5 i6
    rw [if_neg (by omega)]
    simp only [rowMajor, localOf]
    congr 1
    ring
  unfold getCellPosition
  rw [Out.assert_true hc.cell, hidx]
  simp only [Out.bind_ok]
  rw [if_pos hb.1, Out.assert_true (by omega)]
  rfl

theorem frame {g : Grid K T} (h : Geo g) (p : Vec3 K) :
    g.inverseOrigin.apply (atFrame g.origin p) = p := by
  rw [h.inv, inverse_apply h.iso]

theorem rep_none {g : Grid K T} {k : Index} {o : Option (Chunk K T)} (h : Rep g k o .unset) :
    o = none := by
  cases o with
  | none => rfl
  | some ch => exact h.elim

theorem rep_whole {g : Grid K T} {k : Index} {o : Option (Chunk K T)} {v : T} (h : Rep g k o (.whole v)) :
    ∃ ch, o = some ch ∧ ch.cellInit = false ∧ ch.chunkInit = true ∧ ch.data = [v] := by
  cases o with
  | none => exact h.elim
  | some ch => exact ⟨ch, rfl, h⟩

theorem rep_cells {g : Grid K T} {k : Index} {o : Option (Chunk K T)} {f : Index → T}
    (h : Rep g k o (.cells f)) :
    ∃ ch, o = some ch ∧ CellChunk g k ch ∧ ∀ c, chunkOf g.numX g.numY g.numZ c = k →
      ch.data[(rowMajor g.numY g.numZ (localOf g.numX g.numY g.numZ c)).toNat]? = some (f c) := by
  cases o with
  | none => exact h.elim
  | some ch => exact ⟨ch, rfl, h⟩

theorem holds_put {g : Grid K T} {s : Contents T} (h : Holds g s) {k : Index} {ch : Chunk K T}
    {c : ChunkState T} (hr : Rep g k (some ch) c) : Holds (putChunk g (baseOf g k) ch) (s.put k c) := by
  refine ⟨⟨h.geo.init, h.geo.iso, h.geo.inv, h.geo.cx, h.geo.cy, h.geo.cz, h.geo.nx, h.geo.ny, h.geo.nz,
    h.geo.sx, h.geo.sy, h.geo.sz, h.geo.fits⟩, h.default, ?_⟩
  intro j
  have key : ∀ (o : Option (Chunk K T)) (cs : ChunkState T), Rep g j o cs →
      Rep (putChunk g (baseOf g k) ch) j o cs := by
    intro o cs hh
    cases o <;> cases cs <;> first | exact hh | skip
    exact ⟨⟨hh.1.base, hh.1.cell, hh.1.len, hh.1.cx, hh.1.cy, hh.1.cz, hh.1.sx, hh.1.sy, hh.1.sz,
      hh.1.nx, hh.1.ny, hh.1.nz, hh.1.s1, hh.1.s2⟩, hh.2⟩
  apply key
  show Rep g j (if baseOf g j = baseOf g k then some ch else g.chunks (baseOf g j))
    (if j = k then c else s.chunks j)
  by_cases hj : j = k
  · subst hj
    rw [if_pos rfl, if_pos rfl]
    exact hr
  · rw [if_neg hj, if_neg (fun e => hj (baseOf_inj h.geo e))]
    exact h.chunks j

theorem holds_default {g : Grid K T} {s : Contents T} (h : Holds g s) (v : T) :
    Holds { g with default := v } { s with default := v } := by
  refine ⟨⟨h.geo.init, h.geo.iso, h.geo.inv, h.geo.cx, h.geo.cy, h.geo.cz, h.geo.nx, h.geo.ny, h.geo.nz,
    h.geo.sx, h.geo.sy, h.geo.sz, h.geo.fits⟩, rfl, ?_⟩
  intro j
  have hh := h.chunks j
  show Rep { g with default := v } j (g.chunks (baseOf g j)) (s.chunks j)
  cases ho : g.chunks (baseOf g j) <;> cases hs : s.chunks j <;> rw [ho, hs] at hh <;>
    first | exact hh | skip
  exact ⟨⟨hh.1.base, hh.1.cell, hh.1.len, hh.1.cx, hh.1.cy, hh.1.cz, hh.1.sx, hh.1.sy, hh.1.sz,
      hh.1.nx, hh.1.ny, hh.1.nz, hh.1.s1, hh.1.s2⟩, hh.2⟩

/-- Writing to one cell of a chunk of cells. -/
theorem rep_set {g : Grid K T} (h : Geo g) {c0 : Index} {ch : Chunk K T} {f : Index → T} (v : T)
    (hr : Rep g (chunkOf g.numX g.numY g.numZ c0) (some ch) (.cells f)) :
    Rep g (chunkOf g.numX g.numY g.numZ c0)
      (some { ch with data := ch.data.set (rowMajor g.numY g.numZ (localOf g.numX g.numY g.numZ c0)).toNat v })
      (.cells fun d => if d = c0 then v else f d) := by
  obtain ⟨hc, hv⟩ := hr
  refine ⟨⟨hc.base, hc.cell, by simpa using hc.len, hc.cx, hc.cy, hc.cz, hc.sx, hc.sy, hc.sz, hc.nx,
    hc.ny, hc.nz, hc.s1, hc.s2⟩, ?_⟩
  intro d hd
  have hin0 := localOf_in h.nx h.ny h.nz c0
  have hb0 := rowMajor_bounds hin0
  have hlen := hc.len
  by_cases hd0 : d = c0
  · subst hd0
    dsimp only
    rw [if_pos rfl]
    rw [List.getElem?_set_self (by omega)]
  · dsimp only
    rw [if_neg hd0]
    show (ch.data.set _ v)[_]? = _
    rw [List.getElem?_set_ne, hv d hd]
    intro he
    have hind := localOf_in h.nx h.ny h.nz d
    have hbd := rowMajor_bounds hind
    have := rowMajor_inj hind hin0 (by omega)
    exact hd0 (localOf_inj hd this)

theorem newCellChunk_rep {g : Grid K T} (h : Geo g) (k : Index) (v : T) :
    ∃ ch, newCellChunk (baseOf g k) g.cellX g.cellY g.cellZ g.numX g.numY g.numZ v = .ok ch ∧
      Rep g k (some ch) (.cells fun _ => v) := by
  have hyz : 0 < g.numY * g.numZ := Int.mul_pos h.ny h.nz
  have hle : g.numY * g.numZ ≤ g.numX * g.numY * g.numZ := by
    rw [Int.mul_assoc]
    have hx := h.nx
    have := Int.mul_le_mul_of_nonneg_right (by omega : 1 ≤ g.numX) (by omega : 0 ≤ g.numY * g.numZ)
    omega
  have hf := h.fits
  refine ⟨_, by
    unfold newCellChunk safetyCheckCells
    rw [if_neg (by simp only [not_or, not_le]; exact ⟨h.cx, h.cy, h.cz, h.nx, h.ny, h.nz⟩)]
    simp only [Out.bind_ok]
    unfold int64
    rw [if_pos (show (-2 ^ 63 ≤ g.numY * g.numZ ∧ g.numY * g.numZ < 2 ^ 63) by omega),
        if_pos (show (-2 ^ 63 ≤ g.numX * g.numY * g.numZ ∧ g.numX * g.numY * g.numZ < 2 ^ 63) by omega)]
    rfl, ?_⟩
  refine ⟨⟨rfl, rfl, ?_, abs_of_pos h.cx, abs_of_pos h.cy, abs_of_pos h.cz, ?_, ?_, ?_, rfl, rfl, rfl, rfl,
    rfl⟩, ?_⟩
  · simp only [List.length_replicate]; omega
  · simp only [abs_of_pos h.cx, h.sx]
  · simp only [abs_of_pos h.cy, h.sy]
  · simp only [abs_of_pos h.cz, h.sz]
  · intro c _
    have hb := rowMajor_bounds (localOf_in h.nx h.ny h.nz c)
    simp only [List.getElem?_replicate]
    rw [if_pos (by omega)]

theorem newWholeChunk_rep {g : Grid K T} (h : Geo g) (k : Index) (v : T) :
    ∃ ch, newWholeChunk (baseOf g k) g.chunkX g.chunkY g.chunkZ v = .ok ch ∧
      Rep g k (some ch) (.whole v) := by
  have pos : ∀ {c : K} {n : Int}, 0 < c → 0 < n → 0 < c * (n : K) := by
    intro c n hc hn
    have : (0 : K) < n := by exact_mod_cast hn
    positivity
  refine ⟨_, by
    unfold newWholeChunk
    rw [if_neg (by
      simp only [not_or, not_le, h.sx, h.sy, h.sz]
      exact ⟨pos h.cx h.nx, pos h.cy h.ny, pos h.cz h.nz⟩)], rfl, rfl, rfl⟩

/-- Setting a cell in a fresh chunk of cells. -/
theorem setInNewChunk_rep {g : Grid K T} {s : Contents T} (h : Holds g s) (p : Vec3 K) (i v : T) :
    ∃ g', setInNewChunk g (baseOf g (chunkIn g p)) p i v = .ok (.setCell, g') ∧
      Holds g' (s.put (chunkIn g p) (.cells fun d => if d = cellIn g p then v else i)) ∧
      g'.origin = g.origin ∧ (g'.cellX = g.cellX ∧ g'.cellY = g.cellY ∧ g'.cellZ = g.cellZ) ∧
      (g'.numX = g.numX ∧ g'.numY = g.numY ∧ g'.numZ = g.numZ) := by
  obtain ⟨ch, hch, hrep⟩ := newCellChunk_rep h.geo (chunkIn g p) i
  have hpos := (cellPosition_eq h.geo hrep.1).1
  refine ⟨_, by
    unfold setInNewChunk chunkSetCell
    rw [hch]
    simp only [Out.bind_ok, hpos, if_true], holds_put h (rep_set h.geo v hrep), rfl, ⟨rfl, rfl, rfl⟩,
    rfl, rfl, rfl⟩

theorem step_refines {g : Grid K T} {s : Contents T} (h : Holds g s) (op : Op K T)
    (hr : ∀ p, op.location = some p → Representable (chunkIn g p)) :
    ∃ g', step g op = .ok ((specStep g.cellX g.cellY g.cellZ g.numX g.numY g.numZ s op).1, g') ∧
      Holds g' (specStep g.cellX g.cellY g.cellZ g.numX g.numY g.numZ s op).2 ∧
      g'.origin = g.origin ∧ (g'.cellX = g.cellX ∧ g'.cellY = g.cellY ∧ g'.cellZ = g.cellZ) ∧
      (g'.numX = g.numX ∧ g'.numY = g.numY ∧ g'.numZ = g.numZ) := by
  have hread : ∀ p, Representable (chunkIn g p) → ∃ r,
      getRef g (atFrame g.origin p) = .ok (r, s.found (chunkIn g p)) ∧
      readRef g r = .ok (s.value (chunkIn g p) (cellIn g p)) ∧
      ∀ v, ∃ g', writeRef g v r = .ok g' ∧
        Holds g' (match s.chunks (chunkIn g p) with
          | .unset => { s with default := v }
          | .whole _ => s.put (chunkIn g p) (.whole v)
          | .cells f => s.put (chunkIn g p) (.cells fun d => if d = cellIn g p then v else f d)) ∧
        g'.origin = g.origin ∧ (g'.cellX = g.cellX ∧ g'.cellY = g.cellY ∧ g'.cellZ = g.cellZ) ∧
        (g'.numX = g.numX ∧ g'.numY = g.numY ∧ g'.numZ = g.numZ) := by
    intro p hp
    unfold getRef
    simp only [Out.assert_true h.geo.init, Out.bind_ok, frame h.geo, region_eq h.geo hp]
    have hk := h.chunks (chunkIn g p)
    unfold Contents.found Contents.value
    cases hs : s.chunks (chunkIn g p) with
    | unset =>
      rw [hs] at hk
      rw [rep_none hk]
      refine ⟨.default, rfl, ?_, ?_⟩
      · simp only [readRef, h.default]
      · intro v
        exact ⟨_, rfl, holds_default h v, rfl, ⟨rfl, rfl, rfl⟩, rfl, rfl, rfl⟩
    | whole w =>
      rw [hs] at hk
      obtain ⟨ch, hch, c1, c2, c3⟩ := rep_whole hk
      refine ⟨.elem (baseOf g (chunkIn g p)) 0, ?_, ?_, ?_⟩
      · simp only [hch, c1, Bool.false_eq_true, if_false, c2, if_true, getChunkValue,
          Out.assert_true c2, c3]
        simp
      · simp [readRef, hch, c3]
      · intro v
        refine ⟨putChunk g (baseOf g (chunkIn g p)) { ch with data := [v] }, by
          simp only [writeRef, hch, c3, List.length_singleton]
          rw [if_pos (by omega)]
          rfl, ?_, rfl, ⟨rfl, rfl, rfl⟩, rfl, rfl, rfl⟩
        exact holds_put h (c := .whole v) ⟨c1, c2, rfl⟩
    | cells f =>
      rw [hs] at hk
      obtain ⟨ch, hch, hc, hv⟩ := rep_cells hk
      obtain ⟨hpos, hlt⟩ := cellPosition_eq h.geo hc
      refine ⟨.elem (baseOf g (chunkIn g p))
        (rowMajor g.numY g.numZ (localOf g.numX g.numY g.numZ (cellIn g p))).toNat, ?_, ?_, ?_⟩
      rotate_left 2
      · intro v
        refine ⟨putChunk g (baseOf g (chunkIn g p)) { ch with
          data := (ch.data.set
            (rowMajor g.numY g.numZ (localOf g.numX g.numY g.numZ (cellIn g p))).toNat v) }, by
          simp only [writeRef, hch]
          rw [if_pos hlt], ?_, rfl, ⟨rfl, rfl, rfl⟩, rfl, rfl, rfl⟩
        rw [hch] at hk
        exact holds_put h (rep_set h.geo v hk)
      · simp only [hch, hc.cell, if_true, hpos, Out.bind_ok]
      · simp only [readRef, hch, hv _ rfl]
  cases op with
  | get p =>
    obtain ⟨r, h1, h2, _⟩ := hread p (hr p rfl)
    refine ⟨g, ?_, h, rfl, ⟨rfl, rfl, rfl⟩, rfl, rfl, rfl⟩
    simp only [step, getImmutable, h1, h2, Out.bind_ok]
    rfl
  | mutate p v =>
    obtain ⟨r, h1, h2, h3⟩ := hread p (hr p rfl)
    obtain ⟨g', h4, h5, h6⟩ := h3 v
    refine ⟨g', ?_, h5, h6⟩
    simp only [step, h1, h2, h4, Out.bind_ok]
    rfl
  | setCell p v =>
    have hp := hr p rfl
    simp only [step, setCellValue, Out.assert_true h.geo.init, Out.bind_ok, frame h.geo,
      region_eq h.geo hp]
    have hk := h.chunks (chunkIn g p)
    have hspec : specStep g.cellX g.cellY g.cellZ g.numX g.numY g.numZ s (.setCell p v) =
      (.wrote .setCell, s.put (chunkIn g p) (.cells fun d => if d = cellIn g p then v else
        s.value (chunkIn g p) d)) := rfl
    rw [hspec]
    unfold Contents.value
    cases hs : s.chunks (chunkIn g p) with
    | unset =>
      rw [hs] at hk
      rw [rep_none hk, ← h.default]
      obtain ⟨g', h1, h2⟩ := setInNewChunk_rep h p g.default v
      refine ⟨g', ?_, h2⟩
      simp only [h1, Out.bind_ok]
    | whole w =>
      rw [hs] at hk
      obtain ⟨ch, hch, c1, c2, c3⟩ := rep_whole hk
      obtain ⟨g', h1, h2⟩ := setInNewChunk_rep h p w v
      refine ⟨g', ?_, h2⟩
      have hv : getChunkValue ch = .ok w := by
        simp only [getChunkValue, Out.assert_true c2, c3]
        simp
      simp only [hch, c1, Bool.false_eq_true, if_false, c2, if_true, hv, Out.bind_ok, h1]
    | cells f =>
      rw [hs] at hk
      obtain ⟨ch, hch, hc, hv⟩ := rep_cells hk
      obtain ⟨hpos, hlt⟩ := cellPosition_eq h.geo hc
      rw [hch] at hk
      refine ⟨_, ?_, holds_put h (rep_set h.geo v hk), rfl, ⟨rfl, rfl, rfl⟩, rfl, rfl, rfl⟩
      simp only [hch, hc.cell, if_true, chunkSetCell, hpos, Out.bind_ok]
  | setChunk p v =>
    have hp := hr p rfl
    simp only [step, setChunkValue, Out.assert_true h.geo.init, Out.bind_ok, frame h.geo,
      region_eq h.geo hp]
    have hk := h.chunks (chunkIn g p)
    have hspec : specStep g.cellX g.cellY g.cellZ g.numX g.numY g.numZ s (.setChunk p v) =
      (.wrote .setChunk, s.put (chunkIn g p) (.whole v)) := rfl
    rw [hspec]
    obtain ⟨nch, hn, hrep⟩ := newWholeChunk_rep h.geo (chunkIn g p) v
    cases hs : s.chunks (chunkIn g p) with
    | unset =>
      rw [hs] at hk
      rw [rep_none hk]
      refine ⟨_, ?_, holds_put h hrep, rfl, ⟨rfl, rfl, rfl⟩, rfl, rfl, rfl⟩
      simp only [hn, Out.bind_ok]
    | whole w =>
      rw [hs] at hk
      obtain ⟨ch, hch, c1, c2, c3⟩ := rep_whole hk
      refine ⟨putChunk g (baseOf g (chunkIn g p)) { ch with data := [v] }, ?_,
        holds_put h (c := .whole v) ⟨c1, c2, rfl⟩, rfl, ⟨rfl, rfl, rfl⟩, rfl, rfl, rfl⟩
      simp only [hch, c1, Bool.false_eq_true, if_false, c2, if_true, chunkSetValue, Out.assert_true c2, c3,
        Out.bind_ok]
      simp
    | cells f =>
      rw [hs] at hk
      obtain ⟨ch, hch, hc, hv⟩ := rep_cells hk
      refine ⟨_, ?_, holds_put h hrep, rfl, ⟨rfl, rfl, rfl⟩, rfl, rfl, rfl⟩
      simp only [hch, hc.cell, if_true, hn, Out.bind_ok]
  | setDefault v =>
    exact ⟨_, rfl, holds_default h v, rfl, ⟨rfl, rfl, rfl⟩, rfl, rfl, rfl⟩

theorem run_refines (ops : List (Op K T)) : ∀ {g : Grid K T} {s : Contents T}, Holds g s →
    (∀ op ∈ ops, ∀ p, op.location = some p → Representable (chunkIn g p)) →
    ∃ g', run g ops = .ok ((specRun g.cellX g.cellY g.cellZ g.numX g.numY g.numZ s ops).1, g') ∧
      Holds g' (specRun g.cellX g.cellY g.cellZ g.numX g.numY g.numZ s ops).2 ∧
      g'.origin = g.origin ∧ (g'.cellX = g.cellX ∧ g'.cellY = g.cellY ∧ g'.cellZ = g.cellZ) ∧
      (g'.numX = g.numX ∧ g'.numY = g.numY ∧ g'.numZ = g.numZ) := by
  induction ops with
  | nil => intro g s h _; exact ⟨g, rfl, h, rfl, ⟨rfl, rfl, rfl⟩, rfl, rfl, rfl⟩
  | cons op ops ih =>
    intro g s h hr
    obtain ⟨g1, e1, h1, o1, ⟨a1, a2, a3⟩, b1, b2, b3⟩ :=
      step_refines h op (hr op (by simp))
    have hr' : ∀ op ∈ ops, ∀ p, op.location = some p → Representable (chunkIn g1 p) := by
      intro op hop p hp
      have := hr op (by simp [hop]) p hp
      unfold chunkIn cellIn at this ⊢
      rwa [a1, a2, a3, b1, b2, b3]
    obtain ⟨g2, e2, h2, o2, ⟨c1, c2, c3⟩, d1, d2, d3⟩ := ih h1 hr'
    rw [a1, a2, a3, b1, b2, b3] at e2 h2
    refine ⟨g2, ?_, h2, o2.trans o1, ⟨c1.trans a1, c2.trans a2, c3.trans a3⟩, d1.trans b1, d2.trans b2,
      d3.trans b3⟩
    simp only [run, e1, Out.bind_ok, e2, specRun]

theorem initializeGrid_holds {origin : Iso3 K} {cx cy cz : K} {nx ny nz : Int} {d : T} {g : Grid K T}
    (ho : IsIsometry origin) (hf : nx * ny * nz < 2 ^ 63)
    (h : initializeGrid origin cx cy cz nx ny nz d = .ok g) :
    Holds g ⟨d, fun _ => .unset⟩ ∧ g.origin = origin ∧
      (g.cellX = cx ∧ g.cellY = cy ∧ g.cellZ = cz) ∧ (g.numX = nx ∧ g.numY = ny ∧ g.numZ = nz) := by
  unfold initializeGrid safetyCheckCells at h
  split at h
  · simp at h
  next hc =>
    simp only [not_or, not_le] at hc
    simp only [Out.bind_ok, Out.bind_eq_ok, int64_eq_ok, Out.ok.injEq] at h
    obtain ⟨st, _, rfl⟩ := h
    obtain ⟨h1, h2, h3, h4, h5, h6⟩ := hc
    have e1 := abs_of_pos h1
    have e2 := abs_of_pos h2
    have e3 := abs_of_pos h3
    refine ⟨⟨⟨rfl, ho, rfl, ?_, ?_, ?_, h4, h5, h6, rfl, rfl, rfl, hf⟩, rfl, ?_⟩, rfl, ⟨e1, e2, e3⟩, rfl,
      rfl, rfl⟩
    · dsimp only; rwa [e1]
    · dsimp only; rwa [e2]
    · dsimp only; rwa [e3]
    · intro k; exact trivial

end

end Verif.HashedGrid
