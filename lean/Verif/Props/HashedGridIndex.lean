import Verif.Lemmas.HashedGridIndex
import Verif.Props.HashedGrid

/-! # Hashed voxel grids: the elements of the stored chunks -/
namespace Verif.HashedGrid
open Verif Verif.Voxel

section
variable {K T : Type} [Field K] [LinearOrder K] [IsStrictOrderedRing K] [FloorRing K]

theorem create_inv {origin : Iso3 K} {cx cy cz : K} {nx ny nz : Int} {d : T} {g : Grid K T}
    (ho : IsIsometry origin) (hf : nx * ny * nz < 2 ^ 63)
    (h : initializeGrid origin cx cy cz nx ny nz d = .ok g) : Inv g := by
  obtain ⟨hh, -⟩ := initializeGrid_holds ho hf h
  refine ⟨hh.geo, ?_⟩
  intro r c hc
  unfold initializeGrid at h
  simp only [Out.bind_eq_ok, Out.ok.injEq] at h
  obtain ⟨_, _, _, _, rfl⟩ := h
  cases hc

/-- The value of a read, for a location in a stored chunk. -/
theorem read_cell_chunk {g : Grid K T} (h : Geo g) {p : Vec3 K} {k : Index} (hr : Representable k)
    (hk : chunkIn g p = k) {c : Chunk K T} (hc : g.chunks (baseOf g k) = some c) (hs : CellChunk g k c) {v : T}
    (hv : c.data[(rowMajor g.numY g.numZ (localOf g.numX g.numY g.numZ (cellIn g p))).toNat]? = some v) :
    getImmutable g (atFrame g.origin p) = .ok (v, .inCell) := by
  subst hk
  obtain ⟨hpos, _⟩ := cellPosition_eq h hs
  unfold getImmutable getRef
  rw [Out.assert_true h.init]
  simp only [Out.bind_ok, frame h, region_eq h hr, hc, hs.cell, if_true, hpos, readRef, hv]

theorem read_whole_chunk {g : Grid K T} (h : Geo g) {p : Vec3 K} {k : Index} (hr : Representable k)
    (hk : chunkIn g p = k) {c : Chunk K T} (hc : g.chunks (baseOf g k) = some c) (hs : WholeChunk g k c) {v : T}
    (hv : c.data[0]? = some v) : getImmutable g (atFrame g.origin p) = .ok (v, .inChunk) := by
  subst hk
  have hval : getChunkValue c = .ok v := by
    unfold getChunkValue
    rw [Out.assert_true hs.whole, Out.assert_true hs.len]
    simp only [Out.bind_ok, hv]
  unfold getImmutable getRef
  rw [Out.assert_true h.init]
  simp only [Out.bind_ok, frame h, region_eq h hr, hc, hs.cell, Bool.false_eq_true, if_false, hs.whole, if_true, hval,
    readRef, hv]

theorem element_cell {g : Grid K T} (h : Geo g) {k : Index} {c : Chunk K T} (hs : CellChunk g k c)
    (hf : c.chunkInit = false) {i : Index} (hi : InGrid g.numX g.numY g.numZ i) :
    ∃ v, c.data[(rowMajor g.numY g.numZ i).toNat]? = some v ∧ getByIndex c i = .ok (v, true) ∧
      getIndexLocationInGrid c i = .ok (some
        ⟨(k.x : K) * g.chunkX + g.cellX * ((i.x : K) + 1 / 2), (k.y : K) * g.chunkY + g.cellY * ((i.y : K) + 1 / 2),
          (k.z : K) * g.chunkZ + g.cellZ * ((i.z : K) + 1 / 2)⟩) := by
  have hin : indexInBounds c i = true := indexInBounds_iff.2 (by rw [hs.nx, hs.ny, hs.nz]; exact hi)
  have hb := rowMajor_bounds hi
  have hl := hs.len
  have hlt : (rowMajor g.numY g.numZ i).toNat < c.data.length := by omega
  refine ⟨c.data[(rowMajor g.numY g.numZ i).toNat], List.getElem?_eq_getElem hlt, ?_, ?_⟩
  · unfold getByIndex
    rw [Out.assert_true (.inr hs.cell)]
    simp only [Out.bind_ok, hin, if_true]
    have e : i.x * c.stride1 + i.y * c.stride2 + i.z = rowMajor g.numY g.numZ i := by
      rw [hs.s1, hs.s2]; unfold rowMajor; ring
    rw [e, Out.assert_true (by omega)]
    simp only [Out.bind_ok, List.getElem?_eq_getElem hlt]
  · unfold getIndexLocationInGrid
    rw [Out.assert_true (.inr hs.cell)]
    simp only [Out.bind_ok, hin, if_true, hf, Bool.false_eq_true, if_false, hs.base, baseOf, hs.cx, hs.cy, hs.cz]

theorem element_whole {g : Grid K T} {k : Index} {c : Chunk K T} (hs : WholeChunk g k c)
    {i : Index} (hi : InGrid 1 1 1 i) :
    ∃ v, c.data[0]? = some v ∧ getByIndex c i = .ok (v, true) ∧
      getIndexLocationInGrid c i = .ok (some
        ⟨(k.x : K) * g.chunkX + g.chunkX * (1 / 2), (k.y : K) * g.chunkY + g.chunkY * (1 / 2),
          (k.z : K) * g.chunkZ + g.chunkZ * (1 / 2)⟩) := by
  have hin : indexInBounds c i = true := indexInBounds_iff.2 (by rw [hs.nx, hs.ny, hs.nz]; exact hi)
  have hl := hs.len
  have hlt : 0 < c.data.length := by omega
  obtain ⟨⟨x0, x1⟩, ⟨y0, y1⟩, z0, z1⟩ := hi
  have ix : i.x = 0 := by omega
  have iy : i.y = 0 := by omega
  have iz : i.z = 0 := by omega
  refine ⟨c.data[0], List.getElem?_eq_getElem hlt, ?_, ?_⟩
  · unfold getByIndex
    rw [Out.assert_true (.inl hs.whole)]
    simp only [Out.bind_ok, hin, if_true, ix, iy, iz, zero_mul, add_zero]
    rw [Out.assert_true (by omega)]
    simp only [Out.bind_ok, Int.toNat_zero, List.getElem?_eq_getElem hlt]
  · unfold getIndexLocationInGrid
    rw [Out.assert_true (.inl hs.whole)]
    simp only [Out.bind_ok, hin, if_true, hs.whole, hs.base, baseOf, hs.sx, hs.sy, hs.sz]

/-- After any history, every element of every stored chunk can be read by its index, has a location, and a read of
the grid at that location (moved from the frame of the grid to the outside) returns the same value and tells which
kind of chunk it is. Any other index gives the initial value of the chunk with `false`, and no location. -/
theorem C164_elements (origin : Iso3 K) (ho : IsIsometry origin) (cx cy cz : K) (nx ny nz : Int)
    (hf : nx * ny * nz < 2 ^ 63) (d : T) (g : Grid K T) (h : initializeGrid origin cx cy cz nx ny nz d = .ok g)
    (ops : List (Op K T)) (rs : List (Res T)) (g' : Grid K T) (hr : run g ops = .ok (rs, g'))
    (r : Vec3 K) (c : Chunk K T) (hc : g'.chunks r = some c) :
    (∀ i, InGrid c.numX c.numY c.numZ i → ∃ v loc, getByIndex c i = .ok (v, true) ∧
      getIndexLocationInGrid c i = .ok (some loc) ∧
      getImmutable g' (atFrame origin loc) = .ok (v, if c.cellInit then .inCell else .inChunk)) ∧
    (∀ i, ¬ InGrid c.numX c.numY c.numZ i → getByIndex c i = .ok (c.initial, false) ∧
      getIndexLocationInGrid c i = .ok none) := by
  have hi0 := create_inv ho hf h
  obtain ⟨_, hor, _⟩ := initializeGrid_holds ho hf h
  obtain ⟨hi, hsame⟩ := run_inv ops hi0 hr
  have hor' : g'.origin = origin := hsame.origin.trans hor
  obtain ⟨k, hk, rfl, hs⟩ := hi.chunks r c hc
  have ge := hi.geo
  have hinit : c.chunkInit = true ∨ c.cellInit = true := by
    rcases hs with ⟨hs, _⟩ | hs
    · exact .inr hs.cell
    · exact .inl hs.whole
  constructor
  · intro i hin
    rw [← hor']
    rcases hs with ⟨hs, hfa⟩ | hs
    · rw [hs.nx, hs.ny, hs.nz] at hin
      obtain ⟨v, h1, h2, h3⟩ := element_cell ge hs hfa hin
      refine ⟨v, _, h2, h3, ?_⟩
      rw [hs.cell, if_pos rfl]
      obtain ⟨⟨x0, x1⟩, ⟨y0, y1⟩, z0, z1⟩ := hin
      obtain ⟨a1, a2⟩ := mul_add_div (k := k.x) x0 x1
      obtain ⟨b1, b2⟩ := mul_add_div (k := k.y) y0 y1
      obtain ⟨c1, c2⟩ := mul_add_div (k := k.z) z0 z1
      apply read_cell_chunk ge hk _ hc hs
      · simp only [cellIn, cellOf, ge.sx, ge.sy, ge.sz, axis_centre ge.cx, axis_centre ge.cy, axis_centre ge.cz, localOf,
          a2, b2, c2]
        exact h1
      · simp only [chunkIn, chunkOf, cellIn, cellOf, ge.sx, ge.sy, ge.sz, axis_centre ge.cx, axis_centre ge.cy,
          axis_centre ge.cz, a1, b1, c1]
    · rw [hs.nx, hs.ny, hs.nz] at hin
      obtain ⟨v, h1, h2, h3⟩ := element_whole hs hin
      refine ⟨v, _, h2, h3, ?_⟩
      rw [hs.cell, if_neg (by simp)]
      apply read_whole_chunk ge hk _ hc hs h1
      simp only [chunkIn, chunkOf, cellIn, cellOf, ge.sx, ge.sy, ge.sz, axis_middle ge.cx ge.nx,
        axis_middle ge.cy ge.ny, axis_middle ge.cz ge.nz]
  · intro i hin
    have hb : indexInBounds c i = false := by
      rw [← Bool.not_eq_true, indexInBounds_iff]; exact hin
    unfold getByIndex getIndexLocationInGrid
    rw [Out.assert_true hinit]
    simp only [Out.bind_ok, hb, Bool.false_eq_true, if_false, and_self]

/-- The numbers of elements and their sizes, for each stored chunk; and the sizes that the grid reports. -/
theorem C164_sizes (origin : Iso3 K) (ho : IsIsometry origin) (cx cy cz : K) (nx ny nz : Int)
    (hf : nx * ny * nz < 2 ^ 63) (d : T) (g : Grid K T) (h : initializeGrid origin cx cy cz nx ny nz d = .ok g)
    (ops : List (Op K T)) (rs : List (Res T)) (g' : Grid K T) (hr : run g ops = .ok (rs, g')) :
    getCellSizes g' = [cx, cy, cz] ∧ getChunkSizes g' = [cx * nx, cy * ny, cz * nz] ∧
    getChunkNumCells g' = [nx, ny, nz] ∧ g'.origin = origin ∧ g'.initialized = true ∧
    ∀ r c, g'.chunks r = some c →
      if c.cellInit then getElementSize c = .ok ⟨cx, cy, cz⟩ ∧ c.numX = nx ∧ c.numY = ny ∧ c.numZ = nz
      else getElementSize c = .ok ⟨cx * nx, cy * ny, cz * nz⟩ ∧ c.numX = 1 ∧ c.numY = 1 ∧ c.numZ = 1 := by
  have hi0 := create_inv ho hf h
  have horg : g.origin = origin ∧ g.initialized = true := by
    unfold initializeGrid at h
    cases hs : safetyCheckCells cx cy cz nx ny nz <;> rw [hs] at h <;> try cases h
    cases ht : int64 (ny * nz) <;> rw [ht] at h <;> cases h
    exact ⟨rfl, rfl⟩
  obtain ⟨horg, hini⟩ := horg
  obtain ⟨_, _, ⟨rfl, rfl, rfl⟩, rfl, rfl, rfl⟩ := initializeGrid_holds ho hf h
  obtain ⟨hi, s⟩ := run_inv ops hi0 hr
  have ge := hi.geo
  refine ⟨by simp only [getCellSizes, s.cx, s.cy, s.cz],
    by simp only [getChunkSizes, s.cx, s.cy, s.cz, s.nx, s.ny, s.nz],
    by simp only [getChunkNumCells, s.nx, s.ny, s.nz], s.origin.trans horg, s.init.trans hini, ?_⟩
  intro r c hc
  obtain ⟨k, hk, rfl, hs⟩ := hi.chunks r c hc
  rcases hs with ⟨hs, hfa⟩ | hs
  · rw [if_pos hs.cell]
    refine ⟨?_, by rw [hs.nx, s.nx], by rw [hs.ny, s.ny], by rw [hs.nz, s.nz]⟩
    unfold getElementSize
    rw [Out.assert_true (.inr hs.cell)]
    simp only [Out.bind_ok, hfa, Bool.false_eq_true, if_false, hs.cx, hs.cy, hs.cz, s.cx, s.cy, s.cz]
  · rw [if_neg (by rw [hs.cell]; simp)]
    refine ⟨?_, hs.nx, hs.ny, hs.nz⟩
    unfold getElementSize
    rw [Out.assert_true (.inl hs.whole)]
    simp only [Out.bind_ok, hs.whole, if_true, hs.sx, hs.sy, hs.sz, ge.sx, ge.sy, ge.sz, s.cx, s.cy, s.cz, s.nx, s.ny,
      s.nz]

/-- Half a cell. -/
theorem axis_near {p c : K} (hc : 0 < c) (n : Int) :
    |p - (((⌊p / c⌋ / n : Int) : K) * (c * n) + c * (((⌊p / c⌋ % n : Int) : K) + 1 / 2))| ≤ c / 2 := by
  have e : ((⌊p / c⌋ / n : Int) : K) * (c * n) + c * (((⌊p / c⌋ % n : Int) : K) + 1 / 2) = c * ((⌊p / c⌋ : K) + 1 / 2) := by
    have : ((⌊p / c⌋ : Int) : K) = ((n * (⌊p / c⌋ / n) + ⌊p / c⌋ % n : Int) : K) := by
      rw [Int.mul_ediv_add_emod]
    rw [this]; push_cast; ring
  rw [e]
  have f1 := Int.floor_le (p / c)
  have f2 := Int.lt_floor_add_one (p / c)
  rw [le_div_iff₀ hc] at f1
  rw [div_lt_iff₀ hc] at f2
  rw [abs_le]
  constructor <;> linarith

/-- Half a chunk. -/
theorem axis_near_chunk {p c : K} (hc : 0 < c) {n : Int} (hn : 0 < n) :
    |p - (((⌊p / c⌋ / n : Int) : K) * (c * n) + c * n * (1 / 2))| ≤ c * n / 2 := by
  have hnK : (0 : K) < n := by exact_mod_cast hn
  have hcn : 0 < c * n := mul_pos hc hnK
  rw [← axis_chunk hn]
  have f1 := Int.floor_le (p / (c * n))
  have f2 := Int.lt_floor_add_one (p / (c * n))
  rw [le_div_iff₀ hcn] at f1
  rw [div_lt_iff₀ hcn] at f2
  rw [abs_le]
  constructor <;> linarith

/-- After any history, whatever a read finds in a cell or a chunk is an element of a stored chunk, and the location
lies within half the size of the element of its location. -/
theorem C164_found (origin : Iso3 K) (ho : IsIsometry origin) (cx cy cz : K) (nx ny nz : Int)
    (hf : nx * ny * nz < 2 ^ 63) (d : T) (g : Grid K T) (h : initializeGrid origin cx cy cz nx ny nz d = .ok g)
    (ops : List (Op K T)) (rs : List (Res T)) (g' : Grid K T) (hr : run g ops = .ok (rs, g'))
    (p : Vec3 K) (v : T) (f : Found) (hg : getImmutable g' (atFrame origin p) = .ok (v, f)) (hn : f ≠ .notFound) :
    ∃ r c i loc size, g'.chunks r = some c ∧ getByIndex c i = .ok (v, true) ∧
      getIndexLocationInGrid c i = .ok (some loc) ∧ getElementSize c = .ok size ∧
      |p.x - loc.x| ≤ size.x / 2 ∧ |p.y - loc.y| ≤ size.y / 2 ∧ |p.z - loc.z| ≤ size.z / 2 := by
  have hi0 := create_inv ho hf h
  have hsz := C164_sizes origin ho cx cy cz nx ny nz hf d g h ops rs g' hr
  obtain ⟨_, hor, ⟨rfl, rfl, rfl⟩, rfl, rfl, rfl⟩ := initializeGrid_holds ho hf h
  obtain ⟨hi, s⟩ := run_inv ops hi0 hr
  have ge := hi.geo
  have hor' : g'.origin = origin := s.origin.trans hor
  rw [← hor'] at hg
  by_cases hk : Representable (chunkIn g' p)
  swap
  · exfalso
    unfold getImmutable getRef at hg
    rw [Out.assert_true ge.init] at hg
    simp only [Out.bind_ok, frame ge, region_ub ge hk, Out.bind_ub] at hg
    cases hg
  cases hch : g'.chunks (baseOf g' (chunkIn g' p)) with
  | none =>
    exfalso
    unfold getImmutable getRef at hg
    rw [Out.assert_true ge.init] at hg
    simp only [Out.bind_ok, frame ge, region_eq ge hk, hch, readRef, Out.ok.injEq, Prod.mk.injEq] at hg
    exact hn hg.2.symm
  | some c =>
    obtain ⟨j, _, hb, hs⟩ := hi.chunks _ _ hch
    rw [← baseOf_inj ge hb] at hs
    have hsz' := hsz.2.2.2.2.2 _ _ hch
    rcases hs with ⟨hs, hfa⟩ | hs
    · rw [if_pos hs.cell] at hsz'
      have hin := localOf_in ge.nx ge.ny ge.nz (cellIn g' p)
      obtain ⟨w, h1, h2, h3⟩ := element_cell ge hs hfa hin
      have hread := read_cell_chunk ge hk rfl hch hs h1
      rw [hread] at hg
      simp only [Out.ok.injEq, Prod.mk.injEq] at hg
      obtain ⟨rfl, _⟩ := hg
      refine ⟨_, c, _, _, _, hch, h2, h3, hsz'.1, ?_, ?_, ?_⟩
      · simp only [ge.sx, ← s.cx]; exact axis_near ge.cx _
      · simp only [ge.sy, ← s.cy]; exact axis_near ge.cy _
      · simp only [ge.sz, ← s.cz]; exact axis_near ge.cz _
    · rw [if_neg (by rw [hs.cell]; simp)] at hsz'
      have hin : InGrid 1 1 1 ⟨0, 0, 0⟩ := by unfold InGrid; decide
      obtain ⟨w, h1, h2, h3⟩ := element_whole hs hin
      have hread := read_whole_chunk ge hk rfl hch hs h1
      rw [hread] at hg
      simp only [Out.ok.injEq, Prod.mk.injEq] at hg
      obtain ⟨rfl, _⟩ := hg
      refine ⟨_, c, _, _, _, hch, h2, h3, hsz'.1, ?_, ?_, ?_⟩
      · simp only [ge.sx, ← s.cx, ← s.nx]; exact axis_near_chunk ge.cx ge.nx
      · simp only [ge.sy, ← s.cy, ← s.ny]; exact axis_near_chunk ge.cy ge.ny
      · simp only [ge.sz, ← s.cz, ← s.nz]; exact axis_near_chunk ge.cz ge.nz

/-- A grid made without arguments says that it is initialized, reports sizes of zero, the identity as its origin and no
chunks, and every access to it is undefined. -/
theorem C164_empty (d : T) (l : Vec3 K) (v : T) :
    getCellSizes (emptyGrid d : Grid K T) = [0, 0, 0] ∧ getChunkSizes (emptyGrid d : Grid K T) = [0, 0, 0] ∧
    getChunkNumCells (emptyGrid d : Grid K T) = [0, 0, 0] ∧ (emptyGrid d : Grid K T).default = d ∧
    (∀ p, (emptyGrid d : Grid K T).origin.apply p = p) ∧ (∀ r, (emptyGrid d : Grid K T).chunks r = none) ∧
    (emptyGrid d : Grid K T).initialized = true ∧ getImmutable (emptyGrid d : Grid K T) l = .ub ∧
    setCellValue (emptyGrid d : Grid K T) l v = .ub ∧ setChunkValue (emptyGrid d : Grid K T) l v = .ub := by
  have hin : (emptyGrid d : Grid K T).initialized = true := rfl
  have hreg : ∀ p : Vec3 K, getContainingChunkRegion (emptyGrid d : Grid K T) p = .ub := by
    intro p
    unfold getContainingChunkRegion
    rw [Out.assert_true hin]
    have : chunkNumber p.x (emptyGrid d : Grid K T).chunkX = .ub := by
      unfold chunkNumber
      rw [if_pos (by simp [emptyGrid])]
    simp only [Out.bind_ok, this, Out.bind_ub]
  refine ⟨rfl, by simp [getChunkSizes, emptyGrid], rfl, rfl,
    fun p => by simp [emptyGrid, Iso3.apply, Iso3.translation, Vec3.dot], fun _ => rfl, rfl, ?_, ?_, ?_⟩
  · unfold getImmutable getRef
    rw [Out.assert_true hin]
    simp only [Out.bind_ok, hreg, Out.bind_ub]
  · unfold setCellValue
    rw [Out.assert_true hin]
    simp only [Out.bind_ok, hreg, Out.bind_ub]
  · unfold setChunkValue
    rw [Out.assert_true hin]
    simp only [Out.bind_ok, hreg, Out.bind_ub]

end

/-- A history that stores a chunk of cells and a chunk with one value. -/
example : ∃ g g' : Grid Rat Nat, ∃ rs, unitGrid = .ok g ∧ IsIsometry g.origin ∧
    run g [.setCell ⟨0, 0, 0⟩ 5, .setChunk ⟨2, 0, 0⟩ 3, .get ⟨1, 0, 0⟩, .get ⟨3, 0, 0⟩] = .ok (rs, g') ∧
    rs = [.wrote .setCell, .wrote .setChunk, .read 7 .inCell, .read 3 .inChunk] := by
  obtain ⟨g, hg, ho⟩ := unitGrid_ok
  obtain ⟨g', e, _⟩ := C39_history (Iso3.translation ⟨0, 0, 0⟩) (translation_isometry _) (1 : Rat) 1 1 2 2 2
    (by norm_num) 7 g hg [.setCell ⟨0, 0, 0⟩ 5, .setChunk ⟨2, 0, 0⟩ 3, .get ⟨1, 0, 0⟩, .get ⟨3, 0, 0⟩]
    (by
      intro op hop p hp
      simp only [List.mem_cons, List.not_mem_nil, or_false] at hop
      rcases hop with rfl | rfl | rfl | rfl <;>
        simp only [Op.location, Option.some.injEq, reduceCtorEq] at hp <;> subst hp <;>
        (unfold Representable; decide +kernel))
  refine ⟨g, g', _, hg, ho ▸ translation_isometry _, e, ?_⟩
  decide +kernel

end Verif.HashedGrid
