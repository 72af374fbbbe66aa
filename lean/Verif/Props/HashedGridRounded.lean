import Verif.Props.HashedGrid
import Verif.Lemmas.HashedGridRounded

/-! # Hashed voxel grids with rounded arithmetic -/
namespace Verif.HashedGridRounded
open Verif.Voxel (Vec3 Iso3 Index safetyCheckCells truncate int64)
open Verif.HashedGrid (Chunk Grid Ref Found SetStatus Op Res ChunkState Contents chunkOf cellOf specStep specRun
  putChunk readRef writeRef getChunkValue chunkSetValue newWholeChunk setDefaultValue lastWrite WritesOnly spec_last)
open Verif.VoxelRounded (Fp3)

section
variable {T : Type} (R : Rounding)

/-- With rounded arithmetic a created grid whose frame is translated refines the abstract grid (with exact
arithmetic): in any history of reads, writes to cells and chunks, writes through references and changes of the
default, whose locations are well inside their cells, every operation reports exactly what the abstract grid
reports. -/
theorem C163_history (t : Vec3 ℝ) (ht : Fp3 R t) (cx cy cz : ℝ) (nx ny nz : Int) (hf : nx * ny * nz < 2 ^ 63) (d : T)
    (g : Grid ℝ T) (h : initializeGrid R (Iso3.translation t) cx cy cz nx ny nz d = .ok g) (ops : List (Op ℝ T))
    (hr : ∀ op ∈ ops, ∀ l, op.location = some l → Fp3 R l ∧ CellInterior cx cy cz nx ny nz (relative t l)) :
    ∃ g', run R g ops = .ok ((specRun cx cy cz nx ny nz ⟨d, fun _ => .unset⟩ (ops.map (inFrame t))).1, g') := by
  obtain ⟨hh, ⟨rfl, rfl, rfl⟩, rfl, rfl, rfl⟩ := initializeGrid_holds ht hf h
  obtain ⟨g', e, _⟩ := run_refines ops hh hr
  exact ⟨g', e⟩

theorem writesOnly_inFrame {t : Vec3 ℝ} {op : Op ℝ T} (h : WritesOnly op) : WritesOnly (inFrame t op) := by
  cases op <;> exact h

/-- A read at a location well inside a cell returns the latest value that a history of writes at such locations gave
to the cell or to its whole chunk, and otherwise the default. -/
theorem C163_last_write (t : Vec3 ℝ) (ht : Fp3 R t) (cx cy cz : ℝ) (nx ny nz : Int) (hf : nx * ny * nz < 2 ^ 63)
    (d : T) (g : Grid ℝ T) (h : initializeGrid R (Iso3.translation t) cx cy cz nx ny nz d = .ok g)
    (ops : List (Op ℝ T)) (hw : ∀ op ∈ ops, WritesOnly op)
    (hr : ∀ op ∈ ops, ∀ l, op.location = some l → Fp3 R l ∧ CellInterior cx cy cz nx ny nz (relative t l))
    (l : Vec3 ℝ) (hl : Fp3 R l ∧ CellInterior cx cy cz nx ny nz (relative t l)) :
    ∃ rs g' f, run R g ops = .ok (rs, g') ∧ getImmutable R g' l =
      .ok ((lastWrite cx cy cz nx ny nz (cellOf cx cy cz (relative t l)) none (ops.map (inFrame t))).getD d, f) := by
  obtain ⟨hh, ⟨rfl, rfl, rfl⟩, rfl, rfl, rfl⟩ := initializeGrid_holds ht hf h
  obtain ⟨g', e, hh', _, ⟨a1, a2, a3⟩, b1, b2, b3⟩ := run_refines ops hh hr
  obtain ⟨v1, v2, _⟩ := spec_last g.cellX g.cellY g.cellZ g.numX g.numY g.numZ
    (cellOf g.cellX g.cellY g.cellZ (relative t l)) (ops.map (inFrame t)) ⟨d, fun _ => .unset⟩ none
    (by
      intro op hop
      obtain ⟨op', h1, rfl⟩ := List.mem_map.1 hop
      exact writesOnly_inFrame (hw op' h1)) rfl (fun _ => rfl)
  have hl' : ∀ p, (Op.get l : Op ℝ T).location = some p → Good R t g' p := by
    intro p hp
    simp only [Op.location, Option.some.injEq] at hp
    subst hp
    unfold Good
    rw [a1, a2, a3, b1, b2, b3]
    exact hl
  obtain ⟨g2, e2, _⟩ := step_refines hh' (.get l) hl'
  simp only [step, inFrame, specStep] at e2
  rw [a1, a2, a3, b1, b2, b3] at e2
  cases hg : getImmutable R g' l with
  | ok r =>
    rw [hg] at e2
    simp only [Out.bind_ok, Out.ok.injEq, Prod.mk.injEq, Res.read.injEq] at e2
    obtain ⟨⟨r1, _⟩, _⟩ := e2
    exact ⟨_, g', r.2, e, by rw [hg, ← v2, ← r1]⟩
  | throws x => rw [hg] at e2; simp at e2
  | abort => rw [hg] at e2; simp at e2
  | ub => rw [hg] at e2; simp at e2

/-! ## Any location -/

theorem position_lt {c : Chunk ℝ T} {p : Vec3 ℝ} {n : Nat} (h : getCellPosition R c p = .ok (some n)) :
    c.cellInit = true ∧ n < c.data.length := by
  unfold getCellPosition at h
  by_cases hc : c.cellInit = true
  · refine ⟨hc, ?_⟩
    rw [Out.assert_true hc] at h
    simp only [Out.bind_ok, Out.bind_eq_ok] at h
    obtain ⟨i, _, h⟩ := h
    split at h
    · next h0 =>
      simp only [Out.bind_eq_ok] at h
      obtain ⟨_, h1, h2⟩ := h
      simp only [Out.ok.injEq, Option.some.injEq] at h2
      by_cases hi : i < (c.data.length : Int)
      · omega
      · simp [Out.assert, hi] at h1
    · simp at h
  · simp [Out.assert, hc] at h

theorem setCell_true {c c' : Chunk ℝ T} {p : Vec3 ℝ} {v : T} (h : chunkSetCell R c p v = .ok (true, c')) :
    ∃ n, getCellPosition R c' p = .ok (some n) ∧ c'.cellInit = true ∧ c'.data[n]? = some v := by
  unfold chunkSetCell at h
  simp only [Out.bind_eq_ok] at h
  obtain ⟨r, h1, h2⟩ := h
  cases r with
  | none => simp at h2
  | some n =>
    simp only [Out.ok.injEq, Prod.mk.injEq, true_and] at h2
    obtain ⟨hc, hn⟩ := position_lt R h1
    subst h2
    refine ⟨n, ?_, hc, ?_⟩
    · rw [← h1]
      simp only [getCellPosition, getLocationDataIndex, List.length_set]
    · simp [hn]

theorem read_cell {g : Grid ℝ T} {l region : Vec3 ℝ} {c : Chunk ℝ T} {v : T} {n : Nat}
    (h0 : g.initialized = true)
    (hreg : getContainingChunkRegion R g (VoxelRounded.apply R g.inverseOrigin l) = .ok region)
    (hc : c.cellInit = true)
    (hpos : getCellPosition R c (VoxelRounded.apply R g.inverseOrigin l) = .ok (some n)) (hv : c.data[n]? = some v) :
    getImmutable R (putChunk g region c) l = .ok (v, .inCell) := by
  have hreg' : getContainingChunkRegion R (putChunk g region c)
      (VoxelRounded.apply R (putChunk g region c).inverseOrigin l) = .ok region := hreg
  have hch : (putChunk g region c).chunks region = some c := by simp [putChunk]
  have hpos' : getCellPosition R c (VoxelRounded.apply R (putChunk g region c).inverseOrigin l) = .ok (some n) := hpos
  unfold getImmutable getRef
  rw [Out.assert_true (show (putChunk g region c).initialized = true from h0)]
  simp only [Out.bind_ok, hreg', hch, hc, if_true, hpos', readRef, hv]

theorem read_whole {g : Grid ℝ T} {l region : Vec3 ℝ} {c : Chunk ℝ T} {v : T}
    (h0 : g.initialized = true)
    (hreg : getContainingChunkRegion R g (VoxelRounded.apply R g.inverseOrigin l) = .ok region)
    (hc : c.cellInit = false) (hw : c.chunkInit = true) (hv : c.data = [v]) :
    getImmutable R (putChunk g region c) l = .ok (v, .inChunk) := by
  have hreg' : getContainingChunkRegion R (putChunk g region c)
      (VoxelRounded.apply R (putChunk g region c).inverseOrigin l) = .ok region := hreg
  have hch : (putChunk g region c).chunks region = some c := by simp [putChunk]
  have hval : getChunkValue c = .ok v := by simp [getChunkValue, Out.assert, hw, hv]
  unfold getImmutable getRef
  rw [Out.assert_true (show (putChunk g region c).initialized = true from h0)]
  simp only [Out.bind_ok, hreg', hch, hc, hw, Bool.false_eq_true, if_false, if_true, hval, readRef, hv]
  rfl

/-- At any location, near a boundary or not: `SetCellValue` either reports `NOT_SET` and changes nothing, or reports
`SET_CELL` and the same location then reads the value. -/
theorem C163_set_cell_reads_back (g : Grid ℝ T) (l : Vec3 ℝ) (v : T) (s : SetStatus) (g' : Grid ℝ T)
    (h : setCellValue R g l v = .ok (s, g')) :
    s = .notSet ∧ g' = g ∨ s = .setCell ∧ getImmutable R g' l = .ok (v, .inCell) := by
  unfold setCellValue at h
  by_cases h0 : g.initialized = true
  swap
  · simp [Out.assert, h0] at h
  rw [Out.assert_true h0] at h
  simp only [Out.bind_ok, Out.bind_eq_ok] at h
  obtain ⟨region, hreg, h⟩ := h
  have old : ∀ c : Chunk ℝ T, ((do
      let r ← chunkSetCell R c (VoxelRounded.apply R g.inverseOrigin l) v
      if r.1 then .ok (.setCell, putChunk g region r.2) else .ok (.notSet, g) : Out (SetStatus × Grid ℝ T)) =
        .ok (s, g')) →
      s = .notSet ∧ g' = g ∨ s = .setCell ∧ getImmutable R g' l = .ok (v, .inCell) := by
    intro c hc
    simp only [Out.bind_eq_ok] at hc
    obtain ⟨r, h1, h2⟩ := hc
    obtain ⟨b, c'⟩ := r
    cases b with
    | true =>
      simp only [if_true, Out.ok.injEq, Prod.mk.injEq] at h2
      obtain ⟨rfl, rfl⟩ := h2
      obtain ⟨n, a1, a2, a3⟩ := setCell_true R h1
      exact .inr ⟨rfl, read_cell R h0 hreg a2 a1 a3⟩
    | false =>
      simp only [Bool.false_eq_true, if_false, Out.ok.injEq, Prod.mk.injEq] at h2
      exact .inl ⟨h2.1.symm, h2.2.symm⟩
  have fresh : ∀ i : T, setInNewChunk R g region (VoxelRounded.apply R g.inverseOrigin l) i v = .ok (s, g') →
      s = .notSet ∧ g' = g ∨ s = .setCell ∧ getImmutable R g' l = .ok (v, .inCell) := by
    intro i hi
    unfold setInNewChunk at hi
    rw [Out.bind_eq_ok] at hi
    obtain ⟨c, _, h2⟩ := hi
    exact old c h2
  cases hch : g.chunks region with
  | none => rw [hch] at h; exact fresh _ h
  | some c =>
    rw [hch] at h
    dsimp only at h
    by_cases h1 : c.cellInit = true
    · rw [if_pos h1] at h; exact old c h
    · rw [if_neg h1] at h
      by_cases h2 : c.chunkInit = true
      · rw [if_pos h2, Out.bind_eq_ok] at h
        obtain ⟨w, _, h⟩ := h
        exact fresh w h
      · rw [if_neg h2] at h; exact fresh _ h

/-- At any location `SetChunkValue` reports `SET_CHUNK` and the same location then reads the value. -/
theorem C163_set_chunk_reads_back (g : Grid ℝ T) (l : Vec3 ℝ) (v : T) (s : SetStatus) (g' : Grid ℝ T)
    (h : setChunkValue R g l v = .ok (s, g')) : s = .setChunk ∧ getImmutable R g' l = .ok (v, .inChunk) := by
  unfold setChunkValue at h
  by_cases h0 : g.initialized = true
  swap
  · simp [Out.assert, h0] at h
  rw [Out.assert_true h0] at h
  simp only [Out.bind_ok, Out.bind_eq_ok] at h
  obtain ⟨region, hreg, h⟩ := h
  have fresh : ((do
      let c ← newWholeChunk region g.chunkX g.chunkY g.chunkZ v
      .ok (.setChunk, putChunk g region c) : Out (SetStatus × Grid ℝ T)) = .ok (s, g')) →
      s = .setChunk ∧ getImmutable R g' l = .ok (v, .inChunk) := by
    intro hf
    rw [Out.bind_eq_ok] at hf
    obtain ⟨c, h1, h2⟩ := hf
    simp only [Out.ok.injEq, Prod.mk.injEq] at h2
    obtain ⟨rfl, rfl⟩ := h2
    unfold newWholeChunk at h1
    split at h1
    · simp at h1
    · simp only [Out.ok.injEq] at h1
      subst h1
      exact ⟨rfl, read_whole R h0 hreg rfl rfl rfl⟩
  cases hch : g.chunks region with
  | none => rw [hch] at h; exact fresh h
  | some c =>
    rw [hch] at h
    dsimp only at h
    by_cases h1 : c.cellInit = true
    · rw [if_pos h1] at h; exact fresh h
    · rw [if_neg h1] at h
      by_cases h2 : c.chunkInit = true
      · rw [if_pos h2] at h
        unfold chunkSetValue at h
        rw [Out.assert_true h2] at h
        by_cases h3 : c.data.length = 1
        · rw [Out.assert_true h3] at h
          simp only [Out.bind_ok, if_true, Out.ok.injEq, Prod.mk.injEq] at h
          obtain ⟨rfl, rfl⟩ := h
          obtain ⟨w, hw⟩ := List.length_eq_one_iff.1 h3
          exact ⟨rfl, read_whole R h0 hreg (by simpa using h1) h2 (by simp [hw])⟩
        · simp [Out.assert, h3] at h
      · rw [if_neg h2] at h; exact fresh h

end

/-! ## A write that is lost -/

/-- Just below one quarter, rounding to nearest gives one quarter. -/
theorem quarter : Nearest.nearest.rd (1 / 4 - 1 / 2 ^ 60) = 1 / 4 := by
  have hx : (0 : ℝ) < 1 / 4 - 1 / 2 ^ 60 := by norm_num
  have hl : Int.log 2 ((1 : ℝ) / 4 - 1 / 2 ^ 60) = -3 := by
    apply le_antisymm
    · have := (Int.lt_zpow_iff_log_lt (b := 2) (by norm_num) hx (x := -2)).1 (by norm_num)
      omega
    · exact (Int.zpow_le_iff_le_log (b := 2) (by norm_num) hx (x := -3)).1 (by norm_num)
  have he : Nearest.ex ((1 : ℝ) / 4 - 1 / 2 ^ 60) = -55 := by
    unfold Nearest.ex; rw [hl]; norm_num
  show Nearest.rd _ = _
  rw [Nearest.rd_pos hx]
  unfold Nearest.pos
  rw [he]
  have hs : ((1 : ℝ) / 4 - 1 / 2 ^ 60) / 2 ^ (-55 : ℤ) = 2 ^ 53 - 1 / 32 := by norm_num
  have hw : Nearest.whole ((2 : ℝ) ^ 53 - 1 / 32) = 2 ^ 53 := by
    have h1 := abs_le.1 (Nearest.abs_sub_whole ((2 : ℝ) ^ 53 - 1 / 32))
    have h2 : ((Nearest.whole ((2 : ℝ) ^ 53 - 1 / 32) : ℤ) : ℝ) < ((2 ^ 53 + 1 : ℤ) : ℝ) := by
      push_cast; linarith [h1.1]
    have h3 : ((2 ^ 53 - 1 : ℤ) : ℝ) < ((Nearest.whole ((2 : ℝ) ^ 53 - 1 / 32) : ℤ) : ℝ) := by
      push_cast; linarith [h1.2]
    have h4 := Int.cast_lt.1 h2
    have h5 := Int.cast_lt.1 h3
    omega
  rw [hs, hw]
  norm_num

/-- A grid with cells of size one quarter, one in each chunk, at the origin. -/
noncomputable def quarterGrid : Out (Grid ℝ Nat) :=
  initializeGrid Nearest.nearest (Iso3.translation ⟨0, 0, 0⟩) (1 / 4) (1 / 4) (1 / 4) 1 1 1 7

theorem fixed_eq (R : Rounding) {x : ℝ} (k e : ℤ) (hk : |k| ≤ 2 ^ 53) (h : x = (k : ℝ) * 2 ^ e) : R.rd x = x := by
  rw [h]; exact R.fixed k e hk

/-- With rounding to nearest a write very close to the upper boundary of a cell is lost: `SetCellValue` reports
`NOT_SET`, and a read finds the default. (With exact arithmetic `SetCellValue` always reports `SET_CELL`.) -/
theorem C163_lost_write : ∃ g : Grid ℝ Nat, quarterGrid = .ok g ∧
    setCellValue Nearest.nearest g ⟨-1 / 2 ^ 60, 1 / 8, 1 / 8⟩ 5 = .ok (.notSet, g) ∧
    getImmutable Nearest.nearest g ⟨-1 / 2 ^ 60, 1 / 8, 1 / 8⟩ = .ok (7, .notFound) := by
  have r1 : Nearest.nearest.rd 1 = 1 := Nearest.nearest.fp_one
  have r4 : Nearest.nearest.rd (1 / 4) = 1 / 4 := fixed_eq _ 1 (-2) (by norm_num) (by norm_num)
  have r8 : Nearest.nearest.rd (1 / 8) = 1 / 8 := fixed_eq _ 1 (-3) (by norm_num) (by norm_num)
  have r2 : Nearest.nearest.rd (1 / 2) = 1 / 2 := fixed_eq _ 1 (-1) (by norm_num) (by norm_num)
  have rn1 : Nearest.nearest.rd (-1) = -1 := by rw [Nearest.nearest.odd, r1]
  have rn4 : Nearest.nearest.rd (-(1 / 4)) = -(1 / 4) := by rw [Nearest.nearest.odd, r4]
  have r60 : Nearest.nearest.rd (-1 / 2 ^ 60) = -1 / 2 ^ 60 := fixed_eq _ (-1) (-60) (by norm_num) (by norm_num)
  have r58 : Nearest.nearest.rd (-1 / 2 ^ 60 / (1 / 4)) = -1 / 2 ^ 58 := by
    rw [show (-1 : ℝ) / 2 ^ 60 / (1 / 4) = -1 / 2 ^ 58 by norm_num]
    exact fixed_eq _ (-1) (-58) (by norm_num) (by norm_num)
  have hz : Fp3 Nearest.nearest ⟨0, 0, 0⟩ := ⟨Rounding.fp_zero _, Rounding.fp_zero _, Rounding.fp_zero _⟩
  have hl : Fp3 Nearest.nearest ⟨-1 / 2 ^ 60, 1 / 8, 1 / 8⟩ := ⟨r60, r8, r8⟩
  have hg : ∃ g, quarterGrid = .ok g ∧ g.initialized = true ∧ g.chunks = (fun _ => none) ∧ g.default = 7 ∧
      g.inverseOrigin = VoxelRounded.inverse Nearest.nearest (Iso3.translation ⟨0, 0, 0⟩) ∧
      (g.chunkX = 1 / 4 ∧ g.chunkY = 1 / 4 ∧ g.chunkZ = 1 / 4) ∧
      (g.cellX = 1 / 4 ∧ g.cellY = 1 / 4 ∧ g.cellZ = 1 / 4) ∧ (g.numX = 1 ∧ g.numY = 1 ∧ g.numZ = 1) := by
    have ha : |(1 : ℝ) / 4| = 1 / 4 := abs_of_pos (by norm_num)
    have hs : Nearest.nearest.rd (|(1 : ℝ) / 4| * Nearest.nearest.rd ((1 : ℤ) : ℝ)) = 1 / 4 := by
      rw [ha, Int.cast_one, r1, mul_one, r4]
    refine ⟨_, by
      unfold quarterGrid initializeGrid safetyCheckCells
      rw [if_neg (by norm_num)]
      simp only [Out.bind_ok]
      rw [show int64 (1 * 1) = .ok (1 * 1) by rfl]
      rfl, rfl, rfl, rfl, rfl, ⟨hs, hs, hs⟩, ⟨ha, ha, ha⟩, rfl, rfl, rfl⟩
  obtain ⟨g, e, hi, hch, hd, hinv, ⟨s1, s2, s3⟩, ⟨c1, c2, c3⟩, n1, n2, n3⟩ := hg
  have hp : VoxelRounded.apply Nearest.nearest g.inverseOrigin ⟨-1 / 2 ^ 60, 1 / 8, 1 / 8⟩ =
      ⟨-1 / 2 ^ 60, 1 / 8, 1 / 8⟩ := by
    rw [hinv, VoxelRounded.inverse_translation _ hz, VoxelRounded.apply_translation _ hl]
    simp only [neg_zero, add_zero, r60, r8]
  have f1 : ⌊(-1 : ℝ) / 2 ^ 58⌋ = -1 := by rw [Int.floor_eq_iff]; norm_num
  have f2 : ⌊(1 : ℝ) / 2⌋ = 0 := by rw [Int.floor_eq_iff]; norm_num
  have h84 : (1 : ℝ) / 8 / (1 / 4) = 1 / 2 := by norm_num
  have hreg : getContainingChunkRegion Nearest.nearest g ⟨-1 / 2 ^ 60, 1 / 8, 1 / 8⟩ = .ok ⟨-(1 / 4), 0, 0⟩ := by
    unfold getContainingChunkRegion
    rw [Out.assert_true hi]
    simp only [Out.bind_ok, s1, s2, s3, r58, f1, h84, r2, f2]
    rw [show int64 (-1) = .ok (-1) by rfl, show int64 0 = .ok 0 by rfl]
    simp only [Out.bind_ok, Int.cast_neg, Int.cast_one, Int.cast_zero, rn1, Rounding.zero, zero_mul, neg_mul, one_mul,
      rn4]
  refine ⟨g, e, ?_, ?_⟩
  · have hnew : ∃ c : Chunk ℝ Nat, newCellChunk Nearest.nearest ⟨-(1 / 4), 0, 0⟩ (1 / 4) (1 / 4) (1 / 4) 1 1 1 7 =
        .ok c ∧ c.base = ⟨-(1 / 4), 0, 0⟩ ∧ c.cellInit = true ∧ c.numX = 1 ∧
        (c.chunkX = 1 / 4 ∧ c.chunkY = 1 / 4 ∧ c.chunkZ = 1 / 4) ∧
        (c.cellX = 1 / 4 ∧ c.cellY = 1 / 4 ∧ c.cellZ = 1 / 4) := by
      have ha : |(1 : ℝ) / 4| = 1 / 4 := abs_of_pos (by norm_num)
      have hs : Nearest.nearest.rd (|(1 : ℝ) / 4| * Nearest.nearest.rd ((1 : ℤ) : ℝ)) = 1 / 4 := by
        rw [ha, Int.cast_one, r1, mul_one, r4]
      refine ⟨_, by
        unfold newCellChunk safetyCheckCells
        rw [if_neg (by norm_num)]
        simp only [Out.bind_ok]
        rw [show int64 (1 * 1) = .ok (1 * 1) by rfl, show int64 (1 * 1 * 1) = .ok (1 * 1 * 1) by rfl]
        rfl, rfl, rfl, rfl, ⟨hs, hs, hs⟩, ha, ha, ha⟩
    obtain ⟨c, hc, d1, d2, d3, ⟨d4, d5, d6⟩, d7, d8, d9⟩ := hnew
    have hidx : getLocationDataIndex Nearest.nearest c ⟨-1 / 2 ^ 60, 1 / 8, 1 / 8⟩ = .ok (-1) := by
      unfold getLocationDataIndex
      have q : (-1 : ℝ) / 2 ^ 60 - -(1 / 4) = 1 / 4 - 1 / 2 ^ 60 := by ring
      simp only [d1, q, quarter, sub_zero, r8, d4, d5, d6, d7, d8, d9, h84, r2]
      rw [if_neg (by norm_num), if_neg (by norm_num), div_self (by norm_num), r1]
      have t1 : truncate (1 : ℝ) = .ok 1 := VoxelRounded.truncate_of_mem (by norm_num) (by norm_num) (by norm_num)
        (by norm_num)
      have t2 : truncate (1 / 2 : ℝ) = .ok 0 := VoxelRounded.truncate_of_mem (by norm_num) (by norm_num)
        (by norm_num) (by norm_num)
      simp only [t1, t2, Out.bind_ok, d3]
      rw [if_pos (by norm_num)]
    have hset : chunkSetCell Nearest.nearest c ⟨-1 / 2 ^ 60, 1 / 8, 1 / 8⟩ 5 = .ok (false, c) := by
      unfold chunkSetCell getCellPosition
      rw [Out.assert_true d2, hidx]
      rfl
    unfold setCellValue
    rw [Out.assert_true hi]
    simp only [Out.bind_ok, hp, hreg, hch, setInNewChunk, c1, c2, c3, n1, n2, n3, hd, hc, hset, Bool.false_eq_true,
      if_false]
  · unfold getImmutable getRef
    rw [Out.assert_true hi]
    simp only [Out.bind_ok, hp, hreg, hch, readRef, hd]

/-! ## The hypotheses are met -/

/-- The centre of every cell is well inside it, as long as its index and the number of cells in a chunk are at most
`2 ^ 47`. -/
theorem wellInside_centre (i n : ℤ) (hi : |i| ≤ 2 ^ 47) (hn : n ≤ 2 ^ 47) : WellInside n ((i : ℝ) + 1 / 2) := by
  have hf : ⌊(i : ℝ) + 1 / 2⌋ = i := by rw [Int.floor_eq_iff]; constructor <;> linarith
  unfold WellInside
  rw [hf]
  have hi' : |(i : ℝ)| ≤ 2 ^ 47 := by exact_mod_cast hi
  have hn' : (n : ℝ) ≤ 2 ^ 47 := by exact_mod_cast hn
  have : unit * (|(i : ℝ)| + n) ≤ unit * (2 ^ 47 + 2 ^ 47) :=
    mul_le_mul_of_nonneg_left (by linarith) Rounding.unit_pos.le
  have h2 : unit * (2 ^ 47 + 2 ^ 47) = 1 / 32 := by unfold unit; norm_num
  constructor <;> linarith

/-- A grid with an offset, and a history on it that meets the hypotheses. -/
example : ∃ g : Grid ℝ Nat, initializeGrid Nearest.nearest (Iso3.translation ⟨1 / 8, 0, 0⟩) (1 / 4) (1 / 4) (1 / 4)
      2 2 2 7 = .ok g ∧ Fp3 Nearest.nearest ⟨1 / 8, 0, 0⟩ ∧
    (∀ op ∈ ([.setCell ⟨1 / 4, 1 / 8, 1 / 8⟩ 5, .get ⟨1 / 4, 1 / 8, 1 / 8⟩] : List (Op ℝ Nat)), WritesOnly op) ∧
    Fp3 Nearest.nearest ⟨1 / 4, 1 / 8, 1 / 8⟩ ∧
    CellInterior (1 / 4) (1 / 4) (1 / 4) 2 2 2 (relative ⟨1 / 8, 0, 0⟩ ⟨1 / 4, 1 / 8, 1 / 8⟩) := by
  have r4 : Nearest.nearest.rd (1 / 4) = 1 / 4 := fixed_eq _ 1 (-2) (by norm_num) (by norm_num)
  have r8 : Nearest.nearest.rd (1 / 8) = 1 / 8 := fixed_eq _ 1 (-3) (by norm_num) (by norm_num)
  refine ⟨_, by
      unfold initializeGrid safetyCheckCells
      rw [if_neg (by norm_num)]
      simp only [Out.bind_ok]
      rw [show int64 (2 * 2) = .ok (2 * 2) by rfl]
      rfl, ⟨r8, Rounding.fp_zero _, Rounding.fp_zero _⟩, ?_, ⟨r4, r8, r8⟩, ?_⟩
  · intro op hop
    simp only [List.mem_cons, List.not_mem_nil, or_false] at hop
    rcases hop with rfl | rfl <;> trivial
  · have h := wellInside_centre 0 2 (by norm_num) (by norm_num)
    have e1 : ((1 : ℝ) / 4 - 1 / 8) / (1 / 4) = ((0 : ℤ) : ℝ) + 1 / 2 := by norm_num
    have e2 : ((1 : ℝ) / 8 - 0) / (1 / 4) = ((0 : ℤ) : ℝ) + 1 / 2 := by norm_num
    refine ⟨?_, ?_, ?_⟩ <;> simp only [relative]
    · rw [e1]; exact h
    · rw [e2]; exact h
    · rw [e2]; exact h

end Verif.HashedGridRounded
