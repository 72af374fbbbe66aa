import Verif.Lemmas.HashedGridReferences
import Verif.Props.HashedGrid

/-!
# Property C207 (dynamic_spatial_hashed_voxel_grid.hpp): how long references into a hashed voxel grid are valid
-/
namespace Verif.HashedGridReferences
open Verif Verif.Voxel Verif.HashedGrid

variable {K T : Type} [Field K] [LinearOrder K] [IsStrictOrderedRing K] [FloorRing K]

/-- A grid that was made, in some state. -/
theorem reached_rel {origin : Iso3 K} (ho : IsIsometry origin) {cx cy cz : K} {nx ny nz : Int}
    (hf : nx * ny * nz < 2 ^ 63) {d : T} {g : HashedGrid.Grid K T}
    (h : HashedGrid.initializeGrid origin cx cy cz nx ny nz d = .ok g) {m : Live K T} (hm : Reached g m) :
    ∃ s, Rel m s ∧ shapeOf m.grid = ⟨cx, cy, cz, nx, ny, nz⟩ ∧ m.grid.origin = origin := by
  obtain ⟨hh, ho', ⟨h1, h2, h3⟩, h4, h5, h6⟩ := initializeGrid_holds ho hf h
  obtain ⟨ops, r, e⟩ := hm
  obtain ⟨s, -, rs, sh, o⟩ := agree_ok (run_agrees ops
    (m := ⟨g, fun _ => 0, []⟩) (s := ⟨⟨d, fun _ => .unset⟩, []⟩) ⟨hh, .nil⟩) e
  refine ⟨s, rs, sh.trans ?_, o.trans ho'⟩
  simp only [shapeOf, h1, h2, h3, h4, h5, h6]

/-- **C207.** A history of reads, writes, kept references and uses of them, on a grid that was made, does and reports what
it does on a table of values in which each reference names a cell, a chunk or the value for locations without one. It is
undefined exactly when it uses a reference to something that is gone, or a location whose chunk cannot be numbered. -/
theorem C207_history (origin : Iso3 K) (ho : IsIsometry origin) (cx cy cz : K) (nx ny nz : Int)
    (hf : nx * ny * nz < 2 ^ 63) (d : T) (g : HashedGrid.Grid K T)
    (h : HashedGrid.initializeGrid origin cx cy cz nx ny nz d = .ok g) (ops : List (RefOp K T)) :
    results (refRun ⟨g, fun _ => 0, []⟩ ops) =
      results (refSpecRun ⟨cx, cy, cz, nx, ny, nz⟩ ⟨⟨d, fun _ => .unset⟩, []⟩ ops) := by
  obtain ⟨hh, ho', ⟨h1, h2, h3⟩, h4, h5, h6⟩ := initializeGrid_holds ho hf h
  have e : shapeOf g = ⟨cx, cy, cz, nx, ny, nz⟩ := by simp only [shapeOf, h1, h2, h3, h4, h5, h6]
  have := run_agrees ops (m := ⟨g, fun _ => 0, []⟩) (s := ⟨⟨d, fun _ => .unset⟩, []⟩) ⟨hh, .nil⟩
  rw [e] at this
  rcases this with ⟨e1, e2⟩ | ⟨r, m, s, e1, e2, -⟩ <;> rw [e1, e2] <;> rfl

/-- What keeping a reference does. -/
theorem hold_rel {m m1 : Live K T} {s : RefState T} (r : Rel m s) {p : Vec3 K} {f : Found}
    (e : hold m (atFrame m.grid.origin p) = .ok (f, m1)) :
    Representable (chunkIn m.grid p) ∧ f = s.contents.found (chunkIn m.grid p) ∧ m1.grid = m.grid ∧
    Rel m1 ⟨s.contents, s.held ++ [some (match s.contents.chunks (chunkIn m.grid p) with
        | .unset => .default
        | .whole _ => .whole (chunkIn m.grid p)
        | .cells _ => .cell (cellIn m.grid p))]⟩ := by
  have e' : refStep m (.hold p) = .ok (.held f, m1) := by simp only [refStep, e, Out.bind_ok]
  obtain ⟨s1, e1, r1, -, -⟩ := agree_ok (step_agrees r (.hold p)) e'
  simp only [refSpecStep] at e1
  have ek : (shapeOf m.grid).chunk ((shapeOf m.grid).cell p) = chunkIn m.grid p := rfl
  have ec : (shapeOf m.grid).cell p = cellIn m.grid p := rfl
  rw [ek, ec] at e1
  split at e1
  · rename_i hp
    simp only [Out.ok.injEq, Prod.mk.injEq, RefRes.held.injEq] at e1
    refine ⟨hp, e1.1.symm, ?_, e1.2 ▸ r1⟩
    unfold hold at e
    obtain ⟨y, -, e⟩ := Out.bind_eq_ok.1 e
    simp only [Out.ok.injEq, Prod.mk.injEq] at e
    rw [← e.2]
  · cases e1

theorem held_last {m : Live K T} {s : RefState T} (r : Rel m s) (t : Option Target) :
    (s.held ++ [t])[m.held.length]? = some t := by
  rw [r.links.length_eq]; simp

/-- Where a reference that was found refers to. -/
theorem place_of {m : Live K T} {s : RefState T} {p : Vec3 K} (hf : s.contents.found (chunkIn m.grid p) ≠ .notFound) :
    Place (shapeOf m.grid) (chunkIn m.grid p) (s.contents.found (chunkIn m.grid p))
      (match s.contents.chunks (chunkIn m.grid p) with
        | .unset => .default
        | .whole _ => .whole (chunkIn m.grid p)
        | .cells _ => .cell (cellIn m.grid p)) := by
  unfold HashedGrid.Contents.found at hf ⊢
  cases hs : s.contents.chunks (chunkIn m.grid p) with
  | unset => rw [hs] at hf; exact (hf rfl).elim
  | whole w => exact ⟨rfl, rfl⟩
  | cells w => exact ⟨rfl, rfl⟩

/-- What the value of a reference is, when it refers to what is found at a location. -/
theorem value_at {sh : Shape K} {s : RefState T} {i : Nat} {t : Target} {c : Index} {f : Found}
    (hp : t = .whole (sh.chunk c) ∧ f = .inChunk ∨ t = .cell c ∧ f = .inCell)
    (h : Refers s i t (sh.chunk c) f) : s.value sh i = some (s.contents.value (sh.chunk c) c) := by
  obtain ⟨h1, h2⟩ := h
  unfold RefState.value
  rw [h1]
  rcases hp with ⟨rfl, rfl⟩ | ⟨rfl, rfl⟩
  · obtain ⟨v, hv⟩ := found_whole h2
    simp only [RefState.target, HashedGrid.Contents.value, hv]
  · obtain ⟨v, hv⟩ := found_cells h2
    simp only [RefState.target, HashedGrid.Contents.value, hv]

/-- What the location reads as after writing through a reference to what is found there. -/
theorem write_at {sh : Shape K} {s : RefState T} {i : Nat} {t : Target} {c : Index} {f : Found} (w : T)
    (hp : t = .whole (sh.chunk c) ∧ f = .inChunk ∨ t = .cell c ∧ f = .inCell)
    (h : Refers s i t (sh.chunk c) f) :
    ∃ s', refSpecStep sh s (.write i w) = .ok (.nothing, s') ∧ s'.contents.value (sh.chunk c) c = w ∧
      s'.contents.found (sh.chunk c) = f := by
  obtain ⟨h1, h2⟩ := h
  simp only [refSpecStep, h1]
  rcases hp with ⟨rfl, rfl⟩ | ⟨rfl, rfl⟩
  · refine ⟨_, rfl, ?_, found_put_self _ _ _⟩
    simp [HashedGrid.Contents.value, HashedGrid.Contents.put]
  · refine ⟨_, rfl, ?_, found_put_self _ _ _⟩
    simp [HashedGrid.Contents.value, HashedGrid.Contents.put]

/-- **C207.** A reference found in a cell stays valid as long as the chunk is not set as a whole, and one found in a
chunk as long as none of its cells is set. Until then reading through it gives what the location reads as now, and what
is written through it is what the location reads as. -/
theorem C207_follows (origin : Iso3 K) (ho : IsIsometry origin) (cx cy cz : K) (nx ny nz : Int)
    (hb : nx * ny * nz < 2 ^ 63) (d : T) (g : HashedGrid.Grid K T)
    (h : HashedGrid.initializeGrid origin cx cy cz nx ny nz d = .ok g) (m m1 m' : Live K T) (hm : Reached g m)
    (p : Vec3 K) (f : Found) (hh : hold m (atFrame origin p) = .ok (f, m1)) (hf : f ≠ .notFound)
    (ops : List (RefOp K T)) (x : List (RefRes T)) (hr : refRun m1 ops = .ok (x, m'))
    (hn : ∀ op ∈ ops, ¬ Replaces ⟨cx, cy, cz, nx, ny, nz⟩ (chunkOf nx ny nz (cellOf cx cy cz p)) f op) :
    (∃ v, readHeld m' m.held.length = .ok v ∧ HashedGrid.getImmutable m'.grid (atFrame origin p) = .ok (v, f)) ∧
    ∀ w, ∃ m'', writeHeld m' m.held.length w = .ok m'' ∧
      HashedGrid.getImmutable m''.grid (atFrame origin p) = .ok (w, f) := by
  obtain ⟨s, r, sh, o⟩ := reached_rel ho hb h hm
  rw [← o] at hh
  obtain ⟨hp, rfl, hg, r1⟩ := hold_rel r hh
  have hpl := place_of hf
  have hcase : ∃ t, (match s.contents.chunks (chunkIn m.grid p) with
        | .unset => Target.default
        | .whole _ => .whole (chunkIn m.grid p)
        | .cells _ => .cell (cellIn m.grid p)) = t := ⟨_, rfl⟩
  obtain ⟨t, ht⟩ := hcase
  rw [ht] at hpl r1
  have hk : chunkOf nx ny nz (cellOf cx cy cz p) = chunkIn m.grid p := by
    have : (shapeOf m.grid).chunk ((shapeOf m.grid).cell p) = chunkIn m.grid p := rfl
    rw [← this, sh]; rfl
  have hsh : shapeOf m1.grid = shapeOf m.grid := by rw [hg]
  obtain ⟨s', -, r', sh', o', k1, -⟩ := refers_run ops r1 (hsh ▸ hpl) hr
    ⟨held_last r (some t), rfl⟩
  have hR := k1 (by rw [hk] at hn; rw [hsh, sh]; exact hn)
  have hsh' : shapeOf m'.grid = shapeOf m.grid := sh'.trans hsh
  have hor : m'.grid.origin = origin := by rw [o', hg, o]
  have hkk : chunkIn m.grid p = (shapeOf m'.grid).chunk (cellIn m'.grid p) := by
    show (shapeOf m.grid).chunk ((shapeOf m.grid).cell p) = (shapeOf m'.grid).chunk ((shapeOf m'.grid).cell p)
    rw [hsh']
  have hcc : cellIn m.grid p = cellIn m'.grid p := by
    show (shapeOf m.grid).cell p = (shapeOf m'.grid).cell p
    rw [hsh']
  have hk' : chunkIn m'.grid p = (shapeOf m'.grid).chunk (cellIn m'.grid p) := rfl
  have hc : t = .whole ((shapeOf m'.grid).chunk (cellIn m'.grid p)) ∧ s.contents.found (chunkIn m.grid p) = .inChunk ∨
      t = .cell (cellIn m'.grid p) ∧ s.contents.found (chunkIn m.grid p) = .inCell := by
    rw [← ht, ← hkk, ← hcc]
    unfold HashedGrid.Contents.found at hf ⊢
    cases hs : s.contents.chunks (chunkIn m.grid p) with
    | unset => rw [hs] at hf; exact (hf rfl).elim
    | whole w => left; exact ⟨rfl, rfl⟩
    | cells w => right; exact ⟨rfl, rfl⟩
  have hR' : Refers s' m.held.length t ((shapeOf m'.grid).chunk (cellIn m'.grid p))
      (s.contents.found (chunkIn m.grid p)) := hkk ▸ hR
  have hrep : Representable (chunkIn m'.grid p) := by rw [hk', ← hkk]; exact hp
  constructor
  · refine ⟨s'.contents.value (chunkIn m'.grid p) (cellIn m'.grid p), ?_, ?_⟩
    · rw [r'.readHeld, value_at hc hR']; rfl
    · rw [← hor, get_eq r' p hrep, hk', hR'.2]
  · intro w
    obtain ⟨s2, e2, v2, f2⟩ := write_at w hc hR'
    rcases step_agrees r' (.write m.held.length w) with ⟨-, c⟩ | ⟨x3, m3, s3, a3, b3, r3, sh3, o3⟩
    · rw [e2] at c; cases c
    · rw [e2] at b3
      simp only [Out.ok.injEq, Prod.mk.injEq] at b3
      obtain ⟨rfl, rfl⟩ := b3
      simp only [refStep] at a3
      obtain ⟨y, b1, b2⟩ := Out.bind_eq_ok.1 a3
      simp only [Out.ok.injEq, Prod.mk.injEq, true_and] at b2
      refine ⟨y, b1, ?_⟩
      rw [b2]
      have hk3 : chunkIn m3.grid p = (shapeOf m'.grid).chunk (cellIn m'.grid p) := by
        show (shapeOf m3.grid).chunk ((shapeOf m3.grid).cell p) = _
        rw [sh3]; rfl
      have hc3 : cellIn m3.grid p = cellIn m'.grid p := by
        show (shapeOf m3.grid).cell p = _
        rw [sh3]; rfl
      rw [← hor, ← o3, get_eq r3 p (by rw [hk3, ← hk']; exact hrep), hk3, hc3, v2, f2]

/-- **C207.** Once a chunk is set as a whole, the references that were found in its cells are no longer valid, and once
a cell is set in a chunk that has one value, those found in the chunk: to read or write through them is undefined,
whatever happens in between and later. -/
theorem C207_expires (origin : Iso3 K) (ho : IsIsometry origin) (cx cy cz : K) (nx ny nz : Int)
    (hb : nx * ny * nz < 2 ^ 63) (d : T) (g : HashedGrid.Grid K T)
    (h : HashedGrid.initializeGrid origin cx cy cz nx ny nz d = .ok g) (m m1 m' : Live K T) (hm : Reached g m)
    (p : Vec3 K) (f : Found) (hh : hold m (atFrame origin p) = .ok (f, m1)) (hf : f ≠ .notFound)
    (ops : List (RefOp K T)) (x : List (RefRes T)) (hr : refRun m1 ops = .ok (x, m'))
    (hn : ∃ op ∈ ops, Replaces ⟨cx, cy, cz, nx, ny, nz⟩ (chunkOf nx ny nz (cellOf cx cy cz p)) f op) :
    readHeld m' m.held.length = .ub ∧ ∀ w, writeHeld m' m.held.length w = .ub := by
  obtain ⟨s, r, sh, o⟩ := reached_rel ho hb h hm
  rw [← o] at hh
  obtain ⟨hp, rfl, hg, r1⟩ := hold_rel r hh
  have hpl := place_of hf
  have hk : chunkOf nx ny nz (cellOf cx cy cz p) = chunkIn m.grid p := by
    have : (shapeOf m.grid).chunk ((shapeOf m.grid).cell p) = chunkIn m.grid p := rfl
    rw [← this, sh]; rfl
  have hsh : shapeOf m1.grid = shapeOf m.grid := by rw [hg]
  obtain ⟨s', -, r', -, -, -, k2⟩ := refers_run ops r1 (hsh ▸ hpl) hr ⟨held_last r _, rfl⟩
  have hG := k2 (by rw [hk] at hn; rw [hsh, sh]; exact hn)
  constructor
  · rw [r'.readHeld]
    unfold RefState.value
    rw [hG]; rfl
  · intro w
    rcases step_agrees r' (.write m.held.length w) with ⟨a, -⟩ | ⟨x3, m3, s3, -, b3, -⟩
    · simp only [refStep] at a
      cases hw : writeHeld m' m.held.length w with
      | ub => rfl
      | ok v => rw [hw] at a; cases a
      | throws v => rw [hw] at a; cases a
      | abort => rw [hw] at a; cases a
    · simp only [refSpecStep, hG] at b3; cases b3

/-- **C207.** A reference found at a location without a value refers to the grid's default from then on: it is always
valid, reads the default as it is, and what is written through it becomes the default, also when the location has got a
value of its own. -/
theorem C207_default (origin : Iso3 K) (ho : IsIsometry origin) (cx cy cz : K) (nx ny nz : Int)
    (hb : nx * ny * nz < 2 ^ 63) (d : T) (g : HashedGrid.Grid K T)
    (h : HashedGrid.initializeGrid origin cx cy cz nx ny nz d = .ok g) (m m1 m' : Live K T) (hm : Reached g m)
    (p : Vec3 K) (hh : hold m (atFrame origin p) = .ok (.notFound, m1))
    (ops : List (RefOp K T)) (x : List (RefRes T)) (hr : refRun m1 ops = .ok (x, m')) :
    readHeld m' m.held.length = .ok m'.grid.default ∧
    ∀ w, writeHeld m' m.held.length w = .ok { m' with grid := { m'.grid with default := w } } := by
  obtain ⟨s, r, sh, o⟩ := reached_rel ho hb h hm
  rw [← o] at hh
  obtain ⟨hp, hf, hg, r1⟩ := hold_rel r hh
  have hu : s.contents.chunks (chunkIn m.grid p) = .unset := by
    unfold HashedGrid.Contents.found at hf
    split at hf
    · assumption
    · cases hf
    · cases hf
  rw [hu] at r1
  obtain ⟨s', e', r', -, -⟩ := agree_ok (run_agrees ops r1) hr
  have hd := default_run (i := m.held.length) ops e' (held_last r (some .default))
  rcases r'.get? m.held.length with ⟨-, c⟩ | ⟨q, t, e1, e2, hl⟩
  · rw [hd] at c; cases c
  · rw [hd] at e2
    injection e2 with e2
    subst e2
    have hq : q.ref = .default := hl
    constructor
    · unfold readHeld
      rw [e1]
      simp only [valid, hq, if_true, HashedGrid.readRef]
    · intro w
      unfold writeHeld
      rw [e1]
      simp only [valid, hq, if_true, HashedGrid.writeRef, Out.bind_ok]

omit [IsStrictOrderedRing K] in
/-- **C207.** Setting a cell, a chunk or the default to what a valid reference into the same grid refers to does what
setting it to that value does, also when the reference is to an element of the chunk that is replaced. -/
theorem C207_own (m : Live K T) (i : Nat) (v : T) (hv : readHeld m i = .ok v) (location : Vec3 K) :
    setCellArg m location (.held i) = setCellArg m location (.value v) ∧
    setChunkArg m location (.held i) = setChunkArg m location (.value v) ∧
    setDefaultArg m (.held i) = setDefaultArg m (.value v) := by
  have e : HashedGridReferences.readArg m (.held i) = HashedGridReferences.readArg m (.value v) := hv
  refine ⟨?_, ?_, ?_⟩
  · unfold setCellArg setInNewChunkArg chunkSetCellArg
    simp only [e]
  · unfold setChunkArg newWholeArg
    simp only [e]
  · unfold setDefaultArg
    simp only [e]

omit [IsStrictOrderedRing K] in
/-- **C207.** With arguments that are not references into the grid, the functions do what C39 says. -/
theorem C207_separate (m : Live K T) (v : T) (location : Vec3 K) :
    (do
      let r ← setCellArg m location (.value v)
      .ok (r.1, r.2.grid)) = HashedGrid.setCellValue m.grid location v ∧
    (do
      let r ← setChunkArg m location (.value v)
      .ok (r.1, r.2.grid)) = HashedGrid.setChunkValue m.grid location v := by
  have hn : ∀ region p i, (do
      let r ← setInNewChunkArg m region p i (.value v)
      .ok (r.1, r.2.grid)) = HashedGrid.setInNewChunk m.grid region p i v := by
    intro region p i
    unfold setInNewChunkArg HashedGrid.setInNewChunk chunkSetCellArg HashedGrid.chunkSetCell
    cases newCellChunk region m.grid.cellX m.grid.cellY m.grid.cellZ m.grid.numX m.grid.numY m.grid.numZ i with
    | ok c =>
      simp only [Out.bind_ok]
      cases getCellPosition c p with
      | ok n => cases n <;> rfl
      | throws e => rfl
      | abort => rfl
      | ub => rfl
    | throws e => rfl
    | abort => rfl
    | ub => rfl
  have hw : ∀ region, (do
      let r ← newWholeArg m region (.value v)
      .ok (r.1, r.2.grid)) = (do
      let c ← newWholeChunk region m.grid.chunkX m.grid.chunkY m.grid.chunkZ v
      .ok (.setChunk, putChunk m.grid region c)) := by
    intro region
    unfold newWholeArg HashedGridReferences.readArg
    simp only [Out.bind_ok]
    cases newWholeChunk region m.grid.chunkX m.grid.chunkY m.grid.chunkZ v <;> rfl
  constructor
  · unfold setCellArg HashedGrid.setCellValue
    cases Out.assert (m.grid.initialized = true) with
    | ok u =>
      simp only [Out.bind_ok]
      cases getContainingChunkRegion m.grid (m.grid.inverseOrigin.apply location) with
      | ok region =>
        simp only [Out.bind_ok]
        cases m.grid.chunks region with
        | none => exact hn _ _ _
        | some ch =>
          dsimp only
          by_cases h1 : ch.cellInit = true
          · simp only [h1, if_true, chunkSetCellArg, HashedGrid.chunkSetCell]
            cases getCellPosition ch (m.grid.inverseOrigin.apply location) with
            | ok n => cases n <;> rfl
            | throws e => rfl
            | abort => rfl
            | ub => rfl
          · simp only [h1]
            by_cases h2 : ch.chunkInit = true
            · simp only [h2, if_true]
              cases getChunkValue ch with
              | ok w => exact hn _ _ _
              | throws e => rfl
              | abort => rfl
              | ub => rfl
            · simp only [h2]
              exact hn _ _ _
      | throws e => rfl
      | abort => rfl
      | ub => rfl
    | throws e => rfl
    | abort => rfl
    | ub => rfl
  · unfold setChunkArg HashedGrid.setChunkValue
    cases Out.assert (m.grid.initialized = true) with
    | ok u =>
      simp only [Out.bind_ok]
      cases getContainingChunkRegion m.grid (m.grid.inverseOrigin.apply location) with
      | ok region =>
        simp only [Out.bind_ok]
        cases m.grid.chunks region with
        | none => exact hw _
        | some ch =>
          dsimp only
          by_cases h1 : ch.cellInit = true
          · simp only [h1, if_true]
            exact hw _
          · simp only [h1]
            by_cases h2 : ch.chunkInit = true
            · simp only [h2, if_true, HashedGridReferences.readArg, Out.bind_ok]
              cases chunkSetValue ch v with
              | ok r => cases h : r.1 <;> simp [h] <;> rfl
              | throws e => rfl
              | abort => rfl
              | ub => rfl
            · simp only [h2]
              exact hw _
      | throws e => rfl
      | abort => rfl
      | ub => rfl
    | throws e => rfl
    | abort => rfl
    | ub => rfl

/-- A reference into a cell reads what the cell gets, and writes it; when the chunk is set to what it refers to, it gets
that value; then the reference is gone. One to the default stays. -/
example : ∃ g : HashedGrid.Grid Rat Nat, unitGrid = .ok g ∧
    results (refRun ⟨g, fun _ => 0, []⟩ [.hold ⟨0, 0, 0⟩, .setCell ⟨0, 0, 0⟩ (.value 5), .hold ⟨0, 0, 0⟩,
      .setCell ⟨0, 0, 0⟩ (.value 6), .read 1, .write 1 8, .get ⟨0, 0, 0⟩, .setChunk ⟨1, 1, 1⟩ (.held 1),
      .get ⟨1, 0, 0⟩, .read 0, .write 0 9, .getDefault]) =
    .ok [.held .notFound, .wrote .setCell, .held .inCell, .wrote .setCell, .val 6, .nothing, .read 8 .inCell,
      .wrote .setChunk, .read 8 .inChunk, .val 7, .nothing, .val 9] ∧
    results (refRun ⟨g, fun _ => 0, []⟩ [.setCell ⟨0, 0, 0⟩ (.value 5), .hold ⟨0, 0, 0⟩,
      .setChunk ⟨1, 1, 1⟩ (.value 8), .read 0]) = .ub := by
  obtain ⟨g, hg, ho⟩ := unitGrid_ok
  refine ⟨g, hg, ?_, ?_⟩
  · rw [C207_history (Iso3.translation ⟨0, 0, 0⟩) (translation_isometry _) (1 : Rat) 1 1 2 2 2 (by norm_num) 7 g hg]
    decide +kernel
  · rw [C207_history (Iso3.translation ⟨0, 0, 0⟩) (translation_isometry _) (1 : Rat) 1 1 2 2 2 (by norm_num) 7 g hg]
    decide +kernel

theorem results_ok {α β : Type} {x : Out (α × β)} {r : α} (h : results x = .ok r) : ∃ b, x = .ok (r, b) := by
  cases x with
  | ok y =>
    simp only [results, Out.ok.injEq] at h
    exact ⟨y.2, by rw [← h]⟩
  | throws e => cases h
  | abort => cases h
  | ub => cases h

/-- The hypotheses of the theorems on single references are met: there are references found in a cell, in a chunk and
nowhere, with histories after them of both kinds. -/
example : ∃ g : HashedGrid.Grid Rat Nat, unitGrid = .ok g ∧
    (∃ m m1 m' x, Reached g m ∧ hold m (atFrame (Iso3.translation ⟨0, 0, 0⟩) ⟨0, 0, 0⟩) = .ok (.inCell, m1) ∧
      refRun m1 [.setCell ⟨1, 0, 0⟩ (.held 0), .setChunk ⟨2, 0, 0⟩ (.value 4)] = .ok (x, m') ∧
      ∀ op ∈ ([.setCell ⟨1, 0, 0⟩ (.held 0), .setChunk ⟨2, 0, 0⟩ (.value 4)] : List (RefOp Rat Nat)),
        ¬ Replaces ⟨1, 1, 1, 2, 2, 2⟩ (chunkOf 2 2 2 (cellOf (1 : Rat) 1 1 ⟨0, 0, 0⟩)) .inCell op) ∧
    (∃ m m1 m' x, Reached g m ∧ hold m (atFrame (Iso3.translation ⟨0, 0, 0⟩) ⟨0, 0, 0⟩) = .ok (.inChunk, m1) ∧
      refRun m1 [.setCell ⟨1, 0, 0⟩ (.held 0)] = .ok (x, m') ∧
      Replaces (K := Rat) (T := Nat) ⟨1, 1, 1, 2, 2, 2⟩ (chunkOf 2 2 2 (cellOf (1 : Rat) 1 1 ⟨0, 0, 0⟩)) .inChunk
        (.setCell ⟨1, 0, 0⟩ (.held 0))) ∧
    (∃ m m1 m' x, Reached g m ∧ hold m (atFrame (Iso3.translation ⟨0, 0, 0⟩) ⟨0, 0, 0⟩) = .ok (.notFound, m1) ∧
      refRun m1 [.setCell ⟨0, 0, 0⟩ (.held 0)] = .ok (x, m')) := by
  obtain ⟨g, hg, ho⟩ := unitGrid_ok
  have key : ∀ (op : List (RefOp Rat Nat)) (ops : List (RefOp Rat Nat)) (f : Found) (r1 r2 : List (RefRes Nat)),
      r1.length = op.length →
      results (refSpecRun ⟨1, 1, 1, 2, 2, 2⟩ ⟨⟨7, fun _ => .unset⟩, []⟩ (op ++ .hold ⟨0, 0, 0⟩ :: ops)) =
        .ok (r1 ++ .held f :: r2) →
      ∃ m m1 m' x, Reached g m ∧ hold m (atFrame (Iso3.translation ⟨0, 0, 0⟩) ⟨0, 0, 0⟩) = .ok (f, m1) ∧
        refRun m1 ops = .ok (x, m') := by
    intro op ops f r1 r2 hl hr
    rw [← C207_history (Iso3.translation ⟨0, 0, 0⟩) (translation_isometry _) (1 : Rat) 1 1 2 2 2 (by norm_num) 7 g hg] at hr
    obtain ⟨m', e⟩ := results_ok hr
    have app : ∀ (a b : List (RefOp Rat Nat)) (m0 : Live Rat Nat) (y : List (RefRes Nat)) (mm : Live Rat Nat),
        refRun m0 (a ++ b) = .ok (y, mm) → ∃ ya yb m1, refRun m0 a = .ok (ya, m1) ∧ refRun m1 b = .ok (yb, mm) ∧
          y = ya ++ yb ∧ ya.length = a.length := by
      intro a
      induction a with
      | nil => intro b m0 y mm e; exact ⟨[], y, m0, rfl, e, rfl, rfl⟩
      | cons o a ih =>
        intro b m0 y mm e
        simp only [List.cons_append, refRun] at e
        obtain ⟨⟨x1, m1⟩, e1, e⟩ := Out.bind_eq_ok.1 e
        obtain ⟨⟨x2, m2⟩, e2, e⟩ := Out.bind_eq_ok.1 e
        simp only [Out.ok.injEq, Prod.mk.injEq] at e
        obtain ⟨rfl, rfl⟩ := e
        obtain ⟨ya, yb, m3, f1, f2, rfl, f4⟩ := ih b m1 x2 m2 e2
        exact ⟨x1 :: ya, yb, m3, by simp only [refRun, e1, Out.bind_ok, f1], f2, rfl, by simp [f4]⟩
    obtain ⟨ya, yb, m1, f1, f2, f3, f4⟩ := app _ _ _ _ _ e
    simp only [refRun] at f2
    obtain ⟨⟨x1, m2⟩, e1, e2⟩ := Out.bind_eq_ok.1 f2
    obtain ⟨⟨x2, m3⟩, e3, e4⟩ := Out.bind_eq_ok.1 e2
    simp only [Out.ok.injEq, Prod.mk.injEq] at e4
    obtain ⟨rfl, rfl⟩ := e4
    obtain ⟨-, h2⟩ := List.append_inj f3 (hl.trans f4.symm)
    injection h2 with h2 h3
    subst h2
    have hm : Reached g m1 := ⟨_, _, f1⟩
    obtain ⟨-, -, -, o⟩ := reached_rel (translation_isometry _) (by norm_num) hg hm
    refine ⟨m1, m2, m3, x2, hm, ?_, e3⟩
    simp only [refStep, o] at e1
    obtain ⟨⟨y1, y2⟩, e5, e6⟩ := Out.bind_eq_ok.1 e1
    simp only [Out.ok.injEq, Prod.mk.injEq, RefRes.held.injEq] at e6
    rw [e5, e6.1, e6.2]
  refine ⟨g, hg, ?_, ?_, ?_⟩
  · obtain ⟨m, m1, m', x, a, b, c⟩ := key [.setCell ⟨0, 0, 0⟩ (.value 5)]
      [.setCell ⟨1, 0, 0⟩ (.held 0), .setChunk ⟨2, 0, 0⟩ (.value 4)] .inCell [.wrote .setCell]
      [.wrote .setCell, .wrote .setChunk] rfl (by decide +kernel)
    refine ⟨m, m1, m', x, a, b, c, ?_⟩
    intro op hop
    simp only [List.mem_cons, List.not_mem_nil, or_false] at hop
    rcases hop with rfl | rfl
    · exact fun q => q.2 rfl
    · exact fun q => absurd q.1 (by decide +kernel)
  · obtain ⟨m, m1, m', x, a, b, c⟩ := key [.setChunk ⟨0, 0, 0⟩ (.value 5)]
      [.setCell ⟨1, 0, 0⟩ (.held 0)] .inChunk [.wrote .setChunk] [.wrote .setCell] rfl (by decide +kernel)
    exact ⟨m, m1, m', x, a, b, c, by decide +kernel, by decide⟩
  · exact key [] [.setCell ⟨0, 0, 0⟩ (.held 0)] .notFound [] [.wrote .setCell] rfl (by decide +kernel)

end Verif.HashedGridReferences
