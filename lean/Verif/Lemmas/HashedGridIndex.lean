import Verif.Lemmas.HashedGrid

/-! # Hashed voxel grids: the stored chunks -/
namespace Verif.HashedGrid
open Verif Verif.Voxel

set_option linter.unusedSectionVars false

section
variable {K T : Type} [Field K] [LinearOrder K] [IsStrictOrderedRing K] [FloorRing K]

/-- A chunk with a single value of the grid `g`. -/
structure WholeChunk (g : Grid K T) (k : Index) (ch : Chunk K T) : Prop where
  base : ch.base = baseOf g k
  cell : ch.cellInit = false
  whole : ch.chunkInit = true
  len : ch.data.length = 1
  sx : ch.chunkX = g.chunkX
  sy : ch.chunkY = g.chunkY
  sz : ch.chunkZ = g.chunkZ
  nx : ch.numX = 1
  ny : ch.numY = 1
  nz : ch.numZ = 1

/-- What holds of a stored chunk. -/
def Stored (g : Grid K T) (k : Index) (ch : Chunk K T) : Prop :=
  CellChunk g k ch ∧ ch.chunkInit = false ∨ WholeChunk g k ch

/-- What holds of a grid between calls. -/
structure Inv (g : Grid K T) : Prop where
  geo : Geo g
  chunks : ∀ r ch, g.chunks r = some ch → ∃ k, Representable k ∧ r = baseOf g k ∧ Stored g k ch

/-- Two grids with the same geometry. -/
structure Same (g g' : Grid K T) : Prop where
  init : g'.initialized = g.initialized
  origin : g'.origin = g.origin
  inv : g'.inverseOrigin = g.inverseOrigin
  cx : g'.cellX = g.cellX
  cy : g'.cellY = g.cellY
  cz : g'.cellZ = g.cellZ
  nx : g'.numX = g.numX
  ny : g'.numY = g.numY
  nz : g'.numZ = g.numZ
  sx : g'.chunkX = g.chunkX
  sy : g'.chunkY = g.chunkY
  sz : g'.chunkZ = g.chunkZ

theorem Same.refl (g : Grid K T) : Same g g := ⟨rfl, rfl, rfl, rfl, rfl, rfl, rfl, rfl, rfl, rfl, rfl, rfl⟩

theorem Same.trans {a b c : Grid K T} (h1 : Same a b) (h2 : Same b c) : Same a c :=
  ⟨h2.init.trans h1.init, h2.origin.trans h1.origin, h2.inv.trans h1.inv, h2.cx.trans h1.cx, h2.cy.trans h1.cy,
    h2.cz.trans h1.cz, h2.nx.trans h1.nx, h2.ny.trans h1.ny, h2.nz.trans h1.nz, h2.sx.trans h1.sx, h2.sy.trans h1.sy,
    h2.sz.trans h1.sz⟩

theorem Geo.same {g g' : Grid K T} (h : Geo g) (s : Same g g') : Geo g' := by
  constructor
  · rw [s.init]; exact h.init
  · rw [s.origin]; exact h.iso
  · rw [s.inv, s.origin]; exact h.inv
  · rw [s.cx]; exact h.cx
  · rw [s.cy]; exact h.cy
  · rw [s.cz]; exact h.cz
  · rw [s.nx]; exact h.nx
  · rw [s.ny]; exact h.ny
  · rw [s.nz]; exact h.nz
  · rw [s.sx, s.cx, s.nx]; exact h.sx
  · rw [s.sy, s.cy, s.ny]; exact h.sy
  · rw [s.sz, s.cz, s.nz]; exact h.sz
  · rw [s.nx, s.ny, s.nz]; exact h.fits

theorem baseOf_same {g g' : Grid K T} (s : Same g g') (k : Index) : baseOf g' k = baseOf g k := by
  simp only [baseOf, s.sx, s.sy, s.sz]

theorem Stored.same {g g' : Grid K T} (s : Same g g') {k : Index} {ch : Chunk K T} (h : Stored g k ch) :
    Stored g' k ch := by
  rcases h with ⟨hc, hf⟩ | hw
  · left
    refine ⟨⟨?_, hc.cell, ?_, ?_, ?_, ?_, ?_, ?_, ?_, ?_, ?_, ?_, ?_, ?_⟩, hf⟩
    · rw [baseOf_same s]; exact hc.base
    · rw [s.nx, s.ny, s.nz]; exact hc.len
    · rw [s.cx]; exact hc.cx
    · rw [s.cy]; exact hc.cy
    · rw [s.cz]; exact hc.cz
    · rw [s.sx]; exact hc.sx
    · rw [s.sy]; exact hc.sy
    · rw [s.sz]; exact hc.sz
    · rw [s.nx]; exact hc.nx
    · rw [s.ny]; exact hc.ny
    · rw [s.nz]; exact hc.nz
    · rw [s.ny, s.nz]; exact hc.s1
    · rw [s.nz]; exact hc.s2
  · right
    refine ⟨?_, hw.cell, hw.whole, hw.len, ?_, ?_, ?_, hw.nx, hw.ny, hw.nz⟩
    · rw [baseOf_same s]; exact hw.base
    · rw [s.sx]; exact hw.sx
    · rw [s.sy]; exact hw.sy
    · rw [s.sz]; exact hw.sz

theorem putChunk_same (g : Grid K T) (r : Vec3 K) (ch : Chunk K T) : Same g (putChunk g r ch) :=
  ⟨rfl, rfl, rfl, rfl, rfl, rfl, rfl, rfl, rfl, rfl, rfl, rfl⟩

theorem Inv.put {g : Grid K T} (h : Inv g) {k : Index} (hk : Representable k) {ch : Chunk K T} (hs : Stored g k ch) :
    Inv (putChunk g (baseOf g k) ch) := by
  have s := putChunk_same g (baseOf g k) ch
  refine ⟨h.geo.same s, ?_⟩
  intro r c hc
  simp only [putChunk] at hc
  split at hc
  · next hr =>
    simp only [Option.some.injEq] at hc
    subst hc
    exact ⟨k, hk, by rw [baseOf_same s]; exact hr, hs.same s⟩
  · obtain ⟨j, a, b, d⟩ := h.chunks r c hc
    exact ⟨j, a, by rw [baseOf_same s]; exact b, d.same s⟩

/-- Changing the data of a chunk. -/
theorem Stored.set {g : Grid K T} {k : Index} {ch : Chunk K T} (h : Stored g k ch) (n : Nat) (v : T) :
    Stored g k { ch with data := ch.data.set n v } := by
  rcases h with ⟨hc, hf⟩ | hw
  · exact .inl ⟨⟨hc.base, hc.cell, by simpa using hc.len, hc.cx, hc.cy, hc.cz, hc.sx, hc.sy, hc.sz, hc.nx, hc.ny,
      hc.nz, hc.s1, hc.s2⟩, hf⟩
  · exact .inr ⟨hw.base, hw.cell, hw.whole, by simpa using hw.len, hw.sx, hw.sy, hw.sz, hw.nx, hw.ny, hw.nz⟩

theorem region_ok {g : Grid K T} (h : Geo g) {p r : Vec3 K} (e : getContainingChunkRegion g p = .ok r) :
    Representable (chunkIn g p) ∧ r = baseOf g (chunkIn g p) := by
  by_cases hr : Representable (chunkIn g p)
  · rw [region_eq h hr, Out.ok.injEq] at e
    exact ⟨hr, e.symm⟩
  · rw [region_ub h hr] at e
    cases e

theorem newCellChunk_stored {g : Grid K T} (h : Geo g) (k : Index) (v : T) {ch : Chunk K T}
    (e : newCellChunk (baseOf g k) g.cellX g.cellY g.cellZ g.numX g.numY g.numZ v = .ok ch) : Stored g k ch := by
  obtain ⟨ch', e', hrep⟩ := newCellChunk_rep h k v
  rw [e, Out.ok.injEq] at e'
  subst e'
  refine .inl ⟨hrep.1, ?_⟩
  unfold newCellChunk at e
  simp only [Out.bind_eq_ok] at e
  obtain ⟨_, _, _, _, _, _, e⟩ := e
  simp only [Out.ok.injEq] at e
  rw [← e]

theorem newWholeChunk_stored {g : Grid K T} (h : Geo g) (k : Index) (v : T) {ch : Chunk K T}
    (e : newWholeChunk (baseOf g k) g.chunkX g.chunkY g.chunkZ v = .ok ch) : Stored g k ch := by
  unfold newWholeChunk at e
  split at e
  · cases e
  · simp only [Out.ok.injEq] at e
    subst e
    obtain ⟨h1, h2, h3⟩ := h.pos
    exact .inr ⟨rfl, rfl, rfl, rfl, abs_of_pos h1, abs_of_pos h2, abs_of_pos h3, rfl, rfl, rfl⟩

theorem chunkSetCell_stored {g : Grid K T} {k : Index} {ch ch' : Chunk K T} {p : Vec3 K} {v : T} {b : Bool}
    (h : Stored g k ch) (e : chunkSetCell ch p v = .ok (b, ch')) : Stored g k ch' := by
  unfold chunkSetCell at e
  rw [Out.bind_eq_ok] at e
  obtain ⟨r, _, e⟩ := e
  cases r with
  | none =>
    simp only [Out.ok.injEq, Prod.mk.injEq] at e
    rw [← e.2]; exact h
  | some n =>
    simp only [Out.ok.injEq, Prod.mk.injEq] at e
    rw [← e.2]; exact h.set n v

theorem setCell_inv {g g' : Grid K T} (h : Inv g) {l : Vec3 K} {v : T} {s : SetStatus}
    (e : setCellValue g l v = .ok (s, g')) : Inv g' ∧ Same g g' := by
  unfold setCellValue at e
  rw [Out.assert_true h.geo.init] at e
  simp only [Out.bind_ok, Out.bind_eq_ok] at e
  obtain ⟨region, hreg, e⟩ := e
  obtain ⟨hk, rfl⟩ := region_ok h.geo hreg
  have old : ∀ c : Chunk K T, Stored g (chunkIn g (g.inverseOrigin.apply l)) c → ((do
      let r ← chunkSetCell c (g.inverseOrigin.apply l) v
      if r.1 then .ok (.setCell, putChunk g (baseOf g (chunkIn g (g.inverseOrigin.apply l))) r.2)
        else .ok (.notSet, g) : Out (SetStatus × Grid K T)) = .ok (s, g')) → Inv g' ∧ Same g g' := by
    intro c hc e
    rw [Out.bind_eq_ok] at e
    obtain ⟨r, h1, h2⟩ := e
    obtain ⟨b, c'⟩ := r
    cases b with
    | true =>
      simp only [if_true, Out.ok.injEq, Prod.mk.injEq] at h2
      obtain ⟨_, rfl⟩ := h2
      exact ⟨h.put hk (chunkSetCell_stored hc h1), putChunk_same _ _ _⟩
    | false =>
      simp only [Bool.false_eq_true, if_false, Out.ok.injEq, Prod.mk.injEq] at h2
      obtain ⟨_, rfl⟩ := h2
      exact ⟨h, Same.refl _⟩
  have fresh : ∀ i : T, setInNewChunk g (baseOf g (chunkIn g (g.inverseOrigin.apply l))) (g.inverseOrigin.apply l) i v =
      .ok (s, g') → Inv g' ∧ Same g g' := by
    intro i e
    unfold setInNewChunk at e
    rw [Out.bind_eq_ok] at e
    obtain ⟨c, h1, h2⟩ := e
    exact old c (newCellChunk_stored h.geo _ _ h1) h2
  cases hch : g.chunks (baseOf g (chunkIn g (g.inverseOrigin.apply l))) with
  | none => rw [hch] at e; exact fresh _ e
  | some c =>
    rw [hch] at e
    dsimp only at e
    by_cases h1 : c.cellInit = true
    · rw [if_pos h1] at e
      obtain ⟨j, _, hb, hs⟩ := h.chunks _ _ hch
      rw [← baseOf_inj h.geo hb] at hs
      exact old c hs e
    · rw [if_neg h1] at e
      by_cases h2 : c.chunkInit = true
      · rw [if_pos h2, Out.bind_eq_ok] at e
        obtain ⟨w, _, e⟩ := e
        exact fresh w e
      · rw [if_neg h2] at e; exact fresh _ e

theorem setChunk_inv {g g' : Grid K T} (h : Inv g) {l : Vec3 K} {v : T} {s : SetStatus}
    (e : setChunkValue g l v = .ok (s, g')) : Inv g' ∧ Same g g' := by
  unfold setChunkValue at e
  rw [Out.assert_true h.geo.init] at e
  simp only [Out.bind_ok, Out.bind_eq_ok] at e
  obtain ⟨region, hreg, e⟩ := e
  obtain ⟨hk, rfl⟩ := region_ok h.geo hreg
  have fresh : ((do
      let c ← newWholeChunk (baseOf g (chunkIn g (g.inverseOrigin.apply l))) g.chunkX g.chunkY g.chunkZ v
      .ok (.setChunk, putChunk g (baseOf g (chunkIn g (g.inverseOrigin.apply l))) c) :
        Out (SetStatus × Grid K T)) = .ok (s, g')) → Inv g' ∧ Same g g' := by
    intro e
    rw [Out.bind_eq_ok] at e
    obtain ⟨c, h1, h2⟩ := e
    simp only [Out.ok.injEq, Prod.mk.injEq] at h2
    obtain ⟨_, rfl⟩ := h2
    exact ⟨h.put hk (newWholeChunk_stored h.geo _ _ h1), putChunk_same _ _ _⟩
  cases hch : g.chunks (baseOf g (chunkIn g (g.inverseOrigin.apply l))) with
  | none => rw [hch] at e; exact fresh e
  | some c =>
    rw [hch] at e
    dsimp only at e
    by_cases h1 : c.cellInit = true
    · rw [if_pos h1] at e; exact fresh e
    · rw [if_neg h1] at e
      by_cases h2 : c.chunkInit = true
      · rw [if_pos h2] at e
        obtain ⟨j, _, hb, hs⟩ := h.chunks _ _ hch
        rw [← baseOf_inj h.geo hb] at hs
        unfold chunkSetValue at e
        rw [Out.assert_true h2] at e
        by_cases h3 : c.data.length = 1
        · rw [Out.assert_true h3] at e
          simp only [Out.bind_ok, if_true, Out.ok.injEq, Prod.mk.injEq] at e
          obtain ⟨_, rfl⟩ := e
          exact ⟨h.put hk (hs.set 0 v), putChunk_same _ _ _⟩
        · simp [Out.assert, h3] at e
      · rw [if_neg h2] at e; exact fresh e

theorem default_inv {g : Grid K T} (h : Inv g) (v : T) :
    Inv { g with default := v } ∧ Same g { g with default := v } := by
  have s : Same g { g with default := v } := ⟨rfl, rfl, rfl, rfl, rfl, rfl, rfl, rfl, rfl, rfl, rfl, rfl⟩
  refine ⟨⟨h.geo.same s, ?_⟩, s⟩
  intro r c hc
  obtain ⟨k, a, b, d⟩ := h.chunks r c hc
  exact ⟨k, a, b, d.same s⟩

theorem write_inv {g g' : Grid K T} (h : Inv g) {v : T} {r : Ref K} (e : writeRef g v r = .ok g') :
    Inv g' ∧ Same g g' := by
  cases r with
  | default =>
    simp only [writeRef, Out.ok.injEq] at e
    rw [← e]
    exact default_inv h v
  | elem region n =>
    simp only [writeRef] at e
    cases hch : g.chunks region with
    | none => rw [hch] at e; cases e
    | some c =>
      rw [hch] at e
      dsimp only at e
      split at e
      · simp only [Out.ok.injEq] at e
        obtain ⟨k, hk, rfl, hs⟩ := h.chunks _ _ hch
        rw [← e]
        exact ⟨h.put hk (hs.set n v), putChunk_same _ _ _⟩
      · cases e

theorem step_inv {g g' : Grid K T} (h : Inv g) {op : Op K T} {r : Res T} (e : step g op = .ok (r, g')) :
    Inv g' ∧ Same g g' := by
  cases op with
  | get p =>
    simp only [step, Out.bind_eq_ok, Out.ok.injEq, Prod.mk.injEq] at e
    obtain ⟨_, _, _, rfl⟩ := e
    exact ⟨h, Same.refl _⟩
  | mutate p v =>
    simp only [step, Out.bind_eq_ok, Out.ok.injEq, Prod.mk.injEq] at e
    obtain ⟨_, _, _, _, _, e, _, rfl⟩ := e
    exact write_inv h e
  | setCell p v =>
    simp only [step, Out.bind_eq_ok, Out.ok.injEq, Prod.mk.injEq] at e
    obtain ⟨⟨a, b⟩, e, _, rfl⟩ := e
    exact setCell_inv h e
  | setChunk p v =>
    simp only [step, Out.bind_eq_ok, Out.ok.injEq, Prod.mk.injEq] at e
    obtain ⟨⟨a, b⟩, e, _, rfl⟩ := e
    exact setChunk_inv h e
  | setDefault v =>
    simp only [step, setDefaultValue, Out.ok.injEq, Prod.mk.injEq] at e
    rw [← e.2]
    exact default_inv h v

theorem run_inv (ops : List (Op K T)) : ∀ {g g' : Grid K T} {rs : List (Res T)}, Inv g → run g ops = .ok (rs, g') →
    Inv g' ∧ Same g g' := by
  induction ops with
  | nil =>
    intro g g' rs h e
    simp only [run, Out.ok.injEq, Prod.mk.injEq] at e
    obtain ⟨_, rfl⟩ := e
    exact ⟨h, Same.refl _⟩
  | cons op ops ih =>
    intro g g' rs h e
    simp only [run, Out.bind_eq_ok, Out.ok.injEq, Prod.mk.injEq] at e
    obtain ⟨⟨r, g1⟩, e1, ⟨rs2, g2⟩, e2, _, rfl⟩ := e
    obtain ⟨h1, s1⟩ := step_inv h e1
    obtain ⟨h2, s2⟩ := ih h1 e2
    exact ⟨h2, s1.trans s2⟩

/-! ## Elements of a chunk -/

theorem indexInBounds_iff {c : Chunk K T} {i : Index} :
    indexInBounds c i = true ↔ InGrid c.numX c.numY c.numZ i := by
  simp only [indexInBounds, InGrid, Bool.and_eq_true, decide_eq_true_eq]
  omega

/-- The cell of the centre of an element, along one axis. -/
theorem axis_centre {c : K} (hc : 0 < c) (n k i : Int) :
    ⌊((k : K) * (c * n) + c * ((i : K) + 1 / 2)) / c⌋ = n * k + i := by
  have e : ((k : K) * (c * n) + c * ((i : K) + 1 / 2)) / c = ((n * k + i : Int) : K) + 1 / 2 := by
    push_cast
    field_simp
    ring
  rw [e, Int.floor_eq_iff]
  constructor <;> linarith [(by norm_num : (0 : K) < 1 / 2), (by norm_num : (1 / 2 : K) < 1)]

/-- The chunk of the centre of a chunk, along one axis. -/
theorem axis_middle {c : K} (hc : 0 < c) {n : Int} (hn : 0 < n) (k : Int) :
    ⌊((k : K) * (c * n) + c * n * (1 / 2)) / c⌋ / n = k := by
  have hnK : (0 : K) < n := by exact_mod_cast hn
  have hcn : 0 < c * n := mul_pos hc hnK
  rw [← axis_chunk hn]
  have e : ((k : K) * (c * n) + c * n * (1 / 2)) / (c * n) = (k : K) + 1 / 2 := by
    field_simp
  rw [e, Int.floor_eq_iff]
  constructor <;> linarith [(by norm_num : (0 : K) < 1 / 2), (by norm_num : (1 / 2 : K) < 1)]

theorem mul_add_div {n k i : Int} (h0 : 0 ≤ i) (h1 : i < n) : (n * k + i) / n = k ∧ (n * k + i) % n = i := by
  have hn : n ≠ 0 := by omega
  rw [Int.mul_add_ediv_left _ _ hn, Int.mul_add_emod_self_left, Int.ediv_eq_zero_of_lt h0 h1,
    Int.emod_eq_of_lt h0 h1]
  exact ⟨by omega, rfl⟩

end

end Verif.HashedGrid
