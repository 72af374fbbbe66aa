import Verif.Spec.HashedGridReferences
import Verif.Lemmas.HashedGrid

/-! # Lemmas about references into a hashed voxel grid -/
namespace Verif.HashedGridReferences
open Verif Verif.Voxel Verif.HashedGrid

section
variable {K T : Type} [Field K] [LinearOrder K]

/-- The shape of a grid. -/
def shapeOf (g : Grid K T) : Shape K := ⟨g.cellX, g.cellY, g.cellZ, g.numX, g.numY, g.numZ⟩

/-- The position of a cell in the storage of its chunk. -/
def pos (g : Grid K T) (c : Index) : Nat := (rowMajor g.numY g.numZ (localOf g.numX g.numY g.numZ c)).toNat

/-- A kept reference refers to what the abstract grid says. -/
def Linked (g : Grid K T) (serial : Vec3 K → Nat) (s : HashedGrid.Contents T) (h : Held K) : Option Target → Prop
  | some .default => h.ref = .default
  | some (.whole k) => h.ref = .elem (baseOf g k) 0 ∧ h.serial = serial (baseOf g k) ∧ s.found k = .inChunk
  | some (.cell c) => h.ref = .elem (baseOf g ((shapeOf g).chunk c)) (pos g c) ∧
      h.serial = serial (baseOf g ((shapeOf g).chunk c)) ∧ s.found ((shapeOf g).chunk c) = .inCell
  | none => ∃ r n, h.ref = .elem r n ∧ h.serial < serial r

theorem found_whole {s : HashedGrid.Contents T} {k : Index} (h : s.found k = .inChunk) : ∃ v, s.chunks k = .whole v := by
  unfold HashedGrid.Contents.found at h
  split at h
  · cases h
  · exact ⟨_, by assumption⟩
  · cases h

theorem found_cells {s : HashedGrid.Contents T} {k : Index} (h : s.found k = .inCell) : ∃ f, s.chunks k = .cells f := by
  unfold HashedGrid.Contents.found at h
  split at h
  · cases h
  · cases h
  · exact ⟨_, by assumption⟩

theorem found_put_self (s : HashedGrid.Contents T) (k : Index) (c : ChunkState T) :
    (s.put k c).found k = match c with
      | .unset => .notFound
      | .whole _ => .inChunk
      | .cells _ => .inCell := by
  unfold HashedGrid.Contents.found HashedGrid.Contents.put
  simp only [if_true]
  cases c <;> rfl

theorem found_put_ne (s : HashedGrid.Contents T) {k j : Index} (h : j ≠ k) (c : ChunkState T) :
    (s.put k c).found j = s.found j := by
  unfold HashedGrid.Contents.found HashedGrid.Contents.put
  simp only [if_neg h]

theorem Linked.found {g : Grid K T} {serial : Vec3 K → Nat} {s s' : HashedGrid.Contents T}
    (hs : ∀ k, s'.found k = s.found k) {h : Held K} {t : Option Target} (hl : Linked g serial s h t) :
    Linked g serial s' h t := by
  match t, hl with
  | some .default, hl => exact hl
  | some (.whole k), ⟨h1, h2, h3⟩ => exact ⟨h1, h2, (hs k).trans h3⟩
  | some (.cell c), ⟨h1, h2, h3⟩ => exact ⟨h1, h2, (hs _).trans h3⟩
  | none, hl => exact hl

variable [IsStrictOrderedRing K] [FloorRing K]

/-- What one reference refers to when the elements of a chunk have been replaced. -/
def expireOne (sh : Shape K) (k : Index) (t : Option Target) : Option Target :=
  match t with
    | some (.whole j) => if j = k then none else some (.whole j)
    | some (.cell c) => if sh.chunk c = k then none else some (.cell c)
    | t => t

theorem Linked.replace {g : Grid K T} {serial : Vec3 K → Nat} {s : HashedGrid.Contents T} (hg : Geo g) (k : Index)
    (ch : ChunkState T) {h : Held K} {t : Option Target} (hl : Linked g serial s h t) :
    Linked g (fun r => if r = baseOf g k then serial r + 1 else serial r) (s.put k ch) h (expireOne (shapeOf g) k t) := by
  match t, hl with
  | some .default, hl => exact hl
  | some (.whole j), ⟨h1, h2, h3⟩ =>
    simp only [expireOne]
    by_cases hj : j = k
    · rw [if_pos hj]
      refine ⟨_, _, h1, ?_⟩
      rw [hj] at h2 ⊢
      simp only [if_true, h2]; omega
    · rw [if_neg hj]
      refine ⟨h1, ?_, (found_put_ne s hj ch).trans h3⟩
      show h.serial = if _ then _ else _
      rw [if_neg (fun e => hj (baseOf_inj hg e))]; exact h2
  | some (.cell c), ⟨h1, h2, h3⟩ =>
    simp only [expireOne]
    by_cases hj : (shapeOf g).chunk c = k
    · rw [if_pos hj]
      refine ⟨_, _, h1, ?_⟩
      rw [hj] at h2 ⊢
      simp only [if_true, h2]; omega
    · rw [if_neg hj]
      refine ⟨h1, ?_, (found_put_ne s hj ch).trans h3⟩
      show h.serial = if _ then _ else _
      rw [if_neg (fun e => hj (baseOf_inj hg e))]; exact h2
  | none, ⟨r, n, h1, h2⟩ =>
    refine ⟨r, n, h1, ?_⟩
    show h.serial < if _ then _ else _
    by_cases hr : r = baseOf g k
    · rw [if_pos hr]; omega
    · rw [if_neg hr]; exact h2

/-- The modelled grid and its references stand for the abstract ones. -/
structure Rel (m : Live K T) (s : RefState T) : Prop where
  holds : Holds m.grid s.contents
  links : List.Forall₂ (Linked m.grid m.serial s.contents) m.held s.held

/-- Nothing is undefined. -/
def orUb {α : Type} : Option α → Out α
  | some v => .ok v
  | none => .ub

theorem linked_read {m : Live K T} {s : RefState T} (r : Holds m.grid s.contents) {h : Held K} {t : Option Target}
    (hl : Linked m.grid m.serial s.contents h t) :
    (if valid m h = true then HashedGrid.readRef m.grid h.ref else .ub) = orUb (s.target (shapeOf m.grid) t) := by
  match t, hl with
  | some .default, hl =>
    simp only [Linked] at hl
    unfold valid
    rw [hl]
    simp only [if_true, HashedGrid.readRef, RefState.target, orUb, r.default]
  | some (.whole k), ⟨h1, h2, h3⟩ =>
    obtain ⟨v, hv⟩ := found_whole h3
    have hk := r.chunks k
    rw [hv] at hk
    obtain ⟨ch, hch, -, -, hd⟩ := rep_whole hk
    unfold valid
    rw [h1, h2]
    simp only [beq_self_eq_true, if_true, HashedGrid.readRef, hch, hd, RefState.target, hv, orUb]
    rfl
  | some (.cell c), ⟨h1, h2, h3⟩ =>
    obtain ⟨f, hv⟩ := found_cells h3
    have hk := r.chunks ((shapeOf m.grid).chunk c)
    rw [hv] at hk
    obtain ⟨ch, hch, -, hd⟩ := rep_cells hk
    unfold valid
    rw [h1, h2]
    simp only [beq_self_eq_true, if_true, HashedGrid.readRef, hch, RefState.target, hv, orUb]
    rw [show ch.data[pos m.grid c]? = some (f c) from hd c rfl]
  | none, ⟨r, n, h1, h2⟩ =>
    unfold valid
    rw [h1]
    simp only [RefState.target, orUb]
    rw [if_neg]
    simp only [beq_iff_eq]
    omega

theorem Rel.get? {m : Live K T} {s : RefState T} (r : Rel m s) (k : Nat) :
    (m.held[k]? = none ∧ s.held[k]? = none) ∨
    ∃ h t, m.held[k]? = some h ∧ s.held[k]? = some t ∧ Linked m.grid m.serial s.contents h t := by
  have hl := r.links.length_eq
  by_cases hk : k < m.held.length
  · right
    refine ⟨_, _, List.getElem?_eq_getElem hk, List.getElem?_eq_getElem (by omega), ?_⟩
    exact r.links.get hk (by omega)
  · left
    exact ⟨List.getElem?_eq_none (by omega), List.getElem?_eq_none (by omega)⟩

theorem Rel.readHeld {m : Live K T} {s : RefState T} (r : Rel m s) (k : Nat) :
    readHeld m k = orUb (s.value (shapeOf m.grid) k) := by
  unfold HashedGridReferences.readHeld RefState.value
  rcases r.get? k with ⟨h1, h2⟩ | ⟨h, t, h1, h2, hl⟩
  · rw [h1, h2]; rfl
  · rw [h1, h2]
    exact linked_read r.holds hl

theorem Rel.readArg {m : Live K T} {s : RefState T} (r : Rel m s) (a : Arg T) :
    readArg m a = orUb (s.arg (shapeOf m.grid) a) := by
  cases a with
  | value v => rfl
  | held k => exact r.readHeld k

theorem getRef_eq {g : Grid K T} {s : HashedGrid.Contents T} (h : Holds g s) (p : Vec3 K)
    (hp : Representable (chunkIn g p)) :
    HashedGrid.getRef g (atFrame g.origin p) = .ok ((match s.chunks (chunkIn g p) with
      | .unset => .default
      | .whole _ => .elem (baseOf g (chunkIn g p)) 0
      | .cells _ => .elem (baseOf g (chunkIn g p)) (pos g (cellIn g p))), s.found (chunkIn g p)) := by
  unfold HashedGrid.getRef
  simp only [Out.assert_true h.geo.init, Out.bind_ok, frame h.geo, region_eq h.geo hp]
  have hk := h.chunks (chunkIn g p)
  unfold HashedGrid.Contents.found
  cases hs : s.chunks (chunkIn g p) with
  | unset =>
    rw [hs] at hk
    rw [rep_none hk]
  | whole w =>
    rw [hs] at hk
    obtain ⟨ch, hch, c1, c2, c3⟩ := rep_whole hk
    simp only [hch, c1, Bool.false_eq_true, if_false, c2, if_true, getChunkValue, Out.assert_true c2, c3]
    simp
  | cells f =>
    rw [hs] at hk
    obtain ⟨ch, hch, hc, hv⟩ := rep_cells hk
    obtain ⟨hpos, hlt⟩ := cellPosition_eq h.geo hc
    simp only [hch, hc.cell, if_true, hpos, Out.bind_ok, pos]

theorem getRef_ub {g : Grid K T} (h : Geo g) (p : Vec3 K) (hp : ¬ Representable (chunkIn g p)) :
    HashedGrid.getRef g (atFrame g.origin p) = .ub := by
  unfold HashedGrid.getRef
  simp only [Out.assert_true h.init, Out.bind_ok, frame h, region_ub h hp, Out.bind_ub]

/-- Both are undefined, or report the same and stand for the same again. -/
def Agree (m : Live K T) {α : Type} (x : Out (α × Live K T)) (y : Out (α × RefState T)) : Prop :=
  (x = .ub ∧ y = .ub) ∨ ∃ r m' s', x = .ok (r, m') ∧ y = .ok (r, s') ∧ Rel m' s' ∧
    shapeOf m'.grid = shapeOf m.grid ∧ m'.grid.origin = m.grid.origin

theorem Rel.inPlace {m : Live K T} {s : RefState T} (r : Rel m s) {k : Index} {ch : Chunk K T} {c : ChunkState T}
    (hh : Holds (putChunk m.grid (baseOf m.grid k) ch) (s.contents.put k c))
    (hf : (s.contents.put k c).found k = s.contents.found k) :
    Rel { m with grid := putChunk m.grid (baseOf m.grid k) ch } { s with contents := s.contents.put k c } := by
  refine ⟨hh, ?_⟩
  refine r.links.imp fun h t hl => ?_
  exact (hl.found (s' := s.contents.put k c) fun j => by
    by_cases hj : j = k
    · rw [hj]; exact hf
    · exact found_put_ne _ hj c)

theorem Rel.replaced {m : Live K T} {s : RefState T} (r : Rel m s) {k : Index} {ch : Chunk K T} {c : ChunkState T}
    (hh : Rep m.grid k (some ch) c) :
    Rel (assignChunk m (baseOf m.grid k) ch) ⟨s.contents.put k c, s.expire (shapeOf m.grid) k⟩ := by
  refine ⟨holds_put r.holds hh, ?_⟩
  show List.Forall₂ (Linked m.grid (fun q => if q = baseOf m.grid k then m.serial q + 1 else m.serial q)
    (s.contents.put k c)) m.held (s.held.map (expireOne (shapeOf m.grid) k))
  rw [List.forall₂_map_right_iff]
  exact r.links.imp fun h t hl => hl.replace r.holds.geo k c

theorem setInNew_agrees {m : Live K T} {s : RefState T} (r : Rel m s) (p : Vec3 K) (i : T) (a : Arg T) {v : T}
    (hv : HashedGridReferences.readArg m a = .ok v) :
    ∃ m', setInNewChunkArg m (baseOf m.grid (chunkIn m.grid p)) p i a = .ok (.setCell, m') ∧
      Rel m' ⟨s.contents.put (chunkIn m.grid p) (.cells fun d => if d = cellIn m.grid p then v else i),
        s.expire (shapeOf m.grid) (chunkIn m.grid p)⟩ ∧
      shapeOf m'.grid = shapeOf m.grid ∧ m'.grid.origin = m.grid.origin := by
  obtain ⟨ch, hch, hrep⟩ := newCellChunk_rep r.holds.geo (chunkIn m.grid p) i
  have hpos := (cellPosition_eq r.holds.geo hrep.1).1
  refine ⟨_, by
    unfold setInNewChunkArg chunkSetCellArg
    rw [hch]
    simp only [Out.bind_ok, hpos, hv, if_true], r.replaced (rep_set r.holds.geo v hrep), rfl, rfl⟩

theorem setInNew_ub {m : Live K T} {s : RefState T} (r : Rel m s) (p : Vec3 K) (i : T) (a : Arg T)
    (hv : HashedGridReferences.readArg m a = .ub) :
    setInNewChunkArg m (baseOf m.grid (chunkIn m.grid p)) p i a = .ub := by
  obtain ⟨ch, hch, hrep⟩ := newCellChunk_rep r.holds.geo (chunkIn m.grid p) i
  have hpos := (cellPosition_eq r.holds.geo hrep.1).1
  unfold setInNewChunkArg chunkSetCellArg
  rw [hch]
  simp only [Out.bind_ok, hpos, hv, Out.bind_ub]

theorem setCell_agrees {m : Live K T} {s : RefState T} (r : Rel m s) (p : Vec3 K) (a : Arg T) :
    Agree m (refStep m (.setCell p a)) (refSpecStep (shapeOf m.grid) s (.setCell p a)) := by
  simp only [refStep, refSpecStep]
  have ek : (shapeOf m.grid).chunk ((shapeOf m.grid).cell p) = chunkIn m.grid p := rfl
  have ec : (shapeOf m.grid).cell p = cellIn m.grid p := rfl
  rw [ek, ec]
  by_cases hp : Representable (chunkIn m.grid p)
  swap
  · left
    refine ⟨?_, by rw [if_neg hp]⟩
    unfold setCellArg
    simp only [Out.assert_true r.holds.geo.init, Out.bind_ok, frame r.holds.geo, region_ub r.holds.geo hp, Out.bind_ub]
  rw [if_pos hp]
  have hk := r.holds.chunks (chunkIn m.grid p)
  have ha := r.readArg a
  unfold setCellArg
  simp only [Out.assert_true r.holds.geo.init, Out.bind_ok, frame r.holds.geo, region_eq r.holds.geo hp]
  cases hs : s.contents.chunks (chunkIn m.grid p) with
  | unset =>
    have hf : s.contents.found (chunkIn m.grid p) ≠ .inCell := by unfold HashedGrid.Contents.found; rw [hs]; simp
    rw [hs] at hk
    rw [rep_none hk]
    cases hv : s.arg (shapeOf m.grid) a with
    | none =>
      left
      rw [hv] at ha
      simp only [setInNew_ub r p m.grid.default a ha, Out.bind_ub, and_self]
    | some v =>
      right
      rw [hv] at ha
      obtain ⟨m', h1, h2, h3, h4⟩ := setInNew_agrees r p m.grid.default a ha
      refine ⟨_, m', _, by simp only [h1, Out.bind_ok], rfl, ?_, h3, h4⟩
      simp only [if_neg hf, HashedGrid.Contents.value, hs, ← r.holds.default]
      exact h2
  | whole w =>
    have hf : s.contents.found (chunkIn m.grid p) ≠ .inCell := by unfold HashedGrid.Contents.found; rw [hs]; simp
    rw [hs] at hk
    obtain ⟨ch, hch, c1, c2, c3⟩ := rep_whole hk
    have hcv : getChunkValue ch = .ok w := by
      simp only [getChunkValue, Out.assert_true c2, c3]
      simp
    simp only [hch, c1, Bool.false_eq_true, if_false, c2, if_true, hcv, Out.bind_ok]
    cases hv : s.arg (shapeOf m.grid) a with
    | none =>
      left
      rw [hv] at ha
      simp only [setInNew_ub r p w a ha, Out.bind_ub, and_self]
    | some v =>
      right
      rw [hv] at ha
      obtain ⟨m', h1, h2, h3, h4⟩ := setInNew_agrees r p w a ha
      refine ⟨_, m', _, by simp only [h1, Out.bind_ok], rfl, ?_, h3, h4⟩
      simp only [if_neg hf, HashedGrid.Contents.value, hs]
      exact h2
  | cells f =>
    have hf : s.contents.found (chunkIn m.grid p) = .inCell := by unfold HashedGrid.Contents.found; rw [hs]
    rw [hs] at hk
    obtain ⟨ch, hch, hc, hd⟩ := rep_cells hk
    obtain ⟨hpos, hlt⟩ := cellPosition_eq r.holds.geo hc
    rw [hch] at hk
    simp only [hch, hc.cell, if_true, chunkSetCellArg, hpos, Out.bind_ok]
    cases hv : s.arg (shapeOf m.grid) a with
    | none =>
      left
      rw [hv] at ha
      simp only [ha, orUb, Out.bind_ub, and_self]
    | some v =>
      right
      rw [hv] at ha
      refine ⟨_, ⟨putChunk m.grid (baseOf m.grid (chunkIn m.grid p))
        { ch with data := ch.data.set (pos m.grid (cellIn m.grid p)) v }, m.serial, m.held⟩, _, by
        simp only [ha, orUb, Out.bind_ok, hc.cell]
        rfl, rfl, ?_, rfl, rfl⟩
      simp only [if_pos hf, HashedGrid.Contents.value, hs]
      exact r.inPlace (holds_put r.holds (rep_set r.holds.geo v hk)) ((found_put_self _ _ _).trans hf.symm)

theorem newWhole_agrees {m : Live K T} {s : RefState T} (r : Rel m s) (k : Index) (a : Arg T) {v : T}
    (hv : HashedGridReferences.readArg m a = .ok v) :
    ∃ m', newWholeArg m (baseOf m.grid k) a = .ok (.setChunk, m') ∧
      Rel m' ⟨s.contents.put k (.whole v), s.expire (shapeOf m.grid) k⟩ ∧
      shapeOf m'.grid = shapeOf m.grid ∧ m'.grid.origin = m.grid.origin := by
  obtain ⟨ch, hch, hrep⟩ := newWholeChunk_rep r.holds.geo k v
  refine ⟨_, by
    unfold newWholeArg
    simp only [hv, Out.bind_ok, hch], r.replaced hrep, rfl, rfl⟩

theorem setChunk_agrees {m : Live K T} {s : RefState T} (r : Rel m s) (p : Vec3 K) (a : Arg T) :
    Agree m (refStep m (.setChunk p a)) (refSpecStep (shapeOf m.grid) s (.setChunk p a)) := by
  simp only [refStep, refSpecStep]
  have ek : (shapeOf m.grid).chunk ((shapeOf m.grid).cell p) = chunkIn m.grid p := rfl
  rw [ek]
  by_cases hp : Representable (chunkIn m.grid p)
  swap
  · left
    refine ⟨?_, by rw [if_neg hp]⟩
    unfold setChunkArg
    simp only [Out.assert_true r.holds.geo.init, Out.bind_ok, frame r.holds.geo, region_ub r.holds.geo hp, Out.bind_ub]
  rw [if_pos hp]
  have hk := r.holds.chunks (chunkIn m.grid p)
  have ha := r.readArg a
  unfold setChunkArg
  simp only [Out.assert_true r.holds.geo.init, Out.bind_ok, frame r.holds.geo, region_eq r.holds.geo hp]
  cases hs : s.contents.chunks (chunkIn m.grid p) with
  | unset =>
    have hf : s.contents.found (chunkIn m.grid p) ≠ .inChunk := by unfold HashedGrid.Contents.found; rw [hs]; simp
    rw [hs] at hk
    rw [rep_none hk]
    cases hv : s.arg (shapeOf m.grid) a with
    | none =>
      left
      rw [hv] at ha
      simp only [newWholeArg, ha, orUb, Out.bind_ub, and_self]
    | some v =>
      right
      rw [hv] at ha
      obtain ⟨m', h1, h2, h3, h4⟩ := newWhole_agrees r (chunkIn m.grid p) a ha
      refine ⟨_, m', _, by simp only [h1, Out.bind_ok], rfl, ?_, h3, h4⟩
      simp only [if_neg hf]
      exact h2
  | whole w =>
    have hf : s.contents.found (chunkIn m.grid p) = .inChunk := by unfold HashedGrid.Contents.found; rw [hs]
    rw [hs] at hk
    obtain ⟨ch, hch, c1, c2, c3⟩ := rep_whole hk
    simp only [hch, c1, Bool.false_eq_true, if_false, c2, if_true]
    cases hv : s.arg (shapeOf m.grid) a with
    | none =>
      left
      rw [hv] at ha
      simp only [ha, orUb, Out.bind_ub, and_self]
    | some v =>
      right
      rw [hv] at ha
      refine ⟨_, { m with grid := putChunk m.grid (baseOf m.grid (chunkIn m.grid p)) { ch with data := [v] } }, _, by
        simp only [ha, orUb, Out.bind_ok, chunkSetValue, Out.assert_true c2, c3]
        simp, rfl, ?_, rfl, rfl⟩
      simp only [if_pos hf]
      exact r.inPlace (holds_put r.holds (c := .whole v) ⟨c1, c2, rfl⟩) ((found_put_self _ _ _).trans hf.symm)
  | cells f =>
    have hf : s.contents.found (chunkIn m.grid p) ≠ .inChunk := by unfold HashedGrid.Contents.found; rw [hs]; simp
    rw [hs] at hk
    obtain ⟨ch, hch, hc, hd⟩ := rep_cells hk
    simp only [hch, hc.cell, if_true]
    cases hv : s.arg (shapeOf m.grid) a with
    | none =>
      left
      rw [hv] at ha
      simp only [newWholeArg, ha, orUb, Out.bind_ub, and_self]
    | some v =>
      right
      rw [hv] at ha
      obtain ⟨m', h1, h2, h3, h4⟩ := newWhole_agrees r (chunkIn m.grid p) a ha
      refine ⟨_, m', _, by simp only [h1, Out.bind_ok], rfl, ?_, h3, h4⟩
      simp only [if_neg hf]
      exact h2

theorem Rel.default {m : Live K T} {s : RefState T} (r : Rel m s) (v : T) :
    Rel { m with grid := HashedGrid.setDefaultValue m.grid v } { s with contents := { s.contents with default := v } } :=
  ⟨holds_default r.holds v, r.links.imp fun _ _ hl => hl.found fun _ => rfl⟩

theorem write_agrees {m : Live K T} {s : RefState T} (r : Rel m s) (i : Nat) (v : T) :
    Agree m (refStep m (.write i v)) (refSpecStep (shapeOf m.grid) s (.write i v)) := by
  simp only [refStep, refSpecStep, writeHeld]
  rcases r.get? i with ⟨h1, h2⟩ | ⟨h, t, h1, h2, hl⟩
  · left; rw [h1, h2]; exact ⟨rfl, rfl⟩
  · rw [h1, h2]
    match t, hl with
    | some .default, hl =>
      simp only [Linked] at hl
      right
      refine ⟨_, { m with grid := HashedGrid.setDefaultValue m.grid v }, _, by
        unfold valid
        simp only [hl, if_true, HashedGrid.writeRef, Out.bind_ok]
        rfl, rfl, r.default v, rfl, rfl⟩
    | some (.whole k), ⟨e1, e2, e3⟩ =>
      obtain ⟨w, hw⟩ := found_whole e3
      have hk := r.holds.chunks k
      rw [hw] at hk
      obtain ⟨ch, hch, c1, c2, hd⟩ := rep_whole hk
      right
      refine ⟨_, { m with grid := putChunk m.grid (baseOf m.grid k) { ch with data := [v] } }, _, by
        unfold valid
        simp only [e1, e2, beq_self_eq_true, if_true, HashedGrid.writeRef, hch, hd, List.length_singleton]
        rw [if_pos (by omega)]
        rfl, rfl, ?_, rfl, rfl⟩
      exact r.inPlace (holds_put r.holds (c := .whole v) ⟨c1, c2, rfl⟩) ((found_put_self _ _ _).trans e3.symm)
    | some (.cell c), ⟨e1, e2, e3⟩ =>
      obtain ⟨f, hf⟩ := found_cells e3
      have hk := r.holds.chunks ((shapeOf m.grid).chunk c)
      rw [hf] at hk
      obtain ⟨ch, hch, hc, hd⟩ := rep_cells hk
      rw [hch] at hk
      have hlt : pos m.grid c < ch.data.length := by
        have := hd c rfl
        exact (List.getElem?_eq_some_iff.1 this).1
      right
      refine ⟨_, ⟨putChunk m.grid (baseOf m.grid ((shapeOf m.grid).chunk c))
        { ch with data := ch.data.set (pos m.grid c) v }, m.serial, m.held⟩, _, by
        unfold valid
        simp only [e1, e2, beq_self_eq_true, if_true, HashedGrid.writeRef, hch]
        rw [if_pos hlt]
        rfl, rfl, ?_, rfl, rfl⟩
      simp only [HashedGrid.Contents.value, hf]
      exact r.inPlace (k := (shapeOf m.grid).chunk c) (holds_put r.holds (rep_set r.holds.geo v hk))
        ((found_put_self _ _ _).trans e3.symm)
    | none, hl =>
      obtain ⟨q, n, e1, e2⟩ := hl
      left
      refine ⟨?_, rfl⟩
      unfold valid
      simp only [e1]
      rw [if_neg (by simp only [beq_iff_eq]; omega)]
      rfl

theorem step_agrees {m : Live K T} {s : RefState T} (r : Rel m s) (op : RefOp K T) :
    Agree m (refStep m op) (refSpecStep (shapeOf m.grid) s op) := by
  cases op with
  | hold p =>
    simp only [refStep, refSpecStep, hold]
    have ek : (shapeOf m.grid).chunk ((shapeOf m.grid).cell p) = chunkIn m.grid p := rfl
    have ec : (shapeOf m.grid).cell p = cellIn m.grid p := rfl
    rw [ek, ec]
    by_cases hp : Representable (chunkIn m.grid p)
    · right
      rw [if_pos hp, getRef_eq r.holds p hp]
      refine ⟨_, _, _, rfl, rfl, ⟨r.holds, ?_⟩, rfl, rfl⟩
      refine List.rel_append r.links (.cons ?_ .nil)
      cases hs : s.contents.chunks (chunkIn m.grid p) with
      | unset => rfl
      | whole w => exact ⟨rfl, rfl, by unfold HashedGrid.Contents.found; rw [hs]⟩
      | cells f =>
        refine ⟨rfl, rfl, ?_⟩
        show s.contents.found (chunkIn m.grid p) = _
        unfold HashedGrid.Contents.found; rw [hs]
    · left
      rw [if_neg hp, getRef_ub r.holds.geo p hp]
      exact ⟨rfl, rfl⟩
  | read k =>
    simp only [refStep, refSpecStep, r.readHeld k]
    cases hv : s.value (shapeOf m.grid) k with
    | none => left; exact ⟨rfl, rfl⟩
    | some v => right; exact ⟨_, _, _, rfl, rfl, r, rfl, rfl⟩
  | write i v => exact write_agrees r i v
  | get p =>
    simp only [refStep, refSpecStep, HashedGrid.getImmutable]
    have ek : (shapeOf m.grid).chunk ((shapeOf m.grid).cell p) = chunkIn m.grid p := rfl
    have ec : (shapeOf m.grid).cell p = cellIn m.grid p := rfl
    rw [ek, ec]
    by_cases hp : Representable (chunkIn m.grid p)
    · right
      rw [if_pos hp]
      obtain ⟨g', e1, -⟩ := step_refines r.holds (.get p) (by
        intro q hq
        simp only [Op.location, Option.some.injEq] at hq
        rw [← hq]; exact hp)
      simp only [HashedGrid.step, HashedGrid.getImmutable] at e1
      obtain ⟨x, e2, e3⟩ := Out.bind_eq_ok.1 e1
      simp only [Out.ok.injEq, Prod.mk.injEq] at e3
      refine ⟨_, m, s, ?_, rfl, r, rfl, rfl⟩
      rw [e2]
      simp only [Out.bind_ok, Out.ok.injEq, Prod.mk.injEq, and_true]
      have : (HashedGrid.Res.read x.1 x.2 : HashedGrid.Res T) =
          .read (s.contents.value (chunkIn m.grid p) (cellIn m.grid p)) (s.contents.found (chunkIn m.grid p)) := e3.1
      injection this with a b
      rw [a, b]
    · left
      rw [if_neg hp, getRef_ub r.holds.geo p hp]
      exact ⟨rfl, rfl⟩
  | setCell p a => exact setCell_agrees r p a
  | setChunk p a => exact setChunk_agrees r p a
  | setDefault a =>
    simp only [refStep, refSpecStep, setDefaultArg, r.readArg a]
    cases hv : s.arg (shapeOf m.grid) a with
    | none => left; exact ⟨rfl, rfl⟩
    | some v => right; exact ⟨_, _, _, rfl, rfl, r.default v, rfl, rfl⟩
  | getDefault =>
    right
    refine ⟨_, m, s, rfl, ?_, r, rfl, rfl⟩
    simp only [refSpecStep, r.holds.default]

theorem run_agrees (ops : List (RefOp K T)) : ∀ {m : Live K T} {s : RefState T}, Rel m s →
    Agree m (refRun m ops) (refSpecRun (shapeOf m.grid) s ops) := by
  induction ops with
  | nil => intro m s r; right; exact ⟨_, m, s, rfl, rfl, r, rfl, rfl⟩
  | cons op ops ih =>
    intro m s r
    simp only [refRun, refSpecRun]
    rcases step_agrees r op with ⟨e1, e2⟩ | ⟨x, m1, s1, e1, e2, r1, sh1, o1⟩
    · left; rw [e1, e2]; exact ⟨rfl, rfl⟩
    · rw [e1, e2]
      simp only [Out.bind_ok]
      rw [← sh1]
      rcases ih r1 with ⟨f1, f2⟩ | ⟨y, m2, s2, f1, f2, r2, sh2, o2⟩
      · left; rw [f1, f2]; exact ⟨rfl, rfl⟩
      · right
        rw [f1, f2]
        exact ⟨_, m2, s2, rfl, rfl, r2, sh2.trans sh1, o2.trans o1⟩

theorem agree_ok {m m' : Live K T} {α : Type} {x : Out (α × Live K T)} {y : Out (α × RefState T)} {r : α}
    (h : Agree m x y) (e : x = .ok (r, m')) :
    ∃ s', y = .ok (r, s') ∧ Rel m' s' ∧ shapeOf m'.grid = shapeOf m.grid ∧ m'.grid.origin = m.grid.origin := by
  rcases h with ⟨e1, -⟩ | ⟨r1, m1, s1, e1, e2, h1, h2, h3⟩
  · rw [e] at e1; cases e1
  · rw [e] at e1
    injection e1 with e1
    injection e1 with a b
    subst a b
    exact ⟨s1, e2, h1, h2, h3⟩

/-- The chunk of what is referred to, and how it was found. -/
def Place (sh : Shape K) (k : Index) (f : Found) : Target → Prop
  | .default => False
  | .whole j => j = k ∧ f = .inChunk
  | .cell c => sh.chunk c = k ∧ f = .inCell

omit [IsStrictOrderedRing K] [FloorRing K] [LinearOrder K] [Field K] in
theorem expire_get (sh : Shape K) (s : RefState T) (k : Index) (i : Nat) :
    (s.expire sh k)[i]? = (s.held[i]?).map (expireOne sh k) := by
  unfold RefState.expire
  rw [List.getElem?_map]
  rfl

omit [IsStrictOrderedRing K] [FloorRing K] [LinearOrder K] [Field K] in
theorem expireOne_place {sh : Shape K} {k j : Index} {f : Found} {t : Target} (h : Place sh k f t) :
    expireOne sh j (some t) = if k = j then none else some t := by
  cases t with
  | default => exact h.elim
  | whole q => simp only [Place] at h; simp only [expireOne, h.1]
  | cell c => simp only [Place] at h; simp only [expireOne, h.1]

theorem gone_step {sh : Shape K} {s s' : RefState T} {op : RefOp K T} {x : RefRes T} {i : Nat}
    (e : refSpecStep sh s op = .ok (x, s')) (h : s.held[i]? = some none) : s'.held[i]? = some none := by
  have hx : ∀ j, (s.expire sh j)[i]? = some none := by
    intro j; rw [expire_get, h]; rfl
  cases op <;> simp only [refSpecStep] at e
  case hold p =>
    split at e
    · simp only [Out.ok.injEq, Prod.mk.injEq] at e
      rw [← e.2]
      show (s.held ++ _)[i]? = _
      rw [List.getElem?_append_left (List.getElem?_eq_some_iff.1 h).1, h]
    · cases e
  case read k =>
    split at e
    · simp only [Out.ok.injEq, Prod.mk.injEq] at e; rw [← e.2]; exact h
    · cases e
  case write k v =>
    split at e
    · simp only [Out.ok.injEq, Prod.mk.injEq] at e; rw [← e.2]; exact h
    · simp only [Out.ok.injEq, Prod.mk.injEq] at e; rw [← e.2]; exact h
    · simp only [Out.ok.injEq, Prod.mk.injEq] at e; rw [← e.2]; exact h
    · cases e
  case get p =>
    split at e
    · simp only [Out.ok.injEq, Prod.mk.injEq] at e; rw [← e.2]; exact h
    · cases e
  case setCell p a =>
    split at e
    · split at e
      · simp only [Out.ok.injEq, Prod.mk.injEq] at e
        rw [← e.2]
        dsimp only
        split
        · exact h
        · exact hx _
      · cases e
    · cases e
  case setChunk p a =>
    split at e
    · split at e
      · simp only [Out.ok.injEq, Prod.mk.injEq] at e
        rw [← e.2]
        dsimp only
        split
        · exact h
        · exact hx _
      · cases e
    · cases e
  case setDefault a =>
    split at e
    · simp only [Out.ok.injEq, Prod.mk.injEq] at e; rw [← e.2]; exact h
    · cases e
  case getDefault =>
    simp only [Out.ok.injEq, Prod.mk.injEq] at e; rw [← e.2]; exact h

theorem default_step {sh : Shape K} {s s' : RefState T} {op : RefOp K T} {x : RefRes T} {i : Nat}
    (e : refSpecStep sh s op = .ok (x, s')) (h : s.held[i]? = some (some .default)) :
    s'.held[i]? = some (some .default) := by
  have hx : ∀ j, (s.expire sh j)[i]? = some (some .default) := by
    intro j; rw [expire_get, h]; rfl
  cases op <;> simp only [refSpecStep] at e
  case hold p =>
    split at e
    · simp only [Out.ok.injEq, Prod.mk.injEq] at e
      rw [← e.2]
      show (s.held ++ _)[i]? = _
      rw [List.getElem?_append_left (List.getElem?_eq_some_iff.1 h).1, h]
    · cases e
  case read k =>
    split at e
    · simp only [Out.ok.injEq, Prod.mk.injEq] at e; rw [← e.2]; exact h
    · cases e
  case write k v =>
    split at e
    · simp only [Out.ok.injEq, Prod.mk.injEq] at e; rw [← e.2]; exact h
    · simp only [Out.ok.injEq, Prod.mk.injEq] at e; rw [← e.2]; exact h
    · simp only [Out.ok.injEq, Prod.mk.injEq] at e; rw [← e.2]; exact h
    · cases e
  case get p =>
    split at e
    · simp only [Out.ok.injEq, Prod.mk.injEq] at e; rw [← e.2]; exact h
    · cases e
  case setCell p a =>
    split at e
    · split at e
      · simp only [Out.ok.injEq, Prod.mk.injEq] at e
        rw [← e.2]
        dsimp only
        split
        · exact h
        · exact hx _
      · cases e
    · cases e
  case setChunk p a =>
    split at e
    · split at e
      · simp only [Out.ok.injEq, Prod.mk.injEq] at e
        rw [← e.2]
        dsimp only
        split
        · exact h
        · exact hx _
      · cases e
    · cases e
  case setDefault a =>
    split at e
    · simp only [Out.ok.injEq, Prod.mk.injEq] at e; rw [← e.2]; exact h
    · cases e
  case getDefault =>
    simp only [Out.ok.injEq, Prod.mk.injEq] at e; rw [← e.2]; exact h

/-- The reference refers to this, and a value in the chunk is found like this. -/
def Refers (s : RefState T) (i : Nat) (t : Target) (k : Index) (f : Found) : Prop :=
  s.held[i]? = some (some t) ∧ s.contents.found k = f

theorem refers_step {m : Live K T} {s s' : RefState T} (r : Rel m s) {op : RefOp K T} {x : RefRes T} {i : Nat}
    {t : Target} {k : Index} {f : Found} (hp : Place (shapeOf m.grid) k f t)
    (e : refSpecStep (shapeOf m.grid) s op = .ok (x, s')) (h : Refers s i t k f) :
    (¬ Replaces (shapeOf m.grid) k f op → Refers s' i t k f) ∧
    (Replaces (shapeOf m.grid) k f op → s'.held[i]? = some none) := by
  obtain ⟨h1, h2⟩ := h
  have hx : ∀ j, (s.expire (shapeOf m.grid) j)[i]? = some (if k = j then none else some t) := by
    intro j; rw [expire_get, h1, ← expireOne_place hp]; rfl
  cases op <;> simp only [refSpecStep] at e
  case hold p =>
    split at e
    · simp only [Out.ok.injEq, Prod.mk.injEq] at e
      rw [← e.2]
      refine ⟨fun _ => ⟨?_, h2⟩, fun c => c.elim⟩
      show (s.held ++ _)[i]? = _
      rw [List.getElem?_append_left (List.getElem?_eq_some_iff.1 h1).1, h1]
    · cases e
  case read j =>
    split at e
    · simp only [Out.ok.injEq, Prod.mk.injEq] at e; rw [← e.2]; exact ⟨fun _ => ⟨h1, h2⟩, fun c => c.elim⟩
    · cases e
  case write j v =>
    split at e
    · simp only [Out.ok.injEq, Prod.mk.injEq] at e; rw [← e.2]; exact ⟨fun _ => ⟨h1, h2⟩, fun c => c.elim⟩
    · rename_i q hq
      simp only [Out.ok.injEq, Prod.mk.injEq] at e
      rw [← e.2]
      refine ⟨fun _ => ⟨h1, ?_⟩, fun c => c.elim⟩
      rcases r.get? j with ⟨g1, g2⟩ | ⟨hh, tt, g1, g2, hl⟩
      · rw [g2] at hq; cases hq
      · rw [g2] at hq
        injection hq with hq
        subst hq
        by_cases c : k = q
        · subst c
          dsimp only
          rw [found_put_self, ← h2, hl.2.2]
        · dsimp only
          rw [found_put_ne _ c, h2]
    · rename_i q hq
      simp only [Out.ok.injEq, Prod.mk.injEq] at e
      rw [← e.2]
      refine ⟨fun _ => ⟨h1, ?_⟩, fun c => c.elim⟩
      rcases r.get? j with ⟨g1, g2⟩ | ⟨hh, tt, g1, g2, hl⟩
      · rw [g2] at hq; cases hq
      · rw [g2] at hq
        injection hq with hq
        subst hq
        by_cases c : k = (shapeOf m.grid).chunk q
        · subst c
          dsimp only
          rw [found_put_self, ← h2, hl.2.2]
        · dsimp only
          rw [found_put_ne _ c, h2]
    · cases e
  case get p =>
    split at e
    · simp only [Out.ok.injEq, Prod.mk.injEq] at e; rw [← e.2]; exact ⟨fun _ => ⟨h1, h2⟩, fun c => c.elim⟩
    · cases e
  case setCell p a =>
    split at e
    · split at e
      · simp only [Out.ok.injEq, Prod.mk.injEq] at e
        rw [← e.2]
        simp only [Refers, Replaces]
        by_cases c : k = (shapeOf m.grid).chunk ((shapeOf m.grid).cell p)
        · rw [← c, found_put_self, h2]
          by_cases d : f = .inCell
          · rw [if_pos d]; exact ⟨fun _ => ⟨h1, d.symm⟩, fun q => (q.2 d).elim⟩
          · rw [if_neg d, hx, if_pos rfl]; exact ⟨fun q => (q ⟨rfl, d⟩).elim, fun _ => rfl⟩
        · rw [found_put_ne _ c]
          refine ⟨fun _ => ⟨?_, h2⟩, fun q => (c q.1.symm).elim⟩
          split
          · exact h1
          · rw [hx, if_neg c]
      · cases e
    · cases e
  case setChunk p a =>
    split at e
    · split at e
      · simp only [Out.ok.injEq, Prod.mk.injEq] at e
        rw [← e.2]
        simp only [Refers, Replaces]
        by_cases c : k = (shapeOf m.grid).chunk ((shapeOf m.grid).cell p)
        · rw [← c, found_put_self, h2]
          by_cases d : f = .inChunk
          · rw [if_pos d]; exact ⟨fun _ => ⟨h1, d.symm⟩, fun q => (q.2 d).elim⟩
          · rw [if_neg d, hx, if_pos rfl]; exact ⟨fun q => (q ⟨rfl, d⟩).elim, fun _ => rfl⟩
        · rw [found_put_ne _ c]
          refine ⟨fun _ => ⟨?_, h2⟩, fun q => (c q.1.symm).elim⟩
          split
          · exact h1
          · rw [hx, if_neg c]
      · cases e
    · cases e
  case setDefault a =>
    split at e
    · simp only [Out.ok.injEq, Prod.mk.injEq] at e; rw [← e.2]; exact ⟨fun _ => ⟨h1, h2⟩, fun c => c.elim⟩
    · cases e
  case getDefault =>
    simp only [Out.ok.injEq, Prod.mk.injEq] at e; rw [← e.2]; exact ⟨fun _ => ⟨h1, h2⟩, fun c => c.elim⟩

theorem gone_run {sh : Shape K} {i : Nat} (ops : List (RefOp K T)) : ∀ {s s' : RefState T} {x : List (RefRes T)},
    refSpecRun sh s ops = .ok (x, s') → s.held[i]? = some none → s'.held[i]? = some none := by
  induction ops with
  | nil =>
    intro s s' x e h
    simp only [refSpecRun, Out.ok.injEq, Prod.mk.injEq] at e
    rw [← e.2]; exact h
  | cons op ops ih =>
    intro s s' x e h
    simp only [refSpecRun] at e
    obtain ⟨r1, e1, e⟩ := Out.bind_eq_ok.1 e
    obtain ⟨r2, e2, e⟩ := Out.bind_eq_ok.1 e
    simp only [Out.ok.injEq, Prod.mk.injEq] at e
    rw [← e.2]
    exact ih (x := r2.1) e2 (gone_step (x := r1.1) e1 h)

theorem default_run {sh : Shape K} {i : Nat} (ops : List (RefOp K T)) : ∀ {s s' : RefState T} {x : List (RefRes T)},
    refSpecRun sh s ops = .ok (x, s') → s.held[i]? = some (some .default) → s'.held[i]? = some (some .default) := by
  induction ops with
  | nil =>
    intro s s' x e h
    simp only [refSpecRun, Out.ok.injEq, Prod.mk.injEq] at e
    rw [← e.2]; exact h
  | cons op ops ih =>
    intro s s' x e h
    simp only [refSpecRun] at e
    obtain ⟨r1, e1, e⟩ := Out.bind_eq_ok.1 e
    obtain ⟨r2, e2, e⟩ := Out.bind_eq_ok.1 e
    simp only [Out.ok.injEq, Prod.mk.injEq] at e
    rw [← e.2]
    exact ih (x := r2.1) e2 (default_step (x := r1.1) e1 h)

theorem refers_run {i : Nat} {t : Target} {k : Index} {f : Found} (ops : List (RefOp K T)) :
    ∀ {m m' : Live K T} {s : RefState T} {x : List (RefRes T)}, Rel m s → Place (shapeOf m.grid) k f t →
    refRun m ops = .ok (x, m') → Refers s i t k f →
    ∃ s', refSpecRun (shapeOf m.grid) s ops = .ok (x, s') ∧ Rel m' s' ∧ shapeOf m'.grid = shapeOf m.grid ∧
      m'.grid.origin = m.grid.origin ∧
      ((∀ op ∈ ops, ¬ Replaces (shapeOf m.grid) k f op) → Refers s' i t k f) ∧
      ((∃ op ∈ ops, Replaces (shapeOf m.grid) k f op) → s'.held[i]? = some none) := by
  induction ops with
  | nil =>
    intro m m' s x r hp e h
    simp only [refRun, Out.ok.injEq, Prod.mk.injEq] at e
    obtain ⟨rfl, rfl⟩ := e
    exact ⟨s, rfl, r, rfl, rfl, fun _ => h, fun ⟨_, q, _⟩ => by cases q⟩
  | cons op ops ih =>
    intro m m' s x r hp e h
    obtain ⟨s', es, rs, sh, o⟩ := agree_ok (run_agrees (op :: ops) r) e
    simp only [refRun] at e
    obtain ⟨⟨x1, m1⟩, e1, e⟩ := Out.bind_eq_ok.1 e
    obtain ⟨⟨x2, m2⟩, e2, e⟩ := Out.bind_eq_ok.1 e
    simp only [Out.ok.injEq, Prod.mk.injEq] at e
    obtain ⟨rfl, rfl⟩ := e
    obtain ⟨s1, f1, r1, sh1, o1⟩ := agree_ok (step_agrees r op) e1
    have hst := refers_step r hp f1 h
    have es' := es
    simp only [refSpecRun, f1, Out.bind_ok] at es'
    obtain ⟨⟨y, s2⟩, g2, es'⟩ := Out.bind_eq_ok.1 es'
    simp only [Out.ok.injEq, Prod.mk.injEq] at es'
    obtain ⟨-, rfl⟩ := es'
    refine ⟨s2, es, rs, sh, o, fun hn => ?_, fun ⟨q, hq, hr⟩ => ?_⟩
    · obtain ⟨s3, f3, -, -, -, k1, -⟩ := ih r1 (sh1 ▸ hp) e2 (hst.1 (hn op (by simp)))
      rw [sh1, g2] at f3
      simp only [Out.ok.injEq, Prod.mk.injEq] at f3
      rw [f3.2]
      exact k1 fun q hq => sh1 ▸ hn q (by simp [hq])
    · by_cases c : Replaces (shapeOf m.grid) k f op
      · exact gone_run ops g2 (hst.2 c)
      · rcases List.mem_cons.1 hq with rfl | hq
        · exact (c hr).elim
        · obtain ⟨s3, f3, -, -, -, -, k2⟩ := ih r1 (sh1 ▸ hp) e2 (hst.1 c)
          rw [sh1, g2] at f3
          simp only [Out.ok.injEq, Prod.mk.injEq] at f3
          rw [f3.2]
          exact k2 ⟨q, hq, sh1 ▸ hr⟩

theorem get_eq {m : Live K T} {s : RefState T} (r : Rel m s) (p : Vec3 K) (hp : Representable (chunkIn m.grid p)) :
    HashedGrid.getImmutable m.grid (atFrame m.grid.origin p) =
      .ok (s.contents.value (chunkIn m.grid p) (cellIn m.grid p), s.contents.found (chunkIn m.grid p)) := by
  have h := step_agrees r (.get p)
  simp only [refStep, refSpecStep] at h
  have ek : (shapeOf m.grid).chunk ((shapeOf m.grid).cell p) = chunkIn m.grid p := rfl
  have ec : (shapeOf m.grid).cell p = cellIn m.grid p := rfl
  rw [ek, ec, if_pos hp] at h
  rcases h with ⟨-, h⟩ | ⟨x, m1, s1, e1, e2, -⟩
  · cases h
  · obtain ⟨y, h1, h2⟩ := Out.bind_eq_ok.1 e1
    simp only [Out.ok.injEq, Prod.mk.injEq] at e2 h2
    rw [h1]
    have := e2.1.trans h2.1.symm
    injection this with a b
    rw [a, b]

end

end Verif.HashedGridReferences
