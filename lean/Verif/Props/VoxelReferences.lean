import Verif.Lemmas.VoxelReferences
import Verif.Props.Voxel

/-! # References into a voxel grid -/
namespace Verif.Voxel
open Verif

section
variable {K T : Type} [Field K] [LinearOrder K] [FloorRing K]

theorem Created.rel {d o : T} {g : Grid (Iso3 K) K T} (h : Created d o g) :
    Rel ⟨g, 0, []⟩ ⟨g.numX, g.numY, g.numZ, ⟨fun _ => d, d, o⟩, []⟩ :=
  ⟨h.holds, rfl, rfl, rfl, rfl, by intro k h t hh; simp at hh⟩

/-- Every history of operations that keeps references into the grid, reads and writes through them and passes them back
as arguments reports what the abstract grid reports, and is undefined exactly when the abstract grid says so. -/
theorem C165_history (d o : T) (g : Grid (Iso3 K) K T) (h : Created d o g) (ops : List (RefOp K T)) :
    results (refRun ⟨g, 0, []⟩ ops) =
      results (refSpecRun ⟨g.numX, g.numY, g.numZ, ⟨fun _ => d, d, o⟩, []⟩ ops) := by
  rcases refRun_agrees ops h.rel with ⟨e1, e2⟩ | ⟨rs, m, s, e1, e2, _⟩ <;> rw [e1, e2] <;> rfl

/-- The operation leaves the elements of the storage in place. -/
def Keeps : RefOp K T → Prop
  | .resetDefault | .resetValue _ | .resetNewDefault _ | .setRaw _ | .init .. => False
  | _ => True

omit [FloorRing K] in
theorem refSpecStep_keeps {s s' : RefState T} {op : RefOp K T} {x : Res T} (hk : Keeps op)
    (h : refSpecStep s op = .ok (x, s')) :
    s'.nx = s.nx ∧ s'.ny = s.ny ∧ s'.nz = s.nz ∧
      ∀ k : Nat, ∀ t, s.held[k]? = some t → s'.held[k]? = some t := by
  have app : ∀ (t : Option Target) (k : Nat) u, s.held[k]? = some u → (s.held ++ [t])[k]? = some u := by
    intro t k u hu
    have hl : k < s.held.length := by
      by_cases hl : k < s.held.length
      · exact hl
      · rw [List.getElem?_eq_none (by omega)] at hu; cases hu
    rw [List.getElem?_append_left hl, hu]
  cases op with
  | hold i =>
    simp only [refSpecStep] at h
    split at h <;> (cases h; exact ⟨rfl, rfl, rfl, app _⟩)
  | read k =>
    simp only [refSpecStep] at h
    split at h <;> cases h
    exact ⟨rfl, rfl, rfl, fun _ _ h => h⟩
  | write k v =>
    simp only [refSpecStep] at h
    split at h <;> cases h <;> exact ⟨rfl, rfl, rfl, fun _ _ h => h⟩
  | get i => cases h; exact ⟨rfl, rfl, rfl, fun _ _ h => h⟩
  | set i a =>
    simp only [refSpecStep] at h
    split at h
    · split at h <;> cases h
      exact ⟨rfl, rfl, rfl, fun _ _ h => h⟩
    · cases h; exact ⟨rfl, rfl, rfl, fun _ _ h => h⟩
  | resetDefault => exact hk.elim
  | resetValue a => exact hk.elim
  | resetNewDefault a => exact hk.elim
  | setRaw data => exact hk.elim
  | init => exact hk.elim
  | setDefault a =>
    simp only [refSpecStep] at h
    split at h <;> cases h
    exact ⟨rfl, rfl, rfl, fun _ _ h => h⟩
  | setOob a =>
    simp only [refSpecStep] at h
    split at h <;> cases h
    exact ⟨rfl, rfl, rfl, fun _ _ h => h⟩
  | getDefault => cases h; exact ⟨rfl, rfl, rfl, fun _ _ h => h⟩

omit [FloorRing K] in
theorem refSpecRun_keeps (ops : List (RefOp K T)) : ∀ {s s' : RefState T} {rs : List (Res T)},
    (∀ op ∈ ops, Keeps op) → refSpecRun s ops = .ok (rs, s') →
    s'.nx = s.nx ∧ s'.ny = s.ny ∧ s'.nz = s.nz ∧
      ∀ k : Nat, ∀ t, s.held[k]? = some t → s'.held[k]? = some t := by
  induction ops with
  | nil => intro s s' rs _ h; cases h; exact ⟨rfl, rfl, rfl, fun _ _ h => h⟩
  | cons op ops ih =>
    intro s s' rs hk h
    simp only [refSpecRun, Out.bind_eq_ok, Out.ok.injEq, Prod.mk.injEq] at h
    obtain ⟨⟨x, s1⟩, h1, ⟨ys, s2⟩, h2, _, rfl⟩ := h
    obtain ⟨a, b, c, e⟩ := refSpecStep_keeps (hk op (List.mem_cons_self ..)) h1
    obtain ⟨a', b', c', e'⟩ := ih (fun o ho => hk o (List.mem_cons_of_mem _ ho)) h2
    exact ⟨a'.trans a, b'.trans b, c'.trans c, fun k t ht => e' k t (e k t ht)⟩

omit [FloorRing K] in
theorem Rel.run {m m' : Live K T} {s : RefState T} (r : Rel m s) {ops : List (RefOp K T)} {rs : List (Res T)}
    (h : refRun m ops = .ok (rs, m')) : ∃ s', refSpecRun s ops = .ok (rs, s') ∧ Rel m' s' := by
  rcases refRun_agrees ops r with ⟨e1, _⟩ | ⟨rs', m2, s2, e1, e2, r2⟩
  · rw [e1] at h; cases h
  · rw [e1] at h; cases h
    exact ⟨s2, e2, r2⟩

omit [FloorRing K] in
theorem Rel.get {m : Live K T} {s : RefState T} (r : Rel m s) {i : Index} (hi : InGrid s.nx s.ny s.nz i) :
    getImmutable m.grid i = .ok (s.contents.cells i, true) := by
  have hi' : InGrid m.grid.numX m.grid.numY m.grid.numZ i := by rw [r.nx, r.ny, r.nz]; exact hi
  unfold getImmutable
  simp only [getRef_in r.holds.wf hi', Out.bind_ok, readRef, r.holds.cells i hi']

omit [FloorRing K] in
/-- Keeping a reference to a cell adds it at the end. -/
theorem Rel.hold {m m' : Live K T} {s : RefState T} (r : Rel m s) {i : Index} (hi : InGrid s.nx s.ny s.nz i) {b : Bool}
    (h : hold m i = .ok (b, m')) :
    b = true ∧ Rel m' { s with held := s.held ++ [some (.cell i)] } := by
  rcases refStep_agrees (K := K) r (.hold i) with ⟨e1, _⟩ | ⟨x, m1, s1, e1, e2, r1⟩
  · simp only [refStep, h, Out.bind_ok] at e1; cases e1
  · simp only [refStep, h, Out.bind_ok] at e1
    simp only [refSpecStep, if_pos hi] at e2
    cases e1; cases e2
    exact ⟨rfl, r1⟩

/-- A reference to a cell reads what the grid reads at its index, whatever is written in between by index or through
this or other references, until the contents are reset, replaced or initialized anew. -/
theorem C165_follows (d o : T) (g : Grid (Iso3 K) K T) (h : Created d o g) (ops : List (RefOp K T)) (rs : List (Res T))
    (m : Live K T) (hm : refRun ⟨g, 0, []⟩ ops = .ok (rs, m)) (i : Index)
    (hi : InGrid m.grid.numX m.grid.numY m.grid.numZ i) (b : Bool) (m1 : Live K T) (hh : hold m i = .ok (b, m1))
    (later : List (RefOp K T)) (hk : ∀ op ∈ later, Keeps op) (rs' : List (Res T)) (m2 : Live K T)
    (hl : refRun m1 later = .ok (rs', m2)) :
    ∃ v, readHeld m2 m.held.length = .ok v ∧ getImmutable m2.grid i = .ok (v, true) := by
  obtain ⟨s, _, r⟩ := h.rel.run hm
  rw [r.nx, r.ny, r.nz] at hi
  obtain ⟨_, r1⟩ := r.hold hi hh
  obtain ⟨s2, e2, r2⟩ := r1.run hl
  obtain ⟨a, b', c, e⟩ := refSpecRun_keeps later hk e2
  have ht := e m.held.length (some (.cell i)) (by rw [r.len]; simp)
  refine ⟨s2.contents.cells i, ?_, r2.get (by rw [a, b', c]; exact hi)⟩
  rw [r2.readHeld]
  simp only [RefState.value, ht, orUb]

/-- Filling the grid with the value of one of its own cells: `ResetWithNewValue` given the reference is undefined,
because the storage is cleared before the value is read; `ResetWithNewDefault` reads it first and fills the grid with
it. -/
theorem C165_reset_with_own_cell (d o : T) (g : Grid (Iso3 K) K T) (h : Created d o g) (ops : List (RefOp K T))
    (rs : List (Res T)) (m : Live K T) (hm : refRun ⟨g, 0, []⟩ ops = .ok (rs, m)) (i : Index)
    (hi : InGrid m.grid.numX m.grid.numY m.grid.numZ i) (b : Bool) (m1 : Live K T) (hh : hold m i = .ok (b, m1)) :
    resetWithNewValueArg m1 (.held m.held.length) = .ub ∧
    ∃ v m2, getImmutable m.grid i = .ok (v, true) ∧ resetWithNewDefaultArg m1 (.held m.held.length) = .ok m2 ∧
      (m2.grid.numX = m.grid.numX ∧ m2.grid.numY = m.grid.numY ∧ m2.grid.numZ = m.grid.numZ) ∧
      ∀ j, InGrid m.grid.numX m.grid.numY m.grid.numZ j → getImmutable m2.grid j = .ok (v, true) := by
  obtain ⟨s, _, r⟩ := h.rel.run hm
  rw [r.nx, r.ny, r.nz] at hi
  obtain ⟨_, r1⟩ := r.hold hi hh
  have ht : (s.held ++ [some (Target.cell i)])[m.held.length]? = some (some (.cell i)) := by rw [r.len]; simp
  constructor
  · rcases refStep_agrees (K := K) r1 (.resetValue (.held m.held.length)) with ⟨e1, _⟩ | ⟨x, m2, s2, _, e2, _⟩
    · simp only [refStep] at e1
      cases hx : resetWithNewValueArg m1 (.held m.held.length) with
      | ub => rfl
      | ok a => rw [hx] at e1; cases e1
      | throws a => rw [hx] at e1; cases e1
      | abort => rw [hx] at e1; cases e1
    · simp only [refSpecStep, ht, Option.some.injEq, reduceCtorEq, if_false] at e2
  · rcases refStep_agrees (K := K) r1 (.resetNewDefault (.held m.held.length)) with ⟨_, e2⟩ | ⟨x, m2, s2, e1, e2, r2⟩
    · simp only [refSpecStep, RefState.arg, RefState.value, ht, reduceCtorEq] at e2
    · simp only [refSpecStep, RefState.arg, RefState.value, ht, Out.ok.injEq, Prod.mk.injEq] at e2
      obtain ⟨_, rfl⟩ := e2
      simp only [refStep, Out.bind_eq_ok, Out.ok.injEq, Prod.mk.injEq] at e1
      obtain ⟨m3, e3, _, rfl⟩ := e1
      refine ⟨_, m3, r.get hi, e3, ⟨r2.nx.trans r.nx.symm, r2.ny.trans r.ny.symm, r2.nz.trans r.nz.symm⟩, ?_⟩
      intro j hj
      rw [r.nx, r.ny, r.nz] at hj
      exact r2.get hj

end

/-- A reference sees a later write by index, is copied into another cell, and is then passed to the two resets. -/
example : ∃ g : Grid (Iso3 Rat) Rat Nat, Created 7 9 g ∧
    results (refRun ⟨g, 0, []⟩ [.hold ⟨0, 0, 1⟩, .hold ⟨5, 0, 0⟩, .set ⟨0, 0, 1⟩ (.value 3), .read 0, .set ⟨1, 1, 1⟩ (.held 0),
      .get ⟨1, 1, 1⟩, .write 1 4, .get ⟨-1, 0, 0⟩, .resetNewDefault (.held 0), .get ⟨0, 0, 0⟩, .resetValue (.held 1),
      .get ⟨0, 0, 0⟩, .getDefault]) =
      .ok [.flag true, .flag false, .flag true, .val 3, .flag true, .read 3 true, .nothing, .read 4 false, .nothing,
        .read 3 true, .nothing, .read 4 true, .val 3] ∧
    results (refRun ⟨g, 0, []⟩ [.hold ⟨0, 0, 1⟩, .resetValue (.held 0)]) = .ub ∧
    results (refRun ⟨g, 0, []⟩ [.hold ⟨0, 0, 1⟩, .resetDefault, .read 0]) = .ub := by
  refine ⟨_, .cells (Iso3.translation ⟨0, 0, 0⟩) 1 1 1 2 2 2 rfl, ?_, ?_, ?_⟩ <;> decide +kernel

end Verif.Voxel
