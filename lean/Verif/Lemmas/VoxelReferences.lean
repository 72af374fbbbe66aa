import Verif.Spec.VoxelReferences
import Verif.Lemmas.Voxel

/-! # References into a voxel grid: the invariant -/
namespace Verif.Voxel
open Verif

variable {K T : Type}

/-- A kept reference refers to the given target. -/
def Tracks (epoch : Nat) (nx ny nz : Int) (h : Held) : Option Target → Prop
  | some .oob => h.ref = .oob
  | some (.cell i) => InGrid nx ny nz i ∧ h.ref = .cell (rowMajor ny nz i).toNat ∧ h.epoch = epoch
  | none => (∃ n, h.ref = .cell n) ∧ h.epoch < epoch

/-- The modelled grid represents the abstract one. -/
structure Rel (m : Live K T) (s : RefState T) : Prop where
  holds : Holds m.grid s.contents
  nx : m.grid.numX = s.nx
  ny : m.grid.numY = s.ny
  nz : m.grid.numZ = s.nz
  len : m.held.length = s.held.length
  tracks : ∀ k : Nat, ∀ h t, m.held[k]? = some h → s.held[k]? = some t → Tracks m.epoch s.nx s.ny s.nz h t

/-- The value of a reference, or undefined. -/
def orUb : Option T → Out T
  | some v => .ok v
  | none => .ub

theorem Rel.cases {m : Live K T} {s : RefState T} (r : Rel m s) (k : Nat) :
    (m.held[k]? = none ∧ s.held[k]? = none) ∨
      ∃ h t, m.held[k]? = some h ∧ s.held[k]? = some t ∧ Tracks m.epoch s.nx s.ny s.nz h t := by
  by_cases hk : k < m.held.length
  · have hk' : k < s.held.length := r.len ▸ hk
    refine .inr ⟨_, _, List.getElem?_eq_getElem hk, List.getElem?_eq_getElem hk', ?_⟩
    exact r.tracks k _ _ (List.getElem?_eq_getElem hk) (List.getElem?_eq_getElem hk')
  · have hk' : ¬ k < s.held.length := r.len ▸ hk
    exact .inl ⟨List.getElem?_eq_none (by omega), List.getElem?_eq_none (by omega)⟩

theorem Rel.readHeld {m : Live K T} {s : RefState T} (r : Rel m s) (k : Nat) :
    readHeld m k = orUb (s.value k) := by
  unfold Verif.Voxel.readHeld RefState.value
  rcases r.cases k with ⟨h1, h2⟩ | ⟨h, t, h1, h2, tr⟩
  · rw [h1, h2]; rfl
  · rw [h1, h2]
    match t, tr with
    | some .oob, tr =>
      simp only [Tracks] at tr
      simp only [tr, readRef, orUb, r.holds.oob]
    | some (.cell i), ⟨hi, hr, he⟩ =>
      have hc := r.holds.cells i (by rw [r.nx, r.ny, r.nz]; exact hi)
      rw [r.ny, r.nz] at hc
      simp only [hr, he, if_true, readRef, hc, orUb]
    | none, ⟨⟨n, hr⟩, he⟩ =>
      simp only [hr]
      rw [if_neg (by omega)]; rfl

theorem Rel.readArg {m : Live K T} {s : RefState T} (r : Rel m s) (a : Arg T) :
    readArg m a = orUb (s.arg a) := by
  cases a with
  | value v => rfl
  | held k => exact r.readHeld k

theorem Rel.defaultEq {m : Live K T} {s : RefState T} (r : Rel m s) (v : T) :
    Rel { m with grid := { m.grid with default := v } }
      { s with contents := { s.contents with default := v } } :=
  ⟨⟨⟨r.holds.wf.posX, r.holds.wf.posY, r.holds.wf.posZ, r.holds.wf.s1, r.holds.wf.s2, r.holds.wf.len, r.holds.wf.fits⟩,
    rfl, r.holds.oob, r.holds.cells⟩, r.nx, r.ny, r.nz, r.len, r.tracks⟩

theorem Rel.oobEq {m : Live K T} {s : RefState T} (r : Rel m s) (v : T) :
    Rel { m with grid := { m.grid with oob := v } }
      { s with contents := { s.contents with oob := v } } :=
  ⟨⟨⟨r.holds.wf.posX, r.holds.wf.posY, r.holds.wf.posZ, r.holds.wf.s1, r.holds.wf.s2, r.holds.wf.len, r.holds.wf.fits⟩,
    r.holds.default, rfl, r.holds.cells⟩, r.nx, r.ny, r.nz, r.len, r.tracks⟩

theorem Rel.write {m : Live K T} {s : RefState T} (r : Rel m s) {i : Index} (hi : InGrid s.nx s.ny s.nz i) (v : T) :
    ∃ g, writeRef m.grid v (.cell (rowMajor s.ny s.nz i).toNat) = .ok g ∧
      Rel { m with grid := g }
        { s with contents := { s.contents with cells := fun j => if j = i then v else s.contents.cells j } } := by
  have hi' : InGrid m.grid.numX m.grid.numY m.grid.numZ i := by rw [r.nx, r.ny, r.nz]; exact hi
  obtain ⟨e, h⟩ := holds_write r.holds hi' v
  refine ⟨_, ?_, h, r.nx, r.ny, r.nz, r.len, r.tracks⟩
  rw [← r.ny, ← r.nz]
  exact e

/-- After the storage was replaced, references to cells are of an older epoch. -/
theorem Rel.expire {m : Live K T} {s : RefState T} (r : Rel m s) (nx ny nz : Int) :
    m.held.length = s.expire.length ∧
    ∀ k : Nat, ∀ h t, m.held[k]? = some h → s.expire[k]? = some t → Tracks (m.epoch + 1) nx ny nz h t := by
  refine ⟨by simp only [RefState.expire, List.length_map, r.len], ?_⟩
  intro k h t hh ht
  simp only [RefState.expire, List.getElem?_map, Option.map_eq_some_iff] at ht
  obtain ⟨u, hu, rfl⟩ := ht
  have tr := r.tracks k h u hh hu
  match u, tr with
  | some .oob, tr => simpa only [if_true, Tracks] using tr
  | some (.cell i), ⟨hi, hr, he⟩ =>
    rw [if_neg (by simp)]
    exact ⟨⟨_, hr⟩, by omega⟩
  | none, ⟨hr, he⟩ =>
    rw [if_neg (by simp)]
    exact ⟨hr, by omega⟩

theorem Rel.fill {m : Live K T} {s : RefState T} (r : Rel m s) (v : T) :
    setContentsFrom m (fun _ => .ok v) = .ok
      { m with grid := setContents m.grid v, epoch := m.epoch + 1 } ∧
    Rel { m with grid := setContents m.grid v, epoch := m.epoch + 1 } (s.fill v) := by
  constructor
  · unfold setContentsFrom resizeData clearData
    dsimp only
    have hl : 0 < m.grid.numX * m.grid.numY * m.grid.numZ :=
      Int.mul_pos (Int.mul_pos r.holds.wf.posX r.holds.wf.posY) r.holds.wf.posZ
    rw [if_neg (by omega)]
    rfl
  · have h := holds_fill r.holds.wf v m.grid.default
    have h : Holds (setContents m.grid v) ⟨fun _ => v, m.grid.default, m.grid.oob⟩ := h
    rw [r.holds.default, r.holds.oob] at h
    obtain ⟨l, tr⟩ := r.expire s.nx s.ny s.nz
    exact ⟨h, r.nx, r.ny, r.nz, l, tr⟩

/-- How the argument is read matters only in the cleared state. -/
theorem setContentsFrom_congr {m : Live K T} {f : Live K T → Out T} {x : Out T} (h : f (clearData m) = x) :
    setContentsFrom m f = setContentsFrom m (fun _ => x) := by
  unfold setContentsFrom resizeData
  rw [h]

theorem setContentsFrom_ub {m : Live K T} {s : RefState T} (r : Rel m s) :
    setContentsFrom m (fun _ => .ub) = .ub := by
  unfold setContentsFrom resizeData clearData
  dsimp only
  have hl : 0 < m.grid.numX * m.grid.numY * m.grid.numZ :=
    Int.mul_pos (Int.mul_pos r.holds.wf.posX r.holds.wf.posY) r.holds.wf.posZ
  rw [if_neg (by omega)]
  rfl

variable [Field K] [LinearOrder K]

/-- The outcome of the model is the specified one, and the states correspond. -/
def Agrees (x : Out (Res T × Live K T)) (y : Out (Res T × RefState T)) : Prop :=
  (x = .ub ∧ y = .ub) ∨ ∃ res m s, x = .ok (res, m) ∧ y = .ok (res, s) ∧ Rel m s

theorem refStep_agrees {m : Live K T} {s : RefState T} (r : Rel m s) (op : RefOp K T) :
    Agrees (refStep m op) (refSpecStep s op) := by
  cases op with
  | hold i =>
    by_cases hi : InGrid s.nx s.ny s.nz i
    · have hi' : InGrid m.grid.numX m.grid.numY m.grid.numZ i := by rw [r.nx, r.ny, r.nz]; exact hi
      simp only [refStep, refSpecStep, hold, getRef_in r.holds.wf hi', Out.bind_ok, if_pos hi]
      refine .inr ⟨_, _, _, rfl, rfl, r.holds, r.nx, r.ny, r.nz, by simp [r.len], ?_⟩
      intro k h t hh ht
      dsimp only at hh ht ⊢
      by_cases hk : k < m.held.length
      · rw [List.getElem?_append_left hk] at hh
        rw [List.getElem?_append_left (r.len ▸ hk)] at ht
        exact r.tracks k h t hh ht
      · rw [List.getElem?_append_right (by omega)] at hh
        rw [List.getElem?_append_right (by rw [← r.len]; omega), ← r.len] at ht
        obtain ⟨j, hj⟩ : ∃ j, k - m.held.length = j := ⟨_, rfl⟩
        rw [hj] at hh ht
        cases j with
        | zero =>
          simp only [List.getElem?_cons_zero, Option.some.injEq] at hh ht
          subst hh ht
          exact ⟨hi, by rw [r.ny, r.nz], rfl⟩
        | succ j => simp at hh
    · have hi' : ¬ InGrid m.grid.numX m.grid.numY m.grid.numZ i := by rw [r.nx, r.ny, r.nz]; exact hi
      simp only [refStep, refSpecStep, hold, getRef_out hi', Out.bind_ok, if_neg hi]
      refine .inr ⟨_, _, _, rfl, rfl, r.holds, r.nx, r.ny, r.nz, by simp [r.len], ?_⟩
      intro k h t hh ht
      dsimp only at hh ht ⊢
      by_cases hk : k < m.held.length
      · rw [List.getElem?_append_left hk] at hh
        rw [List.getElem?_append_left (r.len ▸ hk)] at ht
        exact r.tracks k h t hh ht
      · rw [List.getElem?_append_right (by omega)] at hh
        rw [List.getElem?_append_right (by rw [← r.len]; omega), ← r.len] at ht
        obtain ⟨j, hj⟩ : ∃ j, k - m.held.length = j := ⟨_, rfl⟩
        rw [hj] at hh ht
        cases j with
        | zero =>
          simp only [List.getElem?_cons_zero, Option.some.injEq] at hh ht
          subst hh ht
          rfl
        | succ j => simp at hh
  | read k =>
    simp only [refStep, refSpecStep, r.readHeld k]
    cases s.value k with
    | none => exact .inl ⟨rfl, rfl⟩
    | some v => exact .inr ⟨_, _, _, rfl, rfl, r⟩
  | write k v =>
    simp only [refStep, refSpecStep, writeHeld]
    rcases r.cases k with ⟨h1, h2⟩ | ⟨h, t, h1, h2, tr⟩
    · rw [h1, h2]; exact .inl ⟨rfl, rfl⟩
    · rw [h1, h2]
      match t, tr with
      | some .oob, tr =>
        simp only [Tracks] at tr
        simp only [tr, writeRef, Out.bind_ok]
        exact .inr ⟨_, _, _, rfl, rfl, r.oobEq v⟩
      | some (.cell i), ⟨hi, hr, he⟩ =>
        obtain ⟨g, e, h'⟩ := r.write hi v
        simp only [hr, he, if_true, e, Out.bind_ok]
        exact .inr ⟨_, _, _, rfl, rfl, h'⟩
      | none, ⟨⟨n, hr⟩, he⟩ =>
        simp only [hr]
        rw [if_neg (by omega)]
        exact .inl ⟨rfl, rfl⟩
  | get i =>
    obtain ⟨g', e, h, _⟩ := step_refines r.holds (.get i)
    simp only [step, specStep, Out.bind_eq_ok, Out.ok.injEq, Prod.mk.injEq] at e
    obtain ⟨x, hx, hx', rfl⟩ := e
    simp only [refStep, refSpecStep, hx, Out.bind_ok]
    refine .inr ⟨_, _, _, rfl, ?_, r⟩
    rw [hx', r.nx, r.ny, r.nz]
  | set i a =>
    by_cases hi : InGrid s.nx s.ny s.nz i
    · have hi' : InGrid m.grid.numX m.grid.numY m.grid.numZ i := by rw [r.nx, r.ny, r.nz]; exact hi
      simp only [refStep, refSpecStep, setValueArg, (indexInBounds_iff m.grid i).2 hi', if_true, (r.holds.wf.access hi').1,
        Out.bind_ok, r.readArg a, if_pos hi]
      cases s.arg a with
      | none => exact .inl ⟨rfl, rfl⟩
      | some v =>
        obtain ⟨g, e, h'⟩ := r.write hi v
        rw [← r.ny, ← r.nz] at e
        simp only [orUb, Out.bind_ok, e]
        exact .inr ⟨_, _, _, rfl, rfl, h'⟩
    · have hi' : ¬ InGrid m.grid.numX m.grid.numY m.grid.numZ i := by rw [r.nx, r.ny, r.nz]; exact hi
      have hb : indexInBounds m.grid i = false := by
        rw [← Bool.not_eq_true, indexInBounds_iff]; exact hi'
      simp only [refStep, refSpecStep, setValueArg, hb, Bool.false_eq_true, if_false, Out.bind_ok, if_neg hi]
      exact .inr ⟨_, _, _, rfl, rfl, r⟩
  | resetDefault =>
    obtain ⟨e, h⟩ := r.fill s.contents.default
    simp only [refStep, refSpecStep, resetWithDefaultLive]
    rw [setContentsFrom_congr (x := .ok s.contents.default) (by simp only [clearData, r.holds.default]), e]
    exact .inr ⟨_, _, _, rfl, rfl, h⟩
  | resetValue a =>
    cases a with
    | value v =>
      obtain ⟨e, h⟩ := r.fill v
      simp only [refStep, refSpecStep, resetWithNewValueArg]
      rw [setContentsFrom_congr (x := .ok v) rfl, e]
      exact .inr ⟨_, _, _, rfl, rfl, h⟩
    | held k =>
      simp only [refStep, refSpecStep, resetWithNewValueArg]
      rcases r.cases k with ⟨h1, h2⟩ | ⟨h, t, h1, h2, tr⟩
      · rw [h2, if_neg (by simp), setContentsFrom_congr (x := .ub), setContentsFrom_ub r]
        · exact .inl ⟨rfl, rfl⟩
        · simp only [Verif.Voxel.readArg, Verif.Voxel.readHeld, clearData, h1]
      · rw [h2]
        match t, tr with
        | some .oob, tr =>
          simp only [Tracks] at tr
          obtain ⟨e, h'⟩ := r.fill s.contents.oob
          rw [if_pos rfl, setContentsFrom_congr (x := .ok s.contents.oob), e]
          · exact .inr ⟨_, _, _, rfl, rfl, h'⟩
          · simp only [Verif.Voxel.readArg, Verif.Voxel.readHeld, clearData, h1, tr, readRef, r.holds.oob]
        | some (.cell i), ⟨hi, hr, he⟩ =>
          rw [if_neg (by simp), setContentsFrom_congr (x := .ub), setContentsFrom_ub r]
          · exact .inl ⟨rfl, rfl⟩
          · simp only [Verif.Voxel.readArg, Verif.Voxel.readHeld, clearData, h1, hr]
            exact if_neg (show ¬ h.epoch = m.epoch + 1 by omega)
        | none, ⟨⟨n, hr⟩, he⟩ =>
          rw [if_neg (by simp), setContentsFrom_congr (x := .ub), setContentsFrom_ub r]
          · exact .inl ⟨rfl, rfl⟩
          · simp only [Verif.Voxel.readArg, Verif.Voxel.readHeld, clearData, h1, hr]
            exact if_neg (show ¬ h.epoch = m.epoch + 1 by omega)
  | resetNewDefault a =>
    simp only [refStep, refSpecStep, resetWithNewDefaultArg, setDefaultArg, r.readArg a]
    cases s.arg a with
    | none => exact .inl ⟨rfl, rfl⟩
    | some v =>
      obtain ⟨e, h⟩ := (r.defaultEq v).fill v
      simp only [orUb, Out.bind_ok]
      rw [setContentsFrom_congr (x := .ok v) (by simp only [clearData]), e]
      exact .inr ⟨_, _, _, rfl, rfl, h⟩
  | setDefault a =>
    simp only [refStep, refSpecStep, setDefaultArg, r.readArg a]
    cases s.arg a with
    | none => exact .inl ⟨rfl, rfl⟩
    | some v => exact .inr ⟨_, _, _, rfl, rfl, r.defaultEq v⟩
  | setOob a =>
    simp only [refStep, refSpecStep, setOobArg, r.readArg a]
    cases s.arg a with
    | none => exact .inl ⟨rfl, rfl⟩
    | some v => exact .inr ⟨_, _, _, rfl, rfl, r.oobEq v⟩
  | getDefault =>
    simp only [refStep, refSpecStep, r.holds.default]
    exact .inr ⟨_, _, _, rfl, rfl, r⟩
  | setRaw data =>
    obtain ⟨g', e, h, x, y, z⟩ := step_refines r.holds (.setRaw data)
    simp only [step, specStep, Out.ok.injEq, Prod.mk.injEq, r.nx, r.ny, r.nz] at e h
    simp only [refStep, refSpecStep, setRawLive]
    by_cases hd : (data.length : Int) = s.nx * s.ny * s.nz
    · rw [if_pos hd] at e h ⊢
      simp only [Res.flag.injEq] at e
      rw [if_pos e.1]
      obtain ⟨l, tr⟩ := r.expire s.nx s.ny s.nz
      refine .inr ⟨_, _, _, rfl, rfl, ?_, ?_, ?_, ?_, l, tr⟩
      · rw [e.2]; exact h
      · dsimp only; rw [e.2, x, r.nx]
      · dsimp only; rw [e.2, y, r.ny]
      · dsimp only; rw [e.2, z, r.nz]
    · rw [if_neg hd] at e h ⊢
      simp only [Res.flag.injEq] at e
      rw [if_neg (by rw [e.1]; simp)]
      exact .inr ⟨_, _, _, rfl, rfl, r⟩
  | init origin cx cy cz nx ny nz a b =>
    simp only [refStep, refSpecStep, reinitialize]
    by_cases hc : cx ≤ 0 ∨ cy ≤ 0 ∨ cz ≤ 0 ∨ nx ≤ 0 ∨ ny ≤ 0 ∨ nz ≤ 0
    · have hs : safetyCheckCells cx cy cz nx ny nz = .throws .invalidArgument := by
        unfold safetyCheckCells; rw [if_pos hc]
      rw [if_pos hc, hs]
      exact .inr ⟨_, _, _, rfl, rfl, r⟩
    · have hs : safetyCheckCells cx cy cz nx ny nz = .ok () := by
        unfold safetyCheckCells; rw [if_neg hc]
      rw [if_neg hc, hs]
      simp only [Out.bind_ok, setDefaultArg, r.readArg a]
      cases s.arg a with
      | none => exact .inl ⟨rfl, rfl⟩
      | some d =>
        have hb : ∀ x, s.arg b = x → RefState.arg { s with contents := { s.contents with default := d } } b = x := by
          rintro _ rfl
          cases b <;> rfl
        simp only [orUb, Out.bind_ok, setOobArg, (r.defaultEq d).readArg b]
        cases hbb : s.arg b with
        | none =>
          rw [hb _ hbb]
          exact .inl ⟨rfl, rfl⟩
        | some o =>
          rw [hb _ hbb]
          simp only [orUb, Out.bind_ok]
          simp only [not_or, not_le] at hc
          obtain ⟨_, _, _, p1, p2, p3⟩ := hc
          have hyz : 0 < ny * nz := Int.mul_pos p2 p3
          have hle : ny * nz ≤ nx * ny * nz := by
            rw [Int.mul_assoc]
            have := Int.mul_le_mul_of_nonneg_right (by omega : 1 ≤ nx) (by omega : 0 ≤ ny * nz)
            omega
          by_cases hn : nx * ny * nz < 2 ^ 63
          · have hex : ∃ g, initializeCells origin cx cy cz nx ny nz d o = .ok g := by
              unfold initializeCells
              simp only [hs, Out.bind_ok]
              unfold int64
              rw [if_pos (show (-2 ^ 63 ≤ ny * nz ∧ ny * nz < 2 ^ 63) by omega),
                if_pos (show (-2 ^ 63 ≤ nx * ny * nz ∧ nx * ny * nz < 2 ^ 63) by omega)]
              exact ⟨_, rfl⟩
            obtain ⟨g, hg⟩ := hex
            have hh := initializeCells_holds hg
            obtain ⟨_, _, _, hgeq⟩ := initializeCells_eq_ok hg
            rw [hg, if_pos hn]
            obtain ⟨l, tr⟩ := r.expire nx ny nz
            exact .inr ⟨_, _, _, rfl, rfl, hh, by rw [hgeq], by rw [hgeq], by rw [hgeq], l, tr⟩
          · have hub : initializeCells origin cx cy cz nx ny nz d o = .ub := by
              unfold initializeCells
              simp only [hs, Out.bind_ok]
              unfold int64
              rw [if_neg (show ¬ (-2 ^ 63 ≤ nx * ny * nz ∧ nx * ny * nz < 2 ^ 63) by omega)]
              split <;> rfl
            rw [hub, if_neg hn]
            exact .inl ⟨rfl, rfl⟩

theorem refRun_agrees (ops : List (RefOp K T)) : ∀ {m : Live K T} {s : RefState T}, Rel m s →
    (refRun m ops = .ub ∧ refSpecRun s ops = .ub) ∨
      ∃ rs m' s', refRun m ops = .ok (rs, m') ∧ refSpecRun s ops = .ok (rs, s') ∧ Rel m' s' := by
  induction ops with
  | nil => intro m s r; exact .inr ⟨_, _, _, rfl, rfl, r⟩
  | cons op ops ih =>
    intro m s r
    rcases refStep_agrees r op with ⟨e1, e2⟩ | ⟨x, m1, s1, e1, e2, r1⟩
    · exact .inl ⟨by simp only [refRun, e1, Out.bind_ub], by simp only [refSpecRun, e2, Out.bind_ub]⟩
    · rcases ih r1 with ⟨f1, f2⟩ | ⟨rs, m2, s2, f1, f2, r2⟩
      · exact .inl ⟨by simp only [refRun, e1, Out.bind_ok, f1, Out.bind_ub],
          by simp only [refSpecRun, e2, Out.bind_ok, f2, Out.bind_ub]⟩
      · exact .inr ⟨x :: rs, _, _, by simp only [refRun, e1, Out.bind_ok, f1],
          by simp only [refSpecRun, e2, Out.bind_ok, f2], r2⟩

end Verif.Voxel
