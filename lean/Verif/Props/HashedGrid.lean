import Mathlib.Data.Rat.Floor
import Mathlib.Tactic.NormNum
import Verif.Lemmas.HashedGrid

/-!
# C39, C65: hashed voxel grids
-/
namespace Verif.HashedGrid
open Verif Verif.Voxel

section
variable {K T : Type} [Field K] [LinearOrder K] [IsStrictOrderedRing K] [FloorRing K]

omit [IsStrictOrderedRing K] in
/-- Creating a grid throws `std::invalid_argument` exactly when a cell size or a number of cells is not
positive. -/
theorem C65_creation [IsStrictOrderedRing K] (origin : Iso3 K) (cx cy cz : K) (nx ny nz : Int) (d : T) :
    ((cx ≤ 0 ∨ cy ≤ 0 ∨ cz ≤ 0 ∨ nx ≤ 0 ∨ ny ≤ 0 ∨ nz ≤ 0) →
      initializeGrid origin cx cy cz nx ny nz d = .throws .invalidArgument) ∧
    (0 < cx → 0 < cy → 0 < cz → 0 < nx → 0 < ny → 0 < nz → nx * ny * nz < 2 ^ 63 →
      ∃ g, initializeGrid origin cx cy cz nx ny nz d = .ok g ∧ g.origin = origin) := by
  constructor
  · intro h
    unfold initializeGrid safetyCheckCells
    rw [if_pos h]
    rfl
  · intro h1 h2 h3 h4 h5 h6 hf
    have hyz : 0 < ny * nz := Int.mul_pos h5 h6
    have hle : ny * nz ≤ nx * ny * nz := by
      rw [Int.mul_assoc]
      have := Int.mul_le_mul_of_nonneg_right (by omega : 1 ≤ nx) (by omega : 0 ≤ ny * nz)
      omega
    refine ⟨_, by
      unfold initializeGrid safetyCheckCells
      rw [if_neg (by simp only [not_or, not_le]; exact ⟨h1, h2, h3, h4, h5, h6⟩)]
      simp only [Out.bind_ok]
      unfold int64
      rw [if_pos (by omega)]
      rfl, rfl⟩

/-- A created grid refines the abstract grid: after any history of reads, writes to cells and chunks,
writes through mutable references and changes of the default, every operation reports exactly what the
abstract grid reports, as long as the chunk numbers of the locations fit into `int64_t`. -/
theorem C39_history (origin : Iso3 K) (ho : IsIsometry origin) (cx cy cz : K) (nx ny nz : Int)
    (hf : nx * ny * nz < 2 ^ 63) (d : T) (g : Grid K T)
    (h : initializeGrid origin cx cy cz nx ny nz d = .ok g) (ops : List (Op K T))
    (hr : ∀ op ∈ ops, ∀ p, op.location = some p →
      Representable (chunkOf nx ny nz (cellOf cx cy cz p))) :
    ∃ g', run g ops = .ok ((specRun cx cy cz nx ny nz ⟨d, fun _ => .unset⟩ ops).1, g') ∧
      g'.origin = origin := by
  obtain ⟨hh, rfl, ⟨rfl, rfl, rfl⟩, rfl, rfl, rfl⟩ := initializeGrid_holds ho hf h
  obtain ⟨g', e, _, o, _⟩ := run_refines ops hh hr
  exact ⟨g', e, o⟩

/-- A history without writes through references and without changes of the default. -/
def WritesOnly : Op K T → Prop
  | .get _ | .setCell _ _ | .setChunk _ _ => True
  | _ => False

omit [IsStrictOrderedRing K] in
theorem spec_last (cx cy cz : K) (nx ny nz : Int) (c : Index) (ops : List (Op K T)) :
    ∀ (s : Contents T) (sofar : Option T), (∀ op ∈ ops, WritesOnly op) →
    s.value (chunkOf nx ny nz c) c = sofar.getD s.default →
    (s.chunks (chunkOf nx ny nz c) = .unset → sofar = none) →
    let s' := (specRun cx cy cz nx ny nz s ops).2
    s'.default = s.default ∧
    s'.value (chunkOf nx ny nz c) c = (lastWrite cx cy cz nx ny nz c sofar ops).getD s.default ∧
    (s'.chunks (chunkOf nx ny nz c) = .unset → lastWrite cx cy cz nx ny nz c sofar ops = none) := by
  induction ops with
  | nil => intro s sofar _ h1 h2; exact ⟨rfl, h1, h2⟩
  | cons op ops ih =>
    intro s sofar hw h1 h2
    have hw' : ∀ op ∈ ops, WritesOnly op := fun o ho => hw o (by simp [ho])
    have hop := hw op (by simp)
    cases op with
    | get p => exact ih s sofar hw' h1 h2
    | mutate p v => exact hop.elim
    | setDefault v => exact hop.elim
    | setCell p v =>
      refine ih _ (if cellOf cx cy cz p = c then some v else sofar) hw' ?_ ?_
      · simp only [specStep, Contents.value, Contents.put]
        by_cases hc : cellOf cx cy cz p = c
        · subst hc; simp
        · rw [if_neg hc]
          by_cases hk : chunkOf nx ny nz c = chunkOf nx ny nz (cellOf cx cy cz p)
          · rw [if_pos hk]
            simp only [if_neg (fun e => hc (e.symm) : ¬ c = cellOf cx cy cz p)]
            rw [← hk]
            exact h1
          · rw [if_neg hk]
            exact h1
      · simp only [specStep, Contents.put]
        by_cases hk : chunkOf nx ny nz c = chunkOf nx ny nz (cellOf cx cy cz p)
        · rw [if_pos hk]; intro hh; cases hh
        · rw [if_neg hk]
          intro hh
          rw [if_neg (fun e => hk (by rw [e])), h2 hh]
    | setChunk p v =>
      refine ih _ (if chunkOf nx ny nz (cellOf cx cy cz p) = chunkOf nx ny nz c then some v else sofar)
        hw' ?_ ?_
      · simp only [specStep, Contents.value, Contents.put]
        by_cases hk : chunkOf nx ny nz (cellOf cx cy cz p) = chunkOf nx ny nz c
        · rw [if_pos hk, if_pos hk.symm]; simp
        · rw [if_neg hk, if_neg (fun e => hk e.symm)]
          exact h1
      · simp only [specStep, Contents.put]
        by_cases hk : chunkOf nx ny nz (cellOf cx cy cz p) = chunkOf nx ny nz c
        · rw [if_pos hk.symm]; intro hh; cases hh
        · rw [if_neg (fun e => hk e.symm), if_neg hk]
          exact h2

/-- After any history of reads, writes to cells and writes to chunks, a read at a location returns the
latest value written to its cell or to its chunk, or the default if there is none. If the read reports
that nothing was found there is no such write, and the default is what is returned. -/
theorem C39_last_write_partial (origin : Iso3 K) (ho : IsIsometry origin) (cx cy cz : K) (nx ny nz : Int)
    (hf : nx * ny * nz < 2 ^ 63) (d : T) (g : Grid K T)
    (h : initializeGrid origin cx cy cz nx ny nz d = .ok g) (ops : List (Op K T))
    (hw : ∀ op ∈ ops, WritesOnly op)
    (hr : ∀ op ∈ ops, ∀ p, op.location = some p →
      Representable (chunkOf nx ny nz (cellOf cx cy cz p))) :
    ∃ rs g', run g ops = .ok (rs, g') ∧
      ∀ q, Representable (chunkOf nx ny nz (cellOf cx cy cz (origin.inverse.apply q))) →
        ∃ f, getImmutable g' q =
            .ok ((lastWrite cx cy cz nx ny nz (cellOf cx cy cz (origin.inverse.apply q)) none ops).getD d,
              f) ∧
          (f = .notFound →
            lastWrite cx cy cz nx ny nz (cellOf cx cy cz (origin.inverse.apply q)) none ops = none) := by
  obtain ⟨hh, rfl, ⟨rfl, rfl, rfl⟩, rfl, rfl, rfl⟩ := initializeGrid_holds ho hf h
  obtain ⟨g', e, hh', o, ⟨a1, a2, a3⟩, b1, b2, b3⟩ := run_refines ops hh hr
  refine ⟨_, g', e, ?_⟩
  intro q hq
  obtain ⟨v1, v2, v3⟩ := spec_last g.cellX g.cellY g.cellZ g.numX g.numY g.numZ
    (cellOf g.cellX g.cellY g.cellZ (g.origin.inverse.apply q)) ops ⟨d, fun _ => .unset⟩ none hw rfl
    (fun _ => rfl)
  have hq' : ∀ p, (Op.get (g.origin.inverse.apply q) : Op K T).location = some p →
      Representable (chunkIn g' p) := by
    intro p hp
    simp only [Op.location, Option.some.injEq] at hp
    subst hp
    unfold chunkIn cellIn
    rw [a1, a2, a3, b1, b2, b3]
    exact hq
  obtain ⟨g2, e2, _⟩ := step_refines hh' (.get (g.origin.inverse.apply q)) hq'
  simp only [step, specStep] at e2
  rw [o, atFrame_surj ho, a1, a2, a3, b1, b2, b3] at e2
  cases hg : getImmutable g' q with
  | ok r =>
    rw [hg] at e2
    simp only [Out.bind_ok, Out.ok.injEq, Prod.mk.injEq, Res.read.injEq] at e2
    obtain ⟨⟨r1, r2⟩, _⟩ := e2
    refine ⟨r.2, by rw [← v2, ← r1], ?_⟩
    intro hn
    apply v3
    rw [r2] at hn
    unfold Contents.found at hn
    split at hn
    · assumption
    · cases hn
    · cases hn
  | throws x => rw [hg] at e2; simp at e2
  | abort => rw [hg] at e2; simp at e2
  | ub => rw [hg] at e2; simp at e2

/-- Exactly what a read reports, for a chunk of a created grid: "found in cell" once some cell of the
chunk was written and the chunk was not written as a whole afterwards. -/
theorem C39_status (origin : Iso3 K) (ho : IsIsometry origin) (cx cy cz : K) (nx ny nz : Int)
    (hf : nx * ny * nz < 2 ^ 63) (d : T) (g : Grid K T)
    (h : initializeGrid origin cx cy cz nx ny nz d = .ok g) (ops : List (Op K T))
    (hr : ∀ op ∈ ops, ∀ p, op.location = some p →
      Representable (chunkOf nx ny nz (cellOf cx cy cz p))) (p : Vec3 K)
    (hp : Representable (chunkOf nx ny nz (cellOf cx cy cz p))) :
    ∃ rs g' v, run g ops = .ok (rs, g') ∧
      getImmutable g' (atFrame origin p) =
        .ok (v, ops.foldl (fun f op => match op with
          | .setCell q _ => if chunkOf nx ny nz (cellOf cx cy cz q) = chunkOf nx ny nz (cellOf cx cy cz p)
              then .inCell else f
          | .setChunk q _ => if chunkOf nx ny nz (cellOf cx cy cz q) = chunkOf nx ny nz (cellOf cx cy cz p)
              then .inChunk else f
          | _ => f) .notFound) := by
  obtain ⟨hh, rfl, ⟨rfl, rfl, rfl⟩, rfl, rfl, rfl⟩ := initializeGrid_holds ho hf h
  obtain ⟨g', e, hh', o, ⟨a1, a2, a3⟩, b1, b2, b3⟩ := run_refines ops hh hr
  have hq' : ∀ q, (Op.get p : Op K T).location = some q → Representable (chunkIn g' q) := by
    intro q hq
    simp only [Op.location, Option.some.injEq] at hq
    subst hq
    unfold chunkIn cellIn
    rw [a1, a2, a3, b1, b2, b3]
    exact hp
  obtain ⟨g2, e2, _⟩ := step_refines hh' (.get p) hq'
  simp only [step, specStep] at e2
  rw [o, a1, a2, a3, b1, b2, b3] at e2
  have key : ∀ (ops : List (Op K T)) (s : Contents T),
      (specRun g.cellX g.cellY g.cellZ g.numX g.numY g.numZ s ops).2.found
        (chunkOf g.numX g.numY g.numZ (cellOf g.cellX g.cellY g.cellZ p)) =
      ops.foldl (fun f op => match op with
          | .setCell q _ => if chunkOf g.numX g.numY g.numZ (cellOf g.cellX g.cellY g.cellZ q) =
              chunkOf g.numX g.numY g.numZ (cellOf g.cellX g.cellY g.cellZ p) then .inCell else f
          | .setChunk q _ => if chunkOf g.numX g.numY g.numZ (cellOf g.cellX g.cellY g.cellZ q) =
              chunkOf g.numX g.numY g.numZ (cellOf g.cellX g.cellY g.cellZ p) then .inChunk else f
          | _ => f) (s.found (chunkOf g.numX g.numY g.numZ (cellOf g.cellX g.cellY g.cellZ p))) := by
    intro ops
    induction ops with
    | nil => intro s; rfl
    | cons op ops ih =>
      intro s
      simp only [specRun, List.foldl_cons]
      rw [ih]
      congr 1
      cases op with
      | get q => rfl
      | setDefault v => rfl
      | mutate q v =>
        simp only [specStep, Contents.found]
        cases hs : s.chunks (chunkOf g.numX g.numY g.numZ (cellOf g.cellX g.cellY g.cellZ q)) with
        | unset => rfl
        | whole w =>
          simp only [Contents.put]
          by_cases hk : chunkOf g.numX g.numY g.numZ (cellOf g.cellX g.cellY g.cellZ p) =
            chunkOf g.numX g.numY g.numZ (cellOf g.cellX g.cellY g.cellZ q)
          · rw [if_pos hk, hk, hs]
          · rw [if_neg hk]
        | cells f =>
          simp only [Contents.put]
          by_cases hk : chunkOf g.numX g.numY g.numZ (cellOf g.cellX g.cellY g.cellZ p) =
            chunkOf g.numX g.numY g.numZ (cellOf g.cellX g.cellY g.cellZ q)
          · rw [if_pos hk, hk, hs]
          · rw [if_neg hk]
      | setCell q v =>
        simp only [specStep, Contents.found, Contents.put]
        by_cases hk : chunkOf g.numX g.numY g.numZ (cellOf g.cellX g.cellY g.cellZ q) =
            chunkOf g.numX g.numY g.numZ (cellOf g.cellX g.cellY g.cellZ p)
        · rw [if_pos hk, if_pos hk.symm]
        · rw [if_neg hk, if_neg (fun e => hk e.symm)]
      | setChunk q v =>
        simp only [specStep, Contents.found, Contents.put]
        by_cases hk : chunkOf g.numX g.numY g.numZ (cellOf g.cellX g.cellY g.cellZ q) =
            chunkOf g.numX g.numY g.numZ (cellOf g.cellX g.cellY g.cellZ p)
        · rw [if_pos hk, if_pos hk.symm]
        · rw [if_neg hk, if_neg (fun e => hk e.symm)]
  cases hg : getImmutable g' (atFrame g.origin p) with
  | ok r =>
    rw [hg] at e2
    simp only [Out.bind_ok, Out.ok.injEq, Prod.mk.injEq, Res.read.injEq] at e2
    obtain ⟨⟨r1, r2⟩, _⟩ := e2
    refine ⟨_, g', r.1, e, ?_⟩
    rw [hg]
    have := key ops ⟨d, fun _ => .unset⟩
    rw [← r2] at this
    rw [show (r : T × Found) = (r.1, r.2) from rfl, this]
    rfl
  | throws x => rw [hg] at e2; simp at e2
  | abort => rw [hg] at e2; simp at e2
  | ub => rw [hg] at e2; simp at e2

/-- A location whose chunk number does not fit into `int64_t` makes every operation undefined. -/
theorem C39_outside (origin : Iso3 K) (ho : IsIsometry origin) (cx cy cz : K) (nx ny nz : Int)
    (hf : nx * ny * nz < 2 ^ 63) (d : T) (g : Grid K T)
    (h : initializeGrid origin cx cy cz nx ny nz d = .ok g) (ops : List (Op K T))
    (hr : ∀ op ∈ ops, ∀ p, op.location = some p →
      Representable (chunkOf nx ny nz (cellOf cx cy cz p))) (op : Op K T) (p : Vec3 K)
    (hp : op.location = some p) (hn : ¬ Representable (chunkOf nx ny nz (cellOf cx cy cz p))) :
    run g (ops ++ [op]) = .ub := by
  obtain ⟨hh, rfl, ⟨rfl, rfl, rfl⟩, rfl, rfl, rfl⟩ := initializeGrid_holds ho hf h
  have hrun : ∀ (ops : List (Op K T)) (g g' : Grid K T) (rs : List (Res T)), run g ops = .ok (rs, g') →
      step g' op = .ub → run g (ops ++ [op]) = .ub := by
    intro ops
    induction ops with
    | nil =>
      intro g g' rs h1 h2
      simp only [run, Out.ok.injEq, Prod.mk.injEq] at h1
      obtain ⟨_, rfl⟩ := h1
      simp only [List.nil_append, run, h2, Out.bind_ub]
    | cons o ops ih =>
      intro g g' rs h1 h2
      simp only [run, Out.bind_eq_ok] at h1
      obtain ⟨r, h3, r2, h4, h5⟩ := h1
      simp only [Out.ok.injEq, Prod.mk.injEq] at h5
      obtain ⟨_, rfl⟩ := h5
      simp only [List.cons_append, run, h3, Out.bind_ok, ih _ _ _ h4 h2, Out.bind_ub]
  obtain ⟨g', e, hh', o, ⟨a1, a2, a3⟩, b1, b2, b3⟩ := run_refines ops hh hr
  apply hrun ops g g' _ e
  have hn' : ¬ Representable (chunkIn g' p) := by
    unfold chunkIn cellIn
    rw [a1, a2, a3, b1, b2, b3]
    exact hn
  have hu := region_ub hh'.geo hn'
  cases op with
  | get q =>
    simp only [Op.location, Option.some.injEq] at hp; subst hp
    simp only [step, getImmutable, getRef, Out.assert_true hh'.geo.init, Out.bind_ok, frame hh'.geo, hu,
      Out.bind_ub]
  | mutate q v =>
    simp only [Op.location, Option.some.injEq] at hp; subst hp
    simp only [step, getRef, Out.assert_true hh'.geo.init, Out.bind_ok, frame hh'.geo, hu, Out.bind_ub]
  | setCell q v =>
    simp only [Op.location, Option.some.injEq] at hp; subst hp
    simp only [step, setCellValue, Out.assert_true hh'.geo.init, Out.bind_ok, frame hh'.geo, hu,
      Out.bind_ub]
  | setChunk q v =>
    simp only [Op.location, Option.some.injEq] at hp; subst hp
    simp only [step, setChunkValue, Out.assert_true hh'.geo.init, Out.bind_ok, frame hh'.geo, hu,
      Out.bind_ub]
  | setDefault v => simp [Op.location] at hp

/-- `SetChunkValue(x, y, z, value)` on a grid after any history does what writing a single cell does: it
reports `SET_CELL` and every other cell of the chunk keeps its value. -/
theorem C65_set_chunk_by_coordinates (origin : Iso3 K) (ho : IsIsometry origin) (cx cy cz : K)
    (nx ny nz : Int) (hf : nx * ny * nz < 2 ^ 63) (d : T) (g : Grid K T)
    (h : initializeGrid origin cx cy cz nx ny nz d = .ok g) (ops : List (Op K T))
    (hr : ∀ op ∈ ops, ∀ p, op.location = some p →
      Representable (chunkOf nx ny nz (cellOf cx cy cz p))) (p : Vec3 K) (v : T)
    (hp : Representable (chunkOf nx ny nz (cellOf cx cy cz p))) :
    ∃ rs g1 g2, run g ops = .ok (rs, g1) ∧
      setChunkValueXyz g1 (atFrame origin p).x (atFrame origin p).y (atFrame origin p).z v =
        .ok (.setCell, g2) ∧
      ∀ q, Representable (chunkOf nx ny nz (cellOf cx cy cz q)) →
        ∃ w f f', getImmutable g1 (atFrame origin q) = .ok (w, f) ∧
          getImmutable g2 (atFrame origin q) =
            .ok (if cellOf cx cy cz q = cellOf cx cy cz p then v else w, f') := by
  obtain ⟨hh, rfl, ⟨rfl, rfl, rfl⟩, rfl, rfl, rfl⟩ := initializeGrid_holds ho hf h
  obtain ⟨g1, e, hh1, o, ⟨a1, a2, a3⟩, b1, b2, b3⟩ := run_refines ops hh hr
  have rep : ∀ {g' : Grid K T} {q}, (g'.cellX = g.cellX ∧ g'.cellY = g.cellY ∧ g'.cellZ = g.cellZ) →
      (g'.numX = g.numX ∧ g'.numY = g.numY ∧ g'.numZ = g.numZ) →
      Representable (chunkOf g.numX g.numY g.numZ (cellOf g.cellX g.cellY g.cellZ q)) →
      Representable (chunkIn g' q) := by
    rintro g' q ⟨a1, a2, a3⟩ ⟨b1, b2, b3⟩ hq
    unfold chunkIn cellIn
    rwa [a1, a2, a3, b1, b2, b3]
  have one : ∀ {p' q : Vec3 K}, some p' = some q → p' = q := fun h => by injection h
  obtain ⟨g2, e2, hh2, o2, ⟨a1', a2', a3'⟩, b1', b2', b3'⟩ := step_refines hh1 (.setCell p v)
    (fun q hq => (one hq) ▸ rep ⟨a1, a2, a3⟩ ⟨b1, b2, b3⟩ hp)
  rw [a1, a2, a3, b1, b2, b3] at e2 hh2
  have hset : setCellValue g1 (atFrame g.origin p) v = .ok (.setCell, g2) := by
    simp only [step, o] at e2
    cases hs : setCellValue g1 (atFrame g.origin p) v with
    | ok r =>
      rw [hs] at e2
      simp only [Out.bind_ok, specStep, Out.ok.injEq, Prod.mk.injEq, Res.wrote.injEq] at e2
      rw [← e2.1, ← e2.2]
    | throws x => rw [hs] at e2; simp at e2
    | abort => rw [hs] at e2; simp at e2
    | ub => rw [hs] at e2; simp at e2
  refine ⟨_, g1, g2, e, hset, ?_⟩
  intro q hq
  obtain ⟨_, e3, _⟩ := step_refines hh1 (.get q)
    (fun q' hq' => (one hq') ▸ rep ⟨a1, a2, a3⟩ ⟨b1, b2, b3⟩ hq)
  obtain ⟨_, e4, _⟩ := step_refines hh2 (.get q)
    (fun q' hq' => (one hq') ▸ rep ⟨a1'.trans a1, a2'.trans a2, a3'.trans a3⟩
      ⟨b1'.trans b1, b2'.trans b2, b3'.trans b3⟩ hq)
  rw [a1', a2', a3', b1', b2', b3'] at e4
  rw [a1, a2, a3, b1, b2, b3] at e3 e4
  simp only [step, o2, o, specStep] at e3 e4
  cases hg1 : getImmutable g1 (atFrame g.origin q) with
  | ok r1 =>
    cases hg2 : getImmutable g2 (atFrame g.origin q) with
    | ok r2 =>
      rw [hg1] at e3
      rw [hg2] at e4
      simp only [Out.bind_ok, Out.ok.injEq, Prod.mk.injEq, Res.read.injEq] at e3 e4
      refine ⟨r1.1, r1.2, r2.2, rfl, ?_⟩
      have : r2.1 = if cellOf g.cellX g.cellY g.cellZ q = cellOf g.cellX g.cellY g.cellZ p then v
          else r1.1 := by
        rw [e4.1.1, e3.1.1]
        simp only [Contents.value, Contents.put]
        by_cases hc : cellOf g.cellX g.cellY g.cellZ q = cellOf g.cellX g.cellY g.cellZ p
        · rw [hc]; simp
        · rw [if_neg hc]
          by_cases hk : chunkOf g.numX g.numY g.numZ (cellOf g.cellX g.cellY g.cellZ q) =
              chunkOf g.numX g.numY g.numZ (cellOf g.cellX g.cellY g.cellZ p)
          · rw [if_pos hk]
            simp only [if_neg hc]
            rw [hk]
          · rw [if_neg hk]
      rw [← this]
    | throws x => rw [hg2] at e4; simp at e4
    | abort => rw [hg2] at e4; simp at e4
    | ub => rw [hg2] at e4; simp at e4
  | throws x => rw [hg1] at e3; simp at e3
  | abort => rw [hg1] at e3; simp at e3
  | ub => rw [hg1] at e3; simp at e3

end

/-- A grid with unit cells in chunks of 2 by 2 by 2 at the origin. -/
def unitGrid : Out (Grid Rat Nat) := initializeGrid (Iso3.translation ⟨0, 0, 0⟩) 1 1 1 2 2 2 7

theorem unitGrid_ok : ∃ g, unitGrid = .ok g ∧ g.origin = Iso3.translation ⟨0, 0, 0⟩ :=
  (C65_creation (Iso3.translation ⟨0, 0, 0⟩) (1 : Rat) 1 1 2 2 2 7).2 (by norm_num) (by norm_num)
    (by norm_num) (by norm_num) (by norm_num) (by norm_num) (by norm_num)

/-- The reported status does not tell whether the cell itself was written: after a write to one cell, an
unwritten neighbour in the same chunk reports that its value was found in a cell, and keeps the old
default when the default changes. -/
theorem C39_neighbour_status : ∃ g g' : Grid Rat Nat, unitGrid = .ok g ∧
    run g [.setCell ⟨0, 0, 0⟩ 5, .get ⟨1, 0, 0⟩, .setDefault 9, .get ⟨1, 0, 0⟩, .get ⟨2, 0, 0⟩,
      .mutate ⟨2, 0, 0⟩ 4, .get ⟨-1, 0, 0⟩, .setChunk ⟨1, 1, 1⟩ 3, .get ⟨0, 0, 0⟩] =
    .ok ([.wrote .setCell, .read 7 .inCell, .nothing, .read 7 .inCell, .read 9 .notFound,
      .read 9 .notFound, .read 4 .notFound, .wrote .setChunk, .read 3 .inChunk], g') := by
  obtain ⟨g, hg, ho⟩ := unitGrid_ok
  obtain ⟨g', e, _⟩ := C39_history (Iso3.translation ⟨0, 0, 0⟩) (translation_isometry _) (1 : Rat) 1 1 2 2 2
    (by norm_num) 7 g hg [.setCell ⟨0, 0, 0⟩ 5, .get ⟨1, 0, 0⟩, .setDefault 9, .get ⟨1, 0, 0⟩,
      .get ⟨2, 0, 0⟩, .mutate ⟨2, 0, 0⟩ 4, .get ⟨-1, 0, 0⟩, .setChunk ⟨1, 1, 1⟩ 3, .get ⟨0, 0, 0⟩]
    (by
      intro op hop p hp
      simp only [List.mem_cons, List.not_mem_nil, or_false] at hop
      rcases hop with rfl | rfl | rfl | rfl | rfl | rfl | rfl | rfl | rfl <;>
        simp only [Op.location, Option.some.injEq, reduceCtorEq] at hp <;> subst hp <;>
        (unfold Representable; decide +kernel))
  refine ⟨g, g', hg, ?_⟩
  rw [e]
  congr 2
  decide +kernel

/-- The hypotheses of the history theorems are met by this grid and history. -/
example : ∃ g : Grid Rat Nat, unitGrid = .ok g ∧ IsIsometry g.origin ∧
    (∀ op ∈ ([.setCell ⟨0, 0, 0⟩ 5, .get ⟨-1, 0, 0⟩] : List (Op Rat Nat)), WritesOnly op) ∧
    Representable (chunkOf 2 2 2 (cellOf (1 : Rat) 1 1 ⟨-1, 0, 0⟩)) ∧
    ¬ Representable (chunkOf 2 2 2 (cellOf (1 : Rat) 1 1 ⟨2 ^ 64, 0, 0⟩)) := by
  obtain ⟨g, hg, ho⟩ := unitGrid_ok
  refine ⟨g, hg, ho ▸ translation_isometry _, ?_, ?_, ?_⟩
  · intro op hop
    simp only [List.mem_cons, List.not_mem_nil, or_false] at hop
    rcases hop with rfl | rfl <;> trivial
  · unfold Representable; decide +kernel
  · unfold Representable; decide +kernel

end Verif.HashedGrid
