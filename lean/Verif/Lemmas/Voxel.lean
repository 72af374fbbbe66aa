import Verif.Spec.Voxel

/-! # Storage of voxel grids -/
namespace Verif.Voxel
open Verif

theorem rowMajor_bounds {nx ny nz : Int} {i : Index} (h : InGrid nx ny nz i) :
    0 ≤ rowMajor ny nz i ∧ rowMajor ny nz i < nx * ny * nz := by
  obtain ⟨⟨hx0, hx⟩, ⟨hy0, hy⟩, ⟨hz0, hz⟩⟩ := h
  unfold rowMajor
  have h1 : 0 ≤ i.x * ny + i.y := by
    have := Int.mul_nonneg hx0 (by omega : 0 ≤ ny)
    omega
  have h2 : i.x * ny + i.y + 1 ≤ nx * ny := by
    have := Int.mul_le_mul_of_nonneg_right (by omega : i.x + 1 ≤ nx) (by omega : 0 ≤ ny)
    rw [Int.add_mul] at this
    omega
  have h3 : 0 ≤ (i.x * ny + i.y) * nz := Int.mul_nonneg h1 (by omega)
  have h4 := Int.mul_le_mul_of_nonneg_right h2 (by omega : 0 ≤ nz)
  rw [Int.add_mul (i.x * ny + i.y) 1] at h4
  omega

theorem rowMajor_inj {nx ny nz : Int} {i j : Index} (hi : InGrid nx ny nz i) (hj : InGrid nx ny nz j)
    (h : rowMajor ny nz i = rowMajor ny nz j) : i = j := by
  obtain ⟨⟨hx0, hx⟩, ⟨hy0, hy⟩, ⟨hz0, hz⟩⟩ := hi
  obtain ⟨⟨kx0, kx⟩, ⟨ky0, ky⟩, ⟨kz0, kz⟩⟩ := hj
  unfold rowMajor at h
  have e1 : (i.x * ny + i.y) = (j.x * ny + j.y) := by
    have := congrArg (fun q : Int => q / nz) h
    beta_reduce at this
    rwa [Int.add_comm, Int.add_mul_ediv_right _ _ (by omega), Int.ediv_eq_zero_of_lt hz0 hz,
      Int.add_comm (_ * nz), Int.add_mul_ediv_right _ _ (by omega), Int.ediv_eq_zero_of_lt kz0 kz,
      Int.zero_add, Int.zero_add] at this
  have e2 : i.z = j.z := by rw [e1] at h; omega
  have e3 : i.x = j.x := by
    have := congrArg (fun q : Int => q / ny) e1
    beta_reduce at this
    rwa [Int.add_comm, Int.add_mul_ediv_right _ _ (by omega), Int.ediv_eq_zero_of_lt hy0 hy,
      Int.add_comm (_ * ny), Int.add_mul_ediv_right _ _ (by omega), Int.ediv_eq_zero_of_lt ky0 ky,
      Int.zero_add, Int.zero_add] at this
  have e4 : i.y = j.y := by rw [e3] at e1; omega
  cases i; cases j; simp_all

theorem rowMajor_surj {nx ny nz : Int} (_hx : 0 < nx) (hy : 0 < ny) (hz : 0 < nz) {n : Int} (h0 : 0 ≤ n)
    (h : n < nx * ny * nz) : ∃ i, InGrid nx ny nz i ∧ rowMajor ny nz i = n := by
  refine ⟨⟨n / nz / ny, n / nz % ny, n % nz⟩, ⟨⟨?_, ?_⟩, ⟨?_, ?_⟩, ⟨?_, ?_⟩⟩, ?_⟩
  · exact Int.ediv_nonneg (Int.ediv_nonneg h0 (by omega)) (by omega)
  · exact Int.ediv_lt_of_lt_mul hy (Int.ediv_lt_of_lt_mul hz h)
  · exact Int.emod_nonneg _ (by omega)
  · exact Int.emod_lt_of_pos _ hy
  · exact Int.emod_nonneg _ (by omega)
  · exact Int.emod_lt_of_pos _ hz
  · show (n / nz / ny * ny + n / nz % ny) * nz + n % nz = n
    have h1 : n / nz / ny * ny + n / nz % ny = n / nz := by
      rw [Int.mul_comm]; exact Int.mul_ediv_add_emod _ _
    rw [h1, Int.mul_comm]
    exact Int.mul_ediv_add_emod _ _

section
variable {Iso K T : Type}

/-- What all operations preserve. -/
structure WF (g : Grid Iso K T) : Prop where
  posX : 0 < g.numX
  posY : 0 < g.numY
  posZ : 0 < g.numZ
  s1 : g.stride1 = g.numY * g.numZ
  s2 : g.stride2 = g.numZ
  len : (g.data.length : Int) = g.numX * g.numY * g.numZ
  fits : g.numX * g.numY * g.numZ < 2 ^ 63

theorem WF.index {g : Grid Iso K T} (h : WF g) (i : Index) :
    getDataIndex g i = rowMajor g.numY g.numZ i := by
  unfold getDataIndex rowMajor
  rw [h.s1, h.s2, Int.add_mul, Int.mul_assoc]

theorem indexInBounds_iff (g : Grid Iso K T) (i : Index) :
    indexInBounds g i = true ↔ InGrid g.numX g.numY g.numZ i := by
  unfold indexInBounds InGrid
  rw [decide_eq_true_iff]
  constructor <;> rintro ⟨_, _⟩ <;> omega

theorem WF.access {g : Grid Iso K T} (h : WF g) {i : Index} (hi : InGrid g.numX g.numY g.numZ i) :
    accessIndex g (getDataIndex g i) = .ok (rowMajor g.numY g.numZ i).toNat ∧
      (rowMajor g.numY g.numZ i).toNat < g.data.length := by
  have hb := rowMajor_bounds hi
  have hl := h.len
  rw [h.index]
  unfold accessIndex
  rw [if_pos ⟨hb.1, by omega⟩]
  exact ⟨rfl, by omega⟩

/-- The storage holds the abstract contents. -/
structure Holds (g : Grid Iso K T) (c : Contents T) : Prop where
  wf : WF g
  default : g.default = c.default
  oob : g.oob = c.oob
  cells : ∀ i, InGrid g.numX g.numY g.numZ i →
    g.data[(rowMajor g.numY g.numZ i).toNat]? = some (c.cells i)

theorem getRef_in {g : Grid Iso K T} (h : WF g) {i : Index} (hi : InGrid g.numX g.numY g.numZ i) :
    getRef g i = .ok (.cell (rowMajor g.numY g.numZ i).toNat, true) := by
  unfold getRef
  rw [if_pos ((indexInBounds_iff g i).2 hi), (h.access hi).1]
  rfl

theorem getRef_out {g : Grid Iso K T} {i : Index} (hi : ¬ InGrid g.numX g.numY g.numZ i) :
    getRef g i = .ok (.oob, false) := by
  unfold getRef
  rw [if_neg (fun h => hi ((indexInBounds_iff g i).1 h))]

theorem holds_write {g : Grid Iso K T} {c : Contents T} (h : Holds g c) {i : Index}
    (hi : InGrid g.numX g.numY g.numZ i) (v : T) :
    writeRef g v (.cell (rowMajor g.numY g.numZ i).toNat) =
      .ok { g with data := g.data.set (rowMajor g.numY g.numZ i).toNat v } ∧
    Holds { g with data := g.data.set (rowMajor g.numY g.numZ i).toNat v }
      { c with cells := fun j => if j = i then v else c.cells j } := by
  have hlt := (h.wf.access hi).2
  refine ⟨?_, ⟨⟨h.wf.posX, h.wf.posY, h.wf.posZ, h.wf.s1, h.wf.s2, ?_, h.wf.fits⟩,
    h.default, h.oob, ?_⟩⟩
  · simp only [writeRef]
    rw [if_pos hlt]
  · simpa using h.wf.len
  · intro j hj
    show (g.data.set _ v)[_]? = some (if j = i then v else c.cells j)
    by_cases hji : j = i
    · subst hji
      rw [List.getElem?_set_self hlt, if_pos rfl]
    · rw [if_neg hji, List.getElem?_set_ne, h.cells j hj]
      intro he
      have h1 := rowMajor_bounds hi
      have hj' : InGrid g.numX g.numY g.numZ j := hj
      have h2 := rowMajor_bounds hj'
      dsimp only at he
      exact hji (rowMajor_inj hj' hi (by omega))

theorem holds_fill {g : Grid Iso K T} (h : WF g) (v d : T) :
    Holds (setContents { g with default := d } v) ⟨fun _ => v, d, g.oob⟩ := by
  have hl := h.len
  refine ⟨⟨h.posX, h.posY, h.posZ, h.s1, h.s2, ?_, h.fits⟩, rfl, rfl, ?_⟩
  · simp only [setContents, List.length_replicate]
    omega
  · intro i hi
    have hi' : InGrid g.numX g.numY g.numZ i := hi
    have hb := rowMajor_bounds hi'
    show (List.replicate (g.numX * g.numY * g.numZ).toNat v)[_]? = some v
    rw [List.getElem?_replicate, if_pos]
    show (rowMajor g.numY g.numZ i).toNat < _
    omega

end

section
variable {K T : Type} [Field K] [LinearOrder K]

omit [LinearOrder K] in
theorem step_refines {g : Grid (Iso3 K) K T} {c : Contents T} (h : Holds g c) (op : Op K T) :
    ∃ g', step g op = .ok ((specStep g.numX g.numY g.numZ c op).1, g') ∧
      Holds g' (specStep g.numX g.numY g.numZ c op).2 ∧
      g'.numX = g.numX ∧ g'.numY = g.numY ∧ g'.numZ = g.numZ := by
  have hread : ∀ {i}, InGrid g.numX g.numY g.numZ i →
      readRef g (.cell (rowMajor g.numY g.numZ i).toNat) = .ok (c.cells i) := by
    intro i hi
    simp only [readRef, h.cells i hi]
  cases op with
  | get i =>
    refine ⟨g, ?_, h, rfl, rfl, rfl⟩
    simp only [step, getImmutable, specStep]
    by_cases hi : InGrid g.numX g.numY g.numZ i
    · simp only [getRef_in h.wf hi, hread hi, Out.bind_ok, if_pos hi]
    · simp only [getRef_out hi, readRef, Out.bind_ok, if_neg hi, h.oob]
  | set i v =>
    by_cases hi : InGrid g.numX g.numY g.numZ i
    · obtain ⟨hw, hh⟩ := holds_write h hi v
      refine ⟨{ g with data := g.data.set (rowMajor g.numY g.numZ i).toNat v }, ?_, ?_, rfl, rfl, rfl⟩
      rotate_left
      · simp only [specStep, if_pos hi]
        exact hh
      · simp only [step, setValue, specStep, if_pos ((indexInBounds_iff g i).2 hi), (h.wf.access hi).1,
          Out.bind_ok, hw, if_pos hi]
    · refine ⟨g, ?_, ?_, rfl, rfl, rfl⟩
      · simp only [step, setValue, specStep, if_neg hi,
          if_neg (fun hb => hi ((indexInBounds_iff g i).1 hb)), Out.bind_ok]
      · simpa only [specStep, if_neg hi] using h
  | mutate i v =>
    by_cases hi : InGrid g.numX g.numY g.numZ i
    · obtain ⟨hw, hh⟩ := holds_write h hi v
      refine ⟨{ g with data := g.data.set (rowMajor g.numY g.numZ i).toNat v }, ?_, ?_, rfl, rfl, rfl⟩
      rotate_left
      · simp only [specStep, if_pos hi]
        exact hh
      · simp only [step, getRef_in h.wf hi, specStep, hread hi, Out.bind_ok, hw, if_pos hi]
    · refine ⟨{ g with oob := v }, ?_, ?_, rfl, rfl, rfl⟩
      · simp only [step, getRef_out hi, readRef, writeRef, specStep, if_neg hi, Out.bind_ok, h.oob]
      · simp only [specStep, if_neg hi]
        exact ⟨⟨h.wf.posX, h.wf.posY, h.wf.posZ, h.wf.s1, h.wf.s2, h.wf.len, h.wf.fits⟩,
          h.default, rfl, h.cells⟩
  | resetDefault =>
    refine ⟨_, rfl, ?_, rfl, rfl, rfl⟩
    have := holds_fill h.wf g.default g.default
    exact ⟨this.wf, h.default, h.oob, fun i hi => (this.cells i hi).trans (congrArg some h.default)⟩
  | resetValue v =>
    refine ⟨_, rfl, ?_, rfl, rfl, rfl⟩
    have := holds_fill h.wf v g.default
    exact ⟨this.wf, h.default, h.oob, this.cells⟩
  | resetNewDefault v =>
    refine ⟨_, rfl, ?_, rfl, rfl, rfl⟩
    have := holds_fill h.wf v v
    exact ⟨this.wf, rfl, h.oob, this.cells⟩
  | setDefault v =>
    refine ⟨_, rfl, ?_, rfl, rfl, rfl⟩
    exact ⟨⟨h.wf.posX, h.wf.posY, h.wf.posZ, h.wf.s1, h.wf.s2, h.wf.len, h.wf.fits⟩,
          rfl, h.oob, h.cells⟩
  | setOob v =>
    refine ⟨_, rfl, ?_, rfl, rfl, rfl⟩
    exact ⟨⟨h.wf.posX, h.wf.posY, h.wf.posZ, h.wf.s1, h.wf.s2, h.wf.len, h.wf.fits⟩,
          h.default, rfl, h.cells⟩
  | getDefault =>
    refine ⟨g, ?_, h, rfl, rfl, rfl⟩
    simp only [step, specStep, h.default]
  | getOob =>
    refine ⟨g, ?_, h, rfl, rfl, rfl⟩
    simp only [step, specStep, h.oob]
  | setRaw data =>
    by_cases hd : (data.length : Int) = g.numX * g.numY * g.numZ
    · refine ⟨{ g with data := data }, ?_, ?_, rfl, rfl, rfl⟩
      · simp only [step, setRawData, specStep, if_pos hd]
      · simp only [specStep, if_pos hd]
        refine ⟨⟨h.wf.posX, h.wf.posY, h.wf.posZ, h.wf.s1, h.wf.s2, hd, h.wf.fits⟩,
          h.default, h.oob, ?_⟩
        intro i hi
        have hi' : InGrid g.numX g.numY g.numZ i := hi
        have hb := rowMajor_bounds hi'
        have hlt : (rowMajor g.numY g.numZ i).toNat < data.length := by omega
        show data[(rowMajor g.numY g.numZ i).toNat]? = some (data.getD _ _)
        rw [List.getD_eq_getElem?_getD, List.getElem?_eq_getElem hlt]
        rfl
    · refine ⟨g, ?_, ?_, rfl, rfl, rfl⟩
      · simp only [step, setRawData, specStep, if_neg hd]
      · simpa only [specStep, if_neg hd] using h
  | updateOrigin o =>
    refine ⟨_, rfl, ?_, rfl, rfl, rfl⟩
    exact ⟨⟨h.wf.posX, h.wf.posY, h.wf.posZ, h.wf.s1, h.wf.s2, h.wf.len, h.wf.fits⟩,
          h.default, h.oob, h.cells⟩

omit [LinearOrder K] in
theorem run_refines (ops : List (Op K T)) : ∀ {g : Grid (Iso3 K) K T} {c : Contents T}, Holds g c →
    ∃ g', run g ops = .ok ((specRun g.numX g.numY g.numZ c ops).1, g') ∧
      Holds g' (specRun g.numX g.numY g.numZ c ops).2 ∧
      g'.numX = g.numX ∧ g'.numY = g.numY ∧ g'.numZ = g.numZ := by
  induction ops with
  | nil => intro g c h; exact ⟨g, rfl, h, rfl, rfl, rfl⟩
  | cons op ops ih =>
    intro g c h
    obtain ⟨g1, e1, h1, x1, y1, z1⟩ := step_refines h op
    obtain ⟨g2, e2, h2, x2, y2, z2⟩ := ih h1
    rw [x1, y1, z1] at e2 h2
    refine ⟨g2, ?_, h2, x2.trans x1, y2.trans y1, z2.trans z1⟩
    simp only [run, e1, Out.bind_ok, e2, specRun]

theorem int64_eq_ok {v w : Int} : int64 v = .ok w ↔ w = v ∧ -2 ^ 63 ≤ v ∧ v < 2 ^ 63 := by
  unfold int64
  split
  · simp_all [eq_comm]
  · simp_all

/-- What `initializeCells` makes. -/
theorem initializeCells_eq_ok {origin : Iso3 K} {cx cy cz : K} {nx ny nz : Int} {d o : T}
    {g : Grid (Iso3 K) K T} (h : initializeCells origin cx cy cz nx ny nz d o = .ok g) :
    (0 < cx ∧ 0 < cy ∧ 0 < cz) ∧ (0 < nx ∧ 0 < ny ∧ 0 < nz) ∧ nx * ny * nz < 2 ^ 63 ∧
    g = { origin := origin
          inverseOrigin := origin.inverse
          default := d
          oob := o
          data := List.replicate (nx * ny * nz).toNat d
          cellX := |cx|, cellY := |cy|, cellZ := |cz|
          invCellX := 1 / |cx|, invCellY := 1 / |cy|, invCellZ := 1 / |cz|
          sizeX := (nx : K) * |cx|, sizeY := (ny : K) * |cy|, sizeZ := (nz : K) * |cz|
          stride1 := ny * nz
          stride2 := nz
          numX := nx, numY := ny, numZ := nz
          initialized := true } := by
  unfold initializeCells safetyCheckCells at h
  split at h
  · simp at h
  next hc =>
    simp only [not_or, not_le] at hc
    simp only [Out.bind_ok, Out.bind_eq_ok, int64_eq_ok] at h
    obtain ⟨s, ⟨rfl, _⟩, t, ⟨rfl, _, ht⟩, hg⟩ := h
    simp only [Out.ok.injEq] at hg
    exact ⟨⟨hc.1, hc.2.1, hc.2.2.1⟩, hc.2.2.2, ht, hg.symm⟩

theorem initializeCells_holds {origin : Iso3 K} {cx cy cz : K} {nx ny nz : Int} {d o : T}
    {g : Grid (Iso3 K) K T} (h : initializeCells origin cx cy cz nx ny nz d o = .ok g) :
    Holds g ⟨fun _ => d, d, o⟩ := by
  obtain ⟨_, ⟨hx, hy, hz⟩, hf, rfl⟩ := initializeCells_eq_ok h
  have hnn : 0 ≤ nx * ny * nz :=
    Int.mul_nonneg (Int.mul_nonneg (by omega) (by omega)) (by omega)
  refine ⟨⟨hx, hy, hz, rfl, rfl, ?_, hf⟩, rfl, rfl, ?_⟩
  · simp only [List.length_replicate]
    omega
  · intro i hi
    have hb := rowMajor_bounds hi
    show (List.replicate (nx * ny * nz).toNat d)[(rowMajor ny nz i).toNat]? = some d
    simp only at hb
    rw [List.getElem?_replicate, if_pos (by omega)]

omit [Field K] [LinearOrder K] in
theorem holds_origin {g : Grid (Iso3 K) K T} {c : Contents T} (h : Holds g c) (o o' : Iso3 K) :
    Holds { g with origin := o, inverseOrigin := o' } c :=
  ⟨⟨h.wf.posX, h.wf.posY, h.wf.posZ, h.wf.s1, h.wf.s2, h.wf.len, h.wf.fits⟩,
    h.default, h.oob, h.cells⟩

theorem initializeCellsCentred_eq_ok {cx cy cz : K} {nx ny nz : Int} {d o : T}
    {g : Grid (Iso3 K) K T} (h : initializeCellsCentred cx cy cz nx ny nz d o = .ok g) :
    ∃ g0, initializeCells (Iso3.translation ⟨0, 0, 0⟩) cx cy cz nx ny nz d o = .ok g0 ∧
      g = { g0 with
            origin := Iso3.translation ⟨-g0.sizeX * (1 / 2), -g0.sizeY * (1 / 2), -g0.sizeZ * (1 / 2)⟩
            inverseOrigin := (Iso3.translation
              ⟨-g0.sizeX * (1 / 2), -g0.sizeY * (1 / 2), -g0.sizeZ * (1 / 2)⟩ : Iso3 K).inverse } := by
  unfold initializeCellsCentred at h
  simp only [Out.bind_eq_ok, Out.ok.injEq] at h
  obtain ⟨g0, h0, hg⟩ := h
  exact ⟨g0, h0, hg.symm⟩

variable [FloorRing K]

theorem initializeSizes_eq_ok {origin : Iso3 K} {cx cy cz sx sy sz : K} {d o : T}
    {g : Grid (Iso3 K) K T} (h : initializeSizes origin cx cy cz sx sy sz d o = .ok g) :
    (0 < sx ∧ 0 < sy ∧ 0 < sz) ∧ initializeCells origin cx cy cz
      ⌈|sx| / |cx|⌉ ⌈|sy| / |cy|⌉ ⌈|sz| / |cz|⌉ d o = .ok g := by
  unfold initializeSizes safetyCheckSizes cellsFor at h
  split at h
  · simp at h
  next hc =>
    simp only [not_or, not_le] at hc
    simp only [Out.bind_ok, Out.bind_eq_ok, int64_eq_ok] at h
    obtain ⟨x, ⟨rfl, _⟩, y, ⟨rfl, _⟩, z, ⟨rfl, _⟩, hg⟩ := h
    exact ⟨hc.2.2.2, hg⟩

theorem initializeSizesCentred_eq_ok {cx cy cz sx sy sz : K} {d o : T}
    {g : Grid (Iso3 K) K T} (h : initializeSizesCentred cx cy cz sx sy sz d o = .ok g) :
    (0 < sx ∧ 0 < sy ∧ 0 < sz) ∧ initializeCellsCentred cx cy cz
      ⌈|sx| / |cx|⌉ ⌈|sy| / |cy|⌉ ⌈|sz| / |cz|⌉ d o = .ok g := by
  unfold initializeSizesCentred safetyCheckSizes cellsFor at h
  split at h
  · simp at h
  next hc =>
    simp only [not_or, not_le] at hc
    simp only [Out.bind_ok, Out.bind_eq_ok, int64_eq_ok] at h
    obtain ⟨x, ⟨rfl, _⟩, y, ⟨rfl, _⟩, z, ⟨rfl, _⟩, hg⟩ := h
    exact ⟨hc.2.2.2, hg⟩

/-- All constructors make a grid from a number of cells, up to its origin. -/
theorem Created.cells_of {d o : T} {g : Grid (Iso3 K) K T} (h : Created d o g) :
    ∃ origin cx cy cz nx ny nz g0, initializeCells origin cx cy cz nx ny nz d o = .ok g0 ∧
      ∃ origin', g = { g0 with origin := origin', inverseOrigin := origin'.inverse } := by
  have centred : ∀ {cx cy cz : K} {nx ny nz}, initializeCellsCentred cx cy cz nx ny nz d o = .ok g → 
      ∃ origin cx cy cz nx ny nz g0, initializeCells origin cx cy cz nx ny nz d o = .ok g0 ∧
      ∃ origin', g = { g0 with origin := origin', inverseOrigin := origin'.inverse } := by
    intro cx cy cz nx ny nz h
    obtain ⟨g0, h0, hg⟩ := initializeCellsCentred_eq_ok h
    exact ⟨_, _, _, _, _, _, _, g0, h0, _, hg⟩
  have plain : ∀ {origin cx cy cz nx ny nz}, initializeCells origin cx cy cz nx ny nz d o = .ok g → 
      ∃ origin cx cy cz nx ny nz g0, initializeCells origin cx cy cz nx ny nz d o = .ok g0 ∧
      ∃ origin', g = { g0 with origin := origin', inverseOrigin := origin'.inverse } := by
    intro origin cx cy cz nx ny nz h
    refine ⟨_, _, _, _, _, _, _, g, h, origin, ?_⟩
    obtain ⟨_, _, _, rfl⟩ := initializeCells_eq_ok h
    rfl
  cases h with
  | cells origin cx cy cz nx ny nz h => exact plain h
  | cellsCentred cx cy cz nx ny nz h => exact centred h
  | sizes origin cx cy cz sx sy sz h => exact plain (initializeSizes_eq_ok h).2
  | sizesCentred cx cy cz sx sy sz h => exact centred (initializeSizesCentred_eq_ok h).2

theorem Created.holds {d o : T} {g : Grid (Iso3 K) K T} (h : Created d o g) :
    Holds g ⟨fun _ => d, d, o⟩ := by
  obtain ⟨_, _, _, _, _, _, _, g0, h0, o', rfl⟩ := h.cells_of
  exact holds_origin (initializeCells_holds h0) _ _

end

end Verif.Voxel
