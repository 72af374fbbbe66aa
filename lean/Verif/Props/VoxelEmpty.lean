import Verif.Model.VoxelEmpty
import Verif.Lemmas.VoxelLocation
import Mathlib.Data.Rat.Floor

/-!
# Property C157 (voxel_grid.hpp): grids without cells, and storage changed behind a grid's back
-/
namespace Verif.Voxel
open Verif

variable {K T : Type} [Field K] [LinearOrder K] [IsStrictOrderedRing K] [FloorRing K]

/-- The value for indices out of bounds, if one was ever given: by `SetOOBValue`, or by writing through the reference
that `GetMutable` hands out. -/
def lastOob : Option T → List (Op K (Option T)) → Option T
  | o, [] => o
  | _, .setOob v :: rest => lastOob v rest
  | _, .mutate _ v :: rest => lastOob v rest
  | o, _ :: rest => lastOob o rest

/-- What stays the same in a grid without cells. -/
structure Empty (g : Grid (Iso3 K) K (Option T)) : Prop where
  numX : g.numX = 0
  numY : g.numY = 0
  numZ : g.numZ = 0
  data : g.data = []
  initialized : g.initialized = false
  cells : g.cellX = 0 ∧ g.cellY = 0 ∧ g.cellZ = 0
  inv : g.invCellX = 0 ∧ g.invCellY = 0 ∧ g.invCellZ = 0

omit [LinearOrder K] [IsStrictOrderedRing K] [FloorRing K] in
theorem Empty.out {g : Grid (Iso3 K) K (Option T)} (h : Empty g) (i : Index) : indexInBounds g i = false := by
  unfold indexInBounds
  rw [h.numX, decide_eq_false_iff_not]
  omega

omit [LinearOrder K] [IsStrictOrderedRing K] [FloorRing K] in
theorem Empty.step {g : Grid (Iso3 K) K (Option T)} (h : Empty g) (op : Op K (Option T)) :
    ∃ r g', step g op = .ok (r, g') ∧ Empty g' ∧ g'.oob = lastOob g.oob [op] := by
  have hn : (g.numX * g.numY * g.numZ) = 0 := by rw [h.numX]; simp
  have fill : ∀ v, setContents g v = { g with data := [] } := by
    intro v; unfold setContents; rw [hn]; rfl
  cases op with
  | get i => exact ⟨_, _, by simp only [Voxel.step, getImmutable, getRef, h.out i]; rfl, h, rfl⟩
  | set i v => exact ⟨_, _, by simp only [Voxel.step, setValue, h.out i]; rfl, h, rfl⟩
  | mutate i v =>
    exact ⟨_, { g with oob := v }, by simp only [Voxel.step, getRef, h.out i]; rfl,
      ⟨h.numX, h.numY, h.numZ, h.data, h.initialized, h.cells, h.inv⟩, rfl⟩
  | resetDefault =>
    refine ⟨_, _, rfl, ?_, ?_⟩
    · unfold resetWithDefault; rw [fill]
      exact ⟨h.numX, h.numY, h.numZ, rfl, h.initialized, h.cells, h.inv⟩
    · unfold resetWithDefault; rw [fill]; rfl
  | resetValue v =>
    refine ⟨_, _, rfl, ?_, ?_⟩
    · unfold resetWithNewValue; rw [fill]
      exact ⟨h.numX, h.numY, h.numZ, rfl, h.initialized, h.cells, h.inv⟩
    · unfold resetWithNewValue; rw [fill]; rfl
  | resetNewDefault v =>
    have : setContents { g with default := v } v = { g with default := v, data := [] } := by
      unfold setContents; simp only; rw [hn]; rfl
    refine ⟨_, _, rfl, ?_, ?_⟩
    · unfold resetWithNewDefault; rw [this]
      exact ⟨h.numX, h.numY, h.numZ, rfl, h.initialized, h.cells, h.inv⟩
    · unfold resetWithNewDefault; rw [this]; rfl
  | setDefault v =>
    exact ⟨_, _, rfl, ⟨h.numX, h.numY, h.numZ, h.data, h.initialized, h.cells, h.inv⟩, rfl⟩
  | setOob v =>
    exact ⟨_, _, rfl, ⟨h.numX, h.numY, h.numZ, h.data, h.initialized, h.cells, h.inv⟩, rfl⟩
  | getDefault => exact ⟨_, _, rfl, h, rfl⟩
  | getOob => exact ⟨_, _, rfl, h, rfl⟩
  | setRaw data =>
    refine ⟨_, _, rfl, ?_, ?_⟩
    · unfold setRawData; rw [hn]
      split
      · rename_i hd
        have : data = [] := List.length_eq_zero_iff.1 (by omega)
        exact ⟨h.numX, h.numY, h.numZ, this, h.initialized, h.cells, h.inv⟩
      · exact h
    · unfold setRawData; split <;> rfl
  | updateOrigin o =>
    exact ⟨_, _, rfl, ⟨h.numX, h.numY, h.numZ, h.data, h.initialized, h.cells, h.inv⟩, rfl⟩

omit [LinearOrder K] [IsStrictOrderedRing K] [FloorRing K] in
theorem lastOob_cons (o : Option T) (op : Op K (Option T)) (ops : List (Op K (Option T))) :
    lastOob o (op :: ops) = lastOob (lastOob o [op]) ops := by
  cases op <;> rfl

omit [LinearOrder K] [IsStrictOrderedRing K] [FloorRing K] in
theorem Empty.run {g : Grid (Iso3 K) K (Option T)} (h : Empty g) (ops : List (Op K (Option T))) :
    ∃ rs g', run g ops = .ok (rs, g') ∧ Empty g' ∧ g'.oob = lastOob g.oob ops := by
  induction ops generalizing g with
  | nil => exact ⟨[], g, rfl, h, rfl⟩
  | cons op ops ih =>
    obtain ⟨r, g1, h1, e1, o1⟩ := h.step op
    obtain ⟨rs, g2, h2, e2, o2⟩ := ih e1
    refine ⟨r :: rs, g2, ?_, e2, ?_⟩
    · simp only [Voxel.run]; rw [h1, Out.bind_ok, h2, Out.bind_ok]
    · rw [o2, o1, ← lastOob_cons]

omit [LinearOrder K] [IsStrictOrderedRing K] [FloorRing K] in
theorem emptyGrid_empty : Empty (emptyGrid : Grid (Iso3 K) K (Option T)) :=
  ⟨rfl, rfl, rfl, rfl, rfl, ⟨rfl, rfl, rfl⟩, ⟨rfl, rfl, rfl⟩⟩

omit [LinearOrder K] [IsStrictOrderedRing K] [FloorRing K] in
/-- **C157.** A grid made by the default constructor stays without cells and not initialized, whatever is done to it
short of `Initialize`: nothing fails, no index is in bounds, a write is refused, and a read gives the value for
indices out of bounds if one was given, otherwise a value that was never set. -/
theorem C157_empty (ops : List (Op K (Option T))) :
    ∃ rs g, run (emptyGrid : Grid (Iso3 K) K (Option T)) ops = .ok (rs, g) ∧
      g.initialized = false ∧ g.data = [] ∧
      ∀ i v, indexInBounds g i = false ∧
        getImmutable g i = .ok (lastOob none ops, false) ∧ setValue g i v = .ok (false, g) := by
  obtain ⟨rs, g, h, e, o⟩ := (emptyGrid_empty (K := K) (T := T)).run ops
  refine ⟨rs, g, h, e.initialized, e.data, fun i v => ⟨e.out i, ?_, ?_⟩⟩
  · simp only [getImmutable, getRef, e.out i]
    show Out.ok (g.oob, false) = _
    rw [o]; rfl
  · simp only [setValue, e.out i]; rfl

/-- **C157.** In a grid made by the default constructor all locations have the index `(0, 0, 0)`, which is out of
bounds, and all indices have the location of the origin. -/
theorem C157_locations (ops : List (Op K (Option T))) (rs : List (Res (Option T))) (g : Grid (Iso3 K) K (Option T))
    (h : run emptyGrid ops = .ok (rs, g)) (p : Vec3 K) (i : Index) :
    locationToGridIndex3d g p = .ok ⟨0, 0, 0⟩ ∧ locationToGridIndex g p = .ok ⟨0, 0, 0⟩ ∧
    locationInBounds g p = .ok false ∧ gridIndexToLocation g i = g.origin.t := by
  obtain ⟨rs', g', h', e, _⟩ := (emptyGrid_empty (K := K) (T := T)).run ops
  rw [h] at h'
  simp only [Out.ok.injEq, Prod.mk.injEq] at h'
  obtain ⟨_, rfl⟩ := h'
  have ht : truncate (0 : K) = .ok 0 := by
    unfold truncate int64; simp
  have hp : ∀ q, pointInFrameToGridIndex g q = .ok ⟨0, 0, 0⟩ := by
    intro q
    unfold pointInFrameToGridIndex
    rw [e.inv.1, e.inv.2.1, e.inv.2.2, mul_zero, mul_zero, mul_zero, ht]
    rfl
  refine ⟨hp _, hp _, ?_, ?_⟩
  · unfold locationInBounds locationToGridIndex locationToGridIndex4d
    rw [hp, Out.bind_ok, e.out]
  · unfold gridIndexToLocation gridIndexToLocationGridFrame Iso3.apply4 Vec3.dot
    rw [e.cells.1, e.cells.2.1, e.cells.2.2]
    simp

/-- The transform of the origin: the last one given by `UpdateOriginTransform`, otherwise the given one. -/
def lastOrigin : Iso3 K → List (Op K (Option T)) → Iso3 K
  | o, [] => o
  | _, .updateOrigin o :: rest => lastOrigin o rest
  | o, _ :: rest => lastOrigin o rest

/-- What the getters of sizes and transforms give. -/
structure Plain (o : Iso3 K) (g : Grid (Iso3 K) K (Option T)) : Prop where
  origin : g.origin = o
  inverse : g.inverseOrigin = o.inverse
  cells : g.cellX = 0 ∧ g.cellY = 0 ∧ g.cellZ = 0
  sizes : g.sizeX = 0 ∧ g.sizeY = 0 ∧ g.sizeZ = 0
  nums : g.numX = 0 ∧ g.numY = 0 ∧ g.numZ = 0
  strides : g.stride1 = 0 ∧ g.stride2 = 0

omit [LinearOrder K] [IsStrictOrderedRing K] [FloorRing K] in
theorem Plain.step {o : Iso3 K} {g g' : Grid (Iso3 K) K (Option T)} {r : Res (Option T)} (he : Empty g)
    (h : Plain o g) (op : Op K (Option T)) (e : Voxel.step g op = .ok (r, g')) : Plain (lastOrigin o [op]) g' := by
  obtain ⟨a, b, c, d, f, k⟩ := h
  cases op with
  | get i =>
    simp only [Voxel.step, getImmutable, getRef, he.out i] at e
    injection e with e; injection e with _ e; subst e; exact ⟨a, b, c, d, f, k⟩
  | set i v =>
    simp only [Voxel.step, setValue, he.out i] at e
    injection e with e; injection e with _ e; subst e; exact ⟨a, b, c, d, f, k⟩
  | mutate i v =>
    simp only [Voxel.step, getRef, he.out i] at e
    injection e with e; injection e with _ e; subst e; exact ⟨a, b, c, d, f, k⟩
  | updateOrigin o' =>
    injection e with e; injection e with _ e; subst e; exact ⟨rfl, rfl, c, d, f, k⟩
  | setRaw data =>
    injection e with e; injection e with _ e; subst e
    unfold setRawData
    split <;> exact ⟨a, b, c, d, f, k⟩
  | _ => injection e with e; injection e with _ e; subst e; exact ⟨a, b, c, d, f, k⟩

omit [LinearOrder K] [IsStrictOrderedRing K] [FloorRing K] in
theorem lastOrigin_cons (o : Iso3 K) (op : Op K (Option T)) (ops : List (Op K (Option T))) :
    lastOrigin o (op :: ops) = lastOrigin (lastOrigin o [op]) ops := by
  cases op <;> rfl

omit [LinearOrder K] [IsStrictOrderedRing K] [FloorRing K] in
theorem Plain.run {o : Iso3 K} {g g' : Grid (Iso3 K) K (Option T)} {rs : List (Res (Option T))} (he : Empty g)
    (h : Plain o g) (ops : List (Op K (Option T))) (e : Voxel.run g ops = .ok (rs, g')) :
    Plain (lastOrigin o ops) g' := by
  induction ops generalizing g o rs with
  | nil => injection e with e; injection e with _ e; subst e; exact h
  | cons op ops ih =>
    obtain ⟨r, g1, h1, e1, _⟩ := he.step op
    obtain ⟨rs2, g2, h2, _, _⟩ := e1.run ops
    simp only [Voxel.run] at e
    rw [h1, Out.bind_ok, h2, Out.bind_ok] at e
    injection e with e; injection e with _ e; subst e
    rw [lastOrigin_cons]
    exact ih e1 (h.step he op h1) h2

omit [LinearOrder K] [IsStrictOrderedRing K] [FloorRing K] in
/-- **C157.** The origin of a grid made by the default constructor is the identity until `UpdateOriginTransform`
gives another one, the inverse is always that of the origin, and all sizes and numbers of cells are zero. -/
theorem C157_geometry (ops : List (Op K (Option T))) (rs : List (Res (Option T))) (g : Grid (Iso3 K) K (Option T))
    (h : run emptyGrid ops = .ok (rs, g)) :
    g.origin = lastOrigin (Iso3.translation ⟨0, 0, 0⟩) ops ∧ g.inverseOrigin = g.origin.inverse ∧
    g.cellX = 0 ∧ g.cellY = 0 ∧ g.cellZ = 0 ∧ g.sizeX = 0 ∧ g.sizeY = 0 ∧ g.sizeZ = 0 ∧
    g.numX = 0 ∧ g.numY = 0 ∧ g.numZ = 0 ∧ g.stride1 = 0 ∧ g.stride2 = 0 := by
  have p : Plain (Iso3.translation ⟨0, 0, 0⟩) (emptyGrid : Grid (Iso3 K) K (Option T)) :=
    ⟨rfl, rfl, ⟨rfl, rfl, rfl⟩, ⟨rfl, rfl, rfl⟩, ⟨rfl, rfl, rfl⟩, ⟨rfl, rfl⟩⟩
  obtain ⟨a, b, ⟨c1, c2, c3⟩, ⟨d1, d2, d3⟩, ⟨f1, f2, f3⟩, ⟨k1, k2⟩⟩ := p.run emptyGrid_empty ops h
  exact ⟨a, by rw [a]; exact b, c1, c2, c3, d1, d2, d3, f1, f2, f3, k1, k2⟩

omit [IsStrictOrderedRing K] in
/-- **C157.** If the storage of a grid is replaced by a list of another length, reading or writing a cell whose place
is missing throws `out_of_range`; the other cells are found at their places. Nothing is read or written outside. -/
theorem C157_raw (d o : T) (g0 g : Grid (Iso3 K) K T) (ops : List (Op K T)) (rs : List (Res T))
    (h0 : Created d o g0) (h : run g0 ops = .ok (rs, g)) (data : List T) (i : Index)
    (hi : InGrid g.numX g.numY g.numZ i) (v : T) :
    (∀ hn : (rowMajor g.numY g.numZ i).toNat < data.length,
      getImmutable (assignRawData g data) i = .ok (data[(rowMajor g.numY g.numZ i).toNat], true) ∧
      setValue (assignRawData g data) i v =
        .ok (true, assignRawData g (data.set (rowMajor g.numY g.numZ i).toNat v))) ∧
    (data.length ≤ (rowMajor g.numY g.numZ i).toNat →
      getImmutable (assignRawData g data) i = .throws .outOfRange ∧
      setValue (assignRawData g data) i v = .throws .outOfRange) := by
  obtain ⟨g', e, hh, _, _, _⟩ := run_refines ops h0.holds
  rw [h] at e
  simp only [Out.ok.injEq, Prod.mk.injEq] at e
  obtain ⟨_, rfl⟩ := e
  have w := hh.wf
  have hidx : getDataIndex (assignRawData g data) i = rowMajor g.numY g.numZ i := w.index i
  have hin : indexInBounds (assignRawData g data) i = true := (indexInBounds_iff g i).2 hi
  have hb := (rowMajor_bounds hi).1
  constructor
  · intro hn
    have ha : accessIndex (assignRawData g data) (rowMajor g.numY g.numZ i) =
        .ok (rowMajor g.numY g.numZ i).toNat := by
      unfold accessIndex
      rw [if_pos]
      exact ⟨hb, by show _ < (data.length : Int); omega⟩
    constructor
    · unfold getImmutable getRef
      rw [if_pos hin, hidx, ha]
      simp only [Out.bind_ok]
      have hr : readRef (assignRawData g data) (.cell (rowMajor g.numY g.numZ i).toNat) =
          .ok data[(rowMajor g.numY g.numZ i).toNat] := by
        unfold readRef assignRawData
        simp [hn]
      rw [hr]; rfl
    · unfold setValue
      rw [if_pos hin, hidx, ha]
      simp only [Out.bind_ok]
      have hr : writeRef (assignRawData g data) v (.cell (rowMajor g.numY g.numZ i).toNat) =
          .ok (assignRawData g (data.set (rowMajor g.numY g.numZ i).toNat v)) := by
        unfold writeRef assignRawData
        simp [hn]
      rw [hr]; rfl
  · intro hn
    have ha : accessIndex (assignRawData g data) (rowMajor g.numY g.numZ i) = .throws .outOfRange := by
      unfold accessIndex
      rw [if_neg]
      rintro ⟨_, hlt⟩
      have : rowMajor g.numY g.numZ i < (data.length : Int) := hlt
      omega
    constructor
    · unfold getImmutable getRef
      rw [if_pos hin, hidx, ha]; rfl
    · unfold setValue
      rw [if_pos hin, hidx, ha]; rfl

/-- Before any value is given, and after one is given through a mutable reference. -/
example : lastOob (K := ℚ) (none : Option Nat) [.resetNewDefault (some 3), .get ⟨0, 0, 0⟩] = none ∧
    lastOob (K := ℚ) (none : Option Nat) [.mutate ⟨0, 0, 0⟩ (some 4), .set ⟨0, 0, 0⟩ (some 5)] = some 4 := ⟨rfl, rfl⟩

/-- A grid without cells whose origin is moved twice. -/
example : ∃ rs, ∃ g : Grid (Iso3 ℚ) ℚ (Option Nat),
    run emptyGrid [.updateOrigin (Iso3.translation ⟨1, 2, 3⟩), .setOob (some 2),
      .updateOrigin (Iso3.translation ⟨4, 0, 0⟩)] = .ok (rs, g) ∧ g.origin.t = ⟨4, 0, 0⟩ := ⟨_, _, rfl, rfl⟩

/-- A grid of four cells whose storage is cut to three. -/
example : ∃ g : Grid (Iso3 ℚ) ℚ Nat,
    initializeCells (Iso3.translation ⟨0, 0, 0⟩) 1 1 1 2 2 1 7 9 = .ok g ∧
    getImmutable (assignRawData g [5, 6, 7]) ⟨1, 0, 0⟩ = .ok (7, true) ∧
    getImmutable (assignRawData g [5, 6, 7]) ⟨1, 1, 0⟩ = .throws .outOfRange := by
  refine ⟨_, by unfold initializeCells safetyCheckCells int64; simp; rfl, ?_, ?_⟩ <;> rfl

end Verif.Voxel
