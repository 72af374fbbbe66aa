import Mathlib.Data.Rat.Floor
import Mathlib.Tactic.NormNum
import Verif.Lemmas.VoxelLocation

/-!
# C35, C36, C37, C64: voxel grids
-/
namespace Verif.Voxel
open Verif

section
variable {K T : Type} [Field K] [LinearOrder K] [IsStrictOrderedRing K] [FloorRing K]

omit [IsStrictOrderedRing K] in
/-- After any history of operations on a created grid, the index computation maps the cells of the grid
one-to-one onto the positions of the storage, in row-major order, and all intermediate products and
sums fit into `int64_t`. -/
theorem C35_addressing (d o : T) (g0 g : Grid (Iso3 K) K T) (ops : List (Op K T)) (rs : List (Res T))
    (h0 : Created d o g0) (h : run g0 ops = .ok (rs, g)) :
    (g.data.length : Int) = g.numX * g.numY * g.numZ ∧
    (∀ i, indexInBounds g i = true ↔
      (0 ≤ i.x ∧ i.x < g.numX) ∧ (0 ≤ i.y ∧ i.y < g.numY) ∧ (0 ≤ i.z ∧ i.z < g.numZ)) ∧
    (∀ i, indexInBounds g i = true →
      accessIndex g (getDataIndex g i) = .ok (getDataIndex g i).toNat ∧
      0 ≤ getDataIndex g i ∧ getDataIndex g i < g.data.length ∧
      getDataIndex g i = (i.x * g.numY + i.y) * g.numZ + i.z) ∧
    (∀ i j, indexInBounds g i = true → indexInBounds g j = true →
      getDataIndex g i = getDataIndex g j → i = j) ∧
    (∀ n : Nat, n < g.data.length → ∃ i, indexInBounds g i = true ∧ getDataIndex g i = n ∧
      ∀ j, indexInBounds g j = true → getDataIndex g j = n → j = i) ∧
    (∀ i, indexInBounds g i = true →
      (0 ≤ i.x * g.stride1 ∧ i.x * g.stride1 < 2 ^ 63) ∧
      (0 ≤ i.y * g.stride2 ∧ i.y * g.stride2 < 2 ^ 63) ∧
      (0 ≤ i.x * g.stride1 + i.y * g.stride2 ∧ i.x * g.stride1 + i.y * g.stride2 < 2 ^ 63) ∧
      getDataIndex g i < 2 ^ 63) := by
  obtain ⟨g', e, hh, _, _, _⟩ := run_refines ops h0.holds
  rw [h] at e
  simp only [Out.ok.injEq, Prod.mk.injEq] at e
  obtain ⟨_, rfl⟩ := e
  have w := hh.wf
  have hl := w.len
  have hinj : ∀ i j, indexInBounds g i = true → indexInBounds g j = true →
      getDataIndex g i = getDataIndex g j → i = j := by
    intro i j hi hj he
    rw [indexInBounds_iff] at hi hj
    rw [w.index, w.index] at he
    exact rowMajor_inj hi hj he
  refine ⟨hl, fun i => indexInBounds_iff g i, ?_, hinj, ?_, ?_⟩
  · intro i hi
    rw [indexInBounds_iff] at hi
    have hb := rowMajor_bounds hi
    refine ⟨?_, ?_, ?_, ?_⟩
    · rw [(w.access hi).1, w.index]
    · rw [w.index]; exact hb.1
    · rw [w.index]; omega
    · rw [w.index]; rfl
  · intro n hn
    obtain ⟨i, hi, he⟩ := rowMajor_surj w.posX w.posY w.posZ (n := n) (by omega) (by omega)
    have hi' := (indexInBounds_iff g i).2 hi
    have he' : getDataIndex g i = n := by rw [w.index]; exact he
    exact ⟨i, hi', he', fun j hj hje => hinj j i hj hi' (hje.trans he'.symm)⟩
  · intro i hi
    rw [indexInBounds_iff] at hi
    have hb := rowMajor_bounds hi
    have hf := w.fits
    obtain ⟨⟨hx0, hx⟩, ⟨hy0, hy⟩, ⟨hz0, hz⟩⟩ := hi
    have e1 : getDataIndex g i = i.x * g.stride1 + i.y * g.stride2 + i.z := rfl
    have a1 : 0 ≤ i.x * g.stride1 := by
      rw [w.s1]; exact Int.mul_nonneg hx0 (Int.mul_nonneg (by omega) (by omega))
    have a2 : 0 ≤ i.y * g.stride2 := by
      rw [w.s2]; exact Int.mul_nonneg hy0 (by omega)
    rw [w.index] at e1 ⊢
    refine ⟨⟨a1, ?_⟩, ⟨a2, ?_⟩, ⟨?_, ?_⟩, ?_⟩ <;> omega

omit [IsStrictOrderedRing K] in
/-- After any history, the element of the raw data at `HashDataIndex` is the one `GetImmutable` reports for the cell. -/
theorem C35_hash_data_index (d o : T) (g0 g : Grid (Iso3 K) K T) (ops : List (Op K T)) (rs : List (Res T))
    (h0 : Created d o g0) (h : run g0 ops = .ok (rs, g)) (i : Index) (hi : indexInBounds g i = true) :
    0 ≤ hashDataIndex g i ∧ ∃ v, g.data[(hashDataIndex g i).toNat]? = some v ∧ getImmutable g i = .ok (v, true) := by
  obtain ⟨_, _, h3, _⟩ := C35_addressing d o g0 g ops rs h0 h
  obtain ⟨a1, a2, a3, _⟩ := h3 i hi
  have e : hashDataIndex g i = getDataIndex g i := rfl
  have hl : (getDataIndex g i).toNat < g.data.length := by omega
  rw [e]
  refine ⟨a2, _, List.getElem?_eq_getElem hl, ?_⟩
  simp [getImmutable, getRef, hi, a1, readRef, List.getElem?_eq_getElem hl]

omit [IsStrictOrderedRing K] in
/-- After any history of reads, writes, resets and writes through mutable references, every operation
reports what the abstract grid reports: reads give the latest write to the cell (or the value it was
reset or initialized to) and `true`, or the out-of-bounds value and `false`; writes outside the grid
report `false` and change nothing, except that a write through a mutable out-of-bounds reference
replaces the out-of-bounds value. Nothing fails. The raw data lists the cells in row-major order. -/
theorem C36_history (d o : T) (g : Grid (Iso3 K) K T) (h : Created d o g) (ops : List (Op K T)) :
    ∃ g', run g ops = .ok ((specRun g.numX g.numY g.numZ ⟨fun _ => d, d, o⟩ ops).1, g') ∧
      (∀ i, getImmutable g' i =
        .ok (if InGrid g.numX g.numY g.numZ i
          then ((specRun g.numX g.numY g.numZ ⟨fun _ => d, d, o⟩ ops).2.cells i, true)
          else ((specRun g.numX g.numY g.numZ ⟨fun _ => d, d, o⟩ ops).2.oob, false))) ∧
      (g'.data.length : Int) = g.numX * g.numY * g.numZ ∧
      ∀ i, InGrid g.numX g.numY g.numZ i → g'.data[(rowMajor g.numY g.numZ i).toNat]? =
        some ((specRun g.numX g.numY g.numZ ⟨fun _ => d, d, o⟩ ops).2.cells i) := by
  obtain ⟨g', e, hh, hx, hy, hz⟩ := run_refines ops h.holds
  refine ⟨g', e, ?_, ?_, ?_⟩
  · intro i
    obtain ⟨g'', e', _⟩ := step_refines hh (.get i)
    simp only [step, specStep, Out.bind_eq_ok, Out.ok.injEq, Prod.mk.injEq] at e'
    obtain ⟨r, hr, h1, h2⟩ := e'
    rw [hr]
    rw [hx, hy, hz] at h1
    by_cases hi : InGrid g.numX g.numY g.numZ i
    · rw [if_pos hi] at h1 ⊢
      simp only [Res.read.injEq] at h1
      rw [← h1.1, ← h1.2]
    · rw [if_neg hi] at h1 ⊢
      simp only [Res.read.injEq] at h1
      rw [← h1.1, ← h1.2]
  · rw [hh.wf.len, hx, hy, hz]
  · intro i hi
    have := hh.cells i (by rw [hx, hy, hz]; exact hi)
    rwa [hy, hz] at this

omit [IsStrictOrderedRing K] in
/-- A read directly after a write to the same index gives the written value, and reads of all other
indices are unaffected; a write outside the grid changes no read. -/
theorem C36_write_then_read (d o : T) (g g1 : Grid (Iso3 K) K T) (ops : List (Op K T))
    (rs : List (Res T)) (h : Created d o g) (h1 : run g ops = .ok (rs, g1)) (i : Index) (v : T) :
    ∃ b g2, setValue g1 i v = .ok (b, g2) ∧ (b = true ↔ InGrid g.numX g.numY g.numZ i) ∧
      (b = true → getImmutable g2 i = .ok (v, true)) ∧
      (b = false → g2 = g1) ∧
      ∀ j, j ≠ i → getImmutable g2 j = getImmutable g1 j := by
  obtain ⟨g', e, hh, hx, hy, hz⟩ := run_refines ops h.holds
  rw [h1] at e
  simp only [Out.ok.injEq, Prod.mk.injEq] at e
  obtain ⟨_, rfl⟩ := e
  have hread : ∀ {g : Grid (Iso3 K) K T} {c : Contents T}, Holds g c → ∀ j, getImmutable g j = .ok
      (if InGrid g.numX g.numY g.numZ j then (c.cells j, true) else (c.oob, false)) := by
    intro g c hc j
    unfold getImmutable
    by_cases hj : InGrid g.numX g.numY g.numZ j
    · simp only [getRef_in hc.wf hj, readRef, hc.cells j hj, Out.bind_ok, if_pos hj]
    · simp only [getRef_out hj, readRef, Out.bind_ok, if_neg hj, hc.oob]
  rw [← hx, ← hy, ← hz]
  by_cases hi : InGrid g1.numX g1.numY g1.numZ i
  · obtain ⟨hw, hh2⟩ := holds_write hh hi v
    refine ⟨true, { g1 with data := g1.data.set (rowMajor g1.numY g1.numZ i).toNat v }, ?_,
      by simp [hi], ?_, by simp, ?_⟩
    rotate_left
    · intro _
      rw [hread hh2 i]
      rw [if_pos (show InGrid g1.numX g1.numY g1.numZ i from hi)]
      simp
    · intro j hj
      rw [hread hh2 j, hread hh j]
      simp only [if_neg hj]
    · simp only [setValue, if_pos ((indexInBounds_iff g1 i).2 hi), (hh.wf.access hi).1,
          Out.bind_ok, hw]
  · refine ⟨false, g1, ?_, by simp [hi], by simp, by simp, by simp⟩
    simp only [setValue, if_neg (fun hb => hi ((indexInBounds_iff g1 i).1 hb))]

/-! ### Locations -/

omit [LinearOrder K] [IsStrictOrderedRing K] [FloorRing K] in
/-- Every world location is the image of a point of the grid frame under the origin transform. -/
theorem C37_every_location (origin : Iso3 K) (ho : IsIsometry origin) (q : Vec3 K) :
    ∃ p, q = atFrame origin p ∧ ∀ p', q = atFrame origin p' → p' = p :=
  ⟨origin.inverse.apply q, (atFrame_surj ho q).symm, fun p' h => by rw [h, inverse_apply ho]⟩

/-- The location of an in-bounds index is the centre of its cell, and it maps back to the index. -/
theorem C37_center (d o : T) (g0 g : Grid (Iso3 K) K T) (ops : List (Op K T)) (rs : List (Res T))
    (h0 : Created d o g0) (h : run g0 ops = .ok (rs, g)) (ho : IsIsometry g.origin) (i : Index)
    (hi : InGrid g.numX g.numY g.numZ i) :
    gridIndexToLocation g i = atFrame g.origin ⟨(i.x + 1 / 2) * g.cellX, (i.y + 1 / 2) * g.cellY,
      (i.z + 1 / 2) * g.cellZ⟩ ∧
    locationToGridIndex g (gridIndexToLocation g i) = .ok i ∧
    locationToGridIndex3d g (gridIndexToLocation g i) = .ok i ∧
    locationInBounds g (gridIndexToLocation g i) = .ok true ∧
    getImmutable3d g (gridIndexToLocation g i) = getImmutable g i ∧
    ∀ v, setValue3d g (gridIndexToLocation g i) v = setValue g i v := by
  have geo := run_geo ops h0.geo h
  obtain ⟨g', e, hh, _, _, _⟩ := run_refines ops h0.holds
  rw [h] at e
  simp only [Out.ok.injEq, Prod.mk.injEq] at e
  obtain ⟨_, rfl⟩ := e
  have hloc : gridIndexToLocation g i = atFrame g.origin ⟨(i.x + 1 / 2) * g.cellX,
      (i.y + 1 / 2) * g.cellY, (i.z + 1 / 2) * g.cellZ⟩ := by
    simp only [gridIndexToLocation, apply4_one, atFrame_eq, gridIndexToLocationGridFrame, mul_comm]
  have hax : ∀ {c : K} {n k : Int}, 0 < c → 0 ≤ k → k < n →
      trunc ((k + 1 / 2 : K) * c * (1 / c)) = k ∧
        (-c < (k + 1 / 2 : K) * c ∧ (k + 1 / 2 : K) * c < n * c) := by
    intro c n k hc hk hn
    have hk' : (0 : K) ≤ k := by exact_mod_cast hk
    have hn' : (k : K) + 1 ≤ n := by exact_mod_cast hn
    refine ⟨axis_cell hc hk ?_ ?_, ?_, ?_⟩
    · nlinarith
    · nlinarith
    · nlinarith
    · nlinarith
  obtain ⟨⟨hx0, hx⟩, ⟨hy0, hy⟩, ⟨hz0, hz⟩⟩ := id hi
  have hidx : locationToGridIndex3d g (gridIndexToLocation g i) = .ok i := by
    rw [hloc, locationToGridIndex3d_eq geo ho, pointInFrame_eq geo, if_pos]
    · rw [(hax geo.cx hx0 hx).1, (hax geo.cy hy0 hy).1, (hax geo.cz hz0 hz).1]
    · exact reachable_of_index geo hh.wf
        ⟨(hax geo.cx hx0 hx).2, (hax geo.cy hy0 hy).2, (hax geo.cz hz0 hz).2⟩
  have hb := (indexInBounds_iff g i).2 hi
  refine ⟨hloc, ?_, hidx, ?_, ?_, ?_⟩
  · rw [locationToGridIndex_eq, hidx]
  · simp only [locationInBounds, locationToGridIndex_eq, hidx, Out.bind_ok, hb]
  · simp only [getImmutable3d, hidx, Out.bind_ok, hb, if_true]
  · intro v
    simp only [setValue3d, hidx, Out.bind_ok, hb, if_true]

/-- Exactly when a location is reported in bounds, for every location: when its frame coordinates lie in
the box of the grid enlarged by one open cell below each lower face. Locations `2^63` cells or more away
from the origin make the conversion to an index undefined. -/
theorem C37_location_in_bounds (d o : T) (g0 g : Grid (Iso3 K) K T) (ops : List (Op K T))
    (rs : List (Res T)) (h0 : Created d o g0) (h : run g0 ops = .ok (rs, g))
    (ho : IsIsometry g.origin) (p : Vec3 K) :
    (InEnlargedBox g p → locationInBounds g (atFrame g.origin p) = .ok true) ∧
    (Reachable g p → ¬ InEnlargedBox g p → locationInBounds g (atFrame g.origin p) = .ok false) ∧
    (¬ Reachable g p → locationInBounds g (atFrame g.origin p) = .ub) := by
  have geo := run_geo ops h0.geo h
  obtain ⟨g', e, hh, _, _, _⟩ := run_refines ops h0.holds
  rw [h] at e
  simp only [Out.ok.injEq, Prod.mk.injEq] at e
  obtain ⟨_, rfl⟩ := e
  have key : Reachable g p → ∃ b, locationInBounds g (atFrame g.origin p) = .ok b ∧
      (b = true ↔ InEnlargedBox g p) := by
    intro hr
    refine ⟨_, by
      rw [locationInBounds, locationToGridIndex_eq, locationToGridIndex3d_eq geo ho,
        pointInFrame_eq geo, if_pos hr]; rfl, ?_⟩
    rw [indexInBounds_iff]
    exact and_congr (axis_valid geo.cx hh.wf.posX)
      (and_congr (axis_valid geo.cy hh.wf.posY) (axis_valid geo.cz hh.wf.posZ))
  refine ⟨?_, ?_, ?_⟩
  · intro hp
    obtain ⟨b, hb, hiff⟩ := key (reachable_of_index geo hh.wf hp)
    rw [hb, hiff.2 hp]
  · intro hr hp
    obtain ⟨b, hb, hiff⟩ := key hr
    rw [hb]
    cases b
    · rfl
    · exact absurd (hiff.1 rfl) hp
  · intro hr
    rw [locationInBounds, locationToGridIndex_eq, locationToGridIndex3d_eq geo ho,
        pointInFrame_eq geo, if_neg hr]
    rfl

/-- The claim that a location is in bounds exactly when it lies in the half-open box, for locations that
are not less than one cell below a lower face; such locations map to the index of the cell that contains
them. What is missing: the points less than one cell below a lower face, for which the claim is false
(`C37_below_origin`). -/
theorem C37_box_partial (d o : T) (g0 g : Grid (Iso3 K) K T) (ops : List (Op K T))
    (rs : List (Res T)) (h0 : Created d o g0) (h : run g0 ops = .ok (rs, g))
    (ho : IsIsometry g.origin) (p : Vec3 K) (hr : Reachable g p)
    (hx : 0 ≤ p.x ∨ p.x ≤ -g.cellX) (hy : 0 ≤ p.y ∨ p.y ≤ -g.cellY)
    (hz : 0 ≤ p.z ∨ p.z ≤ -g.cellZ) :
    (InBox g p → locationInBounds g (atFrame g.origin p) = .ok true ∧
      ∃ i, InGrid g.numX g.numY g.numZ i ∧ InCell g i p ∧
        locationToGridIndex g (atFrame g.origin p) = .ok i ∧
        getImmutable3d g (atFrame g.origin p) = getImmutable g i) ∧
    (¬ InBox g p → locationInBounds g (atFrame g.origin p) = .ok false ∧
      getImmutable3d g (atFrame g.origin p) = .ok (g.oob, false)) := by
  have geo := run_geo ops h0.geo h
  obtain ⟨e1, e2, _⟩ := C37_location_in_bounds d o g0 g ops rs h0 h ho p
  have hiff : InEnlargedBox g p ↔ InBox g p := by
    have ax : ∀ {a c n : K}, 0 < c → (0 ≤ a ∨ a ≤ -c) → ((-c < a ∧ a < n) ↔ (0 ≤ a ∧ a < n)) := by
      intro a c n hc ha
      constructor
      · rintro ⟨h1, h2⟩
        exact ⟨ha.resolve_right (not_le.2 h1), h2⟩
      · rintro ⟨h1, h2⟩
        exact ⟨by linarith, h2⟩
    exact and_congr (ax geo.cx hx) (and_congr (ax geo.cy hy) (ax geo.cz hz))
  have hidx : locationToGridIndex3d g (atFrame g.origin p) = .ok ⟨trunc (p.x * (1 / g.cellX)),
      trunc (p.y * (1 / g.cellY)), trunc (p.z * (1 / g.cellZ))⟩ := by
    rw [locationToGridIndex3d_eq geo ho, pointInFrame_eq geo, if_pos hr]
  constructor
  · intro hb
    have hin := e1 (hiff.2 hb)
    rw [locationInBounds, locationToGridIndex_eq, hidx] at hin
    simp only [Out.bind_ok, Out.ok.injEq] at hin
    refine ⟨e1 (hiff.2 hb), _, (indexInBounds_iff g _).1 hin, ⟨axis_floor geo.cx hb.1.1,
      axis_floor geo.cy hb.2.1.1, axis_floor geo.cz hb.2.2.1⟩, ?_, ?_⟩
    · rw [locationToGridIndex_eq, hidx]
    · simp only [getImmutable3d, hidx, Out.bind_ok, hin, if_true]
  · intro hb
    have hin := e2 hr (fun hc => hb (hiff.1 hc))
    refine ⟨hin, ?_⟩
    rw [locationInBounds, locationToGridIndex_eq, hidx] at hin
    simp only [Out.bind_ok, Out.ok.injEq] at hin
    simp only [getImmutable3d, hidx, Out.bind_ok, hin, Bool.false_eq_true, if_false]

/-- The half-open box claim is false: on every grid, a point half a cell below the lower x face is outside
the box and yet reported in bounds, and reads and writes there reach the cell above that face. -/
theorem C37_below_origin (d o : T) (g0 g : Grid (Iso3 K) K T) (ops : List (Op K T))
    (rs : List (Res T)) (h0 : Created d o g0) (h : run g0 ops = .ok (rs, g))
    (ho : IsIsometry g.origin) :
    ¬ InBox g ⟨-(g.cellX / 2), g.cellY / 2, g.cellZ / 2⟩ ∧
    locationInBounds g (atFrame g.origin ⟨-(g.cellX / 2), g.cellY / 2, g.cellZ / 2⟩) = .ok true ∧
    getImmutable3d g (atFrame g.origin ⟨-(g.cellX / 2), g.cellY / 2, g.cellZ / 2⟩) =
      getImmutable g ⟨0, 0, 0⟩ ∧
    ∀ v, setValue3d g (atFrame g.origin ⟨-(g.cellX / 2), g.cellY / 2, g.cellZ / 2⟩) v =
      setValue g ⟨0, 0, 0⟩ v := by
  have geo := run_geo ops h0.geo h
  obtain ⟨g', e, hh, _, _, _⟩ := run_refines ops h0.holds
  rw [h] at e
  simp only [Out.ok.injEq, Prod.mk.injEq] at e
  obtain ⟨_, rfl⟩ := e
  have cx := geo.cx
  have cy := geo.cy
  have cz := geo.cz
  have one : ∀ {n : Int}, 0 < n → (1 : K) ≤ n := fun h => by exact_mod_cast h
  have hbox : InEnlargedBox g ⟨-(g.cellX / 2), g.cellY / 2, g.cellZ / 2⟩ := by
    have nx := one hh.wf.posX
    have ny := one hh.wf.posY
    have nz := one hh.wf.posZ
    refine ⟨⟨?_, ?_⟩, ⟨?_, ?_⟩, ⟨?_, ?_⟩⟩ <;> dsimp only <;> nlinarith
  have z : ∀ {a c : K}, 0 < c → -c < a → a < c → trunc (a * (1 / c)) = 0 := by
    intro a c hc h1 h2
    have := (axis_valid (p := a) hc (n := 1) (by norm_num)).2 ⟨h1, by simpa using h2⟩
    omega
  have hidx : locationToGridIndex3d g (atFrame g.origin ⟨-(g.cellX / 2), g.cellY / 2, g.cellZ / 2⟩) =
      .ok ⟨0, 0, 0⟩ := by
    rw [locationToGridIndex3d_eq geo ho, pointInFrame_eq geo,
      if_pos (reachable_of_index geo hh.wf hbox)]
    rw [z cx (by linarith) (by linarith), z cy (by linarith) (by linarith),
      z cz (by linarith) (by linarith)]
  have hb : indexInBounds g ⟨0, 0, 0⟩ = true :=
    (indexInBounds_iff g _).2 ⟨⟨le_refl _, hh.wf.posX⟩, ⟨le_refl _, hh.wf.posY⟩, le_refl _, hh.wf.posZ⟩
  refine ⟨?_, (C37_location_in_bounds d o g0 g ops rs h0 h ho _).1 hbox, ?_, ?_⟩
  · intro hc
    have := hc.1.1
    dsimp only at this
    linarith
  · simp only [getImmutable3d, hidx, Out.bind_ok, hb, if_true]
  · intro v
    simp only [setValue3d, hidx, Out.bind_ok, hb, if_true]

/-! ### Creation -/

omit [FloorRing K] in
/-- Creating a grid from numbers of cells: `std::invalid_argument` exactly when a cell size or number is
not positive; otherwise undefined when the number of cells does not fit into `int64_t`, and else a
grid with those numbers and sizes. -/
theorem C64_cells (origin : Iso3 K) (cx cy cz : K) (nx ny nz : Int) (d o : T) :
    ((cx ≤ 0 ∨ cy ≤ 0 ∨ cz ≤ 0 ∨ nx ≤ 0 ∨ ny ≤ 0 ∨ nz ≤ 0) →
      initializeCells origin cx cy cz nx ny nz d o = .throws .invalidArgument ∧
      initializeCellsCentred cx cy cz nx ny nz d o = .throws .invalidArgument) ∧
    (0 < cx ∧ 0 < cy ∧ 0 < cz ∧ 0 < nx ∧ 0 < ny ∧ 0 < nz → 2 ^ 63 ≤ nx * ny * nz →
      initializeCells origin cx cy cz nx ny nz d o = .ub) ∧
    (0 < cx ∧ 0 < cy ∧ 0 < cz ∧ 0 < nx ∧ 0 < ny ∧ 0 < nz → nx * ny * nz < 2 ^ 63 →
      (∃ g, initializeCells origin cx cy cz nx ny nz d o = .ok g ∧ g.origin = origin ∧
        (g.numX = nx ∧ g.numY = ny ∧ g.numZ = nz) ∧ (g.cellX = cx ∧ g.cellY = cy ∧ g.cellZ = cz) ∧
        (g.sizeX = nx * cx ∧ g.sizeY = ny * cy ∧ g.sizeZ = nz * cz) ∧ g.initialized = true) ∧
      (∃ g, initializeCellsCentred cx cy cz nx ny nz d o = .ok g ∧
        (∀ p, atFrame g.origin p =
          ⟨p.x - nx * cx / 2, p.y - ny * cy / 2, p.z - nz * cz / 2⟩) ∧ IsIsometry g.origin ∧
        (g.numX = nx ∧ g.numY = ny ∧ g.numZ = nz) ∧ (g.cellX = cx ∧ g.cellY = cy ∧ g.cellZ = cz) ∧
        (g.sizeX = nx * cx ∧ g.sizeY = ny * cy ∧ g.sizeZ = nz * cz) ∧ g.initialized = true)) := by
  refine ⟨?_, ?_, ?_⟩
  · intro h
    have e : ∀ origin : Iso3 K,
        initializeCells origin cx cy cz nx ny nz d o = .throws .invalidArgument := by
      intro origin
      unfold initializeCells safetyCheckCells
      rw [if_pos h]
      rfl
    refine ⟨e _, ?_⟩
    unfold initializeCellsCentred
    rw [e]
    rfl
  · rintro ⟨h1, h2, h3, h4, h5, h6⟩ hn
    unfold initializeCells safetyCheckCells
    rw [if_neg (by simp only [not_or, not_le]; exact ⟨h1, h2, h3, h4, h5, h6⟩)]
    simp only [Out.bind_ok]
    unfold int64
    rw [if_neg (show ¬ (-2 ^ 63 ≤ nx * ny * nz ∧ nx * ny * nz < 2 ^ 63) by omega)]
    split <;> rfl
  · rintro ⟨h1, h2, h3, h4, h5, h6⟩ hn
    have hyz : 0 < ny * nz := Int.mul_pos h5 h6
    have hxyz : 0 < nx * ny * nz := by rw [Int.mul_assoc]; exact Int.mul_pos h4 hyz
    have hle : ny * nz ≤ nx * ny * nz := by
      rw [Int.mul_assoc]
      have := Int.mul_le_mul_of_nonneg_right (by omega : 1 ≤ nx) (by omega : 0 ≤ ny * nz)
      omega
    have e : ∀ origin : Iso3 K, ∃ g, initializeCells origin cx cy cz nx ny nz d o = .ok g ∧
        g.origin = origin ∧
        (g.numX = nx ∧ g.numY = ny ∧ g.numZ = nz) ∧ (g.cellX = cx ∧ g.cellY = cy ∧ g.cellZ = cz) ∧
        (g.sizeX = nx * cx ∧ g.sizeY = ny * cy ∧ g.sizeZ = nz * cz) ∧ g.initialized = true := by
      intro origin
      unfold initializeCells safetyCheckCells
      rw [if_neg (by simp only [not_or, not_le]; exact ⟨h1, h2, h3, h4, h5, h6⟩)]
      simp only [Out.bind_ok]
      unfold int64
      rw [if_pos (show (-2 ^ 63 ≤ ny * nz ∧ ny * nz < 2 ^ 63) by omega),
        if_pos (show (-2 ^ 63 ≤ nx * ny * nz ∧ nx * ny * nz < 2 ^ 63) by omega)]
      simp only [Out.bind_ok]
      exact ⟨_, rfl, rfl, ⟨rfl, rfl, rfl⟩, ⟨abs_of_pos h1, abs_of_pos h2, abs_of_pos h3⟩,
        ⟨by rw [abs_of_pos h1], by rw [abs_of_pos h2], by rw [abs_of_pos h3]⟩, rfl⟩
    refine ⟨e origin, ?_⟩
    obtain ⟨g, hg, _, hnum, hcell, hsize, hinit⟩ := e (Iso3.translation ⟨0, 0, 0⟩)
    have hc : initializeCellsCentred cx cy cz nx ny nz d o = .ok { g with
        origin := Iso3.translation ⟨-g.sizeX * (1 / 2), -g.sizeY * (1 / 2), -g.sizeZ * (1 / 2)⟩
        inverseOrigin := (Iso3.translation
          ⟨-g.sizeX * (1 / 2), -g.sizeY * (1 / 2), -g.sizeZ * (1 / 2)⟩ : Iso3 K).inverse } := by
      unfold initializeCellsCentred
      rw [hg]
      rfl
    refine ⟨_, hc, ?_, translation_isometry _, hnum, hcell, hsize, hinit⟩
    intro p
    simp only [atFrame, Iso3.translation, Vec3.mk.injEq, hsize.1, hsize.2.1, hsize.2.2]
    refine ⟨?_, ?_, ?_⟩ <;> ring

/-- Creating a grid from sizes: `std::invalid_argument` exactly when a cell size or size is not
positive; otherwise the grid is the one with the least numbers of cells that cover the sizes. -/
theorem C64_sizes (origin : Iso3 K) (cx cy cz sx sy sz : K) (d o : T) :
    ((cx ≤ 0 ∨ cy ≤ 0 ∨ cz ≤ 0 ∨ sx ≤ 0 ∨ sy ≤ 0 ∨ sz ≤ 0) →
      initializeSizes origin cx cy cz sx sy sz d o = .throws .invalidArgument ∧
      initializeSizesCentred cx cy cz sx sy sz d o = .throws .invalidArgument) ∧
    (0 < cx ∧ 0 < cy ∧ 0 < cz ∧ 0 < sx ∧ 0 < sy ∧ 0 < sz → ∃ nx ny nz : Int,
      (((nx : K) - 1) * cx < sx ∧ sx ≤ nx * cx) ∧ (((ny : K) - 1) * cy < sy ∧ sy ≤ ny * cy) ∧
      (((nz : K) - 1) * cz < sz ∧ sz ≤ nz * cz) ∧
      (nx * ny * nz < 2 ^ 63 →
        initializeSizes origin cx cy cz sx sy sz d o =
          initializeCells origin cx cy cz nx ny nz d o ∧
        initializeSizesCentred cx cy cz sx sy sz d o =
          initializeCellsCentred cx cy cz nx ny nz d o) ∧
      (2 ^ 63 ≤ nx * ny * nz →
        initializeSizes origin cx cy cz sx sy sz d o = .ub)) := by
  refine ⟨?_, ?_⟩
  · intro h
    unfold initializeSizes initializeSizesCentred safetyCheckSizes
    rw [if_pos h]
    exact ⟨rfl, rfl⟩
  · rintro ⟨h1, h2, h3, h4, h5, h6⟩
    have cov : ∀ {s c : K}, 0 < c → 0 < s → (((⌈|s| / |c|⌉ : Int) : K) - 1) * c < s ∧
        s ≤ (⌈|s| / |c|⌉ : Int) * c ∧ 0 < (⌈|s| / |c|⌉ : Int) := by
      intro s c hc hs
      rw [abs_of_pos hc, abs_of_pos hs]
      refine ⟨?_, ?_, Int.ceil_pos.2 (div_pos hs hc)⟩
      · have := Int.ceil_lt_add_one (s / c)
        rw [← lt_div_iff₀ hc]
        linarith
      · rw [← div_le_iff₀ hc]
        exact Int.le_ceil _
    obtain ⟨a1, a2, a3⟩ := cov h1 h4
    obtain ⟨b1, b2, b3⟩ := cov h2 h5
    obtain ⟨c1, c2, c3⟩ := cov h3 h6
    refine ⟨⌈|sx| / |cx|⌉, ⌈|sy| / |cy|⌉, ⌈|sz| / |cz|⌉, ⟨a1, a2⟩, ⟨b1, b2⟩, ⟨c1, c2⟩, ?_, ?_⟩
    · intro hn
      unfold initializeSizes initializeSizesCentred safetyCheckSizes cellsFor
      rw [if_neg (by simp only [not_or, not_le]; exact ⟨h1, h2, h3, h4, h5, h6⟩)]
      generalize ⌈|sx| / |cx|⌉ = nx at *
      generalize ⌈|sy| / |cy|⌉ = ny at *
      generalize ⌈|sz| / |cz|⌉ = nz at *
      have hyz : 0 < ny * nz := Int.mul_pos b3 c3
      have hxz : 0 < nx * nz := Int.mul_pos a3 c3
      have hxy : 0 < nx * ny := Int.mul_pos a3 b3
      have l1 : nx < 2 ^ 63 := by nlinarith
      have l2 : ny < 2 ^ 63 := by nlinarith
      have l3 : nz < 2 ^ 63 := by nlinarith
      unfold int64
      rw [if_pos (show (-2 ^ 63 ≤ nx ∧ nx < 2 ^ 63) by omega),
        if_pos (show (-2 ^ 63 ≤ ny ∧ ny < 2 ^ 63) by omega),
        if_pos (show (-2 ^ 63 ≤ nz ∧ nz < 2 ^ 63) by omega)]
      exact ⟨rfl, rfl⟩
    · intro hn
      unfold initializeSizes safetyCheckSizes cellsFor
      rw [if_neg (by simp only [not_or, not_le]; exact ⟨h1, h2, h3, h4, h5, h6⟩)]
      simp only [Out.bind_ok]
      have hub := (C64_cells origin cx cy cz _ _ _ d o).2.1 ⟨h1, h2, h3, a3, b3, c3⟩ hn
      unfold int64
      split
      · split
        · split
          · simpa only [Out.bind_ok] using hub
          · rfl
        · simp only [Out.bind_ok, Out.bind_ub]
      · rfl

omit [IsStrictOrderedRing K] in
/-- A created grid reports its default everywhere inside and the out-of-bounds value outside. -/
theorem C64_contents (d o : T) (g : Grid (Iso3 K) K T) (h : Created d o g) (i : Index) :
    getImmutable g i = .ok (if InGrid g.numX g.numY g.numZ i then (d, true) else (o, false)) := by
  obtain ⟨g', e, h1, _⟩ := C36_history d o g h []
  simp only [run, Out.ok.injEq, Prod.mk.injEq] at e
  obtain ⟨_, rfl⟩ := e
  exact h1 i

end

/-! ### Concrete cases -/

/-- A grid of 2 by 3 by 4 unit cells at the origin. -/
def unitGrid : Out (Grid (Iso3 Rat) Rat Nat) :=
  initializeCells (Iso3.translation ⟨0, 0, 0⟩) 1 1 1 2 3 4 7 9

example : ∃ g, unitGrid = .ok g ∧ Created 7 9 g ∧ IsIsometry g.origin ∧
    InGrid g.numX g.numY g.numZ ⟨1, 2, 3⟩ ∧ ¬ InGrid g.numX g.numY g.numZ ⟨2, 0, 0⟩ := by
  obtain ⟨g, hg, ho, ⟨hx, hy, hz⟩, _⟩ := ((C64_cells (Iso3.translation ⟨0, 0, 0⟩) (1 : Rat) 1 1 2 3 4
    7 9).2.2 (by norm_num) (by norm_num)).1
  refine ⟨g, hg, .cells _ _ _ _ _ _ _ hg, ho ▸ translation_isometry _, ?_, ?_⟩ <;>
    rw [hx, hy, hz] <;> decide

/-- A history on it. -/
example : (specRun (K := Rat) 2 3 4 ⟨fun _ => 7, 7, 9⟩
    [.get ⟨1, 2, 3⟩, .set ⟨1, 2, 3⟩ 5, .get ⟨1, 2, 3⟩, .set ⟨2, 0, 0⟩ 5, .mutate ⟨-1, 0, 0⟩ 4,
      .get ⟨0, 3, 0⟩, .resetDefault, .get ⟨1, 2, 3⟩]).1 =
    [.read 7 true, .flag true, .read 5 true, .flag false, .read 9 false, .read 4 false, .nothing,
      .read 7 true] := by decide

example : ∃ g : Grid (Iso3 Rat) Rat Nat,
    initializeSizes (Iso3.translation ⟨1, 2, 3⟩) (1 / 2) 1 1 2 (5 / 2) 1 0 0 = .ok g := by
  obtain ⟨nx, ny, nz, ⟨h1, h2⟩, ⟨h3, h4⟩, ⟨h5, h6⟩, h, _⟩ :=
    (C64_sizes (Iso3.translation ⟨1, 2, 3⟩) (1 / 2 : Rat) 1 1 2 (5 / 2) 1 0 0).2 (by norm_num)
  have e1 : nx = 4 := by
    have a : (nx : Rat) < 5 := by linarith
    have b : (4 : Rat) ≤ nx := by linarith
    have a' : nx < 5 := by exact_mod_cast a
    have b' : 4 ≤ nx := by exact_mod_cast b
    omega
  have e2 : ny = 3 := by
    have a : (ny : Rat) < 4 := by linarith
    have b : (2 : Rat) < ny := by linarith
    have a' : ny < 4 := by exact_mod_cast a
    have b' : 2 < ny := by exact_mod_cast b
    omega
  have e3 : nz = 1 := by
    have a : (nz : Rat) < 2 := by linarith
    have b : (1 : Rat) ≤ nz := by linarith
    have a' : nz < 2 := by exact_mod_cast a
    have b' : 1 ≤ nz := by exact_mod_cast b
    omega
  subst e1 e2 e3
  obtain ⟨g, hg, _⟩ := ((C64_cells (Iso3.translation ⟨1, 2, 3⟩) (1 / 2 : Rat) 1 1 4 3 1
    0 0).2.2 (by norm_num) (by norm_num)).1
  exact ⟨g, (h (by norm_num)).1.trans hg⟩

end Verif.Voxel
