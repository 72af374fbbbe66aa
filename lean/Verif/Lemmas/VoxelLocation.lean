import Mathlib.Tactic.LinearCombination
import Mathlib.Tactic.Linarith
import Mathlib.Tactic.Positivity
import Mathlib.Tactic.FieldSimp
import Verif.Lemmas.Voxel

/-! # Locations in voxel grids -/
namespace Verif.Voxel
open Verif

section
variable {K T : Type} [Field K]

theorem apply4_one (o : Iso3 K) (p : Vec3 K) : o.apply4 p 1 = o.apply p := by
  simp [Iso3.apply4, Iso3.apply]

theorem atFrame_eq (o : Iso3 K) (p : Vec3 K) : atFrame o p = o.apply p := rfl

theorem inverse_apply {o : Iso3 K} (h : IsIsometry o) (p : Vec3 K) :
    o.inverse.apply (atFrame o p) = p := by
  obtain ⟨xx, yy, zz, xy, xz, yz, -, -, -, -, -, -⟩ := h
  cases p with
  | mk x y z =>
    simp only [Iso3.inverse, Iso3.apply, atFrame, Vec3.dot, Vec3.mk.injEq]
    refine ⟨?_, ?_, ?_⟩
    · linear_combination x * xx + y * xy + z * xz
    · linear_combination x * xy + y * yy + z * yz
    · linear_combination x * xz + y * yz + z * zz

theorem atFrame_surj {o : Iso3 K} (h : IsIsometry o) (q : Vec3 K) :
    atFrame o (o.inverse.apply q) = q := by
  obtain ⟨-, -, -, -, -, -, r11, r22, r33, r12, r13, r23⟩ := h
  cases q with
  | mk x y z =>
    simp only [Iso3.inverse, Iso3.apply, atFrame, Vec3.dot, Vec3.mk.injEq]
    refine ⟨?_, ?_, ?_⟩
    · linear_combination (x - o.t.x) * r11 + (y - o.t.y) * r12 + (z - o.t.z) * r13
    · linear_combination (x - o.t.x) * r12 + (y - o.t.y) * r22 + (z - o.t.z) * r23
    · linear_combination (x - o.t.x) * r13 + (y - o.t.y) * r23 + (z - o.t.z) * r33

theorem translation_isometry (t : Vec3 K) : IsIsometry (Iso3.translation t) := by
  constructor <;> simp [Iso3.translation]

end

section
variable {K T : Type} [Field K] [LinearOrder K] [IsStrictOrderedRing K] [FloorRing K]

/-- the integer part toward zero -/
def trunc (x : K) : Int := if 0 ≤ x then ⌊x⌋ else ⌈x⌉

omit [IsStrictOrderedRing K] in
theorem truncate_eq (x : K) : truncate x = int64 (trunc x) := rfl

theorem trunc_lt (x : K) (n : Int) (hn : 0 < n) : trunc x < n ↔ x < n := by
  unfold trunc
  split
  · exact Int.floor_lt
  next h =>
    rw [not_le] at h
    have h1 : (⌈x⌉ : Int) ≤ 0 := Int.ceil_le.2 (by simpa using h.le)
    have h2 : (0 : K) < n := by exact_mod_cast hn
    constructor
    · intro; linarith
    · intro; omega

theorem trunc_nonneg (x : K) : 0 ≤ trunc x ↔ -1 < x := by
  unfold trunc
  split
  next h =>
    have : 0 ≤ ⌊x⌋ := Int.floor_nonneg.2 h
    constructor
    · intro; linarith
    · intro; exact this
  next h =>
    constructor
    · intro h1
      by_contra hc
      have : ⌈x⌉ ≤ -1 := Int.ceil_le.2 (by push_cast; linarith)
      omega
    · intro h1
      have : -1 < ⌈x⌉ := Int.lt_ceil.2 (by push_cast; exact h1)
      omega

theorem trunc_ge (x : K) (n : Int) (hn : 0 < n) : -n ≤ trunc x ↔ -(n + 1 : K) < x := by
  have h2 : (0 : K) < n := by exact_mod_cast hn
  unfold trunc
  split
  next h =>
    have : 0 ≤ ⌊x⌋ := Int.floor_nonneg.2 h
    constructor
    · intro; linarith
    · intro; omega
  next h =>
    constructor
    · intro h1
      by_contra hc
      have : ⌈x⌉ ≤ -(n + 1) := Int.ceil_le.2 (by push_cast; linarith)
      omega
    · intro h1
      have : -(n + 1) < ⌈x⌉ := Int.lt_ceil.2 (by push_cast; exact h1)
      omega

omit [FloorRing K] in
theorem mul_inv_lt {p c : K} (hc : 0 < c) (n : K) : p * (1 / c) < n ↔ p < n * c := by
  rw [mul_one_div, div_lt_iff₀ hc]

omit [FloorRing K] in
theorem lt_mul_inv {p c : K} (hc : 0 < c) (n : K) : n < p * (1 / c) ↔ n * c < p := by
  rw [mul_one_div, lt_div_iff₀ hc]

omit [FloorRing K] in
theorem le_mul_inv {p c : K} (hc : 0 < c) (n : K) : n ≤ p * (1 / c) ↔ n * c ≤ p := by
  rw [mul_one_div, le_div_iff₀ hc]

/-- the conversion along one axis is defined -/
theorem truncate_cell {p c : K} (hc : 0 < c) :
    truncate (p * (1 / c)) =
      if -(2 ^ 63 + 1) * c < p ∧ p < 2 ^ 63 * c then .ok (trunc (p * (1 / c))) else .ub := by
  rw [truncate_eq]
  unfold int64
  have h1 := trunc_lt (p * (1 / c)) (2 ^ 63) (by norm_num)
  have h2 := trunc_ge (p * (1 / c)) (2 ^ 63) (by norm_num)
  have e : (((2 : Int) ^ 63 : Int) : K) = 2 ^ 63 := by norm_num
  rw [e, mul_inv_lt hc] at h1
  rw [e, lt_mul_inv hc] at h2
  simp only [h1, h2]

/-- Facts about a created grid that locations depend on. -/
structure Geo (g : Grid (Iso3 K) K T) : Prop where
  cx : 0 < g.cellX
  cy : 0 < g.cellY
  cz : 0 < g.cellZ
  ix : g.invCellX = 1 / g.cellX
  iy : g.invCellY = 1 / g.cellY
  iz : g.invCellZ = 1 / g.cellZ
  sx : g.sizeX = g.numX * g.cellX
  sy : g.sizeY = g.numY * g.cellY
  sz : g.sizeZ = g.numZ * g.cellZ
  inv : g.inverseOrigin = g.origin.inverse
  init : g.initialized = true

omit [FloorRing K] in
theorem initializeCells_geo {origin : Iso3 K} {cx cy cz : K} {nx ny nz : Int} {d o : T}
    {g : Grid (Iso3 K) K T} (h : initializeCells origin cx cy cz nx ny nz d o = .ok g) : Geo g := by
  obtain ⟨⟨hx, hy, hz⟩, _, _, rfl⟩ := initializeCells_eq_ok h
  exact ⟨abs_pos.2 hx.ne', abs_pos.2 hy.ne', abs_pos.2 hz.ne', rfl, rfl, rfl, rfl, rfl, rfl, rfl, rfl⟩

omit [IsStrictOrderedRing K] [FloorRing K] in
theorem Geo.origin {g : Grid (Iso3 K) K T} (h : Geo g) (o : Iso3 K) :
    Geo { g with origin := o, inverseOrigin := o.inverse } :=
  ⟨h.cx, h.cy, h.cz, h.ix, h.iy, h.iz, h.sx, h.sy, h.sz, rfl, h.init⟩

theorem Created.geo {d o : T} {g : Grid (Iso3 K) K T} (h : Created d o g) : Geo g := by
  obtain ⟨_, _, _, _, _, _, _, g0, h0, o', rfl⟩ := h.cells_of
  exact (initializeCells_geo h0).origin o'

omit [IsStrictOrderedRing K] [FloorRing K] in
/-- Operations by index keep the geometry. -/
theorem step_geo {g g' : Grid (Iso3 K) K T} {op : Op K T} {r : Res T} (h : Geo g)
    (hs : step g op = .ok (r, g')) : Geo g' := by
  have hw : ∀ {v : T} {rf : Ref} {g1 : Grid (Iso3 K) K T}, writeRef g v rf = .ok g1 → Geo g1 := by
    intro v rf g1 h1
    cases rf with
    | oob =>
      simp only [writeRef, Out.ok.injEq] at h1
      subst h1
      exact ⟨h.cx, h.cy, h.cz, h.ix, h.iy, h.iz, h.sx, h.sy, h.sz, h.inv, h.init⟩
    | cell n =>
      simp only [writeRef] at h1
      split at h1
      · simp only [Out.ok.injEq] at h1
        subst h1
        exact ⟨h.cx, h.cy, h.cz, h.ix, h.iy, h.iz, h.sx, h.sy, h.sz, h.inv, h.init⟩
      · simp at h1
  have hsame : ∀ {f : Grid (Iso3 K) K T}, f = g' → Geo f → Geo g' := fun e h => e ▸ h
  cases op with
  | get i =>
    simp only [step, Out.bind_eq_ok, Out.ok.injEq, Prod.mk.injEq] at hs
    obtain ⟨_, _, _, rfl⟩ := hs
    exact h
  | set i v =>
    simp only [step, Out.bind_eq_ok, Out.ok.injEq, Prod.mk.injEq, setValue] at hs
    obtain ⟨a, ha, _, rfl⟩ := hs
    split at ha
    · simp only [Out.bind_eq_ok, Out.ok.injEq] at ha
      obtain ⟨_, _, g1, h1, rfl⟩ := ha
      exact hw h1
    · simp only [Out.ok.injEq] at ha
      subst ha
      exact h
  | mutate i v =>
    simp only [step, Out.bind_eq_ok, Out.ok.injEq, Prod.mk.injEq] at hs
    obtain ⟨_, _, _, _, g1, h1, _, rfl⟩ := hs
    exact hw h1
  | setRaw data =>
    simp only [step, setRawData, Out.ok.injEq, Prod.mk.injEq] at hs
    obtain ⟨_, rfl⟩ := hs
    split
    · exact ⟨h.cx, h.cy, h.cz, h.ix, h.iy, h.iz, h.sx, h.sy, h.sz, h.inv, h.init⟩
    · exact h
  | updateOrigin o =>
    simp only [step, Out.ok.injEq, Prod.mk.injEq] at hs
    obtain ⟨_, rfl⟩ := hs
    exact h.origin o
  | _ =>
    simp only [step, Out.ok.injEq, Prod.mk.injEq] at hs
    obtain ⟨_, rfl⟩ := hs
    exact ⟨h.cx, h.cy, h.cz, h.ix, h.iy, h.iz, h.sx, h.sy, h.sz, h.inv, h.init⟩

omit [IsStrictOrderedRing K] [FloorRing K] in
theorem run_geo (ops : List (Op K T)) : ∀ {g g' : Grid (Iso3 K) K T} {rs : List (Res T)}, Geo g →
    run g ops = .ok (rs, g') → Geo g' := by
  induction ops with
  | nil =>
    intro g g' rs h hs
    simp only [run, Out.ok.injEq, Prod.mk.injEq] at hs
    exact hs.2 ▸ h
  | cons op ops ih =>
    intro g g' rs h hs
    simp only [run, Out.bind_eq_ok, Out.ok.injEq, Prod.mk.injEq] at hs
    obtain ⟨a, ha, b, hb, _, rfl⟩ := hs
    exact ih (step_geo h ha) hb

instance (g : Grid (Iso3 K) K T) (p : Vec3 K) : Decidable (Reachable g p) := by
  unfold Reachable; infer_instance
instance (g : Grid (Iso3 K) K T) (p : Vec3 K) : Decidable (InEnlargedBox g p) := by
  unfold InEnlargedBox; infer_instance
instance (g : Grid (Iso3 K) K T) (p : Vec3 K) : Decidable (InBox g p) := by
  unfold InBox; infer_instance

theorem pointInFrame_eq {g : Grid (Iso3 K) K T} (h : Geo g) (p : Vec3 K) :
    pointInFrameToGridIndex g p = if Reachable g p then
      .ok ⟨trunc (p.x * (1 / g.cellX)), trunc (p.y * (1 / g.cellY)), trunc (p.z * (1 / g.cellZ))⟩
      else .ub := by
  unfold pointInFrameToGridIndex
  rw [h.ix, h.iy, h.iz, truncate_cell h.cx, truncate_cell h.cy, truncate_cell h.cz]
  by_cases h1 : -(2 ^ 63 + 1) * g.cellX < p.x ∧ p.x < 2 ^ 63 * g.cellX
  · by_cases h2 : -(2 ^ 63 + 1) * g.cellY < p.y ∧ p.y < 2 ^ 63 * g.cellY
    · by_cases h3 : -(2 ^ 63 + 1) * g.cellZ < p.z ∧ p.z < 2 ^ 63 * g.cellZ
      · rw [if_pos h1, if_pos (show Reachable g p from ⟨h1, h2, h3⟩)]
        simp only [if_pos h2, if_pos h3, Out.bind_ok]
      · rw [if_pos h1, if_neg (fun h : Reachable g p => h3 h.2.2)]
        simp only [if_pos h2, if_neg h3, Out.bind_ok, Out.bind_ub]
    · rw [if_pos h1, if_neg (fun h : Reachable g p => h2 h.2.1)]
      simp only [if_neg h2, Out.bind_ok, Out.bind_ub]
  · rw [if_neg h1, if_neg (fun h : Reachable g p => h1 h.1)]; rfl

omit [IsStrictOrderedRing K] in
theorem locationToGridIndex3d_eq {g : Grid (Iso3 K) K T} (h : Geo g) (ho : IsIsometry g.origin)
    (p : Vec3 K) : locationToGridIndex3d g (atFrame g.origin p) = pointInFrameToGridIndex g p := by
  unfold locationToGridIndex3d
  rw [h.inv, inverse_apply ho]

omit [IsStrictOrderedRing K] in
theorem locationToGridIndex_eq (g : Grid (Iso3 K) K T) (q : Vec3 K) :
    locationToGridIndex g q = locationToGridIndex3d g q := by
  unfold locationToGridIndex locationToGridIndex4d locationToGridIndex3d
  rw [apply4_one]

/-- along one axis: the truncated quotient is a valid index -/
theorem axis_valid {p c : K} (hc : 0 < c) {n : Int} (hn : 0 < n) :
    (0 ≤ trunc (p * (1 / c)) ∧ trunc (p * (1 / c)) < n) ↔ (-c < p ∧ p < n * c) := by
  rw [trunc_nonneg, trunc_lt _ _ hn, mul_inv_lt hc, lt_mul_inv hc, neg_one_mul]

/-- along one axis: the truncated quotient of a point that is not below the origin -/
theorem axis_floor {p c : K} (hc : 0 < c) (hp : 0 ≤ p) :
    (trunc (p * (1 / c)) : K) * c ≤ p ∧ p < ((trunc (p * (1 / c)) : K) + 1) * c := by
  have h0 : 0 ≤ p * (1 / c) := by positivity
  unfold trunc
  rw [if_pos h0, ← mul_inv_lt hc, ← le_mul_inv hc]
  exact ⟨Int.floor_le _, Int.lt_floor_add_one _⟩

/-- along one axis: points of a cell give its index -/
theorem axis_cell {p c : K} (hc : 0 < c) {i : Int} (hi : 0 ≤ i) (h1 : i * c ≤ p)
    (h2 : p < (i + 1) * c) : trunc (p * (1 / c)) = i := by
  have hi' : (0 : K) ≤ i := by exact_mod_cast hi
  have h0 : 0 ≤ p * (1 / c) := by
    have : 0 ≤ p := le_trans (mul_nonneg hi' hc.le) h1
    positivity
  unfold trunc
  rw [if_pos h0, Int.floor_eq_iff, le_mul_inv hc, mul_inv_lt hc]
  exact ⟨h1, h2⟩

theorem reachable_of_index {g : Grid (Iso3 K) K T} (h : Geo g) (w : WF g) {p : Vec3 K}
    (hp : InEnlargedBox g p) : Reachable g p := by
  have e : ∀ {a c : K} {n : Int}, 0 < c → 0 < n → n < 2 ^ 63 → (-c < a ∧ a < n * c) →
      -(2 ^ 63 + 1) * c < a ∧ a < 2 ^ 63 * c := by
    intro a c n hc h0 hn hh
    have hn' : (n : K) < 2 ^ 63 := by exact_mod_cast hn
    constructor
    · nlinarith [hh.1]
    · nlinarith [hh.2]
  have hpos := w.posX
  have hposy := w.posY
  have hposz := w.posZ
  have f := w.fits
  have hyz : 0 < g.numY * g.numZ := by positivity
  have hxy : 0 < g.numX * g.numY := by positivity
  have hxz : 0 < g.numX * g.numZ := by positivity
  have f' : g.numX * (g.numY * g.numZ) < 2 ^ 63 := by linarith
  exact ⟨e h.cx hpos (by nlinarith) hp.1, e h.cy hposy (by nlinarith) hp.2.1,
    e h.cz hposz (by nlinarith) hp.2.2⟩

end

end Verif.Voxel
