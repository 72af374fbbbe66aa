import Verif.Model.VoxelSpecial
import Verif.Spec.VoxelSpecial

/-!
# C186: voxel grids with special doubles
-/
namespace Verif.VoxelSpecial
open Verif Verif.Voxel

variable {T : Type} (A : Ieee)

theorem badSize_iff (s : Dbl) : badSize s = false ↔ s.Positive := by
  unfold badSize Dbl.Positive
  cases s with
  | nan => simp [Ieee.isNan]
  | inf b => simp [Ieee.isInf]
  | num x =>
    rw [show Ieee.isNan (.num x) = false from rfl, show Ieee.isInf (.num x) = false from rfl, Bool.or_false,
      Bool.or_false, decide_eq_false_iff_not]
    show ¬ x ≤ 0 ↔ _
    rw [not_le]
    simp

theorem badSize_of_not {s : Dbl} (h : ¬ s.Positive) : badSize s = true := by
  cases hb : badSize s with
  | true => rfl
  | false => exact absurd ((badSize_iff s).1 hb) h

theorem toInt64_ok {a : Dbl} {n : Int} (h : toInt64 a = .ok n) : a.Finite := by
  cases a with
  | nan => cases h
  | inf s => cases h
  | num x => exact ⟨x, rfl⟩

theorem int64_cases (v : Int) : int64 v = .ok v ∨ int64 v = .ub := by
  unfold int64
  split
  · exact .inl rfl
  · exact .inr rfl

theorem toInt64_cases (a : Dbl) : (∃ n, toInt64 a = .ok n) ∨ toInt64 a = .ub := by
  cases a with
  | nan => exact .inr rfl
  | inf s => exact .inr rfl
  | num x =>
    unfold toInt64 truncate
    rcases int64_cases (if 0 ≤ x then ⌊x⌋ else ⌈x⌉) with h | h
    · exact .inl ⟨_, h⟩
    · exact .inr h

theorem toInt64_ub {a : Dbl} (h : ¬ a.Finite) : toInt64 a = .ub := by
  rcases toInt64_cases a with ⟨n, h'⟩ | h'
  · exact absurd (toInt64_ok h') h
  · exact h'

/-! ## Creation -/

theorem check_ok {cx cy cz : Dbl} {nx ny nz : Int}
    (h : cx.Positive ∧ cy.Positive ∧ cz.Positive ∧ 0 < nx ∧ 0 < ny ∧ 0 < nz) :
    safetyCheckCells cx cy cz nx ny nz = .ok () := by
  obtain ⟨h1, h2, h3, h4, h5, h6⟩ := h
  unfold safetyCheckCells
  rw [(badSize_iff _).2 h1, (badSize_iff _).2 h2, (badSize_iff _).2 h3]
  simp [not_le.2 h4, not_le.2 h5, not_le.2 h6]

theorem check_bad {cx cy cz : Dbl} {nx ny nz : Int}
    (h : ¬ (cx.Positive ∧ cy.Positive ∧ cz.Positive ∧ 0 < nx ∧ 0 < ny ∧ 0 < nz)) :
    safetyCheckCells cx cy cz nx ny nz = .throws .invalidArgument := by
  unfold safetyCheckCells
  by_cases h1 : badSize cx = true
  · rw [if_pos h1]
  rw [if_neg h1]
  by_cases h2 : badSize cy = true
  · rw [if_pos h2]
  rw [if_neg h2]
  by_cases h3 : badSize cz = true
  · rw [if_pos h3]
  rw [if_neg h3]
  by_cases h4 : nx ≤ 0
  · rw [if_pos h4]
  rw [if_neg h4]
  by_cases h5 : ny ≤ 0
  · rw [if_pos h5]
  rw [if_neg h5]
  by_cases h6 : nz ≤ 0
  · rw [if_pos h6]
  exact absurd ⟨(badSize_iff _).1 (by simpa using h1), (badSize_iff _).1 (by simpa using h2),
    (badSize_iff _).1 (by simpa using h3), by omega, by omega, by omega⟩ h

theorem checkSizes_ok {cx cy cz sx sy sz : Dbl}
    (h : cx.Positive ∧ cy.Positive ∧ cz.Positive ∧ sx.Positive ∧ sy.Positive ∧ sz.Positive) :
    safetyCheckSizes cx cy cz sx sy sz = .ok () := by
  obtain ⟨h1, h2, h3, h4, h5, h6⟩ := h
  unfold safetyCheckSizes
  rw [(badSize_iff _).2 h1, (badSize_iff _).2 h2, (badSize_iff _).2 h3, (badSize_iff _).2 h4, (badSize_iff _).2 h5,
    (badSize_iff _).2 h6]
  simp

theorem checkSizes_bad {cx cy cz sx sy sz : Dbl}
    (h : ¬ (cx.Positive ∧ cy.Positive ∧ cz.Positive ∧ sx.Positive ∧ sy.Positive ∧ sz.Positive)) :
    safetyCheckSizes cx cy cz sx sy sz = .throws .invalidArgument := by
  unfold safetyCheckSizes
  by_cases h1 : badSize cx = true
  · rw [if_pos h1]
  rw [if_neg h1]
  by_cases h2 : badSize cy = true
  · rw [if_pos h2]
  rw [if_neg h2]
  by_cases h3 : badSize cz = true
  · rw [if_pos h3]
  rw [if_neg h3]
  by_cases h4 : badSize sx = true
  · rw [if_pos h4]
  rw [if_neg h4]
  by_cases h5 : badSize sy = true
  · rw [if_pos h5]
  rw [if_neg h5]
  by_cases h6 : badSize sz = true
  · rw [if_pos h6]
  exact absurd ⟨(badSize_iff _).1 (by simpa using h1), (badSize_iff _).1 (by simpa using h2),
    (badSize_iff _).1 (by simpa using h3), (badSize_iff _).1 (by simpa using h4),
    (badSize_iff _).1 (by simpa using h5), (badSize_iff _).1 (by simpa using h6)⟩ h

theorem abs_positive {a : Dbl} (h : a.Positive) : Ieee.abs a = a := by
  obtain ⟨x, rfl, hx⟩ := h
  show Dbl.num |x| = .num x
  rw [abs_of_pos hx]

theorem int64_ok {v : Int} (h1 : 0 ≤ v) (h2 : v < 2 ^ 63) : int64 v = .ok v := by
  unfold int64
  rw [if_pos (by constructor <;> omega)]

theorem int64_ub {v : Int} (h : 2 ^ 63 ≤ v) : int64 v = .ub := by
  unfold int64
  rw [if_neg (by omega)]

/-- **C186.** Making a grid from numbers of cells rejects every cell size that is not a positive number, whether it is
infinite, not a number, zero or negative, and every number of cells that is not positive. Everything else gives a grid
with these cells filled with the default value, as long as the number of all cells fits into `int64_t`. Without an origin, the grid is not turned and is centred: it
starts at half its negative size. -/
theorem C186_cells (origin : Iso3 Dbl) (cx cy cz : Dbl) (nx ny nz : Int) (d o : T) :
    (¬ (cx.Positive ∧ cy.Positive ∧ cz.Positive ∧ 0 < nx ∧ 0 < ny ∧ 0 < nz) →
      initializeCells A origin cx cy cz nx ny nz d o = .throws .invalidArgument ∧
      initializeCellsCentred A cx cy cz nx ny nz d o = .throws .invalidArgument) ∧
    (cx.Positive ∧ cy.Positive ∧ cz.Positive ∧ 0 < nx ∧ 0 < ny ∧ 0 < nz →
      (2 ^ 63 ≤ nx * ny * nz → initializeCells A origin cx cy cz nx ny nz d o = .ub ∧
        initializeCellsCentred A cx cy cz nx ny nz d o = .ub) ∧
      (nx * ny * nz < 2 ^ 63 →
        (∃ g, initializeCells A origin cx cy cz nx ny nz d o = .ok g ∧ g.origin = origin ∧
          (g.numX = nx ∧ g.numY = ny ∧ g.numZ = nz) ∧ (g.cellX = cx ∧ g.cellY = cy ∧ g.cellZ = cz) ∧
          (g.default = d ∧ g.oob = o) ∧ g.data = List.replicate (nx * ny * nz).toNat d) ∧
        (∃ g, initializeCellsCentred A cx cy cz nx ny nz d o = .ok g ∧
          g.origin = ⟨⟨.num 1, .num 0, .num 0⟩, ⟨.num 0, .num 1, .num 0⟩, ⟨.num 0, .num 0, .num 1⟩,
            ⟨A.mul (Ieee.neg (A.mul (A.round nx) cx)) (.num (1 / 2)), A.mul (Ieee.neg (A.mul (A.round ny) cy)) (.num (1 / 2)),
              A.mul (Ieee.neg (A.mul (A.round nz) cz)) (.num (1 / 2))⟩⟩ ∧ g.inverseOrigin = inverse A g.origin ∧
          (g.numX = nx ∧ g.numY = ny ∧ g.numZ = nz) ∧ (g.cellX = cx ∧ g.cellY = cy ∧ g.cellZ = cz) ∧
          (g.default = d ∧ g.oob = o) ∧ g.data = List.replicate (nx * ny * nz).toNat d))) := by
  constructor
  · intro h
    have hb := check_bad h
    unfold initializeCellsCentred initializeCells
    rw [hb]
    exact ⟨rfl, rfl⟩
  · intro h
    have hk := check_ok h
    obtain ⟨h1, h2, h3, h4, h5, h6⟩ := h
    have p1 : 0 < ny * nz := Int.mul_pos h5 h6
    have p2 : ny * nz ≤ nx * ny * nz := by
      rw [mul_assoc]
      nlinarith
    unfold initializeCellsCentred initializeCells
    rw [hk, Out.bind_ok]
    constructor
    · intro hbig
      rcases int64_cases (ny * nz) with hs | hs
      · rw [hs, Out.bind_ok, int64_ub hbig]
        exact ⟨rfl, rfl⟩
      · rw [hs]
        exact ⟨rfl, rfl⟩
    · intro hsmall
      rw [int64_ok (by omega) (by omega), Out.bind_ok, int64_ok (by omega) hsmall, Out.bind_ok, Out.bind_ok]
      refine ⟨⟨_, rfl, rfl, ⟨rfl, rfl, rfl⟩, ⟨abs_positive h1, abs_positive h2, abs_positive h3⟩, ⟨rfl, rfl⟩, rfl⟩,
        ⟨_, rfl, ?_, rfl, ⟨rfl, rfl, rfl⟩, ⟨abs_positive h1, abs_positive h2, abs_positive h3⟩, ⟨rfl, rfl⟩, rfl⟩⟩
      dsimp only
      rw [abs_positive h1, abs_positive h2, abs_positive h3]
      rfl

theorem truncate_ceil (n : Int) (h : 0 ≤ n) : truncate ((n : ℝ)) = int64 n := by
  unfold truncate
  rw [if_pos (by exact_mod_cast h), Int.floor_intCast]

theorem cellsFor_eq {s c : ℝ} (hs : 0 < s) (hc : 0 < c) :
    cellsFor A (.num s) (.num c) = int64 ⌈A.R.rd (s / c)⌉ := by
  have hq : 0 ≤ A.R.rd (s / c) := A.R.nonneg (le_of_lt (div_pos hs hc))
  unfold cellsFor
  simp only [Ieee.abs, Ieee.div]
  rw [abs_of_pos hs, abs_of_pos hc, if_neg (ne_of_gt hc)]
  rcases A.round_cases (s / c) with ⟨h, _⟩ | ⟨⟨b, h⟩, hb⟩
  · rw [h]
    exact truncate_ceil _ (Int.ceil_nonneg hq)
  · rw [h]
    rw [abs_of_nonneg hq] at hb
    have h1 : (2 : ℝ) ^ 64 < ⌈A.R.rd (s / c)⌉ := lt_of_le_of_lt A.large (lt_of_lt_of_le hb (Int.le_ceil _))
    have h2 : (2 : Int) ^ 64 < ⌈A.R.rd (s / c)⌉ := by exact_mod_cast h1
    rw [int64_ub (by omega)]
    rfl

/-- **C186.** Making a grid from sizes rejects every size that is not a positive number. Otherwise the number of cells
along an axis is the rounded quotient, rounded up; if one is 2^63 or more, also because the quotient overflows, the
behaviour is undefined. -/
theorem C186_sizes (origin : Iso3 Dbl) (cx cy cz sx sy sz : Dbl) (d o : T) :
    (¬ (cx.Positive ∧ cy.Positive ∧ cz.Positive ∧ sx.Positive ∧ sy.Positive ∧ sz.Positive) →
      initializeSizes A origin cx cy cz sx sy sz d o = .throws .invalidArgument ∧
      initializeSizesCentred A cx cy cz sx sy sz d o = .throws .invalidArgument) ∧
    (∀ cx' cy' cz' sx' sy' sz' : ℝ, cx = .num cx' → cy = .num cy' → cz = .num cz' → sx = .num sx' → sy = .num sy' →
      sz = .num sz' → 0 < cx' → 0 < cy' → 0 < cz' → 0 < sx' → 0 < sy' → 0 < sz' →
      ∀ nx ny nz : Int, nx = ⌈A.R.rd (sx' / cx')⌉ → ny = ⌈A.R.rd (sy' / cy')⌉ → nz = ⌈A.R.rd (sz' / cz')⌉ →
      ((2 ^ 63 ≤ nx ∨ 2 ^ 63 ≤ ny ∨ 2 ^ 63 ≤ nz) → initializeSizes A origin cx cy cz sx sy sz d o = .ub ∧
        initializeSizesCentred A cx cy cz sx sy sz d o = .ub) ∧
      (nx < 2 ^ 63 ∧ ny < 2 ^ 63 ∧ nz < 2 ^ 63 →
        initializeSizes A origin cx cy cz sx sy sz d o = initializeCells A origin cx cy cz nx ny nz d o ∧
        initializeSizesCentred A cx cy cz sx sy sz d o = initializeCellsCentred A cx cy cz nx ny nz d o)) := by
  constructor
  · intro h
    unfold initializeSizes initializeSizesCentred
    rw [checkSizes_bad h]
    exact ⟨rfl, rfl⟩
  · rintro cx' cy' cz' sx' sy' sz' rfl rfl rfl rfl rfl rfl h1 h2 h3 h4 h5 h6 nx ny nz hnx hny hnz
    have hn : ∀ {s c : ℝ}, 0 < s → 0 < c → 0 ≤ ⌈A.R.rd (s / c)⌉ := fun hs hc =>
      Int.ceil_nonneg (A.R.nonneg (le_of_lt (div_pos hs hc)))
    have n1 := hn h4 h1
    have n2 := hn h5 h2
    have n3 := hn h6 h3
    rw [← hnx] at n1
    rw [← hny] at n2
    rw [← hnz] at n3
    unfold initializeSizes initializeSizesCentred
    rw [checkSizes_ok ⟨⟨_, rfl, h1⟩, ⟨_, rfl, h2⟩, ⟨_, rfl, h3⟩, ⟨_, rfl, h4⟩, ⟨_, rfl, h5⟩, ⟨_, rfl, h6⟩⟩,
      cellsFor_eq A h4 h1, cellsFor_eq A h5 h2, cellsFor_eq A h6 h3, ← hnx, ← hny, ← hnz, Out.bind_ok, Out.bind_ok]
    constructor
    · intro h
      rcases lt_or_ge nx (2 ^ 63) with hx | hx
      · rw [int64_ok n1 hx, Out.bind_ok, Out.bind_ok]
        rcases lt_or_ge ny (2 ^ 63) with hy | hy
        · rw [int64_ok n2 hy, Out.bind_ok, Out.bind_ok, int64_ub (by omega)]
          exact ⟨rfl, rfl⟩
        · rw [int64_ub hy]
          exact ⟨rfl, rfl⟩
      · rw [int64_ub hx]
        exact ⟨rfl, rfl⟩
    · rintro ⟨hx, hy, hz⟩
      rw [int64_ok n1 hx, int64_ok n2 hy, int64_ok n3 hz]
      exact ⟨rfl, rfl⟩

/-! ## Locations -/

theorem dot3_finite {a b : Vec3 Dbl} (h : (dot3 A a b).Finite) : Finite3 a ∧ Finite3 b := by
  obtain ⟨h1, h2⟩ := A.add_finite h
  obtain ⟨h3, h4⟩ := A.add_finite h1
  obtain ⟨a1, b1⟩ := A.mul_finite h3
  obtain ⟨a2, b2⟩ := A.mul_finite h4
  obtain ⟨a3, b3⟩ := A.mul_finite h2
  exact ⟨⟨a1, a2, a3⟩, ⟨b1, b2, b3⟩⟩

theorem point_ub (g : Grid (Iso3 Dbl) Dbl T) (p : Vec3 Dbl)
    (h : ¬ ((A.mul p.x g.invCellX).Finite ∧ (A.mul p.y g.invCellY).Finite ∧ (A.mul p.z g.invCellZ).Finite)) :
    pointInFrameToGridIndex A g p = .ub := by
  unfold pointInFrameToGridIndex
  rcases toInt64_cases (A.mul p.x g.invCellX) with ⟨n1, h1⟩ | h1
  · rw [h1, Out.bind_ok]
    rcases toInt64_cases (A.mul p.y g.invCellY) with ⟨n2, h2⟩ | h2
    · rw [h2, Out.bind_ok]
      rcases toInt64_cases (A.mul p.z g.invCellZ) with ⟨n3, h3⟩ | h3
      · exact absurd ⟨toInt64_ok h1, toInt64_ok h2, toInt64_ok h3⟩ h
      · rw [h3]; rfl
    · rw [h2]; rfl
  · rw [h1]; rfl

theorem undefined_of {g : Grid (Iso3 Dbl) Dbl T} {l : Vec3 Dbl} {w : Dbl}
    (h1 : locationToGridIndex3d A g l = .ub) (h2 : locationToGridIndex4d A g l w = .ub) : Undefined A g l w := by
  unfold Undefined locationInBounds3d locationInBounds4d getImmutable3d getImmutable4d setValue3d setValue4d
  rw [h1, h2]
  exact ⟨rfl, rfl, rfl, rfl, rfl, rfl, fun _ => ⟨rfl, rfl⟩⟩

/-- **C186.** Locations are not checked: if a coordinate is infinite or not a number, every query by location is
undefined, in every grid. -/
theorem C186_not_finite (g : Grid (Iso3 Dbl) Dbl T) (l : Vec3 Dbl) (h : ¬ Finite3 l) (w : Dbl) : Undefined A g l w := by
  apply undefined_of
  · apply point_ub
    rintro ⟨h1, _, _⟩
    exact h (dot3_finite A (A.add_finite (A.mul_finite h1).1).1).2
  · apply point_ub
    rintro ⟨h1, _, _⟩
    exact h (dot3_finite A (A.add_finite (A.mul_finite h1).1).1).2

/-- **C186.** The same holds if the fourth coordinate is infinite or not a number. -/
theorem C186_fourth (g : Grid (Iso3 Dbl) Dbl T) (l : Vec3 Dbl) (w : Dbl) (h : ¬ w.Finite) :
    locationToGridIndex4d A g l w = .ub ∧ locationInBounds4d A g l w = .ub ∧ getImmutable4d A g l w = .ub ∧
      ∀ v, setValue4d A g l w v = .ub := by
  have h2 : locationToGridIndex4d A g l w = .ub := by
    apply point_ub
    rintro ⟨h1, _, _⟩
    exact h (A.mul_finite (A.add_finite (A.mul_finite h1).1).2).2
  unfold locationInBounds4d getImmutable4d setValue4d
  rw [h2]
  exact ⟨rfl, rfl, rfl, fun _ => rfl⟩

/-- **C186.** Where a location has an index, the queries by location are those by index. -/
theorem C186_lookups (g : Grid (Iso3 Dbl) Dbl T) (l : Vec3 Dbl) (w : Dbl) (i : Index) (v : T) :
    (locationToGridIndex3d A g l = .ok i →
      locationInBounds3d A g l = .ok (decide (i.x ≥ 0 ∧ i.y ≥ 0 ∧ i.z ≥ 0 ∧ i.x < g.numX ∧ i.y < g.numY ∧ i.z < g.numZ)) ∧
      getImmutable3d A g l = getImmutable g i ∧ setValue3d A g l v = setValue g i v) ∧
    (locationToGridIndex4d A g l w = .ok i →
      locationInBounds4d A g l w = .ok (decide (i.x ≥ 0 ∧ i.y ≥ 0 ∧ i.z ≥ 0 ∧ i.x < g.numX ∧ i.y < g.numY ∧
        i.z < g.numZ)) ∧
      getImmutable4d A g l w = getImmutable g i ∧ setValue4d A g l w v = setValue g i v) ∧
    (¬ (i.x ≥ 0 ∧ i.y ≥ 0 ∧ i.z ≥ 0 ∧ i.x < g.numX ∧ i.y < g.numY ∧ i.z < g.numZ) →
      getImmutable g i = .ok (g.oob, false) ∧ setValue g i v = .ok (false, g)) := by
  have out : indexInBounds g i = false → getImmutable g i = .ok (g.oob, false) ∧ setValue g i v = .ok (false, g) := by
    intro h
    unfold getImmutable getRef setValue
    rw [h]
    exact ⟨rfl, rfl⟩
  have get : (if indexInBounds g i then getImmutable g i else .ok (g.oob, false)) = getImmutable g i := by
    cases h : indexInBounds g i with
    | true => rfl
    | false => exact (out h).1.symm
  have set : (if indexInBounds g i then setValue g i v else .ok (false, g)) = setValue g i v := by
    cases h : indexInBounds g i with
    | true => rfl
    | false => exact (out h).2.symm
  refine ⟨fun h => ?_, fun h => ?_, fun h => out (decide_eq_false h)⟩
  · unfold locationInBounds3d getImmutable3d setValue3d
    rw [h, Out.bind_ok, Out.bind_ok, Out.bind_ok]
    exact ⟨rfl, get, set⟩
  · unfold locationInBounds4d getImmutable4d setValue4d
    rw [h, Out.bind_ok, Out.bind_ok, Out.bind_ok]
    exact ⟨rfl, get, set⟩

/-- **C186.** A grid with cells so small that the reciprocal of their size overflows is made without complaint, but
every query by location is undefined. -/
theorem C186_tiny_cells (origin : Iso3 Dbl) (cx cy cz : ℝ) (nx ny nz : Int) (d o : T)
    (hc : 0 < cx ∧ 0 < cy ∧ 0 < cz) (hn : 0 < nx ∧ 0 < ny ∧ 0 < nz) (hf : nx * ny * nz < 2 ^ 63)
    (h : A.top < A.R.rd (1 / cx) ∨ A.top < A.R.rd (1 / cy) ∨ A.top < A.R.rd (1 / cz)) :
    ∃ g, initializeCells A origin (.num cx) (.num cy) (.num cz) nx ny nz d o = .ok g ∧
      ∀ l w, Undefined A g l w := by
  obtain ⟨c1, c2, c3⟩ := hc
  obtain ⟨n1, n2, n3⟩ := hn
  have p1 : 0 < ny * nz := Int.mul_pos n2 n3
  have p2 : ny * nz ≤ nx * ny * nz := by
    rw [mul_assoc]
    nlinarith
  have hinv : ∀ c : ℝ, 0 < c → A.top < A.R.rd (1 / c) → ¬ (A.div (.num 1) (Ieee.abs (.num c))).Finite := by
    rintro c hc0 hc1 ⟨z, hz⟩
    simp only [Ieee.abs, Ieee.div] at hz
    rw [abs_of_pos hc0, if_neg (ne_of_gt hc0), A.round_over (lt_of_lt_of_le hc1 (le_abs_self _))] at hz
    cases hz
  unfold initializeCells
  rw [check_ok ⟨⟨_, rfl, c1⟩, ⟨_, rfl, c2⟩, ⟨_, rfl, c3⟩, n1, n2, n3⟩, Out.bind_ok, int64_ok (by omega) (by omega),
    Out.bind_ok, int64_ok (by omega) hf, Out.bind_ok]
  refine ⟨_, rfl, ?_⟩
  intro l w
  apply undefined_of
  · apply point_ub
    rintro ⟨h1, h2, h3⟩
    rcases h with h | h | h
    · exact hinv cx c1 h (A.mul_finite h1).2
    · exact hinv cy c2 h (A.mul_finite h2).2
    · exact hinv cz c3 h (A.mul_finite h3).2
  · apply point_ub
    rintro ⟨h1, h2, h3⟩
    rcases h with h | h | h
    · exact hinv cx c1 h (A.mul_finite h1).2
    · exact hinv cy c2 h (A.mul_finite h2).2
    · exact hinv cz c3 h (A.mul_finite h3).2

/-- **C186.** A grid without an origin whose size overflows is made without complaint as well, and every query by
location is undefined. -/
theorem C186_huge_size (cx cy cz : ℝ) (nx ny nz : Int) (d o : T)
    (hc : 0 < cx ∧ 0 < cy ∧ 0 < cz) (hn : 0 < nx ∧ 0 < ny ∧ 0 < nz) (hf : nx * ny * nz < 2 ^ 63)
    (h : A.top < A.R.rd (A.R.rd nx * cx) ∨ A.top < A.R.rd (A.R.rd ny * cy) ∨ A.top < A.R.rd (A.R.rd nz * cz)) :
    ∃ g, initializeCellsCentred A (.num cx) (.num cy) (.num cz) nx ny nz d o = .ok g ∧
      ∀ l w, Undefined A g l w := by
  obtain ⟨c1, c2, c3⟩ := hc
  obtain ⟨n1, n2, n3⟩ := hn
  have p1 : 0 < ny * nz := Int.mul_pos n2 n3
  have p2 : ny * nz ≤ nx * ny * nz := by
    rw [mul_assoc]
    nlinarith
  have hsize : ∀ (c : ℝ) (n : Int), 0 < c → A.top < A.R.rd (A.R.rd n * c) →
      ¬ (A.mul (A.round n) (Ieee.abs (.num c))).Finite := by
    rintro c n hc0 h1 h2
    obtain ⟨⟨y, hy⟩, _⟩ := A.mul_finite h2
    obtain ⟨z, h2⟩ := h2
    rw [hy, A.round_num hy] at h2
    simp only [Ieee.abs, Ieee.mul] at h2
    rw [abs_of_pos hc0, A.round_over (lt_of_lt_of_le h1 (le_abs_self _))] at h2
    cases h2
  unfold initializeCellsCentred initializeCells
  rw [check_ok ⟨⟨_, rfl, c1⟩, ⟨_, rfl, c2⟩, ⟨_, rfl, c3⟩, n1, n2, n3⟩, Out.bind_ok, int64_ok (by omega) (by omega),
    Out.bind_ok, int64_ok (by omega) hf, Out.bind_ok, Out.bind_ok]
  refine ⟨_, rfl, ?_⟩
  intro l w
  have done : (Ieee.neg (dot3 A ⟨.num 1, .num 0, .num 0⟩
      ⟨A.mul (Ieee.neg (A.mul (A.round nx) (Ieee.abs (.num cx)))) (.num (1 / 2)),
        A.mul (Ieee.neg (A.mul (A.round ny) (Ieee.abs (.num cy)))) (.num (1 / 2)),
        A.mul (Ieee.neg (A.mul (A.round nz) (Ieee.abs (.num cz)))) (.num (1 / 2))⟩)).Finite → False := by
    intro hfin
    obtain ⟨h1, h2, h3⟩ := (dot3_finite A (Ieee.neg_finite hfin)).2
    rcases h with h | h | h
    · exact hsize cx nx c1 h (Ieee.neg_finite (A.mul_finite h1).1)
    · exact hsize cy ny c2 h (Ieee.neg_finite (A.mul_finite h2).1)
    · exact hsize cz nz c3 h (Ieee.neg_finite (A.mul_finite h3).1)
  apply undefined_of
  · apply point_ub
    rintro ⟨h1, _, _⟩
    exact done (A.add_finite (A.mul_finite h1).1).2
  · apply point_ub
    rintro ⟨h1, _, _⟩
    exact done (A.mul_finite (A.add_finite (A.mul_finite h1).1).2).1

/-! ## Numbers that are not too large -/

theorem rd_bound (x : ℝ) : |A.R.rd x| ≤ 101 / 100 * |x| := by
  have h1 := A.R.err x
  have h2 : |A.R.rd x| ≤ |A.R.rd x - x| + |x| := by
    have := abs_add_le (A.R.rd x - x) x
    rwa [sub_add_cancel] at this
  have h3 : unit ≤ 1 / 100 := by unfold unit; norm_num
  have h4 : unit * |x| ≤ 1 / 100 * |x| := mul_le_mul_of_nonneg_right h3 (abs_nonneg x)
  linarith

theorem mul_num {x y B : ℝ} (hx : |x| ≤ 1) (hy : |y| ≤ B) (hB : 2 * B ≤ A.top) :
    A.mul (.num x) (.num y) = .num (A.R.rd (x * y)) ∧ |A.R.rd (x * y)| ≤ 101 / 100 * B := by
  have h1 := rd_bound A (x * y)
  have h2 : |x * y| ≤ B := by
    rw [abs_mul]
    have := mul_le_mul hx hy (abs_nonneg y) (by norm_num)
    linarith
  have h0 : 0 ≤ B := le_trans (abs_nonneg y) hy
  have h3 : |A.R.rd (x * y)| ≤ 101 / 100 * B := by linarith
  exact ⟨A.round_eq (by linarith), h3⟩

theorem add_num {x y B C : ℝ} (hx : |x| ≤ B) (hy : |y| ≤ C) (hB : 101 / 100 * (B + C) ≤ A.top) :
    A.add (.num x) (.num y) = .num (A.R.rd (x + y)) ∧ |A.R.rd (x + y)| ≤ 101 / 100 * (B + C) := by
  have h1 := rd_bound A (x + y)
  have h2 : |x + y| ≤ B + C := le_trans (abs_add_le x y) (add_le_add hx hy)
  have h3 : |A.R.rd (x + y)| ≤ 101 / 100 * (B + C) := by linarith
  exact ⟨A.round_eq (by linarith), h3⟩

theorem dot3_num {a b : Vec3 ℝ} {B : ℝ} (ha : Within 1 a) (hb : Within B b) (hB : 16 * B ≤ A.top) :
    dot3 A (doubles3 a) (doubles3 b) = .num (VoxelRounded.dot3 A.R a b) ∧ |VoxelRounded.dot3 A.R a b| ≤ 4 * B := by
  have h0 : 0 ≤ B := le_trans (abs_nonneg _) hb.1
  obtain ⟨e1, b1⟩ := mul_num A ha.1 hb.1 (by linarith)
  obtain ⟨e2, b2⟩ := mul_num A ha.2.1 hb.2.1 (by linarith)
  obtain ⟨e3, b3⟩ := mul_num A ha.2.2 hb.2.2 (by linarith)
  obtain ⟨e4, b4⟩ := add_num A b1 b2 (by linarith)
  obtain ⟨e5, b5⟩ := add_num A b4 b3 (by linarith)
  unfold dot3 doubles3 VoxelRounded.dot3
  simp only
  rw [e1, e2, e3, e4, e5]
  exact ⟨rfl, by linarith⟩

theorem apply_num {t : Iso3 ℝ} {p : Vec3 ℝ} {B : ℝ} (ht : Turned t) (htt : Within (4 * B) t.t) (hp : Within B p)
    (hB : 16 * B ≤ A.top) :
    apply A (doublesIso t) (doubles3 p) = doubles3 (VoxelRounded.apply A.R t p) ∧
    apply4 A (doublesIso t) (doubles3 p) (.num 1) = doubles3 (VoxelRounded.apply4 A.R t p 1) := by
  have h0 : 0 ≤ B := le_trans (abs_nonneg _) hp.1
  obtain ⟨e1, b1⟩ := dot3_num A ht.1 hp hB
  obtain ⟨e2, b2⟩ := dot3_num A ht.2.1 hp hB
  obtain ⟨e3, b3⟩ := dot3_num A ht.2.2 hp hB
  have one : ∀ x : ℝ, |x| ≤ 4 * B → A.mul (.num x) (.num 1) = .num (A.R.rd (x * 1)) ∧
      |A.R.rd (x * 1)| ≤ 101 / 100 * (4 * B) := by
    intro x hx
    have h1 := rd_bound A (x * 1)
    rw [mul_one] at h1 ⊢
    refine ⟨?_, by linarith⟩
    show A.round (x * 1) = _
    rw [mul_one]
    exact A.round_eq (by linarith)
  obtain ⟨m1, k1⟩ := one _ htt.1
  obtain ⟨m2, k2⟩ := one _ htt.2.1
  obtain ⟨m3, k3⟩ := one _ htt.2.2
  unfold apply apply4 VoxelRounded.apply VoxelRounded.apply4 doublesIso
  simp only
  rw [e1, e2, e3]
  constructor
  · unfold doubles3
    simp only
    rw [(add_num A b1 htt.1 (by linarith)).1, (add_num A b2 htt.2.1 (by linarith)).1,
      (add_num A b3 htt.2.2 (by linarith)).1]
  · unfold doubles3
    simp only
    rw [m1, m2, m3, (add_num A b1 k1 (by linarith)).1, (add_num A b2 k2 (by linarith)).1,
      (add_num A b3 k3 (by linarith)).1]

theorem truncate_large {x : ℝ} (h : 2 ^ 64 < |x|) : truncate x = .ub := by
  unfold truncate int64
  rw [if_neg]
  rintro ⟨h1, h2⟩
  split at h1
  · next h0 =>
    rw [if_pos h0] at h2
    rw [abs_of_nonneg h0] at h
    have h3 := Int.lt_floor_add_one x
    have h4 : (⌊x⌋ : ℝ) ≤ 2 ^ 63 := by exact_mod_cast le_of_lt h2
    norm_num at h h4
    linarith
  · next h0 =>
    rw [abs_of_neg (not_le.1 h0)] at h
    have h3 := Int.ceil_lt_add_one x
    have h4 : (-2 ^ 63 : ℝ) ≤ ⌈x⌉ := by exact_mod_cast h1
    norm_num at h h4
    linarith

theorem scale_num (x y : ℝ) : toInt64 (A.mul (.num x) (.num y)) = truncate (A.R.rd (x * y)) := by
  show toInt64 (A.round (x * y)) = _
  rcases A.round_cases (x * y) with ⟨h, _⟩ | ⟨⟨s, h⟩, hb⟩
  · rw [h]; rfl
  · rw [h, truncate_large (lt_of_le_of_lt A.large hb)]; rfl

theorem point_num (g : Grid (Iso3 ℝ) ℝ T) (p : Vec3 ℝ) :
    pointInFrameToGridIndex A (doublesGrid g) (doubles3 p) = VoxelRounded.pointInFrameToGridIndex A.R g p := by
  unfold pointInFrameToGridIndex VoxelRounded.pointInFrameToGridIndex
  simp only [doublesGrid, doubles3, scale_num]

/-- **C186.** If the location is not close to overflow, looking up its index gives what the model with rounding and no
overflow gives, which property C158 is about. -/
theorem C186_agrees (g : Grid (Iso3 ℝ) ℝ T) (l : Vec3 ℝ) (B : ℝ) (hB : 16 * B ≤ A.top)
    (hr : Turned g.inverseOrigin) (ht : Within (4 * B) g.inverseOrigin.t) (hl : Within B l) :
    locationToGridIndex3d A (doublesGrid g) (doubles3 l) = VoxelRounded.locationToGridIndex3d A.R g l ∧
    locationToGridIndex A (doublesGrid g) (doubles3 l) = VoxelRounded.locationToGridIndex A.R g l := by
  obtain ⟨h1, h2⟩ := apply_num A hr ht hl hB
  unfold locationToGridIndex3d locationToGridIndex locationToGridIndex4d VoxelRounded.locationToGridIndex3d
    VoxelRounded.locationToGridIndex
  rw [show (doublesGrid g).inverseOrigin = doublesIso g.inverseOrigin from rfl, h1, h2, point_num, point_num]
  exact ⟨rfl, rfl⟩

/-- **C186.** A grid made with a translation and rotation that are not close to overflow, and cells and sizes that are
not, is the grid of the model with rounding, and its lookups are covered by `C186_agrees`. -/
theorem C186_created (origin : Iso3 ℝ) (cx cy cz : ℝ) (nx ny nz : Int) (d o : T) (B : ℝ) (hB : 16 * B ≤ A.top)
    (hr : Turned origin) (ht : Within B origin.t) (hc : 0 < cx ∧ 0 < cy ∧ 0 < cz)
    (hi : 2 ≤ A.top * cx ∧ 2 ≤ A.top * cy ∧ 2 ≤ A.top * cz)
    (hs : 2 * nx * cx ≤ A.top ∧ 2 * ny * cy ≤ A.top ∧ 2 * nz * cz ≤ A.top)
    (g : Grid (Iso3 ℝ) ℝ T) (hg : VoxelRounded.initializeCells A.R origin cx cy cz nx ny nz d o = .ok g) :
    initializeCells A (doublesIso origin) (.num cx) (.num cy) (.num cz) nx ny nz d o = .ok (doublesGrid g) ∧
      Turned g.inverseOrigin ∧ Within (4 * B) g.inverseOrigin.t := by
  obtain ⟨c1, c2, c3⟩ := hc
  have h0 : 0 ≤ B := le_trans (abs_nonneg _) ht.1
  obtain ⟨⟨a11, a12, a13⟩, ⟨a21, a22, a23⟩, ⟨a31, a32, a33⟩⟩ := hr
  have t1 : Within 1 ⟨origin.r1.x, origin.r2.x, origin.r3.x⟩ := ⟨a11, a21, a31⟩
  have t2 : Within 1 ⟨origin.r1.y, origin.r2.y, origin.r3.y⟩ := ⟨a12, a22, a32⟩
  have t3 : Within 1 ⟨origin.r1.z, origin.r2.z, origin.r3.z⟩ := ⟨a13, a23, a33⟩
  obtain ⟨e1, b1⟩ := dot3_num A t1 ht hB
  obtain ⟨e2, b2⟩ := dot3_num A t2 ht hB
  obtain ⟨e3, b3⟩ := dot3_num A t3 ht hB
  have hinv : inverse A (doublesIso origin) = doublesIso (VoxelRounded.inverse A.R origin) := by
    unfold inverse VoxelRounded.inverse doublesIso
    simp only
    have d1 : (⟨(doubles3 origin.r1).x, (doubles3 origin.r2).x, (doubles3 origin.r3).x⟩ : Vec3 Dbl) =
      doubles3 ⟨origin.r1.x, origin.r2.x, origin.r3.x⟩ := rfl
    have d2 : (⟨(doubles3 origin.r1).y, (doubles3 origin.r2).y, (doubles3 origin.r3).y⟩ : Vec3 Dbl) =
      doubles3 ⟨origin.r1.y, origin.r2.y, origin.r3.y⟩ := rfl
    have d3 : (⟨(doubles3 origin.r1).z, (doubles3 origin.r2).z, (doubles3 origin.r3).z⟩ : Vec3 Dbl) =
      doubles3 ⟨origin.r1.z, origin.r2.z, origin.r3.z⟩ := rfl
    rw [d1, d2, d3, e1, e2, e3]
    rfl
  unfold VoxelRounded.initializeCells at hg
  simp only [Out.bind_eq_ok, Out.ok.injEq] at hg
  obtain ⟨_, hchk, s1, hs1, s2, hs2, rfl⟩ := hg
  have hpos : 0 < nx ∧ 0 < ny ∧ 0 < nz := by
    unfold Voxel.safetyCheckCells at hchk
    split at hchk
    · cases hchk
    · next h => push Not at h; exact ⟨h.2.2.2.1, h.2.2.2.2.1, h.2.2.2.2.2⟩
  obtain ⟨n1, n2, n3⟩ := hpos
  have htop : (0 : ℝ) < A.top := lt_of_lt_of_le (by norm_num) A.large
  have recip : ∀ c : ℝ, 0 < c → 2 ≤ A.top * c →
      A.div (.num 1) (.num |c|) = .num (A.R.rd (1 / |c|)) := by
    intro c hc0 hc1
    rw [abs_of_pos hc0]
    simp only [Ieee.div]
    rw [if_neg (ne_of_gt hc0)]
    apply A.round_eq
    have h1 := rd_bound A (1 / c)
    have h2 : 1 / c ≤ A.top / 2 := by
      rw [div_le_div_iff₀ hc0 (by norm_num)]
      linarith
    rw [abs_of_pos (one_div_pos.2 hc0)] at h1
    linarith
  have size : ∀ (c : ℝ) (n : Int), 0 < c → 0 < n → n < 2 ^ 63 → 2 * n * c ≤ A.top →
      A.mul (A.round n) (.num |c|) = .num (A.R.rd (A.R.rd n * |c|)) := by
    intro c n hc0 hn0 hn1 h
    have hn : (0 : ℝ) < n := by exact_mod_cast hn0
    have hn2 : (n : ℝ) < 2 ^ 63 := by exact_mod_cast hn1
    have hb := rd_bound A n
    rw [abs_of_pos hn] at hb
    have hl := A.large
    rw [A.round_eq (x := n) (by norm_num at hl hn2; linarith), abs_of_pos hc0]
    show A.round _ = _
    apply A.round_eq
    have h1 := rd_bound A (A.R.rd n * c)
    rw [abs_mul, abs_of_pos hc0] at h1
    have h2 : |A.R.rd n| * c ≤ 101 / 100 * n * c := mul_le_mul_of_nonneg_right hb (le_of_lt hc0)
    have h3 : (0 : ℝ) < n * c := mul_pos hn hc0
    nlinarith
  have fit : ∀ {v w : Int}, int64 v = .ok w → v < 2 ^ 63 ∧ w = v := by
    intro v w h
    unfold int64 at h
    split at h
    · next h' => injection h with h; exact ⟨h'.2, h.symm⟩
    · cases h
  obtain ⟨f1, rfl⟩ := fit hs1
  obtain ⟨f2, rfl⟩ := fit hs2
  have p1 : nx < 2 ^ 63 := by
    have : nx * 1 ≤ nx * (ny * nz) := Int.mul_le_mul_of_nonneg_left (Int.mul_pos n2 n3) (le_of_lt n1)
    rw [mul_assoc] at f2
    omega
  have p2 : ny < 2 ^ 63 := by
    have : ny * 1 ≤ ny * nz := Int.mul_le_mul_of_nonneg_left n3 (le_of_lt n2)
    omega
  have p3 : nz < 2 ^ 63 := by
    have : 1 * nz ≤ ny * nz := Int.mul_le_mul_of_nonneg_right n2 (le_of_lt n3)
    omega
  refine ⟨?_, ⟨t1, t2, t3⟩, ?_⟩
  · unfold initializeCells
    rw [check_ok ⟨⟨_, rfl, c1⟩, ⟨_, rfl, c2⟩, ⟨_, rfl, c3⟩, n1, n2, n3⟩, Out.bind_ok, hs1, Out.bind_ok, hs2,
      Out.bind_ok, hinv]
    simp only [Ieee.abs]
    rw [recip cx c1 hi.1, recip cy c2 hi.2.1, recip cz c3 hi.2.2, size cx nx c1 n1 p1 hs.1,
      size cy ny c2 n2 p2 hs.2.1, size cz nz c3 n3 p3 hs.2.2]
    rfl
  · show |-_| ≤ _ ∧ |-_| ≤ _ ∧ |-_| ≤ _
    rw [abs_neg, abs_neg, abs_neg]
    exact ⟨b1, b2, b3⟩

/-! ## Cases that meet the hypotheses -/

/-- The doubles, rounded to the nearest. -/
noncomputable def exIeee : Ieee := ⟨Nearest.nearest, 2 ^ 1024 - 2 ^ 970, by
  have h1 : (2 : ℝ) ^ 64 ≤ 2 ^ 970 := pow_le_pow_right₀ (by norm_num) (by norm_num)
  have h2 : (2 : ℝ) ^ 971 ≤ 2 ^ 1024 := pow_le_pow_right₀ (by norm_num) (by norm_num)
  have h3 : (2 : ℝ) ^ 971 = 2 ^ 970 + 2 ^ 970 := by rw [pow_succ, mul_two]
  exact le_sub_iff_add_le.2 (le_trans (le_trans (add_le_add_left h1 _) (le_of_eq h3.symm)) h2)⟩

theorem ex_rd (e : ℤ) : exIeee.R.rd (2 ^ e) = 2 ^ e := by
  have := exIeee.R.fixed 1 e (by norm_num)
  simpa using this

example : ¬ Finite3 ⟨.num 1, .inf true, .num 0⟩ := by
  rintro ⟨_, ⟨x, h⟩, _⟩
  cases h

/-- Cells of size 2^-1060, which is a (subnormal) double. -/
example : exIeee.top < exIeee.R.rd (1 / 2 ^ (-1060 : ℤ)) := by
  have h : (1 : ℝ) / 2 ^ (-1060 : ℤ) = 2 ^ (1060 : ℤ) := by
    rw [zpow_neg, one_div, inv_inv]
  rw [h, ex_rd]
  show (2 : ℝ) ^ 1024 - 2 ^ 970 < 2 ^ (1060 : ℤ)
  rw [show (1060 : ℤ) = ((1060 : ℕ) : ℤ) from rfl, zpow_natCast]
  have h1 : (2 : ℝ) ^ 1024 ≤ 2 ^ 1060 := pow_le_pow_right₀ (by norm_num) (by norm_num)
  exact lt_of_lt_of_le (sub_lt_self _ (pow_pos (by norm_num) _)) h1

/-- Two cells of size 2^1023. -/
example : exIeee.top < exIeee.R.rd (exIeee.R.rd ((2 : ℤ) : ℝ) * 2 ^ (1023 : ℤ)) := by
  have h : exIeee.R.rd ((2 : ℤ) : ℝ) = 2 := by
    have := exIeee.R.int 2 (by norm_num)
    simpa using this
  rw [h, show (2 : ℝ) * 2 ^ (1023 : ℤ) = 2 ^ (1024 : ℤ) by
    rw [show (1024 : ℤ) = 1 + 1023 by norm_num, zpow_add₀ (by norm_num), zpow_one], ex_rd]
  show (2 : ℝ) ^ 1024 - 2 ^ 970 < 2 ^ (1024 : ℤ)
  rw [show (1024 : ℤ) = ((1024 : ℕ) : ℤ) from rfl, zpow_natCast]
  exact sub_lt_self _ (pow_pos (by norm_num) _)

/-- An unrotated grid of 10 cells of size 1 per side at (5, 6, 7). -/
example : ∃ g, initializeCells exIeee (doublesIso (Iso3.translation ⟨5, 6, 7⟩)) (.num 1) (.num 1) (.num 1) 10 10 10
      (0 : Nat) 1 = .ok (doublesGrid g) ∧ Turned g.inverseOrigin ∧ Within 32 g.inverseOrigin.t := by
  have htop : (2 : ℝ) ^ 64 ≤ exIeee.top := exIeee.large
  norm_num at htop
  have hg : ∃ g, VoxelRounded.initializeCells exIeee.R (Iso3.translation ⟨5, 6, 7⟩) 1 1 1 10 10 10 (0 : Nat) 1 = .ok g := by
    unfold VoxelRounded.initializeCells Voxel.safetyCheckCells int64
    norm_num
  obtain ⟨g, hg⟩ := hg
  refine ⟨g, ?_⟩
  have := C186_created exIeee (Iso3.translation ⟨5, 6, 7⟩) 1 1 1 10 10 10 (0 : Nat) 1 8 (by linarith)
    (by unfold Turned Within Iso3.translation; norm_num) (by unfold Within Iso3.translation; norm_num) (by norm_num)
    (by constructor; · linarith
        constructor <;> linarith)
    (by push_cast; constructor; · linarith
        constructor <;> linarith) g hg
  norm_num at this
  exact this

end Verif.VoxelSpecial
