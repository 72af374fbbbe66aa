import Verif.Props.VoxelSpecial
import Verif.Spec.HashedGridSpecial

/-!
# Lemmas about hashed voxel grids with special doubles
-/
namespace Verif.HashedGridSpecial
open Verif Verif.HashedGrid
open Verif.Voxel (Vec3 Iso3 int64 truncate)
open Verif.VoxelSpecial (badSize safetyCheckCells toInt64 doubles3 doublesIso Within Turned Finite3)

variable {T : Type} (A : Ieee)

theorem div_finite {a b : Dbl} (h : (A.div a b).Finite) : a.Finite := by
  obtain ⟨z, h⟩ := h
  cases a with
  | nan => cases h
  | inf s =>
    cases b with
    | nan => cases h
    | inf t => cases h
    | num y => cases h
  | num x => exact ⟨x, rfl⟩

theorem floor_finite {a : Dbl} (h : (floor a).Finite) : a.Finite := by
  obtain ⟨z, h⟩ := h
  cases a with
  | nan => cases h
  | inf s => cases h
  | num x => exact ⟨x, rfl⟩

/-- The region is undefined as soon as the number of a chunk is. -/
theorem region_ub (g : Grid Dbl T) (hg : g.initialized = true) (p : Vec3 Dbl)
    (h : ¬ ((A.div p.x g.chunkX).Finite ∧ (A.div p.y g.chunkY).Finite ∧ (A.div p.z g.chunkZ).Finite)) :
    getContainingChunkRegion A g p = .ub := by
  unfold getContainingChunkRegion
  rw [Out.assert_true hg, Out.bind_ok]
  rcases VoxelSpecial.toInt64_cases (floor (A.div p.x g.chunkX)) with ⟨n1, h1⟩ | h1
  · rw [h1, Out.bind_ok]
    rcases VoxelSpecial.toInt64_cases (floor (A.div p.y g.chunkY)) with ⟨n2, h2⟩ | h2
    · rw [h2, Out.bind_ok]
      rcases VoxelSpecial.toInt64_cases (floor (A.div p.z g.chunkZ)) with ⟨n3, h3⟩ | h3
      · exact absurd ⟨floor_finite (VoxelSpecial.toInt64_ok h1), floor_finite (VoxelSpecial.toInt64_ok h2),
          floor_finite (VoxelSpecial.toInt64_ok h3)⟩ h
      · rw [h3]; rfl
    · rw [h2]; rfl
  · rw [h1]; rfl

theorem region_cases (g : Grid Dbl T) (hg : g.initialized = true) (p : Vec3 Dbl) :
    getContainingChunkRegion A g p = .ub ∨ ∃ x y z : Int, -2 ^ 63 ≤ x ∧ x < 2 ^ 63 ∧ -2 ^ 63 ≤ y ∧ y < 2 ^ 63 ∧
      -2 ^ 63 ≤ z ∧ z < 2 ^ 63 ∧
      toInt64 (floor (A.div p.x g.chunkX)) = .ok x ∧ toInt64 (floor (A.div p.y g.chunkY)) = .ok y ∧
      toInt64 (floor (A.div p.z g.chunkZ)) = .ok z ∧
      getContainingChunkRegion A g p =
        .ok ⟨A.mul (A.round x) g.chunkX, A.mul (A.round y) g.chunkY, A.mul (A.round z) g.chunkZ⟩ := by
  have range : ∀ (a : Dbl) (n : Int), toInt64 a = .ok n → -2 ^ 63 ≤ n ∧ n < 2 ^ 63 := by
    intro a n h
    cases a with
    | nan => cases h
    | inf s => cases h
    | num x =>
      simp only [toInt64, truncate] at h
      generalize (if 0 ≤ x then ⌊x⌋ else ⌈x⌉) = m at h
      unfold int64 at h
      split at h
      · next hr => injection h with h; rw [← h]; exact hr
      · cases h
  unfold getContainingChunkRegion
  rw [Out.assert_true hg, Out.bind_ok]
  rcases VoxelSpecial.toInt64_cases (floor (A.div p.x g.chunkX)) with ⟨n1, h1⟩ | h1
  · rcases VoxelSpecial.toInt64_cases (floor (A.div p.y g.chunkY)) with ⟨n2, h2⟩ | h2
    · rcases VoxelSpecial.toInt64_cases (floor (A.div p.z g.chunkZ)) with ⟨n3, h3⟩ | h3
      · refine .inr ⟨n1, n2, n3, (range _ _ h1).1, (range _ _ h1).2, (range _ _ h2).1, (range _ _ h2).2,
          (range _ _ h3).1, (range _ _ h3).2, h1, h2, h3, ?_⟩
        rw [h1, h2, h3]; rfl
      · rw [h1, h2, h3]; exact .inl rfl
    · rw [h1, h2]; exact .inl rfl
  · rw [h1]; exact .inl rfl

theorem undefined_of (g : Grid Dbl T) (hg : g.initialized = true) (l : Vec3 Dbl)
    (h : getContainingChunkRegion A g (VoxelSpecial.apply A g.inverseOrigin l) = .ub) : Undefined A g l := by
  unfold Undefined getImmutable setCellValue setChunkValue
  rw [Out.assert_true hg]
  simp only [Out.bind_ok]
  rw [h]
  exact ⟨rfl, fun _ => ⟨rfl, rfl⟩⟩

/-! ## Values that are not close to overflow -/

theorem check_num (cx cy cz : ℝ) (nx ny nz : Int) :
    safetyCheckCells (.num cx) (.num cy) (.num cz) nx ny nz = Voxel.safetyCheckCells cx cy cz nx ny nz := by
  have pos : ∀ x : ℝ, (Dbl.num x).Positive ↔ 0 < x := by
    intro x
    exact ⟨fun ⟨y, h, hy⟩ => by injection h with h; rw [h]; exact hy, fun h => ⟨x, rfl, h⟩⟩
  unfold Voxel.safetyCheckCells
  split
  · next h =>
    apply VoxelSpecial.check_bad
    rw [pos, pos, pos]
    rintro ⟨h1, h2, h3, h4, h5, h6⟩
    rcases h with h | h | h | h | h | h
    · exact absurd h (not_le.2 h1)
    · exact absurd h (not_le.2 h2)
    · exact absurd h (not_le.2 h3)
    · exact absurd h (not_le.2 h4)
    · exact absurd h (not_le.2 h5)
    · exact absurd h (not_le.2 h6)
  · next h =>
    push Not at h
    exact VoxelSpecial.check_ok ⟨(pos _).2 h.1, (pos _).2 h.2.1, (pos _).2 h.2.2.1, h.2.2.2⟩

theorem truncate_int (n : Int) : truncate ((n : ℝ)) = int64 n := by
  unfold truncate
  split
  · rw [Int.floor_intCast]
  · rw [Int.ceil_intCast]

theorem floor_large {x : ℝ} (h : 2 ^ 64 < |x|) : int64 ⌊x⌋ = .ub := by
  unfold int64
  rw [if_neg]
  rintro ⟨h1, h2⟩
  have h3 := Int.lt_floor_add_one x
  have h5 := Int.floor_le x
  have h4 : (⌊x⌋ : ℝ) < 2 ^ 63 := by exact_mod_cast h2
  have h6 : (-2 ^ 63 : ℝ) ≤ ⌊x⌋ := by exact_mod_cast h1
  norm_num at h h4 h6
  rcases abs_cases x with ⟨e, _⟩ | ⟨e, _⟩
  · rw [e] at h; linarith
  · rw [e] at h; linarith

theorem number_num {p c : ℝ} (hc : c ≠ 0) :
    toInt64 (floor (A.div (.num p) (.num c))) = int64 ⌊A.R.rd (p / c)⌋ := by
  simp only [Ieee.div]
  rw [if_neg hc]
  rcases A.round_cases (p / c) with ⟨h, _⟩ | ⟨⟨s, h⟩, hb⟩
  · rw [h]; exact truncate_int _
  · rw [h, floor_large (lt_of_le_of_lt A.large hb)]; rfl

theorem quotient_num {p c : ℝ} (hc : c ≠ 0) :
    toInt64 (A.div (.num p) (.num c)) = truncate (A.R.rd (p / c)) := by
  simp only [Ieee.div]
  rw [if_neg hc]
  rcases A.round_cases (p / c) with ⟨h, _⟩ | ⟨⟨s, h⟩, hb⟩
  · rw [h]; rfl
  · rw [h, VoxelSpecial.truncate_large (lt_of_le_of_lt A.large hb)]; rfl

/-- The base of a chunk along one axis. -/
theorem base_num {p c B : ℝ} (hB : 32 * B ≤ A.top) (hc : 0 < c) (hc2 : c ≤ 2 * B) (hp : |p| ≤ 9 * B) {n : Int}
    (h : int64 ⌊A.R.rd (p / c)⌋ = .ok n) :
    A.mul (A.round n) (.num c) = .num (A.R.rd (A.R.rd n * c)) ∧ |A.R.rd (A.R.rd n * c)| ≤ 16 * B := by
  have hn : n = ⌊A.R.rd (p / c)⌋ ∧ -2 ^ 63 ≤ n ∧ n < 2 ^ 63 := by
    unfold int64 at h
    split at h
    · next hr => injection h with h; rw [← h]; exact ⟨rfl, hr⟩
    · cases h
  obtain ⟨hn, r1, r2⟩ := hn
  have hl := A.large
  have b1 := VoxelSpecial.rd_bound A (p / c)
  have b2 := VoxelSpecial.rd_bound A n
  have b3 : |(n : ℝ)| ≤ |A.R.rd (p / c)| + 1 := by
    have f1 := Int.floor_le (A.R.rd (p / c))
    have f2 := Int.lt_floor_add_one (A.R.rd (p / c))
    rw [← hn] at f1 f2
    rcases abs_cases (n : ℝ) with ⟨e, _⟩ | ⟨e, _⟩ <;> rcases abs_cases (A.R.rd (p / c)) with ⟨e', _⟩ | ⟨e', _⟩ <;>
      rw [e, e'] <;> linarith
  have b4 : |p / c| * c = |p| := by rw [abs_div, abs_of_pos hc]; field_simp
  have r3 : |(n : ℝ)| ≤ 2 ^ 63 := by
    rw [abs_le]; exact ⟨by exact_mod_cast r1, by exact_mod_cast le_of_lt r2⟩
  have b5 : |A.R.rd n * c| ≤ 101 / 100 * (101 / 100 * (9 * B) + 2 * B) := by
    rw [abs_mul, abs_of_pos hc]
    have e1 : |A.R.rd n| * c ≤ 101 / 100 * (101 / 100 * |p / c| + 1) * c :=
      mul_le_mul_of_nonneg_right (by linarith) (le_of_lt hc)
    have e2 : 101 / 100 * (101 / 100 * |p / c| + 1) * c = 101 / 100 * (101 / 100 * (|p / c| * c) + c) := by ring
    rw [e2, b4] at e1
    linarith
  have b6 := VoxelSpecial.rd_bound A (A.R.rd n * c)
  have h0 : 0 ≤ B := by linarith
  have b7 : |A.R.rd (A.R.rd n * c)| ≤ 16 * B := by linarith
  rw [A.round_eq (x := n) (by norm_num at hl r3; linarith)]
  exact ⟨A.round_eq (by linarith), b7⟩

theorem int64_cases' (v : Int) : int64 v = .ok v ∨ int64 v = .ub := VoxelSpecial.int64_cases v

/-- The region that contains a location. -/
theorem region_num {g : Grid ℝ T} {B : ℝ} (hB : 32 * B ≤ A.top) (hg : Near B g) {p : Vec3 ℝ} (hp : Within (9 * B) p) :
    (∃ r, HashedGridRounded.getContainingChunkRegion A.R g p = .ok r ∧
      getContainingChunkRegion A (doublesGrid g) (doubles3 p) = .ok (doubles3 r) ∧ Within (16 * B) r) ∨
    (HashedGridRounded.getContainingChunkRegion A.R g p = .ub ∧
      getContainingChunkRegion A (doublesGrid g) (doubles3 p) = .ub) := by
  obtain ⟨c1, c2, c3⟩ := hg.positive
  obtain ⟨d1, d2, d3⟩ := hg.chunk
  unfold HashedGridRounded.getContainingChunkRegion getContainingChunkRegion
  rw [Out.assert_true hg.initialized, Out.assert_true (c := (doublesGrid g).initialized = true) hg.initialized]
  simp only [Out.bind_ok, doubles3, doublesGrid]
  rw [number_num A (ne_of_gt c1), number_num A (ne_of_gt c2), number_num A (ne_of_gt c3)]
  rcases VoxelSpecial.int64_cases ⌊A.R.rd (p.x / g.chunkX)⌋ with h1 | h1
  · rcases VoxelSpecial.int64_cases ⌊A.R.rd (p.y / g.chunkY)⌋ with h2 | h2
    · rcases VoxelSpecial.int64_cases ⌊A.R.rd (p.z / g.chunkZ)⌋ with h3 | h3
      · obtain ⟨e1, b1⟩ := base_num A hB c1 d1 hp.1 h1
        obtain ⟨e2, b2⟩ := base_num A hB c2 d2 hp.2.1 h2
        obtain ⟨e3, b3⟩ := base_num A hB c3 d3 hp.2.2 h3
        rw [h1, h2, h3]
        simp only [Out.bind_ok]
        rw [e1, e2, e3]
        exact .inl ⟨_, rfl, rfl, b1, b2, b3⟩
      · rw [h1, h2, h3]; exact .inr ⟨rfl, rfl⟩
    · rw [h1, h2]; exact .inr ⟨rfl, rfl⟩
  · rw [h1]; exact .inr ⟨rfl, rfl⟩

theorem sub_num {p b B : ℝ} (hB : 32 * B ≤ A.top) (hp : |p| ≤ 9 * B) (hb : |b| ≤ 16 * B) :
    sub A (.num p) (.num b) = .num (A.R.rd (p - b)) := by
  have h0 : 0 ≤ B := by have := abs_nonneg p; linarith
  have := (VoxelSpecial.add_num A hp (by rwa [abs_neg] : |-b| ≤ 16 * B) (by linarith)).1
  rw [← sub_eq_add_neg] at this
  exact this

/-- The index of a location within a chunk. -/
theorem index_num {c : Chunk ℝ T} {B : ℝ} (hB : 32 * B ≤ A.top) (hc : NearChunk B c) (hi : c.cellInit = true)
    {p : Vec3 ℝ} (hp : Within (9 * B) p) :
    getLocationDataIndex A (doublesChunk c) (doubles3 p) = HashedGridRounded.getLocationDataIndex A.R c p := by
  obtain ⟨z1, z2, z3⟩ := hc.cells hi
  unfold getLocationDataIndex HashedGridRounded.getLocationDataIndex
  simp only [doublesChunk, doubles3, sub_num A hB hp.1 hc.base.1, sub_num A hB hp.2.1 hc.base.2.1,
    sub_num A hB hp.2.2 hc.base.2.2, Ieee.lt, quotient_num A z1, quotient_num A z2, quotient_num A z3]
  split_ifs <;> rfl

theorem position_num {c : Chunk ℝ T} {B : ℝ} (hB : 32 * B ≤ A.top) (hc : NearChunk B c)
    {p : Vec3 ℝ} (hp : Within (9 * B) p) :
    getCellPosition A (doublesChunk c) (doubles3 p) = HashedGridRounded.getCellPosition A.R c p := by
  unfold getCellPosition HashedGridRounded.getCellPosition
  by_cases hi : c.cellInit = true
  · rw [Out.assert_true hi, Out.assert_true (c := (doublesChunk c).cellInit = true) hi, index_num A hB hc hi hp]
    rfl
  · rw [Out.assert_false hi, Out.assert_false (c := (doublesChunk c).cellInit = true) hi]
    rfl

theorem setCell_num {c : Chunk ℝ T} {B : ℝ} (hB : 32 * B ≤ A.top) (hc : NearChunk B c)
    {p : Vec3 ℝ} (hp : Within (9 * B) p) (v : T) :
    chunkSetCell A (doublesChunk c) (doubles3 p) v =
      (fun r => (r.1, doublesChunk r.2)) <$> HashedGridRounded.chunkSetCell A.R c p v := by
  unfold chunkSetCell HashedGridRounded.chunkSetCell
  rw [position_num A hB hc hp]
  cases HashedGridRounded.getCellPosition A.R c p with
  | ok r => cases r <;> rfl
  | throws e => rfl
  | abort => rfl
  | ub => rfl

theorem setCell_near {c : Chunk ℝ T} {B : ℝ} (hc : NearChunk B c) {p : Vec3 ℝ} {v : T} {r : Bool × Chunk ℝ T}
    (h : HashedGridRounded.chunkSetCell A.R c p v = .ok r) : NearChunk B r.2 := by
  unfold HashedGridRounded.chunkSetCell at h
  rw [Out.bind_eq_ok] at h
  obtain ⟨q, _, h⟩ := h
  cases q with
  | some n => injection h with h; rw [← h]; exact ⟨hc.base, hc.cells⟩
  | none => injection h with h; rw [← h]; exact hc

theorem chunkSize_num {c B : ℝ} {n : Int} (hB : 32 * B ≤ A.top) (hc : 0 < c) (hn : 0 < n) (hn2 : n < 2 ^ 63)
    (h : c * n ≤ B) : A.mul (.num |c|) (A.round n) = .num (A.R.rd (|c| * A.R.rd n)) := by
  have hl := A.large
  have hn' : (0 : ℝ) < n := by exact_mod_cast hn
  have hn3 : (n : ℝ) < 2 ^ 63 := by exact_mod_cast hn2
  have b1 := VoxelSpecial.rd_bound A n
  rw [abs_of_pos hn'] at b1
  have b2 := VoxelSpecial.rd_bound A (c * A.R.rd n)
  rw [abs_mul, abs_of_pos hc] at b2
  have b3 : c * |A.R.rd n| ≤ c * (101 / 100 * n) := mul_le_mul_of_nonneg_left b1 (le_of_lt hc)
  have h0 : 0 < c * n := mul_pos hc hn'
  rw [A.round_eq (x := n) (by norm_num at hl hn3; linarith), abs_of_pos hc]
  exact A.round_eq (by linarith)

theorem newCell_num {b : Vec3 ℝ} {cx cy cz B : ℝ} {nx ny nz : Int} (hB : 32 * B ≤ A.top)
    (hs : cx * nx ≤ B ∧ cy * ny ≤ B ∧ cz * nz ≤ B) (v : T) :
    newCellChunk A (doubles3 b) (.num cx) (.num cy) (.num cz) nx ny nz v =
      doublesChunk <$> HashedGridRounded.newCellChunk A.R b cx cy cz nx ny nz v := by
  unfold newCellChunk HashedGridRounded.newCellChunk
  rw [check_num]
  unfold Voxel.safetyCheckCells
  split
  · rfl
  · next hp =>
    push Not at hp
    obtain ⟨p1, p2, p3, n1, n2, n3⟩ := hp
    simp only [Out.bind_ok]
    rcases VoxelSpecial.int64_cases (ny * nz) with h1 | h1
    · rcases VoxelSpecial.int64_cases (nx * ny * nz) with h2 | h2
      · rw [h1, h2]
        have hr : nx * ny * nz < 2 ^ 63 := by
          unfold int64 at h2
          split at h2
          · next hr => exact hr.2
          · cases h2
        have m1 : nx ≤ nx * ny * nz := by
          rw [mul_assoc]; exact le_mul_of_one_le_right (le_of_lt n1) (Int.mul_pos n2 n3)
        have m2 : ny ≤ nx * ny * nz := by
          rw [mul_comm nx ny, mul_assoc]; exact le_mul_of_one_le_right (le_of_lt n2) (Int.mul_pos n1 n3)
        have m3 : nz ≤ nx * ny * nz := by
          rw [mul_comm]; exact le_mul_of_one_le_right (le_of_lt n3) (Int.mul_pos n1 n2)
        simp only [Out.bind_ok, Ieee.abs]
        rw [chunkSize_num A hB p1 n1 (by omega) hs.1, chunkSize_num A hB p2 n2 (by omega) hs.2.1,
          chunkSize_num A hB p3 n3 (by omega) hs.2.2]
        rfl
      · rw [h1, h2]; rfl
    · rw [h1]; rfl

theorem newCell_near {b : Vec3 ℝ} {cx cy cz B : ℝ} {nx ny nz : Int} (hb : Within (16 * B) b) {v : T} {c : Chunk ℝ T}
    (h : HashedGridRounded.newCellChunk A.R b cx cy cz nx ny nz v = .ok c) : NearChunk B c := by
  unfold HashedGridRounded.newCellChunk at h
  simp only [Out.bind_eq_ok] at h
  obtain ⟨_, hchk, s1, _, s2, _, h⟩ := h
  injection h with h
  unfold Voxel.safetyCheckCells at hchk
  split at hchk
  · cases hchk
  · next hp =>
    push Not at hp
    rw [← h]
    exact ⟨hb, fun _ => ⟨ne_of_gt (abs_pos.2 (ne_of_gt hp.1)), ne_of_gt (abs_pos.2 (ne_of_gt hp.2.1)),
      ne_of_gt (abs_pos.2 (ne_of_gt hp.2.2.1))⟩⟩

theorem badSize_num (x : ℝ) : badSize (.num x) = true ↔ x ≤ 0 := by
  cases hb : badSize (.num x) with
  | true =>
    refine ⟨fun _ => ?_, fun _ => rfl⟩
    by_contra hx
    rw [(VoxelSpecial.badSize_iff _).2 ⟨x, rfl, not_le.1 hx⟩] at hb
    cases hb
  | false =>
    obtain ⟨y, e, hy⟩ := (VoxelSpecial.badSize_iff _).1 hb
    injection e with e
    rw [e]
    simp [hy]

theorem newWhole_num (b : Vec3 ℝ) (sx sy sz : ℝ) (v : T) :
    newWholeChunk (doubles3 b) (.num sx) (.num sy) (.num sz) v =
      doublesChunk <$> HashedGrid.newWholeChunk b sx sy sz v := by
  unfold newWholeChunk HashedGrid.newWholeChunk
  simp only [badSize_num]
  split
  · rfl
  · rfl

theorem newWhole_near {b : Vec3 ℝ} {sx sy sz B : ℝ} (hb : Within (16 * B) b) {v : T} {c : Chunk ℝ T}
    (h : HashedGrid.newWholeChunk b sx sy sz v = .ok c) : NearChunk B c := by
  unfold HashedGrid.newWholeChunk at h
  split at h
  · cases h
  · injection h with h
    rw [← h]
    exact ⟨hb, fun hi => by cases hi⟩

theorem find_num (g : Grid ℝ T) (r : Vec3 ℝ) : find (doublesGrid g) (doubles3 r) = (g.chunks r).map doublesChunk := rfl

theorem put_num (g : Grid ℝ T) (r : Vec3 ℝ) (c : Chunk ℝ T) :
    putChunk (doublesGrid g) (doubles3 r) (doublesChunk c) = doublesGrid (HashedGrid.putChunk g r c) := by
  unfold putChunk HashedGrid.putChunk doublesGrid
  simp only [Grid.mk.injEq, true_and, and_true]
  funext q
  by_cases hq : q = doubles3 r
  · rw [if_pos hq, hq]
    show _ = Option.map _ (if _ then _ else _)
    rw [if_pos (by cases r; rfl)]
    rfl
  · rw [if_neg hq]
    split
    · next x y z =>
      rw [if_neg]
      rintro rfl
      exact hq rfl
    · rfl

theorem put_near {g : Grid ℝ T} {B : ℝ} (hg : Near B g) {c : Chunk ℝ T} (hc : NearChunk B c) (r : Vec3 ℝ) :
    Near B (HashedGrid.putChunk g r c) := by
  refine ⟨hg.initialized, hg.turned, hg.translation, hg.positive, hg.chunk, hg.cells, ?_⟩
  intro q d h
  simp only [HashedGrid.putChunk] at h
  split at h
  · injection h with h; rw [← h]; exact hc
  · exact hg.chunks q d h

/-- The location in the frame of the grid. -/
theorem frame_num {g : Grid ℝ T} {B : ℝ} (hB : 32 * B ≤ A.top) (hg : Near B g) {l : Vec3 ℝ} (hl : Within B l) :
    VoxelSpecial.apply A (doublesGrid g).inverseOrigin (doubles3 l) =
      doubles3 (VoxelRounded.apply A.R g.inverseOrigin l) ∧
    Within (9 * B) (VoxelRounded.apply A.R g.inverseOrigin l) := by
  have h0 : 0 ≤ B := le_trans (abs_nonneg _) hl.1
  have h16 : 16 * B ≤ A.top := by linarith
  refine ⟨(VoxelSpecial.apply_num A hg.turned hg.translation hl h16).1, ?_⟩
  have b1 := (VoxelSpecial.dot3_num A hg.turned.1 hl h16).2
  have b2 := (VoxelSpecial.dot3_num A hg.turned.2.1 hl h16).2
  have b3 := (VoxelSpecial.dot3_num A hg.turned.2.2 hl h16).2
  have k1 := (VoxelSpecial.add_num A b1 hg.translation.1 (by linarith)).2
  have k2 := (VoxelSpecial.add_num A b2 hg.translation.2.1 (by linarith)).2
  have k3 := (VoxelSpecial.add_num A b3 hg.translation.2.2 (by linarith)).2
  exact ⟨le_trans k1 (by linarith), le_trans k2 (by linarith), le_trans k3 (by linarith)⟩

theorem read_num {g : Grid ℝ T} {B : ℝ} (hB : 32 * B ≤ A.top) (hg : Near B g) {l : Vec3 ℝ} (hl : Within B l) :
    getImmutable A (doublesGrid g) (doubles3 l) = HashedGridRounded.getImmutable A.R g l := by
  obtain ⟨hf, hw⟩ := frame_num A hB hg hl
  unfold getImmutable HashedGridRounded.getImmutable HashedGridRounded.getRef
  rw [Out.assert_true hg.initialized, Out.assert_true (c := (doublesGrid g).initialized = true) hg.initialized]
  simp only [Out.bind_ok]
  rw [hf]
  rcases region_num A hB hg hw with ⟨r, h1, h2, _⟩ | ⟨h1, h2⟩
  · rw [h1, h2]
    simp only [Out.bind_ok]
    rw [find_num]
    cases hc : g.chunks r with
    | none => rfl
    | some c =>
      simp only [Option.map_some]
      by_cases hi : c.cellInit = true
      · rw [if_pos hi, if_pos (show (doublesChunk c).cellInit = true from hi), position_num A hB (hg.chunks r c hc) hw]
        cases HashedGridRounded.getCellPosition A.R c (VoxelRounded.apply A.R g.inverseOrigin l) with
        | ok q =>
          cases q with
          | some n =>
            simp only [Out.bind_ok, HashedGrid.readRef, hc]
            rw [show (doublesChunk c).data = c.data from rfl]
            cases c.data[n]? <;> rfl
          | none => rfl
        | throws e => rfl
        | abort => rfl
        | ub => rfl
      · rw [if_neg hi, if_neg (show ¬ (doublesChunk c).cellInit = true from hi)]
        by_cases hj : c.chunkInit = true
        · rw [if_pos hj, if_pos (show (doublesChunk c).chunkInit = true from hj)]
          unfold getChunkValue HashedGrid.getChunkValue
          rw [Out.assert_true hj, Out.assert_true (show (doublesChunk c).chunkInit = true from hj)]
          simp only [Out.bind_ok]
          rw [show (doublesChunk c).data = c.data from rfl]
          by_cases hk : c.data.length = 1
          · rw [Out.assert_true hk]
            simp only [Out.bind_ok]
            cases hd : c.data[0]? with
            | some v => simp only [Out.bind_ok, HashedGrid.readRef, hc, hd]
            | none => rfl
          · rw [Out.assert_false hk]
            rfl
        · rw [if_neg hj, if_neg (show ¬ (doublesChunk c).chunkInit = true from hj)]
          rfl
  · rw [h1, h2]; rfl

/-- A write agrees with the one with rounding only. -/
def Agree (B : ℝ) (s : Out (SetStatus × Grid Dbl T)) (r : Out (SetStatus × Grid ℝ T)) : Prop :=
  s = (fun q => (q.1, doublesGrid q.2)) <$> r ∧ ∀ q, r = .ok q → Near B q.2

theorem agree_ok {B : ℝ} {g : Grid ℝ T} (hg : Near B g) (s : SetStatus) :
    Agree B (.ok (s, doublesGrid g)) (.ok (s, g)) :=
  ⟨rfl, fun q h => by injection h with h; rw [← h]; exact hg⟩

theorem agree_put {B : ℝ} {g : Grid ℝ T} (hg : Near B g) {c : Chunk ℝ T} (hc : NearChunk B c) (r : Vec3 ℝ)
    (s : SetStatus) : Agree B (.ok (s, putChunk (doublesGrid g) (doubles3 r) (doublesChunk c)))
      (.ok (s, HashedGrid.putChunk g r c)) := by
  rw [put_num]
  exact agree_ok (put_near hg hc r) s

theorem agree_throws {B : ℝ} (e : Exc) : Agree (T := T) B (.throws e) (.throws e) := ⟨rfl, fun q h => by cases h⟩
theorem agree_abort {B : ℝ} : Agree (T := T) B .abort .abort := ⟨rfl, fun q h => by cases h⟩
theorem agree_ub {B : ℝ} : Agree (T := T) B .ub .ub := ⟨rfl, fun q h => by cases h⟩

theorem store_num {g : Grid ℝ T} {B : ℝ} (hB : 32 * B ≤ A.top) (hg : Near B g) {c : Chunk ℝ T} (hc : NearChunk B c)
    {p : Vec3 ℝ} (hp : Within (9 * B) p) (r : Vec3 ℝ) (v : T) :
    Agree B (do
        let q ← chunkSetCell A (doublesChunk c) (doubles3 p) v
        if q.1 then .ok (.setCell, putChunk (doublesGrid g) (doubles3 r) q.2) else .ok (.notSet, doublesGrid g))
      (do
        let q ← HashedGridRounded.chunkSetCell A.R c p v
        if q.1 then .ok (.setCell, HashedGrid.putChunk g r q.2) else .ok (.notSet, g)) := by
  rw [setCell_num A hB hc hp]
  cases h : HashedGridRounded.chunkSetCell A.R c p v with
  | ok q =>
    obtain ⟨b, c'⟩ := q
    have hn := setCell_near A hc h
    cases b with
    | true => exact agree_put hg hn r .setCell
    | false => exact agree_ok hg .notSet
  | throws e => exact agree_throws e
  | abort => exact agree_abort
  | ub => exact agree_ub

theorem inNew_num {g : Grid ℝ T} {B : ℝ} (hB : 32 * B ≤ A.top) (hg : Near B g) {r p : Vec3 ℝ} (hr : Within (16 * B) r)
    (hp : Within (9 * B) p) (i v : T) :
    Agree B (setInNewChunk A (doublesGrid g) (doubles3 r) (doubles3 p) i v)
      (HashedGridRounded.setInNewChunk A.R g r p i v) := by
  unfold setInNewChunk HashedGridRounded.setInNewChunk
  rw [show newCellChunk A (doubles3 r) (doublesGrid g).cellX (doublesGrid g).cellY (doublesGrid g).cellZ
      (doublesGrid g).numX (doublesGrid g).numY (doublesGrid g).numZ i = _ from newCell_num A hB hg.cells i]
  cases h : HashedGridRounded.newCellChunk A.R r g.cellX g.cellY g.cellZ g.numX g.numY g.numZ i with
  | ok c => exact store_num A hB hg (newCell_near A hr h) hp r v
  | throws e => exact agree_throws e
  | abort => exact agree_abort
  | ub => exact agree_ub

theorem cell_num {g : Grid ℝ T} {B : ℝ} (hB : 32 * B ≤ A.top) (hg : Near B g) {l : Vec3 ℝ} (hl : Within B l) (v : T) :
    Agree B (setCellValue A (doublesGrid g) (doubles3 l) v) (HashedGridRounded.setCellValue A.R g l v) := by
  obtain ⟨hf, hw⟩ := frame_num A hB hg hl
  unfold setCellValue HashedGridRounded.setCellValue
  rw [Out.assert_true hg.initialized, Out.assert_true (c := (doublesGrid g).initialized = true) hg.initialized]
  simp only [Out.bind_ok]
  rw [hf]
  rcases region_num A hB hg hw with ⟨r, h1, h2, hr⟩ | ⟨h1, h2⟩
  · rw [h1, h2]
    simp only [Out.bind_ok]
    rw [find_num]
    cases hc : g.chunks r with
    | none => exact inNew_num A hB hg hr hw _ v
    | some c =>
      simp only [Option.map_some]
      by_cases hi : c.cellInit = true
      · rw [if_pos hi, if_pos (show (doublesChunk c).cellInit = true from hi)]
        exact store_num A hB hg (hg.chunks r c hc) hw r v
      · rw [if_neg hi, if_neg (show ¬ (doublesChunk c).cellInit = true from hi)]
        by_cases hj : c.chunkInit = true
        · rw [if_pos hj, if_pos (show (doublesChunk c).chunkInit = true from hj)]
          rw [show getChunkValue (doublesChunk c) = HashedGrid.getChunkValue c from rfl]
          cases HashedGrid.getChunkValue c with
          | ok i => exact inNew_num A hB hg hr hw i v
          | throws e => exact agree_throws e
          | abort => exact agree_abort
          | ub => exact agree_ub
        · rw [if_neg hj, if_neg (show ¬ (doublesChunk c).chunkInit = true from hj)]
          exact inNew_num A hB hg hr hw _ v
  · rw [h1, h2]; exact agree_ub

theorem whole_num {g : Grid ℝ T} {B : ℝ} (hg : Near B g) {r : Vec3 ℝ} (hr : Within (16 * B) r) (v : T) :
    Agree B (do
        let c ← newWholeChunk (doubles3 r) (doublesGrid g).chunkX (doublesGrid g).chunkY (doublesGrid g).chunkZ v
        .ok (.setChunk, putChunk (doublesGrid g) (doubles3 r) c))
      (do
        let c ← HashedGrid.newWholeChunk r g.chunkX g.chunkY g.chunkZ v
        .ok (.setChunk, HashedGrid.putChunk g r c)) := by
  rw [show newWholeChunk (doubles3 r) (doublesGrid g).chunkX (doublesGrid g).chunkY (doublesGrid g).chunkZ v = _ from
    newWhole_num r g.chunkX g.chunkY g.chunkZ v]
  cases h : HashedGrid.newWholeChunk r g.chunkX g.chunkY g.chunkZ v with
  | ok c => exact agree_put hg (newWhole_near hr h) r .setChunk
  | throws e => exact agree_throws e
  | abort => exact agree_abort
  | ub => exact agree_ub

theorem chunk_num {g : Grid ℝ T} {B : ℝ} (hB : 32 * B ≤ A.top) (hg : Near B g) {l : Vec3 ℝ} (hl : Within B l) (v : T) :
    Agree B (setChunkValue A (doublesGrid g) (doubles3 l) v) (HashedGridRounded.setChunkValue A.R g l v) := by
  obtain ⟨hf, hw⟩ := frame_num A hB hg hl
  unfold setChunkValue HashedGridRounded.setChunkValue
  rw [Out.assert_true hg.initialized, Out.assert_true (c := (doublesGrid g).initialized = true) hg.initialized]
  simp only [Out.bind_ok]
  rw [hf]
  rcases region_num A hB hg hw with ⟨r, h1, h2, hr⟩ | ⟨h1, h2⟩
  · rw [h1, h2]
    simp only [Out.bind_ok]
    rw [find_num]
    cases hc : g.chunks r with
    | none => exact whole_num hg hr v
    | some c =>
      simp only [Option.map_some]
      by_cases hi : c.cellInit = true
      · rw [if_pos hi, if_pos (show (doublesChunk c).cellInit = true from hi)]
        exact whole_num hg hr v
      · rw [if_neg hi, if_neg (show ¬ (doublesChunk c).cellInit = true from hi)]
        by_cases hj : c.chunkInit = true
        · rw [if_pos hj, if_pos (show (doublesChunk c).chunkInit = true from hj)]
          unfold chunkSetValue HashedGrid.chunkSetValue
          rw [Out.assert_true hj, Out.assert_true (show (doublesChunk c).chunkInit = true from hj)]
          simp only [Out.bind_ok]
          rw [show (doublesChunk c).data = c.data from rfl]
          by_cases hk : c.data.length = 1
          · rw [Out.assert_true hk]
            have hn := hg.chunks r c hc
            exact agree_put hg (c := { c with data := c.data.set 0 v }) ⟨hn.base, hn.cells⟩ r .setChunk
          · rw [Out.assert_false hk]
            exact agree_abort
        · rw [if_neg hj, if_neg (show ¬ (doublesChunk c).chunkInit = true from hj)]
          exact whole_num hg hr v
  · rw [h1, h2]; exact agree_ub

end Verif.HashedGridSpecial
