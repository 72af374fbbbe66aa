import Mathlib.Data.Rat.Floor
import Mathlib.Data.List.Nodup
import Mathlib.Tactic.Linarith
import Mathlib.Tactic.Ring
import Mathlib.Tactic.NormNum
import Verif.Model.GetNeighbours

/-!
# C77: neighbours on a grid
-/
namespace Verif.GetNeighbours

variable {K : Type} [Field K] [LinearOrder K]

theorem mem_offsets {d : Int} : d ∈ offsets ↔ |d| ≤ 1 := by
  rw [offsets]
  constructor
  · intro h
    simp at h
    rcases h with rfl | rfl | rfl <;> decide
  · intro h
    rw [abs_le] at h
    have : d = -1 ∨ d = 0 ∨ d = 1 := by omega
    simpa using this

theorem mem_two {config : K × K} {minX maxX minY maxY step : K} {round : K × K → K × K}
    {valid : K × K → Bool} {q : K × K} :
    q ∈ twoDimensional config minX maxX minY maxY step round valid ↔
      ∃ dx dy : Int, |dx| ≤ 1 ∧ |dy| ≤ 1 ∧ q = round (config.1 + step * dx, config.2 + step * dy) ∧
        accept2 config (round (max minX (config.1 - step), max minY (config.2 - step)))
          (round (min maxX (config.1 + step), min maxY (config.2 + step))) q valid = true := by
  simp only [twoDimensional, List.mem_flatMap, List.mem_filterMap, mem_offsets]
  constructor
  · rintro ⟨dx, hx, dy, hy, h⟩
    split at h
    · rename_i hacc
      injection h with h
      exact ⟨dx, dy, hx, hy, h.symm, h ▸ hacc⟩
    · cases h
  · rintro ⟨dx, dy, hx, hy, h, hacc⟩
    refine ⟨dx, hx, dy, hy, ?_⟩
    rw [← h, if_pos hacc]

theorem mem_three {config : K × K × K} {minX maxX minY maxY minZ maxZ step : K}
    {round : K × K × K → K × K × K} {valid : K × K × K → Bool} {q : K × K × K} :
    q ∈ threeDimensional config minX maxX minY maxY minZ maxZ step round valid ↔
      ∃ dx dy dz : Int, |dx| ≤ 1 ∧ |dy| ≤ 1 ∧ |dz| ≤ 1 ∧
        q = round (config.1 + step * dx, config.2.1 + step * dy, config.2.2 + step * dz) ∧
        accept3 config
          (round (max minX (config.1 - step), max minY (config.2.1 - step), max minZ (config.2.2 - step)))
          (round (min maxX (config.1 + step), min maxY (config.2.1 + step), min maxZ (config.2.2 + step)))
          q valid = true := by
  simp only [threeDimensional, List.mem_flatMap, List.mem_filterMap, mem_offsets]
  constructor
  · rintro ⟨dx, hx, dy, hy, dz, hz, h⟩
    split at h
    · rename_i hacc
      injection h with h
      exact ⟨dx, dy, dz, hx, hy, hz, h.symm, h ▸ hacc⟩
    · cases h
  · rintro ⟨dx, dy, dz, hx, hy, hz, h, hacc⟩
    refine ⟨dx, hx, dy, hy, dz, hz, ?_⟩
    rw [← h, if_pos hacc]

/-- C77: whatever the step, if rounding works on each coordinate separately and keeps the order, every
neighbour is valid, differs from the configuration, and lies between the rounded bounds. -/
theorem C77_within (config : K × K) (minX maxX minY maxY step : K) (r1 r2 : K → K) (valid : K × K → Bool)
    (h1 : ∀ a b, a ≤ b → r1 a ≤ r1 b) (h2 : ∀ a b, a ≤ b → r2 a ≤ r2 b) {q : K × K}
    (hq : q ∈ twoDimensional config minX maxX minY maxY step (fun p => (r1 p.1, r2 p.2)) valid) :
    valid q = true ∧ q ≠ config ∧ r1 minX ≤ q.1 ∧ q.1 ≤ r1 maxX ∧ r2 minY ≤ q.2 ∧ q.2 ≤ r2 maxY := by
  obtain ⟨dx, dy, _, _, _, hacc⟩ := mem_two.1 hq
  simp only [accept2, Bool.and_eq_true, Bool.or_eq_true, decide_eq_true_eq] at hacc
  obtain ⟨⟨⟨⟨⟨ha, hb⟩, hc⟩, hd⟩, hne⟩, hv⟩ := hacc
  refine ⟨hv, ?_, le_trans (h1 _ _ (le_max_left _ _)) ha, le_trans hb (h1 _ _ (min_le_left _ _)),
    le_trans (h2 _ _ (le_max_left _ _)) hc, le_trans hd (h2 _ _ (min_le_left _ _))⟩
  rintro rfl
  simp at hne

/-- C77: the same in three dimensions. -/
theorem C77_within_3d (config : K × K × K) (minX maxX minY maxY minZ maxZ step : K) (r1 r2 r3 : K → K)
    (valid : K × K × K → Bool) (h1 : ∀ a b, a ≤ b → r1 a ≤ r1 b) (h2 : ∀ a b, a ≤ b → r2 a ≤ r2 b)
    (h3 : ∀ a b, a ≤ b → r3 a ≤ r3 b) {q : K × K × K}
    (hq : q ∈ threeDimensional config minX maxX minY maxY minZ maxZ step
      (fun p => (r1 p.1, r2 p.2.1, r3 p.2.2)) valid) :
    valid q = true ∧ q ≠ config ∧ r1 minX ≤ q.1 ∧ q.1 ≤ r1 maxX ∧ r2 minY ≤ q.2.1 ∧ q.2.1 ≤ r2 maxY ∧
      r3 minZ ≤ q.2.2 ∧ q.2.2 ≤ r3 maxZ := by
  obtain ⟨dx, dy, dz, _, _, _, _, hacc⟩ := mem_three.1 hq
  simp only [accept3, Bool.and_eq_true, Bool.or_eq_true, decide_eq_true_eq] at hacc
  obtain ⟨⟨⟨⟨⟨⟨⟨ha, hb⟩, hc⟩, hd⟩, he⟩, hf⟩, hne⟩, hv⟩ := hacc
  refine ⟨hv, ?_, le_trans (h1 _ _ (le_max_left _ _)) ha, le_trans hb (h1 _ _ (min_le_left _ _)),
    le_trans (h2 _ _ (le_max_left _ _)) hc, le_trans hd (h2 _ _ (min_le_left _ _)),
    le_trans (h3 _ _ (le_max_left _ _)) he, le_trans hf (h3 _ _ (min_le_left _ _))⟩
  rintro rfl
  simp at hne

variable [IsStrictOrderedRing K]

theorem step_max {step : K} (hs : 0 < step) (a b : Int) :
    max (step * (a : K)) (step * b) = step * ((max a b : Int) : K) := by
  rw [Int.cast_max, mul_max_of_nonneg _ _ hs.le]

theorem step_min {step : K} (hs : 0 < step) (a b : Int) :
    min (step * (a : K)) (step * b) = step * ((min a b : Int) : K) := by
  rw [Int.cast_min, mul_min_of_nonneg _ _ hs.le]

theorem step_le {step : K} (hs : 0 < step) (a b : Int) : step * (a : K) ≤ step * b ↔ a ≤ b := by
  rw [mul_le_mul_iff_right₀ hs]
  exact_mod_cast Iff.rfl

theorem step_ne {step : K} (hs : 0 < step) (a b : Int) : step * (a : K) ≠ step * b ↔ a ≠ b := by
  rw [Ne, mul_right_inj' hs.ne']
  exact_mod_cast Iff.rfl

/-- C77: on a grid that rounding keeps, with bounds on the grid, the neighbours of a grid point are exactly the
valid grid points within the bounds that are at most one step away in each direction, other than the point
itself. -/
theorem C77_grid (step : K) (hs : 0 < step) (round : K × K → K × K) (valid : K × K → Bool)
    (hround : ∀ i j : Int, round (step * i, step * j) = (step * i, step * j)) (i j a b c d : Int) (q : K × K) :
    q ∈ twoDimensional (step * i, step * j) (step * a) (step * b) (step * c) (step * d) step round valid ↔
      ∃ i' j' : Int, q = (step * i', step * j') ∧ |i' - i| ≤ 1 ∧ |j' - j| ≤ 1 ∧ (i' ≠ i ∨ j' ≠ j) ∧
        a ≤ i' ∧ i' ≤ b ∧ c ≤ j' ∧ j' ≤ d ∧ valid q = true := by
  have hlow : round (max (step * (a : K)) (step * i - step), max (step * (c : K)) (step * j - step)) =
      (step * ((max a (i - 1) : Int) : K), step * ((max c (j - 1) : Int) : K)) := by
    rw [show step * (i : K) - step = step * ((i - 1 : Int) : K) by push_cast; ring,
      show step * (j : K) - step = step * ((j - 1 : Int) : K) by push_cast; ring, step_max hs, step_max hs, hround]
  have hhigh : round (min (step * (b : K)) (step * i + step), min (step * (d : K)) (step * j + step)) =
      (step * ((min b (i + 1) : Int) : K), step * ((min d (j + 1) : Int) : K)) := by
    rw [show step * (i : K) + step = step * ((i + 1 : Int) : K) by push_cast; ring,
      show step * (j : K) + step = step * ((j + 1 : Int) : K) by push_cast; ring, step_min hs, step_min hs, hround]
  have hpt : ∀ dx dy : Int, round (step * (i : K) + step * dx, step * (j : K) + step * dy) =
      (step * ((i + dx : Int) : K), step * ((j + dy : Int) : K)) := by
    intro dx dy
    rw [← hround]
    congr 2 <;> push_cast <;> ring
  rw [mem_two]
  simp only [hlow, hhigh, hpt]
  constructor
  · rintro ⟨dx, dy, hdx, hdy, rfl, hacc⟩
    simp only [accept2, Bool.and_eq_true, Bool.or_eq_true, decide_eq_true_eq, step_le hs, step_ne hs,
      max_le_iff, le_min_iff] at hacc
    obtain ⟨⟨⟨⟨⟨h1, h2⟩, h3⟩, h4⟩, h5⟩, h6⟩ := hacc
    exact ⟨i + dx, j + dy, rfl, by simpa using hdx, by simpa using hdy, h5, h1.1, h2.1, h3.1, h4.1, h6⟩
  · rintro ⟨i', j', rfl, hi, hj, hne, h1, h2, h3, h4, hv⟩
    refine ⟨i' - i, j' - j, hi, hj, ?_, ?_⟩
    · rw [add_sub_cancel, add_sub_cancel]
    · rw [abs_le] at hi hj
      simp only [accept2, Bool.and_eq_true, Bool.or_eq_true, decide_eq_true_eq, step_le hs, step_ne hs,
        max_le_iff, le_min_iff]
      exact ⟨⟨⟨⟨⟨⟨h1, by omega⟩, ⟨h2, by omega⟩⟩, ⟨h3, by omega⟩⟩, ⟨h4, by omega⟩⟩, hne⟩, hv⟩

/-- C77: the same in three dimensions. -/
theorem C77_grid_3d (step : K) (hs : 0 < step) (round : K × K × K → K × K × K) (valid : K × K × K → Bool)
    (hround : ∀ i j k : Int, round (step * i, step * j, step * k) = (step * i, step * j, step * k))
    (i j k a b c d e f : Int) (q : K × K × K) :
    q ∈ threeDimensional (step * i, step * j, step * k) (step * a) (step * b) (step * c) (step * d)
        (step * e) (step * f) step round valid ↔
      ∃ i' j' k' : Int, q = (step * i', step * j', step * k') ∧ |i' - i| ≤ 1 ∧ |j' - j| ≤ 1 ∧ |k' - k| ≤ 1 ∧
        (i' ≠ i ∨ j' ≠ j ∨ k' ≠ k) ∧ a ≤ i' ∧ i' ≤ b ∧ c ≤ j' ∧ j' ≤ d ∧ e ≤ k' ∧ k' ≤ f ∧ valid q = true := by
  have hm : ∀ n : Int, step * (n : K) - step = step * ((n - 1 : Int) : K) := by intro n; push_cast; ring
  have hp : ∀ n : Int, step * (n : K) + step = step * ((n + 1 : Int) : K) := by intro n; push_cast; ring
  have hpt : ∀ dx dy dz : Int,
      round (step * (i : K) + step * dx, step * (j : K) + step * dy, step * (k : K) + step * dz) =
      (step * ((i + dx : Int) : K), step * ((j + dy : Int) : K), step * ((k + dz : Int) : K)) := by
    intro dx dy dz
    rw [← hround]
    congr 2
    · push_cast; ring
    · congr 1 <;> push_cast <;> ring
  rw [mem_three]
  simp only [hm, hp, step_max hs, step_min hs, hround, hpt]
  constructor
  · rintro ⟨dx, dy, dz, hdx, hdy, hdz, rfl, hacc⟩
    simp only [accept3, Bool.and_eq_true, Bool.or_eq_true, decide_eq_true_eq, step_le hs, step_ne hs,
      max_le_iff, le_min_iff] at hacc
    obtain ⟨⟨⟨⟨⟨⟨⟨h1, h2⟩, h3⟩, h4⟩, h5⟩, h6⟩, h7⟩, h8⟩ := hacc
    exact ⟨i + dx, j + dy, k + dz, rfl, by simpa using hdx, by simpa using hdy, by simpa using hdz,
      or_assoc.1 h7, h1.1, h2.1, h3.1, h4.1, h5.1, h6.1, h8⟩
  · rintro ⟨i', j', k', rfl, hi, hj, hk, hne, h1, h2, h3, h4, h5, h6, hv⟩
    refine ⟨i' - i, j' - j, k' - k, hi, hj, hk, ?_, ?_⟩
    · rw [add_sub_cancel, add_sub_cancel, add_sub_cancel]
    · rw [abs_le] at hi hj hk
      simp only [accept3, Bool.and_eq_true, Bool.or_eq_true, decide_eq_true_eq, step_le hs, step_ne hs,
        max_le_iff, le_min_iff]
      exact ⟨⟨⟨⟨⟨⟨⟨⟨h1, by omega⟩, ⟨h2, by omega⟩⟩, ⟨h3, by omega⟩⟩, ⟨h4, by omega⟩⟩, ⟨h5, by omega⟩⟩,
        ⟨h6, by omega⟩⟩, or_assoc.2 hne⟩, hv⟩

/-- C77: on such a grid no neighbour is listed twice. -/
theorem C77_once (step : K) (hs : 0 < step) (round : K × K → K × K) (valid : K × K → Bool)
    (hround : ∀ i j : Int, round (step * i, step * j) = (step * i, step * j)) (i j : Int)
    (minX maxX minY maxY : K) :
    (twoDimensional (step * i, step * j) minX maxX minY maxY step round valid).Nodup := by
  have hpt : ∀ dx dy : Int, round (step * (i : K) + step * dx, step * (j : K) + step * dy) =
      (step * ((i + dx : Int) : K), step * ((j + dy : Int) : K)) := by
    intro dx dy
    rw [← hround]
    congr 2 <;> push_cast <;> ring
  have hoff : offsets.Nodup := by decide
  have hinj : ∀ a b : Int, step * ((i + a : Int) : K) = step * ((i + b : Int) : K) → a = b := by
    intro a b h
    have := mul_left_cancel₀ hs.ne' h
    have : i + a = i + b := by exact_mod_cast this
    omega
  have hinj2 : ∀ a b : Int, step * ((j + a : Int) : K) = step * ((j + b : Int) : K) → a = b := by
    intro a b h
    have := mul_left_cancel₀ hs.ne' h
    have : j + a = j + b := by exact_mod_cast this
    omega
  simp only [twoDimensional, hpt]
  rw [List.nodup_flatMap]
  refine ⟨?_, ?_⟩
  · intro dx _
    refine List.Nodup.filterMap ?_ hoff
    intro a b q hqa hqb
    rw [Option.mem_def] at hqa hqb
    split at hqa
    · split at hqb
      · injection hqa with hqa
        injection hqb with hqb
        rw [← hqb] at hqa
        exact hinj2 a b (Prod.mk.inj hqa).2
      · cases hqb
    · cases hqa
  · refine hoff.imp ?_
    intro a b hab q hqa hqb
    obtain ⟨y, _, hy⟩ := List.mem_filterMap.1 hqa
    obtain ⟨z, _, hz⟩ := List.mem_filterMap.1 hqb
    split at hy
    · split at hz
      · injection hy with hy
        injection hz with hz
        rw [← hz] at hy
        exact hab (hinj a b (Prod.mk.inj hy).1)
      · cases hz
    · cases hy

/-- C77: being neighbours is mutual for valid grid points within the bounds. -/
theorem C77_symmetric (step : K) (hs : 0 < step) (round : K × K → K × K) (valid : K × K → Bool)
    (hround : ∀ i j : Int, round (step * i, step * j) = (step * i, step * j)) (i j i' j' a b c d : Int)
    (hi : a ≤ i ∧ i ≤ b) (hj : c ≤ j ∧ j ≤ d) (hv : valid (step * i, step * j) = true)
    (h : ((step * i', step * j') : K × K) ∈
      twoDimensional (step * i, step * j) (step * a) (step * b) (step * c) (step * d) step round valid) :
    ((step * i, step * j) : K × K) ∈
      twoDimensional (step * i', step * j') (step * a) (step * b) (step * c) (step * d) step round valid := by
  rw [C77_grid step hs round valid hround] at h ⊢
  obtain ⟨x, y, hq, hx, hy, hne, _⟩ := h
  have hx' : i' = x := by
    have := mul_left_cancel₀ hs.ne' (Prod.mk.inj hq).1
    exact_mod_cast this
  have hy' : j' = y := by
    have := mul_left_cancel₀ hs.ne' (Prod.mk.inj hq).2
    exact_mod_cast this
  subst hx' hy'
  refine ⟨i, j, rfl, ?_, ?_, ?_, hi.1, hi.2, hj.1, hj.2, hv⟩
  · rw [abs_sub_comm]; exact hx
  · rw [abs_sub_comm]; exact hy
  · rcases hne with h | h
    · exact Or.inl h.symm
    · exact Or.inr h.symm

/-- Rounding to the nearest whole number. -/
def nearest (p : ℚ × ℚ) : ℚ × ℚ := (⌊p.1 + 1 / 2⌋, ⌊p.2 + 1 / 2⌋)

/-- C77: bounds that are not on the grid are not respected: a neighbour below the lower bound. -/
theorem C77_bounds_wrong :
    ((0, 1) : ℚ × ℚ) ∈ twoDimensional (1, 1) (2 / 5) 5 (2 / 5) 5 1 nearest (fun _ => true) ∧ (0 : ℚ) < 2 / 5 := by
  constructor
  · decide +kernel
  · norm_num

/-- C77: for a configuration off the grid there can be nine neighbours, among them the grid point that it
rounds to. -/
theorem C77_off_grid :
    (twoDimensional ((1 / 5, 1 / 5) : ℚ × ℚ) (-5) 5 (-5) 5 1 nearest (fun _ => true)).length = 9 ∧
    ((0, 0) : ℚ × ℚ) ∈ twoDimensional ((1 / 5, 1 / 5) : ℚ × ℚ) (-5) 5 (-5) 5 1 nearest (fun _ => true) := by
  decide +kernel

/-- Rounding to the nearest whole number keeps the grid of step one. -/
example (i j : Int) : nearest (1 * (i : ℚ), 1 * (j : ℚ)) = (1 * (i : ℚ), 1 * (j : ℚ)) := by
  have h : ∀ n : Int, ⌊1 * (n : ℚ) + 1 / 2⌋ = n := by
    intro n
    rw [Int.floor_eq_iff]
    constructor <;> linarith
  simp only [nearest, h]
  simp

example : twoDimensional ((0, 2) : ℚ × ℚ) 0 5 0 5 1 nearest (fun p => p ≠ (1, 2)) =
    [(0, 1), (0, 3), (1, 1), (1, 3)] := by decide +kernel

end Verif.GetNeighbours
