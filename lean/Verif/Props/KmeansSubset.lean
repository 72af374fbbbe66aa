import Verif.Props.Kmeans
import Verif.Props.VoxelRoundedSizes
import Verif.Model.KmeansSubset
import Verif.Spec.KmeansSubset

/-!
# Property C173 (simple_kmeans_clustering.hpp): how many points the preliminary clustering looks at, with rounding
-/
namespace Verif.Kmeans
open Verif.VoxelRounded (tenth nearest_tenth nearest_of whole_near)

theorem tenthUp_eq (n : Nat) : TenthUp n ((n + 9) / 10) := ⟨by omega, fun m' h => by omega⟩

/-- A whole number and a little more is rounded to the whole number. -/
theorem nearest_above (k : Nat) (h1 : 1 ≤ k) (h2 : k ≤ 2 ^ 52) : Nearest.rd ((k : ℝ) * (1 + 1 / 2 ^ 54)) = k := by
  obtain ⟨a, hlo, hhi⟩ : ∃ a, 2 ^ a ≤ k ∧ k < 2 ^ (a + 1) :=
    ⟨Nat.log 2 k, Nat.pow_log_le_self 2 (by omega), Nat.lt_pow_succ_log_self (by norm_num) k⟩
  have ha : a ≤ 52 := by
    by_contra hc
    have : 2 ^ 53 ≤ 2 ^ a := Nat.pow_le_pow_right (by norm_num) (by omega)
    omega
  obtain ⟨b, hb⟩ : ∃ b, a + b = 52 := ⟨52 - a, by omega⟩
  have he : (2 : ℝ) ^ (-(b : ℤ)) = 1 / 2 ^ b := by rw [zpow_neg, one_div, zpow_natCast]
  have hbp : (0 : ℝ) < 2 ^ b := by positivity
  have hlo' : 2 ^ 52 ≤ k * 2 ^ b := by
    have := Nat.mul_le_mul_right (2 ^ b) hlo
    rwa [← pow_add, hb] at this
  have hhi' : k * 2 ^ b + 1 ≤ 2 ^ 53 := by
    have := Nat.mul_lt_mul_of_pos_right hhi (show 0 < 2 ^ b by positivity)
    rw [← pow_add, show a + 1 + b = 53 by omega] at this
    omega
  have hloR : (2 : ℝ) ^ 52 ≤ (k : ℝ) * 2 ^ b := by exact_mod_cast hlo'
  have hhiR : (k : ℝ) * 2 ^ b + 1 ≤ 2 ^ 53 := by exact_mod_cast hhi'
  have hk : (1 : ℝ) ≤ k := by exact_mod_cast h1
  have e1 : (k : ℝ) * (1 + 1 / 2 ^ 54) / (1 / 2 ^ b) = k * 2 ^ b * (1 + 1 / 2 ^ 54) := by field_simp
  rw [nearest_of _ (-(b : ℤ)) ?_ ?_, he, e1, whole_near _ (k * 2 ^ b : ℤ)]
  · push_cast; field_simp
  · push_cast
    rw [abs_lt]
    constructor <;> linarith
  · rw [he, mul_one_div, div_le_iff₀ hbp]
    linarith
  · rw [he, mul_one_div, lt_div_iff₀ hbp]
    linarith

/-- **C173.** With rounding to nearest, the preliminary clustering looks at exactly a tenth of the points, rounded up. -/
theorem C173_size (n : Nat) (h : n ≤ 2 ^ 50) : TenthUp n (subsetSize Nearest.nearest n) := by
  have hn : Nearest.nearest.rd (n : ℝ) = n := by
    have := Nearest.nearest.int (n : ℤ) (by rw [abs_of_nonneg (by omega)]; omega)
    simpa using this
  have ht : Nearest.nearest.rd (1 / 10) = tenth := nearest_tenth
  have hx : (n : ℝ) * tenth = (n : ℝ) / 10 * (1 + 1 / 2 ^ 54) := by unfold tenth; ring
  have key : ⌈Nearest.nearest.rd ((n : ℝ) * tenth)⌉ = (((n + 9) / 10 : Nat) : ℤ) := by
    have hnR : (n : ℝ) ≤ 2 ^ 50 := by exact_mod_cast h
    obtain ⟨k, r, hr, rfl⟩ : ∃ k r, r < 10 ∧ n = 10 * k + r := ⟨n / 10, n % 10, by omega, by omega⟩
    rcases Nat.eq_zero_or_pos r with rfl | hr0
    · rw [show (10 * k + 0 + 9) / 10 = k by omega]
      rcases Nat.eq_zero_or_pos k with rfl | hk
      · simp [Nearest.nearest.zero]
      · rw [hx, show ((10 * k + 0 : Nat) : ℝ) / 10 = k by push_cast; ring]
        rw [show Nearest.nearest.rd ((k : ℝ) * (1 + 1 / 2 ^ 54)) = k from nearest_above k hk (by omega)]
        exact_mod_cast Int.ceil_intCast (k : ℤ)
    · rw [show (10 * k + r + 9) / 10 = k + 1 by omega, Int.ceil_eq_iff]
      have r1 : (1 : ℝ) ≤ r := by exact_mod_cast hr0
      have r9 : (r : ℝ) ≤ 9 := by exact_mod_cast (by omega : r ≤ 9)
      have hk0 : (0 : ℝ) ≤ k := by positivity
      push_cast at hnR hx ⊢
      have hk50 : (k : ℝ) ≤ 2 ^ 50 := by linarith
      rw [hx]
      have lo := Nearest.nearest.lower (x := (10 * (k : ℝ) + r) / 10 * (1 + 1 / 2 ^ 54)) (by positivity)
      constructor
      · refine lt_of_lt_of_le ?_ lo
        have hu : unit = 1 / 2 ^ 53 := rfl
        rw [hu]
        have : (k : ℝ) + 1 / 10 ≤ (10 * (k : ℝ) + r) / 10 := by linarith
        nlinarith
      · have h1 : (10 * (k : ℝ) + r) / 10 * (1 + 1 / 2 ^ 54) ≤ ((k + 1 : ℤ) : ℝ) := by push_cast; linarith
        have := Nearest.nearest.mono h1
        rw [Nearest.nearest.int _ (by rw [abs_of_nonneg (by omega)]; omega)] at this
        push_cast at this
        exact this
  have : subsetSize Nearest.nearest n = (n + 9) / 10 := by
    unfold subsetSize
    rw [hn, ht, key]
    rfl
  rw [this]
  exact tenthUp_eq n

theorem size_any (R : Rounding) (n : Nat) (h : n ≤ 2 ^ 50) :
    subsetSize R n = (n + 9) / 10 ∨ 0 < n ∧ n % 10 = 0 ∧ subsetSize R n = (n + 9) / 10 + 1 := by
  have hn : R.rd (n : ℝ) = n := by
    have := R.int (n : ℤ) (by rw [abs_of_nonneg (by omega)]; omega)
    simpa using this
  have hu : unit = 1 / 2 ^ 53 := rfl
  have t1 := R.lower (x := 1 / 10) (by norm_num)
  have t2 := R.upper (x := 1 / 10) (by norm_num)
  have hnR : (n : ℝ) ≤ 2 ^ 50 := by exact_mod_cast h
  have hn0 : (0 : ℝ) ≤ n := by positivity
  have x1 : (n : ℝ) / 10 * (1 - unit) ≤ n * R.rd (1 / 10) := by
    have := mul_le_mul_of_nonneg_left t1 hn0
    linarith
  have x2 : (n : ℝ) * R.rd (1 / 10) ≤ n / 10 * (1 + unit) := by
    have := mul_le_mul_of_nonneg_left t2 hn0
    linarith
  have x0 : 0 ≤ (n : ℝ) * R.rd (1 / 10) := mul_nonneg hn0 (R.nonneg (by norm_num))
  have lo := R.lower x0
  unfold subsetSize
  rw [hn]
  generalize (n : ℝ) * R.rd (1 / 10) = x at *
  have lo' : (n : ℝ) / 10 * (1 - 2 * unit) ≤ R.rd x := by
    have h1 := mul_le_mul_of_nonneg_right x1 (show 0 ≤ 1 - unit by rw [hu]; norm_num)
    rw [hu] at *
    nlinarith
  obtain ⟨k, r, hr, rfl⟩ : ∃ k r, r < 10 ∧ n = 10 * k + r := ⟨n / 10, n % 10, by omega, by omega⟩
  rw [hu] at *
  have r9 : (r : ℝ) ≤ 9 := by exact_mod_cast (by omega : r ≤ 9)
  have r0 : (0 : ℝ) ≤ r := by positivity
  push_cast at hnR x1 x2 lo'
  have hi : R.rd x ≤ ((k + 1 : ℤ) : ℝ) := by
    have h1 : x ≤ ((k + 1 : ℤ) : ℝ) := by push_cast; linarith
    have := R.mono h1
    rwa [R.int _ (by rw [abs_of_nonneg (by omega)]; omega)] at this
  have c1 : ⌈R.rd x⌉ ≤ k + 1 := Int.ceil_le.2 hi
  rcases Nat.eq_zero_or_pos r with rfl | hr0
  · rcases Nat.eq_zero_or_pos k with rfl | hk
    · left
      have : x = 0 := by norm_num at x1 x2; linarith
      rw [this, R.zero]; simp
    · have c2 : (k : ℤ) - 1 < ⌈R.rd x⌉ := by
        rw [Int.lt_ceil]
        push_cast at lo' ⊢
        linarith
      omega
  · left
    have r1 : (1 : ℝ) ≤ r := by exact_mod_cast hr0
    have c2 : (k : ℤ) < ⌈R.rd x⌉ := by
      rw [Int.lt_ceil]
      push_cast
      linarith
    omega

/-- **C173.** With any rounding, the preliminary clustering looks at a tenth of the points, rounded up, or at one point
more. It never looks for more points than there are, so drawing them can end. -/
theorem C173_any (R : Rounding) (n : Nat) (h : n ≤ 2 ^ 50) :
    subsetSize R n ≤ n ∧ ∃ m, TenthUp n m ∧ (subsetSize R n = m ∨ subsetSize R n = m + 1) := by
  refine ⟨?_, _, tenthUp_eq n, ?_⟩
  · rcases size_any R n h with h1 | ⟨h1, h2, h3⟩ <;> omega
  · rcases size_any R n h with h1 | ⟨h1, h2, h3⟩
    · exact .inl h1
    · exact .inr h3

variable {W α : Type} [LinearOrder W]

/-- **C173.** With rounding to nearest, there is a preliminary clustering exactly when there are more than 50 points
for each cluster, less ten: otherwise the clustering is the one without, and if there is one, it is a clustering of
a tenth of the points, rounded up, which are distinct, and its centers are the initial ones of the clustering of all
points. -/
theorem C173_cluster (inf : W) (distance : α → α → W) (average : List α → Out α) (fuel : Nat)
    (draws draws' : Nat → Nat) (data : List α) (num : Nat) (hnum : 2 ≤ num) (hmax : num * 5 < 2 ^ 32)
    (hdata : data.length ≤ 2 ^ 50) :
    (data.length + 10 ≤ 50 * num →
      clusterTenth Nearest.nearest inf distance (computeCenters average) fuel draws draws' data num =
        clusterPlain inf distance (computeCenters average) fuel draws data num) ∧
    (50 * num < data.length + 10 → InRange data.length draws → InRange ((data.length + 9) / 10) draws' →
      ∀ labels, clusterTenth Nearest.nearest inf distance (computeCenters average) fuel draws draws' data num =
          some (.ok labels) →
        ∃ (indices : List Nat) (points : List α) (labels' : List Nat) (centers : List α),
          indices.Pairwise (· < ·) ∧ TenthUp data.length indices.length ∧ (∀ i ∈ indices, ∃ t, i = draws t) ∧
          indices.map (fun i => data[i]?) = points.map some ∧
          (∃ final, final.length = num ∧ LabelsClosest distance points final labels' ∧
            CentersAverage average points final labels') ∧
          centers.length = num ∧ CentersAverage average points centers labels' ∧
          ∃ final, cluster inf distance (computeCenters average) fuel data centers = some (.ok (labels, final))) := by
  have hs : subsetSize Nearest.nearest data.length = (data.length + 9) / 10 := by
    have a := C173_size data.length hdata
    have b := tenthUp_eq data.length
    have := a.2 _ b.1
    have := b.2 _ a.1
    omega
  constructor
  · intro h
    exact C32_no_preliminary inf distance _ fuel draws draws' data num _ hmax (by rw [hs]; omega)
  · intro h hd hd' labels hl
    obtain ⟨indices, points, labels', centers, h1, h2, h3⟩ :=
      C32_preliminary inf distance average fuel draws draws' data num (subsetSize Nearest.nearest data.length) hnum hmax
        (by rw [hs]; omega) hd (by rw [hs]; exact hd') labels hl
    refine ⟨indices, points, labels', centers, h1, ?_, h3⟩
    rw [h2]
    exact C173_size data.length hdata

theorem size_100 : subsetSize Nearest.nearest 100 = 10 ∧ subsetSize Nearest.nearest 101 = 11 := by
  have a := C173_size 100 (by norm_num)
  have b := C173_size 101 (by norm_num)
  have := a.2 10 (by norm_num)
  have := b.2 11 (by norm_num)
  have := a.1
  have := b.1
  omega

/-- A hundred points in two clusters: the preliminary clustering looks at ten. -/
example : ∃ labels, clusterTenth Nearest.nearest Dist.inf natDistance (computeCenters natAverage) 30
    (fun i => (7 * i) % 100) (fun i => (3 * i) % 10) (List.range 100) 2 = some (.ok labels) := by
  unfold clusterTenth
  rw [List.length_range, size_100.1]
  refine ⟨List.replicate 50 0 ++ List.replicate 50 1, ?_⟩
  decide +kernel

end Verif.Kmeans
