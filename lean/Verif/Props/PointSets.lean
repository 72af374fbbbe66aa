import Mathlib.Algebra.BigOperators.Fin
import Mathlib.Data.List.Nodup
import Mathlib.Data.List.FinRange
import Mathlib.Tactic.Linarith
import Mathlib.Analysis.InnerProductSpace.PiL2
import Verif.Model.PointSets
import Verif.Spec.Projection
import Verif.Props.Projection

/-!
# Path lengths (C92), distances in point sets (C93) and conversions (C94)
-/
namespace Verif.PointSets
open Verif Matrix Verif.Projection

/-! ### C92: path lengths -/

theorem norm_sub (a b : Point 3) : Projection.norm (b - a) = distance a b := by
  rw [distance_eq, show a - b = -(b - a) by abel, Projection.norm_neg]

/-- The lengths of the steps of a path -/
noncomputable def steps : List (Point 3) → List ℝ
  | [] => []
  | [_] => []
  | p :: q :: ps => distance p q :: steps (q :: ps)

theorem totalLoop_eq (p : Point 3) (d : ℝ) (ps : List (Point 3)) : totalLoop p d ps = d + (steps (p :: ps)).sum := by
  induction ps generalizing p d with
  | nil => simp [totalLoop, steps]
  | cons q qs ih => rw [totalLoop, ih, steps, List.sum_cons, norm_sub]; ring

theorem total_eq (ps : List (Point 3)) : calculateTotalDistance ps = (steps ps).sum := by
  cases ps with
  | nil => simp [calculateTotalDistance, steps]
  | cons p ps => rw [calculateTotalDistance, totalLoop_eq, zero_add]

theorem steps_length (ps : List (Point 3)) : (steps ps).length = ps.length - 1 := by
  induction ps with
  | nil => rfl
  | cons p ps ih =>
    cases ps with
    | nil => rfl
    | cons q qs => simp only [steps, List.length_cons] at ih ⊢; omega

theorem steps_get (ps : List (Point 3)) (i : Nat) (h : i + 1 < ps.length) :
    (steps ps)[i]? = some (distance ps[i] ps[i + 1]) := by
  induction ps generalizing i with
  | nil => simp at h
  | cons p ps ih =>
    cases ps with
    | nil => simp at h
    | cons q qs =>
      cases i with
      | zero => simp [steps]
      | succ i =>
        have := ih i (by simpa using h)
        simpa [steps] using this

theorem triangle (a b c : Point 3) : distance a c ≤ distance a b + distance b c := by
  have e : ∀ x y : Point 3, distance x y = dist (WithLp.toLp 2 x) (WithLp.toLp 2 y) := by
    intro x y
    rw [EuclideanSpace.dist_eq]
    unfold distance
    congr 1
    refine Finset.sum_congr rfl fun i _ => ?_
    rw [Real.dist_eq, sq_abs]
  rw [e, e, e]
  exact dist_triangle _ _ _

/-- C92: the total distance is the sum of the distances of neighbours, and at least the distance of the ends. -/
theorem C92_total (ps : List (Point 3)) :
    calculateTotalDistance ps = ∑ i : Fin (ps.length - 1),
      distance (ps[i.val]'(by have := i.isLt; omega)) (ps[i.val + 1]'(by have := i.isLt; omega)) ∧
    ∀ h : ps ≠ [], distance (ps.head h) (ps.getLast h) ≤ calculateTotalDistance ps := by
  constructor
  · rw [total_eq]
    have hl := steps_length ps
    rw [← List.ofFn_getElem (xs := steps ps), List.sum_ofFn]
    have key : ∀ (n : Nat) (hn : n = ps.length - 1) (f : Fin n → ℝ)
        (_ : ∀ i : Fin n, f i = distance (ps[i.val]'(by have := i.isLt; omega)) (ps[i.val + 1]'(by have := i.isLt; omega))),
        ∑ i, f i = ∑ i : Fin (ps.length - 1),
      distance (ps[i.val]'(by have := i.isLt; omega)) (ps[i.val + 1]'(by have := i.isLt; omega)) := by
      intro n hn f hf
      subst hn
      exact Finset.sum_congr rfl fun i _ => hf i
    apply key _ hl
    intro i
    have hi := i.isLt
    have := steps_get ps i (by omega)
    rw [List.getElem?_eq_getElem hi] at this
    exact Option.some.inj this
  · intro h
    rw [total_eq]
    induction ps with
    | nil => exact absurd rfl h
    | cons p ps ih =>
      cases ps with
      | nil =>
        simp only [List.head_cons, List.getLast_singleton, steps, List.sum_nil]
        rw [distance_eq, sub_self]
        simp [Projection.norm, squaredNorm]
      | cons q qs =>
        have h1 := ih (by simp)
        rw [List.getLast_cons (by simp)]
        simp only [List.head_cons, steps, List.sum_cons] at h1 ⊢
        have h2 := triangle p q ((q :: qs).getLast (by simp))
        linarith

example : calculateTotalDistance [![0, 0, 0], ![3, 4, 0], ![3, 4, 12]] = 17 := by
  rw [(C92_total _).1]
  simp only [List.length_cons, List.length_nil, Nat.reduceAdd, Nat.add_one_sub_one, Fin.sum_univ_two]
  have h1 : distance (n := 3) ![0, 0, 0] ![3, 4, 0] = 5 := by
    unfold distance
    rw [Real.sqrt_eq_iff_mul_self_eq_of_pos (by norm_num), Fin.sum_univ_three]
    simp; norm_num
  have h2 : distance (n := 3) ![3, 4, 0] ![3, 4, 12] = 12 := by
    unfold distance
    rw [Real.sqrt_eq_iff_mul_self_eq_of_pos (by norm_num), Fin.sum_univ_three]
    simp; norm_num
  exact (congrArg₂ (· + ·) h1 h2).trans (by norm_num)

theorem individualLoop_eq (p : Point 3) (ps : List (Point 3)) : individualLoop p ps = steps (p :: ps) := by
  induction ps generalizing p with
  | nil => rfl
  | cons q qs ih => rw [individualLoop, ih, steps, norm_sub]

/-- C92: the individual distances are as many as the points: zero, and then the distance of each point to the one
before. -/
theorem C92_individual (ps : List (Point 3)) :
    (calculateIndividualDistances ps).length = ps.length ∧
    (0 < ps.length → (calculateIndividualDistances ps)[0]? = some 0) ∧
    ∀ i (h : i + 1 < ps.length), (calculateIndividualDistances ps)[i + 1]? = some (distance ps[i] ps[i + 1]) := by
  cases ps with
  | nil => simp [calculateIndividualDistances]
  | cons p ps =>
    rw [calculateIndividualDistances, individualLoop_eq]
    refine ⟨by simp [steps_length], fun _ => rfl, fun i h => ?_⟩
    rw [List.getElem?_cons_succ]
    exact steps_get _ i h

theorem cumulativeLoop_length (p : Point 3) (d : ℝ) (ps : List (Point 3)) :
    (cumulativeLoop p d ps).length = ps.length := by
  induction ps generalizing p d with
  | nil => rfl
  | cons q qs ih => simp [cumulativeLoop, ih]

theorem cumulativeLoop_get (p : Point 3) (d : ℝ) (ps : List (Point 3)) (i : Nat) (h : i < ps.length) :
    (cumulativeLoop p d ps)[i]? = some (totalLoop p d (ps.take (i + 1))) := by
  induction ps generalizing p d i with
  | nil => simp at h
  | cons q qs ih =>
    cases i with
    | zero => simp [cumulativeLoop, totalLoop]
    | succ i =>
      rw [cumulativeLoop, List.getElem?_cons_succ, ih _ _ i (by simpa using h), List.take_succ_cons, totalLoop]

theorem steps_nonneg (ps : List (Point 3)) : ∀ x ∈ steps ps, 0 ≤ x := by
  induction ps with
  | nil => simp [steps]
  | cons p ps ih =>
    cases ps with
    | nil => simp [steps]
    | cons q qs =>
      intro x hx
      simp only [steps, List.mem_cons] at hx
      rcases hx with rfl | hx
      · exact Real.sqrt_nonneg _
      · exact ih x (by simpa using hx)

/-- C92: the cumulative distance of a point is the total distance of the path up to it; so the last one is the total,
and they never decrease. -/
theorem C92_cumulative (ps : List (Point 3)) :
    (calculateCumulativeDistances ps).length = ps.length ∧
    (∀ i, i < ps.length → (calculateCumulativeDistances ps)[i]? = some (calculateTotalDistance (ps.take (i + 1)))) ∧
    (ps ≠ [] → (calculateCumulativeDistances ps).getLast? = some (calculateTotalDistance ps)) ∧
    (calculateCumulativeDistances ps).Pairwise (· ≤ ·) := by
  have hl : (calculateCumulativeDistances ps).length = ps.length := by
    cases ps with
    | nil => rfl
    | cons p ps => simp [calculateCumulativeDistances, cumulativeLoop_length]
  have hg : ∀ i, i < ps.length →
      (calculateCumulativeDistances ps)[i]? = some (calculateTotalDistance (ps.take (i + 1))) := by
    intro i hi
    cases ps with
    | nil => simp at hi
    | cons p ps =>
      cases i with
      | zero => simp [calculateCumulativeDistances, calculateTotalDistance, totalLoop]
      | succ i =>
        rw [calculateCumulativeDistances, List.getElem?_cons_succ, cumulativeLoop_get _ _ _ _ (by simpa using hi),
          List.take_succ_cons, calculateTotalDistance]
  refine ⟨hl, hg, ?_, ?_⟩
  · intro h
    have hp : 0 < ps.length := List.length_pos_of_ne_nil h
    rw [List.getLast?_eq_getElem?, hl, hg _ (by omega), List.take_of_length_le (by omega)]
  · cases ps with
    | nil => simp [calculateCumulativeDistances]
    | cons p ps =>
      have key : ∀ (p : Point 3) (d : ℝ) (ps : List (Point 3)),
          (d :: cumulativeLoop p d ps).Pairwise (· ≤ ·) := by
        intro p d ps
        induction ps generalizing p d with
        | nil => simp [cumulativeLoop]
        | cons q qs ih =>
          have h0 : 0 ≤ Projection.norm (q - p) := Real.sqrt_nonneg _
          have := ih q (d + Projection.norm (q - p))
          rw [cumulativeLoop, List.pairwise_cons]
          refine ⟨?_, this⟩
          intro x hx
          rcases List.mem_cons.1 hx with rfl | hx
          · linarith
          · have := (List.pairwise_cons.1 this).1 x hx
            linarith
      exact key p 0 ps

/-! ### C93: distances in sets -/

theorem foldl_write_other (ws : List Write) (m : Nat → Nat → ℝ) (i j : Nat) (h : ∀ w ∈ ws, ¬ (w.1 = i ∧ w.2.1 = j)) :
    ws.foldl write m i j = m i j := by
  induction ws generalizing m with
  | nil => rfl
  | cons w ws ih =>
    rw [List.foldl_cons, ih _ (fun w hw => h w (List.mem_cons_of_mem _ hw))]
    unfold write
    rw [if_neg]
    rintro ⟨rfl, rfl⟩
    exact h w List.mem_cons_self ⟨rfl, rfl⟩

/-- The writes leave the value of a cell if they all agree on it -/
theorem foldl_write_value (ws : List Write) (m : Nat → Nat → ℝ) (i j : Nat) (x : ℝ) (hex : ∃ w ∈ ws, w.1 = i ∧ w.2.1 = j)
    (hall : ∀ w ∈ ws, w.1 = i → w.2.1 = j → w.2.2 = x) : ws.foldl write m i j = x := by
  induction ws generalizing m with
  | nil => simp at hex
  | cons w ws ih =>
    rw [List.foldl_cons]
    by_cases h : ∃ w ∈ ws, w.1 = i ∧ w.2.1 = j
    · exact ih _ h fun w hw => hall w (List.mem_cons_of_mem _ hw)
    · push Not at h
      rw [foldl_write_other ws _ i j (fun w hw hc => h w hw hc.1 hc.2)]
      obtain ⟨w', hw', h1, h2⟩ := hex
      rcases List.mem_cons.1 hw' with rfl | hw'
      · unfold write
        rw [if_pos ⟨h1.symm, h2.symm⟩]
        exact hall _ List.mem_cons_self h1 h2
      · exact absurd h2 (h w' hw' h1)

theorem sq_symm {d : Nat} (a b : Point d) : squaredNorm (a - b) = squaredNorm (b - a) := by
  have e : a - b = -(b - a) := by abel
  rw [e]
  unfold squaredNorm
  rw [neg_dotProduct, dotProduct_neg, neg_neg]

theorem sq_distance {d : Nat} (a b : Point d) : squaredNorm (a - b) = ∑ k, (a k - b k) ^ 2 := by
  simp [squaredNorm, dotProduct, sq]

theorem mem_allWrites {d n : Nat} (set : Fin n → Point d) (w : Write) :
    w ∈ allWrites set ↔ ∃ i j : Fin n, w = ((i : Nat), (j : Nat), squaredNorm (set i - set j)) := by
  unfold allWrites rowWrites
  simp only [List.mem_flatMap, List.mem_finRange, true_and, List.mem_cons, List.mem_filter, decide_eq_true_eq,
    List.not_mem_nil, or_false]
  constructor
  · rintro ⟨i, rfl | ⟨j, -, rfl | rfl⟩⟩
    · exact ⟨i, i, by simp [squaredNorm]⟩
    · exact ⟨i, j, rfl⟩
    · exact ⟨j, i, by rw [sq_symm]⟩
  · rintro ⟨i, j, rfl⟩
    rcases lt_trichotomy i j with h | h | h
    · exact ⟨i, Or.inr ⟨j, h, Or.inl rfl⟩⟩
    · subst h; exact ⟨i, Or.inl (by simp [squaredNorm])⟩
    · exact ⟨j, Or.inr ⟨i, h, Or.inr (by rw [sq_symm])⟩⟩

/-- C93: whatever the order in which the threads write, and whatever the matrix contained, the result holds the squared
distance of every pair of points, and the distance matrix their distance; an empty set fails the assertion. -/
theorem C93_matrix {d n : Nat} (set : Fin n → Point d) (garbage : Nat → Nat → ℝ) (order : List Write)
    (h : order.Perm (allWrites set)) :
    (n = 0 → calculateSquaredDistanceMatrix set garbage order = .abort ∧
      calculateDistanceMatrix set garbage order = .abort) ∧
    (0 < n → ∃ m m', calculateSquaredDistanceMatrix set garbage order = .ok m ∧
      calculateDistanceMatrix set garbage order = .ok m' ∧
      ∀ i j : Fin n, m i j = ∑ k, (set i k - set j k) ^ 2 ∧ m' i j = distance (set i) (set j)) := by
  constructor
  · intro h0
    subst h0
    unfold calculateDistanceMatrix calculateSquaredDistanceMatrix
    rw [Out.assert_false (by simp)]
    exact ⟨rfl, rfl⟩
  · intro hn
    have e : calculateSquaredDistanceMatrix set garbage order = .ok (order.foldl write garbage) := by
      unfold calculateSquaredDistanceMatrix
      rw [Out.assert_true hn]; rfl
    have key : ∀ i j : Fin n, order.foldl write garbage i j = ∑ k, (set i k - set j k) ^ 2 := by
      intro i j
      rw [← sq_distance]
      apply foldl_write_value
      · exact ⟨_, h.mem_iff.2 ((mem_allWrites set _).2 ⟨i, j, rfl⟩), rfl, rfl⟩
      · intro w hw h1 h2
        obtain ⟨i', j', rfl⟩ := (mem_allWrites set _).1 (h.mem_iff.1 hw)
        simp only at h1 h2
        rw [Fin.ext h1, Fin.ext h2]
    refine ⟨_, _, e, by unfold calculateDistanceMatrix; rw [e]; rfl, fun i j => ⟨key i j, ?_⟩⟩
    simp only [key]
    rfl

/-- The threads may write the last rows first. -/
example : ∃ m m', calculateSquaredDistanceMatrix ![![0, 0], ![3, 4]] (fun _ _ => 7)
      (allWrites ![![0, 0], ![3, 4]]).reverse = .ok m ∧
    calculateDistanceMatrix ![![0, 0], ![3, 4]] (fun _ _ => 7) (allWrites ![![0, 0], ![3, 4]]).reverse = .ok m' ∧
    m 0 1 = 25 ∧ m' 1 0 = distance ![3, 4] ![0, 0] := by
  obtain ⟨m, m', h1, h2, h3⟩ := (C93_matrix (d := 2) (n := 2) ![![0, 0], ![3, 4]] (fun _ _ => 7)
    (allWrites ![![0, 0], ![3, 4]]).reverse (List.reverse_perm _)).2 (by decide)
  refine ⟨m, m', h1, h2, ?_, (h3 1 0).2⟩
  have h := (h3 0 1).1
  simp [Fin.sum_univ_two] at h
  rw [h]; norm_num

/-- C93: no cell is written twice, so the writes of the threads do not race. -/
theorem C93_race_free {d n : Nat} (set : Fin n → Point d) :
    ((allWrites set).map fun w => (w.1, w.2.1)).Nodup := by
  unfold allWrites rowWrites
  rw [List.map_flatMap, List.nodup_flatMap]
  constructor
  · intro i _
    simp only [List.map_cons, List.map_flatMap, List.map_nil]
    rw [List.nodup_cons, List.nodup_flatMap]
    refine ⟨?_, ?_, ?_⟩
    · simp only [List.mem_flatMap, List.mem_filter, decide_eq_true_eq, List.mem_cons, Prod.mk.injEq,
        List.not_mem_nil, or_false, not_exists, not_and]
      rintro j ⟨-, hj⟩ hc
      rcases hc with hc | hc
      · exact absurd (Fin.ext hc.2) hj.ne
      · exact absurd (Fin.ext hc.1) hj.ne
    · intro j hj
      simp only [List.mem_filter, decide_eq_true_eq] at hj
      rw [List.nodup_cons]
      refine ⟨?_, List.nodup_singleton _⟩
      simp only [List.mem_singleton, Prod.mk.injEq, not_and]
      intro hc
      exact absurd (Fin.ext hc) hj.2.ne
    · apply List.Pairwise.imp_of_mem _ ((List.nodup_finRange n).filter _)
      intro a b ha hb hab
      simp only [List.mem_filter, decide_eq_true_eq] at ha hb
      unfold Function.onFun
      simp only [List.disjoint_cons_left, List.disjoint_nil_left, List.mem_cons, Prod.mk.injEq, List.not_mem_nil,
        or_false, and_true, true_and]
      have h1 : (a : Nat) ≠ b := fun h => hab (Fin.ext h)
      have h2 : (i : Nat) < a := ha.2
      have h3 : (i : Nat) < b := hb.2
      omega
  · apply List.Pairwise.imp _ (List.nodup_finRange n)
    intro a b hab
    unfold Function.onFun
    have h1 : (a : Nat) ≠ b := fun h => hab (Fin.ext h)
    intro c hc hd
    simp only [List.map_cons, List.map_flatMap, List.map_nil, List.mem_cons, List.mem_flatMap, List.mem_filter,
      decide_eq_true_eq, List.not_mem_nil, or_false] at hc hd
    rcases hc with rfl | ⟨j, ⟨-, hj⟩, rfl | rfl⟩ <;> rcases hd with hd | ⟨k, ⟨-, hk⟩, hd | hd⟩ <;>
      simp only [Prod.mk.injEq] at hd
    · omega
    · omega
    · have : (b : Nat) < k := hk
      omega
    · omega
    · omega
    · have h2 : (a : Nat) < j := hj
      have h3 : (b : Nat) < k := hk
      omega
    · have h2 : (a : Nat) < j := hj
      omega
    · have h2 : (a : Nat) < j := hj
      have h3 : (b : Nat) < k := hk
      omega
    · omega

theorem minCoeffLoop_spec (best : ℝ) (index next : Nat) (cs : List ℝ) :
    (minCoeffLoop best index next cs = index ∧ ∀ c ∈ cs, best ≤ c) ∨
    (∃ k, ∃ h : k < cs.length, minCoeffLoop best index next cs = next + k ∧ cs[k] < best ∧
      (∀ c ∈ cs, cs[k] ≤ c) ∧ ∀ l (hl : l < k), cs[k] < cs[l]) := by
  induction cs generalizing best index next with
  | nil => left; simp [minCoeffLoop]
  | cons c cs ih =>
    unfold minCoeffLoop
    by_cases h : c < best
    · right
      rw [if_pos h]
      rcases ih c next (next + 1) with ⟨h1, h2⟩ | ⟨k, hk, h1, h2, h3, h4⟩
      · refine ⟨0, by simp, h1, by simpa using h, ?_, by simp⟩
        intro x hx
        rcases List.mem_cons.1 hx with rfl | hx
        · simp
        · simpa using h2 x hx
      · refine ⟨k + 1, by simpa using hk, by rw [h1]; omega, by simp; linarith, ?_, ?_⟩
        · intro x hx
          rcases List.mem_cons.1 hx with rfl | hx
          · simpa using h2.le
          · simpa using h3 x hx
        · intro l hl
          cases l with
          | zero => simpa using h2
          | succ l => simpa using h4 l (by omega)
    · rw [if_neg h]
      push Not at h
      rcases ih best index (next + 1) with ⟨h1, h2⟩ | ⟨k, hk, h1, h2, h3, h4⟩
      · left
        refine ⟨h1, ?_⟩
        intro x hx
        rcases List.mem_cons.1 hx with rfl | hx
        · exact h
        · exact h2 x hx
      · right
        refine ⟨k + 1, by simpa using hk, by rw [h1]; omega, by simpa using h2, ?_, ?_⟩
        · intro x hx
          rcases List.mem_cons.1 hx with rfl | hx
          · simp; linarith
          · simpa using h3 x hx
        · intro l hl
          cases l with
          | zero => simp; linarith
          | succ l => simpa using h4 l (by omega)

theorem sq_le_iff {d : Nat} (a b p : Point d) :
    squaredNorm (a - p) ≤ squaredNorm (b - p) ↔ distance a p ≤ distance b p := by
  rw [sq_distance, sq_distance]
  exact (Real.sqrt_le_sqrt_iff (Finset.sum_nonneg fun _ _ => sq_nonneg _)).symm

theorem sq_lt_iff {d : Nat} (a b p : Point d) :
    squaredNorm (a - p) < squaredNorm (b - p) ↔ distance a p < distance b p := by
  rw [sq_distance, sq_distance]
  exact (Real.sqrt_lt_sqrt_iff (Finset.sum_nonneg fun _ _ => sq_nonneg _)).symm

/-- C93: the closest point is the first of those at the smallest distance; an empty set fails the assertion. -/
theorem C93_closest {d : Nat} (set : List (Point d)) (point : Point d) :
    (set = [] → closestPointInSet set point = .abort) ∧
    (set ≠ [] → ∃ i, ∃ h : i < set.length, closestPointInSet set point = .ok i ∧
      (∀ p ∈ set, distance set[i] point ≤ distance p point) ∧
      ∀ j (hj : j < i), distance set[i] point < distance set[j] point) := by
  constructor
  · rintro rfl; rfl
  · intro hs
    obtain ⟨c, cs, rfl⟩ := List.exists_cons_of_ne_nil hs
    have e : closestPointInSet (c :: cs) point =
        .ok (minCoeffLoop (squaredNorm (c - point)) 0 1 (cs.map fun c => squaredNorm (c - point))) := rfl
    rw [e]
    rcases minCoeffLoop_spec (squaredNorm (c - point)) 0 1 (cs.map fun c => squaredNorm (c - point)) with
      ⟨h1, h2⟩ | ⟨k, hk, h1, h2, h3, h4⟩
    · refine ⟨0, by simp, by rw [h1], ?_, by simp⟩
      intro p hp
      rcases List.mem_cons.1 hp with rfl | hp
      · simp
      · exact (sq_le_iff _ _ _).1 (h2 _ (List.mem_map_of_mem hp))
    · have hk' : k < cs.length := by simpa using hk
      simp only [List.getElem_map] at h2 h3 h4
      refine ⟨k + 1, by simpa using hk, by rw [h1, Nat.add_comm], ?_, ?_⟩
      · intro p hp
        simp only [List.getElem_cons_succ]
        rcases List.mem_cons.1 hp with rfl | hp
        · exact ((sq_lt_iff _ _ _).1 h2).le
        · exact (sq_le_iff _ _ _).1 (h3 _ (List.mem_map_of_mem hp))
      · intro j hj
        cases j with
        | zero => exact (sq_lt_iff _ _ _).1 h2
        | succ j =>
          simp only [List.getElem_cons_succ]
          exact (sq_lt_iff _ _ _).1 (h4 j (by omega))

/-- C93: distances to a set and between two sets are those of the points, entry by entry. -/
theorem C93_sets {d : Nat} (A B : List (Point d)) (point : Point d) :
    calculateSquaredDistanceToSet A point = A.map (fun a => ∑ k, (a k - point k) ^ 2) ∧
    calculateDistanceToSet A point = A.map (fun a => distance a point) ∧
    squaredDistancesBetweenPointSets A B = B.map (fun b => A.map fun a => ∑ k, (a k - b k) ^ 2) := by
  refine ⟨?_, ?_, ?_⟩
  · unfold calculateSquaredDistanceToSet
    simp only [sq_distance]
  · unfold calculateDistanceToSet calculateSquaredDistanceToSet
    rw [List.map_map]
    simp only [sq_distance, Function.comp_def]
    rfl
  · unfold squaredDistancesBetweenPointSets
    simp only [sq_distance]

/-- C93: the squared distance of two vectors of the same size is the sum of the squared differences; vectors of different
sizes fail the assertion. -/
theorem C93_squared_distance (v w : List ℝ) :
    (v.length ≠ w.length → squaredDistance v w = .abort) ∧
    (v.length = w.length → squaredDistance v w = .ok ((List.zipWith (fun a b => (a - b) ^ 2) v w).sum)) := by
  constructor
  · intro h
    unfold squaredDistance
    rw [Out.assert_false h]; rfl
  · intro h
    unfold squaredDistance
    rw [Out.assert_true h, Out.bind_ok, List.zipWith_comm]
    congr 3
    funext a b
    ring

/-! ### C94: conversions -/

/-- C94: vectors of three numbers and quaternions (in the order x, y, z, w) go to lists and back; lists of the wrong
length fail the assertion. -/
theorem C94_small (p : Point 3) (q : ℝ × ℝ × ℝ × ℝ) (l : List ℝ) :
    stdVectorDoubleToEigenVector3d (eigenVector3dToStdVectorDouble p) = .ok p ∧
    stdVectorDoubleToEigenQuaterniond (eigenQuaterniondToStdVectorDouble q) = .ok q ∧
    eigenQuaterniondToStdVectorDouble q = [q.2.1, q.2.2.1, q.2.2.2, q.1] ∧
    (stdVectorDoubleToEigenVector3d l = .abort ↔ l.length ≠ 3) ∧
    (stdVectorDoubleToEigenQuaterniond l = .abort ↔ l.length ≠ 4) := by
  refine ⟨?_, rfl, rfl, ?_, ?_⟩
  · unfold eigenVector3dToStdVectorDouble stdVectorDoubleToEigenVector3d
    refine congrArg Out.ok ?_
    funext i; fin_cases i <;> rfl
  · unfold stdVectorDoubleToEigenVector3d
    split
    · simp
    · rename_i h
      simp only [true_iff]
      intro hl
      match l, hl with
      | [a, b, c], _ => exact h a b c rfl
  · unfold stdVectorDoubleToEigenQuaterniond
    split
    · simp
    · rename_i h
      simp only [true_iff]
      intro hl
      match l, hl with
      | [a, b, c, d], _ => exact h a b c d rfl

theorem write_segments {L : Nat} {α : Type} (vs : List (Fin L → α)) (k : Nat) (done rest : List α)
    (hd : done.length = k * L) (hr : rest.length = vs.length * L) :
    (vs.zipIdx k).foldl (fun r v => r.take (v.2 * L) ++ List.ofFn v.1 ++ r.drop (v.2 * L + L)) (done ++ rest) =
      done ++ (vs.map List.ofFn).flatten := by
  induction vs generalizing k done rest with
  | nil =>
    simp at hr
    simp [hr]
  | cons v vs ih =>
    rw [List.zipIdx_cons, List.foldl_cons]
    simp only
    rw [List.take_left' hd, ← List.drop_drop, List.drop_left' hd]
    rw [ih (k + 1) (done ++ List.ofFn v) (rest.drop L)]
    · simp
    · simp [hd, Nat.add_mul]
    · rw [List.length_drop, hr, List.length_cons, Nat.add_mul]; omega

/-- C94: a list of vectors becomes one vector, the concatenation; an empty list fails the assertion. -/
theorem C94_concatenate {L : Nat} {α : Type} (garbage : α) (vs : List (Fin L → α)) :
    (vs = [] → vectorEigenVectorToEigenVectorX garbage vs = .abort) ∧
    (vs ≠ [] → vectorEigenVectorToEigenVectorX garbage vs = .ok ((vs.map List.ofFn).flatten)) := by
  constructor
  · rintro rfl
    unfold vectorEigenVectorToEigenVectorX
    rw [Out.assert_false (by simp)]; rfl
  · intro h
    unfold vectorEigenVectorToEigenVectorX
    rw [Out.assert_true (List.length_pos_of_ne_nil h), Out.bind_ok]
    have := write_segments vs 0 [] (List.replicate (vs.length * L) garbage) (by simp) (by simp)
    simp only [List.nil_append] at this
    rw [this]

theorem segments_eq {L : Nat} {α : Type} (v : List α) (pre : List α) (vs : List (Fin L → α)) (idx : Nat)
    (hp : pre.length = idx * L) (hv : v = pre ++ (vs.map List.ofFn).flatten) :
    segments L v idx vs.length = .ok vs := by
  induction vs generalizing pre idx with
  | nil => rfl
  | cons w vs ih =>
    have hs : segment L v (idx * L) = .ok w := by
      unfold segment
      have hle : idx * L + L ≤ v.length := by
        rw [hv]; simp [hp]
      rw [dif_pos hle]
      congr 1
      funext i
      simp only [hv, List.map_cons, List.flatten_cons]
      rw [List.getElem_append_right (by omega), List.getElem_append_left (by simp [hp])]
      simp [hp]
    have hr := ih (pre ++ List.ofFn w) (idx + 1) (by simp [hp, Nat.add_mul]) (by simp [hv])
    show (segment L v (idx * L) >>= fun s => segments L v (idx + 1) vs.length >>= fun rest => .ok (s :: rest)) = _
    rw [hs, Out.bind_ok, hr, Out.bind_ok]

/-- Every list is a concatenation of vectors of the same length -/
theorem exists_chunks {α : Type} (L : Nat) (n : Nat) (v : List α) (h : v.length = n * L) :
    ∃ vs : List (Fin L → α), vs.length = n ∧ v = (vs.map List.ofFn).flatten := by
  induction n generalizing v with
  | zero => exact ⟨[], rfl, by simpa using h⟩
  | succ n ih =>
    rw [Nat.add_mul, Nat.one_mul] at h
    obtain ⟨vs, h1, h2⟩ := ih (v.drop L) (by rw [List.length_drop]; omega)
    refine ⟨(fun i : Fin L => v[i.val]'(by have := i.isLt; omega)) :: vs, by simp [h1], ?_⟩
    rw [List.map_cons, List.flatten_cons, ← h2]
    conv_lhs => rw [← List.take_append_drop L v]
    congr 1
    apply List.ext_getElem
    · simp; omega
    · intro i h3 h4
      simp

/-- C94: cutting a vector into vectors of length `L` never reads outside of it; it fails the assertion exactly when the
size is not a multiple of `L`, and otherwise the concatenation of the result is the vector. -/
theorem C94_split {α : Type} (L : Nat) (hL : 0 < L) (v : List α) :
    (¬ L ∣ v.length → eigenVectorXToVectorEigenVector L v = .abort) ∧
    (L ∣ v.length → ∃ vs : List (Fin L → α), eigenVectorXToVectorEigenVector L v = .ok vs ∧
      vs.length * L = v.length ∧ (vs.map List.ofFn).flatten = v) := by
  constructor
  · intro h
    unfold eigenVectorXToVectorEigenVector
    rw [Out.assert_false (fun hc => h (Nat.dvd_of_mod_eq_zero hc))]; rfl
  · rintro ⟨n, hn⟩
    obtain ⟨vs, h1, h2⟩ := exists_chunks L n v (by rw [hn, Nat.mul_comm])
    have hdiv : v.length / L = vs.length := by rw [hn, Nat.mul_div_cancel_left _ hL, h1]
    refine ⟨vs, ?_, by rw [h1, hn, Nat.mul_comm], h2.symm⟩
    unfold eigenVectorXToVectorEigenVector
    rw [Out.assert_true (by rw [hn, Nat.mul_mod_right]), Out.bind_ok, hdiv]
    exact segments_eq v [] vs 0 (by simp) (by simpa using h2)

/-- C94: so cutting undoes concatenating. -/
theorem C94_round_trip {α : Type} (L : Nat) (hL : 0 < L) (garbage : α) (vs : List (Fin L → α)) (h : vs ≠ []) :
    (vectorEigenVectorToEigenVectorX garbage vs >>= eigenVectorXToVectorEigenVector L) = .ok vs := by
  rw [(C94_concatenate garbage vs).2 h, Out.bind_ok]
  have hl : ((vs.map List.ofFn).flatten).length = vs.length * L := by
    clear h
    induction vs with
    | nil => simp
    | cons v vs ih => rw [List.map_cons, List.flatten_cons, List.length_append, ih]; simp [Nat.add_mul]; omega
  unfold eigenVectorXToVectorEigenVector
  rw [Out.assert_true (by rw [hl, Nat.mul_mod_left]), Out.bind_ok, hl, Nat.mul_div_cancel _ hL]
  exact segments_eq _ [] vs 0 (by simp) (by simp)

example : eigenVectorXToVectorEigenVector 2 [1, 2, 3, 4] = .ok [![1, 2], ![3, 4]] := by
  rw [← C94_round_trip 2 (by decide) 0 [![1, 2], ![3, 4]] (by simp), (C94_concatenate 0 _).2 (by simp), Out.bind_ok]
  simp

end Verif.PointSets
