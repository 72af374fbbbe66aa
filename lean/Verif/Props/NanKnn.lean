import Verif.Lemmas.NanKnn

/-!
# C181: K nearest neighbours with distances that are not a number
-/
namespace Verif.NanKnn
open Verif Verif.NotANumber

variable {α β W : Type} [Cost W]

/-- **C181.** With more items than asked for, the serial query returns `K` entries: the nearest of the items
whose distance is a number below infinity, and entries for no item if there are fewer than `K` of those. -/
theorem C181_serial (items : List α) (current : β) (distance : α → β → Option W) (K : Nat)
    (hn : K < items.length) :
    ∃ R, kNearestSerial items current distance K = .ok R ∧ R.length = K ∧
      NearestNumbers items current distance K (R.filter fun e => decide (e.1 ≠ -1)) ∧
      ∀ e ∈ R, e.1 = -1 → e = (-1, some Cost.inf) := by
  unfold kNearestSerial
  by_cases hK : K = 0
  · rw [if_pos hK]
    exact ⟨[], rfl, by simp [hK], ⟨by simp [hK], by simp, by simp, by simp⟩, by simp⟩
  rw [if_neg hK, if_pos hn, unset_numbers, scan_numbers,
    Knn.scan_usable _ _ (by
      intro h
      have := congrArg List.length h
      simp [Knn.unset] at this
      omega) (fun i hi => List.mem_range.1 hi)]
  have hnd : (usableIndices items current distance (List.range items.length)).Nodup :=
    List.nodup_range.filter _
  obtain ⟨L, h1, h2, h3⟩ := Knn.scan_unset (items := items) (current := current)
    (distance := orInf distance) (K := K) (by omega)
    (usableIndices items current distance (List.range items.length)) hnd
    (fun i hi => List.mem_range.1 (List.mem_filter.1 hi).1)
  unfold usableIndices at h1
  rw [h1]
  have hb := h3.kbest h2 hnd (fun i hi => by simpa using (List.mem_filter.1 hi).2)
  refine ⟨numbers L, rfl, by simp [numbers, h2], ?_, ?_⟩
  · have := kbest_numbers hb
    rw [show numbers (L.filter fun e => decide (e.1 ≠ -1)) =
      (numbers L).filter fun e => decide (e.1 ≠ -1) by
        unfold numbers; rw [List.filter_map]; rfl] at this
    exact this
  · intro e he h
    obtain ⟨e', he', rfl⟩ := List.mem_map.1 he
    rcases h3.mem e' he' with rfl | ⟨i, _, rfl⟩
    · rfl
    · have : (i : Int) = -1 := h
      omega

/-- **C181.** With more items than asked for, the parallel query returns, under every schedule, the nearest
of the items whose distance is a number below infinity, and nothing else. -/
theorem C181_parallel (schedule : List (List Nat)) (items : List α) (current : β)
    (distance : α → β → Option W) (K : Nat) (hs : Knn.Schedule items.length schedule)
    (hn : K < items.length) :
    ∃ R, kNearestParallel schedule items current distance K = .ok R ∧
      NearestNumbers items current distance K R := by
  unfold kNearestParallel
  by_cases hK : K = 0
  · rw [if_pos hK]
    exact ⟨[], rfl, ⟨by simp [hK], by simp, by simp, by simp⟩⟩
  have hmem : ∀ i ∈ schedule.flatten, i ∈ List.range items.length := fun i hi => hs.mem_iff.1 hi
  have hflat : (schedule.map (usableIndices items current distance)).flatten =
      usableIndices items current distance schedule.flatten := by
    unfold usableIndices
    rw [List.filter_flatten]
  rw [if_neg hK, if_pos hn, scanThreads_numbers, Knn.scanThreads_usable (by omega) schedule
    (fun t ht i hi => List.mem_range.1 (hmem i (List.mem_flatten.2 ⟨t, ht, hi⟩)))]
  obtain ⟨Ls, L, h1, h2, h3⟩ := Knn.parallel_kbest (items := items) (current := current)
    (distance := orInf distance) (K := K) (by omega) (schedule.map (usableIndices items current distance))
    (by rw [hflat]; exact (hs.nodup_iff.2 List.nodup_range).filter _)
    (by
      rw [hflat]
      intro i hi
      exact List.mem_range.1 (hmem i (List.mem_filter.1 hi).1))
    (by
      rw [hflat]
      intro i hi
      simpa using (List.mem_filter.1 hi).2)
  have h1' : Knn.scanThreads items current (orInf distance) K (schedule.map fun t =>
      t.filter fun i => decide (Knn.distAt items current (orInf distance) i < Cost.inf)) = .ok Ls := h1
  rw [h1']
  refine ⟨numbers L, ?_, kbest_numbers (h3.perm ?_)⟩
  · have := merge_numbers K Ls.flatten []
    rw [h2] at this
    simp only [numbers, List.map_flatten, List.map_nil] at this
    exact this
  · rw [hflat]
    exact hs.filter _

/-- **C181.** With at most as many items as asked for, both queries return every item in order with its
distance, whether it is a number or not. -/
theorem C181_few (schedule : List (List Nat)) (items : List α) (current : β)
    (distance : α → β → Option W) (K : Nat) (hs : Knn.Schedule items.length schedule) (hK : K ≠ 0)
    (hn : items.length ≤ K) :
    ∃ R, kNearestSerial items current distance K = .ok R ∧
      kNearestParallel schedule items current distance K = .ok R ∧ R.length = items.length ∧
      ∀ (i : Nat) (item : α), items[i]? = some item → R[i]? = some ((i : Int), distance item current) := by
  unfold kNearestSerial kNearestParallel
  rw [if_neg hK, if_neg (by omega), if_neg hK, if_neg (by omega)]
  refine ⟨_, allDistances_perm (List.Perm.refl _), allDistances_perm hs, by simp, ?_⟩
  intro i item hi
  have hlt := (List.getElem?_eq_some_iff.1 hi).1
  rw [List.getElem?_map, List.getElem?_range hlt]
  simp [distAt, hi]

/-! ## Cases that meet the hypotheses -/

/-- Five items; the distance to the second and the fourth is not a number. -/
def exItems : List (Option Nat) := [some 9, none, some 1, none, some 5]

/-- the distance to 5 -/
def exDistance (a : Option Nat) (b : Nat) : Option Dist := a.map fun a => .fin ((a - b) + (b - a))

example : kNearestSerial exItems 5 exDistance 2 = .ok [(4, some (.fin 0)), (2, some (.fin 4))] := by
  decide +kernel

example : kNearestSerial exItems 5 exDistance 4 =
    .ok [(0, some (.fin 4)), (2, some (.fin 4)), (4, some (.fin 0)), (-1, some .inf)] := by
  decide +kernel

example : Knn.Schedule exItems.length [[3, 0], [], [4, 1, 2]] := by
  unfold Knn.Schedule; decide +kernel

example : kNearestParallel [[3, 0], [], [4, 1, 2]] exItems 5 exDistance 4 =
    .ok [(0, some (.fin 4)), (4, some (.fin 0)), (2, some (.fin 4))] := by decide +kernel

example : kNearestSerial exItems 5 exDistance 5 =
    .ok [(0, some (.fin 4)), (1, none), (2, some (.fin 4)), (3, none), (4, some (.fin 0))] := by
  decide +kernel

end Verif.NanKnn
