import Verif.Lemmas.Knn

/-!
# C26, C27: K nearest neighbours
-/
namespace Verif.Knn
open Verif

variable {α β W : Type} [Cost W]

theorem distAt_finite {items : List α} {current : β} {distance : α → β → W}
    (hf : ∀ item ∈ items, distance item current < Cost.inf) :
    ∀ i ∈ List.range items.length, distAt items current distance i < Cost.inf := by
  intro i hi
  unfold distAt
  rw [List.getElem?_eq_getElem (List.mem_range.1 hi)]
  exact hf _ (List.getElem_mem _)

/-- **C26.** If all distances are finite, the serial query returns a correct answer: `min K n`
distinct items with their distances, none of the others being closer. -/
theorem C26_serial (items : List α) (current : β) (distance : α → β → W) (K : Nat)
    (hf : ∀ item ∈ items, distance item current < Cost.inf) :
    ∃ R, kNearestSerial items current distance K = .ok R ∧
      KNearest items current distance K R := by
  unfold kNearestSerial
  by_cases hK : K = 0
  · rw [if_pos hK]
    refine ⟨[], rfl, ⟨by simp [hK], by simp, by simp, by simp⟩⟩
  rw [if_neg hK]
  split
  · rename_i hlt
    obtain ⟨L, h1, h2, h3⟩ := scan_unset (items := items) (current := current)
      (distance := distance) (K := K) (by omega) (List.range items.length) List.nodup_range
      (fun i hi => List.mem_range.1 hi)
    refine ⟨L, h1, KBest.spec ?_⟩
    have hfull := h3.full h2 List.nodup_range (distAt_finite hf) (by simp; omega)
    have := h3.kbest h2 List.nodup_range (distAt_finite hf)
    rwa [hfull] at this
  · rename_i hge
    exact ⟨_, allDistances_perm (List.Perm.refl _), KBest.spec (kbest_all _ (by omega))⟩

/-- **C26.** What the answer's distances are: the `K` smallest. -/
theorem C26_smallest (items : List α) (current : β) (distance : α → β → W) (K : Nat)
    (hf : ∀ item ∈ items, distance item current < Cost.inf) (R : List (Int × W))
    (h : kNearestSerial items current distance K = .ok R) :
    (R.map (·.2)).mergeSort = ((items.map fun item => distance item current).mergeSort).take K := by
  obtain ⟨R', h1, h2⟩ := C26_serial items current distance K hf
  rw [h] at h1
  injection h1 with h1
  subst h1
  exact h2.sorted

/-- **C26.** If there are at most `K` items, the answer lists all of them in order, whatever their
distances. -/
theorem C26_few (items : List α) (current : β) (distance : α → β → W) (K : Nat) (hK : K ≠ 0)
    (hn : items.length ≤ K) :
    ∃ R, kNearestSerial items current distance K = .ok R ∧ R.length = items.length ∧
      ∀ (i : Nat) (item : α), items[i]? = some item →
        R[i]? = some ((i : Int), distance item current) := by
  unfold kNearestSerial
  rw [if_neg hK, if_neg (by omega)]
  refine ⟨_, allDistances_perm (List.Perm.refl _), by simp, ?_⟩
  intro i item hi
  have hlt := (List.getElem?_eq_some_iff.1 hi).1
  rw [List.getElem?_map, List.getElem?_range hlt]
  simp [distAt, hi]

/-- **C27.** Under every schedule of its parallel loop, the parallel query returns a correct answer. -/
theorem C27_parallel (schedule : List (List Nat)) (items : List α) (current : β)
    (distance : α → β → W) (K : Nat) (hs : Schedule items.length schedule)
    (hf : ∀ item ∈ items, distance item current < Cost.inf) :
    ∃ R, kNearestParallel schedule items current distance K = .ok R ∧
      KNearest items current distance K R := by
  unfold kNearestParallel
  by_cases hK : K = 0
  · rw [if_pos hK]
    refine ⟨[], rfl, ⟨by simp [hK], by simp, by simp, by simp⟩⟩
  rw [if_neg hK]
  have hnd : schedule.flatten.Nodup := hs.nodup_iff.2 List.nodup_range
  split
  · rename_i hlt
    have hmem : ∀ i ∈ schedule.flatten, i ∈ List.range items.length := fun i hi => hs.mem_iff.1 hi
    obtain ⟨Ls, L, h1, h2, h3⟩ := parallel_kbest (items := items) (current := current)
      (distance := distance) (K := K) (by omega) schedule hnd (fun i hi => List.mem_range.1 (hmem i hi))
      (fun i hi => distAt_finite hf i (hmem i hi))
    rw [h1, Out.bind_ok]
    exact ⟨L, h2, KBest.spec (h3.perm hs)⟩
  · rename_i hge
    exact ⟨_, allDistances_perm hs, KBest.spec (kbest_all _ (by omega))⟩

/-- **C27.** The parallel and the serial query agree on the multiset of distances; with at most `K`
items they return the same list. -/
theorem C27_agrees (schedule : List (List Nat)) (items : List α) (current : β)
    (distance : α → β → W) (K : Nat) (hs : Schedule items.length schedule)
    (hf : ∀ item ∈ items, distance item current < Cost.inf) (P S : List (Int × W))
    (hP : kNearestParallel schedule items current distance K = .ok P)
    (hS : kNearestSerial items current distance K = .ok S) :
    (P.map (·.2)).Perm (S.map (·.2)) ∧ (items.length ≤ K → P = S) := by
  obtain ⟨P', p1, p2⟩ := C27_parallel schedule items current distance K hs hf
  obtain ⟨S', s1, s2⟩ := C26_serial items current distance K hf
  rw [hP] at p1; injection p1 with p1; subst p1
  rw [hS] at s1; injection s1 with s1; subst s1
  constructor
  · have := p2.sorted.trans s2.sorted.symm
    exact ((List.mergeSort_perm _ _).symm.trans (by rw [this])).trans (List.mergeSort_perm _ _)
  · intro hn
    unfold kNearestParallel at hP
    unfold kNearestSerial at hS
    by_cases hK : K = 0
    · rw [if_pos hK] at hP hS
      rw [hP] at hS; injection hS
    · rw [if_neg hK, if_neg (by omega)] at hP hS
      rw [allDistances_perm hs] at hP
      rw [allDistances_perm (List.Perm.refl _)] at hS
      rw [hP] at hS; injection hS

/-- Without finite distances the claim is false: with more items than `K`, an item at infinite
distance is not returned, and an entry for no item is. -/
theorem C26_infinite_distance :
    kNearestSerial [(Dist.inf : Dist), .inf] () (fun d _ => d) 1 = .ok [(-1, .inf)] := by
  decide +kernel

/-! ## Cases that meet the hypotheses -/

/-- Five items on a line; the query point is 5. -/
def exItems : List Nat := [9, 4, 1, 7, 5]

/-- distance on the line -/
def exDistance (a b : Nat) : Dist := .fin ((a - b) + (b - a))

example : ∀ item ∈ exItems, exDistance item 5 < Cost.inf := by decide +kernel

example : kNearestSerial exItems 5 exDistance 3 = .ok [(3, .fin 2), (1, .fin 1), (4, .fin 0)] := by
  decide +kernel

example : Schedule exItems.length [[3, 0], [], [4, 1, 2]] := by
  unfold Schedule; decide +kernel

example : kNearestParallel [[3, 0], [], [4, 1, 2]] exItems 5 exDistance 3 =
    .ok [(3, .fin 2), (1, .fin 1), (4, .fin 0)] := by decide +kernel

example : kNearestSerial exItems 5 exDistance 7 =
    .ok [(0, .fin 4), (1, .fin 1), (2, .fin 4), (3, .fin 2), (4, .fin 0)] := by decide +kernel

end Verif.Knn
