import Verif.Lemmas.Knn
import Verif.Model.NanKnn
import Verif.Spec.NotANumber

/-!
# What is not a number counts as infinite in K-nearest-neighbour queries
-/
namespace Verif.NanKnn
open Verif Verif.NotANumber

variable {α β W : Type} [Cost W]

/-- Entries whose distances are numbers. -/
def numbers (l : List (Int × W)) : List (Int × Option W) := l.map fun e => (e.1, some e.2)

theorem lt_some (a b : W) : lt (some a) (some b) = decide (a < b) := rfl

theorem lt_number (a : Option W) (b : W) : lt a (some b) = decide (a.getD Cost.inf < b) := by
  cases a with
  | some a => rfl
  | none => simp [lt, Cost.le_inf]

theorem maxElementFrom_numbers : ∀ (l : List (Int × W)) (i k : Nat) (w : W),
    maxElementFrom (numbers l) i k (some w) = Knn.maxElementFrom l i k w
  | [], _, _, _ => rfl
  | x :: xs, i, k, w => by
    simp only [numbers, List.map_cons, maxElementFrom, Knn.maxElementFrom, lt_some, decide_eq_true_eq]
    split
    · exact maxElementFrom_numbers xs _ _ _
    · exact maxElementFrom_numbers xs _ _ _

theorem maxElement_numbers (l : List (Int × W)) : maxElement (numbers l) = Knn.maxElement l := by
  cases l with
  | nil => rfl
  | cons x xs => exact maxElementFrom_numbers xs 1 0 x.2

theorem replaceWorst_numbers (l : List (Int × W)) (i : Int) (x : Option W) :
    replaceWorst (numbers l) (i, x) = numbers <$> Knn.replaceWorst l (i, x.getD Cost.inf) := by
  unfold replaceWorst Knn.replaceWorst
  rw [maxElement_numbers]
  rw [show (numbers l)[Knn.maxElement l]? = (l[Knn.maxElement l]?).map fun e => (e.1, some e.2) from
    List.getElem?_map ..]
  cases h : l[Knn.maxElement l]? with
  | none => rfl
  | some w =>
    simp only [Option.map_some, lt_number, decide_eq_true_eq]
    split
    · next h =>
      cases x with
      | none => exact absurd h (not_lt.2 (Cost.le_inf _))
      | some x =>
        simp only [numbers, List.map_set, Functor.map, Out.bind, Option.getD_some, Function.comp]
    · rfl

theorem scan_numbers (items : List α) (current : β) (distance : α → β → Option W) :
    ∀ (is : List Nat) (l : List (Int × W)),
      scan items current distance is (numbers l) = numbers <$> Knn.scan items current (orInf distance) is l
  | [], l => rfl
  | i :: is, l => by
    unfold scan Knn.scan
    cases items[i]? with
    | none => rfl
    | some item =>
      simp only [replaceWorst_numbers]
      rw [show (distance item current).getD Cost.inf = orInf distance item current from rfl]
      cases Knn.replaceWorst l (↑i, orInf distance item current) with
      | ok l' => exact scan_numbers items current distance is l'
      | throws e => rfl
      | abort => rfl
      | ub => rfl

theorem unset_numbers (K : Nat) : (unset K : List (Int × Option W)) = numbers (Knn.unset K) := by
  unfold unset Knn.unset numbers
  rw [List.map_replicate]

theorem merge_numbers (K : Nat) : ∀ (xs l : List (Int × W)),
    merge K (numbers xs) (numbers l) = numbers <$> Knn.merge K xs l
  | [], l => rfl
  | x :: xs, l => by
    have hl : (numbers l).length = l.length := List.length_map ..
    simp only [numbers, List.map_cons, merge, Knn.merge, ne_eq, Option.some.injEq]
    split
    · rw [List.length_map]
      split
      · have := merge_numbers K xs (l ++ [x])
        simpa [numbers] using this
      · have := replaceWorst_numbers l x.1 (some x.2)
        simp only [numbers] at this
        rw [this]
        simp only [Option.getD_some]
        cases Knn.replaceWorst l (x.1, x.2) with
        | ok l' => exact merge_numbers K xs l'
        | throws e => rfl
        | abort => rfl
        | ub => rfl
    · exact merge_numbers K xs l

theorem scanThreads_numbers (items : List α) (current : β) (distance : α → β → Option W) (K : Nat) :
    ∀ ts : List (List Nat), scanThreads items current distance K ts =
      (List.map numbers) <$> Knn.scanThreads items current (orInf distance) K ts
  | [] => rfl
  | t :: ts => by
    simp only [scanThreads, Knn.scanThreads, unset_numbers, scan_numbers, scanThreads_numbers items current distance K ts]
    cases Knn.scan items current (orInf distance) t (Knn.unset K) with
    | ok l =>
      cases Knn.scanThreads items current (orInf distance) K ts with
      | ok ls => rfl
      | throws e => rfl
      | abort => rfl
      | ub => rfl
    | throws e => rfl
    | abort => rfl
    | ub => rfl

/-- the distance of the item at an index -/
def distAt (items : List α) (current : β) (distance : α → β → Option W) (i : Nat) : Option W :=
  match items[i]? with
  | some item => distance item current
  | none => none

omit [Cost W] in
theorem allDistances_spec {items : List α} {current : β} {distance : α → β → Option W} :
    ∀ (is : List Nat) (L : List (Int × Option W)), (∀ i ∈ is, i < items.length) → is.Nodup →
      ∃ L', allDistances items current distance is L = .ok L' ∧ L'.length = L.length ∧
        ∀ k, L'[k]? = if k ∈ is ∧ k < L.length then some ((k : Int), distAt items current distance k)
          else L[k]? := by
  intro is
  induction is with
  | nil => intro L _ _; exact ⟨L, rfl, rfl, by simp⟩
  | cons i is ih =>
    intro L hlt hnd
    have hi := hlt i (by simp)
    unfold allDistances
    rw [List.getElem?_eq_getElem hi]
    simp only
    rw [List.nodup_cons] at hnd
    obtain ⟨L', h1, h2, h3⟩ := ih (L.set i ((i : Int), distance items[i] current))
      (fun j hj => hlt j (List.mem_cons_of_mem _ hj)) hnd.2
    refine ⟨L', h1, by simpa using h2, ?_⟩
    intro k
    rw [h3 k, List.length_set]
    have hd : distAt items current distance i = distance items[i] current := by
      unfold distAt; rw [List.getElem?_eq_getElem hi]
    by_cases hk : k = i
    · subst hk
      rw [if_neg (fun h => hnd.1 h.1), List.getElem?_set]
      by_cases hkl : k < L.length
      · simp [hkl, hd]
      · simp [hkl]
    · have h' : (L.set i ((i : Int), distance items[i] current))[k]? = L[k]? := by
        rw [List.getElem?_set, if_neg (fun h => hk h.symm)]
      rw [h']
      simp [hk]

theorem allDistances_perm {items : List α} {current : β} {distance : α → β → Option W} {is : List Nat}
    (hp : is.Perm (List.range items.length)) :
    allDistances items current distance is (unset items.length) =
      .ok ((List.range items.length).map fun i : Nat => ((i : Int), distAt items current distance i)) := by
  obtain ⟨L', h1, h2, h3⟩ := allDistances_spec (items := items) (current := current)
    (distance := distance) is (unset items.length)
    (fun i hi => List.mem_range.1 (hp.mem_iff.1 hi)) (hp.nodup_iff.2 List.nodup_range)
  rw [h1]
  congr 1
  apply List.ext_getElem?
  intro k
  have hlen : (unset items.length : List (Int × Option W)).length = items.length := by simp [unset]
  rw [h3 k, hlen]
  by_cases hk : k < items.length
  · have : k ∈ is := hp.mem_iff.2 (List.mem_range.2 hk)
    rw [if_pos ⟨this, hk⟩]
    simp [hk]
  · rw [if_neg (fun h => hk h.2)]
    have : (unset items.length : List (Int × Option W))[k]? = none := by
      rw [List.getElem?_eq_none_iff]; omega
    rw [this]
    simp [hk]


/-- The indices of the items with a usable distance. -/
def usableIndices (items : List α) (current : β) (distance : α → β → Option W) (is : List Nat) : List Nat :=
  is.filter fun i => decide (Knn.distAt items current (orInf distance) i < Cost.inf)

theorem usable_orInf (items : List α) (current : β) (distance : α → β → Option W) (i : Nat) :
    decide (Knn.distAt items current (orInf distance) i < Cost.inf) =
      (items[i]?).any fun item => usable (distance item current) := by
  unfold Knn.distAt orInf
  cases items[i]? with
  | none => simp
  | some item =>
    rw [Bool.eq_iff_iff, decide_eq_true_eq, Option.any_some]
    simp only
    generalize distance item current = o
    cases o with
    | none => simp [usable]
    | some d => simp [usable]

/-- The `K` best of the usable items are what the specification asks for. -/
theorem kbest_numbers {items : List α} {current : β} {distance : α → β → Option W} {K : Nat}
    {R : List (Int × W)}
    (h : Knn.KBest (Knn.distAt items current (orInf distance)) K
      (usableIndices items current distance (List.range items.length)) R) :
    NearestNumbers items current distance K (numbers R) := by
  have hmap : (numbers R).map (·.1) = R.map (·.1) := by simp [numbers]
  have hin : ∀ i ∈ usableIndices items current distance (List.range items.length),
      ∃ item d, items[i]? = some item ∧ distance item current = some d ∧ d < Cost.inf ∧
        Knn.distAt items current (orInf distance) i = d := by
    intro i hi
    obtain ⟨h1, h2⟩ := List.mem_filter.1 hi
    have hil := List.mem_range.1 h1
    have hi' : items[i]? = some items[i] := List.getElem?_eq_getElem hil
    rw [usable_orInf, hi'] at h2
    cases hd : distance items[i] current with
    | none => rw [Option.any_some, hd] at h2; simp [usable] at h2
    | some d =>
      rw [Option.any_some, hd] at h2
      refine ⟨items[i], d, hi', hd, by simpa [usable] using h2, ?_⟩
      simp [Knn.distAt, hi', orInf, hd]
  refine ⟨?_, by rw [hmap]; exact h.nodup, ?_, ?_⟩
  · rw [show (numbers R).length = R.length from List.length_map .., h.length,
      ← Knn.length_filter_range]
    unfold usableIndices
    congr 2
    apply List.filter_congr
    intro i _
    exact usable_orInf items current distance i
  · intro e he
    obtain ⟨e', he', rfl⟩ := List.mem_map.1 he
    obtain ⟨i, hi, rfl⟩ := h.mem e' he'
    obtain ⟨item, d, h1, h2, h3, h4⟩ := hin i hi
    exact ⟨i, item, d, h1, h2, h3, by rw [h4]⟩
  · intro i item d hi hd hnot e he
    obtain ⟨e', he', rfl⟩ := List.mem_map.1 he
    refine ⟨e'.2, rfl, ?_⟩
    have hdi : Knn.distAt items current (orInf distance) i = d := by
      simp [Knn.distAt, hi, orInf, hd]
    by_cases hfin : d < Cost.inf
    · have := h.best i (List.mem_filter.2 ⟨List.mem_range.2 (List.getElem?_eq_some_iff.1 hi).1, by
        rw [hdi]; simpa using hfin⟩) (by rwa [hmap] at hnot) e' he'
      rwa [hdi] at this
    · exact le_trans (Cost.le_inf _) (le_of_not_gt hfin)

end Verif.NanKnn
