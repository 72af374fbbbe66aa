import Mathlib.Algebra.BigOperators.Group.Finset.Basic
import Mathlib.Algebra.BigOperators.Group.Finset.Piecewise
import Mathlib.Algebra.Order.BigOperators.Group.Finset
import Mathlib.Algebra.Order.Monoid.Defs
import Mathlib.Order.WithBot
import Verif.Lemmas.Kmeans

/-!
# K-means clustering ends when the average minimises the total distance
-/
namespace Verif.Kmeans
open Verif

variable {α V : Type} [AddCommMonoid V] [LinearOrder V] [IsOrderedCancelAddMonoid V]

/-- the distance of two points as a `double` that is not infinite -/
def fin (d : α → α → V) : α → α → WithTop V := fun c p => (d c p : WithTop V)

omit [LinearOrder V] [IsOrderedCancelAddMonoid V] in
/-- the total distance, group by group -/
theorem totalDistance_groups (d : α → α → V) (f : Nat → α) (num : Nat) (data : List α)
    (labels : List Nat) (hlt : ∀ l ∈ labels, l < num) :
    totalDistance d f data labels =
      ∑ j ∈ Finset.range num, ((members data labels j).map (d (f j))).sum := by
  induction data generalizing labels with
  | nil => simp [totalDistance, members]
  | cons p ps ih =>
    cases labels with
    | nil => simp [totalDistance, members]
    | cons l ls =>
      have h := ih ls (fun x hx => hlt x (List.mem_cons_of_mem _ hx))
      have hl : l < num := hlt l List.mem_cons_self
      have : ∀ j, ((members (p :: ps) (l :: ls) j).map (d (f j))).sum =
          (if j = l then d (f l) p else 0) + ((members ps ls j).map (d (f j))).sum := by
        intro j
        by_cases hj : j = l
        · subst hj
          simp [members]
        · have hj' : ¬ l = j := fun h => hj h.symm
          simp [members, hj, hj']
      simp only [totalDistance, this, Finset.sum_add_distrib, h]
      rw [Finset.sum_ite_eq']
      simp [hl]

/-- new labels, closest for the centers `f`, against any old labels -/
theorem total_closest (d : α → α → V) (f : Nat → α) (num : Nat) :
    ∀ (data : List α) (old new : List Nat), old.length = data.length → new.length = data.length →
      (∀ l ∈ old, l < num) →
      (∀ (i : Nat) p l, data[i]? = some p → new[i]? = some l →
        (∀ j, j < num → d (f l) p ≤ d (f j) p) ∧ (∀ j, j < l → d (f l) p < d (f j) p)) →
      totalDistance d f data new < totalDistance d f data old ∨
        (totalDistance d f data new = totalDistance d f data old ∧ new.sum ≤ old.sum ∧
          (new ≠ old → new.sum < old.sum))
  | [], [], [], _, _, _, _ => .inr ⟨rfl, le_refl _, fun h => absurd rfl h⟩
  | p :: ps, o :: os, n :: ns, ho, hn, hlt, hc => by
    have ih := total_closest d f num ps os ns (by simpa using ho) (by simpa using hn)
      (fun l hl => hlt l (List.mem_cons_of_mem _ hl))
      (fun i q l hq hl => hc (i + 1) q l (by simpa using hq) (by simpa using hl))
    obtain ⟨h1, h2⟩ := hc 0 p n rfl rfl
    have hle := h1 o (hlt o List.mem_cons_self)
    simp only [totalDistance, List.sum_cons]
    rcases lt_or_eq_of_le hle with hlt' | heq
    · left
      rcases ih with h | ⟨h, _⟩
      · exact add_lt_add hlt' h
      · rw [h]; exact add_lt_add_left hlt' _
    · rcases ih with h | ⟨h, h3, h4⟩
      · left; rw [heq]; exact add_lt_add_right h _
      · right
        have hno : n ≤ o := by
          by_contra hcon
          have := h2 o (by omega)
          rw [heq] at this
          exact lt_irrefl _ this
        refine ⟨by rw [heq, h], by omega, ?_⟩
        intro hne
        by_cases hno' : n = o
        · have : ns ≠ os := fun he => hne (by rw [hno', he])
          have := h4 this
          omega
        · omega
  | [], _ :: _, _, h, _, _, _ => by simp at h
  | [], [], _ :: _, _, h, _, _ => by simp at h
  | _ :: _, [], _, h, _, _, _ => by simp at h
  | _ :: _, _ :: _, [], _, h, _, _ => by simp at h

/-- all lists of `n` labels below `num` -/
def allLabels (num : Nat) : Nat → List (List Nat)
  | 0 => [[]]
  | n + 1 => (allLabels num n).flatMap (fun ls => (List.range num).map (· :: ls))

theorem mem_allLabels (num : Nat) (labels : List Nat) (h : ∀ l ∈ labels, l < num) :
    labels ∈ allLabels num labels.length := by
  induction labels with
  | nil => simp [allLabels]
  | cons l ls ih =>
    simp only [List.length_cons, allLabels, List.mem_flatMap]
    refine ⟨ls, ih (fun x hx => h x (List.mem_cons_of_mem _ hx)), ?_⟩
    simp [h l List.mem_cons_self]

theorem length_allLabels (num n : Nat) : (allLabels num n).length = num ^ n := by
  induction n with
  | zero => rfl
  | succ n ih => simp [allLabels, ih, Nat.pow_succ]

/-- the centers as a function: the average of the members -/
def centerOf (avg : List α → α) (data : List α) (labels : List Nat) (j : Nat) : α :=
  avg (members data labels j)

/-- the labels `a` come before the labels `b`: smaller total distance, or the same and smaller sum -/
def Before (d : α → α → V) (avg : List α → α) (data : List α) (a b : List Nat) : Prop :=
  totalDistance d (centerOf avg data a) data a < totalDistance d (centerOf avg data b) data b ∨
  (totalDistance d (centerOf avg data a) data a = totalDistance d (centerOf avg data b) data b ∧
    a.sum < b.sum)

omit [IsOrderedCancelAddMonoid V] in
theorem before_irrefl {d : α → α → V} {avg : List α → α} {data : List α} {a : List Nat}
    (h : Before d avg data a a) : False := by
  rcases h with h | ⟨_, h⟩
  · exact lt_irrefl _ h
  · omega

omit [IsOrderedCancelAddMonoid V] in
theorem before_trans {d : α → α → V} {avg : List α → α} {data : List α} {a b c : List Nat}
    (h : Before d avg data a b) (h' : Before d avg data b c) : Before d avg data a c := by
  rcases h with h | ⟨h, hs⟩ <;> rcases h' with h' | ⟨h', hs'⟩
  · exact .inl (lt_trans h h')
  · exact .inl (h' ▸ h)
  · exact .inl (h ▸ h')
  · exact .inr ⟨h.trans h', by omega⟩

omit [AddCommMonoid V] [IsOrderedCancelAddMonoid V] in
theorem closest_fin {d : α → α → V} {f : Nat → α} {num : Nat} {p : α} {l : Nat}
    (h : Closest (fin d) ((List.range num).map f) p l) :
    (∀ j, j < num → d (f l) p ≤ d (f j) p) ∧ (∀ j, j < l → d (f l) p < d (f j) p) := by
  obtain ⟨c, h1, h2, h3⟩ := h
  have hl : l < num := by
    have := (List.getElem?_eq_some_iff.1 h1).1
    simpa using this
  have hc : c = f l := by
    simp [hl] at h1
    exact h1.symm
  subst hc
  constructor
  · intro j hj
    have := h2 j (f j) (by simp [hj])
    exact WithTop.coe_le_coe.1 this
  · intro j hj
    have := h3 j (f j) hj (by simp [Nat.lt_trans hj hl])
    exact WithTop.coe_lt_coe.1 this

theorem step_before (d : α → α → V) (avg : List α → α) (num : Nat) (data : List α)
    (hmin : ∀ (l : List α) c, (l.map (d (avg l))).sum ≤ (l.map (d c)).sum)
    (old new : List Nat) (hlen : old.length = data.length) (hlt : ∀ l ∈ old, l < num)
    (hnew : LabelsClosest (fin d) data ((List.range num).map (centerOf avg data old)) new)
    (hne : new ≠ old) : Before d avg data new old := by
  have hnlt : ∀ l ∈ new, l < num := by
    have := labels_lt hnew
    simpa using this
  have h1 : totalDistance d (centerOf avg data new) data new ≤
      totalDistance d (centerOf avg data old) data new := by
    rw [totalDistance_groups d _ num data new hnlt, totalDistance_groups d _ num data new hnlt]
    exact Finset.sum_le_sum (fun j _ => hmin _ _)
  have h2 := total_closest d (centerOf avg data old) num data old new hlen hnew.1 hlt
    (fun i p l hp hl => closest_fin (hnew.2 i p l hp hl))
  rcases h2 with h2 | ⟨h2, _, h3⟩
  · exact .inl (lt_of_le_of_lt h1 h2)
  · rcases lt_or_eq_of_le h1 with h1 | h1
    · exact .inl (h2 ▸ h1)
    · exact .inr ⟨h1.trans h2, h3 hne⟩

theorem iterate_total (d : α → α → V) (avg : List α → α) (num : Nat) (hnum : 0 < num)
    (hnum' : num ≤ 2 ^ 32) (data : List α)
    (hmin : ∀ (l : List α) c, (l.map (d (avg l))).sum ≤ (l.map (d c)).sum)
    (fuel : Nat) (labels : List Nat) (visited : List (List Nat))
    (hlen : labels.length = data.length) (hlt : ∀ l ∈ labels, l < num)
    (hnd : visited.Nodup) (hvis : ∀ v ∈ visited, v ∈ allLabels num data.length ∧
      Before d avg data labels v)
    (hfuel : num ^ data.length ≤ fuel + visited.length) :
    ∃ r, iterate ⊤ (fin d) (computeCenters (fun l => .ok (avg l)) num) data fuel labels =
      some (.ok r) := by
  have hnd' : (labels :: visited).Nodup :=
    List.nodup_cons.2 ⟨fun hmem => before_irrefl (hvis labels hmem).2, hnd⟩
  have hmem : labels ∈ allLabels num data.length := hlen ▸ mem_allLabels num labels hlt
  have hcard : visited.length + 1 ≤ num ^ data.length := by
    rw [← length_allLabels]
    have := hnd'.length_le_of_subset (l₂ := allLabels num data.length) (by
      intro v hv
      rcases List.mem_cons.1 hv with rfl | hv
      · exact hmem
      · exact (hvis v hv).1)
    simpa using this
  induction fuel generalizing labels visited with
  | zero => omega
  | succ fuel ih =>
    have hcenters : computeCenters (fun l => .ok (avg l)) num data labels =
        .ok ((List.range num).map (centerOf avg data labels)) := by
      rw [(averages_computeCenters (fun l => .ok (avg l)) num data).eq labels hlen hlt,
        averages_total _ avg (fun _ => rfl)]
      simp [Function.comp_def, centerOf]
    obtain ⟨new, hnew⟩ := singleIteration_total ⊤ (fin d)
      ((List.range num).map (centerOf avg data labels)) (by simpa using hnum') data (by
        intro p _
        exact ⟨centerOf avg data labels 0, List.mem_map.2 ⟨0, List.mem_range.2 hnum, rfl⟩,
          WithTop.coe_lt_top _⟩)
    have hclosest := singleIteration_ok ⊤ (fin d) _ (by simpa using hnum') data new hnew
    have hround : round ⊤ (fin d) (computeCenters (fun l => .ok (avg l)) num) data labels =
        .ok (decide (labels = new), new, (List.range num).map (centerOf avg data labels)) := by
      simp only [round]
      rw [hcenters, Out.bind_ok, hnew, Out.bind_ok]
      simp only [checkForConvergence]
      rw [Out.assert_true (by simp [hlen, hclosest.1]), Out.bind_ok, Out.bind_ok]
    simp only [iterate, hround]
    by_cases heq : labels = new
    · rw [decide_eq_true heq]
      exact ⟨_, rfl⟩
    · rw [decide_eq_false heq]
      have hb := step_before d avg num data hmin labels new hlen hlt hclosest
        (fun h => heq h.symm)
      have hlt' : ∀ l ∈ new, l < num := by
        have := labels_lt hclosest
        simpa using this
      have hvis' : ∀ v ∈ labels :: visited, v ∈ allLabels num data.length ∧
          Before d avg data new v := by
        intro v hv
        rcases List.mem_cons.1 hv with rfl | hv
        · exact ⟨hmem, hb⟩
        · exact ⟨(hvis v hv).1, before_trans hb (hvis v hv).2⟩
      have hnd'' : (new :: labels :: visited).Nodup :=
        List.nodup_cons.2 ⟨fun hm => before_irrefl (hvis' new hm).2, hnd'⟩
      have hmem' : new ∈ allLabels num data.length := hclosest.1 ▸ mem_allLabels num new hlt'
      refine ih new (labels :: visited) hclosest.1 hlt' hnd' hvis'
        (by simp only [List.length_cons]; omega) hnd'' hmem' ?_
      rw [← length_allLabels]
      have := hnd''.length_le_of_subset (l₂ := allLabels num data.length) (by
        intro v hv
        rcases List.mem_cons.1 hv with rfl | hv
        · exact hmem'
        · exact (hvis' v hv).1)
      simpa using this

end Verif.Kmeans
