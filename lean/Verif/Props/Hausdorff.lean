import Verif.Model.Hausdorff
import Verif.Spec.Hausdorff
import Verif.Spec.Knn

/-!
# C29: Hausdorff distance
-/
namespace Verif.Hausdorff
open Verif
open Verif.Knn (Schedule)

variable {α β W : Type} [Cost W]

theorem minimumDistance_le (a : α) (distance : α → β → W) (x : W) : ∀ (bs : List β) (m : W),
    minimumDistance a distance bs m ≤ x ↔ m ≤ x ∨ ∃ b ∈ bs, distance a b ≤ x := by
  intro bs
  induction bs with
  | nil => intro m; simp [minimumDistance]
  | cons b bs ih =>
    intro m
    unfold minimumDistance
    split
    · rename_i hlt
      rw [ih]
      constructor
      · rintro (h | ⟨b', hb', h⟩)
        · exact Or.inr ⟨b, by simp, h⟩
        · exact Or.inr ⟨b', by simp [hb'], h⟩
      · rintro (h | ⟨b', hb', h⟩)
        · exact Or.inl (le_trans (le_of_lt hlt) h)
        · rcases List.mem_cons.1 hb' with rfl | hb'
          · exact Or.inl h
          · exact Or.inr ⟨b', hb', h⟩
    · rename_i hge
      rw [ih]
      constructor
      · rintro (h | ⟨b', hb', h⟩)
        · exact Or.inl h
        · exact Or.inr ⟨b', by simp [hb'], h⟩
      · rintro (h | ⟨b', hb', h⟩)
        · exact Or.inl h
        · rcases List.mem_cons.1 hb' with rfl | hb'
          · exact Or.inl (le_trans (le_of_not_gt hge) h)
          · exact Or.inr ⟨b', hb', h⟩

theorem threadLoop_le (A : List α) (B : List β) (distance : α → β → W) : ∀ (is : List Nat) (s : W),
    (∀ i ∈ is, i < A.length) → ∃ r, threadLoop A B distance is s = .ok r ∧
      ∀ x, r ≤ x ↔ s ≤ x ∧ ∀ i ∈ is, ∀ a, A[i]? = some a →
        Cost.inf ≤ x ∨ ∃ b ∈ B, distance a b ≤ x := by
  intro is
  induction is with
  | nil => intro s _; exact ⟨s, rfl, by simp⟩
  | cons i is ih =>
    intro s hlt
    have hi := hlt i (by simp)
    unfold threadLoop
    rw [List.getElem?_eq_getElem hi]
    simp only
    have hmin : ∀ x, minimumDistance A[i] distance B Cost.inf ≤ x ↔
        Cost.inf ≤ x ∨ ∃ b ∈ B, distance A[i] b ≤ x := fun x => minimumDistance_le _ _ x _ _
    have key : ∀ x, (∀ i' ∈ i :: is, ∀ a, A[i']? = some a → Cost.inf ≤ x ∨ ∃ b ∈ B, distance a b ≤ x) ↔
        minimumDistance A[i] distance B Cost.inf ≤ x ∧
        (∀ i' ∈ is, ∀ a, A[i']? = some a → Cost.inf ≤ x ∨ ∃ b ∈ B, distance a b ≤ x) := by
      intro x
      rw [hmin]
      constructor
      · intro h
        exact ⟨h i (by simp) _ (List.getElem?_eq_getElem hi), fun i' hi' => h i' (by simp [hi'])⟩
      · rintro ⟨h1, h2⟩ i' hi' a ha
        rcases List.mem_cons.1 hi' with rfl | hi'
        · rw [List.getElem?_eq_getElem hi] at ha
          injection ha with ha
          rw [← ha]; exact h1
        · exact h2 i' hi' a ha
    split
    · rename_i hgt
      obtain ⟨r, h1, h2⟩ := ih (minimumDistance A[i] distance B Cost.inf)
        (fun j hj => hlt j (by simp [hj]))
      refine ⟨r, h1, ?_⟩
      intro x
      rw [h2, key]
      constructor
      · rintro ⟨h3, h4⟩; exact ⟨le_trans (le_of_lt hgt) h3, h3, h4⟩
      · rintro ⟨_, h3, h4⟩; exact ⟨h3, h4⟩
    · rename_i hle
      obtain ⟨r, h1, h2⟩ := ih s (fun j hj => hlt j (by simp [hj]))
      refine ⟨r, h1, ?_⟩
      intro x
      rw [h2, key]
      constructor
      · rintro ⟨h3, h4⟩; exact ⟨h3, le_trans (le_of_not_gt hle) h3, h4⟩
      · rintro ⟨h3, _, h4⟩; exact ⟨h3, h4⟩

theorem largest_le (x : W) : ∀ (ss : List W) (m : W), largest ss m ≤ x ↔ m ≤ x ∧ ∀ s ∈ ss, s ≤ x := by
  intro ss
  induction ss with
  | nil => intro m; simp [largest]
  | cons s ss ih =>
    intro m
    unfold largest
    split
    · rename_i h
      rw [ih]
      simp only [List.mem_cons, forall_eq_or_imp]
      constructor
      · rintro ⟨h1, h2⟩; exact ⟨le_trans (le_of_lt h) h1, h1, h2⟩
      · rintro ⟨_, h1, h2⟩; exact ⟨h1, h2⟩
    · rename_i h
      rw [ih]
      simp only [List.mem_cons, forall_eq_or_imp]
      constructor
      · rintro ⟨h1, h2⟩; exact ⟨h1, le_trans (le_of_not_gt h) h1, h2⟩
      · rintro ⟨h1, _, h2⟩; exact ⟨h1, h2⟩

theorem threads_le (A : List α) (B : List β) (distance : α → β → W) : ∀ (sched : List (List Nat)),
    (∀ i ∈ sched.flatten, i < A.length) → ∃ ss, threads A B distance sched = .ok ss ∧
      ∀ x, 0 ≤ x → ((∀ s ∈ ss, s ≤ x) ↔ ∀ i ∈ sched.flatten, ∀ a, A[i]? = some a →
        Cost.inf ≤ x ∨ ∃ b ∈ B, distance a b ≤ x) := by
  intro sched
  induction sched with
  | nil => intro _; exact ⟨[], rfl, by simp⟩
  | cons t ts ih =>
    intro hlt
    simp only [List.flatten_cons, List.mem_append] at hlt
    obtain ⟨s, h1, h2⟩ := threadLoop_le A B distance t 0 (fun i hi => hlt i (Or.inl hi))
    obtain ⟨ss, h3, h4⟩ := ih (fun i hi => hlt i (Or.inr hi))
    refine ⟨s :: ss, ?_, ?_⟩
    · unfold threads
      rw [h1, Out.bind_ok, h3, Out.bind_ok]
    · intro x hx
      simp only [List.mem_cons, forall_eq_or_imp, List.flatten_cons, List.mem_append]
      rw [h4 x hx, h2 x]
      constructor
      · rintro ⟨⟨_, g1⟩, g2⟩ i (hi | hi)
        · exact g1 i hi
        · exact g2 i hi
      · intro g
        exact ⟨⟨hx, fun i hi => g i (Or.inl hi)⟩, fun i hi => g i (Or.inr hi)⟩

/-- **C29.** Under every schedule and number of threads, the result is the largest distance from an
item of the first set to its nearest item of the second set. -/
theorem C29_directed (schedule : List (List Nat)) (A : List α) (B : List β) (distance : α → β → W)
    (hs : Schedule A.length schedule) :
    ∃ D, computeDistance schedule A B distance = .ok D ∧ Directed A B distance D := by
  obtain ⟨ss, h1, h2⟩ := threads_le A B distance schedule
    (fun i hi => List.mem_range.1 (hs.mem_iff.1 hi))
  refine ⟨largest ss 0, ?_, ?_⟩
  · unfold computeDistance
    rw [h1, Out.bind_ok]
  · intro x
    rw [largest_le]
    constructor
    · rintro ⟨hx, h⟩
      refine ⟨hx, ?_⟩
      intro a ha
      obtain ⟨i, hi⟩ := List.mem_iff_getElem?.1 ha
      have hmem : i ∈ schedule.flatten :=
        hs.mem_iff.2 (List.mem_range.2 (List.getElem?_eq_some_iff.1 hi).1)
      rcases (h2 x hx).1 h i hmem a hi with h | h
      · exact Or.inl (le_antisymm (Cost.le_inf x) h)
      · exact Or.inr h
    · rintro ⟨hx, h⟩
      refine ⟨hx, (h2 x hx).2 ?_⟩
      intro i _ a ha
      rcases h a (List.mem_of_getElem? ha) with h | h
      · exact Or.inl (by rw [h])
      · exact Or.inr h

/-- **C29.** The result does not depend on the schedule. -/
theorem C29_schedule (s s' : List (List Nat)) (A : List α) (B : List β) (distance : α → β → W)
    (hs : Schedule A.length s) (hs' : Schedule A.length s') :
    computeDistance s A B distance = computeDistance s' A B distance := by
  obtain ⟨D, h1, h2⟩ := C29_directed s A B distance hs
  obtain ⟨D', h3, h4⟩ := C29_directed s' A B distance hs'
  rw [h1, h3, h2.unique h4]

/-- **C29.** The value is reached: if it is positive, some item of the first set has no item of the
second set closer than it, and one at that distance (unless it is infinite). -/
theorem C29_attained (A : List α) (B : List β) (distance : α → β → W) (D : W)
    (hD : Directed A B distance D) (hpos : 0 < D) :
    ∃ a ∈ A, (∀ b ∈ B, D ≤ distance a b) ∧ (D = Cost.inf ∨ ∃ b ∈ B, distance a b = D) := by
  -- the nearest distances of the items, none of which exceeds D
  have hall := (hD D).1 (le_refl _)
  by_contra hno
  -- every item has one of B closer than D
  have hcl : ∀ a ∈ A, ∃ b ∈ B, distance a b < D := by
    intro a ha
    by_contra hnb
    apply hno
    refine ⟨a, ha, ?_, ?_⟩
    · intro b hb
      by_contra hlt
      exact hnb ⟨b, hb, lt_of_not_ge hlt⟩
    · rcases hall.2 a ha with h | ⟨b, hb, h⟩
      · exact Or.inl h
      · refine Or.inr ⟨b, hb, le_antisymm h ?_⟩
        by_contra hlt
        exact hnb ⟨b, hb, lt_of_not_ge hlt⟩
  -- the largest of these is below D
  have hmax : ∀ (l : List α), (∀ a ∈ l, ∃ b ∈ B, distance a b < D) →
      ∃ x, 0 ≤ x ∧ x < D ∧ ∀ a ∈ l, ∃ b ∈ B, distance a b ≤ x := by
    intro l
    induction l with
    | nil => intro _; exact ⟨0, le_refl _, hpos, by simp⟩
    | cons a l ih =>
      intro h
      obtain ⟨x, h1, h2, h3⟩ := ih (fun a ha => h a (by simp [ha]))
      obtain ⟨b, hb, hlt⟩ := h a (by simp)
      refine ⟨max x (distance a b), le_trans h1 (le_max_left _ _), max_lt h2 hlt, ?_⟩
      intro a' ha'
      rcases List.mem_cons.1 ha' with rfl | ha'
      · exact ⟨b, hb, le_max_right _ _⟩
      · obtain ⟨b', hb', h'⟩ := h3 a' ha'
        exact ⟨b', hb', le_trans h' (le_max_left _ _)⟩
  obtain ⟨x, h1, h2, h3⟩ := hmax A hcl
  exact absurd ((hD x).2 ⟨h1, fun a ha => Or.inr (h3 a ha)⟩) (not_le_of_gt h2)

/-- The value is the directed distance only: it is not symmetric in the two sets, although the
distance function is. -/
theorem C29_not_symmetric :
    computeDistance [[0]] [0] [0, 5] (fun a b : Nat => Dist.fin ((a - b) + (b - a))) = .ok 0 ∧
    computeDistance [[0, 1]] [0, 5] [0] (fun a b : Nat => Dist.fin ((a - b) + (b - a))) = .ok 5 := by
  decide +kernel

/-! ## Cases that meet the hypotheses -/

example : Schedule [1, 9, 4].length [[2], [], [1, 0]] := by unfold Schedule; decide +kernel

example : computeDistance [[2], [], [1, 0]] [1, 9, 4] [0, 6]
    (fun a b : Nat => Dist.fin ((a - b) + (b - a))) = .ok 3 := by decide +kernel

example : Directed [1, 9, 4] [0, 6] (fun a b : Nat => Dist.fin ((a - b) + (b - a))) 3 := by
  obtain ⟨D, h1, h2⟩ := C29_directed [[2], [], [1, 0]] [1, 9, 4] [0, 6]
    (fun a b : Nat => Dist.fin ((a - b) + (b - a))) (by unfold Schedule; decide +kernel)
  rw [show computeDistance [[2], [], [1, 0]] [1, 9, 4] [0, 6]
    (fun a b : Nat => Dist.fin ((a - b) + (b - a))) = .ok 3 by decide +kernel] at h1
  injection h1 with h1
  rw [h1]; exact h2

end Verif.Hausdorff
