import Verif.Model.NanHausdorff
import Verif.Props.Hausdorff
import Verif.Spec.NotANumber

/-!
# C182: the Hausdorff distance with distances that are not a number
-/
namespace Verif.NanHausdorff
open Verif Verif.NotANumber

variable {α β W : Type} [Cost W]

theorem lt_number (a : Option W) (b : W) : lt a (some b) = decide (a.getD Cost.inf < b) := by
  cases a with
  | some a => rfl
  | none => simp [lt, Cost.le_inf]

theorem minimumDistance_number (first : α) (distance : α → β → Option W) : ∀ (seconds : List β) (m : W),
    minimumDistance first distance seconds (some m) =
      some (Hausdorff.minimumDistance first (orInf distance) seconds m)
  | [], m => rfl
  | second :: rest, m => by
    simp only [minimumDistance, Hausdorff.minimumDistance, lt_number, decide_eq_true_eq]
    rw [show (distance first second).getD Cost.inf = orInf distance first second from rfl]
    split
    · next h =>
      cases hd : distance first second with
      | none =>
        rw [show orInf distance first second = Cost.inf by simp [orInf, hd]] at h
        exact absurd h (not_lt_of_ge (Cost.le_inf _))
      | some d =>
        rw [show orInf distance first second = d by simp [orInf, hd]]
        exact minimumDistance_number first distance rest d
    · exact minimumDistance_number first distance rest m

theorem threadLoop_number (firsts : List α) (seconds : List β) (distance : α → β → Option W) :
    ∀ (is : List Nat) (s : W), threadLoop firsts seconds distance is (some s) =
      some <$> Hausdorff.threadLoop firsts seconds (orInf distance) is s
  | [], s => rfl
  | i :: is, s => by
    unfold threadLoop Hausdorff.threadLoop
    cases firsts[i]? with
    | none => rfl
    | some first =>
      simp only [minimumDistance_number, lt_number, Option.getD_some, decide_eq_true_eq]
      split
      · exact threadLoop_number firsts seconds distance is _
      · exact threadLoop_number firsts seconds distance is s

theorem threads_number (firsts : List α) (seconds : List β) (distance : α → β → Option W) :
    ∀ ts : List (List Nat), threads firsts seconds distance ts =
      (List.map some) <$> Hausdorff.threads firsts seconds (orInf distance) ts
  | [] => rfl
  | t :: ts => by
    simp only [threads, Hausdorff.threads, threadLoop_number, threads_number firsts seconds distance ts]
    cases Hausdorff.threadLoop firsts seconds (orInf distance) t 0 with
    | ok s =>
      cases Hausdorff.threads firsts seconds (orInf distance) ts with
      | ok ss => rfl
      | throws e => rfl
      | abort => rfl
      | ub => rfl
    | throws e => rfl
    | abort => rfl
    | ub => rfl

theorem largest_number : ∀ (ss : List W) (m : W),
    largest (ss.map some) (some m) = some (Hausdorff.largest ss m)
  | [], m => rfl
  | s :: ss, m => by
    simp only [List.map_cons, largest, Hausdorff.largest, lt_number, Option.getD_some, decide_eq_true_eq]
    split
    · exact largest_number ss s
    · exact largest_number ss m

/-- **C182.** Under every schedule the result is a number: the directed Hausdorff distance where distances
that are not a number count as infinite. -/
theorem C182_directed (schedule : List (List Nat)) (A : List α) (B : List β) (distance : α → β → Option W)
    (hs : Knn.Schedule A.length schedule) :
    ∃ D, computeDistance schedule A B distance = .ok (some D) ∧
      Hausdorff.Directed A B (orInf distance) D := by
  obtain ⟨D, h1, h2⟩ := Hausdorff.C29_directed schedule A B (orInf distance) hs
  refine ⟨D, ?_, h2⟩
  unfold Hausdorff.computeDistance at h1
  unfold computeDistance
  rw [threads_number]
  cases ht : Hausdorff.threads A B (orInf distance) schedule with
  | ok ss =>
    rw [ht] at h1
    have h1 : Out.ok (Hausdorff.largest ss 0) = Out.ok D := h1
    injection h1 with h1
    rw [← h1, ← largest_number]
    rfl
  | throws e => rw [ht] at h1; cases h1
  | abort => rw [ht] at h1; cases h1
  | ub => rw [ht] at h1; cases h1

/-- **C182.** The result is below infinity exactly if every item of the first set has one of the second at a
distance that is a number below infinity: an item without one makes the result infinite, never not a
number. -/
theorem C182_finite (schedule : List (List Nat)) (A : List α) (B : List β) (distance : α → β → Option W)
    (hs : Knn.Schedule A.length schedule) (h0 : (0 : W) < Cost.inf) :
    ∃ D, computeDistance schedule A B distance = .ok (some D) ∧
      (D < Cost.inf ↔ ∀ a ∈ A, ∃ b ∈ B, ∃ d, distance a b = some d ∧ d < Cost.inf) := by
  obtain ⟨D, h1, h2⟩ := C182_directed schedule A B distance hs
  refine ⟨D, h1, ?_⟩
  have hor : ∀ a b x, orInf distance a b ≤ x → x < Cost.inf → ∃ d, distance a b = some d ∧ d < Cost.inf := by
    intro a b x hx hfin
    cases hd : distance a b with
    | none =>
      rw [show orInf distance a b = Cost.inf by simp [orInf, hd]] at hx
      exact absurd hx (not_le_of_gt hfin)
    | some d =>
      rw [show orInf distance a b = d by simp [orInf, hd]] at hx
      exact ⟨d, rfl, lt_of_le_of_lt hx hfin⟩
  constructor
  · intro hD a ha
    rcases ((h2 D).1 (le_refl _)).2 a ha with h | ⟨b, hb, h⟩
    · rw [h] at hD; exact absurd hD (lt_irrefl _)
    · exact ⟨b, hb, hor a b D h hD⟩
  · intro h
    have key : ∀ A' : List α, (∀ a ∈ A', ∃ b ∈ B, ∃ d, distance a b = some d ∧ d < Cost.inf) →
        ∃ x : W, 0 ≤ x ∧ x < Cost.inf ∧ ∀ a ∈ A', ∃ b ∈ B, orInf distance a b ≤ x := by
      intro A'
      induction A' with
      | nil => intro _; exact ⟨0, le_refl _, h0, by simp⟩
      | cons a as ih =>
        intro hall
        obtain ⟨x, x0, x1, x2⟩ := ih (fun a' ha' => hall a' (List.mem_cons_of_mem _ ha'))
        obtain ⟨b, hb, d, hd, hlt⟩ := hall a (by simp)
        have hod : orInf distance a b = d := by simp [orInf, hd]
        refine ⟨max x d, le_trans x0 (le_max_left _ _), max_lt x1 hlt, ?_⟩
        intro a' ha'
        rcases List.mem_cons.1 ha' with rfl | ha'
        · exact ⟨b, hb, by rw [hod]; exact le_max_right _ _⟩
        · obtain ⟨b', hb', h'⟩ := x2 a' ha'
          exact ⟨b', hb', le_trans h' (le_max_left _ _)⟩
    obtain ⟨x, x0, x1, x2⟩ := key A h
    exact lt_of_le_of_lt ((h2 x).2 ⟨x0, fun a ha => .inr (x2 a ha)⟩) x1

/-! ## Cases that meet the hypotheses -/

/-- the distance of two numbers, if both are given -/
def exDistance : Option Nat → Option Nat → Option Dist
  | some a, some b => some (.fin ((a - b) + (b - a)))
  | _, _ => none

example : Knn.Schedule [some 1, some 7].length [[1], [0]] := by unfold Knn.Schedule; decide +kernel

/-- An item of the second set that is not comparable does not matter; one of the first set does. -/
example : computeDistance [[1], [0]] [some 1, some 7] [none, some 5] exDistance = .ok (some (.fin 4)) ∧
    computeDistance [[1], [0]] [some 1, none] [some 1, some 5] exDistance = .ok (some .inf) := by
  decide +kernel

example : (0 : Dist) < Cost.inf := by decide +kernel

end Verif.NanHausdorff
