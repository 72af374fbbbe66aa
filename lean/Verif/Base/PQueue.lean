import Mathlib.Order.Defs.LinearOrder

/-!
# Priority queues

Model of `std::priority_queue` with a comparator that makes the smallest key come first: `top`/`pop`
take some entry with the smallest key. Which one among equal keys depends on the heap's internal
order, so the model takes an arbitrary number `c` that picks it; theorems quantify over all picks.
Used for dijkstras.hpp:38, 171, arc_helpers.hpp:747 and simple_astar_planner.hpp:107.
-/
namespace Verif

variable {α W : Type} [LinearOrder W]

/-- The positions of the entries with the smallest key. -/
def minPositions (key : α → W) (q : List α) : List Nat :=
  (List.range q.length).filter fun i =>
    match q[i]? with
    | some x => q.all fun y => decide (key x ≤ key y)
    | none => false

/-- `top` followed by `pop`: the entry and the remaining queue; `none` on an empty queue. -/
def popMin (key : α → W) (c : Nat) (q : List α) : Option (α × List α) :=
  match (minPositions key q)[c % (minPositions key q).length]? with
  | none => none
  | some i =>
    match q[i]? with
    | none => none
    | some x => some (x, q.eraseIdx i)

theorem mem_minPositions {key : α → W} {q : List α} {i : Nat} :
    i ∈ minPositions key q ↔ ∃ x, q[i]? = some x ∧ ∀ y ∈ q, key x ≤ key y := by
  unfold minPositions
  rw [List.mem_filter]
  constructor
  · rintro ⟨_, h⟩
    cases hx : q[i]? with
    | none => rw [hx] at h; simp at h
    | some x => rw [hx] at h; exact ⟨x, rfl, by simpa using h⟩
  · rintro ⟨x, hx, h⟩
    refine ⟨List.mem_range.2 (List.getElem?_eq_some_iff.1 hx).1, ?_⟩
    rw [hx]; simpa using h

theorem exists_min {key : α → W} : ∀ {q : List α}, q ≠ [] → ∃ x ∈ q, ∀ y ∈ q, key x ≤ key y
  | [a], _ => ⟨a, by simp, by simp⟩
  | a :: b :: q, _ => by
    obtain ⟨x, hx, h⟩ := exists_min (q := b :: q) (key := key) (by simp)
    by_cases hle : key a ≤ key x
    · refine ⟨a, by simp, ?_⟩
      intro y hy
      rcases List.mem_cons.1 hy with rfl | hy
      · exact le_refl _
      · exact le_trans hle (h y hy)
    · refine ⟨x, List.mem_cons_of_mem _ hx, ?_⟩
      intro y hy
      rcases List.mem_cons.1 hy with rfl | hy
      · exact le_of_lt (lt_of_not_ge hle)
      · exact h y hy

theorem minPositions_ne_nil {key : α → W} {q : List α} (h : q ≠ []) : minPositions key q ≠ [] := by
  obtain ⟨x, hx, hmin⟩ := exists_min (key := key) h
  obtain ⟨i, hi, rfl⟩ := List.mem_iff_getElem.1 hx
  intro hn
  have : i ∈ minPositions key q := mem_minPositions.2 ⟨_, List.getElem?_eq_getElem hi, hmin⟩
  rw [hn] at this
  cases this

/-- What a pop does: some entry of smallest key is removed. -/
theorem popMin_spec {key : α → W} {c : Nat} {q : List α} {x : α} {rest : List α}
    (h : popMin key c q = some (x, rest)) :
    ∃ i, q[i]? = some x ∧ rest = q.eraseIdx i ∧ ∀ y ∈ q, key x ≤ key y := by
  unfold popMin at h
  split at h
  · cases h
  · rename_i i hi
    have hmem := mem_minPositions.1 (List.mem_of_getElem? hi)
    obtain ⟨y, hy, hmin⟩ := hmem
    rw [hy] at h
    simp only [Option.some.injEq, Prod.mk.injEq] at h
    obtain ⟨rfl, rfl⟩ := h
    exact ⟨i, hy, rfl, hmin⟩

theorem popMin_none {key : α → W} {c : Nat} {q : List α} : popMin key c q = none ↔ q = [] := by
  constructor
  · intro h
    by_contra hne
    have hlen := List.length_pos_iff.2 (minPositions_ne_nil (key := key) hne)
    have hlt := Nat.mod_lt c hlen
    unfold popMin at h
    rw [List.getElem?_eq_getElem hlt] at h
    have hmem := mem_minPositions.1 (List.getElem_mem hlt)
    obtain ⟨y, hy, _⟩ := hmem
    simp only [hy] at h
    cases h
  · rintro rfl
    rfl

/-- Every entry of smallest key can be the one that comes first. -/
theorem popMin_complete {key : α → W} {q : List α} {i : Nat} {x : α} (hx : q[i]? = some x)
    (hmin : ∀ y ∈ q, key x ≤ key y) : ∃ c, popMin key c q = some (x, q.eraseIdx i) := by
  have hmem : i ∈ minPositions key q := mem_minPositions.2 ⟨x, hx, hmin⟩
  obtain ⟨c, hc, rfl⟩ := List.mem_iff_getElem.1 hmem
  refine ⟨c, ?_⟩
  unfold popMin
  rw [Nat.mod_eq_of_lt hc, List.getElem?_eq_getElem hc]
  simp only [hx]

theorem popMin_length {key : α → W} {c : Nat} {q : List α} {x : α} {rest : List α}
    (h : popMin key c q = some (x, rest)) : rest.length + 1 = q.length := by
  obtain ⟨i, hi, rfl, _⟩ := popMin_spec h
  have := (List.getElem?_eq_some_iff.1 hi).1
  rw [List.length_eraseIdx_of_lt this]
  omega

theorem popMin_mem {key : α → W} {c : Nat} {q : List α} {x : α} {rest : List α}
    (h : popMin key c q = some (x, rest)) : x ∈ q ∧ (∀ y ∈ rest, y ∈ q) ∧
      (∀ y ∈ q, y = x ∨ y ∈ rest) ∧ ∀ y ∈ q, key x ≤ key y := by
  obtain ⟨i, hi, rfl, hmin⟩ := popMin_spec h
  refine ⟨List.mem_of_getElem? hi, fun y hy => List.mem_of_mem_eraseIdx hy, ?_, hmin⟩
  intro y hy
  by_cases hyx : y = x
  · exact Or.inl hyx
  · right
    obtain ⟨j, hj⟩ := List.mem_iff_getElem?.1 hy
    have hji : j ≠ i := by
      rintro rfl
      rw [hi] at hj; injection hj with hj; exact hyx hj.symm
    exact List.mem_eraseIdx_iff_getElem?.2 ⟨j, hji, hj⟩

end Verif
