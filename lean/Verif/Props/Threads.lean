import Verif.Model.Threads
import Verif.Spec.Threads
import Mathlib.Data.List.Nodup
import Mathlib.Data.Nat.GCD.Basic

/-!
# Properties C212 and C213 (arc_helpers.hpp): the number of threads, and alignment
-/
namespace Verif.Threads
open Verif

theorem region_iff (n : Nat) (schedule : List Nat) : ∀ r r', region n r schedule = some r' ↔
    (schedule.Nodup ∧ ∀ i ∈ schedule, i < n ∧ r.done i = false) ∧
    r' = ⟨if schedule = [] then r.numThreads else n, fun k => r.done k || decide (k ∈ schedule)⟩ := by
  induction schedule with
  | nil =>
    intro r r'
    simp only [region, Option.some.injEq, List.nodup_nil, List.not_mem_nil, false_implies, implies_true, and_self, true_and,
      if_true, decide_false, Bool.or_false]
    exact eq_comm
  | cons i schedule ih =>
    intro r r'
    simp only [region, assign]
    by_cases h : i < n ∧ r.done i = false
    · rw [if_pos h]
      simp only [Option.bind_eq_bind, Option.bind_some, ih]
      constructor
      · rintro ⟨⟨h1, h2⟩, rfl⟩
        have hn : i ∉ schedule := by
          intro c
          have := (h2 i c).2
          simp at this
        refine ⟨⟨List.nodup_cons.2 ⟨hn, h1⟩, ?_⟩, ?_⟩
        · intro j hj
          rcases List.mem_cons.1 hj with rfl | hj
          · exact h
          · obtain ⟨a, b⟩ := h2 j hj
            refine ⟨a, ?_⟩
            have : j ≠ i := fun e => hn (e ▸ hj)
            simpa [this] using b
        · simp only [reduceCtorEq, if_false, List.mem_cons, ite_self, Region.mk.injEq, true_and]
          funext k
          by_cases c : k = i <;> simp [c]
      · rintro ⟨⟨h1, h2⟩, rfl⟩
        obtain ⟨hn, h1⟩ := List.nodup_cons.1 h1
        refine ⟨⟨h1, ?_⟩, ?_⟩
        · intro j hj
          obtain ⟨a, b⟩ := h2 j (List.mem_cons_of_mem _ hj)
          have : j ≠ i := fun e => hn (e ▸ hj)
          exact ⟨a, by simpa [this] using b⟩
        · simp only [reduceCtorEq, if_false, List.mem_cons, ite_self, Region.mk.injEq, true_and]
          funext k
          by_cases c : k = i <;> simp [c]
    · rw [if_neg h]
      simp only [Option.bind_eq_bind, Option.bind_none, reduceCtorEq, false_iff]
      rintro ⟨⟨-, h2⟩, -⟩
      exact h (h2 i (by simp))

/-- **C212.** In whatever order the threads of the team make their assignments, the region ends when each of them has made
its one, and `GetNumOMPThreads` returns the number of threads of the team; without OpenMP it returns one. -/
theorem C212_value (n : Nat) (hn : 1 ≤ n) (schedule : List Nat) :
    (∀ v, getNumOMPThreads (some n) schedule = some v ↔ schedule.Perm (List.range n) ∧ v = n) ∧
    getNumOMPThreads none schedule = some 1 := by
  refine ⟨fun v => ?_, rfl⟩
  have hp : schedule.Perm (List.range n) ↔ schedule.Nodup ∧ ∀ i, i ∈ schedule ↔ i < n := by
    constructor
    · intro h
      exact ⟨h.nodup_iff.2 List.nodup_range, fun i => h.mem_iff.trans List.mem_range⟩
    · rintro ⟨h1, h2⟩
      exact (List.perm_ext_iff_of_nodup h1 List.nodup_range).2 fun i => (h2 i).trans List.mem_range.symm
  rw [hp]
  unfold getNumOMPThreads
  simp only [Option.bind_eq_bind, Option.bind_eq_some_iff]
  constructor
  · rintro ⟨r, h1, h2⟩
    obtain ⟨⟨k1, k2⟩, rfl⟩ := (region_iff n schedule start r).1 h1
    by_cases c : ((List.range n).all fun k => start.done k || decide (k ∈ schedule)) = true
    · simp only [c, if_true] at h2
      rw [List.all_eq_true] at c
      have hm : ∀ i, i < n → i ∈ schedule := by
        intro i hi
        have := c i (List.mem_range.2 hi)
        simpa [start] using this
      have hne : schedule ≠ [] := by
        rintro rfl
        exact absurd (hm 0 (by omega)) (by simp)
      simp only [if_neg hne, Option.some.injEq] at h2
      exact ⟨⟨k1, fun i => ⟨fun h => (k2 i h).1, hm i⟩⟩, h2.symm⟩
    · simp only [c] at h2
      simp at h2
  · rintro ⟨⟨k1, k2⟩, rfl⟩
    have hne : schedule ≠ [] := by
      rintro rfl
      exact absurd ((k2 0).2 (by omega)) (by simp)
    refine ⟨_, (region_iff n schedule start _).2 ⟨⟨k1, fun i hi => ⟨(k2 i).1 hi, rfl⟩⟩, rfl⟩, ?_⟩
    have hall : ((List.range n).all fun k => start.done k || decide (k ∈ schedule)) = true := by
      rw [List.all_eq_true]
      intro i hi
      simp [start, (k2 i).2 (List.mem_range.1 hi)]
    simp only [hall, if_true, if_neg hne]

/-- **C212.** With two threads or more the assignments of different threads are not ordered: a data race, which the language
leaves undefined although all of them assign the same value. With one thread there is none. -/
theorem C212_race (n : Nat) : Race n ↔ 2 ≤ n := by
  constructor
  · rintro ⟨a, b, ha, hb, hne, -, h1, h2⟩
    cases a <;> cases b
    case assign.assign i j =>
      simp only [Access.of] at ha hb
      have : i ≠ j := fun e => hne (by rw [e])
      omega
    case init.init => exact (hne rfl).elim
    case result.result => exact (hne rfl).elim
    case init.assign i => exact (h1 (.fork i)).elim
    case init.result => exact (h1 .around).elim
    case assign.init i => exact (h2 (.fork i)).elim
    case assign.result i => exact (h1 (.join i)).elim
    case result.init => exact (h2 .around).elim
    case result.assign i => exact (h2 (.join i)).elim
  · intro h
    refine ⟨.assign 0, .assign 1, ?_, ?_, by decide, .inl rfl, ?_, ?_⟩
    · show 0 < n; omega
    · show 1 < n; omega
    · intro c; cases c
    · intro c; cases c

/-- Three threads in another order. -/
example : getNumOMPThreads (some 3) [2, 0, 1] = some 3 ∧ getNumOMPThreads (some 3) [2, 0] = none ∧
    [2, 0, 1].Perm (List.range 3) := by decide

/-- **C213.** Both checks tell whether the address is a multiple: `CheckAlignment` by its value, `RequireAlignment` by a
failed assertion. An alignment of zero is undefined in both. -/
theorem C213_check (address desired : Nat) :
    (checkAlignment address desired = .ub ↔ desired = 0) ∧ (requireAlignment address desired = .ub ↔ desired = 0) ∧
    (checkAlignment address desired = .ok true ↔ desired ≠ 0 ∧ desired ∣ address) ∧
    (requireAlignment address desired = .ok () ↔ desired ≠ 0 ∧ desired ∣ address) ∧
    (checkAlignment address desired = .ok false ↔ ¬ desired ∣ address ∧ desired ≠ 0) ∧
    (requireAlignment address desired = .abort ↔ ¬ desired ∣ address ∧ desired ≠ 0) := by
  unfold requireAlignment checkAlignment
  by_cases h : desired = 0
  · simp [h, Out.bind_ub]
  · rw [Nat.dvd_iff_mod_eq_zero]
    by_cases c : address % desired = 0
    · simp [h, c, Out.bind_ok]
    · have : (address % desired == 0) = false := by simpa using c
      simp [h, c, this, Out.bind_ok]

/-- **C213.** All elements of an array are aligned exactly when the array is and, if it has two elements or more, the size
of an element is a multiple of the alignment. A member of an aligned object is aligned exactly when its offset is a
multiple. An object is aligned for two alignments exactly when it is for their least common multiple. -/
theorem C213_layout (address size desired : Nat) (hd : desired ≠ 0) :
    (∀ count, 2 ≤ count → ((∀ i < count, requireAlignment (address + i * size) desired = .ok ()) ↔
      requireAlignment address desired = .ok () ∧ desired ∣ size)) ∧
    (∀ offset, requireAlignment address desired = .ok () →
      (requireAlignment (address + offset) desired = .ok () ↔ desired ∣ offset)) ∧
    (∀ other, other ≠ 0 → (requireAlignment address desired = .ok () ∧ requireAlignment address other = .ok () ↔
      requireAlignment address (Nat.lcm desired other) = .ok ())) := by
  have key : ∀ a, requireAlignment a desired = .ok () ↔ desired ∣ a := fun a => by
    rw [(C213_check a desired).2.2.2.1]; simp [hd]
  refine ⟨fun count hc => ?_, fun offset h => ?_, fun other ho => ?_⟩
  · simp only [key]
    constructor
    · intro h
      have h0 := h 0 (by omega)
      have h1 := h 1 (by omega)
      simp only [Nat.zero_mul, Nat.add_zero, Nat.one_mul] at h0 h1
      exact ⟨h0, (Nat.dvd_add_right h0).1 h1⟩
    · rintro ⟨h1, h2⟩ i -
      exact Nat.dvd_add h1 (Dvd.dvd.mul_left h2 i)
  · rw [key] at h ⊢
    exact Nat.dvd_add_right h
  · rw [key, (C213_check address other).2.2.2.1, (C213_check address _).2.2.2.1]
    constructor
    · rintro ⟨h1, -, h2⟩
      exact ⟨Nat.lcm_ne_zero hd ho, Nat.lcm_dvd h1 h2⟩
    · rintro ⟨-, h⟩
      exact ⟨(Nat.dvd_lcm_left _ _).trans h, ho, (Nat.dvd_lcm_right _ _).trans h⟩

/-- An object at 48 is aligned at 16 but not at 32. -/
example : requireAlignment 48 16 = .ok () ∧ requireAlignment 48 32 = .abort ∧ checkAlignment 48 0 = .ub := by decide

end Verif.Threads
