import Verif.Lemmas.Dtw
import Verif.Lemmas.NanDtw
import Verif.Spec.NanDtw

/-!
# C184: dynamic time warping with distances that are not a number
-/
namespace Verif.NanDtw
open Verif Verif.NotANumber

variable {α β W : Type} [Cost W]

/-- The evaluators a program can have: made by a constructor, or left behind by an evaluation. -/
inductive Reachable (α β : Type) : Mat (Option W) → Prop
  | default {m : Mat (Option W)} : new = .ok m → Reachable α β m
  | sized {m : Mat (Option W)} (a b : Nat) : newSized a b = .ok m → Reachable α β m
  | evaluated {m m' : Mat (Option W)} {c : Option W} (firsts : List α) (seconds : List β)
      (distance : α → β → Option W) :
      Reachable α β m → evaluateWarpingCost m firsts seconds distance = .ok (c, m') →
      Reachable α β m'

theorem reachable_evaluator {m : Mat (Option W)} (h : Reachable α β m) : Evaluator m := by
  induction h with
  | default h =>
    obtain ⟨m', h1, _, _, h4⟩ := initializeMatrix_new (Mat.uninit 0 0 : Mat (Option W)) 0 0 (by simp [Mat.uninit])
    unfold new at h
    rw [h] at h1; injection h1 with h1; rw [h1]; exact h4
  | sized a b h =>
    obtain ⟨m', h1, _, _, h4⟩ := initializeMatrix_new (Mat.uninit 0 0 : Mat (Option W)) a b (by simp [Mat.uninit])
    unfold newSized at h
    rw [h] at h1; injection h1 with h1; rw [h1]; exact h4
  | evaluated firsts seconds distance _ h ih =>
    by_cases he : firsts = [] ∨ seconds = []
    · obtain ⟨v, m', h1, h2⟩ := evaluate_empty _ ih firsts seconds distance he
      rw [h] at h1; injection h1 with h1
      rw [(Prod.mk.inj h1).2]; exact h2
    · obtain ⟨m', h1, h2⟩ := evaluate_nonempty _ ih firsts seconds distance
        (fun h => he (Or.inl h)) (fun h => he (Or.inr h))
      rw [h] at h1; injection h1 with h1
      rw [(Prod.mk.inj h1).2]; exact h2

theorem compute_table (firsts : List α) (seconds : List β) (distance : α → β → Option W)
    (h1 : firsts ≠ []) (h2 : seconds ≠ []) :
    computeDTWDistance firsts seconds distance =
      .ok (table (distAt firsts seconds distance) firsts.length seconds.length) := by
  obtain ⟨m0, k1, _, _, k4⟩ := initializeMatrix_new (Mat.uninit 0 0 : Mat (Option W)) 0 0 (by simp [Mat.uninit])
  obtain ⟨m1, g2, _⟩ := evaluate_nonempty m0 k4 firsts seconds distance h1 h2
  unfold computeDTWDistance new
  rw [k1, Out.bind_ok, g2, Out.bind_ok]

/-- **C184.** On non-empty sequences, an evaluation returns what the one-off function returns, whatever the
evaluator computed before, even if the costs were not a number. -/
theorem C184_history (m : Mat (Option W)) (hm : Reachable α β m) (firsts : List α) (seconds : List β)
    (distance : α → β → Option W) (h1 : firsts ≠ []) (h2 : seconds ≠ []) :
    ∃ c m', evaluateWarpingCost m firsts seconds distance = .ok (c, m') ∧
      computeDTWDistance firsts seconds distance = .ok c := by
  obtain ⟨m', g1, _⟩ := evaluate_nonempty m (reachable_evaluator hm) firsts seconds distance h1 h2
  exact ⟨_, m', g1, compute_table firsts seconds distance h1 h2⟩

theorem table_numbers (d : Nat → Nat → W) : ∀ (s i j : Nat), i + j ≤ s →
    table (fun i j => some (d i j)) i j = some (Dtw.table d i j) := by
  intro s
  induction s with
  | zero =>
    intro i j h
    obtain ⟨rfl, rfl⟩ : i = 0 ∧ j = 0 := by omega
    rw [table, Dtw.table]
  | succ s ih =>
    intro i j h
    match i, j with
    | 0, 0 => rw [table, Dtw.table]
    | 0, j + 1 => rw [table, Dtw.table]
    | i + 1, 0 => rw [table, Dtw.table]
    | i + 1, j + 1 =>
      rw [table_succ, Dtw.table_succ, ih i (j + 1) (by omega), ih i j (by omega), ih (i + 1) j (by omega)]
      have : ∀ a b c : W, previousCost (some a) (some b) (some c) = some (Dtw.previousCost a b c) := by
        intro a b c
        simp only [previousCost, Dtw.previousCost, lt, decide_eq_true_eq]
        split
        · rfl
        · split <;> rfl
      rw [this]
      rfl

theorem table_congr {d d' : Nat → Nat → Option W} {n m : Nat}
    (h : ∀ i j, i < n → j < m → d i j = d' i j) : ∀ (s i j : Nat), i + j ≤ s → i ≤ n → j ≤ m →
    table d i j = table d' i j := by
  intro s
  induction s with
  | zero =>
    intro i j hs _ _
    obtain ⟨rfl, rfl⟩ : i = 0 ∧ j = 0 := by omega
    rw [table, table]
  | succ s ih =>
    intro i j hs hi hj
    match i, j with
    | 0, 0 => rw [table, table]
    | 0, j + 1 => rw [table, table]
    | i + 1, 0 => rw [table, table]
    | i + 1, j + 1 =>
      rw [table_succ, table_succ, ih i (j + 1) (by omega) (by omega) hj, ih i j (by omega) (by omega) (by omega),
        ih (i + 1) j (by omega) hi (by omega), h i j (by omega) (by omega)]

/-- **C184.** If all distances are numbers, the result is the number that property C30 is about. -/
theorem C184_numbers (firsts : List α) (seconds : List β) (distance : α → β → Option W) (d : α → β → W)
    (h1 : firsts ≠ []) (h2 : seconds ≠ []) (hd : ∀ x ∈ firsts, ∀ y ∈ seconds, distance x y = some (d x y)) :
    ∃ c, Dtw.computeDTWDistance firsts seconds d = .ok c ∧
      computeDTWDistance firsts seconds distance = .ok (some c) := by
  refine ⟨Dtw.table (Dtw.distAt firsts seconds d) firsts.length seconds.length, ?_, ?_⟩
  · obtain ⟨m0, k1, _, _, k4⟩ := Dtw.initializeMatrix_new (Mat.uninit 0 0 : Mat W) 0 0 (by simp [Mat.uninit])
    obtain ⟨m1, g2, _⟩ := Dtw.evaluate_nonempty m0 k4 firsts seconds d h1 h2
    unfold Dtw.computeDTWDistance Dtw.new
    rw [k1, Out.bind_ok, g2, Out.bind_ok]
  · rw [compute_table firsts seconds distance h1 h2, ← table_numbers _ _ _ _ (Nat.le_refl _)]
    congr 1
    refine table_congr ?_ _ _ _ (Nat.le_refl _) (Nat.le_refl _) (Nat.le_refl _)
    intro i j hi hj
    unfold distAt Dtw.distAt
    rw [List.getElem?_eq_getElem hi, List.getElem?_eq_getElem hj]
    exact hd _ (List.getElem_mem _) _ (List.getElem_mem _)

theorem previousCost_none (x y z : Option W) : previousCost x y z = none ↔ y = none := by
  unfold previousCost
  split
  · next h =>
    obtain ⟨h, _⟩ := h
    cases x <;> cases y <;> simp_all [lt]
  · split
    · next h =>
      obtain ⟨_, h⟩ := h
      cases z <;> cases y <;> simp_all [lt]
    · rfl

theorem add_none (a b : Option W) : add a b = none ↔ a = none ∨ b = none := by
  cases a <;> cases b <;> simp [add]

/-- An entry of the table is not a number exactly if a distance on the diagonal through it is not. -/
theorem table_none (d : Nat → Nat → Option W) : ∀ i j : Nat,
    table d i j = none ↔ ∃ k, k < i ∧ k < j ∧ d (i - 1 - k) (j - 1 - k) = none := by
  intro i
  induction i with
  | zero =>
    intro j
    constructor
    · intro h
      cases j with
      | zero => rw [table] at h; cases h
      | succ j => rw [table] at h; cases h
    · rintro ⟨k, hk, _⟩
      omega
  | succ i ih =>
    intro j
    cases j with
    | zero =>
      constructor
      · intro h
        rw [table] at h; cases h
      · rintro ⟨k, _, hk, _⟩
        omega
    | succ j =>
      rw [table_succ, add_none, previousCost_none, ih j]
      constructor
      · rintro (⟨k, h1, h2, h3⟩ | h)
        · refine ⟨k + 1, by omega, by omega, ?_⟩
          rw [show i + 1 - 1 - (k + 1) = i - 1 - k by omega, show j + 1 - 1 - (k + 1) = j - 1 - k by omega]
          exact h3
        · exact ⟨0, by omega, by omega, h⟩
      · rintro ⟨k, h1, h2, h3⟩
        cases k with
        | zero => exact .inr h3
        | succ k =>
          refine .inl ⟨k, by omega, by omega, ?_⟩
          rw [show i + 1 - 1 - (k + 1) = i - 1 - k by omega, show j + 1 - 1 - (k + 1) = j - 1 - k by omega] at h3
          exact h3

/-- **C184.** The result is not a number exactly if some distance on the diagonal that ends with the last
items of both sequences is not a number. Other distances that are not a number do not show. -/
theorem C184_not_a_number (firsts : List α) (seconds : List β) (distance : α → β → Option W)
    (h1 : firsts ≠ []) (h2 : seconds ≠ []) :
    ∃ c, computeDTWDistance firsts seconds distance = .ok c ∧
      (c = none ↔ BrokenDiagonal firsts seconds distance) := by
  refine ⟨_, compute_table firsts seconds distance h1 h2, ?_⟩
  rw [table_none]
  have l1 := List.length_pos_iff.2 h1
  have l2 := List.length_pos_iff.2 h2
  constructor
  · rintro ⟨k, hk1, hk2, h⟩
    have hx : firsts.length - 1 - k < firsts.length := by omega
    have hy : seconds.length - 1 - k < seconds.length := by omega
    refine ⟨_, _, _, _, List.getElem?_eq_getElem hx, List.getElem?_eq_getElem hy, by omega, ?_⟩
    unfold distAt at h
    rw [List.getElem?_eq_getElem hx, List.getElem?_eq_getElem hy] at h
    exact h
  · rintro ⟨i, j, x, y, hx, hy, hij, h⟩
    have hi := (List.getElem?_eq_some_iff.1 hx).1
    have hj := (List.getElem?_eq_some_iff.1 hy).1
    refine ⟨firsts.length - 1 - i, by omega, by omega, ?_⟩
    rw [show firsts.length - 1 - (firsts.length - 1 - i) = i by omega,
      show seconds.length - 1 - (firsts.length - 1 - i) = j by omega]
    unfold distAt
    rw [hx, hy]
    exact h

theorem previousCost_one (x y z : Option W) :
    previousCost x y z = x ∨ previousCost x y z = y ∨ previousCost x y z = z := by
  unfold previousCost
  split
  · exact .inl rfl
  · split
    · exact .inr (.inr rfl)
    · exact .inr (.inl rfl)

/-- Every number in the table is infinite or the cost of a path. -/
theorem table_warp {firsts : List α} {seconds : List β} {distance : α → β → Option W}
    (hinf : ∀ a : W, 0 ≤ a → Cost.inf + a = Cost.inf)
    (hpos : ∀ x ∈ firsts, ∀ y ∈ seconds, ∀ d, distance x y = some d → 0 ≤ d) :
    ∀ (s i j : Nat), i + j ≤ s → i < firsts.length → j < seconds.length → ∀ C,
      table (distAt firsts seconds distance) (i + 1) (j + 1) = some C →
      C = Cost.inf ∨ Warp firsts seconds distance i j C := by
  intro s
  induction s with
  | zero =>
    intro i j hs hi hj C hC
    obtain ⟨rfl, rfl⟩ : i = 0 ∧ j = 0 := by omega
    have hx := List.getElem?_eq_getElem hi
    have hy := List.getElem?_eq_getElem hj
    rw [table_succ, table, table, table] at hC
    have hp : previousCost (some Cost.inf) (some (0 : W)) (some Cost.inf) = some 0 := by
      simp [previousCost, lt]
    rw [hp] at hC
    cases hd : distAt firsts seconds distance 0 0 with
    | none => rw [hd] at hC; cases hC
    | some d =>
      rw [hd] at hC
      injection hC with hC
      subst hC
      refine .inr (.start hx hy ?_)
      unfold distAt at hd
      rw [hx, hy] at hd
      exact hd
  | succ s ih =>
    intro i j hs hi hj C hC
    by_cases h0 : i + j ≤ s
    · exact ih i j h0 hi hj C hC
    have hx := List.getElem?_eq_getElem hi
    have hy := List.getElem?_eq_getElem hj
    rw [table_succ] at hC
    have hdd : distAt firsts seconds distance i j = distance firsts[i] seconds[j] := by
      unfold distAt; rw [hx, hy]
    cases hd : distance firsts[i] seconds[j] with
    | none => rw [hdd, hd] at hC; exact absurd hC (by rw [(add_none _ _).2 (.inr rfl)]; simp)
    | some d =>
      have hd0 := hpos _ (List.getElem_mem hi) _ (List.getElem_mem hj) d hd
      rw [hdd, hd] at hC
      generalize hp : previousCost (table (distAt firsts seconds distance) i (j + 1))
        (table (distAt firsts seconds distance) i j) (table (distAt firsts seconds distance) (i + 1) j) = p at hC
      cases p with
      | none => cases hC
      | some p =>
        injection hC with hC
        subst hC
        have hstep : p = Cost.inf → p + d = Cost.inf := fun h => by rw [h]; exact hinf d hd0
        rcases previousCost_one (table (distAt firsts seconds distance) i (j + 1))
          (table (distAt firsts seconds distance) i j) (table (distAt firsts seconds distance) (i + 1) j)
          with h | h | h
        · rw [hp] at h
          cases i with
          | zero => rw [table] at h; injection h with h; exact .inl (hstep h)
          | succ i =>
            rcases ih i j (by omega) (by omega) hj p h.symm with h' | h'
            · exact .inl (hstep h')
            · exact .inr (.first h' hx hy hd)
        · rw [hp] at h
          match i, j with
          | 0, 0 => omega
          | 0, j + 1 => rw [table] at h; injection h with h; exact .inl (hstep h)
          | i + 1, 0 => rw [table] at h; injection h with h; exact .inl (hstep h)
          | i + 1, j + 1 =>
            rcases ih i j (by omega) (by omega) (by omega) p h.symm with h' | h'
            · exact .inl (hstep h')
            · exact .inr (.both h' hx hy hd)
        · rw [hp] at h
          cases j with
          | zero => rw [table] at h; injection h with h; exact .inl (hstep h)
          | succ j =>
            rcases ih i j (by omega) hi (by omega) p h.symm with h' | h'
            · exact .inl (hstep h')
            · exact .inr (.second h' hx hy hd)

/-- **C184.** A result that is a number is infinite, or the cost of a warping path from end to end that meets
only distances that are numbers (for distances that are not negative). -/
theorem C184_path (firsts : List α) (seconds : List β) (distance : α → β → Option W)
    (h1 : firsts ≠ []) (h2 : seconds ≠ []) (hinf : ∀ a : W, 0 ≤ a → Cost.inf + a = Cost.inf)
    (hpos : ∀ x ∈ firsts, ∀ y ∈ seconds, ∀ d, distance x y = some d → 0 ≤ d) (C : W)
    (h : computeDTWDistance firsts seconds distance = .ok (some C)) :
    C = Cost.inf ∨ Warp firsts seconds distance (firsts.length - 1) (seconds.length - 1) C := by
  rw [compute_table firsts seconds distance h1 h2] at h
  injection h with h
  have l1 := List.length_pos_iff.2 h1
  have l2 := List.length_pos_iff.2 h2
  refine table_warp hinf hpos _ (firsts.length - 1) (seconds.length - 1) (Nat.le_refl _) (by omega) (by omega)
    C ?_
  rw [show firsts.length - 1 + 1 = firsts.length by omega,
    show seconds.length - 1 + 1 = seconds.length by omega]
  exact h

/-! ## Cases that meet the hypotheses -/

/-- the distance of two numbers; a pair with 9 is not a number -/
def exDistance (a b : Nat) : Option Dist := if a = 9 ∨ b = 9 then none else some (.fin ((a - b) + (b - a)))

/-- The distance of the first items is not a number; it is on the diagonal of sequences of equal length. -/
example : computeDTWDistance [9, 2] [1, 2] exDistance = .ok none := by decide +kernel

example : BrokenDiagonal [9, 2] [1, 2] exDistance :=
  ⟨0, 0, 9, 1, rfl, rfl, rfl, by decide +kernel⟩

/-- It is not on the diagonal if the lengths differ: there the result is a number, although every warping path
pairs the first items. -/
theorem C184_hidden : computeDTWDistance [9, 2, 4] [1, 2] exDistance = .ok (some .inf) ∧
    ¬ ∃ C, Warp [9, 2, 4] [1, 2] exDistance 2 1 C := by
  refine ⟨by decide +kernel, ?_⟩
  rintro ⟨C, h⟩
  have key : ∀ (i j : Nat) (C : Dist), Warp [9, 2, 4] [1, 2] exDistance i j C → False := by
    intro i j C h
    induction h with
    | start hx hy hd =>
      simp only [List.getElem?_cons_zero, Option.some.injEq] at hx hy
      subst hx hy
      simp [exDistance] at hd
    | first _ _ _ _ ih => exact ih
    | second _ _ _ _ ih => exact ih
    | both _ _ _ _ ih => exact ih
  exact key _ _ _ h

/-- A distance that is not a number off the diagonal can hide the cheapest path: the result is larger than the
cost of a warping path that meets only numbers. -/
theorem C184_not_least :
    ∃ (distance : Nat → Nat → Option Dist) (C : Dist),
      computeDTWDistance [0, 1, 2] [0, 1, 2] distance = .ok (some C) ∧
      ∃ C', Warp [0, 1, 2] [0, 1, 2] distance 2 2 C' ∧ C' < C := by
  refine ⟨fun a b => if a = 1 ∧ b = 0 then some (.fin 0) else if (a, b) = (0, 1) then none
    else if (a, b) = (1, 1) then some (.fin 7) else some (.fin 0), .fin 7, by decide +kernel, .fin 0, ?_, by decide +kernel⟩
  have w0 : Warp [0, 1, 2] [0, 1, 2] (fun a b => if a = 1 ∧ b = 0 then some (Dist.fin 0) else
      if (a, b) = (0, 1) then none else if (a, b) = (1, 1) then some (.fin 7) else some (.fin 0)) 0 0 (0 + .fin 0) :=
    .start rfl rfl (by decide +kernel)
  have w1 := Warp.first (x := 1) (y := 0) (d := Dist.fin 0) w0 rfl rfl (by decide +kernel)
  have w2 := Warp.first (x := 2) (y := 0) (d := Dist.fin 0) w1 rfl rfl (by decide +kernel)
  have w3 := Warp.second (x := 2) (y := 1) (d := Dist.fin 0) w2 rfl rfl (by decide +kernel)
  have w4 := Warp.second (x := 2) (y := 2) (d := Dist.fin 0) w3 rfl rfl (by decide +kernel)
  exact w4

example : computeDTWDistance [1, 2, 4] [1, 2, 2, 4] exDistance = .ok (some (.fin 0)) := by decide +kernel

example : ∀ a : Dist, 0 ≤ a → Cost.inf + a = Cost.inf := by
  intro a _
  cases a <;> rfl

end Verif.NanDtw
