import Verif.Lemmas.Dtw

/-!
# C30: dynamic time warping
-/
namespace Verif.Dtw
open Verif

variable {α β W : Type} [Cost W]

/-- The evaluators a program can have: made by a constructor, or left behind by an evaluation. -/
inductive Reachable (α β : Type) : Mat W → Prop
  | default {m : Mat W} : new = .ok m → Reachable α β m
  | sized {m : Mat W} (a b : Nat) : newSized a b = .ok m → Reachable α β m
  | evaluated {m m' : Mat W} {c : W} (firsts : List α) (seconds : List β) (distance : α → β → W) :
      Reachable α β m → evaluateWarpingCost m firsts seconds distance = .ok (c, m') →
      Reachable α β m'

theorem reachable_evaluator {m : Mat W} (h : Reachable α β m) : Evaluator m := by
  induction h with
  | default h =>
    obtain ⟨m', h1, _, _, h4⟩ := initializeMatrix_new (Mat.uninit 0 0 : Mat W) 0 0 (by simp [Mat.uninit])
    unfold new at h
    rw [h] at h1; injection h1 with h1; rw [h1]; exact h4
  | sized a b h =>
    obtain ⟨m', h1, _, _, h4⟩ := initializeMatrix_new (Mat.uninit 0 0 : Mat W) a b (by simp [Mat.uninit])
    unfold newSized at h
    rw [h] at h1; injection h1 with h1; rw [h1]; exact h4
  | evaluated firsts seconds distance _ h ih =>
    by_cases he : firsts = [] ∨ seconds = []
    · obtain ⟨v, m', h1, h2⟩ := evaluate_empty _ ih firsts seconds distance he
      rw [h] at h1; injection h1 with h1
      rw [(Prod.mk.inj h1).2]; exact h2
    · obtain ⟨m', h1, h2⟩ := evaluate_nonempty _ ih firsts seconds distance
        (fun h => he (Or.inl h)) (fun h => he (Or.inr h))
      rw [h] at h1; injection h1 with h1
      rw [(Prod.mk.inj h1).2]; exact h2

/-- **C30.** An evaluation never fails, whatever was evaluated before. -/
theorem C30_total (m : Mat W) (hm : Reachable α β m) (firsts : List α) (seconds : List β)
    (distance : α → β → W) : ∃ r, evaluateWarpingCost m firsts seconds distance = .ok r := by
  by_cases he : firsts = [] ∨ seconds = []
  · obtain ⟨v, m', h1, _⟩ := evaluate_empty _ (reachable_evaluator hm) firsts seconds distance he
    exact ⟨_, h1⟩
  · obtain ⟨m', h1, _⟩ := evaluate_nonempty _ (reachable_evaluator hm) firsts seconds distance
      (fun h => he (Or.inl h)) (fun h => he (Or.inr h))
    exact ⟨_, h1⟩

/-- **C30.** On non-empty sequences, the result does not depend on what the evaluator computed before:
it is what the one-off function returns. -/
theorem C30_history (m : Mat W) (hm : Reachable α β m) (firsts : List α) (seconds : List β)
    (distance : α → β → W) (h1 : firsts ≠ []) (h2 : seconds ≠ []) :
    ∃ c m', evaluateWarpingCost m firsts seconds distance = .ok (c, m') ∧
      computeDTWDistance firsts seconds distance = .ok c := by
  obtain ⟨m', g1, _⟩ := evaluate_nonempty m (reachable_evaluator hm) firsts seconds distance h1 h2
  refine ⟨_, m', g1, ?_⟩
  obtain ⟨m0, k1, _, _, k4⟩ := initializeMatrix_new (Mat.uninit 0 0 : Mat W) 0 0 (by simp [Mat.uninit])
  obtain ⟨m1, g2, _⟩ := evaluate_nonempty m0 k4 firsts seconds distance h1 h2
  unfold computeDTWDistance new
  rw [k1, Out.bind_ok, g2, Out.bind_ok]

/-- **C30.** The result is the cost of a warping path that pairs the sequences from end to end; so it
is never below the least cost. -/
theorem C30_is_path_cost (firsts : List α) (seconds : List β) (distance : α → β → W)
    (h1 : firsts ≠ []) (h2 : seconds ≠ []) :
    ∃ c, computeDTWDistance firsts seconds distance = .ok c ∧
      Warp firsts seconds distance (firsts.length - 1) (seconds.length - 1) c := by
  obtain ⟨m0, k1, _, _, k4⟩ := initializeMatrix_new (Mat.uninit 0 0 : Mat W) 0 0 (by simp [Mat.uninit])
  obtain ⟨m1, g2, _⟩ := evaluate_nonempty m0 k4 firsts seconds distance h1 h2
  have l1 := List.length_pos_iff.2 h1
  have l2 := List.length_pos_iff.2 h2
  refine ⟨table (distAt firsts seconds distance) firsts.length seconds.length, ?_, ?_⟩
  · unfold computeDTWDistance new
    rw [k1, Out.bind_ok, g2, Out.bind_ok]
  · have := table_warp (firsts := firsts) (seconds := seconds) (distance := distance)
      _ (firsts.length - 1) (seconds.length - 1) (Nat.le_refl _) (by omega) (by omega)
    rw [show firsts.length - 1 + 1 = firsts.length by omega,
      show seconds.length - 1 + 1 = seconds.length by omega] at this
    exact this

/-- **C30, partial.** The claim would be that the result is the least cost of a warping path. It holds
if there is no tie of the kind described by `NoTie`; with such a tie the code takes the diagonal
predecessor although both others are cheaper. -/
theorem C30_minimal_partial (firsts : List α) (seconds : List β) (distance : α → β → W)
    (h1 : firsts ≠ []) (h2 : seconds ≠ []) (hn : NoTie firsts seconds distance) :
    ∃ c, computeDTWDistance firsts seconds distance = .ok c ∧
      Least firsts seconds distance (firsts.length - 1) (seconds.length - 1) c := by
  obtain ⟨m0, k1, _, _, k4⟩ := initializeMatrix_new (Mat.uninit 0 0 : Mat W) 0 0 (by simp [Mat.uninit])
  obtain ⟨m1, g2, _⟩ := evaluate_nonempty m0 k4 firsts seconds distance h1 h2
  have l1 := List.length_pos_iff.2 h1
  have l2 := List.length_pos_iff.2 h2
  refine ⟨table (distAt firsts seconds distance) firsts.length seconds.length, ?_, ?_⟩
  · unfold computeDTWDistance new
    rw [k1, Out.bind_ok, g2, Out.bind_ok]
  · have := table_least hn
      _ (firsts.length - 1) (seconds.length - 1) (Nat.le_refl _) (by omega) (by omega)
    rw [show firsts.length - 1 + 1 = firsts.length by omega,
      show seconds.length - 1 + 1 = seconds.length by omega] at this
    exact this

theorem previousCost_eq (a b c : W) : previousCost a b c =
    (if a = c ∧ a < b then b else min a (min c b)) := by
  unfold previousCost
  by_cases h1 : a < b ∧ a < c
  · rw [if_pos h1, if_neg (fun h => absurd h.1 (ne_of_lt h1.2)), min_eq_left]
    exact le_min (le_of_lt h1.2) (le_of_lt h1.1)
  · rw [if_neg h1]
    by_cases h2 : c < a ∧ c < b
    · rw [if_pos h2, if_neg (fun h => absurd h.1.symm (ne_of_lt h2.1)), min_eq_left (le_of_lt h2.2),
        min_eq_right (le_of_lt h2.1)]
    · rw [if_neg h2]
      by_cases h3 : a = c ∧ a < b
      · rw [if_pos h3]
      · rw [if_neg h3]
        have hba : b ≤ a := by
          rcases lt_or_ge a b with h | h
          · exfalso
            rcases lt_trichotomy a c with h4 | h4 | h4
            · exact h1 ⟨h, h4⟩
            · exact h3 ⟨h4, h⟩
            · exact h2 ⟨h4, lt_trans h4 h⟩
          · exact h
        have hbc : b ≤ c := by
          rcases lt_or_ge c b with h | h
          · exact absurd ⟨lt_of_lt_of_le h hba, h⟩ h2
          · exact h
        rw [min_eq_right hbc, min_eq_right hba]

/-- **C30.** Exactly what is computed on any sequences: the last entry of the table of the recurrence,
and the recurrence has only one such table. -/
theorem C30_recurrence (firsts : List α) (seconds : List β) (distance : α → β → W)
    (h1 : firsts ≠ []) (h2 : seconds ≠ []) :
    (∃ T, Recurrence firsts seconds distance T) ∧
    ∀ T, Recurrence firsts seconds distance T →
      computeDTWDistance firsts seconds distance = .ok (T (firsts.length - 1) (seconds.length - 1)) := by
  have hinf : ∀ a : W, previousCost a Cost.inf Cost.inf = a := by
    intro a
    unfold previousCost
    by_cases h : a < Cost.inf
    · rw [if_pos ⟨h, h⟩]
    · have : a = Cost.inf := le_antisymm (Cost.le_inf a) (not_lt.1 h)
      rw [this]; simp
  have hinf' : ∀ a : W, previousCost Cost.inf Cost.inf a = a := by
    intro a
    unfold previousCost
    by_cases h : a < Cost.inf
    · rw [if_neg (fun hh => lt_irrefl _ hh.1), if_pos ⟨h, h⟩]
    · have : a = Cost.inf := le_antisymm (Cost.le_inf a) (not_lt.1 h)
      rw [this]; simp
  have hmid : ∀ a : W, previousCost Cost.inf a Cost.inf = a := by
    intro a
    unfold previousCost
    rw [if_neg (fun hh => lt_irrefl _ hh.2), if_neg (fun hh => lt_irrefl _ hh.1)]
  have hrec : Recurrence firsts seconds distance
      (fun i j => table (distAt firsts seconds distance) (i + 1) (j + 1)) := by
    refine ⟨?_, ?_, ?_, ?_⟩
    · intro x y hx hy
      rw [table_succ, distAt_eq hx hy, table, table, table, hmid]
    · intro i x y hx hy
      rw [table_succ, distAt_eq hx hy, show table (distAt firsts seconds distance) (i + 1) 0 = Cost.inf by rw [table],
        show table (distAt firsts seconds distance) (i + 1 + 1) 0 = Cost.inf by rw [table], hinf]
    · intro j x y hx hy
      rw [table_succ, distAt_eq hx hy, show table (distAt firsts seconds distance) 0 (j + 1) = Cost.inf by rw [table],
        show table (distAt firsts seconds distance) 0 (j + 1 + 1) = Cost.inf by rw [table], hinf']
    · intro i j x y hx hy
      rw [table_succ, distAt_eq hx hy, previousCost_eq]
  refine ⟨⟨_, hrec⟩, ?_⟩
  intro T hT
  have hall : ∀ s i j, i + j ≤ s → i < firsts.length → j < seconds.length →
      T i j = table (distAt firsts seconds distance) (i + 1) (j + 1) := by
    intro s
    induction s with
    | zero =>
      intro i j hs hi hj
      obtain rfl : i = 0 := by omega
      obtain rfl : j = 0 := by omega
      exact (hT.start _ _ (List.getElem?_eq_getElem hi) (List.getElem?_eq_getElem hj)).trans
        (hrec.start _ _ (List.getElem?_eq_getElem hi) (List.getElem?_eq_getElem hj)).symm
    | succ s ih =>
      intro i j hs hi hj
      have gx := List.getElem?_eq_getElem hi
      have gy := List.getElem?_eq_getElem hj
      match i, j with
      | 0, 0 => exact (hT.start _ _ gx gy).trans (hrec.start _ _ gx gy).symm
      | 0, j + 1 =>
        rw [hT.row j _ _ gx gy, ih 0 j (by omega) (by omega) (by omega)]
        exact (hrec.row j _ _ gx gy).symm
      | i + 1, 0 =>
        rw [hT.column i _ _ gx gy, ih i 0 (by omega) (by omega) (by omega)]
        exact (hrec.column i _ _ gx gy).symm
      | i + 1, j + 1 =>
        rw [hT.inside i j _ _ gx gy, ih i (j + 1) (by omega) (by omega) (by omega),
          ih (i + 1) j (by omega) (by omega) (by omega), ih i j (by omega) (by omega) (by omega)]
        exact (hrec.inside i j _ _ gx gy).symm
  obtain ⟨m0, k1, _, _, k4⟩ := initializeMatrix_new (Mat.uninit 0 0 : Mat W) 0 0 (by simp [Mat.uninit])
  obtain ⟨m1, g2, _⟩ := evaluate_nonempty m0 k4 firsts seconds distance h1 h2
  have l1 := List.length_pos_iff.2 h1
  have l2 := List.length_pos_iff.2 h2
  rw [hall _ _ _ (Nat.le_refl _) (by omega) (by omega),
    show firsts.length - 1 + 1 = firsts.length by omega,
    show seconds.length - 1 + 1 = seconds.length by omega]
  unfold computeDTWDistance new
  rw [k1, Out.bind_ok, g2, Out.bind_ok]

/-- distance on the line -/
def lineDistance (a b : Nat) : Dist := .fin ((a - b) + (b - a))

/-- **C30: minimality is false.** For the numbers 0, 1, 0 and 1, 0, 1 with their usual distance the code
returns 3, but there is a warping path of cost 2. -/
theorem C30_not_minimal :
    computeDTWDistance [0, 1, 0] [1, 0, 1] lineDistance = .ok 3 ∧
    Warp [0, 1, 0] [1, 0, 1] lineDistance 2 2 2 := by
  refine ⟨by decide +kernel, ?_⟩
  have h0 : Warp [0, 1, 0] [1, 0, 1] lineDistance 0 0 (0 + lineDistance 0 1) := .start rfl rfl
  have h1 : Warp [0, 1, 0] [1, 0, 1] lineDistance 1 0 (0 + lineDistance 0 1 + lineDistance 1 1) :=
    .first h0 rfl rfl
  have h2 : Warp [0, 1, 0] [1, 0, 1] lineDistance 2 1
      (0 + lineDistance 0 1 + lineDistance 1 1 + lineDistance 0 0) := .both h1 rfl rfl
  have h3 : Warp [0, 1, 0] [1, 0, 1] lineDistance 2 2
      (0 + lineDistance 0 1 + lineDistance 1 1 + lineDistance 0 0 + lineDistance 0 1) := .second h2 rfl rfl
  exact h3

/-- **C30: history matters for empty sequences.** A fresh evaluator returns 0 for an empty and a
one-item sequence; after evaluating two one-item sequences it returns infinity. -/
theorem C30_empty_history :
    computeDTWDistance ([] : List Nat) [5] lineDistance = .ok 0 ∧
    ((do
      let m ← new
      let r ← evaluateWarpingCost m [3] [4] lineDistance
      let r' ← evaluateWarpingCost r.2 [] [5] lineDistance
      .ok r'.1) : Out Dist) = .ok .inf := by
  decide +kernel

/-! ## Cases that meet the hypotheses -/

theorem least_of_table {firsts : List Nat} {seconds : List Nat} {i j : Nat} {C C' : Dist}
    (h : Least firsts seconds lineDistance i j C) (h' : Least firsts seconds lineDistance i j C') :
    C = C' := le_antisymm (h.2 _ h'.1) (h'.2 _ h.1)

/-- Sequences of two items have no tie: the diagonal predecessor is on every path. -/
example : NoTie [1, 4] [2, 9] lineDistance := by
  intro i j C C' ha hb hc
  obtain ⟨hi, hj⟩ := ha.1.range
  obtain ⟨hi', _⟩ := hb.1.range
  simp at hi hj hi'
  obtain ⟨rfl, rfl⟩ : i = 0 ∧ j = 0 := by omega
  cases ha.1 with
  | second h hx hy =>
    exact le_trans (hc.2 _ h) (Cost.le_add _ (by
      simp at hx hy; subst hx hy; decide +kernel))

example : computeDTWDistance [1, 4] [2, 9] lineDistance = .ok 6 := by decide +kernel

example : Reachable Nat Nat (Mat.constant 1 1 (0 : Dist)) := .default rfl

end Verif.Dtw
