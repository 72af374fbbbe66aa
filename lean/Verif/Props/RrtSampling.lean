import Verif.Model.RrtSampling
import Mathlib.Data.Nat.Count
import Verif.Props.Rrt
import Mathlib.Tactic.Linarith
import Mathlib.Tactic.NormNum

/-!
# C152: goal bias and time limit of the planner
-/
namespace Verif.Rrt
open Verif

variable {T : Type}

/-- C152: in each round the target is the next state of the sampler if the number drawn is larger than the bias, and the next
goal otherwise: each sampler is called once for each of its rounds and its states are used in order. -/
theorem C152_target (s : Sampling T) (k : Nat) :
    (s.bias < s.draw k → s.target k = s.state (Nat.count (fun i => s.bias < s.draw i) k)) ∧
    (s.draw k ≤ s.bias → s.target k = s.goal (Nat.count (fun i => s.draw i ≤ s.bias) k)) := by
  have key : s.used k = (Nat.count (fun i => s.bias < s.draw i) k, Nat.count (fun i => s.draw i ≤ s.bias) k) := by
    induction k with
    | zero => simp [Sampling.used]
    | succ k ih =>
      rw [Sampling.used, ih, Sampling.call, Nat.count_succ, Nat.count_succ]
      by_cases h : s.bias < s.draw k
      · rw [if_pos h, if_pos h, if_neg (not_le.mpr h)]; rfl
      · rw [if_neg h, if_neg h, if_pos (not_lt.mp h)]; rfl
  constructor
  · intro h
    rw [Sampling.target, Sampling.call, key, if_pos h]
  · intro h
    rw [Sampling.target, Sampling.call, key, if_neg (not_lt.mpr h)]

/-- C152: the extremes. Numbers drawn are at least zero and less than one; with a bias of one or more every target is a goal,
with a negative one none is; with a bias of zero the goal is the target in exactly the rounds in which zero is drawn. -/
theorem C152_extremes (s : Sampling T) (h : ∀ k, 0 ≤ s.draw k ∧ s.draw k < 1) (k : Nat) :
    (1 ≤ s.bias → s.target k = s.goal k) ∧ (s.bias < 0 → s.target k = s.state k) ∧
    (s.bias = 0 → s.draw k = 0 → ∃ i, i ≤ k ∧ s.target k = s.goal i) ∧
    (s.bias = 0 → s.draw k ≠ 0 → ∃ i, i ≤ k ∧ s.target k = s.state i) := by
  obtain ⟨h1, h2⟩ := C152_target s k
  have hk := h k
  refine ⟨?_, ?_, ?_, ?_⟩
  · intro hb
    rw [h2 (by linarith)]
    congr 1
    rw [Nat.count_iff_forall]
    intro i _
    have := h i
    linarith
  · intro hb
    rw [h1 (by linarith)]
    congr 1
    rw [Nat.count_iff_forall]
    intro i _
    have := h i
    linarith
  · intro hb h0
    exact ⟨_, Nat.count_le _, h2 (by rw [hb, h0])⟩
  · intro hb h0
    exact ⟨_, Nat.count_le _, h1 (by rw [hb]; exact lt_of_le_of_ne hk.1 (Ne.symm h0))⟩

/-- C152: what the planner with goal bias and time limit returns: a path from the start to a state that passes the goal test,
each state propagated from the one before towards one of the targets, or no path if no state of the tree passes the test. No
round begins after the limit: the clock was within the limit before each of the rounds, and if no path was found it had
passed the limit after them, unless the nearest-neighbour function gave up. -/
theorem C152_plan (s : Sampling T) (began limit : ℝ) (now : Nat → ℝ) (nearest : Nat → Tree T → T → Int)
    (propagate : Nat → T → T → List (T × Int)) (goal : T → Bool) (fuel : Nat) (start : T) (p : List T) (tree : Tree T)
    (h : planBiased s began limit now nearest propagate goal fuel start = some (.ok p, tree)) :
    (p = [] ↔ ∀ (k : Nat) (x : State T), tree[k]? = some x → goal x.value = false) ∧
    (p ≠ [] → p.head? = some start ∧ (∃ v, p.getLast? = some v ∧ goal v = true) ∧ Steps (Made s.target propagate) p) ∧
    ∃ rounds, (∀ k, k < rounds → now k ≤ began + limit) ∧
      (p ≠ [] ∨ began + limit < now rounds ∨ nearest rounds tree (s.target rounds) < 0) := by
  obtain ⟨h1, h2⟩ := C24_plan _ fuel start p tree h
  refine ⟨h1, h2, ?_⟩
  unfold planBiased plan at h
  split at h
  · cases h
  · rename_i r tree' heq
    injection h with h
    injection h with h3 h4
    injection h3 with h3
    subst h4
    obtain ⟨-, -, -, -, -, -, h5, h6⟩ := C24_result _ true fuel _ (wf_start start) (by simp) r tree' heq
    refine ⟨r.total, ?_, ?_⟩
    · intro k hk
      have := h5 k hk
      simp only [outOfTime, decide_eq_false_iff_not] at this
      linarith
    · rcases h6 with ⟨-, h6⟩ | h6 | h6
      · left
        intro hp
        rw [hp] at h1
        have := h1.mp rfl
        obtain ⟨q, hq⟩ := List.exists_mem_of_ne_nil _ h6
        cases hr : r.paths with
        | nil => exact h6 hr
        | cons a as =>
          have hhead := (C24_paths _ true fuel start r tree' heq a (by rw [hr]; simp)).1
          rw [hr] at h3
          simp only [List.head?_cons, Option.getD_some] at h3
          rw [h3, hp] at hhead
          cases hhead
      · right; left
        simp only [outOfTime, decide_eq_true_eq] at h6
        linarith
      · exact .inr (.inr h6)
  all_goals
    injection h with h
    injection h with h3
    cases h3

/-- C152: once the clock has passed the limit, the planner returns. -/
theorem C152_returns (s : Sampling T) (began limit : ℝ) (now : Nat → ℝ) (nearest : Nat → Tree T → T → Int)
    (propagate : Nat → T → T → List (T × Int)) (goal : T → Bool) (start : T) (n : Nat) (hn : began + limit < now n) :
    planBiased s began limit now nearest propagate goal (n + 1) start ≠ none := by
  have := C23_terminates ⟨s.target, nearest, propagate, goal, outOfTime began limit now⟩ true n
    (by simp only [outOfTime, decide_eq_true_eq]; linarith) [State.root start] (wf_start start)
  unfold planBiased plan
  split
  · contradiction
  all_goals simp

/-- C152: without any time left at the start nothing is sampled: the path is the start itself if it passes the goal test. -/
theorem C152_no_time (s : Sampling T) (began limit : ℝ) (now : Nat → ℝ) (nearest : Nat → Tree T → T → Int)
    (propagate : Nat → T → T → List (T × Int)) (goal : T → Bool) (start : T) (fuel : Nat) (h : began + limit < now 0) :
    planBiased s began limit now nearest propagate goal (fuel + 1) start =
      some (.ok (if goal start then [start] else []), [State.root start]) := by
  have ht : outOfTime began limit now 0 = true := by
    simp only [outOfTime, decide_eq_true_eq]; linarith
  unfold planBiased plan planMultiPath
  have hc := C23_linkage _ (wf_start start)
  rw [if_neg (by simp), hc, if_neg (by simp), planLoop]
  simp only [ht, Bool.or_true, if_true]
  unfold finish
  rw [hc, if_neg (by simp)]
  by_cases hg : goal start = true
  · simp [initialGoals, State.root, hg, extractSolutionPaths, extractSolutionPath, stateAt, extractLoop]
  · simp [initialGoals, State.root, hg, extractSolutionPaths]

/-! ## Cases that meet the hypotheses -/

/-- Draws of a quarter and three quarters in turn: the goal is the target in every other round. -/
noncomputable def exSampling : Sampling Nat := ⟨fun k => if k % 2 = 0 then 3 / 4 else 1 / 4, 1 / 2, fun k => k, fun k => 100 + k⟩

example : ∀ k, 0 ≤ exSampling.draw k ∧ exSampling.draw k < 1 := by
  intro k
  simp only [exSampling]
  split <;> norm_num

example : exSampling.target 0 = 0 ∧ exSampling.target 1 = 100 ∧ exSampling.target 2 = 1 := by
  have h0 : ¬ ((2 : ℝ)⁻¹ < 4⁻¹) := by norm_num
  have h1 : (2 : ℝ)⁻¹ < 3 / 4 := by norm_num
  simp [Sampling.target, Sampling.call, Sampling.used, exSampling, h0, h1]

/-- The clock passes the limit before the third round. -/
example : ∃ r, planBiased exSampling 0 2 (fun k => k) (fun _ _ _ => 0) (fun _ _ t => [(t, -1)]) (fun v => v == 100) 4 7 = some r := by
  have := C152_returns exSampling 0 2 (fun k => k) (fun _ _ _ => 0) (fun _ _ t => [(t, -1)]) (fun v => v == 100) 7 3
    (by norm_num)
  cases h : planBiased exSampling 0 2 (fun k => k) (fun _ _ _ => 0) (fun _ _ t => [(t, -1)]) (fun v => v == 100) 4 7 with
  | none => exact absurd h this
  | some r => exact ⟨r, rfl⟩

/-- C152: with one goal state, that state is the target whenever the draw is at most the bias, and the sampler is asked
otherwise. -/
theorem C152_single (draw : Nat → ℝ) (bias : ℝ) (state : Nat → T) (goal : T) (k : Nat) :
    (draw k ≤ bias → (Sampling.single draw bias state goal).target k = goal) ∧
    (bias < draw k → (Sampling.single draw bias state goal).target k =
      state (Nat.count (fun i => bias < draw i) k)) :=
  ⟨(C152_target (Sampling.single draw bias state goal) k).2, (C152_target (Sampling.single draw bias state goal) k).1⟩

end Verif.Rrt
