import Verif.Props.BiRrt

/-!
# C60: which of the two trees grows
-/
namespace Verif.BiRrt
open Verif Verif.Rrt

variable {T : Type}

theorem switches_succ (f : Nat → Bool) (k : Nat) :
    switches f (k + 1) = switches f k + if f k = true then 1 else 0 := by
  unfold switches
  rw [List.range_succ, List.filter_append, List.length_append]
  cases h : f k <;> simp [h]

theorem addedIn_succ (mine : Nat → Bool) (added : Nat → Nat) (n : Nat) :
    addedIn mine added (n + 1) = addedIn mine added n + if mine n = true then added n else 0 := by
  unfold addedIn
  rw [List.range_succ, List.filter_append, List.map_append, List.sum_append]
  cases h : mine n <;> simp [h]

theorem addedIn_congr (mine : Nat → Bool) (f g : Nat → Nat) (n : Nat) (h : ∀ k, k < n → f k = g k) :
    addedIn mine f n = addedIn mine g n := by
  unfold addedIn
  congr 1
  apply List.map_congr_left
  intro k hk
  exact h k (List.mem_range.1 (List.mem_filter.1 hk).1)

/-- the start tree grows in round `k` -/
def even (env : Env T) (k : Nat) : Bool := decide (switches env.switch k % 2 = 0)

/-- between rounds: the number of switches, whose turn it is, and how the trees grew -/
structure Turns (env : Env T) (start0 goal0 : Tree T) (s : Planner T) : Prop where
  swaps : s.swaps = switches env.switch s.total
  active : s.startActive = even env s.total
  grown : ∃ w t : Nat → T,
    s.start.length = start0.length +
      addedIn (even env) (fun k => (env.propagate k (w k) (t k)).length) s.total ∧
    s.goal.length = goal0.length +
      addedIn (fun k => !even env k) (fun k => (env.propagate k (w k) (t k)).length) s.total

theorem even_succ (env : Env T) (k : Nat) :
    even env (k + 1) = if env.switch k = true then !even env k else even env k := by
  unfold even
  rw [switches_succ]
  by_cases h : env.switch k = true
  · simp only [if_pos h]
    by_cases h2 : switches env.switch k % 2 = 0
    · rw [decide_eq_false (by omega), decide_eq_true h2]; rfl
    · rw [decide_eq_true (by omega), decide_eq_false h2]; rfl
  · simp only [if_neg h, Nat.add_zero]

theorem Turns.step {env : Env T} {start0 goal0 : Tree T} {s s1 : Planner T} (h : Turns env start0 goal0 s)
    (ht : s1.total = s.total + 1) (hs : s1.swaps = s.swaps) (ha : s1.startActive = s.startActive)
    (w t : T) (h1 : s1.start.length = s.start.length +
      if s.startActive = true then (env.propagate s.total w t).length else 0)
    (h2 : s1.goal.length = s.goal.length +
      if s.startActive = true then 0 else (env.propagate s.total w t).length) :
    Turns env start0 goal0 (s1.turn (env.switch s.total)) := by
  have hp : (s1.turn (env.switch s.total)).start = s1.start ∧ (s1.turn (env.switch s.total)).goal = s1.goal := by
    unfold Planner.turn; split <;> exact ⟨rfl, rfl⟩
  refine ⟨?_, ?_, ?_⟩
  · rw [turn_total, ht, switches_succ]
    unfold Planner.turn
    by_cases hc : env.switch s.total = true
    · rw [if_pos hc, if_pos hc, ← h.swaps, ← hs]
    · rw [if_neg hc, if_neg hc, ← h.swaps, ← hs]; rfl
  · rw [turn_total, ht, even_succ]
    unfold Planner.turn
    by_cases hc : env.switch s.total = true
    · rw [if_pos hc, if_pos hc, ← h.active, ← ha]
    · rw [if_neg hc, if_neg hc, ← h.active, ← ha]
  · obtain ⟨w', t', g1, g2⟩ := h.grown
    have same : ∀ mine, addedIn mine (fun k => (env.propagate k (if k = s.total then w else w' k)
        (if k = s.total then t else t' k)).length) s.total =
        addedIn mine (fun k => (env.propagate k (w' k) (t' k)).length) s.total :=
      fun mine => addedIn_congr _ _ _ _ (fun k hk => by simp only [if_neg (Nat.ne_of_lt hk)])
    refine ⟨fun k => if k = s.total then w else w' k, fun k => if k = s.total then t else t' k, ?_, ?_⟩
    · rw [turn_total, ht, hp.1, h1, addedIn_succ, g1, ← h.active]
      rw [same]
      simp only [if_true, Nat.add_assoc]
    · rw [turn_total, ht, hp.2, h2, addedIn_succ, g2, ← h.active]
      rw [same]
      simp only [if_true]
      cases s.startActive <;> simp [Nat.add_assoc]

theorem planLoop_turns (env : Env T) (single : Bool) (start0 goal0 : Tree T) (hs0 : start0 ≠ [])
    (hg0 : goal0 ≠ []) :
    ∀ (fuel : Nat) (s : Planner T), Inv env start0 goal0 s → Turns env start0 goal0 s →
      ∀ s', planLoop env single fuel s.total s = some (.ok (), s') → Turns env start0 goal0 s'
  | 0, s, _, _, s', h => by simp [planLoop] at h
  | fuel + 1, s, inv, tr, s', h => by
    have hsne := extends_ne_nil inv.extS hs0
    have hgne := extends_ne_nil inv.extG hg0
    have htne : s.target ≠ [] := by unfold Planner.target; split <;> assumption
    unfold planLoop at h
    split at h
    · simp at h; subst h; exact tr
    obtain ⟨target, htgt, hidx⟩ := targetState_ok env s.total s htne
    rw [htgt] at h
    simp only at h
    split at h
    · simp at h; subst h; exact tr
    split at h
    · simp at h
    next n hat =>
    obtain ⟨nn, hnn, hn'⟩ := stateAt_some hat
    have hlt := getElem?_lt hn'
    have hwfa : WellFormed s.active := by
      rcases active_cases s with h | h <;> rw [h]
      · exact inv.wfS
      · exact inv.wfG
    split at h
    · next hp =>
      have tr' := tr.step (s1 := { s with total := s.total + 1, failed := s.failed + 1 }) rfl rfl rfl
        n.value target (by rw [hp]; simp) (by rw [hp]; simp)
      refine planLoop_turns env single start0 goal0 hs0 hg0 fuel _ (Inv.turn (s := { s with total := s.total + 1, failed := s.failed + 1 }) ⟨inv.wfS, inv.wfG, inv.extS, inv.extG,
        by have := inv.total; simp; omega, inv.linkS, inv.linkG, inv.bridges, inv.pre⟩ _) tr' s' ?_
      rw [turn_total]
      exact h
    · next p ps hp =>
      obtain ⟨tree', hrun, hg, hwf⟩ := growLoop_start
        (fun v => env.fromTree s.total && env.connected v target) s.active nn hlt (p :: ps) [] hwfa
      have inv' := inv.grow hidx hn' hp hg hwf
      rw [hnn, hrun] at h
      by_cases ha : attachLen 0 (p :: ps) = (p :: ps).length
      · rw [if_pos ha] at h
        simp only [List.nil_append] at h
        have hgl := hg.length
        rw [ha, List.take_length, ← hp] at hgl
        refine planLoop_turns env single start0 goal0 hs0 hg0 fuel _ (inv'.turn _) (tr.step ?_ ?_ ?_
          n.value target ?_ ?_) s' (by rw [turn_total]; exact h)
        · rfl
        · rfl
        · rfl
        · unfold Planner.grown Planner.active at *
          cases hsa : s.startActive
          · simp [hsa]
          · simp only [hsa, if_true] at hgl ⊢; exact hgl
        · unfold Planner.grown Planner.active at *
          cases hsa : s.startActive
          · simp only [hsa, Bool.false_eq_true, if_false] at hgl ⊢; exact hgl
          · simp [hsa]
      · rw [if_neg ha] at h
        simp at h

/-- The trees take turns: the start tree grows in the rounds before which the trees were switched an even
number of times, the goal tree in the others, each time by all the propagated states. The number of
switches is reported. -/
theorem C60_turns (env : Env T) (single : Bool) (fuel : Nat) (start goal : Tree T)
    (wfs : WellFormed start) (wfg : WellFormed goal) (hs0 : start ≠ []) (hg0 : goal ≠ []) (r : Result T)
    (start' goal' : Tree T)
    (h : planMultiPath env single fuel start goal = some (.ok r, start', goal')) :
    r.swaps = switches env.switch r.total ∧
    ∃ w t : Nat → T,
      start'.length = start.length + addedIn (fun k => decide (switches env.switch k % 2 = 0))
        (fun k => (env.propagate k (w k) (t k)).length) r.total ∧
      goal'.length = goal.length + addedIn (fun k => !decide (switches env.switch k % 2 = 0))
        (fun k => (env.propagate k (w k) (t k)).length) r.total := by
  unfold planMultiPath at h
  rw [wf_linkage wfs, wf_linkage wfg] at h
  have h1 : start.isEmpty = false := by simpa using hs0
  have h2 : goal.isEmpty = false := by simpa using hg0
  simp only [h1, h2, Bool.false_eq_true, if_false, Bool.true_eq_false] at h
  have turns := planLoop_turns env single start goal hs0 hg0 fuel _ (inv_start env wfs wfg)
    ⟨rfl, rfl, fun _ => (start.head hs0).value, fun _ => (start.head hs0).value, rfl, rfl⟩
  have spec := planLoop_spec env single start goal hs0 hg0 fuel _ (inv_start env wfs wfg)
    ⟨Nat.le_refl _, fun _ => ⟨rfl, rfl⟩⟩
  split at h
  · simp at h
  · next s hs =>
    obtain ⟨inv, -, -⟩ := spec _ _ hs
    obtain ⟨paths, f1, -, -⟩ := finish_spec inv
    rw [f1] at h
    simp at h
    obtain ⟨rfl, rfl, rfl⟩ := h
    have tr := turns s hs
    exact ⟨tr.swaps, tr.grown⟩
  · simp at h
  · simp at h
  · simp at h

example : (planMultiPath meet true 6 [State.root 0] [State.root 6]).map (fun x => match x.1 with
    | .ok r => (r.swaps, r.total, x.2.1.length, x.2.2.length) | _ => (0, 0, 0, 0)) = some (3, 4, 7, 2) := by
  decide
example : switches meet.switch 4 = 3 := by decide

end Verif.BiRrt
