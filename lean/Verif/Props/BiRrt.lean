import Verif.Lemmas.BiRrt

/-!
# C60: the bidirectional RRT planner
-/
namespace Verif.BiRrt
open Verif Verif.Rrt

variable {T : Type}

/-- However the callbacks and the random numbers turn out, both trees stay properly linked and keep
their nodes. The planner either returns, or reports that the nearest-neighbour function named a missing
node, or that the propagation function named a parent that is not earlier. -/
theorem C60_growth (env : Env T) (single : Bool) (fuel : Nat) (start goal : Tree T)
    (wfs : WellFormed start) (wfg : WellFormed goal) (hs0 : start ≠ []) (hg0 : goal ≠ [])
    (o : Out (Result T)) (start' goal' : Tree T)
    (h : planMultiPath env single fuel start goal = some (o, start', goal')) :
    WellFormed start' ∧ WellFormed goal' ∧ Extends start start' ∧ Extends goal goal' ∧
      ((∃ r, o = .ok r) ∨
        (o = .throws .outOfRange ∧
          ∃ (k : Nat) (tree : Tree T) (t : T), tree ≠ [] ∧ (tree.length : Int) ≤ env.nearest k tree t) ∨
        (o = .throws .invalidArgument ∧ ∃ (k : Nat) (w t : T), ¬ Attachable (env.propagate k w t))) := by
  obtain ⟨s, rfl, rfl, inv, hcase⟩ := planMultiPath_spec env single fuel start goal wfs wfg hs0 hg0 o _ _ h
  refine ⟨inv.wfS, inv.wfG, inv.extS, inv.extG, ?_⟩
  rcases hcase with ⟨paths, rfl, -⟩ | ⟨e, rfl, he⟩
  · exact Or.inl ⟨_, rfl⟩
  · rcases he with ⟨he, -⟩ | ⟨he, hk⟩ | ⟨he, hk⟩
    · simp at he
    · simp at he; subst he; exact Or.inr (Or.inl ⟨rfl, hk⟩)
    · simp at he; subst he; exact Or.inr (Or.inr ⟨rfl, hk⟩)

/-- Each path begins at the start and ends at the goal. It is a path of the start tree, in which each
state was propagated from the one before, followed by a path of the goal tree walked backwards, and the
two states where they meet passed the connection test. -/
theorem C60_paths (env : Env T) (single : Bool) (fuel : Nat) (start goal : T) (r : Result T)
    (start' goal' : Tree T)
    (h : planMultiPath env single fuel [State.root start] [State.root goal] = some (.ok r, start', goal'))
    (p : List T) (hp : p ∈ r.paths) :
    p.head? = some start ∧ p.getLast? = some goal ∧
      ∃ (sp gp : List T) (a b : T), p = sp ++ gp ∧ sp.getLast? = some a ∧ gp.head? = some b ∧
        Joined env a b ∧ Steps (Made env) sp ∧ Steps (fun u v => Made env v u) gp := by
  obtain ⟨s, rfl, rfl, inv, hcase⟩ := planMultiPath_spec env single fuel _ _ (wf_start start)
    (wf_start goal) (by simp) (by simp) _ _ _ h
  rcases hcase with ⟨paths, hr, -, -, -, hlen, hpt⟩ | ⟨e, he, -⟩
  · simp at hr; subst hr
    obtain ⟨n, hn, rfl⟩ := List.getElem_of_mem hp
    have hn' : n < s.bridges.length := by rw [← hlen]; exact hn
    obtain ⟨i, j, a, c, hb, ha, hc, hj⟩ := inv.bridges s.bridges[n] (List.getElem_mem _)
    obtain ⟨sp, gp, hpeq, hsp, hgp⟩ := hpt n i j _ (by rw [List.getElem?_eq_getElem hn', hb])
      (List.getElem?_eq_getElem hn)
    obtain ⟨a', ha', hal⟩ := hsp.last
    obtain ⟨c', hc', hcl⟩ := hgp.last
    rw [ha] at ha'; simp at ha'; subst ha'
    rw [hc] at hc'; simp at hc'; subst hc'
    have h1 := hsp.head (rooted inv.extS inv.linkS)
    have h2 := hgp.head (rooted inv.extG inv.linkG)
    simp only [] at hpeq ⊢
    rw [hpeq]
    refine ⟨?_, ?_, sp, gp.reverse, _, _, rfl, hal, by rw [List.head?_reverse]; exact hcl, hj,
      hsp.steps (made_links inv.extS inv.linkS), ?_⟩
    · rw [List.head?_append, h1]; rfl
    · rw [List.getLast?_append, List.getLast?_reverse, h2]; rfl
    · have hst := hgp.steps (made_links inv.extG inv.linkG)
      intro i u v hu hv
      have hil := getElem?_lt hv
      simp at hil
      rw [List.getElem?_reverse (by omega)] at hu hv
      refine hst (gp.length - 1 - (i + 1)) v u hv ?_
      rw [show gp.length - 1 - (i + 1) + 1 = gp.length - 1 - i by omega]; exact hu
  · simp at he

/-- The statistics: one path per connection found; rounds are counted, each as successful or failed; why
the loop stopped; every successful round added a node and without one the trees are as they were. -/
theorem C60_statistics (env : Env T) (single : Bool) (fuel : Nat) (start goal : Tree T)
    (wfs : WellFormed start) (wfg : WellFormed goal) (hs0 : start ≠ []) (hg0 : goal ≠ []) (r : Result T)
    (start' goal' : Tree T)
    (h : planMultiPath env single fuel start goal = some (.ok r, start', goal')) :
    r.solutions = r.paths.length ∧ r.states = start'.length + goal'.length ∧
    r.total = r.successful + r.failed ∧
    start.length + goal.length + r.successful ≤ start'.length + goal'.length ∧
    (r.successful = 0 → start' = start ∧ goal' = goal) ∧
    (∀ k, k < r.total → env.terminate k = false) ∧
    ((single = true ∧ r.paths ≠ []) ∨ env.terminate r.total = true ∨
      ∃ (tree : Tree T) (t : T), (tree = start' ∨ tree = goal') ∧ env.nearest r.total tree t < 0) := by
  obtain ⟨s, rfl, rfl, inv, hcase⟩ := planMultiPath_spec env single fuel _ _ wfs wfg hs0 hg0 _ _ _ h
  rcases hcase with ⟨paths, hr, hend, hb, ht, hlen, hp⟩ | ⟨e, he, -⟩
  · simp at hr; subst hr
    refine ⟨rfl, rfl, inv.total, hb.length, hb.none, ht, ?_⟩
    rcases hend with ⟨-, h1⟩ | ⟨he, -⟩ | ⟨he, -⟩
    · rcases h1 with ⟨h1, h2⟩ | h1
      · refine Or.inl ⟨h1, ?_⟩
        intro hpaths
        have hpaths : paths = [] := hpaths
        rw [hpaths] at hlen
        exact h2 (by cases hg : s.bridges with
          | nil => rfl
          | cons a l => rw [hg] at hlen; simp at hlen)
      · exact Or.inr h1
    · simp at he
    · simp at he
  · simp at he

/-- No connection is overlooked: if there is no path, the given trees had no connected pair, and no
state propagated towards a node of the other tree was connected to this node. -/
theorem C60_complete (env : Env T) (single : Bool) (fuel : Nat) (start goal : Tree T)
    (wfs : WellFormed start) (wfg : WellFormed goal) (hs0 : start ≠ []) (hg0 : goal ≠ []) (r : Result T)
    (start' goal' : Tree T)
    (h : planMultiPath env single fuel start goal = some (.ok r, start', goal')) (hno : r.paths = []) :
    (∀ (i j : Nat) (a b : State T), start[i]? = some a → goal[j]? = some b →
      env.connected a.value b.value = false) ∧
    (∀ (tree tree' : Tree T), (tree = start ∧ tree' = start') ∨ (tree = goal ∧ tree' = goal') →
      ∀ (i : Nat) (s : State T), tree.length ≤ i → tree'[i]? = some s →
        ∃ (q : Nat) (t : State T), s.parent = (q : Int) ∧ tree'[q]? = some t ∧
          Missed env t.value s.value) := by
  obtain ⟨s, rfl, rfl, inv, hcase⟩ := planMultiPath_spec env single fuel _ _ wfs wfg hs0 hg0 _ _ _ h
  rcases hcase with ⟨paths, hr, hend, hb, ht, hlen, hp⟩ | ⟨e, he, -⟩
  · simp at hr; subst hr
    have hno : paths = [] := hno
    have hbr : s.bridges = [] := by
      rw [hno] at hlen
      cases hg : s.bridges with
      | nil => rfl
      | cons a l => rw [hg] at hlen; simp at hlen
    refine ⟨?_, ?_⟩
    · intro i j a b ha hb'
      cases hc : env.connected a.value b.value with
      | false => rfl
      | true =>
        have hm := (mem_initialBridges env.connected start goal _).2 ⟨i, j, a, b, rfl, ha, hb', hc⟩
        have := inv.pre.subset hm
        rw [hbr] at this; simp at this
    · have key : ∀ (base : Nat) (tree : Tree T), LinkedBy (Rel env (s.bridges ≠ [])) base tree →
          LinkedBy (Missed env) base tree := by
        intro base tree hl
        refine hl.mono ?_
        rintro u v ⟨k, w, t, h1, h2⟩
        refine ⟨k, w, t, h1, fun hf => ?_⟩
        cases hc : env.connected v t with
        | false => rfl
        | true => exact absurd hbr (h2 hf hc)
      rintro tree tree' (⟨rfl, rfl⟩ | ⟨rfl, rfl⟩)
      · exact key _ _ inv.linkS
      · exact key _ _ inv.linkG
  · simp at he

/-- If the start and the goal are connected, `Plan` returns these two states at once. -/
theorem C60_connected_at_once (env : Env T) (fuel : Nat) (start goal : T)
    (h : env.connected start goal = true) :
    plan env (fuel + 1) start goal = some (.ok [start, goal], [State.root start], [State.root goal]) := by
  have hb : initialBridges env.connected [State.root start] [State.root goal] = [(0, 0)] := by
    simp [initialBridges, State.root, h, List.range_succ]
  unfold plan planMultiPath
  rw [hb]
  rw [wf_linkage (wf_start start), wf_linkage (wf_start goal)]
  simp only [List.isEmpty_cons, Bool.false_eq_true, if_false, Bool.true_eq_false]
  unfold planLoop
  simp only [List.isEmpty_cons, Bool.not_false, Bool.and_self, Bool.true_or, if_true]
  unfold finish
  rw [wf_linkage (wf_start start), wf_linkage (wf_start goal)]
  rfl

/-- `Plan` returns the first path, or an empty one if there is none. -/
theorem C60_plan (env : Env T) (fuel : Nat) (start goal : T) (p : List T) (start' goal' : Tree T)
    (h : plan env fuel start goal = some (.ok p, start', goal')) :
    ∃ r, planMultiPath env true fuel [State.root start] [State.root goal] = some (.ok r, start', goal') ∧
      ((p = [] ∧ r.paths = []) ∨ (p ≠ [] ∧ p ∈ r.paths)) := by
  unfold plan at h
  split at h
  · simp at h
  · next r trees hr =>
    simp at h
    obtain ⟨rfl, rfl⟩ := h
    refine ⟨r, hr, ?_⟩
    cases hps : r.paths with
    | nil => exact Or.inl ⟨by simp, rfl⟩
    | cons p ps =>
      have := (C60_paths env true fuel start goal r _ _ hr p (by rw [hps]; simp)).1
      refine Or.inr ⟨?_, by simp⟩
      simp only [List.head?_cons, Option.getD_some]
      rintro rfl
      simp at this
  · simp at h
  · simp at h
  · simp at h

/-- Numbers walking towards each other; states one apart are connected. -/
def meet : Env Nat where
  sample := fun _ => 5
  fromTree := fun k => decide (k ≠ 1)
  pick := fun k => k + 1
  nearest := fun _ tree _ => (tree.length : Int) - 1
  propagate := fun _ u t => if u < t then [(u + 1, -1), (u + 2, 0)] else [(u - 1, -1)]
  connected := fun a b => decide (a + 1 = b) || decide (b + 1 = a)
  switch := fun k => decide (k ≠ 0)
  terminate := fun k => decide (k = 5)

/-- the paths and the statistics of a run, for the examples -/
def view (x : Option (Out (Result Nat) × Tree Nat × Tree Nat)) : Option (List (List Nat) × List Nat) :=
  x.map fun x => match x.1 with
    | .ok r => (r.paths, [r.total, r.successful, r.failed, r.swaps, r.states, r.solutions])
    | _ => ([], [])

example : view (planMultiPath meet true 6 [State.root 0] [State.root 6]) =
    some ([[0, 1, 2, 3, 4, 5, 6]], [4, 4, 0, 3, 9, 1]) := by decide
example : view (planMultiPath meet false 6 [State.root 0] [State.root 3]) =
    some ([[0, 1, 2, 3], [0, 1, 2, 3, 2, 3], [0, 1, 2, 3, 4, 3, 4, 3, 2, 3]], [5, 5, 0, 4, 10, 3]) := by
  decide
example : ∃ r, planMultiPath meet true 6 [State.root 0] [State.root 6] = some r := ⟨_, rfl⟩
example : meet.connected 3 4 = true := by decide
example : (plan { meet with connected := fun _ _ => false } 6 0 6).map (fun x => match x.1 with
    | .ok p => some p | _ => none) = some (some []) := by decide

end Verif.BiRrt
