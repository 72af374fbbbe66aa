import Verif.Lemmas.Rrt

/-!
# C23, C24, C25: the single-tree RRT planner
-/
namespace Verif.Rrt
open Verif

variable {T : Type}

/-! ## C23: growth keeps the tree properly linked -/

/-- However the callbacks answer and whenever the planner stops, the tree is properly linked, still
contains the given nodes, and every node added was propagated from its parent. The planner either
returns, or reports that the nearest-neighbour function named a missing node, or that the propagation
function named a parent that is not earlier. It never reports a corrupted tree and never accesses
memory outside the tree. -/
theorem C23_growth (env : Env T) (single : Bool) (fuel : Nat) (tree : Tree T) (wf : WellFormed tree)
    (hne : tree ≠ []) (o : Out (Result T)) (tree' : Tree T)
    (h : planMultiPath env single fuel tree = some (o, tree')) :
    WellFormed tree' ∧ Extends tree tree' ∧
      (∀ (i : Nat) (s : State T), tree.length ≤ i → tree'[i]? = some s →
        ∃ (q : Nat) (t : State T), s.parent = (q : Int) ∧ tree'[q]? = some t ∧
          Made env.sample env.propagate t.value s.value) ∧
      ((∃ r, o = .ok r) ∨
        (o = .throws .outOfRange ∧ ∃ k, (tree'.length : Int) ≤ env.nearest k tree' (env.sample k)) ∨
        (o = .throws .invalidArgument ∧
          ∃ (k : Nat) (w : T), ¬ Attachable (env.propagate k w (env.sample k)))) := by
  obtain ⟨s, rfl, inv, hcase⟩ := planMultiPath_spec env single fuel tree wf hne o tree' h
  refine ⟨inv.wf, inv.ext, inv.made, ?_⟩
  rcases hcase with ⟨paths, rfl, -⟩ | ⟨e, rfl, he⟩
  · exact Or.inl ⟨_, rfl⟩
  · rcases he with ⟨he, -⟩ | ⟨he, hk⟩ | ⟨he, hk⟩
    · simp at he
    · simp at he; subst he; exact Or.inr (Or.inl ⟨rfl, _, hk⟩)
    · simp at he; subst he; exact Or.inr (Or.inr ⟨rfl, hk⟩)

/-- With callbacks that keep to their contract, the planner returns. -/
theorem C23_contract (env : Env T) (single : Bool) (fuel : Nat) (tree : Tree T) (wf : WellFormed tree)
    (hne : tree ≠ []) (hnear : NearestInRange env)
    (hprop : ∀ (k : Nat) (w : T), Attachable (env.propagate k w (env.sample k)))
    (o : Out (Result T)) (tree' : Tree T)
    (h : planMultiPath env single fuel tree = some (o, tree')) : ∃ r, o = .ok r := by
  obtain ⟨hwf, hext, -, h1 | ⟨-, k, h2⟩ | ⟨-, k, w, h3⟩⟩ := C23_growth env single fuel tree wf hne o tree' h
  · exact h1
  · have hne' : tree' ≠ [] := by
      rintro rfl
      cases tree with
      | nil => exact hne rfl
      | cons a t =>
        obtain ⟨s', hs', -⟩ := hext 0 a (by simp)
        simp at hs'
    have := hnear k tree' (env.sample k) hne'
    omega
  · exact absurd (hprop k w) h3

/-- The planner ends if the termination test ever says so: `n + 1` rounds are enough if it does before
round `n`. -/
theorem C23_terminates (env : Env T) (single : Bool) (n : Nat) (hn : env.terminate n = true)
    (tree : Tree T) (wf : WellFormed tree) : planMultiPath env single (n + 1) tree ≠ none := by
  unfold planMultiPath
  split
  · simp
  split
  · simp
  next he _ =>
  have hne : tree ≠ [] := by simpa using he
  have hl := planLoop_terminates env single (n + 1) 0 ⟨tree, initialGoals env.goal tree 0, 0, 0, 0⟩
    ⟨n, by omega, by omega, hn⟩
  split
  · next h => exact absurd h hl
  · next s hs =>
    obtain ⟨inv, -⟩ := planLoop_spec env single tree _ _ (inv_start env wf)
      ⟨Nat.le_refl _, fun _ => rfl⟩ _ _ hs
    obtain ⟨paths, h1, -⟩ := finish_spec inv
    rw [h1]; simp
  · simp
  · simp
  · simp

/-- One round attaches the propagated states exactly as they say, up to the first one that names a
parent that is not earlier; if there is one, the round throws. The indices of the new
nodes that pass the goal test are noted. -/
theorem C23_round (reached : T → Bool) (tree : Tree T) (nn : Nat) (hn : nn < tree.length)
    (ps : List (T × Int)) (hits : List Int) (wf : WellFormed tree) :
    ∃ (m : Nat) (tree' : Tree T) (hits' : List Int),
      growLoop reached (nn : Int) ps 0 tree hits =
        (if m = ps.length then .ok () else .throws .invalidArgument, tree', hits') ∧
      m ≤ ps.length ∧ Attachable (ps.take m) ∧
      (m < ps.length → ∃ v rel, ps[m]? = some (v, rel) ∧ (m : Int) ≤ rel) ∧
      Grown tree nn (ps.take m) tree' ∧ WellFormed tree' ∧
      (∃ new, hits' = hits ++ new ∧ new.Pairwise (· < ·) ∧
        ∀ g : Int, g ∈ new ↔ ∃ (j : Nat) (v : T) (rel : Int), g = ((tree.length + j : Nat) : Int) ∧
          (ps.take m)[j]? = some (v, rel) ∧ reached v = true) := by
  obtain ⟨tree', hrun, hg, hwf⟩ := growLoop_start reached tree nn hn ps hits wf
  refine ⟨attachLen 0 ps, tree', _, hrun, attachLen_le 0 ps, ?_, ?_, hg, hwf, _, rfl, hitsOf_spec _ _ _⟩
  · intro j v rel hj
    have hjl := getElem?_lt hj
    rw [List.length_take] at hjl
    have hjm : j < attachLen 0 ps := by omega
    rw [List.getElem?_take_of_lt hjm] at hj
    have := attachLen_lt 0 ps j v rel hjm hj
    simpa using this
  · intro hlt
    suffices ∀ (idx : Nat) (ps : List (T × Int)), attachLen idx ps < ps.length →
        ∃ v rel, ps[attachLen idx ps]? = some (v, rel) ∧ ((idx + attachLen idx ps : Nat) : Int) ≤ rel by
      simpa using this 0 ps hlt
    intro idx ps
    induction ps generalizing idx with
    | nil => simp
    | cons a ps ih =>
      obtain ⟨v, rel⟩ := a
      intro h
      by_cases hr : rel < (idx : Int)
      · rw [attachLen_cons _ _ _ _ hr] at h ⊢
        obtain ⟨w, r, h1, h2⟩ := ih (idx + 1) (by simpa using h)
        exact ⟨w, r, by simpa using h1, by omega⟩
      · have h0 : attachLen idx ((v, rel) :: ps) = 0 := by rw [attachLen, if_neg hr]
        rw [h0]
        exact ⟨v, rel, by simp, by omega⟩

/-- The check accepts every properly linked tree. -/
theorem C23_linkage (tree : Tree T) (wf : WellFormed tree) : checkTreeLinkage tree = true :=
  wf_linkage wf

/-- An empty tree and a tree that fails the check are rejected and left alone. -/
theorem C23_rejects (env : Env T) (single : Bool) (fuel : Nat) (tree : Tree T)
    (h : tree = [] ∨ checkTreeLinkage tree = false) :
    planMultiPath env single fuel tree = some (.throws .invalidArgument, tree) := by
  unfold planMultiPath
  rcases h with rfl | h
  · rfl
  · rw [h]; simp

/-! ## C24: solution paths and statistics -/

/-- What a run on a properly linked tree returns: one path from a root for each node whose value
satisfies the goal test, in the order of the nodes. Rounds are counted, each as either successful or
failed; the loop stopped because the test said so, because the nearest-neighbour function gave up, or
(for the single-path planner) because a solution was found; every successful round added a node and
without one the tree is as it was. -/
theorem C24_result (env : Env T) (single : Bool) (fuel : Nat) (tree : Tree T) (wf : WellFormed tree)
    (hne : tree ≠ []) (r : Result T) (tree' : Tree T)
    (h : planMultiPath env single fuel tree = some (.ok r, tree')) :
    (∃ goals : List Int, GoalNodes env.goal tree' goals ∧ r.paths.length = goals.length ∧
      ∀ (i : Nat) (g : Nat) (p : List T), goals[i]? = some (g : Int) → r.paths[i]? = some p →
        PathTo tree' g p) ∧
    r.solutions = r.paths.length ∧ r.states = tree'.length ∧
    r.total = r.successful + r.failed ∧
    tree.length + r.successful ≤ tree'.length ∧ (r.successful = 0 → tree' = tree) ∧
    (∀ k, k < r.total → env.terminate k = false) ∧
    ((single = true ∧ r.paths ≠ []) ∨ env.terminate r.total = true ∨
      env.nearest r.total tree' (env.sample r.total) < 0) := by
  obtain ⟨s, rfl, inv, hcase⟩ := planMultiPath_spec env single fuel tree wf hne _ tree' h
  rcases hcase with ⟨paths, hr, hend, hb, ht, hlen, hp⟩ | ⟨e, he, -⟩
  · simp at hr; subst hr
    refine ⟨⟨s.goals, inv.goals, hlen, hp⟩, rfl, rfl, inv.total, hb.length, hb.none, ht, ?_⟩
    rcases hend with ⟨-, h1⟩ | ⟨he, -⟩ | ⟨he, -⟩
    · rcases h1 with ⟨h1, h2⟩ | h1
      · refine Or.inl ⟨h1, ?_⟩
        intro hpaths
        have hpaths : paths = [] := hpaths
        rw [hpaths] at hlen
        exact h2 (by cases hg : s.goals with
          | nil => rfl
          | cons a l => rw [hg] at hlen; simp at hlen)
      · exact Or.inr h1
    · simp at he
    · simp at he
  · simp at he

/-- The paths of a planner grown from a start state begin at the start, end in a state that satisfies
the goal test, and go from each state to one propagated from it. -/
theorem C24_paths (env : Env T) (single : Bool) (fuel : Nat) (start : T) (r : Result T) (tree' : Tree T)
    (h : planMultiPath env single fuel [State.root start] = some (.ok r, tree')) (p : List T)
    (hp : p ∈ r.paths) :
    p.head? = some start ∧ (∃ v, p.getLast? = some v ∧ env.goal v = true) ∧
      Steps (Made env.sample env.propagate) p := by
  obtain ⟨s, rfl, inv, hcase⟩ := planMultiPath_spec env single fuel _ (wf_start start) (by simp) _ tree' h
  rcases hcase with ⟨paths, hr, -, -, -, hlen, hpt⟩ | ⟨e, he, -⟩
  · simp at hr; subst hr
    obtain ⟨i, hi, rfl⟩ := List.getElem_of_mem hp
    have hi' : i < s.goals.length := by rw [← hlen]; exact hi
    have hg : s.goals[i]? = some s.goals[i] := by simp
    obtain ⟨g, t, hgk, ht, hgoal⟩ := (inv.goals.2 s.goals[i]).1 (List.getElem_mem _)
    rw [hgk] at hg
    have path := hpt i g _ hg (List.getElem?_eq_getElem hi)
    obtain ⟨t', ht', hlast⟩ := path.last
    rw [ht] at ht'; simp at ht'; subst ht'
    exact ⟨path.head (rooted_grown inv), ⟨_, hlast, hgoal⟩, path.steps (made_links inv)⟩
  · simp at he

/-- The tree grown from a start state has this state as its only root. -/
theorem C24_root (env : Env T) (single : Bool) (fuel : Nat) (start : T) (o : Out (Result T))
    (tree' : Tree T) (h : planMultiPath env single fuel [State.root start] = some (o, tree')) :
    RootedAt start tree' := by
  obtain ⟨s, rfl, inv, -⟩ := planMultiPath_spec env single fuel _ (wf_start start) (by simp) _ tree' h
  exact rooted_grown inv

/-- `Plan` returns an empty path exactly if no node of the tree satisfies the goal test, and otherwise a
path as in `C24_paths`. -/
theorem C24_plan (env : Env T) (fuel : Nat) (start : T) (p : List T) (tree' : Tree T)
    (h : plan env fuel start = some (.ok p, tree')) :
    (p = [] ↔ ∀ (k : Nat) (s : State T), tree'[k]? = some s → env.goal s.value = false) ∧
    (p ≠ [] → p.head? = some start ∧ (∃ v, p.getLast? = some v ∧ env.goal v = true) ∧
      Steps (Made env.sample env.propagate) p) := by
  unfold plan at h
  split at h
  · simp at h
  · next r tree hr =>
    simp at h
    obtain ⟨rfl, rfl⟩ := h
    obtain ⟨⟨goals, hg, hlen, hpt⟩, -⟩ := C24_result env true fuel _ (wf_start start) (by simp) r tree hr
    have hpaths := C24_paths env true fuel start r tree hr
    cases hps : r.paths with
    | nil =>
      rw [hps] at hlen
      have hgn : goals = [] := by
        cases goals with
        | nil => rfl
        | cons a l => simp at hlen
      refine ⟨⟨fun _ k s hk => ?_, fun _ => by simp⟩, by simp⟩
      cases hgs : env.goal s.value with
      | false => rfl
      | true =>
        have := (hg.2 (k : Int)).2 ⟨k, s, rfl, hk, hgs⟩
        rw [hgn] at this; simp at this
    | cons p ps =>
      have hmem : p ∈ r.paths := by rw [hps]; simp
      obtain ⟨h1, ⟨v, h2, h3⟩, h4⟩ := hpaths p hmem
      simp only [List.head?_cons, Option.getD_some]
      have hpne : p ≠ [] := by rintro rfl; simp at h1
      refine ⟨⟨fun he => absurd he hpne, fun hall => ?_⟩, fun _ => ⟨h1, ⟨v, h2, h3⟩, h4⟩⟩
      rw [hps] at hlen
      cases hgs : goals with
      | nil => rw [hgs] at hlen; simp at hlen
      | cons g l =>
        obtain ⟨k, s, -, hk, hgoal⟩ := (hg.2 g).1 (by rw [hgs]; simp)
        rw [hall k s hk] at hgoal; simp at hgoal
  · simp at h
  · simp at h
  · simp at h

/-! ## C25: what the linkage check says -/

/-- Exactly which trees the check accepts. -/
theorem C25_check (tree : Tree T) :
    checkTreeLinkage tree = true ↔
      ∀ (i : Nat) (s : State T), tree[i]? = some s →
        s.initialized = true ∧ -1 ≤ s.parent ∧
        (∀ (p : Nat) (t : State T), s.parent = (p : Int) → tree[p]? = some t →
          p ≠ i ∧ t.initialized = true ∧ (i : Int) ∈ t.children) ∧
        (∀ c ∈ s.children, ∃ (k : Nat) (t : State T), c = (k : Int) ∧ 0 < k ∧ k ≠ i ∧ tree[k]? = some t ∧
          t.initialized = true ∧ t.parent = (i : Int)) := by
  unfold checkTreeLinkage
  rw [List.all_eq_true]
  constructor
  · intro h i s hs
    have hi := getElem?_lt hs
    have := h i (by simp [hi])
    rw [hs] at this
    simp only [Bool.and_eq_true, List.all_eq_true] at this
    obtain ⟨⟨h1, h2⟩, h3⟩ := this
    refine ⟨h1, ?_, ?_, ?_⟩
    · unfold parentOk at h2
      split at h2
      · omega
      · simp at h2; exact h2
    · intro p t hp ht
      have hpl := getElem?_lt ht
      unfold parentOk at h2
      rw [hp, if_pos (by omega), stateAt_nat, ht] at h2
      split at h2
      · next hne =>
        simp only [Bool.and_eq_true, decide_eq_true_eq] at h2
        exact ⟨by omega, h2⟩
      · simp at h2
    · intro c hc
      have := h3 c hc
      unfold childOk at this
      split at this
      · next hr =>
        split at this
        · next hne =>
          obtain ⟨k, rfl⟩ : ∃ k : Nat, c = (k : Int) := ⟨c.toNat, by omega⟩
          rw [stateAt_nat] at this
          cases hk : tree[k]? with
          | none => rw [hk] at this; simp at this
          | some t =>
            rw [hk] at this
            simp only [Bool.and_eq_true, decide_eq_true_eq] at this
            exact ⟨k, t, rfl, by omega, by omega, hk, this⟩
        · simp at this
      · simp at this
  · intro h i hi
    simp at hi
    have hs : tree[i]? = some tree[i] := by simp
    obtain ⟨h1, h2, h3, h4⟩ := h i _ hs
    rw [hs]
    simp only [Bool.and_eq_true, List.all_eq_true]
    refine ⟨⟨h1, ?_⟩, ?_⟩
    · unfold parentOk
      split
      · next hr =>
        obtain ⟨p, hp⟩ : ∃ p : Nat, tree[i].parent = (p : Int) := ⟨tree[i].parent.toNat, by omega⟩
        have hpl : p < tree.length := by omega
        have ht : tree[p]? = some tree[p] := by simp
        obtain ⟨a, b, c⟩ := h3 p _ hp ht
        rw [hp, if_pos (by omega), stateAt_nat, ht]
        simp only [Bool.and_eq_true, decide_eq_true_eq]
        exact ⟨b, c⟩
      · simp; exact h2
    · intro c hc
      obtain ⟨k, t, rfl, hk0, hki, hk, ht, hp⟩ := h4 c hc
      have := getElem?_lt hk
      unfold childOk
      rw [if_pos (by omega), if_pos (by omega), stateAt_nat, hk]
      simp only [Bool.and_eq_true, decide_eq_true_eq]
      exact ⟨ht, hp⟩

/-- An accepted tree whose parent links all lead to earlier nodes can be relied on: extracting the path
to any node ends, within as many steps as there are nodes, with the path from a root. What is missing:
the check does not establish that parent links lead to earlier, or even existing, nodes. -/
theorem C25_extract_partial (tree : Tree T) (h : checkTreeLinkage tree = true)
    (hback : ∀ (i : Nat) (s : State T), tree[i]? = some s → s.parent < (i : Int)) (i : Nat)
    (hi : i < tree.length) :
    ∃ path, PathTo tree i path ∧
      ∀ fuel, tree.length ≤ fuel → extractSolutionPath fuel tree (i : Int) = some (.ok path) := by
  have hb : Backward tree := by
    intro j s hs
    obtain ⟨-, h2, -, -⟩ := (C25_check tree).1 h j s hs
    have := hback j s hs
    by_cases hp : s.parent = -1
    · exact Or.inl hp
    · exact Or.inr ⟨s.parent.toNat, by omega, by omega⟩
  obtain ⟨path, h1, h2⟩ := extractSolutionPath_wf hb i hi
  exact ⟨path, h1, fun fuel hf => h2 fuel (by omega)⟩

/-- Exactly what extraction does on any accepted tree: it returns the path from the root if following the parents leads to
a root, throws if it leads out of the tree, and has no other result, so it never ends if it leads to neither. -/
theorem C25_extract_exact (tree : Tree T) (h : checkTreeLinkage tree = true) (i : Nat) (hi : i < tree.length) :
    (∀ path, (∃ fuel, extractSolutionPath fuel tree (i : Int) = some (.ok path)) ↔ PathTo tree i path) ∧
    ((∃ fuel, extractSolutionPath fuel tree (i : Int) = some (.throws .outOfRange)) ↔ LeadsOut tree i) ∧
    (∀ fuel, extractSolutionPath fuel tree (i : Int) = none ∨
      (∃ path, extractSolutionPath fuel tree (i : Int) = some (.ok path)) ∨
      extractSolutionPath fuel tree (i : Int) = some (.throws .outOfRange)) := by
  have hpar : ∀ (j : Nat) (s : State T), tree[j]? = some s → -1 ≤ s.parent := fun j s hs => ((C25_check tree).1 h j s hs).2.1
  have hat : ∀ j : Nat, stateAt tree (j : Int) = tree[j]? := by
    intro j
    unfold stateAt
    rw [if_neg (by omega), Int.toNat_natCast]
  -- one step
  have hstep : ∀ (fuel : Nat) (p : Nat) (acc : List T), extractLoop tree (fuel + 1) (p : Int) acc =
      match tree[p]? with
      | none => some (.throws .outOfRange)
      | some s => extractLoop tree fuel s.parent (acc ++ [s.value]) := by
    intro fuel p acc
    rw [extractLoop, if_pos (by omega), hat]
    cases tree[p]? <;> rfl
  have hroot : ∀ (fuel : Nat) (acc : List T), extractLoop tree (fuel + 1) (-1) acc = some (.ok acc.reverse) := by
    intro fuel acc
    rw [extractLoop, if_neg (by omega)]
  -- what a finished loop tells, from a state
  have sound : ∀ (fuel : Nat) (j : Nat) (s : State T) (acc : List T), tree[j]? = some s →
      (∀ r, extractLoop tree fuel s.parent (acc ++ [s.value]) = some r →
        (∃ path, PathTo tree j path ∧ r = .ok (path ++ acc.reverse)) ∨ (LeadsOut tree j ∧ r = .throws .outOfRange)) := by
    intro fuel
    induction fuel with
    | zero => intro j s acc _ r hr; cases hr
    | succ fuel ih =>
      intro j s acc hs r hr
      by_cases hp : s.parent = -1
      · rw [hp, hroot] at hr
        cases hr
        exact .inl ⟨[s.value], .root hs hp, by simp⟩
      · obtain ⟨p, hpp⟩ : ∃ p : Nat, s.parent = (p : Int) := ⟨s.parent.toNat, by have := hpar j s hs; omega⟩
        rw [hpp, hstep] at hr
        cases ht : tree[p]? with
        | none =>
          rw [ht] at hr
          cases hr
          have := List.getElem?_eq_none_iff.1 ht
          exact .inr ⟨.here hs (by omega), rfl⟩
        | some t =>
          rw [ht] at hr
          rcases ih p t _ ht r hr with ⟨path, h1, h2⟩ | ⟨h1, h2⟩
          · exact .inl ⟨path ++ [s.value], .step hs hpp h1, by simp [h2]⟩
          · exact .inr ⟨.step hs hpp h1, h2⟩
  have complete : ∀ (j : Nat) (path : List T), PathTo tree j path → ∀ (s : State T), tree[j]? = some s → ∀ acc : List T,
      ∃ fuel, extractLoop tree fuel s.parent (acc ++ [s.value]) = some (.ok (path ++ acc.reverse)) := by
    intro j path hp
    induction hp with
    | root h1 h2 =>
      intro s hs acc
      rw [h1] at hs; cases hs
      exact ⟨1, by rw [h2, hroot]; simp⟩
    | @step j s p path h1 h2 h3 ih =>
      intro s' hs acc
      rw [h1] at hs; cases hs
      have : ∃ t, tree[p]? = some t := by cases h3 <;> exact ⟨_, by assumption⟩
      obtain ⟨t, ht⟩ := this
      obtain ⟨fuel, hf⟩ := ih t ht (acc ++ [s.value])
      refine ⟨fuel + 1, ?_⟩
      rw [h2, hstep, ht]
      simp only
      rw [hf]
      simp
  have out : ∀ (j : Nat), LeadsOut tree j → ∀ (s : State T), tree[j]? = some s → ∀ acc : List T,
      ∃ fuel, extractLoop tree fuel s.parent (acc ++ [s.value]) = some (.throws .outOfRange) := by
    intro j hl
    induction hl with
    | @here j s h1 h2 =>
      intro s' hs acc
      rw [h1] at hs; cases hs
      refine ⟨1, ?_⟩
      obtain ⟨p, hpp⟩ : ∃ p : Nat, s.parent = (p : Int) := ⟨s.parent.toNat, by omega⟩
      rw [hpp, hstep, List.getElem?_eq_none (by omega)]
    | @step j s p h1 h2 h3 ih =>
      intro s' hs acc
      rw [h1] at hs; cases hs
      have : ∃ t, tree[p]? = some t := by cases h3 <;> exact ⟨_, by assumption⟩
      obtain ⟨t, ht⟩ := this
      obtain ⟨fuel, hf⟩ := ih t ht (acc ++ [s.value])
      refine ⟨fuel + 1, ?_⟩
      rw [h2, hstep, ht]
      exact hf
  obtain ⟨s, hs⟩ : ∃ s, tree[i]? = some s := ⟨_, List.getElem?_eq_getElem hi⟩
  have hex : ∀ fuel, extractSolutionPath fuel tree (i : Int) = extractLoop tree fuel s.parent [s.value] := by
    intro fuel
    unfold extractSolutionPath
    rw [hat, hs]
  refine ⟨?_, ?_, ?_⟩
  · intro path
    constructor
    · rintro ⟨fuel, hf⟩
      rw [hex] at hf
      rcases sound fuel i s [] hs _ hf with ⟨q, h1, h2⟩ | ⟨_, h2⟩
      · simp only [List.reverse_nil, List.append_nil, Out.ok.injEq] at h2
        rw [h2]; exact h1
      · cases h2
    · intro hp
      obtain ⟨fuel, hf⟩ := complete i path hp s hs []
      exact ⟨fuel, by rw [hex]; simpa using hf⟩
  · constructor
    · rintro ⟨fuel, hf⟩
      rw [hex] at hf
      rcases sound fuel i s [] hs _ hf with ⟨q, h1, h2⟩ | ⟨h1, _⟩
      · cases h2
      · exact h1
    · intro hl
      obtain ⟨fuel, hf⟩ := out i hl s hs []
      exact ⟨fuel, by rw [hex]; exact hf⟩
  · intro fuel
    cases hr : extractSolutionPath fuel tree (i : Int) with
    | none => exact .inl rfl
    | some r =>
      right
      rw [hex] at hr
      rcases sound fuel i s [] hs _ hr with ⟨q, _, h2⟩ | ⟨_, h2⟩
      · left; exact ⟨_, by rw [h2]⟩
      · right; rw [h2]

/-- The first node of an accepted tree has no parent in the tree. -/
theorem C25_first_is_root (tree : Tree T) (h : checkTreeLinkage tree = true) (s : State T)
    (hs : tree[0]? = some s) : s.parent = -1 ∨ (tree.length : Int) ≤ s.parent := by
  obtain ⟨-, h2, h3, -⟩ := (C25_check tree).1 h 0 s hs
  by_cases hp : s.parent = -1
  · exact Or.inl hp
  · right
    rcases Int.lt_or_le s.parent (tree.length : Int) with hlt | hge
    · obtain ⟨p, hpp⟩ : ∃ p : Nat, s.parent = (p : Int) := ⟨s.parent.toNat, by omega⟩
      have hpl : p < tree.length := by omega
      obtain ⟨-, -, hc⟩ := h3 p tree[p] hpp (by simp)
      obtain ⟨-, -, -, h4⟩ := (C25_check tree).1 h p tree[p] (by simp)
      obtain ⟨k, t, hk, hpos, -⟩ := h4 _ hc
      omega
    · exact hge

/-- Two nodes that are each other's parent, away from node 0 -/
def cyclic : Tree Nat := [⟨0, [], -1, true⟩, ⟨1, [2], 2, true⟩, ⟨2, [1], 1, true⟩]

/-- The check accepts a tree with a cycle, on which extracting a path never ends. -/
theorem C25_accepts_cycle :
    checkTreeLinkage cyclic = true ∧ ∀ fuel, extractSolutionPath fuel cyclic 1 = none := by
  refine ⟨by decide, ?_⟩
  have key : ∀ fuel acc, extractLoop cyclic fuel 1 acc = none ∧ extractLoop cyclic fuel 2 acc = none := by
    intro fuel
    induction fuel with
    | zero => intro acc; exact ⟨rfl, rfl⟩
    | succ f ih =>
      intro acc
      exact ⟨(ih _).2, (ih _).1⟩
  intro fuel
  exact (key fuel _).2

/-- The check accepts a parent beyond the end of the tree, on which extracting a path throws. -/
theorem C25_accepts_missing_parent :
    checkTreeLinkage [(⟨0, [], 5, true⟩ : State Nat)] = true ∧
      extractSolutionPath 2 [(⟨0, [], 5, true⟩ : State Nat)] 0 = some (.throws .outOfRange) := by
  decide

/-- A planner for the examples: it walks along the numbers, two at a time, until it has seen the goal -/
def walk : Env Nat where
  sample := fun _ => 100
  nearest := fun _ tree _ => (tree.length : Int) - 1
  propagate := fun k u _ => if k = 1 then [] else [(u + 1, -1), (u + 2, 0)]
  goal := fun v => decide (v = 4) || decide (v = 2)
  terminate := fun k => decide (k = 3)

/-- Planning on an accepted tree with a missing parent can fail with a report of corruption. -/
theorem C25_corrupted_later :
    (planMultiPath walk false 4 [(⟨0, [], 1, true⟩ : State Nat)]).map
      (fun x => match x.1 with | .throws e => some e | _ => none) = some (some .runtimeError) ∧
    checkTreeLinkage [(⟨0, [], 1, true⟩ : State Nat)] = true := by
  decide

example : (planMultiPath walk false 4 [State.root 0]).map (fun x => match x.1 with
    | .ok r => (r.paths, r.total, r.successful, r.failed, r.states, r.solutions)
    | _ => ([], 0, 0, 0, 0, 0)) = some ([[0, 1, 2], [0, 1, 2, 3, 4]], 3, 2, 1, 5, 2) := by decide
example : (plan walk 4 0).map (fun x => match x.1 with | .ok p => p | _ => []) = some [0, 1, 2] := by decide
example : WellFormed [State.root (0 : Nat)] ∧ walk.terminate 3 = true := ⟨wf_start 0, rfl⟩
example : NearestInRange walk := by intro k tree t h; simp only [walk]; omega
example : ∀ (k : Nat) (w : Nat), Attachable (walk.propagate k w (walk.sample k)) := by
  intro k w j v rel h
  have : j = 0 ∨ j = 1 := by
    have := getElem?_lt h
    simp only [walk] at this
    split at this <;> simp at this; omega
  simp only [walk] at h
  split at h
  · simp at h
  · rcases this with rfl | rfl
    · simp at h; omega
    · simp at h; omega
/-- A nearest-neighbour function that names a missing node -/
example : (planMultiPath { walk with nearest := fun _ _ _ => 7 } false 4 [State.root 0]).map
    (fun x => match x.1 with | .throws e => some e | _ => none) = some (some .outOfRange) := by decide
example : checkTreeLinkage [State.new 1 1, { State.root (0 : Nat) with children := [0] }] = false := by decide

end Verif.Rrt
