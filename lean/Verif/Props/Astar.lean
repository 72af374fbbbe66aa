import Verif.Lemmas.Astar
import Verif.Props.Graph

/-!
# Properties C18 to C21 (A* search)

`pick` ranges over every way the priority queue can order entries of equal value, `limit` over both
values of `limit_pqueue_duplicates`. `fuel` bounds the rounds of the loops: a result `none` means
that the call has not returned within that many rounds, so a theorem about `some _` for every `fuel`
is about every call that returns.
-/
namespace Verif.Astar
open Verif Verif.Graph

variable {ν W : Type} [Cost W]

/-- C18: bad indices throw, whatever the graph and the callbacks. -/
theorem C18_arguments (fuel : Nat) (pick : Nat → Nat) (g : Graph ν W) (start goal : Int)
    (cb : Callbacks ν W) (limit : Bool)
    (hbad : start < 0 ∨ start ≥ (g.length : Int) ∨ goal < 0 ∨ goal ≥ (g.length : Int) ∨ start = goal) :
    performLazyAstar fuel pick g start goal cb limit = some (.throws .invalidArgument) := by
  unfold performLazyAstar
  have : lazyArgumentsBad g start goal = true := by
    unfold lazyArgumentsBad
    rcases hbad with h | h | h | h | h <;> simp [h]
  rw [if_pos this]

/-- The nodes listed by a path begin with its first and end with its last node. -/
theorem Path.ends {step : Int → Int → W → Prop} {u t : Int} {c C : W} {p : List Int}
    (h : Path step u c p t C) : p.head? = some u ∧ p.getLast? = some t := by
  induction h with
  | here => simp
  | cons hs hp ih =>
    refine ⟨rfl, ?_⟩
    cases hp with
    | here => rfl
    | cons => rw [List.getLast?_cons_cons]; exact ih.2

/-- C18: for any graph, callbacks and costs (also negative ones), if the call returns a path at all,
it leads from start to goal along edges accepted by the validity callback; if the costs are not
negative, the path costs at most the number reported. -/
theorem C18_path (fuel : Nat) (pick : Nat → Nat) (g : Graph ν W) (start goal : Int)
    (cb : Callbacks ν W) (limit : Bool) (path : List Int) (cost : W)
    (hr : performLazyAstar fuel pick g start goal cb limit = some (.ok (path, cost))) :
    (path = [] ∧ cost = Cost.inf) ∨
      (path.head? = some start ∧ path.getLast? = some goal ∧
        ∃ C, Path (GraphStep g cb) start 0 path goal C ∧
          (NonNegative (GraphStep g cb) → C ≤ cost)) := by
  obtain ⟨hne, x, ex', h1, h2⟩ := performLazyAstar_returns hr
  rcases extract_path (graphSucc_ids g cb start) hne (search_hist hne h1) h2 with
    ⟨h3, h4, _⟩ | ⟨_, C, h3, h4⟩
  · exact Or.inl ⟨h3, h4⟩
  · right
    have hp := h3.mono (fun u v w h => graphSucc_step.1 h)
    exact ⟨hp.ends.1, hp.ends.2, C, hp, fun hn => h4 (fun u v w h => hn u v w (graphSucc_step.1 h))⟩

theorem nonNegative_succ {g : Graph ν W} {cb : Callbacks ν W} (hn : NonNegative (GraphStep g cb)) :
    NonNegative (graphSucc g cb).step := fun u v w h => hn u v w (graphSucc_step.1 h)

theorem complete_congr {s1 s2 : Int → Int → W → Prop} (h : ∀ u v w, s1 u v w ↔ s2 u v w)
    {start goal : Int} {path : List Int} {cost : W} (hc : Complete s1 start goal path cost) :
    Complete s2 start goal path cost := by
  rcases hc with ⟨h1, h2, h3⟩ | ⟨C, h1, h2⟩
  · exact Or.inl ⟨h1, h2, fun p C hp => h3 p C (hp.mono fun u v w => (h u v w).2)⟩
  · exact Or.inr ⟨C, h1.mono fun u v w => (h u v w).1, h2⟩

theorem optimal_congr {s1 s2 : Int → Int → W → Prop} (h : ∀ u v w, s1 u v w ↔ s2 u v w)
    {start goal : Int} {path : List Int} {cost : W} (hc : Optimal s1 start goal path cost) :
    Optimal s2 start goal path cost := by
  rcases hc with ⟨h1, h2, h3⟩ | ⟨h1, h2⟩
  · exact Or.inl ⟨h1, h2, fun p C hp => h3 p C (hp.mono fun u v w => (h u v w).2)⟩
  · exact Or.inr ⟨h1.mono fun u v w => (h u v w).1,
      fun p C hp => h2 p C (hp.mono fun u v w => (h u v w).2)⟩

theorem graph_core {g : Graph ν W} {start goal : Int} {cb : Callbacks ν W} (hl : Linked g)
    (ha : cb.Answers g) (hn : NonNegative (GraphStep g cb))
    (hs : 0 ≤ start ∧ start < (g.length : Int)) (hg : 0 ≤ goal ∧ goal < (g.length : Int))
    (hne : start ≠ goal) :
    ∃ N, ∀ pick fuel limit, N ≤ fuel → ∃ x ex' path cost,
      coreLoop (graphSucc g cb) (nodeHeuristic g cb goal) goal pick fuel 0
        [⟨start, -1, 0, x⟩] [] = some ex' ∧
      extractAstarResult fuel ex' start goal = some (.ok (path, cost)) ∧
      performLazyAstar fuel pick g start goal cb limit = some (.ok (path, cost)) := by
  have hrg := outInRange_of_linked hl
  obtain ⟨N, hN⟩ := search_terminates (h := nodeHeuristic g cb goal) (succ := graphSucc g cb) hne
    (nonNegative_succ hn) (S := (List.range g.length).map Int.ofNat)
    (List.mem_map.2 ⟨start.toNat, List.mem_range.2 (by omega), by simp; omega⟩) (by
      intro u v w _ hv
      obtain ⟨n, hnode, e, he, h1, _⟩ := graphSucc_step.1 hv
      have := hrg n (List.mem_of_getElem? hnode.2) e he
      exact List.mem_map.2 ⟨v.toNat, List.mem_range.2 (by omega), by simp; omega⟩)
  refine ⟨N, ?_⟩
  intro pick fuel limit hf
  have hall : ∃ ex', (∀ x, coreLoop (graphSucc g cb) (nodeHeuristic g cb goal) goal pick fuel 0
      [⟨start, -1, 0, x⟩] [] = some ex') ∧ ex'.length ≤ fuel := by
    obtain ⟨ex', h1, h2⟩ := hN pick fuel 0 hf
    refine ⟨ex', ?_, h2⟩
    intro x
    cases fuel with
    | zero => rw [coreLoop_start_zero] at h1; cases h1
    | succ fuel =>
      rw [coreLoop_start hne] at h1 ⊢
      exact h1
  obtain ⟨ex', h1, h2⟩ := hall
  obtain ⟨path, cost, h3⟩ := extract_ok (graphSucc_ids g cb start) hne (nonNegative_succ hn)
    (search_hist hne (h1 0)) h2
  exact ⟨0, ex', path, cost, h1 0, h3,
    by rw [performLazyAstar_of_core ha hrg hs hg hne h1, h3]⟩

/-- C19: with non-negative costs the search always terminates, whatever the heuristic; it returns a
path exactly when there is one. -/
theorem C19_complete (g : Graph ν W) (start goal : Int) (cb : Callbacks ν W) (hl : Linked g)
    (ha : cb.Answers g) (hn : NonNegative (GraphStep g cb))
    (hs : 0 ≤ start ∧ start < (g.length : Int)) (hg : 0 ≤ goal ∧ goal < (g.length : Int))
    (hne : start ≠ goal) :
    ∃ N, ∀ pick fuel limit, N ≤ fuel → ∃ path cost,
      performLazyAstar fuel pick g start goal cb limit = some (.ok (path, cost)) ∧
      Complete (GraphStep g cb) start goal path cost := by
  obtain ⟨N, hN⟩ := graph_core hl ha hn hs hg hne
  refine ⟨N, ?_⟩
  intro pick fuel limit hf
  obtain ⟨x, ex', path, cost, h1, h2, h3⟩ := hN pick fuel limit hf
  exact ⟨path, cost, h3, complete_congr (fun u v w => graphSucc_step)
    (search_complete (graphSucc_ids g cb start) hne (nonNegative_succ hn) h1 h2)⟩

/-- C19: with non-negative costs and an admissible heuristic the path returned is a cheapest one,
its cost is the number reported, and no path is reported exactly when there is none. -/
theorem C19_optimal (g : Graph ν W) (start goal : Int) (cb : Callbacks ν W) (hl : Linked g)
    (ha : cb.Answers g) (hn : NonNegative (GraphStep g cb))
    (had : Admissible (GraphStep g cb) (nodeHeuristic g cb goal) goal)
    (hs : 0 ≤ start ∧ start < (g.length : Int)) (hg : 0 ≤ goal ∧ goal < (g.length : Int))
    (hne : start ≠ goal) :
    ∃ N, ∀ pick fuel limit, N ≤ fuel → ∃ path cost,
      performLazyAstar fuel pick g start goal cb limit = some (.ok (path, cost)) ∧
      Optimal (GraphStep g cb) start goal path cost := by
  obtain ⟨N, hN⟩ := graph_core hl ha hn hs hg hne
  refine ⟨N, ?_⟩
  intro pick fuel limit hf
  obtain ⟨x, ex', path, cost, h1, h2, h3⟩ := hN pick fuel limit hf
  exact ⟨path, cost, h3, optimal_congr (fun u v w => graphSucc_step)
    (search_optimal (graphSucc_ids g cb start) hne (nonNegative_succ hn)
      ⟨fun u c p C hp => had.1 u c p C (hp.mono fun u v w => graphSucc_step.1), had.2⟩ h1 h2)⟩

/-- The steps `PerformAstar` takes: edges not marked invalid whose weight is finite. -/
def WeightStep (g : Graph ν W) (u v : Int) (w : W) : Prop :=
  ∃ n, NodeAt g u n ∧ ∃ e ∈ n.outEdges, e.toIndex = v ∧ e.validity ≠ INVALID ∧ e.weight < Cost.inf ∧
    e.weight = w

theorem graphStep_weight {g : Graph ν W} {hf : ν → ν → W} {u v : Int} {w : W} :
    GraphStep g (weightCallbacks hf) u v w ↔ WeightStep g u v w := by
  unfold GraphStep WeightStep weightCallbacks
  constructor
  · rintro ⟨n, hn, e, he, h1, h2, h3⟩
    injection h3 with h3
    simp only [Out.ok.injEq] at h2
    split at h2
    · cases h2
    · rename_i hv
      exact ⟨n, hn, e, he, h1, hv, by simpa using h2, h3⟩
  · rintro ⟨n, hn, e, he, h1, h2, h3, h4⟩
    exact ⟨n, hn, e, he, h1, by simp [h2, h3], by simp [h4]⟩

/-- C19 for `PerformAstar`, stated with the weights and validity flags stored in the graph. -/
theorem C19_weights (g : Graph ν W) (start goal : Int) (hf : ν → ν → W) (hl : Linked g)
    (hn : NonNegative (WeightStep g))
    (had : Admissible (WeightStep g) (nodeHeuristic g (weightCallbacks hf) goal) goal)
    (hs : 0 ≤ start ∧ start < (g.length : Int)) (hg : 0 ≤ goal ∧ goal < (g.length : Int))
    (hne : start ≠ goal) :
    ∃ N, ∀ pick fuel limit, N ≤ fuel → ∃ path cost,
      performAstar fuel pick g start goal hf limit = some (.ok (path, cost)) ∧
      Optimal (WeightStep g) start goal path cost := by
  obtain ⟨N, hN⟩ := C19_optimal g start goal (weightCallbacks hf) hl
    (fun n _ e _ => ⟨⟨_, rfl⟩, fun _ => ⟨_, rfl⟩⟩)
    (fun u v w h => hn u v w (graphStep_weight.1 h))
    ⟨fun u c p C hp => had.1 u c p C (hp.mono fun u v w => graphStep_weight.1), had.2⟩ hs hg hne
  refine ⟨N, ?_⟩
  intro pick fuel limit hf
  obtain ⟨path, cost, h1, h2⟩ := hN pick fuel limit hf
  exact ⟨path, cost, h1, optimal_congr (fun u v w => graphStep_weight) h2⟩

/-- The steps of the overload on node values. -/
def ValueStep (g : Graph ν W) (valid : ν → ν → Bool) (dist : ν → ν → W) (u v : Int) (w : W) : Prop :=
  ∃ n m, NodeAt g u n ∧ NodeAt g v m ∧ (∃ e ∈ n.outEdges, e.toIndex = v) ∧
    valid n.value m.value = true ∧ dist n.value m.value = w

omit [Cost W] in
theorem valueCallbacks_edge {g : Graph ν W} (hl : Linked g) {valid : ν → ν → Bool}
    {dist heur : ν → ν → W} {u : Int} {n : Node ν W} (hn : NodeAt g u n) {e : Edge W}
    (he : e ∈ n.outEdges) : ∃ m, NodeAt g e.toIndex m ∧
      (valueCallbacks valid dist heur).valid g e = .ok (valid n.value m.value) ∧
      (valueCallbacks valid dist heur).distance g e = .ok (dist n.value m.value) := by
  obtain ⟨h1, _, m, hm, _⟩ := (hl u n hn).2 e he
  refine ⟨m, hm, ?_, ?_⟩ <;> unfold valueCallbacks <;> simp only <;>
    rw [h1, getNode_ok_iff.2 hn, getNode_ok_iff.2 hm] <;> rfl

omit [Cost W] in
theorem graphStep_value {g : Graph ν W} (hl : Linked g) {valid : ν → ν → Bool}
    {dist heur : ν → ν → W} {u v : Int} {w : W} :
    GraphStep g (valueCallbacks valid dist heur) u v w ↔ ValueStep g valid dist u v w := by
  constructor
  · rintro ⟨n, hn, e, he, h1, h2, h3⟩
    obtain ⟨m, hm, h4, h5⟩ := valueCallbacks_edge (valid := valid) (dist := dist) (heur := heur)
      hl hn he
    rw [h4] at h2; rw [h5] at h3
    injection h2 with h2; injection h3 with h3
    rw [h1] at hm
    exact ⟨n, m, hn, hm, ⟨e, he, h1⟩, h2, h3⟩
  · rintro ⟨n, m, hn, hm, ⟨e, he, h1⟩, h2, h3⟩
    obtain ⟨m', hm', h4, h5⟩ := valueCallbacks_edge (valid := valid) (dist := dist) (heur := heur)
      hl hn he
    rw [h1] at hm'
    have := hm.unique hm'
    subst this
    exact ⟨n, hn, e, he, h1, by rw [h4, h2], by rw [h5, h3]⟩

/-- C19 for the overload of `PerformLazyAstar` on node values. -/
theorem C19_values (g : Graph ν W) (start goal : Int) (valid : ν → ν → Bool)
    (dist heur : ν → ν → W) (hl : Linked g) (hn : NonNegative (ValueStep g valid dist))
    (had : Admissible (ValueStep g valid dist)
      (nodeHeuristic g (valueCallbacks valid dist heur) goal) goal)
    (hs : 0 ≤ start ∧ start < (g.length : Int)) (hg : 0 ≤ goal ∧ goal < (g.length : Int))
    (hne : start ≠ goal) :
    ∃ N, ∀ pick fuel limit, N ≤ fuel → ∃ path cost,
      performLazyAstarValues fuel pick g start goal valid dist heur limit = some (.ok (path, cost)) ∧
      Optimal (ValueStep g valid dist) start goal path cost := by
  obtain ⟨N, hN⟩ := C19_optimal g start goal (valueCallbacks valid dist heur) hl (by
      intro n hmem e he
      obtain ⟨i, hi, rfl⟩ := List.mem_iff_getElem.1 hmem
      obtain ⟨m, _, h1, h2⟩ := valueCallbacks_edge (valid := valid) (dist := dist) (heur := heur) hl
        ((nodeAt_nat g i _).2 (List.getElem?_eq_getElem hi)) he
      exact ⟨⟨_, h1⟩, fun _ => ⟨_, h2⟩⟩)
    (fun u v w h => hn u v w ((graphStep_value hl).1 h))
    ⟨fun u c p C hp => had.1 u c p C (hp.mono fun u v w => (graphStep_value hl).1), had.2⟩ hs hg hne
  refine ⟨N, ?_⟩
  intro pick fuel limit hf
  obtain ⟨path, cost, h1, h2⟩ := hN pick fuel limit hf
  exact ⟨path, cost, h1, optimal_congr (fun u v w => graphStep_value hl) h2⟩

/-- C20: the flag changes nothing at all, for the same tie-breaks; also not whether and how the call
throws, or how many rounds it takes. -/
theorem C20_limit_flag (fuel : Nat) (pick : Nat → Nat) (g : Graph ν W) (start goal : Int)
    (cb : Callbacks ν W) : performLazyAstar fuel pick g start goal cb true =
      performLazyAstar fuel pick g start goal cb false :=
  performLazyAstar_limit fuel pick g start goal cb

/-- C20 for the generic search. -/
theorem C20_limit_flag_generic (fuel : Nat) (pick : Nat → Nat) (G : Generic W) (start goal : Int) :
    genericAstarSearch fuel pick G start goal true = genericAstarSearch fuel pick G start goal false := by
  by_cases hne : start = goal
  · unfold genericAstarSearch; rw [if_pos hne, if_pos hne]
  · rw [genericAstarSearch_eq hne, genericAstarSearch_eq hne]

/-- C21: equal ids throw. -/
theorem C21_same_ids (fuel : Nat) (pick : Nat → Nat) (G : Generic W) (start : Int) (limit : Bool) :
    genericAstarSearch fuel pick G start start limit = some (.throws .invalidArgument) := by
  unfold genericAstarSearch; rw [if_pos rfl]

/-- C21: for any callbacks and costs, if the ids met are not negative, a path that is returned leads
from start to goal along valid children, and with non-negative costs it costs at most the number
reported. -/
theorem C21_path (fuel : Nat) (pick : Nat → Nat) (G : Generic W) (start goal : Int) (limit : Bool)
    (hids : ∀ p u C, Path G.Step start 0 p u C → 0 ≤ u) (path : List Int) (cost : W)
    (hr : genericAstarSearch fuel pick G start goal limit = some (.ok (path, cost))) :
    (path = [] ∧ cost = Cost.inf) ∨
      (path.head? = some start ∧ path.getLast? = some goal ∧
        ∃ C, Path G.Step start 0 path goal C ∧ (NonNegative G.Step → C ≤ cost)) := by
  have hne : start ≠ goal := by
    rintro rfl
    rw [C21_same_ids] at hr
    cases hr
  rw [genericAstarSearch_eq hne] at hr
  split at hr
  · cases hr
  · rename_i ex' h1
    have hP : NonNegIds (genericSucc G) start (fun u => ∃ p C, Path G.Step start 0 p u C) :=
      ⟨⟨_, _, .here _ _⟩, fun u v w ⟨p, C, hp⟩ hs => ⟨_, _, hp.snoc (genericSucc_step.1 hs)⟩,
        fun u ⟨p, C, hp⟩ _ => hids p u C hp⟩
    rcases extract_path hP hne (search_hist hne h1) hr with ⟨h3, h4, _⟩ | ⟨_, C, h3, h4⟩
    · exact Or.inl ⟨h3, h4⟩
    · right
      have hp := h3.mono (fun u v w h => genericSucc_step.1 h)
      exact ⟨hp.ends.1, hp.ends.2, C, hp, fun hn => h4 (fun u v w h => hn u v w (genericSucc_step.1 h))⟩

theorem generic_core {G : Generic W} {start goal : Int} (hne : start ≠ goal)
    (hn : NonNegative G.Step) {S : List Int} (h0 : start ∈ S)
    (hS : ∀ u v w, u ∈ S → G.Step u v w → v ∈ S) (hids : ∀ u ∈ S, 0 ≤ u) :
    ∃ N, ∀ pick fuel limit, N ≤ fuel → ∃ x ex' path cost,
      coreLoop (genericSucc G) (fun u => G.heuristic u goal) goal pick fuel 0
        [⟨start, -1, 0, x⟩] [] = some ex' ∧
      extractAstarResult fuel ex' start goal = some (.ok (path, cost)) ∧
      genericAstarSearch fuel pick G start goal limit = some (.ok (path, cost)) := by
  have hn' : NonNegative (genericSucc G).step := fun u v w h => hn u v w (genericSucc_step.1 h)
  have hS' : ∀ u v w, u ∈ S → (v, w) ∈ genericSucc G u → v ∈ S :=
    fun u v w hu h => hS u v w hu (genericSucc_step.1 h)
  obtain ⟨N, hN⟩ := search_terminates (h := fun u => G.heuristic u goal) hne hn' h0 hS'
  refine ⟨N, ?_⟩
  intro pick fuel limit hf
  obtain ⟨ex', h1, h2⟩ := hN pick fuel (G.heuristic start goal) hf
  have hP : NonNegIds (genericSucc G) start (fun u => u ∈ S) := ⟨h0, hS', fun u hu _ => hids u hu⟩
  obtain ⟨path, cost, h3⟩ := extract_ok hP hne hn' (search_hist hne h1) h2
  exact ⟨_, ex', path, cost, h1, h3, by rw [genericAstarSearch_eq hne, h1]; exact h3⟩

/-- C21: on finitely many states with non-negative ids and costs the search terminates and returns a
path exactly when there is one, whatever the heuristic. -/
theorem C21_complete (G : Generic W) (start goal : Int) (hne : start ≠ goal)
    (hn : NonNegative G.Step) (S : List Int) (h0 : start ∈ S)
    (hS : ∀ u v w, u ∈ S → G.Step u v w → v ∈ S) (hids : ∀ u ∈ S, 0 ≤ u) :
    ∃ N, ∀ pick fuel limit, N ≤ fuel → ∃ path cost,
      genericAstarSearch fuel pick G start goal limit = some (.ok (path, cost)) ∧
      Complete G.Step start goal path cost := by
  obtain ⟨N, hN⟩ := generic_core hne hn h0 hS hids
  refine ⟨N, ?_⟩
  intro pick fuel limit hf
  obtain ⟨x, ex', path, cost, h1, h2, h3⟩ := hN pick fuel limit hf
  have hP : NonNegIds (genericSucc G) start (fun u => u ∈ S) :=
    ⟨h0, fun u v w hu h => hS u v w hu (genericSucc_step.1 h), fun u hu _ => hids u hu⟩
  exact ⟨path, cost, h3, complete_congr (fun u v w => genericSucc_step)
    (search_complete hP hne (fun u v w h => hn u v w (genericSucc_step.1 h)) h1 h2)⟩

/-- C21: with an admissible heuristic the path is a cheapest one and its cost is the number
reported. -/
theorem C21_optimal (G : Generic W) (start goal : Int) (hne : start ≠ goal)
    (hn : NonNegative G.Step) (had : Admissible G.Step (fun u => G.heuristic u goal) goal)
    (S : List Int) (h0 : start ∈ S)
    (hS : ∀ u v w, u ∈ S → G.Step u v w → v ∈ S) (hids : ∀ u ∈ S, 0 ≤ u) :
    ∃ N, ∀ pick fuel limit, N ≤ fuel → ∃ path cost,
      genericAstarSearch fuel pick G start goal limit = some (.ok (path, cost)) ∧
      Optimal G.Step start goal path cost := by
  obtain ⟨N, hN⟩ := generic_core hne hn h0 hS hids
  refine ⟨N, ?_⟩
  intro pick fuel limit hf
  obtain ⟨x, ex', path, cost, h1, h2, h3⟩ := hN pick fuel limit hf
  have hP : NonNegIds (genericSucc G) start (fun u => u ∈ S) :=
    ⟨h0, fun u v w hu h => hS u v w hu (genericSucc_step.1 h), fun u hu _ => hids u hu⟩
  exact ⟨path, cost, h3, optimal_congr (fun u v w => genericSucc_step)
    (search_optimal hP hne (fun u v w h => hn u v w (genericSucc_step.1 h))
      ⟨fun u c p C hp => had.1 u c p C (hp.mono fun u v w => genericSucc_step.1), had.2⟩ h1 h2)⟩

/-! ## Concrete cases -/

/-- One step from -5 to 3 of cost 1. -/
def negativeIds : Generic Dist where
  children u := if u = -5 then [3] else []
  valid _ _ := true
  distance _ _ := 1
  heuristic _ _ := 0

/-- Why C21 asks for non-negative ids: with a negative start id, the path returned does not contain
the start. -/
theorem C21_negative_ids_lose_start :
    Path negativeIds.Step (-5) 0 [-5, 3] 3 (0 + 1) ∧
    ∀ pick : Nat → Nat, ∀ fuel limit, 2 ≤ fuel →
      genericAstarSearch fuel pick negativeIds (-5) 3 limit = some (.ok ([3], 1)) := by
  constructor
  · exact .cons ⟨by simp [negativeIds], rfl, rfl⟩ (.here _ _)
  · intro pick fuel limit hf
    obtain ⟨n, rfl⟩ : ∃ n, fuel = n + 2 := ⟨fuel - 2, by omega⟩
    rw [genericAstarSearch_eq (by decide), coreLoop_start (by decide)]
    have hpush : pushes (fun u => negativeIds.heuristic u 3) [((-5 : Int), ((-1 : Int), (0 : Dist)))]
        ⟨-5, -1, 0, negativeIds.heuristic (-5) 3⟩ (genericSucc negativeIds (-5)) = [⟨3, -5, 1, 1⟩] := by
      decide
    rw [hpush]
    unfold coreLoop
    simp only [popMin_single, if_true]
    unfold extractAstarResult
    have hl : List.lookup (3 : Int) [((3 : Int), ((-5 : Int), (1 : Dist))), (-5, (-1, 0))] =
        some (-5, 1) := by decide
    simp only [hl]
    unfold followBack
    simp

/-- A detour 0 → 1 → 2 of cost 5 beside a direct edge of cost 9, an edge without finite weight, and
a node with no way in. -/
def sample : Graph Nat Dist := history .inf
  [.addNode 0, .addNode 1, .addNode 2, .addNode 3, .addEdge 0 1 2, .addEdge 1 2 3,
   .addEdge 0 2 9, .addEdge 3 0 1, .addEdge 0 3 .inf]

example : Linked sample := (inv_history _ _).linked
example : performAstar 20 (fun _ => 0) sample 0 2 (fun _ _ => 0) true = some (.ok ([0, 1, 2], 5)) := by
  decide +kernel
example : performAstar 20 (fun _ => 0) sample 0 3 (fun _ _ => 0) false = some (.ok ([], .inf)) := by
  decide +kernel
example : NonNegative (WeightStep sample) := by
  intro u v w _
  cases w <;> rfl
/-- The zero heuristic is admissible. -/
example : Admissible (WeightStep sample)
    (nodeHeuristic sample (weightCallbacks fun _ _ => 0) 2) 2 := by
  have h0 : ∀ u, nodeHeuristic sample (weightCallbacks fun _ _ => (0 : Dist)) 2 u = 0 := by
    intro u; unfold nodeHeuristic; split <;> rfl
  refine ⟨?_, by rw [h0]⟩
  intro u c p C hp
  rw [h0]
  have hadd : ∀ c : Dist, c + 0 = c := by intro c; cases c <;> rfl
  rw [hadd]
  generalize (2 : Int) = t at hp
  induction hp with
  | here => exact le_refl _
  | cons _ _ ih =>
    rename_i w c _ _ _ _
    exact le_trans (Cost.le_add c (by cases w <;> rfl)) ih

/-- A line of states 0, 1, 2, 3. -/
def line : Generic Dist where
  children u := if u < 3 then [u + 1, u] else []
  valid _ _ := true
  distance _ _ := 2
  heuristic u _ := .fin (3 - u.toNat)

example : genericAstarSearch 20 (fun _ => 0) line 0 3 true = some (.ok ([0, 1, 2, 3], 6)) := by
  decide +kernel

end Verif.Astar
