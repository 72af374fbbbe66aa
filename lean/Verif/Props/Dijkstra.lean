import Verif.Lemmas.Dijkstra

/-!
# Properties C16 and C17 (SimpleDijkstrasAlgorithm)

`pick` ranges over every way the priority queue can order entries of equal distance.
-/
namespace Verif.Dijkstra
open Verif Verif.Graph

variable {ν W : Type} [Cost W]

omit [Cost W] in
/-- A consistent graph has its in edges in range. -/
theorem inInRange_of_linked {g : Graph ν W} (h : Linked g) : InInRange g := by
  intro n hn e he
  obtain ⟨i, hi, rfl⟩ := List.mem_iff_getElem.1 hn
  obtain ⟨_, _, m, hm, _⟩ := (h i _ ((nodeAt_nat g i _).2 (List.getElem?_eq_getElem hi))).1 e he
  exact hm.range

theorem Walk.route {g : Graph ν W} {prev : List Int} {start : Nat} {vs : List Nat} {c : W}
    (h : Walk g prev start vs c) : ∀ v, vs.head? = some v → Route g start v c := by
  induction h with
  | here => intro v hv; simp at hv; subst hv; exact .here
  | step _ he _ ih => intro v hv; simp at hv; subst hv; exact .step (ih _ rfl) he

theorem Walk.ends {g : Graph ν W} {prev : List Int} {start : Nat} {vs : List Nat} {c : W}
    (h : Walk g prev start vs c) : vs.getLast? = some start := by
  induction h with
  | here => rfl
  | step _ _ _ ih => rw [List.getLast?_cons_cons]; exact ih

/-- C16: the call returns; the distance of every node is a lower bound on the cost of every route
to the start, and is infinity or the cost of such a route. The returned graph is the given one with
these distances stored. -/
theorem C16_shortest_distances (pick : Nat → Nat) (g : Graph ν W) (start : Nat)
    (hl : Linked g) (hn : NonNegative g) (hstart : start < g.length) :
    ∃ g' prev dist, performDijkstras pick g (start : Int) = some (.ok (g', prev, dist)) ∧
      dist.length = g.length ∧ g'.length = g.length ∧
      ∀ v n, g[v]? = some n → ∃ d, dist[v]? = some d ∧
        (∀ c, Route g start v c → d ≤ c) ∧ (d = Cost.inf ∨ Route g start v d) ∧
        g'[v]? = some { n with distance := d } := by
  obtain ⟨s, h1, h2, h3, h4⟩ := dijkstra_final (inInRange_of_linked hl) hn hstart pick
  refine ⟨_, _, _, h1, h2.lenD, ?_, ?_⟩
  · have hw : ∀ v : Nat, s.working[v]? = none ↔ g[v]? = none := by
      intro v; rw [h2.work v]; exact Option.map_eq_none_iff
    have a := (hw g.length).2 (List.getElem?_eq_none (Nat.le_refl _))
    have b := (hw s.working.length).1 (List.getElem?_eq_none (Nat.le_refl _))
    rw [List.getElem?_eq_none_iff] at a b
    omega
  · intro v n hv
    have hvl : v < g.length := (List.getElem?_eq_some_iff.1 hv).1
    have hvl' : v < s.distances.length := by rw [h2.lenD]; exact hvl
    refine ⟨D s v, ?_, fun c hc => route_lower h2 h4 hc, ?_, ?_⟩
    · unfold D
      rw [List.getD_eq_getElem?_getD, List.getElem?_eq_getElem hvl', Option.getD_some]
    · by_cases hinf : D s v = Cost.inf
      · exact Or.inl hinf
      · right
        obtain ⟨l1, l2, hl12⟩ := List.append_of_mem (h3 v hvl)
        obtain ⟨vs, g1, g2, _, _⟩ := walk_of h2 hn v l1 l2 hl12 hvl (Or.inr hinf)
        exact g2.route v g1
    · rw [h2.work v, hv]; rfl

theorem route_finite [NoOverflow W] {g : Graph ν W} {start : Nat}
    (hf : ∀ n ∈ g, ∀ e ∈ n.inEdges, e.weight < Cost.inf) {v : Nat} {c : W} (h : Route g start v c) :
    c < Cost.inf := by
  induction h with
  | here => exact NoOverflow.zero_lt
  | step _ he ih =>
    obtain ⟨n, hu, e, hmem, _, rfl⟩ := he
    exact NoOverflow.add_lt ih (hf n (List.mem_of_getElem? hu) e hmem)

/-- C16: with finite weights (and no overflow) the distance is infinity exactly when there is no
route to the start. -/
theorem C16_infinity_iff_unreachable [NoOverflow W] (pick : Nat → Nat) (g : Graph ν W) (start : Nat)
    (hl : Linked g) (hn : NonNegative g) (hf : ∀ n ∈ g, ∀ e ∈ n.inEdges, e.weight < Cost.inf)
    (hstart : start < g.length) :
    ∃ g' prev dist, performDijkstras pick g (start : Int) = some (.ok (g', prev, dist)) ∧
      ∀ v, v < g.length → (dist[v]? = some Cost.inf ↔ ∀ c, ¬ Route g start v c) := by
  obtain ⟨g', prev, dist, h1, _, _, h2⟩ := C16_shortest_distances pick g start hl hn hstart
  refine ⟨g', prev, dist, h1, ?_⟩
  intro v hv
  obtain ⟨d, e1, e2, e3, _⟩ := h2 v _ (List.getElem?_eq_getElem hv)
  rw [e1]
  constructor
  · intro h c hc
    injection h with h
    have := e2 c hc
    rw [h] at this
    exact absurd (route_finite hf hc) (not_lt_of_ge this)
  · intro h
    rcases e3 with e3 | e3
    · rw [e3]
    · exact absurd e3 (h d)

omit [Cost W] in
/-- In a graph whose two copies of every edge agree (C11), the edges into a node are the out edges
of their sources. -/
theorem C16_edges_are_out_edges {g : Graph ν W} (hl : Linked g) (hm : Mirrored g) (v u : Nat) (w : W) :
    EdgeInto g v u w ↔ ∃ n, g[v]? = some n ∧ ∃ e ∈ n.outEdges, e.toIndex = (u : Int) ∧ e.weight = w := by
  constructor
  · rintro ⟨n, hn, e, he, hv, hw⟩
    have hn' := (nodeAt_nat g u n).2 hn
    obtain ⟨h1, h2, m, hm', _⟩ := (hl _ n hn').1 e he
    rw [hv] at hm'
    have : e ∈ n.inEdges.filter (fun x => decide (x.fromIndex = (v : Int))) := by simp [he, hv]
    rw [← hm _ _ m n hm' hn'] at this
    simp at this
    exact ⟨m, (nodeAt_nat g v m).1 hm', e, this.1, h1, hw⟩
  · rintro ⟨n, hn, e, he, hv, hw⟩
    have hn' := (nodeAt_nat g v n).2 hn
    obtain ⟨h1, h2, m, hm', _⟩ := (hl _ n hn').2 e he
    rw [hv] at hm'
    have : e ∈ n.outEdges.filter (fun x => decide (x.toIndex = (u : Int))) := by simp [he, hv]
    rw [hm _ _ n m hn' hm'] at this
    simp at this
    exact ⟨m, (nodeAt_nat g u m).1 hm', e, this.1, h1, hw⟩

/-- C17: from a node whose distance is not infinity, following the predecessor indices walks along
edges to the start without repeating a node, so in fewer steps than there are nodes, and the cost of
that walk is the reported distance. -/
theorem C17_predecessors (pick : Nat → Nat) (g : Graph ν W) (start : Nat)
    (hl : Linked g) (hn : NonNegative g) (hstart : start < g.length) :
    ∃ g' prev dist, performDijkstras pick g (start : Int) = some (.ok (g', prev, dist)) ∧
      prev.length = g.length ∧ prev[start]? = some (start : Int) ∧ dist[start]? = some 0 ∧
      ∀ v d, dist[v]? = some d →
        (d ≠ Cost.inf → ∃ vs, vs.head? = some v ∧ vs.Nodup ∧ vs.length ≤ g.length ∧
          vs.getLast? = some start ∧ Walk g prev start vs d) ∧
        (d = Cost.inf → v ≠ start → prev[v]? = some (-1)) := by
  obtain ⟨s, h1, h2, h3, h4⟩ := dijkstra_final (inInRange_of_linked hl) hn hstart pick
  have hprev : ∀ v, v < g.length → s.previous[v]? = some (P s v) := by
    intro v hv
    have hvl' : v < s.previous.length := by rw [h2.lenP]; exact hv
    unfold P
    rw [List.getD_eq_getElem?_getD, List.getElem?_eq_getElem hvl', Option.getD_some]
  have hdist : ∀ v, v < g.length → s.distances[v]? = some (D s v) := by
    intro v hv
    have hvl' : v < s.distances.length := by rw [h2.lenD]; exact hv
    unfold D
    rw [List.getD_eq_getElem?_getD, List.getElem?_eq_getElem hvl', Option.getD_some]
  refine ⟨_, _, _, h1, h2.lenP, by rw [hprev start hstart, h2.startP],
    by rw [hdist start hstart, h2.start0], ?_⟩
  intro v d hd
  have hv : v < g.length := by rw [← h2.lenD]; exact (List.getElem?_eq_some_iff.1 hd).1
  rw [hdist v hv] at hd
  injection hd with hd
  subst hd
  constructor
  · intro hinf
    obtain ⟨l1, l2, hl12⟩ := List.append_of_mem (h3 v hv)
    obtain ⟨vs, g1, g2, g3, g4⟩ := walk_of h2 hn v l1 l2 hl12 hv (Or.inr hinf)
    refine ⟨vs, g1, g3, ?_, ?_, g2⟩
    · have hsub : vs ⊆ List.range g.length := by
        intro x hx
        obtain ⟨y, hy1, hy2⟩ := h2.exr (x : Int) (by
          rw [hl12]; exact List.mem_append_right _ (g4 x hx))
        exact List.mem_range.2 (by omega)
      have := List.Nodup.length_le_of_subset g3 hsub
      simpa using this
    · exact g2.ends
  · intro hinf hvs
    rw [hprev v hv, h2.unreached v hv hvs hinf]

/-- C17: an out-of-range start index throws, whatever the graph. -/
theorem C17_bad_start (pick : Nat → Nat) (g : Graph ν W) (start : Int)
    (h : start < 0 ∨ start ≥ (g.length : Int)) :
    performDijkstras pick g start = some (.throws .invalidArgument) := by
  unfold performDijkstras; rw [if_pos h]

/-- Three nodes in a line with a more expensive shortcut, and one that cannot reach node 0. -/
def sample : Graph Unit Dist := history .inf
  [.addNode (), .addNode (), .addNode (), .addNode (), .addEdge 1 0 2, .addEdge 2 1 3,
   .addEdge 2 0 9, .addEdge 0 3 1, .addEdge 1 2 0]

example : Linked sample := (inv_history _ _).linked
example : NonNegative sample := by
  intro n _ e _
  cases e.weight <;> rfl
example : (performDijkstras (fun _ => 0) sample 0).map (fun o => match o with
    | .ok r => some r.2 | _ => none) = some (some ([0, 0, 1, -1], [0, 2, 5, .inf])) := by decide +kernel
example : Route sample 0 2 (0 + 2 + 3) :=
  .step (.step .here ⟨_, rfl, ⟨1, 0, 2, UNKNOWN⟩, by decide, rfl, rfl⟩)
    ⟨_, rfl, ⟨2, 1, 3, UNKNOWN⟩, by decide, rfl, rfl⟩

end Verif.Dijkstra
