import Verif.Lemmas.Graph
import Verif.Model.GraphEdges
import Verif.Spec.GraphEdges
namespace Verif.Graph
open Verif

variable {ν W : Type}

/-! ## Histories -/

theorem graph_length (c : Contents ν W) : c.graph.length = c.nodes.length := by
  simp [Contents.graph]

theorem graph_get (c : Contents ν W) (v : Nat) : c.graph[v]? = (c.nodes[v]?).map fun x =>
    ⟨x.1, x.2, (c.edges.filter fun e => decide (e.2.1 = (v : Int))).map newEdge,
      (c.edges.filter fun e => decide (e.1 = (v : Int))).map newEdge⟩ := by
  simp [Contents.graph, List.getElem?_mapIdx]

/-- The edges lead from and to nodes that are there. -/
def Contents.InRange (c : Contents ν W) : Prop :=
  ∀ e ∈ c.edges, (0 ≤ e.1 ∧ e.1 < (c.nodes.length : Int)) ∧ (0 ≤ e.2.1 ∧ e.2.1 < (c.nodes.length : Int))

theorem graph_addNode (c : Contents ν W) (hc : c.InRange) (x : ν × W) :
    ({ c with nodes := c.nodes ++ [x] } : Contents ν W).graph = c.graph ++ [⟨x.1, x.2, [], []⟩] := by
  have e1 : c.edges.filter (fun e => decide (e.2.1 = (c.nodes.length : Int))) = [] := by
    rw [List.filter_eq_nil_iff]
    intro e he h
    have := (hc e he).2
    simp at h
    omega
  have e2 : c.edges.filter (fun e => decide (e.1 = (c.nodes.length : Int))) = [] := by
    rw [List.filter_eq_nil_iff]
    intro e he h
    have := (hc e he).1
    simp at h
    omega
  simp [Contents.graph, List.mapIdx_append, e1, e2]

theorem graph_addEdge (c : Contents ν W) (i j : Int) (w : W) :
    (c.Joins i j → ∃ k, addEdgeBetweenNodes i j w c.graph =
      (.ok k, ({ c with edges := c.edges ++ [(i, j, w)] } : Contents ν W).graph)) ∧
    (¬ c.Joins i j → ∃ e, addEdgeBetweenNodes i j w c.graph = (.throws e, c.graph)) := by
  constructor
  · rintro ⟨hi, hj, hne⟩
    rw [← graph_length] at hi hj
    obtain ⟨k, g', h1, h2, _⟩ := addEdge_ok (w := w) hi hj hne
    refine ⟨k, ?_⟩
    rw [h1]
    congr 1
    apply List.ext_getElem?
    intro v
    rw [h2 v, graph_get, graph_get, Option.map_map]
    cases c.nodes[v]? with
    | none => rfl
    | some x =>
      simp only [Option.map_some, Function.comp, withEdge, List.filter_append, List.map_append,
        List.filter_cons, List.filter_nil, Option.some.injEq]
      have e1 : (i = (v : Int)) = ((v : Int) = i) := propext ⟨Eq.symm, Eq.symm⟩
      have e2 : (j = (v : Int)) = ((v : Int) = j) := propext ⟨Eq.symm, Eq.symm⟩
      by_cases h1 : (v : Int) = i <;> by_cases h2 : (v : Int) = j <;>
        simp [e1, e2, h1, h2, newEdge, Edge.make] <;> simp_all
  · intro h
    by_cases hi : 0 ≤ i ∧ i < (c.graph.length : Int)
    · by_cases hj : 0 ≤ j ∧ j < (c.graph.length : Int)
      · refine ⟨_, addEdge_self hi ?_⟩
        refine Classical.byContradiction fun hne => h ⟨?_, ?_, hne⟩
        · rwa [graph_length] at hi
        · rwa [graph_length] at hj
      · exact ⟨_, addEdge_bad_to hi hj⟩
    · exact ⟨_, addEdge_bad_from hi⟩

theorem run_graph (inf : W) (c : Contents ν W) (hc : c.InRange) (e : Edit ν W) :
    e.run inf c.graph = (c.after inf e).graph ∧ (c.after inf e).InRange := by
  have hn : ∀ x, ({ c with nodes := c.nodes ++ [x] } : Contents ν W).InRange := by
    intro x e he
    have := hc e he
    simp only [List.length_append, List.length_cons, List.length_nil]
    omega
  cases e with
  | addNode v =>
    exact ⟨(graph_addNode c hc (v, inf)).symm, hn _⟩
  | addNodeObject v d =>
    exact ⟨(graph_addNode c hc (v, d)).symm, hn _⟩
  | addEdge i j w =>
    obtain ⟨h1, h2⟩ := graph_addEdge c i j w
    simp only [Edit.run, Contents.after]
    by_cases h : c.Joins i j
    · obtain ⟨k, hk⟩ := h1 h
      rw [hk, if_pos h]
      refine ⟨rfl, ?_⟩
      intro e he
      rcases List.mem_append.1 he with he | he
      · exact hc e he
      · simp at he; subst he; exact ⟨h.1, h.2.1⟩
    · obtain ⟨k, hk⟩ := h2 h
      rw [hk, if_neg h]
      exact ⟨rfl, hc⟩
  | addEdges i j w =>
    obtain ⟨h1, h2⟩ := graph_addEdge c i j w
    simp only [Edit.run, Contents.after]
    by_cases h : c.Joins i j
    · obtain ⟨k, hk⟩ := h1 h
      have hj : ({ c with edges := c.edges ++ [(i, j, w)] } : Contents ν W).Joins j i :=
        ⟨h.2.1, h.1, fun x => h.2.2 x.symm⟩
      obtain ⟨k2, hk2⟩ := (graph_addEdge _ j i w).1 hj
      rw [if_pos h]
      refine ⟨?_, ?_⟩
      · simp only [addEdgesBetweenNodes, M.bind_apply, hk, hk2, M.pure_apply]
        simp
      · intro e he
        rcases List.mem_append.1 he with he | he
        · exact hc e he
        · simp at he
          rcases he with rfl | rfl
          · exact ⟨h.1, h.2.1⟩
          · exact ⟨h.2.1, h.1⟩
    · obtain ⟨k, hk⟩ := h2 h
      rw [if_neg h]
      refine ⟨?_, hc⟩
      simp [addEdgesBetweenNodes, M.bind_apply, hk]

theorem history_contents (inf : W) (edits : List (Edit ν W)) :
    history inf edits = (contents inf edits).graph ∧ (contents inf edits).InRange := by
  unfold history contents
  have : ∀ (c : Contents ν W), c.InRange →
      edits.foldl (fun g e => e.run inf g) c.graph = (edits.foldl (Contents.after inf) c).graph ∧
      (edits.foldl (Contents.after inf) c).InRange := by
    induction edits with
    | nil => intro c hc; exact ⟨rfl, hc⟩
    | cons e es ih =>
      intro c hc
      obtain ⟨h1, h2⟩ := run_graph inf c hc e
      rw [List.foldl_cons, List.foldl_cons, h1]
      exact ih _ h2
  exact this ⟨[], []⟩ (by intro e he; cases he)

/-! ## Finding an edge -/

theorem findEdgeTo_none (t : Int) (es : List (Edge W)) (k0 : Nat) (h : ∀ e ∈ es, e.toIndex ≠ t) :
    findEdgeTo t es k0 = .throws .invalidArgument := by
  induction es generalizing k0 with
  | nil => rfl
  | cons e es ih =>
    unfold findEdgeTo
    rw [if_neg (h e List.mem_cons_self)]
    exact ih _ fun e he => h e (List.mem_cons_of_mem _ he)

theorem getNode_at {g : Graph ν W} {i : Int} {n : Node ν W} (h : NodeAt g i n) :
    getNode g i = .ok n := by
  unfold getNode
  rw [nodePos_ok h.range]
  simp [h.2]

theorem getNode_bad {g : Graph ν W} {i : Int} (h : ¬ (0 ≤ i ∧ i < (g.length : Int))) :
    getNode g i = .throws .outOfRange := by
  unfold getNode
  rw [nodePos_bad h]
  rfl

theorem getEdgeTo_first {n : Node ν W} {j : Int} {k : Nat} {e : Edge W} (h : FirstTo n j k e) :
    n.getEdgeTo j = .ok k := by
  obtain ⟨k', e', h1, h2, h3, h4⟩ := findEdgeTo_spec j n.outEdges 0 ⟨e, List.mem_of_getElem? h.at_, h.to_⟩
  unfold Node.getEdgeTo
  rw [h1]
  congr 1
  rcases Nat.lt_trichotomy k' k with hlt | heq | hgt
  · exact absurd h3 (h.first k' e' hlt h2)
  · omega
  · exact absurd h.to_ (h4 k e hgt h.at_)

theorem firstTo_exists {n : Node ν W} {j : Int} (h : ∃ e ∈ n.outEdges, e.toIndex = j) :
    ∃ k e, FirstTo n j k e := by
  obtain ⟨k, e, _, h2, h3, h4⟩ := findEdgeTo_spec j n.outEdges 0 h
  exact ⟨k, e, h2, h3, h4⟩

theorem getEdge_first {g : Graph ν W} {i j : Int} {n : Node ν W} {k : Nat} {e : Edge W}
    (hn : NodeAt g i n) (h : FirstTo n j k e) : getEdge g i j = .ok e := by
  unfold getEdge
  rw [getNode_at hn, Out.bind_ok, getEdgeTo_first h, Out.bind_ok, h.at_]

theorem getEdge_find {g : Graph ν W} {i j : Int} {n : Node ν W} (hn : NodeAt g i n) :
    getEdge g i j = match n.outEdges.find? (fun e => decide (e.toIndex = j)) with
      | some e => .ok e
      | none => .throws .invalidArgument := by
  by_cases hex : ∃ e ∈ n.outEdges, e.toIndex = j
  · obtain ⟨k, e, h⟩ := firstTo_exists hex
    rw [getEdge_first hn h]
    have : n.outEdges.find? (fun e => decide (e.toIndex = j)) = some e := by
      rw [List.find?_eq_some_iff_getElem]
      obtain ⟨hk, hke⟩ := List.getElem?_eq_some_iff.1 h.at_
      refine ⟨by simp [h.to_], k, hk, hke, ?_⟩
      intro a ha
      have := h.first a _ ha (List.getElem?_eq_getElem (by omega))
      simpa using this
    rw [this]
  · have hno : ∀ e ∈ n.outEdges, e.toIndex ≠ j := fun e he h => hex ⟨e, he, h⟩
    have : n.outEdges.find? (fun e => decide (e.toIndex = j)) = none := by
      rw [List.find?_eq_none]
      intro e he
      simpa using hno e he
    rw [this]
    unfold getEdge Node.getEdgeTo
    rw [getNode_at hn, Out.bind_ok, findEdgeTo_none j _ 0 hno]
    rfl

end Verif.Graph
