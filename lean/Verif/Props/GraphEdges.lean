import Verif.Lemmas.GraphEdges

/-!
# Property C166 (graph.hpp): what a history of insertions leaves in a graph, and which edge is found
-/
namespace Verif.Graph
open Verif

variable {ν W : Type}

/-- C166: after every history of insertions, including calls that throw, the graph is the one with the nodes
and edges put in, each node listing its edges in the order of insertion, all of validity UNKNOWN. -/
theorem C166_history (inf : W) (edits : List (Edit ν W)) :
    history inf edits = (contents inf edits).graph := (history_contents inf edits).1

/-- C166: `indexInRange` says exactly whether `getNode` returns a node; it throws `std::out_of_range`
otherwise. -/
theorem C166_index_in_range (g : Graph ν W) (i : Int) :
    (indexInRange g i = true → ∃ n, NodeAt g i n ∧ getNode g i = .ok n) ∧
    (indexInRange g i = false → (∀ n, ¬ NodeAt g i n) ∧ getNode g i = .throws .outOfRange) := by
  constructor
  · intro h
    simp only [indexInRange, Bool.and_eq_true, decide_eq_true_eq] at h
    obtain ⟨n, hn⟩ := nodeAt_of_range h.1 h.2
    exact ⟨n, hn, getNode_at hn⟩
  · intro h
    have hb : ¬ (0 ≤ i ∧ i < (g.length : Int)) := by
      rintro ⟨h0, h1⟩
      simp [indexInRange, h0, h1] at h
    exact ⟨fun n hn => hb hn.range, getNode_bad hb⟩

/-- C166: on every graph `getEdge(i, j)` throws `std::out_of_range` when `i` is no node, returns the first
out edge of node `i` that leads to `j`, and throws `std::invalid_argument` when there is none; `j` may be
anything. -/
theorem C166_get_edge (g : Graph ν W) (i j : Int) :
    ((∀ n, ¬ NodeAt g i n) → getEdge g i j = .throws .outOfRange) ∧
    ∀ n, NodeAt g i n →
      (∀ k e, FirstTo n j k e → getEdge g i j = .ok e) ∧
      ((∀ e ∈ n.outEdges, e.toIndex ≠ j) → getEdge g i j = .throws .invalidArgument) := by
  refine ⟨?_, ?_⟩
  · intro h
    have hb : ¬ (0 ≤ i ∧ i < (g.length : Int)) := by
      rintro ⟨h0, h1⟩
      obtain ⟨n, hn⟩ := nodeAt_of_range h0 h1
      exact h n hn
    unfold getEdge
    rw [getNode_bad hb]
    rfl
  · intro n hn
    refine ⟨fun k e h => getEdge_first hn h, ?_⟩
    intro h
    rw [getEdge_find hn]
    have : n.outEdges.find? (fun e => decide (e.toIndex = j)) = none := by
      rw [List.find?_eq_none]
      intro e he
      simpa using h e he
    rw [this]

theorem find_new (es : List (Int × Int × W)) (i j : Int) :
    ((es.filter fun e => decide (e.1 = i)).map newEdge).find? (fun e => decide (e.toIndex = j)) =
      (es.find? fun e => decide (e.1 = i) && decide (e.2.1 = j)).map newEdge := by
  induction es with
  | nil => rfl
  | cons e es ih =>
    by_cases h1 : e.1 = i <;> by_cases h2 : e.2.1 = j <;>
      simp [List.filter_cons, List.find?_cons, h1, h2, newEdge] at ih ⊢ <;> exact ih

/-- C166: after every history, `getEdge(i, j)` is the first edge that was put in from `i` to `j`. -/
theorem C166_get_edge_history (inf : W) (edits : List (Edit ν W)) (i j : Int) :
    getEdge (history inf edits) i j =
      if 0 ≤ i ∧ i < ((contents inf edits).nodes.length : Int) then
        match (contents inf edits).edges.find? (fun e => decide (e.1 = i) && decide (e.2.1 = j)) with
        | some e => .ok ⟨i, j, e.2.2, UNKNOWN⟩
        | none => .throws .invalidArgument
      else .throws .outOfRange := by
  rw [C166_history]
  generalize contents inf edits = c
  by_cases hi : 0 ≤ i ∧ i < (c.nodes.length : Int)
  · rw [if_pos hi]
    obtain ⟨x, hx⟩ : ∃ x, c.nodes[i.toNat]? = some x :=
      ⟨_, List.getElem?_eq_getElem (show i.toNat < c.nodes.length by omega)⟩
    have hn := graph_get c i.toNat
    rw [hx, Option.map_some] at hn
    rw [Int.toNat_of_nonneg hi.1] at hn
    rw [getEdge_find ⟨hi.1, hn⟩, find_new]
    cases hf : c.edges.find? (fun e => decide (e.1 = i) && decide (e.2.1 = j)) with
    | none => rfl
    | some e =>
      have := List.find?_some hf
      simp only [Bool.and_eq_true, decide_eq_true_eq] at this
      simp [newEdge, this.1, this.2]
  · rw [if_neg hi]
    unfold getEdge
    rw [getNode_bad (by rwa [graph_length])]
    rfl

theorem find_two_way (inf : W) (edits : List (Edit ν W)) (h : ∀ x ∈ edits, x.TwoWay) (i j : Int) :
    ((contents inf edits).edges.find? fun e => decide (e.1 = i) && decide (e.2.1 = j)).map (·.2.2) =
      ((contents inf edits).edges.find? fun e => decide (e.1 = j) && decide (e.2.1 = i)).map (·.2.2) := by
  unfold contents
  have : ∀ c : Contents ν W,
      ((c.edges.find? fun e => decide (e.1 = i) && decide (e.2.1 = j)).map (·.2.2) =
        (c.edges.find? fun e => decide (e.1 = j) && decide (e.2.1 = i)).map (·.2.2)) →
      ((edits.foldl (Contents.after inf) c).edges.find?
          fun e => decide (e.1 = i) && decide (e.2.1 = j)).map (·.2.2) =
        ((edits.foldl (Contents.after inf) c).edges.find?
          fun e => decide (e.1 = j) && decide (e.2.1 = i)).map (·.2.2) := by
    induction edits with
    | nil => intro c hc; exact hc
    | cons x xs ih =>
      intro c hc
      rw [List.foldl_cons]
      refine ih (fun y hy => h y (List.mem_cons_of_mem _ hy)) _ ?_
      have hx := h x List.mem_cons_self
      cases x with
      | addNode v => exact hc
      | addNodeObject v d => exact hc
      | addEdge a b w => exact hx.elim
      | addEdges a b w =>
        simp only [Contents.after]
        by_cases hj : c.Joins a b
        · rw [if_pos hj]
          simp only [List.find?_append]
          cases h1 : c.edges.find? (fun e => decide (e.1 = i) && decide (e.2.1 = j)) <;>
            cases h2 : c.edges.find? (fun e => decide (e.1 = j) && decide (e.2.1 = i)) <;>
            rw [h1, h2] at hc <;> simp at hc
          · simp only [Option.none_or, List.find?_cons]
            by_cases ha : a = i <;> by_cases hb : b = j <;> by_cases ha' : a = j <;> by_cases hb' : b = i <;>
              simp [ha, hb, ha', hb'] <;> simp_all
          · simpa using hc
        · rw [if_neg hj]; exact hc
  exact this ⟨[], []⟩ rfl

/-- C166: in a graph built with edges in both directions only, the edge `getReverseEdge` finds for an edge
found by `getEdge` is its partner: the opposite direction and the same weight. -/
theorem C166_reverse (inf : W) (edits : List (Edit ν W)) (h : ∀ x ∈ edits, x.TwoWay) (i j : Int) (e : Edge W)
    (he : getEdge (history inf edits) i j = .ok e) :
    e.fromIndex = i ∧ e.toIndex = j ∧
      getReverseEdge (history inf edits) e = .ok ⟨j, i, e.weight, UNKNOWN⟩ := by
  have hc := (history_contents inf edits).2
  have h2 := find_two_way inf edits h i j
  have h1 := C166_get_edge_history inf edits i j
  rw [he] at h1
  unfold getReverseEdge
  by_cases hi : 0 ≤ i ∧ i < ((contents inf edits).nodes.length : Int)
  · rw [if_pos hi] at h1
    cases hf : (contents inf edits).edges.find? (fun e => decide (e.1 = i) && decide (e.2.1 = j)) with
    | none => rw [hf] at h1; cases h1
    | some x =>
      rw [hf] at h1 h2
      injection h1 with h1
      subst h1
      refine ⟨rfl, rfl, ?_⟩
      have hr := (hc x (List.mem_of_find?_eq_some hf)).2
      have hx := List.find?_some hf
      simp only [Bool.and_eq_true, decide_eq_true_eq] at hx
      rw [hx.2] at hr
      show getEdge (history inf edits) j i = _
      rw [C166_get_edge_history, if_pos hr]
      cases hg : (contents inf edits).edges.find? (fun e => decide (e.1 = j) && decide (e.2.1 = i)) with
      | none => rw [hg] at h2; simp at h2
      | some y =>
        rw [hg] at h2
        simp only [Option.map_some, Option.some.injEq] at h2
        simp [h2]
  · rw [if_neg hi] at h1; cases h1

/-- Two-way insertions, with a rejected call in between. -/
def twoWayEdits : List (Edit Nat Nat) :=
  [.addNode 7, .addNode 8, .addNode 9, .addEdges 0 1 3, .addEdges 1 3 4, .addEdges 1 2 5]

example : (∀ x ∈ twoWayEdits, x.TwoWay) ∧ getEdge (history 100 twoWayEdits) 1 2 = .ok ⟨1, 2, 5, UNKNOWN⟩ :=
  ⟨by simp [twoWayEdits, Edit.TwoWay], by decide⟩
example : getReverseEdge (history 100 twoWayEdits) ⟨1, 2, 5, UNKNOWN⟩ = .ok ⟨2, 1, 5, UNKNOWN⟩ := by decide
example : getEdge (history 100 twoWayEdits) 0 2 = .throws .invalidArgument := by decide
example : getEdge (history 100 twoWayEdits) (-1) 2 = .throws .outOfRange := by decide
example : (contents 100 twoWayEdits).edges = [(0, 1, 3), (1, 0, 3), (1, 2, 5), (2, 1, 5)] := by decide
example : FirstTo (⟨0, 0, [], [⟨0, 2, 5, UNKNOWN⟩, ⟨0, 1, 3, UNKNOWN⟩, ⟨0, 1, 9, UNKNOWN⟩]⟩ : Node Nat Nat)
    1 1 ⟨0, 1, 3, UNKNOWN⟩ := by
  refine ⟨rfl, rfl, ?_⟩
  intro k' e' hk he
  obtain rfl : k' = 0 := by omega
  cases he
  decide

/-- C166: the partner is not always there or not the one found. With an edge in one direction only,
`getReverseEdge` throws; with two pairs of edges between the same nodes it finds, for an edge of the second
pair, the edge of the first, which has another weight. -/
theorem C166_reverse_wrong :
    (∃ (edits : List (Edit Nat Nat)) (e : Edge Nat), getEdge (history 100 edits) 0 1 = .ok e ∧
      getReverseEdge (history 100 edits) e = .throws .invalidArgument) ∧
    (∃ (edits : List (Edit Nat Nat)) (n : Node Nat Nat) (e : Edge Nat), (∀ x ∈ edits, x.TwoWay) ∧
      NodeAt (history 100 edits) 0 n ∧ e ∈ n.outEdges ∧ e.weight = 9 ∧
      getReverseEdge (history 100 edits) e = .ok ⟨1, 0, 3, UNKNOWN⟩) := by
  refine ⟨⟨[.addNode 7, .addNode 8, .addEdge 0 1 3], ⟨0, 1, 3, UNKNOWN⟩, by decide, by decide⟩,
    ⟨[.addNode 7, .addNode 8, .addEdges 0 1 3, .addEdges 0 1 9],
      ⟨7, 100, [⟨1, 0, 3, UNKNOWN⟩, ⟨1, 0, 9, UNKNOWN⟩], [⟨0, 1, 3, UNKNOWN⟩, ⟨0, 1, 9, UNKNOWN⟩]⟩,
      ⟨0, 1, 9, UNKNOWN⟩, by simp [Edit.TwoWay], ⟨by decide, by decide⟩, by decide, rfl, by decide⟩⟩

end Verif.Graph
