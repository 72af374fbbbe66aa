import Verif.Lemmas.Graph
import Verif.Lemmas.GraphComponents
import Verif.Lemmas.GraphSerialization

/-!
# Properties C11-C15 (graph.hpp)
-/
namespace Verif.Graph
open Verif Verif.Serialization Verif.SerializationRos

variable {ν W : Type}

/-- C11: after every history of insertions, including calls that throw, `CheckGraphLinkage`
returns true; moreover the two copies of every edge agree. -/
theorem C11_history_linked (inf : W) (edits : List (Edit ν W)) :
    checkGraphLinkage (history inf edits) = .ok true ∧ Mirrored (history inf edits) := by
  have h := inv_history inf edits
  obtain ⟨b, hb, hi⟩ := checkGraphLinkage_spec (history inf edits)
  rw [hb, hi.2 h.linked]
  exact ⟨rfl, h.mir⟩

/-- C11: a graph accepted by the constructor from nodes, or any consistent graph, stays consistent
under further edits. -/
theorem C11_edit_keeps_linked (inf : W) (g : Graph ν W) (hl : Linked g) (hm : Mirrored g)
    (e : Edit ν W) : Linked (e.run inf g) ∧ Mirrored (e.run inf g) := by
  have h : Inv g := by
    refine ⟨fun i n hn e he => ?_, fun i n hn e he => ?_, hm⟩
    · obtain ⟨h1, h2, m, hm, _⟩ := (hl i n hn).1 e he
      exact ⟨h1, h2, hm.range⟩
    · obtain ⟨h1, h2, m, hm, _⟩ := (hl i n hn).2 e he
      exact ⟨h1, h2, hm.range⟩
  exact ⟨(h.run e).linked, (h.run e).mir⟩

/-- Two nodes joined both ways, with a failed insertion in between. -/
def sampleEdits : List (Edit Nat Nat) :=
  [.addNode 7, .addNodeObject 8 5, .addEdge 0 2 1, .addEdges 0 1 3, .addEdge 1 1 4, .addEdge 0 1 9]

example : history 100 sampleEdits =
    [⟨7, 100, [⟨1, 0, 3, UNKNOWN⟩], [⟨0, 1, 3, UNKNOWN⟩, ⟨0, 1, 9, UNKNOWN⟩]⟩,
     ⟨8, 5, [⟨0, 1, 3, UNKNOWN⟩, ⟨0, 1, 9, UNKNOWN⟩], [⟨1, 0, 3, UNKNOWN⟩]⟩] := by decide

/-- C12: an out-of-range index throws `std::out_of_range`, a self-loop `std::invalid_argument`, and
the graph is as before the call. -/
theorem C12_rejects (g : Graph ν W) (f t : Int) (w : W) :
    (¬ (0 ≤ f ∧ f < (g.length : Int)) ∨ ¬ (0 ≤ t ∧ t < (g.length : Int)) →
      addEdgeBetweenNodes f t w g = (.throws .outOfRange, g)) ∧
    (0 ≤ f → f < (g.length : Int) → f = t →
      addEdgeBetweenNodes f t w g = (.throws .invalidArgument, g)) := by
  constructor
  · intro h
    by_cases hf : 0 ≤ f ∧ f < (g.length : Int)
    · exact addEdge_bad_to hf (h.resolve_left (fun h => h hf))
    · exact addEdge_bad_from hf
  · intro h0 h1 h2
    exact addEdge_self ⟨h0, h1⟩ h2

example : addEdgeBetweenNodes 0 (-1) 4 (history 100 sampleEdits) =
    (.throws .outOfRange, history 100 sampleEdits) := by decide
example : addEdgeBetweenNodes 1 1 4 (history 100 sampleEdits) =
    (.throws .invalidArgument, history 100 sampleEdits) := by decide

/-- C12: otherwise the new edge is appended to the out list of the source and to the in list of the
target, every other part of every node is as before, and the edge returned is the first one in the
source's out list that leads to the target. -/
theorem C12_effect (g : Graph ν W) (f t : Int) (w : W) (hf : 0 ≤ f ∧ f < (g.length : Int))
    (ht : 0 ≤ t ∧ t < (g.length : Int)) (hne : f ≠ t) :
    ∃ k g', addEdgeBetweenNodes f t w g = (.ok k, g') ∧ g'.length = g.length ∧
      (∀ v n, NodeAt g v n → NodeAt g' v
        ⟨n.value, n.distance,
          n.inEdges ++ (if v = t then [⟨f, t, w, UNKNOWN⟩] else []),
          n.outEdges ++ (if v = f then [⟨f, t, w, UNKNOWN⟩] else [])⟩) ∧
      (∀ n, NodeAt g' f n → ∃ e, n.outEdges[k]? = some e ∧ e.toIndex = t ∧
        ∀ k' e', k' < k → n.outEdges[k']? = some e' → e'.toIndex ≠ t) := by
  obtain ⟨k, g', h1, h2, h3⟩ := addEdge_ok (w := w) hf ht hne
  refine ⟨k, g', h1, ?_, ?_, h3⟩
  · have hnone : ∀ v : Nat, g'[v]? = none ↔ g[v]? = none := by
      intro v; rw [h2 v]; exact Option.map_eq_none_iff
    have a := (hnone g.length).2 (List.getElem?_eq_none (Nat.le_refl _))
    have b := (hnone g'.length).1 (List.getElem?_eq_none (Nat.le_refl _))
    rw [List.getElem?_eq_none_iff] at a b
    omega
  · intro v n hn
    have := h2 v.toNat
    rw [hn.2] at this
    refine ⟨hn.1, ?_⟩
    rw [this]
    simp only [Option.map_some, withEdge, Int.toNat_of_nonneg hn.1, Option.some.injEq]
    by_cases hv1 : v = f <;> by_cases hv2 : v = t <;> simp [hv1, hv2] <;> simp_all [Edge.make]

/-- C12: when no edge to the target was there before, the returned edge is the new one. -/
theorem C12_returns_new (g : Graph ν W) (f t : Int) (w : W) (n : Node ν W) (hf : NodeAt g f n)
    (ht : 0 ≤ t ∧ t < (g.length : Int)) (hne : f ≠ t) (hnew : ∀ e ∈ n.outEdges, e.toIndex ≠ t) :
    (addEdgeBetweenNodes f t w g).1 = .ok n.outEdges.length := by
  obtain ⟨k, g', h1, _, h3, h4⟩ := C12_effect g f t w hf.range ht hne
  have h5 := h3 f n hf
  rw [if_pos rfl] at h5
  obtain ⟨e, he, het, hmin⟩ := h4 _ h5
  rw [h1]
  show Out.ok k = _
  congr 1
  have hk := (List.getElem?_eq_some_iff.1 he).1
  simp only [List.length_append, List.length_cons, List.length_nil] at hk
  rcases Nat.lt_or_ge k n.outEdges.length with hlt | hge
  · exfalso
    rw [List.getElem?_append_left hlt] at he
    exact hnew e (List.mem_of_getElem? he) het
  · omega

/-- C12: with a parallel edge the reference returned is the older edge, not the new one. -/
theorem C12_parallel_returns_old :
    ∃ g : Graph Nat Nat, Linked g ∧ (addEdgeBetweenNodes 0 1 9 g).1 = .ok 0 ∧
      ∃ n, NodeAt (addEdgeBetweenNodes 0 1 9 g).2 0 n ∧ (n.outEdges[0]?).map (·.weight) = some 3 ∧
        (n.outEdges[1]?).map (·.weight) = some 9 := by
  refine ⟨history 100 [.addNode 7, .addNode 8, .addEdge 0 1 3], (inv_history _ _).linked,
    by decide, ?_⟩
  refine ⟨⟨7, 100, [], [⟨0, 1, 3, UNKNOWN⟩, ⟨0, 1, 9, UNKNOWN⟩]⟩, ⟨by decide, by decide⟩, by decide,
    by decide⟩

/-- C12: `addEdgesBetweenNodes` inserts both directions, or throws without any change. -/
theorem C12_both_directions (g : Graph ν W) (f t : Int) (w : W) :
    ((∃ e, (addEdgesBetweenNodes f t w g).1 = .throws e) ∧ (addEdgesBetweenNodes f t w g).2 = g) ∨
    (∃ r, (addEdgesBetweenNodes f t w g).1 = .ok r ∧
      (addEdgesBetweenNodes f t w g).2 =
        (addEdgeBetweenNodes t f w (addEdgeBetweenNodes f t w g).2).2 ∧
      (0 ≤ f ∧ f < (g.length : Int)) ∧ (0 ≤ t ∧ t < (g.length : Int)) ∧ f ≠ t) := by
  by_cases hf : 0 ≤ f ∧ f < (g.length : Int)
  · by_cases ht : 0 ≤ t ∧ t < (g.length : Int)
    · by_cases hne : f = t
      · left
        simp [addEdgesBetweenNodes, M.bind_apply, addEdge_self (w := w) hf hne]
      · right
        obtain ⟨k, g', h1, h2, _⟩ := C12_effect g f t w hf ht hne
        obtain ⟨k2, g2, h3, _⟩ := C12_effect g' t f w (by omega) (by omega) (Ne.symm hne)
        exact ⟨(k, k2), by simp [addEdgesBetweenNodes, M.bind_apply, h1, h3],
          by simp [addEdgesBetweenNodes, M.bind_apply, h1, h3], hf, ht, hne⟩
    · left
      simp [addEdgesBetweenNodes, M.bind_apply, addEdge_bad_to (w := w) hf ht]
  · left
    simp [addEdgesBetweenNodes, M.bind_apply, addEdge_bad_from (w := w) hf]

/-- C13: on every graph value `CheckGraphLinkage` returns, without undefined behaviour, whether the
graph is consistent. -/
theorem C13_check_exact (g : Graph ν W) :
    (Linked g → checkGraphLinkage g = .ok true) ∧ (¬ Linked g → checkGraphLinkage g = .ok false) := by
  obtain ⟨b, hb, hi⟩ := checkGraphLinkage_spec g
  rw [hb]
  cases b <;> simp_all

/-- C13: the constructor from nodes accepts exactly the consistent graphs. -/
theorem C13_constructor (nodes : List (Node ν W)) :
    (Linked nodes → ofNodes nodes = .ok nodes) ∧
    (¬ Linked nodes → ofNodes nodes = .throws .invalidArgument) := by
  obtain ⟨b, hb, hi⟩ := checkGraphLinkage_spec nodes
  simp only [ofNodes, hb, Out.bind_ok]
  cases b <;> simp_all

example : checkGraphLinkage (history 100 sampleEdits) = .ok true := by decide
/-- A dangling out edge is found. -/
example : checkGraphLinkage [(⟨0, 0, [], [⟨0, 1, 1, VALID⟩]⟩ : Node Nat Nat), ⟨0, 0, [], []⟩] =
    .ok false := by decide

/-- C14: edges, nodes and graphs round-trip at every offset, for every value serializer that does. -/
theorem C14_roundtrip (e : Endian) (s : Ser ν) (d : Des ν) (v : ν → Prop) (h : RoundTrips s d v) :
    RoundTrips (serializeEdge e) (deserializeEdge e) Edge.Storable ∧
    RoundTrips (serializeNode e s) (deserializeNode e d) (Node.Storable v) ∧
    RoundTrips (serializeGraph e s) (deserializeGraph e d)
      (fun g => g.length < 2 ^ 63 ∧ ∀ n ∈ g, n.Storable v) := by
  refine ⟨edge_roundtrip e, node_roundtrip e h, ?_⟩
  intro g hg
  obtain ⟨b, n, a, r⟩ := C02_vector_roundtrip e _ _ _ (node_roundtrip e h) g hg
  refine ⟨b, n, ?_, ?_⟩
  · intro buf
    simp only [serializeGraph, a buf, Out.bind_ok]
    simp
  · intro pre suf
    simp only [deserializeGraph, r pre suf, Out.bind_ok]

/-- A one-byte value type meets the hypothesis. -/
example (e : Endian) : RoundTrips (serializeFixedSizePOD (podBits e 1 (by decide)))
    (deserializeFixedSizePOD (podBits e 1 (by decide))) (fun _ => True) :=
  C02_nested_roundtrip e (.pod _)

example : (⟨0, 1, 0x3ff0000000000000#64, UNKNOWN⟩ : Edge (BitVec 64)).Storable := by
  simp [Edge.Storable]

/-- C14: reading a graph from arbitrary bytes never reads outside the buffer and fails only by a
failed assertion or `std::length_error`, provided the value deserializer does. -/
theorem C14_arbitrary_buffers (e : Endian) (d : Des ν)
    (h : InBounds d ∧ IgnoresSuffix d ∧ FailsCleanly d) :
    Robust (deserializeEdge e) ∧ Robust (deserializeNode e d) ∧ Robust (deserializeGraph e d) :=
  ⟨(good_edge e).robust, (good_node e h).robust, (good_graph e h).robust⟩

/-- C15, false part: `getConnectedComponentsUndirected` neither labels nor counts correctly. The
first graph has nodes 0 and 1 joined and node 2 on its own, but one component is reported; in the
second, two unconnected nodes get the same label. -/
theorem C15_components_wrong :
    (∃ g : Graph Nat Nat, checkGraphLinkage g = .ok true ∧ Symmetric g ∧
      ¬ Connected g 0 2 ∧ getConnectedComponentsUndirected g = some (.ok ([1, 1, 0], 1))) ∧
    (∃ g : Graph Nat Nat, checkGraphLinkage g = .ok true ∧ Symmetric g ∧
      ¬ Connected g 0 1 ∧ getConnectedComponentsUndirected g = some (.ok ([0, 0], 2))) := by
  have hiso : ∀ (g : Graph Nat Nat) (k : Nat), (∀ u v, Adj g u v → u ≠ k ∧ v ≠ k) →
      ∀ u v, Connected g u v → u ≠ k → v ≠ k := by
    intro g k h u v hc
    induction hc with
    | refl => exact fun h => h
    | fwd _ ha _ => exact fun _ => (h _ _ ha).2
    | bwd _ ha _ => exact fun _ => (h _ _ ha).1
  constructor
  · refine ⟨history 100 [.addNode 0, .addNode 0, .addNode 0, .addEdges 0 1 1], by decide, ?_, ?_,
      by decide⟩
    · rintro u v ⟨n, hn, e, he, hv⟩
      match u, hn with
      | 0, hn =>
        injection hn with hn; subst hn
        simp [Node.addInEdge, Node.addOutEdge, Edge.make] at he
        subst he
        simp at hv
        obtain rfl : v = 1 := by omega
        exact ⟨_, rfl, _, List.mem_cons_self, rfl⟩
      | 1, hn =>
        injection hn with hn; subst hn
        simp [Node.addInEdge, Node.addOutEdge, Edge.make] at he
        subst he
        simp at hv
        obtain rfl : v = 0 := by omega
        exact ⟨_, rfl, _, List.mem_cons_self, rfl⟩
      | 2, hn => injection hn with hn; subst hn; cases he
      | k + 3, hn => exact absurd hn (by intro h; cases h)
    · intro hc
      refine hiso _ 2 ?_ 0 2 hc (by omega) rfl
      rintro u v ⟨n, hn, e, he, hv⟩
      match u, hn with
      | 0, hn =>
        injection hn with hn; subst hn
        simp [Node.addInEdge, Node.addOutEdge, Edge.make] at he
        subst he
        simp at hv
        omega
      | 1, hn =>
        injection hn with hn; subst hn
        simp [Node.addInEdge, Node.addOutEdge, Edge.make] at he
        subst he
        simp at hv
        omega
      | 2, hn => injection hn with hn; subst hn; cases he
      | k + 3, hn => exact absurd hn (by intro h; cases h)
  · have hno : ∀ u v, ¬ Adj (history 100 [.addNode 0, .addNode 0] : Graph Nat Nat) u v := by
      rintro u v ⟨n, hn, e, he, hv⟩
      match u, hn with
      | 0, hn => injection hn with hn; subst hn; cases he
      | 1, hn => injection hn with hn; subst hn; cases he
      | k + 2, hn => exact absurd hn (by intro h; cases h)
    refine ⟨history 100 [.addNode 0, .addNode 0], by decide, ?_, ?_, by decide⟩
    · intro u v h; exact absurd h (hno u v)
    · intro hc
      exact hiso _ 1 (fun u v h => absurd h (hno u v)) 0 1 hc (by omega) rfl

/-- C15, the part that holds of every graph whose edges are in range: the call returns, with one
label per node and no undefined behaviour; nodes with the same label other than 0 are connected.
Missing: the label 0 is given to isolated nodes and to nodes never visited, and the count can be too
small. -/
theorem C15_labels_sound_partial (g : Graph ν W) (hr : OutInRange g) :
    ∃ labels count, getConnectedComponentsUndirected g = some (.ok (labels, count)) ∧
      labels.length = g.length ∧ (∀ v x : Nat, labels[v]? = some x → x ≤ count) ∧
      ∀ u v x : Nat, labels[u]? = some x → labels[v]? = some x → x ≠ 0 → Connected g u v := by
  obtain ⟨c, n, h1, h2, _⟩ := components_spec hr
  exact ⟨c, n, h1, h2.len, h2.bound, h2.sound⟩

/-- C15: when every edge has a partner in the opposite direction, a node with a label other than 0
shares it with exactly the nodes connected to it. -/
theorem C15_labels_exact_partial (g : Graph ν W) (hr : OutInRange g) (hs : Symmetric g) :
    ∃ labels count, getConnectedComponentsUndirected g = some (.ok (labels, count)) ∧
      ∀ u v x : Nat, labels[u]? = some x → x ≠ 0 →
        (labels[v]? = some x ↔ Connected g u v) := by
  obtain ⟨c, n, h1, h2, h3⟩ := components_spec hr
  exact ⟨c, n, h1, fun u v x hu hx =>
    ⟨fun hv => h2.sound u v x hu hv hx, fun hc => closed_connected hs (h3 hs) hc hu hx⟩⟩

/-- C15: a symmetric connected graph of at least two nodes is reported as one component. -/
theorem C15_connected_partial (g : Graph ν W) (hr : OutInRange g) (hs : Symmetric g)
    (hn : 2 ≤ g.length) (hc : ∀ u v, u < g.length → v < g.length → Connected g u v) :
    getConnectedComponentsUndirected g = some (.ok (List.replicate g.length 1, 1)) :=
  components_connected hr hs hn hc

/-- Every consistent graph has its edges in range. -/
theorem outInRange_of_linked {g : Graph ν W} (h : Linked g) : OutInRange g := by
  intro n hn e he
  obtain ⟨i, hi, rfl⟩ := List.mem_iff_getElem.1 hn
  obtain ⟨_, _, m, hm, _⟩ := (h i _ ((nodeAt_nat g i _).2 (List.getElem?_eq_getElem hi))).2 e he
  exact hm.range

example : OutInRange (history 100 sampleEdits) := outInRange_of_linked (inv_history _ _).linked

end Verif.Graph
