import Verif.Lemmas.GraphComponentsAny
import Verif.Props.Graph

/-!
# Property C15 (graph.hpp): exactly what the search for connected components reports
-/
namespace Verif.Graph
open Verif

variable {ν W : Type}

/-- C15: exactly what is reported of a graph whose edges have partners in the opposite direction. The
components are taken in the order of their first nodes. The search ends as soon as the nodes of the
components already taken, counted once more for every one of these that has an edge, are as many as
the nodes of the graph. The count is the number of components taken. A node has the number of its
component in this order as its label if its component was taken and has an edge, and 0 otherwise. -/
theorem C15_search_exact (g : Graph ν W) (hr : OutInRange g) (hs : Symmetric g) :
    ∃ labels count, getConnectedComponentsUndirected g = some (.ok (labels, count)) ∧
      labels.length = g.length ∧
      count = howMany (fun u => First g u ∧ SearchComesTo g u) g.length ∧
      ∀ w, w < g.length → ∃ u, First g u ∧ Connected g u w ∧
        (HasEdge g w ∧ SearchComesTo g u → labels[w]? = some (componentsBefore g (u + 1))) ∧
        (¬ (HasEdge g w ∧ SearchComesTo g u) → labels[w]? = some 0) := by
  obtain ⟨c, n, h1, h2⟩ := components_exact hr hs
  refine ⟨c, n, h1, h2.len, h2.count_eq, ?_⟩
  intro w hw
  obtain ⟨u, hu, huw⟩ := exists_first g w
  refine ⟨u, hu, huw, fun hh => h2.marked u w hu huw hw (hasEdge_connected hs huw.symm hh.1) hh.2,
    fun hn => h2.unmarked u w hu huw hw (fun hh => hn ⟨hasEdge_connected hs huw hh.1, hh.2⟩)⟩

/-- C15: the count is right exactly when the search comes to the first node of every component. -/
theorem C15_count_right_iff (g : Graph ν W) (hr : OutInRange g) (hs : Symmetric g) :
    ∃ labels count, getConnectedComponentsUndirected g = some (.ok (labels, count)) ∧
      count ≤ componentsBefore g g.length ∧
      (count = componentsBefore g g.length ↔ ∀ u, u < g.length → First g u → SearchComesTo g u) := by
  obtain ⟨c, n, h1, h2⟩ := components_exact hr hs
  have hle : n ≤ componentsBefore g g.length := by
    rw [h2.count_eq]; exact howMany_mono (fun _ _ h => h.1)
  refine ⟨c, n, h1, hle, ?_, ?_⟩
  · intro he u hu hf
    refine Classical.byContradiction (fun hn => ?_)
    have hdis : howMany (fun v => (First g v ∧ SearchComesTo g v) ∨ v = u) g.length
        = howMany (fun v => First g v ∧ SearchComesTo g v) g.length
          + howMany (fun v => v = u) g.length :=
      howMany_or (fun v _ hh => hn (hh.2 ▸ hh.1.2))
    have hone : howMany (fun v => v = u) g.length = 1 := howMany_one hu (fun w _ => Iff.rfl)
    have hm : howMany (fun v => (First g v ∧ SearchComesTo g v) ∨ v = u) g.length
        ≤ howMany (First g) g.length :=
      howMany_mono (fun v _ hv => hv.elim (fun h => h.1) (fun h => h ▸ hf))
    rw [h2.count_eq] at he
    unfold componentsBefore at he
    omega
  · intro hall
    rw [h2.count_eq]
    exact howMany_congr (fun u hu => ⟨fun h => h.1, fun h => ⟨h, hall u hu h⟩⟩)

/-- C15: nodes have the same label exactly when they are connected, for all pairs of nodes, exactly
when at most one component is left with the label 0: those without an edge and those the search does
not come to. -/
theorem C15_labels_right_iff (g : Graph ν W) (hr : OutInRange g) (hs : Symmetric g) :
    ∃ labels count, getConnectedComponentsUndirected g = some (.ok (labels, count)) ∧
      ((∀ v w, v < g.length → w < g.length → (labels[v]? = labels[w]? ↔ Connected g v w)) ↔
        ∀ u u', u < g.length → u' < g.length → First g u → First g u' →
          ¬ (HasEdge g u ∧ SearchComesTo g u) → ¬ (HasEdge g u' ∧ SearchComesTo g u') → u = u') := by
  obtain ⟨c, n, h1, h2⟩ := components_exact hr hs
  refine ⟨c, n, h1, ?_, ?_⟩
  · intro hall u u' hu hu' hf hf' hn hn'
    have e1 := h2.unmarked u u hf (.refl _) hu hn
    have e2 := h2.unmarked u' u' hf' (.refl _) hu' hn'
    exact hf.unique hf' ((hall u u' hu hu').1 (by rw [e1, e2]))
  · intro hone v w hv hw
    obtain ⟨u, hu, huv⟩ := exists_first g v
    obtain ⟨u', hu', huw⟩ := exists_first g w
    have hul : u < g.length := Nat.lt_of_le_of_lt (hu.le huv) hv
    have hul' : u' < g.length := Nat.lt_of_le_of_lt (hu'.le huw) hw
    have hback : u = u' → Connected g v w := by
      rintro rfl; exact huv.symm.trans huw
    constructor
    · intro he
      apply hback
      by_cases hm : HasEdge g u ∧ SearchComesTo g u
      · have e1 := h2.marked u v hu huv hv hm.1 hm.2
        by_cases hm' : HasEdge g u' ∧ SearchComesTo g u'
        · have e2 := h2.marked u' w hu' huw hw hm'.1 hm'.2
          rw [e1, e2] at he
          injection he with he
          unfold componentsBefore at he
          rcases Nat.lt_trichotomy u u' with h | h | h
          · have := howMany_le_of_le (First g) (show u + 1 ≤ u' by omega)
            rw [howMany_succ_pos hu'] at he
            omega
          · exact h
          · have := howMany_le_of_le (First g) (show u' + 1 ≤ u by omega)
            rw [howMany_succ_pos hu] at he
            omega
        · rw [e1, h2.unmarked u' w hu' huw hw hm'] at he
          injection he with he
          exact absurd he (componentsBefore_pos hu)
      · have e1 := h2.unmarked u v hu huv hv hm
        by_cases hm' : HasEdge g u' ∧ SearchComesTo g u'
        · rw [e1, h2.marked u' w hu' huw hw hm'.1 hm'.2] at he
          injection he with he
          exact absurd he.symm (componentsBefore_pos hu')
        · exact hone u u' hul hul' hu hu' hm hm'
    · intro hc
      have huu : u = u' := hu.unique hu' (huv.trans (hc.trans huw.symm))
      subst huu
      by_cases hm : HasEdge g u ∧ SearchComesTo g u
      · rw [h2.marked u v hu huv hv hm.1 hm.2, h2.marked u w hu huw hw hm.1 hm.2]
      · rw [h2.unmarked u v hu huv hv hm, h2.unmarked u w hu huw hw hm]

/-- Two pairs of joined nodes: four nodes, two components. The first component is counted as three
nodes, so the search comes to the second one, and both labels and count are right. -/
def twoPairs : Graph Nat Nat :=
  history 100 [.addNode 0, .addNode 0, .addNode 0, .addNode 0, .addEdges 0 1 1, .addEdges 2 3 1]

theorem twoPairs_adj (u v : Nat) : Adj twoPairs u v ↔
    (u, v) ∈ [(0, 1), (1, 0), (2, 3), (3, 2)] := by
  constructor
  · rintro ⟨n, hn, e, he, hv⟩
    match u, hn with
    | 0, hn =>
      injection hn with hn; subst hn
      simp [Node.addInEdge, Node.addOutEdge, Edge.make] at he
      subst he; simp at hv; simp; omega
    | 1, hn =>
      injection hn with hn; subst hn
      simp [Node.addInEdge, Node.addOutEdge, Edge.make] at he
      subst he; simp at hv; simp; omega
    | 2, hn =>
      injection hn with hn; subst hn
      simp [Node.addInEdge, Node.addOutEdge, Edge.make] at he
      subst he; simp at hv; simp; omega
    | 3, hn =>
      injection hn with hn; subst hn
      simp [Node.addInEdge, Node.addOutEdge, Edge.make] at he
      subst he; simp at hv; simp; omega
    | k + 4, hn => exact absurd hn (by intro h; cases h)
  · intro h
    simp only [List.mem_cons, Prod.mk.injEq, List.not_mem_nil, or_false] at h
    rcases h with ⟨rfl, rfl⟩ | ⟨rfl, rfl⟩ | ⟨rfl, rfl⟩ | ⟨rfl, rfl⟩ <;>
      exact ⟨_, rfl, _, List.mem_cons_self, rfl⟩

example : OutInRange twoPairs := outInRange_of_linked (inv_history _ _).linked

example : Symmetric twoPairs := by
  intro u v h
  rw [twoPairs_adj] at h ⊢
  simp only [List.mem_cons, Prod.mk.injEq, List.not_mem_nil, or_false] at h ⊢
  omega

example : getConnectedComponentsUndirected twoPairs = some (.ok ([1, 1, 2, 2], 2)) := by decide

/-- C15: exactly what is reported of any graph, also one with edges that have no partner in the opposite direction.
Searches start at the nodes to which no earlier search leads, until the nodes counted, the start of every search and the
nodes it leads to, are as many as the nodes of the graph. The count is the number of searches. A node has as its label the
number of the first search that leads to it by one edge or more, and 0 if none does. -/
theorem C15_any_graph (g : Graph ν W) (hr : OutInRange g) :
    ∃ labels, getConnectedComponentsUndirected g = some (.ok (labels, (starts g g.length).length)) ∧
      labels.length = g.length ∧ ∀ w : Nat, w < g.length →
        (∀ i s : Nat, (starts g g.length)[i]? = some s → Leads g s w →
          (∀ j s' : Nat, j < i → (starts g g.length)[j]? = some s' → ¬ Leads g s' w) →
          labels[w]? = some (i + 1)) ∧
        ((∀ s ∈ starts g g.length, ¬ Leads g s w) → labels[w]? = some 0) := by
  obtain ⟨c, h1, h2⟩ := components_any hr
  exact ⟨c, h1, h2.len, fun w hw => ⟨fun i s hi hl hm => h2.found i s w hi hl hw hm, h2.none w hw⟩⟩

/-- C15, false part for one-way edges: a node from which an edge leads to node 0 is connected to it, but two components
are counted and the nodes have different labels. -/
theorem C15_one_way_wrong :
    ∃ g : Graph Nat Nat, checkGraphLinkage g = .ok true ∧ OutInRange g ∧ Connected g 0 1 ∧
      getConnectedComponentsUndirected g = some (.ok ([2, 0], 2)) := by
  refine ⟨history 100 [.addNode 0, .addNode 0, .addEdge 1 0 1], by decide,
    outInRange_of_linked (inv_history _ _).linked, ?_, by decide⟩
  exact (Connected.refl 0).bwd ⟨_, rfl, _, List.mem_cons_self, rfl⟩

end Verif.Graph
