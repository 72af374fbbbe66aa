import Verif.Model.Graph

/-!
# Specification of graphs
-/
namespace Verif.Graph
open Verif

variable {ν W : Type}

/-- Node `i` of the graph is `n`. -/
def NodeAt (g : Graph ν W) (i : Int) (n : Node ν W) : Prop := 0 ≤ i ∧ g[i.toNat]? = some n

/-- The condition of a consistent graph, node by node: an in edge of node `i` is labelled to `i`,
comes from a different node of the graph, and that node has an out edge to `i`; symmetrically for
out edges. -/
def Linked (g : Graph ν W) : Prop :=
  ∀ i n, NodeAt g i n →
    (∀ e ∈ n.inEdges, e.toIndex = i ∧ e.fromIndex ≠ i ∧
      ∃ m, NodeAt g e.fromIndex m ∧ ∃ e' ∈ m.outEdges, e'.toIndex = i) ∧
    (∀ e ∈ n.outEdges, e.fromIndex = i ∧ e.toIndex ≠ i ∧
      ∃ m, NodeAt g e.toIndex m ∧ ∃ e' ∈ m.inEdges, e'.fromIndex = i)

/-- The edges from `i` to `j` stored at `i` are the edges from `i` to `j` stored at `j`, with the
same weights and in the same order. -/
def Mirrored (g : Graph ν W) : Prop :=
  ∀ i j n m, NodeAt g i n → NodeAt g j m →
    n.outEdges.filter (fun e => decide (e.toIndex = j)) =
      m.inEdges.filter (fun e => decide (e.fromIndex = i))

/-- A call that edits a graph. -/
inductive Edit (ν W : Type) where
  | addNode (value : ν)
  | addNodeObject (value : ν) (distance : W)
  | addEdge (fromIndex toIndex : Int) (w : W)
  | addEdges (first second : Int) (w : W)

/-- The graph after the call, also when the call throws. -/
def Edit.run (inf : W) : Edit ν W → Graph ν W → Graph ν W
  | .addNode v, g => (Verif.Graph.addNode inf v g).2
  | .addNodeObject v d, g => (Verif.Graph.addNodeObject ⟨v, d, [], []⟩ g).2
  | .addEdge i j w, g => (addEdgeBetweenNodes i j w g).2
  | .addEdges i j w, g => (addEdgesBetweenNodes i j w g).2

/-- The graph after a history of calls, starting from the empty graph. -/
def history (inf : W) (edits : List (Edit ν W)) : Graph ν W :=
  edits.foldl (fun g e => e.run inf g) []

/-- There is an out edge from node `u` to node `v`. -/
def Adj (g : Graph ν W) (u v : Nat) : Prop :=
  ∃ n, g[u]? = some n ∧ ∃ e ∈ n.outEdges, e.toIndex = (v : Int)

/-- A chain of edges, ignoring their directions. -/
inductive Connected (g : Graph ν W) : Nat → Nat → Prop
  | refl (u : Nat) : Connected g u u
  | fwd {u v w : Nat} : Connected g u v → Adj g v w → Connected g u w
  | bwd {u v w : Nat} : Connected g u v → Adj g w v → Connected g u w

/-- Every out edge leads to a node of the graph. -/
def OutInRange (g : Graph ν W) : Prop :=
  ∀ n ∈ g, ∀ e ∈ n.outEdges, 0 ≤ e.toIndex ∧ e.toIndex < (g.length : Int)

/-- Every edge has a partner in the opposite direction. -/
def Symmetric (g : Graph ν W) : Prop := ∀ u v, Adj g u v → Adj g v u

end Verif.Graph

namespace Verif.Graph
open Verif

/-- The indices of the edge are representable as `int64_t`. -/
def Edge.Storable {W : Type} (e : Edge W) : Prop :=
  (-2 ^ 63 ≤ e.fromIndex ∧ e.fromIndex < 2 ^ 63) ∧ (-2 ^ 63 ≤ e.toIndex ∧ e.toIndex < 2 ^ 63)

/-- The node can exist in memory: `int64_t` indices, edge lists of fewer than 2^63 entries. -/
def Node.Storable {ν W : Type} (validValue : ν → Prop) (n : Node ν W) : Prop :=
  validValue n.value ∧
  (n.inEdges.length < 2 ^ 63 ∧ ∀ e ∈ n.inEdges, e.Storable) ∧
  (n.outEdges.length < 2 ^ 63 ∧ ∀ e ∈ n.outEdges, e.Storable)

end Verif.Graph
