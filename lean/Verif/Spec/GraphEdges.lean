import Verif.Spec.Graph

/-!
# What a history of insertions puts into a graph, and what a search reads of one
-/
namespace Verif.Graph
open Verif

variable {ν W : Type}

/-- The nodes, by value and distance, and the edges, by source, target and weight, both in the order in
which they were put in. -/
structure Contents (ν W : Type) where
  nodes : List (ν × W)
  edges : List (Int × Int × W)

/-- The two numbers are numbers of different nodes. -/
def Contents.Joins (c : Contents ν W) (i j : Int) : Prop :=
  (0 ≤ i ∧ i < (c.nodes.length : Int)) ∧ (0 ≤ j ∧ j < (c.nodes.length : Int)) ∧ i ≠ j

instance (c : Contents ν W) (i j : Int) : Decidable (c.Joins i j) := by
  unfold Contents.Joins; infer_instance

/-- What a call adds: nothing when it throws. -/
def Contents.after (inf : W) (c : Contents ν W) : Edit ν W → Contents ν W
  | .addNode v => { c with nodes := c.nodes ++ [(v, inf)] }
  | .addNodeObject v d => { c with nodes := c.nodes ++ [(v, d)] }
  | .addEdge i j w => if c.Joins i j then { c with edges := c.edges ++ [(i, j, w)] } else c
  | .addEdges i j w => if c.Joins i j then { c with edges := c.edges ++ [(i, j, w), (j, i, w)] } else c

/-- The contents after a history of calls, starting from the empty graph. -/
def contents (inf : W) (edits : List (Edit ν W)) : Contents ν W :=
  edits.foldl (Contents.after inf) ⟨[], []⟩

/-- A new edge between two nodes. -/
def newEdge (x : Int × Int × W) : Edge W := ⟨x.1, x.2.1, x.2.2, UNKNOWN⟩

/-- The graph with these contents: every node lists the edges into it and the edges out of it in the order
in which they were put in. -/
def Contents.graph (c : Contents ν W) : Graph ν W :=
  c.nodes.mapIdx fun v x =>
    ⟨x.1, x.2, (c.edges.filter fun e => decide (e.2.1 = (v : Int))).map newEdge,
      (c.edges.filter fun e => decide (e.1 = (v : Int))).map newEdge⟩

/-- The call inserts edges in both directions, if any. -/
def Edit.TwoWay : Edit ν W → Prop
  | .addEdge _ _ _ => False
  | _ => True

/-- The out list of a node with its `k`-th edge changed, when `e` is that edge and it is the first that
leads to `j`. -/
structure FirstTo (n : Node ν W) (j : Int) (k : Nat) (e : Edge W) : Prop where
  at_ : n.outEdges[k]? = some e
  to_ : e.toIndex = j
  first : ∀ (k' : Nat) (e' : Edge W), k' < k → n.outEdges[k']? = some e' → e'.toIndex ≠ j

/-- The two graphs have the same in edges, in sources and weights. -/
def SameIn {μ : Type} (g : Graph ν W) (h : Graph μ W) : Prop :=
  g.length = h.length ∧ ∀ (v : Nat) (n : Node ν W) (m : Node μ W), g[v]? = some n → h[v]? = some m →
    n.inEdges.map (fun e => (e.fromIndex, e.weight)) = m.inEdges.map (fun e => (e.fromIndex, e.weight))

/-- The two graphs have the same values and out edges. -/
def SameOut (g h : Graph ν W) : Prop :=
  g.length = h.length ∧ ∀ (v : Nat) (n m : Node ν W), g[v]? = some n → h[v]? = some m →
    n.value = m.value ∧ n.outEdges = m.outEdges

end Verif.Graph
