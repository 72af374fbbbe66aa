import Verif.Spec.Graph

/-!
# What `getConnectedComponentsUndirected` computes, said without its queue

First for graphs in which every edge has a partner in the opposite direction, then for any graph.
-/
namespace Verif.Graph

variable {ν W : Type}

/-- `v` is the first node of its component. -/
def First (g : Graph ν W) (v : Nat) : Prop := ∀ u, u < v → ¬ Connected g u v

/-- `v` has an edge to some node, possibly to itself. -/
def HasEdge (g : Graph ν W) (v : Nat) : Prop := ∃ w, Adj g v w

open Classical in
/-- How many of the numbers below `n` have the property `p`. -/
noncomputable def howMany (p : Nat → Prop) (n : Nat) : Nat :=
  (List.range n).countP (fun v => decide (p v))

/-- How many components have their first node before `v`. -/
noncomputable def componentsBefore (g : Graph ν W) (v : Nat) : Nat := howMany (First g) v

/-- How many of these have an edge. -/
noncomputable def joinedBefore (g : Graph ν W) (v : Nat) : Nat :=
  howMany (fun u => First g u ∧ HasEdge g u) v

/-- How many nodes these components have together. -/
noncomputable def nodesBefore (g : Graph ν W) (v : Nat) : Nat :=
  howMany (fun w => ∃ u, u < v ∧ Connected g u w) g.length

/-- The search comes to `v`: what it has counted up to there, one too many for each component with an
edge, is less than the number of nodes. -/
def SearchComesTo (g : Graph ν W) (v : Nat) : Prop :=
  nodesBefore g v + joinedBefore g v < g.length

end Verif.Graph

/-! ## Any graph -/
namespace Verif.Graph

variable {ν W : Type}

/-- There is a chain of one or more edges, in their own direction, from `u` to `v`. -/
inductive Leads (g : Graph ν W) (u : Nat) : Nat → Prop
  | one {v : Nat} : Adj g u v → Leads g u v
  | more {v w : Nat} : Leads g u v → Adj g v w → Leads g u w

/-- What has been counted after searches from the nodes `S`: every one of them, and the nodes they lead to. -/
noncomputable def counted (g : Graph ν W) (S : List Nat) : Nat :=
  S.length + howMany (fun w => ∃ s ∈ S, Leads g s w) g.length

open Classical in
/-- The nodes before `v` from which a search is started: those to which no earlier one leads, until the nodes counted are
as many as the nodes of the graph. -/
noncomputable def starts (g : Graph ν W) : Nat → List Nat
  | 0 => []
  | v + 1 => if (∀ s ∈ starts g v, ¬ Leads g s v) ∧ counted g (starts g v) < g.length then starts g v ++ [v] else starts g v

end Verif.Graph
