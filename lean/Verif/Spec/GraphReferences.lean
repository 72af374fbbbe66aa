import Verif.Model.GraphReferences

/-!
# Specification for references into a graph
-/
namespace Verif.Graph.References
open Verif Verif.Graph

variable {ν W : Type}

/-- A graph that a caller can have: made by a constructor, and changed by additions of nodes and edges and by changes of
edges through references. -/
def Reached (p : Policy) (h : Heap ν W) : Prop := ∃ c ops, run p ops (empty c) = .ok h

/-- The incoming or outgoing edges of a node. -/
def edgesOf (g : Graph ν W) (side : Side) (i : Nat) : Option (List (Edge W)) :=
  (g[i]?).map (fun n => match side with | .into => n.inEdges | .out => n.outEdges)

/-- The graph with one edge changed by `f`. -/
def changedAt (g : Graph ν W) (side : Side) (i k : Nat) (f : Edge W → Edge W) : Graph ν W :=
  g.modify i (fun n => match side with
    | .into => { n with inEdges := n.inEdges.modify k f }
    | .out => { n with outEdges := n.outEdges.modify k f })

/-- The capacity of the vector of incoming or outgoing edges of a node. -/
def capacityOf (h : Heap ν W) (side : Side) (i : Nat) : Option Nat :=
  (h.nodes.elems[i]?).map (fun n => match side with | .into => n.ins.cap | .out => n.outs.cap)

/-- The result of a call with another value in place of the returned one. -/
def mapped {α β : Type} (f : α → β) : Out α → Out β
  | .ok a => .ok (f a)
  | .throws e => .throws e
  | .abort => .abort
  | .ub => .ub

end Verif.Graph.References
