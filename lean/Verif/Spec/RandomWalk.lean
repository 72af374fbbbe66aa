import Verif.Spec.Graph

/-!
# Specification of loop-free paths in a graph
-/
namespace Verif.RandomWalk
open Verif Verif.Graph

variable {ν W : Type}

/-- There is an out edge from node `u` to index `v`. -/
def HasEdge (g : Graph ν W) (u v : Int) : Prop :=
  ∃ n, NodeAt g u n ∧ ∃ e ∈ n.outEdges, e.toIndex = v

/-- The list is a path from `start` to `goal` that visits no node twice. -/
structure SimplePath (g : Graph ν W) (start goal : Int) (path : List Int) : Prop where
  first : path.head? = some start
  last : path.getLast? = some goal
  nodup : path.Nodup
  edges : ∀ i u v, path[i]? = some u → path[i + 1]? = some v → HasEdge g u v

end Verif.RandomWalk
