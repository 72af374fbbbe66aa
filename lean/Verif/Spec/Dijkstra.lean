import Verif.Spec.Graph
import Verif.Base.Cost

/-!
# Specification of shortest routes to a node
-/
namespace Verif.Dijkstra
open Verif Verif.Graph

variable {ν W : Type} [Cost W]

/-- There is an edge from node `v` to node `u` of weight `w` (recorded as an in edge of `u`). -/
def EdgeInto (g : Graph ν W) (v u : Nat) (w : W) : Prop :=
  ∃ n, g[u]? = some n ∧ ∃ e ∈ n.inEdges, e.fromIndex = (v : Int) ∧ e.weight = w

/-- `Route g start v c`: there is a route along edges from `v` to `start` of cost `c`. Costs are
added up starting from the end of the route. -/
inductive Route (g : Graph ν W) (start : Nat) : Nat → W → Prop
  | here : Route g start start 0
  | step {u v : Nat} {w c : W} : Route g start u c → EdgeInto g v u w → Route g start v (c + w)

/-- `Walk g prev start vs c`: `vs` is a walk along edges of the graph, each node followed by the
one `prev` names, ending at `start`, of cost `c`. -/
inductive Walk (g : Graph ν W) (prev : List Int) (start : Nat) : List Nat → W → Prop
  | here : Walk g prev start [start] 0
  | step {u v : Nat} {rest : List Nat} {w c : W} : prev[v]? = some (u : Int) → EdgeInto g v u w →
      Walk g prev start (u :: rest) c → Walk g prev start (v :: u :: rest) (c + w)

/-- No in edge has a negative weight. -/
def NonNegative (g : Graph ν W) : Prop := ∀ n ∈ g, ∀ e ∈ n.inEdges, 0 ≤ e.weight

/-- All in edges come from nodes of the graph. -/
def InInRange (g : Graph ν W) : Prop :=
  ∀ n ∈ g, ∀ e ∈ n.inEdges, 0 ≤ e.fromIndex ∧ e.fromIndex < (g.length : Int)

end Verif.Dijkstra
