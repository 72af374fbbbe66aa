import Verif.Spec.Graph
import Verif.Base.Cost

/-!
# Specification of shortest routes along edges whose weights are numbers

A weight is `none` if it is not a number.
-/
namespace Verif.NanDijkstra
open Verif Verif.Graph

variable {ν W : Type} [Cost W]

/-- There is an edge from node `v` to node `u` whose weight is the number `w` (an in edge of `u`). -/
def EdgeInto (g : Graph ν (Option W)) (v u : Nat) (w : W) : Prop :=
  ∃ n, g[u]? = some n ∧ ∃ e ∈ n.inEdges, e.fromIndex = (v : Int) ∧ e.weight = some w

/-- `Route g start v c`: there is a route from `v` to `start` of cost `c` along edges whose weights are
numbers. Costs are added up starting from the end of the route. -/
inductive Route (g : Graph ν (Option W)) (start : Nat) : Nat → W → Prop
  | here : Route g start start 0
  | step {u v : Nat} {w c : W} : Route g start u c → EdgeInto g v u w → Route g start v (c + w)

/-- `Walk g prev start vs c`: `vs` is a walk along edges whose weights are numbers, each node followed by the
one `prev` names, ending at `start`, of cost `c`. -/
inductive Walk (g : Graph ν (Option W)) (prev : List Int) (start : Nat) : List Nat → W → Prop
  | here : Walk g prev start [start] 0
  | step {u v : Nat} {rest : List Nat} {w c : W} : prev[v]? = some (u : Int) → EdgeInto g v u w →
      Walk g prev start (u :: rest) c → Walk g prev start (v :: u :: rest) (c + w)

/-- No in edge has a negative weight. -/
def NonNegative (g : Graph ν (Option W)) : Prop := ∀ n ∈ g, ∀ e ∈ n.inEdges, ∀ w, e.weight = some w → 0 ≤ w

end Verif.NanDijkstra
