import Verif.Spec.Graph
import Verif.Spec.Knn
import Verif.Model.Prm
import Verif.Spec.Dijkstra
import Verif.Spec.Astar

/-!
# Specification of the roadmap planner
-/
namespace Verif.Prm
open Verif Verif.Graph Verif.Knn

variable {ν W : Type} [Cost W]

/-- The distance by which the neighbours of a new state are chosen: from the roadmap to the state, or
from the state to the roadmap. -/
def queryDistance (S : Setup ν W) (dir : Direction) (state : ν) (s : ν) : W :=
  if dir = .roadmapToNewState then S.distance s state else S.distance state s

/-- A new state is joined to the roadmap state `s` by an edge of weight `there` from `s` and an edge
of weight `back` to `s`: the edge check accepts, and the weights are the distances in the two
directions, or the same distance twice if distances are declared symmetric. Negative distances are
refused. -/
def Joined (S : Setup ν W) (dir : Direction) (state s : ν) (there back : W) : Prop :=
  S.edgeValid s state = true ∧ 0 ≤ there ∧ 0 ≤ back ∧
  (S.symmetric = true → there = queryDistance S dir state s ∧ back = there) ∧
  (S.symmetric = false → there = S.distance s state ∧ back = S.distance state s)

/-- On a roadmap of `n` nodes, the query is run serially or under some schedule for `n` iterations. -/
def Threads.Ok (threads : Threads) : Prop := ∀ n s, threads n = some s → Schedule n s

/-- `R` answers the query for the neighbours of the new state. -/
def Neighbors (S : Setup ν W) (dir : Direction) (g : Graph ν W) (state : ν) (R : List (Int × W)) :
    Prop :=
  KNearest g state (fun n q => queryDistance S dir q n.value) S.K R

/-- `g'` is `g` with one more node, for `state`, and with the edges `es`: for each entry
`(j, there, back)` an edge from node `j` to the new node and an edge back, and nothing else changed. -/
structure Inserted (state : ν) (es : List (Int × W × W)) (g g' : Graph ν W) : Prop where
  size : g'.length = g.length + 1
  newNode : g'[g.length]? = some ⟨state, Cost.inf,
    es.map (fun e => Edge.make e.1 (g.length : Int) e.2.1),
    es.map (fun e => Edge.make (g.length : Int) e.1 e.2.2)⟩
  oldNodes : ∀ (j : Nat) n, g[j]? = some n → g'[j]? = some ⟨n.value, n.distance,
    n.inEdges ++ (es.filter (fun e => decide (e.1 = (j : Int)))).map
      (fun e => Edge.make (g.length : Int) (j : Int) e.2.2),
    n.outEdges ++ (es.filter (fun e => decide (e.1 = (j : Int)))).map
      (fun e => Edge.make (j : Int) (g.length : Int) e.2.1)⟩

/-- `es` lists exactly the neighbours in `R` that are joined, each once, with the weights. -/
def JoinedNeighbors (S : Setup ν W) (dir : Direction) (g : Graph ν W) (state : ν) (R : List (Int × W))
    (es : List (Int × W × W)) : Prop :=
  (es.map (·.1)).Nodup ∧
  ∀ j there back, (j, there, back) ∈ es ↔
    j ∈ R.map (·.1) ∧ ∃ n, NodeAt g j n ∧ Joined S dir state n.value there back

/-- Every node of the roadmap was accepted by the state check; every edge leads between different
nodes, was accepted by the edge check in the direction from the older to the newer node, has a weight
that is not negative, and this weight is the distance between the two states (in its own direction,
or, if distances are declared symmetric, from the older to the newer node). -/
structure Sound (S : Setup ν W) (stateValid : ν → Bool) (g : Graph ν W) : Prop where
  states : ∀ n ∈ g, stateValid n.value = true
  edges : ∀ (i j : Nat) n m, g[i]? = some n → g[j]? = some m → ∀ e ∈ n.outEdges, e.toIndex = (j : Int) →
    0 ≤ e.weight ∧
    ((i < j ∧ S.edgeValid n.value m.value = true ∧ e.weight = S.distance n.value m.value) ∨
     (j < i ∧ S.edgeValid m.value n.value = true ∧
      e.weight = if S.symmetric then S.distance m.value n.value else S.distance n.value m.value))

/-- `g'` is `g` with every edge, in both copies, reweighted: to the distance between its two states if
the check accepts the edge, to infinity otherwise. Nothing else differs. -/
structure Reweighted (valid : ν → ν → Bool) (distance : ν → ν → W) (g g' : Graph ν W) : Prop where
  size : g'.length = g.length
  node : ∀ (i : Nat) n, g[i]? = some n → ∃ n', g'[i]? = some n' ∧
    n'.value = n.value ∧ n'.distance = n.distance ∧
    n'.outEdges.length = n.outEdges.length ∧ n'.inEdges.length = n.inEdges.length
  outEdge : ∀ (i : Nat) n n' (k : Nat) e m, g[i]? = some n → g'[i]? = some n' → n.outEdges[k]? = some e →
    NodeAt g e.toIndex m →
    ∃ w, n'.outEdges[k]? = some { e with weight := w } ∧
      (valid n.value m.value = true → w = distance n.value m.value) ∧
      (valid n.value m.value = false → w = Cost.inf)
  inEdge : ∀ (i : Nat) n n' (k : Nat) e m, g[i]? = some n → g'[i]? = some n' → n.inEdges[k]? = some e →
    NodeAt g e.fromIndex m →
    ∃ w, n'.inEdges[k]? = some { e with weight := w } ∧
      (valid m.value n.value = true → w = distance m.value n.value) ∧
      (valid m.value n.value = false → w = Cost.inf)

/-- Node `i` stands for `state`: it holds the state itself, or, where duplicates are not added, one at
distance zero. -/
def StandsFor (S : Setup ν W) (dir : Direction) (g : Graph ν W) (state : ν) (i : Int) : Prop :=
  ∃ n, NodeAt g i n ∧ (n.value = state ∨
    (S.addDuplicates = false ∧ queryDistance S dir state n.value = 0))

/-- `g'` has the nodes of `g` with the same states, and possibly more nodes. -/
def KeepsStates (g g' : Graph ν W) : Prop :=
  ∀ (i : Nat) n, g[i]? = some n → ∃ n', g'[i]? = some n' ∧ n'.value = n.value

/-- The states at the nodes `vs`. -/
def StatesAt (g : Graph ν W) (vs : List Nat) (path : List ν) : Prop :=
  vs.map (fun v : Nat => (g[v]?).map (·.value)) = path.map some

/-- The nodes `vs` follow edges of the graph to the goal; the weights, added up from the goal
backwards, make `c`. -/
inductive RouteVia (g : Graph ν W) (goal : Nat) : List Nat → W → Prop
  | here : RouteVia g goal [goal] 0
  | step {u v : Nat} {rest : List Nat} {w c : W} : Dijkstra.EdgeInto g v u w →
      RouteVia g goal (u :: rest) c → RouteVia g goal (v :: u :: rest) (c + w)

/-- The answer of a query with the start nodes `is` and the node `goal`: no start has a cheaper route to
the goal than the reported cost. Either no path and infinity are reported, or a finite cost and the
states along a route of this cost from a start to the goal, without repeated nodes. (If the start is
the goal's own node, the cost is zero and the state is listed twice.) -/
structure MultiAnswer (g : Graph ν W) (is : List Int) (goal : Nat) (path : List ν) (cost : W) : Prop where
  least : ∀ i ∈ is, ∀ c, Dijkstra.Route g goal i.toNat c → cost ≤ c
  found : (path = [] ∧ cost = Cost.inf) ∨
    (cost < Cost.inf ∧ ∃ v : Nat, (v : Int) ∈ is ∧
      ((v = goal ∧ cost = 0 ∧ StatesAt g [goal, goal] path) ∨
       (v ≠ goal ∧ ∃ vs, vs.head? = some v ∧ vs.getLast? = some goal ∧ vs.Nodup ∧
        RouteVia g goal vs cost ∧ StatesAt g vs path)))

/-- What the callers of the single-start queries assume of the distance: not negative, finite, zero
from a state to itself, the triangle inequality, and symmetry if they declare it. (`c + …` instead of
equations, so that rounded sums may satisfy it too.) -/
structure Metric (S : Setup ν W) : Prop where
  nonneg : ∀ a b, 0 ≤ S.distance a b
  finite : ∀ a b, S.distance a b < Cost.inf
  self : ∀ c a, c + S.distance a a ≤ c
  triangle : ∀ c a b t, c + S.distance a t ≤ c + S.distance a b + S.distance b t
  symm : S.symmetric = true → ∀ a b, S.distance a b = S.distance b a

/-- Every edge has the distance between its states as weight, or infinity (which is what
`UpdateRoadMapEdges` gives to edges that are no longer valid). -/
def WeightsAreDistances (S : Setup ν W) (g : Graph ν W) : Prop :=
  ∀ (i : Nat) n m, g[i]? = some n → ∀ e ∈ n.outEdges, NodeAt g e.toIndex m →
    e.weight = S.distance n.value m.value ∨ e.weight = Cost.inf

end Verif.Prm
