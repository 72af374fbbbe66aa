import Verif.Spec.NanDijkstra
import Verif.Spec.NotANumber
import Verif.Spec.Prm

/-!
# Specification of roadmaps with distances that may not be a number

A distance or weight is `none` if it is not a number.
-/
namespace Verif.NanPrm
open Verif Verif.Graph Verif.NotANumber
open Verif.Prm (Direction Setup queryDistance StatesAt)

variable {ν W : Type} [Cost W]

/-- A new state is joined to the roadmap state `s` by an edge of weight `there` from `s` and an edge
of weight `back` to `s`: the edge check accepts, and the distances in the two directions are these numbers, and
not negative; if distances are declared symmetric, the one of the query counts twice. -/
def Joined (S : Setup ν (Option W)) (dir : Direction) (state s : ν) (there back : W) : Prop :=
  S.edgeValid s state = true ∧ 0 ≤ there ∧ 0 ≤ back ∧
  (S.symmetric = true → queryDistance S dir state s = some there ∧ back = there) ∧
  (S.symmetric = false → S.distance s state = some there ∧ S.distance state s = some back)

/-- `g'` is `g` with one more node, for `state`, and with the edges `es`: for each entry
`(j, there, back)` an edge from node `j` to the new node and an edge back, and nothing else changed. -/
structure Inserted (state : ν) (es : List (Int × W × W)) (g g' : Graph ν (Option W)) : Prop where
  size : g'.length = g.length + 1
  newNode : g'[g.length]? = some ⟨state, some Cost.inf,
    es.map (fun e => Edge.make e.1 (g.length : Int) (some e.2.1)),
    es.map (fun e => Edge.make (g.length : Int) e.1 (some e.2.2))⟩
  oldNodes : ∀ (j : Nat) n, g[j]? = some n → g'[j]? = some ⟨n.value, n.distance,
    n.inEdges ++ (es.filter (fun e => decide (e.1 = (j : Int)))).map
      (fun e => Edge.make (g.length : Int) (j : Int) (some e.2.2)),
    n.outEdges ++ (es.filter (fun e => decide (e.1 = (j : Int)))).map
      (fun e => Edge.make (j : Int) (g.length : Int) (some e.2.1))⟩

/-- Every weight is a number, and not negative. -/
def NumberWeights (g : Graph ν (Option W)) : Prop :=
  ∀ n ∈ g, ∀ e, e ∈ n.inEdges ∨ e ∈ n.outEdges → ∃ w, e.weight = some w ∧ 0 ≤ w

/-- `g'` is `g` with every edge, in both copies, reweighted: to the distance between its two states (which may
not be a number) if the check accepts the edge, to infinity otherwise. Nothing else differs. -/
structure Reweighted (valid : ν → ν → Bool) (distance : ν → ν → Option W) (g g' : Graph ν (Option W)) :
    Prop where
  size : g'.length = g.length
  node : ∀ (i : Nat) n, g[i]? = some n → ∃ n', g'[i]? = some n' ∧
    n'.value = n.value ∧ n'.distance = n.distance ∧
    n'.outEdges.length = n.outEdges.length ∧ n'.inEdges.length = n.inEdges.length
  outEdge : ∀ (i : Nat) n n' (k : Nat) e m, g[i]? = some n → g'[i]? = some n' → n.outEdges[k]? = some e →
    NodeAt g e.toIndex m →
    ∃ w, n'.outEdges[k]? = some { e with weight := w } ∧
      (valid n.value m.value = true → w = distance n.value m.value) ∧
      (valid n.value m.value = false → w = some Cost.inf)
  inEdge : ∀ (i : Nat) n n' (k : Nat) e m, g[i]? = some n → g'[i]? = some n' → n.inEdges[k]? = some e →
    NodeAt g e.fromIndex m →
    ∃ w, n'.inEdges[k]? = some { e with weight := w } ∧
      (valid m.value n.value = true → w = distance m.value n.value) ∧
      (valid m.value n.value = false → w = some Cost.inf)

/-- Node `i` stands for `state`: it holds the state itself, or, where duplicates are not added, one at
distance zero. -/
def StandsFor (S : Setup ν (Option W)) (dir : Direction) (g : Graph ν (Option W)) (state : ν) (i : Int) : Prop :=
  ∃ n, NodeAt g i n ∧ (n.value = state ∨
    (S.addDuplicates = false ∧ queryDistance S dir state n.value = some 0))

/-- The nodes `vs` follow edges whose weights are numbers to the goal; the weights, added up from the goal
backwards, make `c`. -/
inductive RouteVia (g : Graph ν (Option W)) (goal : Nat) : List Nat → W → Prop
  | here : RouteVia g goal [goal] 0
  | step {u v : Nat} {rest : List Nat} {w c : W} : NanDijkstra.EdgeInto g v u w →
      RouteVia g goal (u :: rest) c → RouteVia g goal (v :: u :: rest) (c + w)

/-- The answer of a query with the start nodes `is` and the node `goal`: no start has a cheaper route to
the goal, along edges whose weights are numbers, than the reported cost, which is a number. Either no path and
infinity are reported, or a finite cost and the states along such a route of this cost from a start to the goal,
without repeated nodes. (If the start is the goal's own node, the cost is zero and the state is listed twice.) -/
structure MultiAnswer (g : Graph ν (Option W)) (is : List Int) (goal : Nat) (path : List ν) (cost : W) : Prop where
  least : ∀ i ∈ is, ∀ c, NanDijkstra.Route g goal i.toNat c → cost ≤ c
  found : (path = [] ∧ cost = Cost.inf) ∨
    (cost < Cost.inf ∧ ∃ v : Nat, (v : Int) ∈ is ∧
      ((v = goal ∧ cost = 0 ∧ StatesAt g [goal, goal] path) ∨
       (v ≠ goal ∧ ∃ vs, vs.head? = some v ∧ vs.getLast? = some goal ∧ vs.Nodup ∧
        RouteVia g goal vs cost ∧ StatesAt g vs path)))

end Verif.NanPrm
