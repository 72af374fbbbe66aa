import Verif.Base.Cost
import Verif.Base.NotANumber
import Verif.Base.PQueue
import Verif.Model.Graph

/-!
# Model of SimpleDijkstrasAlgorithm with weights that may not be a number

include/arc_utilities/dijkstras.hpp:14-90, as in `Verif.Model.Dijkstra`, but weights and stored distances may be
NaN (`none`). Distances on the queue are numbers: an entry is pushed only if its distance was found to be
smaller than another one (line 68), and the first ones are infinity and zero (lines 42, 47).
-/
namespace Verif.NanDijkstra
open Verif Verif.Graph Verif.NotANumber

variable {ν W : Type} [Cost W]

/-- The local variables of dijkstras.hpp:34-48. `explored` is the set of keys with value 1. -/
structure State (ν W : Type) where
  working : Graph ν (Option W)
  previous : List Int
  distances : List (Option W)
  queue : List (Int × W)
  explored : List Int

/-- dijkstras.hpp:64-86: the loop over the in edges of the node just explored. In line 68 a new distance that
is not a number is not smaller than anything. -/
def relaxEdges (topIndex : Int) (topDistance : W) :
    List (Edge (Option W)) → State ν W → Out (State ν W)
  | [], s => .ok s
  | e :: es, s => do
    let neighborIndex := e.fromIndex
    let neighbor ← getNode s.working neighborIndex
    match add (some topDistance) e.weight with
    | none => relaxEdges topIndex topDistance es s
    | some newDistance =>
      if lt (some newDistance) neighbor.distance then
        let working := s.working.modify neighborIndex.toNat (Node.setDistance (some newDistance))
        let queue := if neighborIndex ∈ s.explored then s.queue
          else s.queue ++ [(neighborIndex, newDistance)]
        relaxEdges topIndex topDistance es
          { s with
            working := working
            queue := queue
            previous := s.previous.set neighborIndex.toNat topIndex
            distances := s.distances.set neighborIndex.toNat (some newDistance) }
      else relaxEdges topIndex topDistance es s

/-- dijkstras.hpp:58-86: exploring a node taken off the queue -/
def explore (topIndex : Int) (topDistance : W) (s : State ν W) : Out (State ν W) := do
  let s := { s with explored := topIndex :: s.explored }
  let n ← getNode s.working topIndex
  relaxEdges topIndex topDistance n.inEdges s

/-- dijkstras.hpp:49-88: the main loop; `none` when the fuel is used up -/
def mainLoop (pick : Nat → Nat) : Nat → State ν W → Option (Out (State ν W))
  | fuel, s =>
    match popMin (·.2) (pick fuel) s.queue with
    | none => some (.ok s)
    | some ((topIndex, topDistance), rest) =>
      match fuel with
      | 0 => none
      | fuel + 1 =>
        if topIndex ∈ s.explored then mainLoop pick fuel { s with queue := rest }
        else
          match explore topIndex topDistance { s with queue := rest } with
          | .ok s' => mainLoop pick fuel s'
          | .throws e => some (.throws e)
          | .abort => some .abort
          | .ub => some .ub

/-- dijkstras.hpp:34-48: the variables before the main loop -/
def initState (g : Graph ν (Option W)) (start : Nat) : State ν W where
  working := (g.map (Node.setDistance (some Cost.inf))).modify start (Node.setDistance (some 0))
  previous := (List.replicate g.length (-1)).set start (start : Int)
  distances := (List.replicate g.length (some Cost.inf)).set start (some 0)
  queue := (List.range g.length).map (fun i : Nat => ((i : Int), Cost.inf)) ++ [((start : Int), 0)]
  explored := []

/-- Rounds of the main loop that are enough. Used for dijkstras.hpp:30-90. -/
def rounds (g : Graph ν (Option W)) : Nat := g.length + 1 + (g.map (fun n => n.inEdges.length)).sum

/-- dijkstras.hpp:30-90 `PerformDijkstrasAlgorithm`: the graph with distances, the predecessor
indices and the distances -/
def performDijkstras (pick : Nat → Nat) (g : Graph ν (Option W)) (startIndex : Int) :
    Option (Out (Graph ν (Option W) × List Int × List (Option W))) :=
  if startIndex < 0 ∨ startIndex ≥ (g.length : Int) then some (.throws .invalidArgument)
  else
    match mainLoop pick (rounds g) (initState g startIndex.toNat) with
    | none => none
    | some (.ok s) => some (.ok (s.working, s.previous, s.distances))
    | some (.throws e) => some (.throws e)
    | some .abort => some .abort
    | some .ub => some .ub

end Verif.NanDijkstra
