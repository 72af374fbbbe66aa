import Verif.Base.Cost
import Verif.Base.PQueue
import Verif.Model.Graph

/-!
# Model of SimpleDijkstrasAlgorithm (include/arc_utilities/dijkstras.hpp:14-90)

Distances are values of a `Cost` type. The priority queue breaks ties by the stream `pick`.
-/
namespace Verif.Dijkstra
open Verif Verif.Graph

variable {ν W : Type} [Cost W]

/-- The local variables of dijkstras.hpp:34-48. `explored` is the set of keys with value 1. -/
structure State (ν W : Type) where
  working : Graph ν W
  previous : List Int
  distances : List W
  queue : List (Int × W)
  explored : List Int

/-- dijkstras.hpp:64-86: the loop over the in edges of the node just explored -/
def relaxEdges (topIndex : Int) (topDistance : W) :
    List (Edge W) → State ν W → Out (State ν W)
  | [], s => .ok s
  | e :: es, s => do
    let neighborIndex := e.fromIndex
    let newDistance := topDistance + e.weight
    let neighbor ← getNode s.working neighborIndex
    if newDistance < neighbor.distance then
      let working := s.working.modify neighborIndex.toNat (Node.setDistance newDistance)
      let queue := if neighborIndex ∈ s.explored then s.queue
        else s.queue ++ [(neighborIndex, newDistance)]
      relaxEdges topIndex topDistance es
        { s with
          working := working
          queue := queue
          previous := s.previous.set neighborIndex.toNat topIndex
          distances := s.distances.set neighborIndex.toNat newDistance }
    else relaxEdges topIndex topDistance es s

/-- dijkstras.hpp:58-86: exploring a node taken off the queue -/
def explore (topIndex : Int) (topDistance : W) (s : State ν W) : Out (State ν W) := do
  let s := { s with explored := topIndex :: s.explored }
  let n ← getNode s.working topIndex
  relaxEdges topIndex topDistance n.inEdges s

/-- dijkstras.hpp:49-88: the main loop; `none` when the fuel is used up -/
def mainLoop (pick : Nat → Nat) : Nat → State ν W → Option (Out (State ν W))
  | fuel, s =>
    match popMin (·.2) (pick fuel) s.queue with
    | none => some (.ok s)
    | some ((topIndex, topDistance), rest) =>
      match fuel with
      | 0 => none
      | fuel + 1 =>
        if topIndex ∈ s.explored then mainLoop pick fuel { s with queue := rest }
        else
          match explore topIndex topDistance { s with queue := rest } with
          | .ok s' => mainLoop pick fuel s'
          | .throws e => some (.throws e)
          | .abort => some .abort
          | .ub => some .ub

/-- dijkstras.hpp:34-48: the variables before the main loop -/
def initState (g : Graph ν W) (start : Nat) : State ν W where
  working := (g.map (Node.setDistance Cost.inf)).modify start (Node.setDistance 0)
  previous := (List.replicate g.length (-1)).set start (start : Int)
  distances := (List.replicate g.length Cost.inf).set start 0
  queue := (List.range g.length).map (fun i : Nat => ((i : Int), Cost.inf)) ++ [((start : Int), 0)]
  explored := []

/-- Rounds of the main loop that are enough: every round takes one entry off the queue, and an entry
is added at most once per in edge (proved: `C16_terminates`). Used for dijkstras.hpp:30-90. -/
def rounds (g : Graph ν W) : Nat := g.length + 1 + (g.map (fun n => n.inEdges.length)).sum

/-- dijkstras.hpp:30-90 `PerformDijkstrasAlgorithm`: the graph with distances, the predecessor
indices and the distances -/
def performDijkstras (pick : Nat → Nat) (g : Graph ν W) (startIndex : Int) :
    Option (Out (Graph ν W × List Int × List W)) :=
  if startIndex < 0 ∨ startIndex ≥ (g.length : Int) then some (.throws .invalidArgument)
  else
    match mainLoop pick (rounds g) (initState g startIndex.toNat) with
    | none => none
    | some (.ok s) => some (.ok (s.working, s.previous, s.distances))
    | some (.throws e) => some (.throws e)
    | some .abort => some .abort
    | some .ub => some .ub

end Verif.Dijkstra
