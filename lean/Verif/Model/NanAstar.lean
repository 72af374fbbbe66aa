import Verif.Base.Cost
import Verif.Base.NotANumber
import Verif.Base.PQueue
import Verif.Model.Graph

/-!
# Model of SimpleGraphAstar with costs that may not be a number

include/arc_utilities/dijkstras.hpp:149-276 (`SimpleGraphAstar`) and include/arc_utilities/arc_helpers.hpp:669-732
(`AstarPQueueElement`, `ExtractAstarResult`), as in `Verif.Model.Astar`, but weights, distances and heuristics may
be NaN (`none`). If the value of an entry of the priority queue is NaN, the order of the queue is not what
`std::priority_queue` demands; the model then lets any entry be on top, and the container is assumed to stay
intact.
-/
namespace Verif.NanAstar
open Verif Verif.Graph Verif.NotANumber

variable {ν W : Type} [Cost W]

/-- arc_helpers.hpp:669-687 `AstarPQueueElement` -/
structure Elem (W : Type) where
  id : Int
  backpointer : Int
  cost : Option W
  value : Option W
  deriving DecidableEq, Repr

/-- Entries of `explored`: node, backpointer, cost-to-come. Used for arc_helpers.hpp:717-727, 701-732. -/
abbrev Explored (W : Type) := List (Int × (Int × Option W))

/-- `map.count(key) && cost >= map[key]`: false if either cost is not a number. Used for
dijkstras.hpp:213-236, 190-237. -/
def notWorse (found : Option (Option W)) (cost : Option W) : Bool :=
  match found, cost with
  | some (some c), some d => decide (c ≤ d)
  | _, _ => false

/-- `queue.top()` and `queue.pop()` with the comparison of arc_helpers.hpp:689-694. Used for
dijkstras.hpp:190-194. -/
def pop (c : Nat) (queue : List (Elem W)) : Option (Elem W × List (Elem W)) :=
  if queue.all (fun e => e.value.isSome) then popMin (fun e => e.value.getD Cost.inf) c queue
  else
    match queue[c % queue.length]? with
    | none => none
    | some x => some (x, queue.eraseIdx (c % queue.length))

/-- arc_helpers.hpp:717-727: the loop that follows the backpointers; `none` when the fuel is used
up. The result is in the order of `push_back`. -/
def followBack (explored : Explored W) (start : Int) :
    Nat → Int → List Int → Option (Out (List Int))
  | fuel, backpointer, path =>
    if backpointer ≥ 0 then
      match fuel with
      | 0 => none
      | fuel + 1 =>
        let path := path ++ [backpointer]
        if backpointer = start then some (.ok path)
        else
          match explored.lookup backpointer with
          | none => some (.throws .outOfRange)
          | some data => followBack explored start fuel data.1 path
    else some (.ok path)

/-- arc_helpers.hpp:701-732 `ExtractAstarResult`; `fuel` bounds the rounds of its loop. -/
def extractAstarResult (fuel : Nat) (explored : Explored W) (start goal : Int) :
    Option (Out (List Int × Option W)) :=
  match explored.lookup goal with
  | none => some (.ok ([], some Cost.inf))
  | some (backpointer, cost) =>
    match followBack explored start fuel backpointer [goal] with
    | none => none
    | some (.ok path) => some (.ok (path.reverse, cost))
    | some (.throws e) => some (.throws e)
    | some .abort => some .abort
    | some .ub => some .ub

/-- The local variables of the search. Used for dijkstras.hpp:213-236, 208-236. -/
structure State (W : Type) where
  queue : List (Elem W)
  members : List (Int × Option W)
  explored : Explored W

/-- The callbacks of dijkstras.hpp:149-155; they may throw. -/
structure Callbacks (ν W : Type) where
  valid : Graph ν (Option W) → Edge (Option W) → Out Bool
  distance : Graph ν (Option W) → Edge (Option W) → Out (Option W)
  heuristic : ν → ν → Option W

/-- dijkstras.hpp:168-170 `heuristic_function` -/
def graphHeuristic (g : Graph ν (Option W)) (cb : Callbacks ν W) (goal : Int) (nodeIndex : Int) :
    Out (Option W) := do
  let n ← getNode g nodeIndex
  let m ← getNode g goal
  .ok (cb.heuristic n.value m.value)

/-- dijkstras.hpp:213-236: the loop over the out edges -/
def lazyExpand (g : Graph ν (Option W)) (cb : Callbacks ν W) (goal : Int) (limit : Bool) (n : Elem W) :
    List (Edge (Option W)) → State W → Out (State W)
  | [], s => .ok s
  | e :: es, s => do
    let childId := e.toIndex
    let valid ← cb.valid g e
    if valid = false then lazyExpand g cb goal limit n es s
    else do
      let d ← cb.distance g e
      let childCost := add n.cost d
      if notWorse ((s.explored.lookup childId).map (·.2)) childCost then
        lazyExpand g cb goal limit n es s
      else if limit && notWorse (s.members.lookup childId) childCost then
        lazyExpand g cb goal limit n es s
      else do
        let h ← graphHeuristic g cb goal childId
        lazyExpand g cb goal limit n es
          { s with queue := s.queue ++ [⟨childId, n.id, childCost, add childCost h⟩] }

/-- dijkstras.hpp:208-236: exploring the node taken off the queue -/
def lazyExplore (g : Graph ν (Option W)) (cb : Callbacks ν W) (goal : Int) (limit : Bool) (n : Elem W)
    (s : State W) : Out (State W) := do
  let s := { s with explored := (n.id, (n.backpointer, n.cost)) :: s.explored }
  let node ← getNode g n.id
  lazyExpand g cb goal limit n node.outEdges s

/-- dijkstras.hpp:190-237: the main loop, ending with the explored map; `k` counts the rounds,
`none` when the fuel is used up. -/
def lazyLoop (g : Graph ν (Option W)) (cb : Callbacks ν W) (goal : Int) (limit : Bool) (pick : Nat → Nat) :
    Nat → Nat → State W → Option (Out (Explored W))
  | fuel, k, s =>
    match pop (pick k) s.queue with
    | none => some (.ok s.explored)
    | some (n, rest) =>
      match fuel with
      | 0 => none
      | fuel + 1 =>
        if n.id = goal then some (.ok ((n.id, (n.backpointer, n.cost)) :: s.explored))
        else
          let members := if limit then s.members.filter (fun m => m.1 ≠ n.id) else s.members
          if notWorse ((s.explored.lookup n.id).map (·.2)) n.cost then
            lazyLoop g cb goal limit pick fuel (k + 1) ⟨rest, members, s.explored⟩
          else
            match lazyExplore g cb goal limit n ⟨rest, members, s.explored⟩ with
            | .ok s' => lazyLoop g cb goal limit pick fuel (k + 1) s'
            | .throws e => some (.throws e)
            | .abort => some .abort
            | .ub => some .ub

/-- dijkstras.hpp:158-166: the argument checks -/
def lazyArgumentsBad (g : Graph ν (Option W)) (start goal : Int) : Bool :=
  decide (start < 0 ∨ start ≥ (g.length : Int)) || decide (goal < 0 ∨ goal ≥ (g.length : Int)) ||
    decide (start = goal)

/-- dijkstras.hpp:149-238 `PerformLazyAstar`; `fuel` bounds the rounds of each loop. -/
def performLazyAstar (fuel : Nat) (pick : Nat → Nat) (g : Graph ν (Option W)) (start goal : Int)
    (cb : Callbacks ν W) (limit : Bool) : Option (Out (List Int × Option W)) :=
  if lazyArgumentsBad g start goal then some (.throws .invalidArgument)
  else
    match graphHeuristic g cb goal start with
    | .ok h =>
      match lazyLoop g cb goal limit pick fuel 0
        ⟨[⟨start, -1, some 0, h⟩], if limit then [(start, some 0)] else [], []⟩ with
      | none => none
      | some (.ok explored) => extractAstarResult fuel explored start goal
      | some (.throws e) => some (.throws e)
      | some .abort => some .abort
      | some .ub => some .ub
    | .throws e => some (.throws e)
    | .abort => some .abort
    | .ub => some .ub

/-- dijkstras.hpp:246-253: the callbacks of the overload that works on node values -/
def valueCallbacks (valid : ν → ν → Bool) (distance heuristic : ν → ν → Option W) : Callbacks ν W where
  valid g e := do
    let n ← getNode g e.fromIndex
    let m ← getNode g e.toIndex
    .ok (valid n.value m.value)
  distance g e := do
    let n ← getNode g e.fromIndex
    let m ← getNode g e.toIndex
    .ok (distance n.value m.value)
  heuristic := heuristic

/-- dijkstras.hpp:240-256 `PerformLazyAstar`, the overload on node values -/
def performLazyAstarValues (fuel : Nat) (pick : Nat → Nat) (g : Graph ν (Option W)) (start goal : Int)
    (valid : ν → ν → Bool) (distance heuristic : ν → ν → Option W) (limit : Bool) :
    Option (Out (List Int × Option W)) :=
  performLazyAstar fuel pick g start goal (valueCallbacks valid distance heuristic) limit

/-- dijkstras.hpp:262-273: the callbacks of `PerformAstar`; a weight that is not a number is not below
infinity -/
def weightCallbacks (heuristic : ν → ν → Option W) : Callbacks ν W where
  valid _ e := .ok (if e.validity = INVALID then false else lt e.weight (some Cost.inf))
  distance _ e := .ok e.weight
  heuristic := heuristic

/-- dijkstras.hpp:258-276 `PerformAstar` -/
def performAstar (fuel : Nat) (pick : Nat → Nat) (g : Graph ν (Option W)) (start goal : Int)
    (heuristic : ν → ν → Option W) (limit : Bool) : Option (Out (List Int × Option W)) :=
  performLazyAstar fuel pick g start goal (weightCallbacks heuristic) limit

end Verif.NanAstar
