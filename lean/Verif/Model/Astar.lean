import Verif.Base.Cost
import Verif.Base.PQueue
import Verif.Model.Graph

/-!
# Model of the A* searches

include/arc_utilities/arc_helpers.hpp:669-819 (`AstarPQueueElement`, `ExtractAstarResult`,
`GenericAstarSearch`) and include/arc_utilities/dijkstras.hpp:149-276 (`SimpleGraphAstar`).

An `unordered_map` is a list of entries, the newest entry of a key first; older entries of the same
key are never read. The priority queue breaks ties by the stream `pick`, indexed by the round.
-/
namespace Verif.Astar
open Verif Verif.Graph

variable {ν W : Type} [Cost W]

/-- arc_helpers.hpp:669-687 `AstarPQueueElement` -/
structure Elem (W : Type) where
  id : Int
  backpointer : Int
  cost : W
  value : W
  deriving DecidableEq, Repr

/-- Entries of `explored`: node, backpointer, cost-to-come. Used for arc_helpers.hpp:717-727, 701-732. -/
abbrev Explored (W : Type) := List (Int × (Int × W))

/-- `map.count(key) && cost >= map[key]`. Used for dijkstras.hpp:213-236, 190-237. -/
def notWorse (found : Option W) (cost : W) : Bool :=
  match found with
  | some c => decide (c ≤ cost)
  | none => false

/-- arc_helpers.hpp:717-727: the loop that follows the backpointers; `none` when the fuel is used
up. The result is in the order of `push_back`. -/
def followBack (explored : Explored W) (start : Int) :
    Nat → Int → List Int → Option (Out (List Int))
  | fuel, backpointer, path =>
    if backpointer ≥ 0 then
      match fuel with
      | 0 => none
      | fuel + 1 =>
        let path := path ++ [backpointer]
        if backpointer = start then some (.ok path)
        else
          match explored.lookup backpointer with
          | none => some (.throws .outOfRange)
          | some data => followBack explored start fuel data.1 path
    else some (.ok path)

/-- arc_helpers.hpp:701-732 `ExtractAstarResult`; `fuel` bounds the rounds of its loop. -/
def extractAstarResult (fuel : Nat) (explored : Explored W) (start goal : Int) :
    Option (Out (List Int × W)) :=
  match explored.lookup goal with
  | none => some (.ok ([], Cost.inf))
  | some (backpointer, cost) =>
    match followBack explored start fuel backpointer [goal] with
    | none => none
    | some (.ok path) => some (.ok (path.reverse, cost))
    | some (.throws e) => some (.throws e)
    | some .abort => some .abort
    | some .ub => some .ub

/-- The local variables of the searches. Used for dijkstras.hpp:213-236, 208-236. -/
structure State (W : Type) where
  queue : List (Elem W)
  members : List (Int × W)
  explored : Explored W

/-! ## PerformLazyAstar -/

/-- The callbacks of dijkstras.hpp:149-155; they may throw. -/
structure Callbacks (ν W : Type) where
  valid : Graph ν W → Edge W → Out Bool
  distance : Graph ν W → Edge W → Out W
  heuristic : ν → ν → W

/-- dijkstras.hpp:168-170 `heuristic_function` -/
def graphHeuristic (g : Graph ν W) (cb : Callbacks ν W) (goal : Int) (nodeIndex : Int) : Out W := do
  let n ← getNode g nodeIndex
  let m ← getNode g goal
  .ok (cb.heuristic n.value m.value)

/-- dijkstras.hpp:213-236: the loop over the out edges -/
def lazyExpand (g : Graph ν W) (cb : Callbacks ν W) (goal : Int) (limit : Bool) (n : Elem W) :
    List (Edge W) → State W → Out (State W)
  | [], s => .ok s
  | e :: es, s => do
    let childId := e.toIndex
    let valid ← cb.valid g e
    if valid = false then lazyExpand g cb goal limit n es s
    else do
      let d ← cb.distance g e
      let childCost := n.cost + d
      if notWorse ((s.explored.lookup childId).map (·.2)) childCost then
        lazyExpand g cb goal limit n es s
      else if limit && notWorse (s.members.lookup childId) childCost then
        lazyExpand g cb goal limit n es s
      else do
        let h ← graphHeuristic g cb goal childId
        lazyExpand g cb goal limit n es
          { s with queue := s.queue ++ [⟨childId, n.id, childCost, childCost + h⟩] }

/-- dijkstras.hpp:208-236: exploring the node taken off the queue -/
def lazyExplore (g : Graph ν W) (cb : Callbacks ν W) (goal : Int) (limit : Bool) (n : Elem W)
    (s : State W) : Out (State W) := do
  let s := { s with explored := (n.id, (n.backpointer, n.cost)) :: s.explored }
  let node ← getNode g n.id
  lazyExpand g cb goal limit n node.outEdges s

/-- dijkstras.hpp:190-237: the main loop, ending with the explored map; `k` counts the rounds,
`none` when the fuel is used up. -/
def lazyLoop (g : Graph ν W) (cb : Callbacks ν W) (goal : Int) (limit : Bool) (pick : Nat → Nat) :
    Nat → Nat → State W → Option (Out (Explored W))
  | fuel, k, s =>
    match popMin Elem.value (pick k) s.queue with
    | none => some (.ok s.explored)
    | some (n, rest) =>
      match fuel with
      | 0 => none
      | fuel + 1 =>
        if n.id = goal then some (.ok ((n.id, (n.backpointer, n.cost)) :: s.explored))
        else
          let members := if limit then s.members.filter (fun m => m.1 ≠ n.id) else s.members
          if notWorse ((s.explored.lookup n.id).map (·.2)) n.cost then
            lazyLoop g cb goal limit pick fuel (k + 1) ⟨rest, members, s.explored⟩
          else
            match lazyExplore g cb goal limit n ⟨rest, members, s.explored⟩ with
            | .ok s' => lazyLoop g cb goal limit pick fuel (k + 1) s'
            | .throws e => some (.throws e)
            | .abort => some .abort
            | .ub => some .ub

/-- dijkstras.hpp:158-166: the argument checks -/
def lazyArgumentsBad (g : Graph ν W) (start goal : Int) : Bool :=
  decide (start < 0 ∨ start ≥ (g.length : Int)) || decide (goal < 0 ∨ goal ≥ (g.length : Int)) ||
    decide (start = goal)

/-- dijkstras.hpp:149-238 `PerformLazyAstar`; `fuel` bounds the rounds of each loop. -/
def performLazyAstar (fuel : Nat) (pick : Nat → Nat) (g : Graph ν W) (start goal : Int)
    (cb : Callbacks ν W) (limit : Bool) : Option (Out (List Int × W)) :=
  if lazyArgumentsBad g start goal then some (.throws .invalidArgument)
  else
    match graphHeuristic g cb goal start with
    | .ok h =>
      match lazyLoop g cb goal limit pick fuel 0
        ⟨[⟨start, -1, 0, h⟩], if limit then [(start, 0)] else [], []⟩ with
      | none => none
      | some (.ok explored) => extractAstarResult fuel explored start goal
      | some (.throws e) => some (.throws e)
      | some .abort => some .abort
      | some .ub => some .ub
    | .throws e => some (.throws e)
    | .abort => some .abort
    | .ub => some .ub

/-- dijkstras.hpp:246-253: the callbacks of the overload that works on node values -/
def valueCallbacks (valid : ν → ν → Bool) (distance heuristic : ν → ν → W) : Callbacks ν W where
  valid g e := do
    let n ← getNode g e.fromIndex
    let m ← getNode g e.toIndex
    .ok (valid n.value m.value)
  distance g e := do
    let n ← getNode g e.fromIndex
    let m ← getNode g e.toIndex
    .ok (distance n.value m.value)
  heuristic := heuristic

/-- dijkstras.hpp:240-256 `PerformLazyAstar`, the overload on node values -/
def performLazyAstarValues (fuel : Nat) (pick : Nat → Nat) (g : Graph ν W) (start goal : Int)
    (valid : ν → ν → Bool) (distance heuristic : ν → ν → W) (limit : Bool) :
    Option (Out (List Int × W)) :=
  performLazyAstar fuel pick g start goal (valueCallbacks valid distance heuristic) limit

/-- dijkstras.hpp:262-273: the callbacks of `PerformAstar` -/
def weightCallbacks (heuristic : ν → ν → W) : Callbacks ν W where
  valid _ e := .ok (if e.validity = INVALID then false else decide (e.weight < Cost.inf))
  distance _ e := .ok e.weight
  heuristic := heuristic

/-- dijkstras.hpp:258-276 `PerformAstar` -/
def performAstar (fuel : Nat) (pick : Nat → Nat) (g : Graph ν W) (start goal : Int)
    (heuristic : ν → ν → W) (limit : Bool) : Option (Out (List Int × W)) :=
  performLazyAstar fuel pick g start goal (weightCallbacks heuristic) limit

/-! ## GenericAstarSearch -/

/-- The callbacks of arc_helpers.hpp:734-740 -/
structure Generic (W : Type) where
  children : Int → List Int
  valid : Int → Int → Bool
  distance : Int → Int → W
  heuristic : Int → Int → W

/-- arc_helpers.hpp:783-814: the loop over the candidate children -/
def genericExpand (G : Generic W) (goal : Int) (limit : Bool) (top : Elem W) :
    List Int → State W → State W
  | [], s => s
  | childId :: rest, s =>
    if G.valid top.id childId then
      let childCost := top.cost + G.distance top.id childId
      let exploredIsBetter := notWorse ((s.explored.lookup childId).map (·.2)) childCost
      let queueIsBetter := limit && notWorse (s.members.lookup childId) childCost
      if !exploredIsBetter && !queueIsBetter then
        genericExpand G goal limit top rest
          { s with queue := s.queue ++
              [⟨childId, top.id, childCost, childCost + G.heuristic childId goal⟩] }
      else genericExpand G goal limit top rest s
    else genericExpand G goal limit top rest s

/-- arc_helpers.hpp:758-817: the main loop -/
def genericLoop (G : Generic W) (goal : Int) (limit : Bool) (pick : Nat → Nat) :
    Nat → Nat → State W → Option (Explored W)
  | fuel, k, s =>
    match popMin Elem.value (pick k) s.queue with
    | none => some s.explored
    | some (top, rest) =>
      match fuel with
      | 0 => none
      | fuel + 1 =>
        let members := if limit then s.members.filter (fun m => m.1 ≠ top.id) else s.members
        let exploredIsBetter := notWorse ((s.explored.lookup top.id).map (·.2)) top.cost
        if !exploredIsBetter then
          let explored := (top.id, (top.backpointer, top.cost)) :: s.explored
          if top.id = goal then some explored
          else genericLoop G goal limit pick fuel (k + 1)
            (genericExpand G goal limit top (G.children top.id) ⟨rest, members, explored⟩)
        else genericLoop G goal limit pick fuel (k + 1) ⟨rest, members, s.explored⟩

/-- arc_helpers.hpp:734-819 `GenericAstarSearch` -/
def genericAstarSearch (fuel : Nat) (pick : Nat → Nat) (G : Generic W) (start goal : Int)
    (limit : Bool) : Option (Out (List Int × W)) :=
  if start = goal then some (.throws .invalidArgument)
  else
    match genericLoop G goal limit pick fuel 0
      ⟨[⟨start, -1, 0, G.heuristic start goal⟩], if limit then [(start, 0)] else [], []⟩ with
    | none => none
    | some explored => extractAstarResult fuel explored start goal

end Verif.Astar
