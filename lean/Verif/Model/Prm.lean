import Verif.Base.Cost
import Verif.Base.State
import Verif.Model.Graph
import Verif.Model.Knn
import Verif.Model.Dijkstra
import Verif.Model.Astar

/-!
# Model of include/arc_utilities/simple_prm_planner.hpp

The callbacks are functions of their arguments. `assert` is enabled. `isinf` is being equal to
infinity.
-/
namespace Verif.Prm
open Verif Verif.Graph Verif.Knn

variable {ν W : Type} [Cost W]

/-- simple_prm_planner.hpp:19 `NNDistanceDirection` -/
inductive Direction where
  | roadmapToNewState
  | newStateToRoadmap
  deriving DecidableEq

/-- How one call of `AddNodeToRoadmap` runs its nearest-neighbour query (`ENABLE_PARALLEL_ROADMAP`,
simple_prm_planner.hpp:39-45), depending on the number of nodes: `none` is the serial code, `some s`
the code with OpenMP under schedule `s`. -/
abbrev Threads := Nat → Option (List (List Nat))

/-- The arguments that the planner's functions share. Used for simple_prm_planner.hpp:28-37, 39-45. -/
structure Setup (ν W : Type) where
  distance : ν → ν → W
  edgeValid : ν → ν → Bool
  K : Nat
  symmetric : Bool
  addDuplicates : Bool

/-- simple_prm_planner.hpp:28-37 `graph_distance_fn` -/
def graphDistance (S : Setup ν W) (dir : Direction) (node : Node ν W) (query : ν) : W :=
  match dir with
  | .roadmapToNewState => S.distance node.value query
  | .newStateToRoadmap => S.distance query node.value

/-- simple_prm_planner.hpp:39-45: the nearest-neighbour query -/
def nearestNeighbors (S : Setup ν W) (threads : Threads) (dir : Direction)
    (roadmap : Graph ν W) (state : ν) : Out (List (Int × W)) :=
  match threads roadmap.length with
  | none => kNearestSerial roadmap state (graphDistance S dir) S.K
  | some s => kNearestParallel s roadmap state (graphDistance S dir) S.K

/-- simple_prm_planner.hpp:48-53: the first neighbour at distance zero -/
def findDuplicate : List (Int × W) → Option Int
  | [] => none
  | x :: xs => if x.2 = 0 then some x.1 else findDuplicate xs

/-- simple_prm_planner.hpp:63-82: the weights of the two edges to one neighbour, towards the new node
and back; `none` stands for `(-1.0, -1.0)`. The condition on line 74 repeats the one on line 72. -/
def neighborDistances (S : Setup ν W) (dir : Direction) (state : ν) (roadmap : Graph ν W)
    (neighbor : Int × W) : Out (Option (W × W)) := do
  let node ← getNode roadmap neighbor.1
  if S.edgeValid node.value state then
    if S.symmetric then .ok (some (neighbor.2, neighbor.2))
    else
      let reverse := S.distance state node.value
      if dir = .roadmapToNewState then .ok (some (neighbor.2, reverse))
      else .abort
  else .ok none

/-- simple_prm_planner.hpp:62-83: the loop over the neighbours. With OpenMP every iteration writes
only its own entry. -/
def allNeighborDistances (S : Setup ν W) (dir : Direction) (state : ν) (roadmap : Graph ν W) :
    List (Int × W) → Out (List (Option (W × W)))
  | [] => .ok []
  | x :: xs => do
    let d ← neighborDistances S dir state roadmap x
    let ds ← allNeighborDistances S dir state roadmap xs
    .ok (d :: ds)

/-- simple_prm_planner.hpp:85-94: adding the edges -/
def addNeighborEdges (newNode : Int) : List ((Int × W) × Option (W × W)) → M (Graph ν W) Unit
  | [] => pure ()
  | (neighbor, some (there, back)) :: rest =>
    if 0 ≤ there ∧ 0 ≤ back then do
      let _ ← addEdgeBetweenNodes neighbor.1 newNode there
      let _ ← addEdgeBetweenNodes newNode neighbor.1 back
      addNeighborEdges newNode rest
    else addNeighborEdges newNode rest
  | (_, none) :: rest => addNeighborEdges newNode rest

/-- simple_prm_planner.hpp:55-95: adding the node, after the query -/
def insertNode (S : Setup ν W) (dir : Direction) (state : ν) (neighbors : List (Int × W)) :
    M (Graph ν W) Int := do
  let newNode ← addNode Cost.inf state
  let roadmap ← M.get
  let distances ← M.lift (allNeighborDistances S dir state roadmap neighbors)
  addNeighborEdges newNode (neighbors.zip distances)
  pure newNode

/-- simple_prm_planner.hpp:46-54: the index returned without adding a node -/
def duplicateOf (S : Setup ν W) (neighbors : List (Int × W)) : Option Int :=
  if S.addDuplicates = false then findDuplicate neighbors else none

/-- simple_prm_planner.hpp:22-96 `AddNodeToRoadmap` -/
def addNodeToRoadmap (S : Setup ν W) (threads : Threads) (dir : Direction)
    (state : ν) : M (Graph ν W) Int := do
  let roadmap ← M.get
  let neighbors ← M.lift (nearestNeighbors S threads dir roadmap state)
  match duplicateOf S neighbors with
  | some index => pure index
  | none => insertNode S dir state neighbors

/-- simple_prm_planner.hpp:99-109 `ExtractSolutionPath` -/
def extractSolutionPath (roadmap : Graph ν W) : List Int → Out (List ν)
  | [] => .ok []
  | i :: is => do
    let node ← getNode roadmap i
    let rest ← extractSolutionPath roadmap is
    .ok (node.value :: rest)

/-- simple_prm_planner.hpp:113-126 `ExtendRoadMap`: `draws` are the states sampled before the
termination check answers, each with how its query is run. -/
def extendRoadMap (S : Setup ν W) (stateValid : ν → Bool) :
    List (ν × Threads) → M (Graph ν W) Unit
  | [] => pure ()
  | (state, threads) :: draws =>
    if stateValid state then do
      let _ ← addNodeToRoadmap S threads .roadmapToNewState state
      extendRoadMap S stateValid draws
    else extendRoadMap S stateValid draws

/-- simple_prm_planner.hpp:129-139 `BuildRoadMap` -/
def buildRoadMap (S : Setup ν W) (stateValid : ν → Bool)
    (draws : List (ν × Threads)) : Out (Graph ν W) :=
  match extendRoadMap S stateValid draws [] with
  | (.ok (), roadmap) => .ok roadmap
  | (.throws e, _) => .throws e
  | (.abort, _) => .abort
  | (.ub, _) => .ub

/-- graph.hpp:97 `setWeight` -/
def setWeight (w : W) (e : Edge W) : Edge W := { e with weight := w }

/-- simple_prm_planner.hpp:160-163: the weight an edge gets -/
def updatedWeight (valid : ν → ν → Bool) (distance : ν → ν → W) (a b : ν) : W :=
  if valid a b then distance a b else Cost.inf

/-- simple_prm_planner.hpp:167-172: the in edges that come from the current node get the weight -/
def setInWeights (current : Nat) (w : W) (es : List (Edge W)) : List (Edge W) :=
  es.map (fun e => if e.fromIndex = (current : Int) then setWeight w e else e)

/-- simple_prm_planner.hpp:154-173: the loop over the out edges of the current node, from edge number
`k` on; `count` edges are left. -/
def updateOutEdges (valid : ν → ν → Bool) (distance : ν → ν → W) (current : Nat) :
    Nat → Nat → Graph ν W → Out (Graph ν W)
  | 0, _, g => .ok g
  | count + 1, k, g => do
    let node ← getNode g (current : Int)
    match node.outEdges[k]? with
    | none => .ub
    | some e => do
      let other ← getNode g e.toIndex
      let w := updatedWeight valid distance node.value other.value
      let g := g.modify current (fun n => { n with outEdges := n.outEdges.modify k (setWeight w) })
      let g := g.modify e.toIndex.toNat
        (fun n => { n with inEdges := setInWeights current w n.inEdges })
      updateOutEdges valid distance current count (k + 1) g

/-- simple_prm_planner.hpp:151-174: the loop over the nodes, in the given order -/
def updateNodes (valid : ν → ν → Bool) (distance : ν → ν → W) :
    List Nat → Graph ν W → Out (Graph ν W)
  | [], g => .ok g
  | i :: is, g => do
    let node ← getNode g (i : Int)
    let g ← updateOutEdges valid distance i node.outEdges.length 0 g
    updateNodes valid distance is g

/-- simple_prm_planner.hpp:142-175 `UpdateRoadMapEdges`; `order` is the order in which the nodes are
visited (`0, 1, …` in the serial code). -/
def updateRoadMapEdges (valid : ν → ν → Bool) (distance : ν → ν → W) (order : List Nat)
    (g : Graph ν W) : Out (Graph ν W) := do
  let linked ← checkGraphLinkage g
  if linked = false then .throws .invalidArgument
  else updateNodes valid distance order g

/-- simple_prm_planner.hpp:185-190: adding the start states -/
def addStarts (S : Setup ν W) : List (ν × Threads) → M (Graph ν W) (List Int)
  | [] => pure []
  | (state, threads) :: rest => do
    let i ← addNodeToRoadmap S threads .newStateToRoadmap state
    let is ← addStarts S rest
    pure (i :: is)

/-- simple_prm_planner.hpp:202-209: the start with the least distance -/
def bestStart (distances : List W) : List Int → Int × W → Out (Int × W)
  | [], best => .ok best
  | i :: is, best =>
    if i < 0 then .ub
    else match distances[i.toNat]? with
      | none => .ub
      | some d => bestStart distances is (if d < best.2 then (i, d) else best)

/-- simple_prm_planner.hpp:218-227: following the predecessors; `none` when the fuel is used up. The
list is in the order of `push_back`. -/
def followPrevious (previous : List Int) (goal : Int) : Nat → Int → Option (Out (List Int))
  | fuel, index =>
    if index ≥ 0 then
      match fuel with
      | 0 => none
      | fuel + 1 =>
        if index = goal then some (.ok [index])
        else
          match previous[index.toNat]? with
          | none => some .ub
          | some next =>
            match followPrevious previous goal fuel next with
            | none => none
            | some (.ok rest) => some (.ok (index :: rest))
            | some (.throws e) => some (.throws e)
            | some .abort => some .abort
            | some .ub => some .ub
    else some (.ok [])

/-- simple_prm_planner.hpp:213-230: the answer, from the results of Dijkstra's algorithm -/
def multiStartAnswer (roadmap : Graph ν W) (previous : List Int) (goal : Int) (best : Int × W) :
    Option (Out (List ν × W)) :=
  if best.2 = Cost.inf then some (.ok ([], Cost.inf))
  else if best.1 < 0 then some .ub
  else match previous[best.1.toNat]? with
    | none => some .ub
    | some next =>
      match followPrevious previous goal (previous.length + 1) next with
      | none => none
      | some (.ok rest) =>
        some (do
          let path ← extractSolutionPath roadmap (best.1 :: rest)
          .ok (path, best.2))
      | some (.throws e) => some (.throws e)
      | some .abort => some .abort
      | some .ub => some .ub

/-- simple_prm_planner.hpp:195-230: the search, when the nodes have been added -/
def multiStartSearch (pick : Nat → Nat) (roadmap : Graph ν W) (starts : List Int) (goal : Int) :
    Option (Out (List ν × W)) :=
  match Dijkstra.performDijkstras pick roadmap goal with
  | none => none
  | some (.throws e) => some (.throws e)
  | some .abort => some .abort
  | some .ub => some .ub
  | some (.ok (_, previous, distances)) =>
    match bestStart distances starts (-1, Cost.inf) with
    | .throws e => some (.throws e)
    | .abort => some .abort
    | .ub => some .ub
    | .ok best => multiStartAnswer roadmap previous goal best

/-- simple_prm_planner.hpp:178-231 `QueryPathAndAddNodesMultiStartSingleGoal`: the answer and the
roadmap afterwards. The starts and the goal come with how their queries are run; `pick` breaks the
ties in Dijkstra's algorithm. -/
def queryMultiStart (S : Setup ν W) (pick : Nat → Nat) (starts : List (ν × Threads))
    (goal : ν × Threads) (roadmap : Graph ν W) :
    Option (Out (List ν × W)) × Graph ν W :=
  match (do
      let is ← addStarts S starts
      let j ← addNodeToRoadmap S goal.2 .roadmapToNewState goal.1
      pure (is, j) : M (Graph ν W) (List Int × Int)) roadmap with
  | (.ok (is, j), roadmap') => (multiStartSearch pick roadmap' is j, roadmap')
  | (.throws e, roadmap') => (some (.throws e), roadmap')
  | (.abort, roadmap') => (some .abort, roadmap')
  | (.ub, roadmap') => (some .ub, roadmap')

/-- simple_prm_planner.hpp:252-261 and 284-286: the states of the path found by A* -/
def astarAnswer (roadmap : Graph ν W) : Option (Out (List Int × W)) → Option (Out (List ν × W))
  | none => none
  | some (.ok (path, cost)) => some (do
      let states ← extractSolutionPath roadmap path
      .ok (states, cost))
  | some (.throws e) => some (.throws e)
  | some .abort => some .abort
  | some .ub => some .ub

/-- simple_prm_planner.hpp:234-287 `QueryPathAndAddNodesSingleStartSingleGoal` (`lazy = false`) and
`LazyQueryPathAndAddNodesSingleStartSingleGoal` (`lazy = true`); `fuel` bounds the rounds of A*. -/
def querySingle (S : Setup ν W) (lazy : Bool) (fuel : Nat) (pick : Nat → Nat) (limit : Bool)
    (start goal : ν × Threads) (roadmap : Graph ν W) :
    Option (Out (List ν × W)) × Graph ν W :=
  match (do
      let i ← addNodeToRoadmap S start.2 .newStateToRoadmap start.1
      let j ← addNodeToRoadmap S goal.2 .roadmapToNewState goal.1
      pure (i, j) : M (Graph ν W) (Int × Int)) roadmap with
  | (.ok (i, j), roadmap') =>
    (astarAnswer roadmap'
      (if lazy then
        Astar.performLazyAstarValues fuel pick roadmap' i j S.edgeValid S.distance S.distance limit
      else Astar.performAstar fuel pick roadmap' i j S.distance limit), roadmap')
  | (.throws e, roadmap') => (some (.throws e), roadmap')
  | (.abort, roadmap') => (some .abort, roadmap')
  | (.ub, roadmap') => (some .ub, roadmap')

/-- simple_prm_planner.hpp:325-338: the best of the answers for the goals. The index of the best
answer is replaced by the answer itself. -/
def bestSolution : List (List ν × W) → List ν × W → List ν × W
  | [], best => best
  | s :: rest, best => bestSolution rest (if s.2 < best.2 then s else best)

/-- simple_prm_planner.hpp:319-324 with 342-350: the answers for the goals one by one, each on a copy of
the roadmap -/
def solutionsForGoals (S : Setup ν W) (pick : Nat → Nat)
    (starts : List (ν × Threads)) (roadmap : Graph ν W) :
    List (ν × Threads) → Option (Out (List (List ν × W)))
  | [] => some (.ok [])
  | goal :: goals =>
    match (queryMultiStart S pick starts goal roadmap).1 with
    | none => none
    | some (.throws e) => some (.throws e)
    | some .abort => some .abort
    | some .ub => some .ub
    | some (.ok s) =>
      match solutionsForGoals S pick starts roadmap goals with
      | none => none
      | some (.ok rest) => some (.ok (s :: rest))
      | some (.throws e) => some (.throws e)
      | some .abort => some .abort
      | some .ub => some .ub

/-- simple_prm_planner.hpp:313-339 `QueryPathMultiStartMultiGoal` -/
def queryMultiMulti (S : Setup ν W) (pick : Nat → Nat) (starts goals : List (ν × Threads))
    (roadmap : Graph ν W) : Option (Out (List ν × W)) :=
  match solutionsForGoals S pick starts roadmap goals with
  | none => none
  | some (.ok solutions) => some (.ok (bestSolution solutions ([], Cost.inf)))
  | some (.throws e) => some (.throws e)
  | some .abort => some .abort
  | some .ub => some .ub

end Verif.Prm
