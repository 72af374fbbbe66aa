import Verif.Model.NanAstar
import Verif.Model.NanDijkstra
import Verif.Model.NanKnn
import Verif.Model.Prm

/-!
# Model of roadmaps with distances that may not be a number

include/arc_utilities/simple_prm_planner.hpp:22-287 and 313-350, as in `Verif.Model.Prm`, but the distance function may return
NaN (`none`). Where nothing is compared with a distance, the definitions of `Verif.Model.Prm` are used.
-/
namespace Verif.NanPrm
open Verif Verif.Graph Verif.NotANumber
open Verif.Prm (Direction Threads Setup graphDistance allNeighborDistances setWeight setInWeights
  followPrevious extractSolutionPath)

variable {ν W : Type} [Cost W]

/-- simple_prm_planner.hpp:39-45: the nearest-neighbour query -/
def nearestNeighbors (S : Setup ν (Option W)) (threads : Threads) (dir : Direction)
    (roadmap : Graph ν (Option W)) (state : ν) : Out (List (Int × Option W)) :=
  match threads roadmap.length with
  | none => NanKnn.kNearestSerial roadmap state (graphDistance S dir) S.K
  | some s => NanKnn.kNearestParallel s roadmap state (graphDistance S dir) S.K

/-- simple_prm_planner.hpp:48-53: the first neighbour at distance zero; what is not a number is not equal to
zero -/
def findDuplicate : List (Int × Option W) → Option Int
  | [] => none
  | x :: xs => if x.2 = some 0 then some x.1 else findDuplicate xs

/-- `d >= 0.0`: false if `d` is not a number. Used for simple_prm_planner.hpp:89. -/
def notNegative (d : Option W) : Bool :=
  match d with
  | some d => decide (0 ≤ d)
  | none => false

/-- simple_prm_planner.hpp:85-94: adding the edges; `none` stands for `(-1.0, -1.0)`. -/
def addNeighborEdges (newNode : Int) :
    List ((Int × Option W) × Option (Option W × Option W)) → M (Graph ν (Option W)) Unit
  | [] => pure ()
  | (neighbor, some (there, back)) :: rest =>
    if notNegative there && notNegative back then do
      let _ ← addEdgeBetweenNodes neighbor.1 newNode there
      let _ ← addEdgeBetweenNodes newNode neighbor.1 back
      addNeighborEdges newNode rest
    else addNeighborEdges newNode rest
  | (_, none) :: rest => addNeighborEdges newNode rest

/-- simple_prm_planner.hpp:55-95: adding the node, after the query -/
def insertNode (S : Setup ν (Option W)) (dir : Direction) (state : ν) (neighbors : List (Int × Option W)) :
    M (Graph ν (Option W)) Int := do
  let newNode ← addNode (some Cost.inf) state
  let roadmap ← M.get
  let distances ← M.lift (allNeighborDistances S dir state roadmap neighbors)
  addNeighborEdges newNode (neighbors.zip distances)
  pure newNode

/-- simple_prm_planner.hpp:46-54: the index returned without adding a node -/
def duplicateOf (S : Setup ν (Option W)) (neighbors : List (Int × Option W)) : Option Int :=
  if S.addDuplicates = false then findDuplicate neighbors else none

/-- simple_prm_planner.hpp:22-96 `AddNodeToRoadmap` -/
def addNodeToRoadmap (S : Setup ν (Option W)) (threads : Threads) (dir : Direction)
    (state : ν) : M (Graph ν (Option W)) Int := do
  let roadmap ← M.get
  let neighbors ← M.lift (nearestNeighbors S threads dir roadmap state)
  match duplicateOf S neighbors with
  | some index => pure index
  | none => insertNode S dir state neighbors

/-- simple_prm_planner.hpp:113-126 `ExtendRoadMap`: `draws` are the states sampled before the
termination check answers, each with how its query is run. -/
def extendRoadMap (S : Setup ν (Option W)) (stateValid : ν → Bool) :
    List (ν × Threads) → M (Graph ν (Option W)) Unit
  | [] => pure ()
  | (state, threads) :: draws =>
    if stateValid state then do
      let _ ← addNodeToRoadmap S threads .roadmapToNewState state
      extendRoadMap S stateValid draws
    else extendRoadMap S stateValid draws

/-- simple_prm_planner.hpp:160-163: the weight an edge gets -/
def updatedWeight (valid : ν → ν → Bool) (distance : ν → ν → Option W) (a b : ν) : Option W :=
  if valid a b then distance a b else some Cost.inf

/-- simple_prm_planner.hpp:154-173: the loop over the out edges of the current node, from edge number
`k` on; `count` edges are left. -/
def updateOutEdges (valid : ν → ν → Bool) (distance : ν → ν → Option W) (current : Nat) :
    Nat → Nat → Graph ν (Option W) → Out (Graph ν (Option W))
  | 0, _, g => .ok g
  | count + 1, k, g => do
    let node ← getNode g (current : Int)
    match node.outEdges[k]? with
    | none => .ub
    | some e => do
      let other ← getNode g e.toIndex
      let w := updatedWeight valid distance node.value other.value
      let g := g.modify current (fun n => { n with outEdges := n.outEdges.modify k (setWeight w) })
      let g := g.modify e.toIndex.toNat
        (fun n => { n with inEdges := setInWeights current w n.inEdges })
      updateOutEdges valid distance current count (k + 1) g

/-- simple_prm_planner.hpp:151-174: the loop over the nodes, in the given order -/
def updateNodes (valid : ν → ν → Bool) (distance : ν → ν → Option W) :
    List Nat → Graph ν (Option W) → Out (Graph ν (Option W))
  | [], g => .ok g
  | i :: is, g => do
    let node ← getNode g (i : Int)
    let g ← updateOutEdges valid distance i node.outEdges.length 0 g
    updateNodes valid distance is g

/-- simple_prm_planner.hpp:142-175 `UpdateRoadMapEdges`; `order` is the order in which the nodes are
visited (`0, 1, …` in the serial code). -/
def updateRoadMapEdges (valid : ν → ν → Bool) (distance : ν → ν → Option W) (order : List Nat)
    (g : Graph ν (Option W)) : Out (Graph ν (Option W)) := do
  let linked ← checkGraphLinkage g
  if linked = false then .throws .invalidArgument
  else updateNodes valid distance order g

/-- simple_prm_planner.hpp:185-190: adding the start states -/
def addStarts (S : Setup ν (Option W)) : List (ν × Threads) → M (Graph ν (Option W)) (List Int)
  | [] => pure []
  | (state, threads) :: rest => do
    let i ← addNodeToRoadmap S threads .newStateToRoadmap state
    let is ← addStarts S rest
    pure (i :: is)

/-- simple_prm_planner.hpp:202-209: the start with the least distance -/
def bestStart (distances : List (Option W)) : List Int → Int × Option W → Out (Int × Option W)
  | [], best => .ok best
  | i :: is, best =>
    if i < 0 then .ub
    else match distances[i.toNat]? with
      | none => .ub
      | some d => bestStart distances is (if lt d best.2 then (i, d) else best)

/-- simple_prm_planner.hpp:213-230: the answer, from the results of Dijkstra's algorithm -/
def multiStartAnswer (roadmap : Graph ν (Option W)) (previous : List Int) (goal : Int) (best : Int × Option W) :
    Option (Out (List ν × Option W)) :=
  if best.2 = some Cost.inf then some (.ok ([], some Cost.inf))
  else if best.1 < 0 then some .ub
  else match previous[best.1.toNat]? with
    | none => some .ub
    | some next =>
      match followPrevious previous goal (previous.length + 1) next with
      | none => none
      | some (.ok rest) =>
        some (do
          let path ← extractSolutionPath roadmap (best.1 :: rest)
          .ok (path, best.2))
      | some (.throws e) => some (.throws e)
      | some .abort => some .abort
      | some .ub => some .ub

/-- simple_prm_planner.hpp:195-230: the search, when the nodes have been added -/
def multiStartSearch (pick : Nat → Nat) (roadmap : Graph ν (Option W)) (starts : List Int) (goal : Int) :
    Option (Out (List ν × Option W)) :=
  match NanDijkstra.performDijkstras pick roadmap goal with
  | none => none
  | some (.throws e) => some (.throws e)
  | some .abort => some .abort
  | some .ub => some .ub
  | some (.ok (_, previous, distances)) =>
    match bestStart distances starts (-1, some Cost.inf) with
    | .throws e => some (.throws e)
    | .abort => some .abort
    | .ub => some .ub
    | .ok best => multiStartAnswer roadmap previous goal best

/-- simple_prm_planner.hpp:178-231 `QueryPathAndAddNodesMultiStartSingleGoal`: the answer and the
roadmap afterwards. The starts and the goal come with how their queries are run; `pick` breaks the
ties in Dijkstra's algorithm. -/
def queryMultiStart (S : Setup ν (Option W)) (pick : Nat → Nat) (starts : List (ν × Threads))
    (goal : ν × Threads) (roadmap : Graph ν (Option W)) :
    Option (Out (List ν × Option W)) × Graph ν (Option W) :=
  match (do
      let is ← addStarts S starts
      let j ← addNodeToRoadmap S goal.2 .roadmapToNewState goal.1
      pure (is, j) : M (Graph ν (Option W)) (List Int × Int)) roadmap with
  | (.ok (is, j), roadmap') => (multiStartSearch pick roadmap' is j, roadmap')
  | (.throws e, roadmap') => (some (.throws e), roadmap')
  | (.abort, roadmap') => (some .abort, roadmap')
  | (.ub, roadmap') => (some .ub, roadmap')

/-- simple_prm_planner.hpp:252-263, 285-286: the states along the path found by A* -/
def astarAnswer (roadmap : Graph ν (Option W)) :
    Option (Out (List Int × Option W)) → Option (Out (List ν × Option W))
  | none => none
  | some (.ok (path, cost)) =>
    some (do
      let states ← extractSolutionPath roadmap path
      .ok (states, cost))
  | some (.throws e) => some (.throws e)
  | some .abort => some .abort
  | some .ub => some .ub

/-- simple_prm_planner.hpp:234-287 `QueryPathAndAddNodesSingleStartSingleGoal` (`lazy = false`) and
`LazyQueryPathAndAddNodesSingleStartSingleGoal` (`lazy = true`); `fuel` bounds the rounds of A*. -/
def querySingle (S : Setup ν (Option W)) (lazy : Bool) (fuel : Nat) (pick : Nat → Nat) (limit : Bool)
    (start goal : ν × Threads) (roadmap : Graph ν (Option W)) :
    Option (Out (List ν × Option W)) × Graph ν (Option W) :=
  match (do
      let i ← addNodeToRoadmap S start.2 .newStateToRoadmap start.1
      let j ← addNodeToRoadmap S goal.2 .roadmapToNewState goal.1
      pure (i, j) : M (Graph ν (Option W)) (Int × Int)) roadmap with
  | (.ok (i, j), roadmap') =>
    (astarAnswer roadmap'
      (if lazy then
        NanAstar.performLazyAstarValues fuel pick roadmap' i j S.edgeValid S.distance S.distance limit
      else NanAstar.performAstar fuel pick roadmap' i j S.distance limit), roadmap')
  | (.throws e, roadmap') => (some (.throws e), roadmap')
  | (.abort, roadmap') => (some .abort, roadmap')
  | (.ub, roadmap') => (some .ub, roadmap')

/-- simple_prm_planner.hpp:325-338: the best of the answers for the goals. The index of the best
answer is replaced by the answer itself. -/
def bestSolution : List (List ν × Option W) → List ν × Option W → List ν × Option W
  | [], best => best
  | s :: rest, best => bestSolution rest (if lt s.2 best.2 then s else best)

/-- simple_prm_planner.hpp:319-324 with 342-350: the answers for the goals one by one, each on a copy of
the roadmap -/
def solutionsForGoals (S : Setup ν (Option W)) (pick : Nat → Nat)
    (starts : List (ν × Threads)) (roadmap : Graph ν (Option W)) :
    List (ν × Threads) → Option (Out (List (List ν × Option W)))
  | [] => some (.ok [])
  | goal :: goals =>
    match (queryMultiStart S pick starts goal roadmap).1 with
    | none => none
    | some (.throws e) => some (.throws e)
    | some .abort => some .abort
    | some .ub => some .ub
    | some (.ok s) =>
      match solutionsForGoals S pick starts roadmap goals with
      | none => none
      | some (.ok rest) => some (.ok (s :: rest))
      | some (.throws e) => some (.throws e)
      | some .abort => some .abort
      | some .ub => some .ub

/-- simple_prm_planner.hpp:313-339 `QueryPathMultiStartMultiGoal` -/
def queryMultiMulti (S : Setup ν (Option W)) (pick : Nat → Nat) (starts goals : List (ν × Threads))
    (roadmap : Graph ν (Option W)) : Option (Out (List ν × Option W)) :=
  match solutionsForGoals S pick starts roadmap goals with
  | none => none
  | some (.ok solutions) => some (.ok (bestSolution solutions ([], some Cost.inf)))
  | some (.throws e) => some (.throws e)
  | some .abort => some .abort
  | some .ub => some .ub

end Verif.NanPrm
