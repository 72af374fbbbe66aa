import Verif.Model.Rrt

/-!
# Model of the bidirectional RRT planner

include/arc_utilities/simple_rrt_planner.hpp:722-1015. The random decisions are arbitrary sequences.
Simplifications: the callbacks that report progress do not change the trees; the connection test is
pure; times are left out of the statistics.
-/
namespace Verif.BiRrt
open Verif Verif.Rrt

variable {T : Type}

/-- The callbacks and random decisions. Used for simple_rrt_planner.hpp:910-914, 916-917. -/
structure Env (T : Type) where
  /-- the state the sampling function returns in round `k` -/
  sample : Nat → T
  /-- whether the target of round `k` is a node of the other tree (line 909) -/
  fromTree : Nat → Bool
  /-- the random number that selects this node (lines 911-913) -/
  pick : Nat → Nat
  nearest : Nat → Tree T → T → Int
  propagate : Nat → T → T → List (T × Int)
  /-- whether two states are connected -/
  connected : T → T → Bool
  /-- whether the trees are switched after round `k` (line 979) -/
  switch : Nat → Bool
  terminate : Nat → Bool

/-- The planner's variables. Used for simple_rrt_planner.hpp:910-914, 916-917. -/
structure Planner (T : Type) where
  start : Tree T
  goal : Tree T
  bridges : List (Int × Int)
  startActive : Bool
  total : Nat
  successful : Nat
  failed : Nat
  swaps : Nat

/-- The tree that is extended. Used for simple_rrt_planner.hpp:900-983. -/
def Planner.active (s : Planner T) : Tree T := if s.startActive then s.start else s.goal
/-- The other tree. Used for simple_rrt_planner.hpp:910-914, 916-917. -/
def Planner.target (s : Planner T) : Tree T := if s.startActive then s.goal else s.start

/-- simple_rrt_planner.hpp:910-914: the index of the target node, or -1 -/
def targetIndex (env : Env T) (k : Nat) (s : Planner T) : Int :=
  if env.fromTree k then ((env.pick k % s.target.length : Nat) : Int) else -1

/-- simple_rrt_planner.hpp:916-917: the target state -/
def targetState (env : Env T) (k : Nat) (s : Planner T) : Out T :=
  if env.fromTree k then
    match stateAt s.target (targetIndex env k s) with
    | none => .throws .outOfRange
    | some n => .ok n.value
  else .ok (env.sample k)

/-- simple_rrt_planner.hpp:979-982: the switch of the active tree -/
def Planner.turn (s : Planner T) (switch : Bool) : Planner T :=
  if switch then { s with startActive := !s.startActive, swaps := s.swaps + 1 } else s

/-- simple_rrt_planner.hpp:962-970: the bridge for a new node that connects the trees -/
def bridge (startActive : Bool) (new target : Int) : Int × Int :=
  if startActive then (new, target) else (target, new)

/-- simple_rrt_planner.hpp:925-973: the variables after the propagated states were attached -/
def Planner.grown (s : Planner T) (target : Int) (tree : Tree T) (hits : List Int) : Planner T :=
  { s with
    start := if s.startActive then tree else s.start
    goal := if s.startActive then s.goal else tree
    bridges := s.bridges ++ hits.map (fun h => bridge s.startActive h target)
    total := s.total + 1
    successful := s.successful + 1 }

/-- simple_rrt_planner.hpp:900-983: the planning loop. With `single`, the termination test is the one of
`Plan` (lines 756-762). -/
def planLoop (env : Env T) (single : Bool) : Nat → Nat → Planner T → Option (Out Unit × Planner T)
  | 0, _, _ => none
  | fuel + 1, k, s =>
    if (single && !s.bridges.isEmpty) || env.terminate k then some (.ok (), s)
    else
      match targetState env k s with
      | .throws e => some (.throws e, s)
      | .abort => some (.abort, s)
      | .ub => some (.ub, s)
      | .ok target =>
        if env.nearest k s.active target < 0 then some (.ok (), s)
        else
          match stateAt s.active (env.nearest k s.active target) with
          | none => some (.throws .outOfRange, s)
          | some n =>
            match env.propagate k n.value target with
            | [] => planLoop env single fuel (k + 1)
              ({ s with total := s.total + 1, failed := s.failed + 1 }.turn (env.switch k))
            | p :: ps =>
              match growLoop (fun v => env.fromTree k && env.connected v target)
                  (env.nearest k s.active target) (p :: ps) 0 s.active [] with
              | (.ok (), tree, hits) => planLoop env single fuel (k + 1)
                ((s.grown (targetIndex env k s) tree hits).turn (env.switch k))
              | (o, tree, hits) => some (o, s.grown (targetIndex env k s) tree hits)

/-- simple_rrt_planner.hpp:884-895: the connected pairs of the given trees -/
def initialBridges (connected : T → T → Bool) (start goal : Tree T) : List (Int × Int) :=
  (List.range start.length).flatMap fun i =>
    (List.range goal.length).filterMap fun j =>
      match start[i]?, goal[j]? with
      | some a, some b => if connected a.value b.value then some ((i : Int), (j : Int)) else none
      | _, _ => none

/-- simple_rrt_planner.hpp:993-1005: the paths -/
def extractPaths (fuel : Nat) (start goal : Tree T) : List (Int × Int) → Option (Out (List (List T)))
  | [] => some (.ok [])
  | b :: bs =>
    match extractSolutionPath fuel start b.1, extractSolutionPath fuel goal b.2 with
    | some (.ok sp), some (.ok gp) =>
      match extractPaths fuel start goal bs with
      | some (.ok paths) => some (.ok ((sp ++ gp.reverse) :: paths))
      | r => r
    | none, _ => none
    | some (.ok _), none => none
    | some (.throws e), _ => some (.throws e)
    | some (.ok _), some (.throws e) => some (.throws e)
    | some .abort, _ => some .abort
    | some (.ok _), some .abort => some .abort
    | some .ub, _ => some .ub
    | some (.ok _), some .ub => some .ub

/-- What the planner returns. Used for simple_rrt_planner.hpp:985-1013, 845-1014. -/
structure Result (T : Type) where
  paths : List (List T)
  total : Nat
  successful : Nat
  failed : Nat
  swaps : Nat
  states : Nat
  solutions : Nat

/-- simple_rrt_planner.hpp:985-1013: the end of the planner -/
def finish (s : Planner T) : Option (Out (Result T)) :=
  if checkTreeLinkage s.start = false then some (.throws .runtimeError)
  else if checkTreeLinkage s.goal = false then some (.throws .runtimeError)
  else
    match extractPaths (s.start.length + s.goal.length + 1) s.start s.goal s.bridges with
    | none => none
    | some (.ok paths) => some (.ok ⟨paths, s.total, s.successful, s.failed, s.swaps,
        s.start.length + s.goal.length, paths.length⟩)
    | some (.throws e) => some (.throws e)
    | some .abort => some .abort
    | some .ub => some .ub

/-- simple_rrt_planner.hpp:845-1014 `PlanMultiPath` on given trees: the outcome and the trees
afterwards -/
def planMultiPath (env : Env T) (single : Bool) (fuel : Nat) (start goal : Tree T) :
    Option (Out (Result T) × Tree T × Tree T) :=
  if start.isEmpty then some (.throws .invalidArgument, start, goal)
  else if goal.isEmpty then some (.throws .invalidArgument, start, goal)
  else if checkTreeLinkage start = false then some (.throws .invalidArgument, start, goal)
  else if checkTreeLinkage goal = false then some (.throws .invalidArgument, start, goal)
  else
    match planLoop env single fuel 0
      ⟨start, goal, initialBridges env.connected start goal, true, 0, 0, 0, 0⟩ with
    | none => none
    | some (.ok (), s) => (finish s).map fun r => (r, s.start, s.goal)
    | some (.throws e, s) => some (.throws e, s.start, s.goal)
    | some (.abort, s) => some (.abort, s.start, s.goal)
    | some (.ub, s) => some (.ub, s.start, s.goal)

/-- simple_rrt_planner.hpp:728-775 `Plan`: the first path found, or an empty one -/
def plan (env : Env T) (fuel : Nat) (start goal : T) : Option (Out (List T) × Tree T × Tree T) :=
  match planMultiPath env true fuel [State.root start] [State.root goal] with
  | none => none
  | some (.ok r, trees) => some (.ok (r.paths.head?.getD []), trees)
  | some (.throws e, trees) => some (.throws e, trees)
  | some (.abort, trees) => some (.abort, trees)
  | some (.ub, trees) => some (.ub, trees)

end Verif.BiRrt
