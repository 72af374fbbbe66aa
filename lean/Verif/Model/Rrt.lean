import Verif.Base.Outcome

/-!
# Model of the RRT planners

include/arc_utilities/simple_rrt_planner.hpp. The planners are functions of the callbacks' answers: the
answers to the `k`-th call of a callback are given as functions of `k`, so every deterministic or random
callback is covered. Simplifications: the callbacks that report progress do not change the trees; the
goal and connection tests are pure; times are left out of the statistics; the single-tree planner, which
as written mixes the names `nodes` and `tree`, is modelled with one tree.
-/
namespace Verif.Rrt
open Verif

variable {T : Type}

/-- simple_rrt_planner.hpp:18-25 `SimpleRRTPlannerState` -/
structure State (T : Type) where
  value : T
  children : List Int
  parent : Int
  initialized : Bool
  deriving DecidableEq, Repr

/-- simple_rrt_planner.hpp:51-53 -/
def State.new (value : T) (parent : Int) : State T := ⟨value, [], parent, true⟩

/-- simple_rrt_planner.hpp:55-57 -/
def State.root (value : T) : State T := ⟨value, [], -1, true⟩

/-- simple_rrt_planner.hpp:115-122 `AddChildIndex` -/
def State.addChild (s : State T) (child : Int) : State T :=
  if child ∈ s.children then s else { s with children := s.children ++ [child] }

/-- simple_rrt_planner.hpp:124-132 `RemoveChildIndex` -/
def State.removeChild (s : State T) (child : Int) : State T :=
  { s with children := s.children.filter (fun c => decide (c ≠ child)) }

/-- A tree is the vector of its states. Used for simple_rrt_planner.hpp:629-655, 657-683. -/
abbrev Tree (T : Type) := List (State T)

/-- The element at a signed index, if there is one (`nodes[i]`, `nodes.at(i)`). Used for
simple_rrt_planner.hpp:629-655, 657-683. -/
def stateAt (tree : Tree T) (i : Int) : Option (State T) :=
  if i < 0 then none else tree[i.toNat]?

/-! ## Checking the linkage -/

/-- simple_rrt_planner.hpp:629-655: the link to the parent -/
def parentOk (tree : Tree T) (index : Nat) (s : State T) : Bool :=
  if s.parent ≥ 0 ∧ s.parent < (tree.length : Int) then
    if s.parent ≠ (index : Int) then
      match stateAt tree s.parent with
      | none => false
      | some p => p.initialized && decide ((index : Int) ∈ p.children)
    else false
  else !decide (s.parent < -1)

/-- simple_rrt_planner.hpp:657-683: the link to one child -/
def childOk (tree : Tree T) (index : Nat) (child : Int) : Bool :=
  if child > 0 ∧ child < (tree.length : Int) then
    if child ≠ (index : Int) then
      match stateAt tree child with
      | none => false
      | some c => c.initialized && decide (c.parent = (index : Int))
    else false
  else false

/-- simple_rrt_planner.hpp:619-686 `CheckTreeLinkage`; the loop returns at the first fault -/
def checkTreeLinkage (tree : Tree T) : Bool :=
  (List.range tree.length).all fun index =>
    match tree[index]? with
    | none => false
    | some s => s.initialized && parentOk tree index s && s.children.all (childOk tree index)

/-! ## Extracting paths -/

/-- simple_rrt_planner.hpp:710-715: follow the parents. `none`: still running after `fuel` steps. -/
def extractLoop (tree : Tree T) : Nat → Int → List T → Option (Out (List T))
  | 0, _, _ => none
  | fuel + 1, parent, path =>
    if parent ≥ 0 then
      match stateAt tree parent with
      | none => some (.throws .outOfRange)
      | some s => extractLoop tree fuel s.parent (path ++ [s.value])
    else some (.ok path.reverse)

/-- simple_rrt_planner.hpp:704-719 `ExtractSolutionPath`; the goal index is not checked. -/
def extractSolutionPath (fuel : Nat) (tree : Tree T) (goal : Int) : Option (Out (List T)) :=
  match stateAt tree goal with
  | none => some .ub
  | some s => extractLoop tree fuel s.parent [s.value]

/-- simple_rrt_planner.hpp:691-699 `ExtractSolutionPaths` -/
def extractSolutionPaths (fuel : Nat) (tree : Tree T) : List Int → Option (Out (List (List T)))
  | [] => some (.ok [])
  | goal :: goals =>
    match extractSolutionPath fuel tree goal with
    | none => none
    | some (.ok path) =>
      match extractSolutionPaths fuel tree goals with
      | none => none
      | some (.ok paths) => some (.ok (path :: paths))
      | some (.throws e) => some (.throws e)
      | some .abort => some .abort
      | some .ub => some .ub
    | some (.throws e) => some (.throws e)
    | some .abort => some .abort
    | some .ub => some .ub

/-! ## Growing a tree -/

/-- simple_rrt_planner.hpp:566-586 and 929-951: add one propagated state to the tree. `idx` is its
position among the propagated states, `relative` its relative parent index. -/
def addState (tree : Tree T) (nearest : Int) (idx : Nat) (value : T) (relative : Int) :
    Out (Tree T) :=
  if relative ≥ 0 ∧ relative ≥ (idx : Int) then .throws .invalidArgument
  else
    let parent : Int := if relative ≥ 0 then (tree.length : Int) + (relative - (idx : Int)) else nearest
    if 0 ≤ parent ∧ parent < (tree.length : Int) + 1 then
      .ok ((tree ++ [State.new value parent]).modify parent.toNat
        (fun s => s.addChild (tree.length : Int)))
    else .ub

/-- simple_rrt_planner.hpp:558-594 and 922-971: the loop over the propagated states. `reached` is the
goal test, respectively the test for a connection. The states added before a throw stay in the tree. -/
def growLoop (reached : T → Bool) (nearest : Int) :
    List (T × Int) → Nat → Tree T → List Int → Out Unit × Tree T × List Int
  | [], _, tree, hits => (.ok (), tree, hits)
  | (value, relative) :: rest, idx, tree, hits =>
    match addState tree nearest idx value relative with
    | .ok tree' =>
      growLoop reached nearest rest (idx + 1) tree'
        (if reached value then hits ++ [(tree.length : Int)] else hits)
    | .throws e => (.throws e, tree, hits)
    | .abort => (.abort, tree, hits)
    | .ub => (.ub, tree, hits)

/-! ## The single-tree planner -/

/-- The callbacks of the single-tree planner. Used for simple_rrt_planner.hpp:544-599, 505-614. -/
structure Env (T : Type) where
  /-- the target of round `k` -/
  sample : Nat → T
  /-- the index the nearest-neighbour function returns in round `k` -/
  nearest : Nat → Tree T → T → Int
  /-- the states the propagation function returns in round `k` -/
  propagate : Nat → T → T → List (T × Int)
  /-- the goal test -/
  goal : T → Bool
  /-- the answer of the termination test before round `k` -/
  terminate : Nat → Bool

/-- The planner's variables. Used for simple_rrt_planner.hpp:544-599, 602-613. -/
structure Planner (T : Type) where
  tree : Tree T
  goals : List Int
  total : Nat
  successful : Nat
  failed : Nat

/-- simple_rrt_planner.hpp:544-599: the planning loop, from round `k`. With `single`, the termination
test is the one of `Plan` (lines 284-290): it also stops once a goal state was found. `none`: still
running after `fuel` rounds. -/
def planLoop (env : Env T) (single : Bool) : Nat → Nat → Planner T → Option (Out Unit × Planner T)
  | 0, _, _ => none
  | fuel + 1, k, s =>
    if (single && !s.goals.isEmpty) || env.terminate k then some (.ok (), s)
    else if env.nearest k s.tree (env.sample k) < 0 then some (.ok (), s)
    else
      match stateAt s.tree (env.nearest k s.tree (env.sample k)) with
      | none => some (.throws .outOfRange, s)
      | some n =>
        match env.propagate k n.value (env.sample k) with
        | [] => planLoop env single fuel (k + 1)
          { s with total := s.total + 1, failed := s.failed + 1 }
        | p :: ps =>
          match growLoop env.goal (env.nearest k s.tree (env.sample k)) (p :: ps) 0 s.tree s.goals with
          | (.ok (), tree, goals) => planLoop env single fuel (k + 1)
            ⟨tree, goals, s.total + 1, s.successful + 1, s.failed⟩
          | (o, tree, goals) => some (o, ⟨tree, goals, s.total + 1, s.successful + 1, s.failed⟩)

/-- What the planner returns. Used for simple_rrt_planner.hpp:602-613, 505-614. -/
structure Result (T : Type) where
  paths : List (List T)
  total : Nat
  successful : Nat
  failed : Nat
  states : Nat
  solutions : Nat

/-- simple_rrt_planner.hpp:534-540: the goal states among the given ones -/
def initialGoals (goal : T → Bool) : Tree T → Nat → List Int
  | [], _ => []
  | s :: rest, i => if goal s.value then (i : Int) :: initialGoals goal rest (i + 1)
    else initialGoals goal rest (i + 1)

/-- simple_rrt_planner.hpp:602-613: the end of the planner. A path longer than the number of states
goes round a cycle, that is, extraction does not end. -/
def finish (s : Planner T) : Option (Out (Result T)) :=
  if checkTreeLinkage s.tree = false then some (.throws .runtimeError)
  else
    match extractSolutionPaths (s.tree.length + 1) s.tree s.goals with
    | none => none
    | some (.ok paths) =>
      some (.ok ⟨paths, s.total, s.successful, s.failed, s.tree.length, paths.length⟩)
    | some (.throws e) => some (.throws e)
    | some .abort => some .abort
    | some .ub => some .ub

/-- simple_rrt_planner.hpp:505-614 `PlanMultiPath` on a given tree: the outcome and the tree
afterwards -/
def planMultiPath (env : Env T) (single : Bool) (fuel : Nat) (tree : Tree T) :
    Option (Out (Result T) × Tree T) :=
  if tree.isEmpty then some (.throws .invalidArgument, tree)
  else if checkTreeLinkage tree = false then some (.throws .invalidArgument, tree)
  else
    match planLoop env single fuel 0 ⟨tree, initialGoals env.goal tree 0, 0, 0, 0⟩ with
    | none => none
    | some (.ok (), s) => (finish s).map fun r => (r, s.tree)
    | some (.throws e, s) => some (.throws e, s.tree)
    | some (.abort, s) => some (.abort, s.tree)
    | some (.ub, s) => some (.ub, s.tree)

/-- simple_rrt_planner.hpp:423-440 `PlanMultiPath` from a start state -/
def planMultiPathFrom (env : Env T) (fuel : Nat) (start : T) : Option (Out (Result T) × Tree T) :=
  planMultiPath env false fuel [State.root start]

/-- simple_rrt_planner.hpp:267-363 `Plan`: the first path found, or an empty one -/
def plan (env : Env T) (fuel : Nat) (start : T) : Option (Out (List T) × Tree T) :=
  match planMultiPath env true fuel [State.root start] with
  | none => none
  | some (.ok r, tree) => some (.ok (r.paths.head?.getD []), tree)
  | some (.throws e, tree) => some (.throws e, tree)
  | some (.abort, tree) => some (.abort, tree)
  | some (.ub, tree) => some (.ub, tree)

end Verif.Rrt
