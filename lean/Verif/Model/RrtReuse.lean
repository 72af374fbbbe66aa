import Verif.Model.Rrt

/-!
# Model of planning again with the tree of an earlier call, and of a state's child indices

include/arc_utilities/simple_rrt_planner.hpp. The start state is passed as a `const T&`, so it may be a value
of the caller's or the value of a state of the tree that is passed as well.
-/
namespace Verif.Rrt
open Verif

variable {T : Type}

/-- The object the argument `start` (line 425) refers to: one outside the tree with the given value, or the
value of the state at a position of the tree (`nodes[i].GetValueImmutable()`). Used for simple_rrt_planner.hpp:423-440,
325-363. -/
inductive Start (T : Type) where
  | own (value : T)
  | ofTree (i : Nat)

/-- Reading through the reference; the state it refers to may have been destroyed. Used for
simple_rrt_planner.hpp:423-440. -/
def Start.read (nodes : Tree T) : Start T → Out T
  | .own v => .ok v
  | .ofTree i =>
    match nodes[i]? with
    | some s => .ok s.value
    | none => .ub

/-- simple_rrt_planner.hpp:423-440 `PlanMultiPath` with a tree and a start state: the tree is cleared, then
the start state is read -/
def planMultiPathIn (env : Env T) (single : Bool) (fuel : Nat) (nodes : Tree T) (start : Start T) :
    Option (Out (Result T) × Tree T) :=
  let nodes := nodes.take 0
  match start.read nodes with
  | .ok v => planMultiPath env single fuel (nodes ++ [State.root v])
  | .throws e => some (.throws e, nodes)
  | .abort => some (.abort, nodes)
  | .ub => some (.ub, nodes)

/-- simple_rrt_planner.hpp:325-363 `Plan` with a tree and a start state -/
def planIn (env : Env T) (fuel : Nat) (nodes : Tree T) (start : Start T) :
    Option (Out (List T) × Tree T) :=
  match planMultiPathIn env true fuel nodes start with
  | none => none
  | some (.ok r, tree) => some (.ok (r.paths.head?.getD []), tree)
  | some (.throws e, tree) => some (.throws e, tree)
  | some (.abort, tree) => some (.abort, tree)
  | some (.ub, tree) => some (.ub, tree)

/-- A call that changes the child indices of a state. Used for simple_rrt_planner.hpp:113-132. -/
inductive ChildOp where
  /-- simple_rrt_planner.hpp:115-122 `AddChildIndex` -/
  | add (c : Int)
  /-- simple_rrt_planner.hpp:124-132 `RemoveChildIndex` -/
  | remove (c : Int)
  /-- simple_rrt_planner.hpp:113 `ClearChildIndicies` -/
  | clear
  deriving DecidableEq, Repr

/-- simple_rrt_planner.hpp:113 `ClearChildIndicies` -/
def State.clearChildren (s : State T) : State T := { s with children := [] }

/-- The state after a call. Used for simple_rrt_planner.hpp:113-132. -/
def ChildOp.run (s : State T) : ChildOp → State T
  | .add c => s.addChild c
  | .remove c => s.removeChild c
  | .clear => s.clearChildren

/-- The state after a history of calls. Used for simple_rrt_planner.hpp:113-132. -/
def childHistory (s : State T) (ops : List ChildOp) : State T := ops.foldl ChildOp.run s

end Verif.Rrt
