import Verif.Model.Rrt

/-!
# What a user of the RRT planners expects
-/
namespace Verif.Rrt
open Verif

variable {T : Type}

/-- A properly linked tree: every node is initialized, its parent is an earlier node (or it is a root),
and the children of a node are exactly the nodes that name it as their parent, each listed once. -/
structure WellFormed (tree : Tree T) : Prop where
  initialized : ∀ (i : Nat) (s : State T), tree[i]? = some s → s.initialized = true
  parent : ∀ (i : Nat) (s : State T), tree[i]? = some s →
    s.parent = -1 ∨ ∃ p : Nat, p < i ∧ s.parent = (p : Int)
  nodup : ∀ (i : Nat) (s : State T), tree[i]? = some s → s.children.Nodup
  children : ∀ (i : Nat) (s : State T) (c : Int), tree[i]? = some s →
    (c ∈ s.children ↔ ∃ (k : Nat) (t : State T), c = (k : Int) ∧ tree[k]? = some t ∧ t.parent = (i : Int))

/-- `new` contains every node of `old`, at its place, with its value and its parent. -/
def Extends (old new : Tree T) : Prop :=
  ∀ (i : Nat) (s : State T), old[i]? = some s →
    ∃ s' : State T, new[i]? = some s' ∧ s'.value = s.value ∧ s'.parent = s.parent

/-- `new` is `old` with the propagated states `ps` attached: the `j`-th becomes node `old.length + j`,
its parent is the nearest neighbour if its relative parent is negative and otherwise the propagated
state with that position. -/
structure Grown (old : Tree T) (nearest : Nat) (ps : List (T × Int)) (new : Tree T) : Prop where
  length : new.length = old.length + ps.length
  kept : Extends old new
  added : ∀ (j : Nat) (v : T) (rel : Int), ps[j]? = some (v, rel) →
    ∃ s : State T, new[old.length + j]? = some s ∧ s.value = v ∧
      s.parent = if rel < 0 then (nearest : Int) else (old.length : Int) + rel

/-- The propagated states may be attached: each names an earlier one, or the nearest neighbour. -/
def Attachable (ps : List (T × Int)) : Prop :=
  ∀ (j : Nat) (v : T) (rel : Int), ps[j]? = some (v, rel) → rel < (j : Int)

/-- Among the states `ps` propagated from `w`, `v` appears with a relative parent that stands for `u`. -/
def PropagatedFrom (ps : List (T × Int)) (w u v : T) : Prop :=
  ∃ (j : Nat) (rel : Int), ps[j]? = some (v, rel) ∧
    ((rel < 0 ∧ u = w) ∨ ∃ (r : Nat) (rel' : Int), rel = (r : Int) ∧ r < j ∧ ps[r]? = some (u, rel'))

/-- `v` was propagated from `u`: in some round the propagation from some state towards the sample
returned `v` with a relative parent that stands for `u`. -/
def Made (sample : Nat → T) (propagate : Nat → T → T → List (T × Int)) (u v : T) : Prop :=
  ∃ (k : Nat) (w : T), PropagatedFrom (propagate k w (sample k)) w u v

/-- `goals` lists, in order and once each, the indices of the nodes whose value satisfies `goal`. -/
def GoalNodes (goal : T → Bool) (tree : Tree T) (goals : List Int) : Prop :=
  goals.Pairwise (· < ·) ∧
    ∀ g : Int, g ∈ goals ↔ ∃ (k : Nat) (s : State T), g = (k : Int) ∧ tree[k]? = some s ∧ goal s.value = true

/-- `path` is the list of values from a root down to node `i`. -/
inductive PathTo (tree : Tree T) : Nat → List T → Prop where
  | root {i s} : tree[i]? = some s → s.parent = -1 → PathTo tree i [s.value]
  | step {i s p path} : tree[i]? = some s → s.parent = ((p : Nat) : Int) → PathTo tree p path →
      PathTo tree i (path ++ [s.value])

/-- Following the parents from node `i` leads to a node whose parent is not in the tree. -/
inductive LeadsOut (tree : Tree T) : Nat → Prop where
  | here {i s} : tree[i]? = some s → (tree.length : Int) ≤ s.parent → LeadsOut tree i
  | step {i s p} : tree[i]? = some s → s.parent = ((p : Nat) : Int) → LeadsOut tree p → LeadsOut tree i

/-- Consecutive elements are related. -/
def Steps (R : T → T → Prop) (path : List T) : Prop :=
  ∀ (i : Nat) (u v : T), path[i]? = some u → path[i + 1]? = some v → R u v

/-- The nearest-neighbour function returns the index of a node, or a negative number. -/
def NearestInRange (env : Env T) : Prop :=
  ∀ (k : Nat) (tree : Tree T) (t : T), tree ≠ [] → env.nearest k tree t < (tree.length : Int)

/-- The only root is node 0, with value `start`. -/
def RootedAt (start : T) (tree : Tree T) : Prop :=
  ∀ (i : Nat) (s : State T), tree[i]? = some s → (s.parent = -1 ↔ i = 0) ∧ (i = 0 → s.value = start)

end Verif.Rrt
