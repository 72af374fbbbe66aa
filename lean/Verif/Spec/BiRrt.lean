import Verif.Model.BiRrt
import Verif.Spec.Rrt

/-!
# What a user of the bidirectional RRT planner expects
-/
namespace Verif.BiRrt
open Verif Verif.Rrt

variable {T : Type}

/-- The connection test accepts the two states, in one order or the other. -/
def Joined (env : Env T) (a b : T) : Prop := env.connected a b = true ∨ env.connected b a = true

/-- `v` was propagated from `u`: in some round, towards some target. -/
def Made (env : Env T) (u v : T) : Prop :=
  ∃ (k : Nat) (w target : T), PropagatedFrom (env.propagate k w target) w u v

/-- `v` was propagated from `u`, and not connected to its target if this was a node of the other tree. -/
def Missed (env : Env T) (u v : T) : Prop :=
  ∃ (k : Nat) (w target : T), PropagatedFrom (env.propagate k w target) w u v ∧
    (env.fromTree k = true → env.connected v target = false)

/-- How often the trees were switched before round `k`. -/
def switches (switch : Nat → Bool) (k : Nat) : Nat := ((List.range k).filter switch).length

/-- The number of nodes added in the first `n` rounds in which `mine` holds, if round `k` adds `added k`. -/
def addedIn (mine : Nat → Bool) (added : Nat → Nat) (n : Nat) : Nat :=
  (((List.range n).filter mine).map added).sum

end Verif.BiRrt
