import Verif.Model.Totg
/-!
# Model of copies of a trajectory

include/arc_utilities/time_optimal_trajectory_parametrization.hpp:68-139: `Trajectory` defines no copy constructor, so the
compiler's copies each member, also the iterator `cached_trajectory_segment_` into the list of steps of the original.
Trajectories are numbered in the order in which they are constructed. There is no assignment, because of the constant member
`time_step_`.
-/
namespace Verif.TrajectoryCopies
open Verif Verif.Totg

/-- The members of a trajectory that queries use, hpp:127-138: `owner` is the trajectory whose list the cached iterator
is
in. Used for time_optimal_trajectory_parametrization.cpp:625-627, 619-649. -/
structure Object (n : Nat) where
  path : Totg.Path n
  steps : List Step
  cache : Cache
  owner : Nat

/-- The trajectories constructed so far; `none` is one that is destroyed. Used for
time_optimal_trajectory_parametrization.cpp:625-627, 619-649. -/
abbrev Objects (n : Nat) := List (Option (Object n))

variable {n : Nat}

/-- time_optimal_trajectory_parametrization.cpp:637-648: what `GetPositionVelocity` computes from the segment found -/
noncomputable def answer (p : Totg.Path n) (steps : List Step) (time : ℝ) : Nat → Out ((Fin n → ℝ) × (Fin n → ℝ))
  | 0 => .ub
  | i + 1 =>
    match steps[i]?, steps[i + 1]? with
    | some previous, some it => do
      let config ← p.config (between previous it time).1
      let tangent ← p.tangent (between previous it time).1
      .ok (config, (between previous it time).2 • tangent)
    | _, _ => .ub

/-- time_optimal_trajectory_parametrization.cpp:625-627: the list the search goes through and the trajectory it belongs to.
The iterator is set to the start of the own list if the time is before the cached time; otherwise it is used as it is, and
there is no list if the trajectory that had it is gone. -/
noncomputable def searched (objects : Objects n) (k : Nat) (o : Object n) (time : ℝ) : Option (List Step × Nat) :=
  match o.cache.time with
  | none => some (o.steps, k)
  | some cached =>
    if time < cached then some (o.steps, k)
    else
      match objects[o.owner]? with
      | some (some other) => some (other.steps, o.owner)
      | _ => none

/-- time_optimal_trajectory_parametrization.cpp:619-649: `GetPositionVelocity` of trajectory `k`, with the new members -/
noncomputable def query (objects : Objects n) (k : Nat) (o : Object n) (time : ℝ) :
    Out ((Fin n → ℝ) × (Fin n → ℝ)) × Objects n :=
  match o.steps.getLast? with
  | none => (.ub, objects)
  | some last =>
    if time ≥ last.time then (answer o.path o.steps time (o.steps.length - 1), objects)
    else
      match searched objects k o time with
      | none => (.ub, objects)
      | some (steps, owner) =>
        match advance time steps (o.cache.start time) with
        | .ok i => (answer o.path steps time i, objects.set k (some { o with cache := ⟨some time, i⟩, owner := owner }))
        | _ => (.ub, objects)

/-- What a program can do with trajectories. Used for time_optimal_trajectory_parametrization.cpp:619-649. -/
inductive Op (n : Nat) where
  | make (path : Totg.Path n) (steps : List Step)
  | copy (k : Nat)
  | query (k : Nat) (time : ℝ)
  | destroy (k : Nat)

/-- One operation; `none` is an operation that no program can do. Used for
time_optimal_trajectory_parametrization.cpp:619-649. -/
noncomputable def step (objects : Objects n) : Op n → Option (Out (Objects n))
  | .make path steps => some (.ok (objects ++ [some ⟨path, steps, Cache.empty, objects.length⟩]))
  | .copy k =>
    match objects[k]? with
    | some (some o) => some (.ok (objects ++ [some o]))
    | _ => none
  | .query k time =>
    match objects[k]? with
    | some (some o) => some (do
      let _ ← (query objects k o time).1
      .ok (query objects k o time).2)
    | _ => none
  | .destroy k =>
    match objects[k]? with
    | some (some _) => some (.ok (objects.set k none))
    | _ => none

/-- A sequence of operations. Used for time_optimal_trajectory_parametrization.cpp:619-649. -/
noncomputable def run (objects : Objects n) : List (Op n) → Option (Out (Objects n))
  | [] => some (.ok objects)
  | op :: rest =>
    match step objects op with
    | none => none
    | some (.ok objects') => run objects' rest
    | some out => some out

end Verif.TrajectoryCopies
