import Verif.Base.Outcome
/-!
# Model of the memory of paths

include/arc_utilities/time_optimal_trajectory_parametrization.hpp:37-64 and
src/arc_utilities/time_optimal_trajectory_parametrization.cpp:111-168: a `Path` has pointers to segments on the heap. Only
the pointers are modelled here; what is in a segment is a parameter. Addresses are not used again after a `delete`.
-/
namespace Verif.PathOwnership
open Verif

/-- The heap with the first address that was never used, and the pointers of each path that exists. Used for
time_optimal_trajectory_parametrization.cpp:125, 129, 134, 164-168. -/
structure Memory (S : Type) where
  heap : Nat → Option S
  next : Nat
  paths : Nat → Option (List Nat)

variable {S : Type}

/-- Before anything is constructed. Used for time_optimal_trajectory_parametrization.hpp:37-64 and
time_optimal_trajectory_parametrization.cpp:111-168. -/
def Memory.empty : Memory S := ⟨fun _ => none, 0, fun _ => none⟩

/-- One `new` for each segment, time_optimal_trajectory_parametrization.cpp:125, 129, 134 and `Clone` in 160 -/
def Memory.allocate (m : Memory S) : List S → Memory S × List Nat
  | [] => (m, [])
  | s :: rest =>
    let (m', addresses) := Memory.allocate
      { m with heap := fun a => if a = m.next then some s else m.heap a, next := m.next + 1 } rest
    (m', m.next :: addresses)

/-- What the pointers point to. Used for time_optimal_trajectory_parametrization.cpp:172-200. -/
def Memory.load (m : Memory S) : List Nat → Out (List S)
  | [] => .ok []
  | a :: rest =>
    match m.heap a with
    | none => .ub
    | some s => do
      let l ← m.load rest
      .ok (s :: l)

/-- time_optimal_trajectory_parametrization.cpp:164-168: one `delete` for each pointer -/
def Memory.free (m : Memory S) : List Nat → Out (Memory S)
  | [] => .ok m
  | a :: rest =>
    match m.heap a with
    | none => .ub
    | some _ => Memory.free { m with heap := fun b => if b = a then none else m.heap b } rest

/-- Sets or removes the pointers of a path. Used for time_optimal_trajectory_parametrization.hpp:37-64 and
time_optimal_trajectory_parametrization.cpp:111-168. -/
def Memory.set (m : Memory S) (p : Nat) (l : Option (List Nat)) : Memory S :=
  { m with paths := fun q => if q = p then l else m.paths q }

/-- What a program can do with paths. Used for time_optimal_trajectory_parametrization.hpp:37-64 and
time_optimal_trajectory_parametrization.cpp:111-168. -/
inductive Op (S : Type) where
  | make (p : Nat) (segments : List S)
  | copy (p q : Nat)
  | assign (p q : Nat)
  | destroy (p : Nat)

/-- One operation: the constructors (lines 111-162) for a path that does not exist; assignment, which the class does not
define (hpp:37-64), so that the compiler's copies the pointers; the destructor (lines 164-168). `none` is an operation
that
no program can do. Used for time_optimal_trajectory_parametrization.hpp:37-64 and
time_optimal_trajectory_parametrization.cpp:111-168. -/
def Memory.step (m : Memory S) : Op S → Option (Out (Memory S))
  | .make p segments =>
    match m.paths p with
    | some _ => none
    | none =>
      let (m', l) := m.allocate segments
      some (.ok (m'.set p (some l)))
  | .copy p q =>
    match m.paths p, m.paths q with
    | none, some l => some (do
        let segments ← m.load l
        let (m', l') := m.allocate segments
        .ok (m'.set p (some l')))
    | _, _ => none
  | .assign p q =>
    match m.paths p, m.paths q with
    | some _, some l => some (.ok (m.set p (some l)))
    | _, _ => none
  | .destroy p =>
    match m.paths p with
    | none => none
    | some l => some (do
        let m' ← m.free l
        .ok (m'.set p none))

/-- A sequence of operations; undefined behaviour ends it. Used for time_optimal_trajectory_parametrization.hpp:37-64
and time_optimal_trajectory_parametrization.cpp:111-168. -/
def Memory.run (m : Memory S) : List (Op S) → Option (Out (Memory S))
  | [] => some (.ok m)
  | op :: rest =>
    match m.step op with
    | none => none
    | some (.ok m') => Memory.run m' rest
    | some out => some out

/-- The segments a path answers queries from, time_optimal_trajectory_parametrization.cpp:172-200 -/
def Memory.value (m : Memory S) (p : Nat) : Option (Out (List S)) := (m.paths p).map m.load

end Verif.PathOwnership
