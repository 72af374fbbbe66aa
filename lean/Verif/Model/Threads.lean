import Verif.Base.Outcome

/-!
# Model of the number of threads and of alignment checks

include/arc_utilities/arc_helpers.hpp:140-153, 473-482. The number of threads of a parallel region is chosen by the OpenMP
runtime. An object is its address.
-/
namespace Verif.Threads
open Verif

/-- A parallel region: the variable that its threads share, and which threads have done their assignment. Used for
arc_helpers.hpp:475-477. -/
structure Region where
  numThreads : Int
  done : Nat → Bool

/-- arc_helpers.hpp:475: before the region -/
def start : Region := ⟨0, fun _ => false⟩

/-- arc_helpers.hpp:477: the assignment of thread `i` of a team of `n` -/
def assign (n : Nat) (r : Region) (i : Nat) : Option Region :=
  if i < n ∧ r.done i = false then some ⟨n, fun k => if k = i then true else r.done k⟩ else none

/-- Assignments in the order in which the threads do them; nothing when it is not an order in which they can. Used for
arc_helpers.hpp:476-477. -/
def region (n : Nat) (r : Region) : List Nat → Option Region
  | [] => some r
  | i :: schedule => do
    let r' ← assign n r i
    region n r' schedule

/-- arc_helpers.hpp:473-482 `GetNumOMPThreads`; `team` is the number of threads that the runtime chooses, nothing when
compiled without OpenMP. Nothing when the threads are not all done: the end of the region waits for them. -/
def getNumOMPThreads (team : Option Nat) (schedule : List Nat) : Option Int :=
  match team with
  | none => some 1
  | some n => do
    let r ← region n start schedule
    if (List.range n).all r.done then some r.numThreads else none

/-- arc_helpers.hpp:140-145 `CheckAlignment`; the remainder by zero is undefined -/
def checkAlignment (address desired : Nat) : Out Bool :=
  if desired = 0 then .ub else .ok (address % desired == 0)

/-- arc_helpers.hpp:147-153 `RequireAlignment` -/
def requireAlignment (address desired : Nat) : Out Unit := do
  let aligned ← checkAlignment address desired
  if aligned = false then .abort else .ok ()

end Verif.Threads
