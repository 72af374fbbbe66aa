import Verif.Base.Cost
import Verif.Base.Outcome

/-!
# Model of the K-nearest-neighbour queries

include/arc_utilities/arc_helpers.hpp:562-667. `isinf` is modelled as being equal to infinity
(distances of minus infinity are not considered).

An OpenMP loop over `0 … n-1` is a list with one entry per thread: the indices the thread executes,
in the order in which it executes them. Threads write only to their own storage (or, in the second
branch, to different entries), so how the threads interleave does not matter beyond that.
-/
namespace Verif.Knn
open Verif

variable {α β W : Type} [Cost W]

/-- `std::max_element` with the comparator of arc_helpers.hpp:570-573: the loop that remembers the
first largest entry; `i` is the position of the head of the list. -/
def maxElementFrom : List (Int × W) → Nat → Nat → W → Nat
  | [], _, largest, _ => largest
  | x :: xs, i, largest, worst =>
    if worst < x.2 then maxElementFrom xs (i + 1) i x.2 else maxElementFrom xs (i + 1) largest worst

/-- `std::max_element(begin, end, compare_fn)` as a position. Used for arc_helpers.hpp:589-594, 608-613. -/
def maxElement : List (Int × W) → Nat
  | [] => 0
  | x :: xs => maxElementFrom xs 1 0 x.2

/-- arc_helpers.hpp:589-594, 608-613 and 648-653: replace the worst entry if the new one is better.
Dereferencing the end iterator of an empty vector is undefined. -/
def replaceWorst (l : List (Int × W)) (x : Int × W) : Out (List (Int × W)) :=
  match l[maxElement l]? with
  | none => .ub
  | some w => if x.2 < w.2 then .ok (l.set (maxElement l) x) else .ok l

/-- arc_helpers.hpp:580-595 and 645-654: the loop over the items, for the indices in the list. -/
def scan (items : List α) (current : β) (distance : α → β → W) :
    List Nat → List (Int × W) → Out (List (Int × W))
  | [], l => .ok l
  | i :: is, l =>
    match items[i]? with
    | none => .ub
    | some item => do
      let l ← replaceWorst l ((i : Int), distance item current)
      scan items current distance is l

/-- `K` entries `(-1, infinity)`. Used for arc_helpers.hpp:633-667, 562-631. -/
def unset (K : Nat) : List (Int × W) := List.replicate K (-1, Cost.inf)

/-- arc_helpers.hpp:619-628 and 656-664: the distances of all items, written in the given order. -/
def allDistances (items : List α) (current : β) (distance : α → β → W) :
    List Nat → List (Int × W) → Out (List (Int × W))
  | [], l => .ok l
  | i :: is, l =>
    match items[i]? with
    | none => .ub
    | some item => allDistances items current distance is (l.set i ((i : Int), distance item current))

/-- arc_helpers.hpp:633-667 `GetKNearestNeighborsSerial` -/
def kNearestSerial (items : List α) (current : β) (distance : α → β → W) (K : Nat) :
    Out (List (Int × W)) :=
  if K = 0 then .ok []
  else if items.length > K then
    scan items current distance (List.range items.length) (unset K)
  else allDistances items current distance (List.range items.length) (unset items.length)

/-- arc_helpers.hpp:598-616: merging the threads' results. -/
def merge (K : Nat) : List (Int × W) → List (Int × W) → Out (List (Int × W))
  | [], l => .ok l
  | x :: xs, l =>
    if x.2 ≠ Cost.inf ∧ x.1 ≠ -1 then
      if l.length < K then merge K xs (l ++ [x])
      else do
        let l ← replaceWorst l x
        merge K xs l
    else merge K xs l

/-- The loop of every thread. Used for arc_helpers.hpp:562-631. -/
def scanThreads (items : List α) (current : β) (distance : α → β → W) (K : Nat) :
    List (List Nat) → Out (List (List (Int × W)))
  | [] => .ok []
  | t :: ts => do
    let l ← scan items current distance t (unset K)
    let ls ← scanThreads items current distance K ts
    .ok (l :: ls)

/-- arc_helpers.hpp:562-631 `GetKNearestNeighborsParallel` under the given schedule. -/
def kNearestParallel (schedule : List (List Nat)) (items : List α) (current : β)
    (distance : α → β → W) (K : Nat) : Out (List (Int × W)) :=
  if K = 0 then .ok []
  else if items.length > K then do
    let nearests ← scanThreads items current distance K schedule
    merge K nearests.flatten []
  else allDistances items current distance schedule.flatten (unset items.length)

end Verif.Knn
