import Verif.Base.Cost
import Verif.Base.NotANumber
import Verif.Base.Outcome

/-!
# Model of the K-nearest-neighbour queries with distances that may not be a number

include/arc_utilities/arc_helpers.hpp:562-667, as in `Verif.Model.Knn`, but the distance function may return
NaN (`none`). Comparisons are those of `Verif.Base.NotANumber`; `isinf` of NaN is false.
-/
namespace Verif.NanKnn
open Verif Verif.NotANumber

variable {α β W : Type} [Cost W]

/-- `std::max_element` with the comparator of arc_helpers.hpp:570-573: the loop that remembers the
first largest entry; `i` is the position of the head of the list. -/
def maxElementFrom : List (Int × Option W) → Nat → Nat → Option W → Nat
  | [], _, largest, _ => largest
  | x :: xs, i, largest, worst =>
    if lt worst x.2 then maxElementFrom xs (i + 1) i x.2 else maxElementFrom xs (i + 1) largest worst

/-- `std::max_element(begin, end, compare_fn)` as a position. Used for arc_helpers.hpp:589-594, 608-613. -/
def maxElement : List (Int × Option W) → Nat
  | [] => 0
  | x :: xs => maxElementFrom xs 1 0 x.2

/-- arc_helpers.hpp:589-594, 608-613 and 648-653: replace the worst entry if `worst_distance > distance`.
Dereferencing the end iterator of an empty vector is undefined. -/
def replaceWorst (l : List (Int × Option W)) (x : Int × Option W) : Out (List (Int × Option W)) :=
  match l[maxElement l]? with
  | none => .ub
  | some w => if lt x.2 w.2 then .ok (l.set (maxElement l) x) else .ok l

/-- arc_helpers.hpp:580-595 and 645-654: the loop over the items, for the indices in the list. -/
def scan (items : List α) (current : β) (distance : α → β → Option W) :
    List Nat → List (Int × Option W) → Out (List (Int × Option W))
  | [], l => .ok l
  | i :: is, l =>
    match items[i]? with
    | none => .ub
    | some item => do
      let l ← replaceWorst l ((i : Int), distance item current)
      scan items current distance is l

/-- `K` entries `(-1, infinity)`. Used for arc_helpers.hpp:633-667, 562-631. -/
def unset (K : Nat) : List (Int × Option W) := List.replicate K (-1, some Cost.inf)

/-- arc_helpers.hpp:619-628 and 656-664: the distances of all items, written in the given order. -/
def allDistances (items : List α) (current : β) (distance : α → β → Option W) :
    List Nat → List (Int × Option W) → Out (List (Int × Option W))
  | [], l => .ok l
  | i :: is, l =>
    match items[i]? with
    | none => .ub
    | some item => allDistances items current distance is (l.set i ((i : Int), distance item current))

/-- arc_helpers.hpp:633-667 `GetKNearestNeighborsSerial` -/
def kNearestSerial (items : List α) (current : β) (distance : α → β → Option W) (K : Nat) :
    Out (List (Int × Option W)) :=
  if K = 0 then .ok []
  else if items.length > K then
    scan items current distance (List.range items.length) (unset K)
  else allDistances items current distance (List.range items.length) (unset items.length)

/-- arc_helpers.hpp:600-615: merge the threads' lists, given one after the other. -/
def merge (K : Nat) : List (Int × Option W) → List (Int × Option W) → Out (List (Int × Option W))
  | [], l => .ok l
  | x :: xs, l =>
    if x.2 ≠ some Cost.inf ∧ x.1 ≠ -1 then
      if l.length < K then merge K xs (l ++ [x])
      else do
        let l ← replaceWorst l x
        merge K xs l
    else merge K xs l

/-- arc_helpers.hpp:574-595: what every thread keeps, starting from `K` unset entries. -/
def scanThreads (items : List α) (current : β) (distance : α → β → Option W) (K : Nat) :
    List (List Nat) → Out (List (List (Int × Option W)))
  | [] => .ok []
  | t :: ts => do
    let l ← scan items current distance t (unset K)
    let ls ← scanThreads items current distance K ts
    .ok (l :: ls)

/-- arc_helpers.hpp:562-631 `GetKNearestNeighborsParallel` under the given schedule -/
def kNearestParallel (schedule : List (List Nat)) (items : List α) (current : β)
    (distance : α → β → Option W) (K : Nat) : Out (List (Int × Option W)) :=
  if K = 0 then .ok []
  else if items.length > K then do
    let nearests ← scanThreads items current distance K schedule
    merge K nearests.flatten []
  else allDistances items current distance schedule.flatten (unset items.length)

end Verif.NanKnn
