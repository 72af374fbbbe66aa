import Verif.Base.Cost
import Verif.Base.NotANumber
import Verif.Base.Outcome

/-!
# Model of the Hausdorff distance with distances that may not be a number

include/arc_utilities/simple_hausdorff_distance.hpp:43-82, as in `Verif.Model.Hausdorff`, but the distance
function may return NaN (`none`).
-/
namespace Verif.NanHausdorff
open Verif Verif.NotANumber

variable {α β W : Type} [Cost W]

/-- simple_hausdorff_distance.hpp:53-60: the distance to the nearest item of the second set. -/
def minimumDistance (first : α) (distance : α → β → Option W) : List β → Option W → Option W
  | [], minimum => minimum
  | second :: rest, minimum =>
    if lt (distance first second) minimum then minimumDistance first distance rest (distance first second)
    else minimumDistance first distance rest minimum

/-- simple_hausdorff_distance.hpp:51-73: the loop of one thread. -/
def threadLoop (firsts : List α) (seconds : List β) (distance : α → β → Option W) :
    List Nat → Option W → Out (Option W)
  | [], storage => .ok storage
  | i :: is, storage =>
    match firsts[i]? with
    | none => .ub
    | some first =>
      let minimum := minimumDistance first distance seconds (some Cost.inf)
      if lt storage minimum then threadLoop firsts seconds distance is minimum
      else threadLoop firsts seconds distance is storage

/-- The storage of every thread, from 0.0 (simple_hausdorff_distance.hpp:47). -/
def threads (firsts : List α) (seconds : List β) (distance : α → β → Option W) :
    List (List Nat) → Out (List (Option W))
  | [] => .ok []
  | t :: ts => do
    let s ← threadLoop firsts seconds distance t (some 0)
    let rest ← threads firsts seconds distance ts
    .ok (s :: rest)

/-- simple_hausdorff_distance.hpp:74-81: the largest of the threads' values. -/
def largest : List (Option W) → Option W → Option W
  | [], maximum => maximum
  | s :: rest, maximum => if lt maximum s then largest rest s else largest rest maximum

/-- simple_hausdorff_distance.hpp:43-82 `ComputeDistance` under the given schedule -/
def computeDistance (schedule : List (List Nat)) (firsts : List α) (seconds : List β)
    (distance : α → β → Option W) : Out (Option W) := do
  let storage ← threads firsts seconds distance schedule
  .ok (largest storage (some 0))

end Verif.NanHausdorff
