import Verif.Base.Rounding
import Verif.Model.PathUtils

/-!
# Model of include/arc_utilities/path_utils.hpp: upsampling with rounding

As in `Verif.Model.PathUtils`, but every result of an operation on `double`s is rounded, and so are conversions of whole
numbers. `at?` and `lengthsLoop`, which do not calculate, are used from there.
-/
namespace Verif.UpsampleRounded
open Verif
open Verif.PathUtils (at? lengthsLoop)
open Verif.Voxel (int64)

variable {C : Type} (R : Rounding)

/-- path_utils.hpp:195-206: the loop that splits the largest piece, for the given number of splits. Which of several
largest entries is taken is left open (`pick`; the code takes the one with the largest index). -/
noncomputable def splitLoop (pick : Nat → Nat) (lengths : List ℝ) :
    Nat → Nat → List (ℝ × Nat) → List Nat → Out (List Nat)
  | 0, _, _, counts => .ok counts
  | left + 1, i, queue, counts =>
    match popMin (fun e : ℝ × Nat => -e.1) (pick i) queue with
    | none => .ub
    | some ((_, segment), queue) =>
      match counts[segment]?, lengths[segment]? with
      | some count, some length =>
        splitLoop pick lengths left (i + 1) (queue ++ [(R.rd (length / R.rd ((count + 1 : Nat) : ℝ)), segment)])
          (counts.set segment (count + 1))
      | _, _ => .ub

/-- path_utils.hpp:212-219: the points of a segment, from number `j` on, for the given number of points; `acc` is what
has been written, at most `total` points fit -/
noncomputable def segmentLoop (interp : C → C → ℝ → C) (a b : C) (count : Nat) (total : Int) :
    Nat → Nat → List C → Out (List C)
  | 0, _, acc => .ok acc
  | left + 1, j, acc =>
    if (acc.length : Int) < total then
      segmentLoop interp a b count total left (j + 1)
        (acc ++ [interp a b (R.rd (R.rd (j : ℝ) * R.rd (1 / R.rd (count : ℝ))))])
    else .ub

/-- path_utils.hpp:211-220: the loop over the segments -/
noncomputable def buildLoop (interp : C → C → ℝ → C) (path : List C) (total : Int) :
    List Nat → Int → List C → Out (List C)
  | [], _, acc => .ok acc
  | count :: counts, ind, acc =>
    if count = 0 then buildLoop interp path total counts (ind + 1) acc
    else
      match at? path ind, at? path (ind + 1) with
      | some a, some b => do
        let acc ← segmentLoop R interp a b count total count 0 acc
        buildLoop interp path total counts (ind + 1) acc
      | _, _ => .ub

/-- path_utils.hpp:158-228 `UpsamplePathPartial`; `end_ind <= path.size()` compares as unsigned numbers. The message about
too many points is left out. -/
noncomputable def upsamplePathPartial (path : List C) (start stop points : Int) (dist : C → C → ℝ)
    (interp : C → C → ℝ → C) (pick : Nat → Nat) : Out (List C) := do
  Out.assert (stop > start)
  Out.assert (stop % 2 ^ 64 ≤ (path.length : Int))
  let current ← int64 (stop - start)
  if current = points then .ok path
  else if current > points then .ok path
  else do
    let segments := current - 1
    Out.assert (segments > 0)
    let lengths ← lengthsLoop dist path segments.toNat start
    let queue := lengths.zipIdx
    let counts ← splitLoop R pick lengths (points - current).toNat 0 queue (List.replicate segments.toNat 1)
    let acc ← buildLoop R interp path points counts start []
    Out.assert ((acc.length : Int) = points - 1)
    match at? path (stop - 1) with
    | some last => .ok (acc ++ [last])
    | none => .ub

/-- path_utils.hpp:230-237 `UpsamplePath` -/
noncomputable def upsamplePath (path : List C) (points : Int) (dist : C → C → ℝ) (interp : C → C → ℝ → C)
    (pick : Nat → Nat) : Out (List C) :=
  upsamplePathPartial R path 0 (path.length : Int) points dist interp pick

end Verif.UpsampleRounded
