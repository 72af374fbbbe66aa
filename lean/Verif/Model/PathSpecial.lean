import Verif.Base.Ieee
import Verif.Model.PathUtils
import Verif.Model.UpsampleRounded
import Verif.Model.VoxelSpecial

/-!
# Model of include/arc_utilities/path_utils.hpp with special doubles

As in `Verif.Model.ResampleRounded` and `Verif.Model.UpsampleRounded`, but distances, the resolution and the fraction of
a shortcut may be infinite or not a number, and results may overflow. See `Verif.Base.Ieee` for what is left out.
-/
namespace Verif.PathSpecial
open Verif
open Verif.PathUtils (at? Check)
open Verif.Voxel (int64)
open Verif.VoxelSpecial (toInt64 ceil)

variable {C : Type} (A : Ieee)

/-! ## Resampling -/

/-- `(uint32_t)a`: undefined outside of the range of `uint32_t`. Used for path_utils.hpp:112. -/
noncomputable def toUint32 : Dbl → Out Nat
  | .num x => if 0 ≤ (if 0 ≤ x then ⌊x⌋ else ⌈x⌉) ∧ (if 0 ≤ x then ⌊x⌋ else ⌈x⌉) < 2 ^ 32 then
      .ok (if 0 ≤ x then ⌊x⌋ else ⌈x⌉).toNat else .ub
  | _ => .ub

/-- path_utils.hpp:125-129: the loop over the pieces of a segment; the counter is a `uint32_t`. `none` when the fuel
does not suffice. -/
noncomputable def pieceLoop (interp : C → C → Dbl → C) (a b : C) (n : Nat) : Nat → Nat → List C → Option (List C)
  | 0, _, _ => none
  | fuel + 1, segment, acc =>
    if segment ≤ n then
      pieceLoop interp a b n fuel ((segment + 1) % 2 ^ 32) (acc ++ [interp a b (A.div (.num segment) (.num n))])
    else some acc

/-- path_utils.hpp:106-131: the loop over the segments from index `idx` on, for the given number of segments -/
noncomputable def resampleLoop (dist : C → C → Dbl) (interp : C → C → Dbl → C) (resolution : Dbl) (path : List C)
    (fuel : Nat) : Nat → Nat → List C → Option (Out (List C))
  | 0, _, acc => some (.ok acc)
  | left + 1, idx, acc =>
    match path[idx]?, path[idx + 1]? with
    | some a, some b =>
      match toUint32 (ceil (A.div (dist a b) resolution)) with
      | .ok n =>
        if n = 0 then resampleLoop dist interp resolution path fuel left (idx + 1) acc
        else if n = 1 then resampleLoop dist interp resolution path fuel left (idx + 1) (acc ++ [b])
        else
          match pieceLoop A interp a b n fuel 1 acc with
          | none => none
          | some acc => resampleLoop dist interp resolution path fuel left (idx + 1) acc
      | _ => some .ub
    | _, _ => some .ub

/-- path_utils.hpp:82-133 `ResamplePathPartial` -/
noncomputable def resamplePathPartial (path : List C) (start stop : Nat) (resolution : Dbl) (dist : C → C → Dbl)
    (interp : C → C → Dbl → C) (fuel : Nat) : Option (Out (List C)) :=
  if start ≥ stop ∨ stop > path.length then some (.throws .invalidArgument)
  else
    match path[start]? with
    | none => some .ub
    | some first =>
      if stop - start = 1 then some (.ok [first])
      else resampleLoop A dist interp resolution path fuel (stop - 1 - start) start [first]

/-- path_utils.hpp:135-142 `ResamplePath` -/
noncomputable def resamplePath (path : List C) (resolution : Dbl) (dist : C → C → Dbl) (interp : C → C → Dbl → C)
    (fuel : Nat) : Option (Out (List C)) :=
  resamplePathPartial A path 0 path.length resolution dist interp fuel

/-! ## Upsampling -/

/-- path_utils.hpp:186-190: the lengths of the segments from index `ind` on, for the given number of them -/
def lengthsLoop (dist : C → C → Dbl) (path : List C) : Nat → Int → Out (List Dbl)
  | 0, _ => .ok []
  | left + 1, ind =>
    match at? path ind, at? path (ind + 1) with
    | some a, some b => do
      let rest ← lengthsLoop dist path left (ind + 1)
      .ok (dist a b :: rest)
    | _, _ => .ub

open Classical in
/-- The positions of the queue's entries that may be at its top: those with the largest lengths; or all of them if there
is a length that is not a number, because the pairs are not ordered then. Used for path_utils.hpp:197-198. -/
noncomputable def topPositions (queue : List (Dbl × Nat)) : List Nat :=
  (List.range queue.length).filter fun i =>
    match queue[i]? with
    | some x => decide ((∃ y ∈ queue, y.1 = .nan) ∨ ∀ y ∈ queue, ¬ Ieee.lt x.1 y.1)
    | none => false

/-- path_utils.hpp:197-198: `top` followed by `pop` of the `std::priority_queue`; the number picks one of the entries that
may be at its top -/
noncomputable def popTop (c : Nat) (queue : List (Dbl × Nat)) : Option ((Dbl × Nat) × List (Dbl × Nat)) :=
  match (topPositions queue)[c % (topPositions queue).length]? with
  | none => none
  | some i =>
    match queue[i]? with
    | none => none
    | some x => some (x, queue.eraseIdx i)

/-- path_utils.hpp:195-206: the loop that splits the largest piece, for the given number of splits -/
noncomputable def splitLoop (pick : Nat → Nat) (lengths : List Dbl) :
    Nat → Nat → List (Dbl × Nat) → List Nat → Out (List Nat)
  | 0, _, _, counts => .ok counts
  | left + 1, i, queue, counts =>
    match popTop (pick i) queue with
    | none => .ub
    | some ((_, segment), queue) =>
      match counts[segment]?, lengths[segment]? with
      | some count, some length =>
        splitLoop pick lengths left (i + 1) (queue ++ [(A.div length (A.round ((count + 1 : Nat) : ℝ)), segment)])
          (counts.set segment (count + 1))
      | _, _ => .ub

/-- path_utils.hpp:158-228 `UpsamplePathPartial`; `end_ind <= path.size()` compares as unsigned numbers. The message about
too many points is left out. The points are made as in `Verif.UpsampleRounded`: their ratios are between zero and one. -/
noncomputable def upsamplePathPartial (path : List C) (start stop points : Int) (dist : C → C → Dbl)
    (interp : C → C → ℝ → C) (pick : Nat → Nat) : Out (List C) := do
  Out.assert (stop > start)
  Out.assert (stop % 2 ^ 64 ≤ (path.length : Int))
  let current ← int64 (stop - start)
  if current = points then .ok path
  else if current > points then .ok path
  else do
    let segments := current - 1
    Out.assert (segments > 0)
    let lengths ← lengthsLoop dist path segments.toNat start
    let queue := lengths.zipIdx
    let counts ← splitLoop A pick lengths (points - current).toNat 0 queue (List.replicate segments.toNat 1)
    let acc ← UpsampleRounded.buildLoop A.R interp path points counts start []
    Out.assert ((acc.length : Int) = points - 1)
    match at? path (stop - 1) with
    | some last => .ok (acc ++ [last])
    | none => .ub

/-- path_utils.hpp:230-237 `UpsamplePath` -/
noncomputable def upsamplePath (path : List C) (points : Int) (dist : C → C → Dbl) (interp : C → C → ℝ → C)
    (pick : Nat → Nat) : Out (List C) :=
  upsamplePathPartial A path 0 (path.length : Int) points dist interp pick

/-! ## Shortcuts -/

open Classical in
/-- path_utils.hpp:32-65: the loop of `ShortcutSmoothPath`, as in `Verif.PathUtils.shortcutLoop`. A uniform distribution is
undefined unless its bounds are in order and their difference is finite. -/
noncomputable def shortcutLoop (maxFailed : Nat) (maxFraction : Dbl) (valid : Nat → C → C → Bool)
    (draw : Nat → Nat → Nat × Dbl) :
    Nat → Nat → Nat → List C → List (Check C) → Out (List C × List (Check C))
  | 0, _, _, path, log => .ok (path, log)
  | left + 1, i, failed, path, log =>
    if failed < maxFailed ∧ path.length > 2 then
      if ¬ (Ieee.le (Ieee.neg maxFraction) maxFraction ∧ (A.sub maxFraction (Ieee.neg maxFraction)).Finite) then .ub
      else do
        let base : Int := ((draw i path.length).1 : Int)
        let fraction := (draw i path.length).2
        let shift ← toInt64 (A.mul (A.round (path.length : ℝ)) fraction)
        let offset ← int64 (base + shift)
        let safe ← Clamp.clampValue offset 0 ((path.length : Int) - 1)
        let start := (min base safe).toNat
        let stop := (max base safe).toNat
        if stop ≤ start + 1 then shortcutLoop maxFailed maxFraction valid draw left (i + 1) failed path log
        else
          match path[start]?, path[stop]? with
          | some a, some b =>
            let answer := valid log.length a b
            let log := log ++ [⟨a, b, answer⟩]
            if answer then
              shortcutLoop maxFailed maxFraction valid draw left (i + 1) failed
                (path.take (start + 1) ++ path.drop stop) log
            else shortcutLoop maxFailed maxFraction valid draw left (i + 1) (failed + 1) path log
          | _, _ => .ub
    else .ok (path, log)

/-- path_utils.hpp:21-67 `ShortcutSmoothPath` -/
noncomputable def shortcutSmoothPath (path : List C) (maxIterations maxFailed : Nat) (maxFraction : Dbl)
    (valid : Nat → C → C → Bool) (draw : Nat → Nat → Nat × Dbl) : Out (List C × List (Check C)) :=
  shortcutLoop A maxFailed maxFraction valid draw maxIterations 0 0 path []

end Verif.PathSpecial
