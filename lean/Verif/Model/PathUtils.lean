import Mathlib.Algebra.Order.Floor.Ring
import Verif.Base.Outcome
import Verif.Base.PQueue
import Verif.Model.Clamp
import Verif.Model.Voxel

/-!
# Model of include/arc_utilities/path_utils.hpp

`double` is an ordered field with floors (exact arithmetic; infinities and not-a-number only where the
comments say so). `C` is the type of configurations.
-/
namespace Verif.PathUtils
open Verif
open Verif.Voxel (int64 truncate)

/-- A call of the edge validity check and its answer. Used for path_utils.hpp:32-65, 21-67. -/
structure Check (C : Type) where
  start : C
  stop : C
  answer : Bool
  deriving DecidableEq

section
variable {K C : Type} [Field K] [LinearOrder K] [FloorRing K]

/-- path_utils.hpp:32-65: the loop of `ShortcutSmoothPath`. The first number counts the iterations left.
`draw i n` is what iteration `i` draws when the path has `n` states: an index and a fraction. `valid k` is
the answer of the validity check at its call number `k`. A uniform distribution over the empty interval is
undefined behaviour. The checks made are recorded. -/
def shortcutLoop (maxFailed : Nat) (maxFraction : K) (valid : Nat → C → C → Bool)
    (draw : Nat → Nat → Nat × K) :
    Nat → Nat → Nat → List C → List (Check C) → Out (List C × List (Check C))
  | 0, _, _, path, log => .ok (path, log)
  | left + 1, i, failed, path, log =>
    if failed < maxFailed ∧ path.length > 2 then
      if maxFraction < -maxFraction then .ub
      else do
        let base : Int := ((draw i path.length).1 : Int)
        let fraction := (draw i path.length).2
        let shift ← truncate ((path.length : K) * fraction)
        let offset ← int64 (base + shift)
        let safe ← Clamp.clampValue offset 0 ((path.length : Int) - 1)
        let start := (min base safe).toNat
        let stop := (max base safe).toNat
        if stop ≤ start + 1 then shortcutLoop maxFailed maxFraction valid draw left (i + 1) failed path log
        else
          match path[start]?, path[stop]? with
          | some a, some b =>
            let answer := valid log.length a b
            let log := log ++ [⟨a, b, answer⟩]
            if answer then
              shortcutLoop maxFailed maxFraction valid draw left (i + 1) failed
                (path.take (start + 1) ++ path.drop stop) log
            else shortcutLoop maxFailed maxFraction valid draw left (i + 1) (failed + 1) path log
          | _, _ => .ub
    else .ok (path, log)

/-- path_utils.hpp:21-67 `ShortcutSmoothPath` -/
def shortcutSmoothPath (path : List C) (maxIterations maxFailed : Nat) (maxFraction : K)
    (valid : Nat → C → C → Bool) (draw : Nat → Nat → Nat × K) : Out (List C × List (Check C)) :=
  shortcutLoop maxFailed maxFraction valid draw maxIterations 0 0 path []

/-- path_utils.hpp:125-129: the loop over the pieces of a segment; the counter is a `uint32_t`. `none` when
the fuel does not suffice. -/
def pieceLoop (interp : C → C → K → C) (a b : C) (n : Nat) : Nat → Nat → List C → Option (List C)
  | 0, _, _ => none
  | fuel + 1, segment, acc =>
    if segment ≤ n then
      pieceLoop interp a b n fuel ((segment + 1) % 2 ^ 32)
        (acc ++ [interp a b ((segment : K) / (n : K))])
    else some acc

/-- path_utils.hpp:106-131: the loop over the segments from index `idx` on, for the given number of
segments. The conversion to `uint32_t` is undefined outside its range; a division by zero gives an infinity
or not-a-number, for which it is undefined too. -/
def resampleLoop (dist : C → C → K) (interp : C → C → K → C) (resolution : K) (path : List C) (fuel : Nat) :
    Nat → Nat → List C → Option (Out (List C))
  | 0, _, acc => some (.ok acc)
  | left + 1, idx, acc =>
    match path[idx]?, path[idx + 1]? with
    | some a, some b =>
      let intervals := ⌈dist a b / resolution⌉
      if resolution = 0 ∨ intervals < 0 ∨ 2 ^ 32 ≤ intervals then some .ub
      else if intervals.toNat = 0 then resampleLoop dist interp resolution path fuel left (idx + 1) acc
      else if intervals.toNat = 1 then
        resampleLoop dist interp resolution path fuel left (idx + 1) (acc ++ [b])
      else
        match pieceLoop interp a b intervals.toNat fuel 1 acc with
        | none => none
        | some acc => resampleLoop dist interp resolution path fuel left (idx + 1) acc
    | _, _ => some .ub

/-- path_utils.hpp:82-133 `ResamplePathPartial` -/
def resamplePathPartial (path : List C) (start stop : Nat) (resolution : K) (dist : C → C → K)
    (interp : C → C → K → C) (fuel : Nat) : Option (Out (List C)) :=
  if start ≥ stop ∨ stop > path.length then some (.throws .invalidArgument)
  else
    match path[start]? with
    | none => some .ub
    | some first =>
      if stop - start = 1 then some (.ok [first])
      else resampleLoop dist interp resolution path fuel (stop - 1 - start) start [first]

/-- path_utils.hpp:135-142 `ResamplePath` -/
def resamplePath (path : List C) (resolution : K) (dist : C → C → K) (interp : C → C → K → C)
    (fuel : Nat) : Option (Out (List C)) :=
  resamplePathPartial path 0 path.length resolution dist interp fuel

/-- `path[i]` with a signed index. Used for path_utils.hpp:186-190, 211-220. -/
def at? (path : List C) (i : Int) : Option C := if i < 0 then none else path[i.toNat]?

/-- path_utils.hpp:186-190: the lengths of the segments from index `ind` on, for the given number of them -/
def lengthsLoop (dist : C → C → K) (path : List C) : Nat → Int → Out (List K)
  | 0, _ => .ok []
  | left + 1, ind =>
    match at? path ind, at? path (ind + 1) with
    | some a, some b => do
      let rest ← lengthsLoop dist path left (ind + 1)
      .ok (dist a b :: rest)
    | _, _ => .ub

/-- path_utils.hpp:195-206: the loop that splits the largest piece, for the given number of splits. The
queue holds pairs of a piece length and a segment. Which of several largest entries is taken is left open
(`pick`; the code takes the one with the largest index). -/
def splitLoop (pick : Nat → Nat) (lengths : List K) : Nat → Nat → List (K × Nat) → List Nat → Out (List Nat)
  | 0, _, _, counts => .ok counts
  | left + 1, i, queue, counts =>
    match popMin (fun e : K × Nat => -e.1) (pick i) queue with
    | none => .ub
    | some ((_, segment), queue) =>
      match counts[segment]?, lengths[segment]? with
      | some count, some length =>
        splitLoop pick lengths left (i + 1) (queue ++ [(length / ((count + 1 : Nat) : K), segment)])
          (counts.set segment (count + 1))
      | _, _ => .ub

/-- path_utils.hpp:213-219: the points of a segment, from number `j` on, for the given number of points;
`acc` is what has been written, at most `total` points fit -/
def segmentLoop (interp : C → C → K → C) (a b : C) (count : Nat) (total : Int) :
    Nat → Nat → List C → Out (List C)
  | 0, _, acc => .ok acc
  | left + 1, j, acc =>
    if (acc.length : Int) < total then
      segmentLoop interp a b count total left (j + 1) (acc ++ [interp a b ((j : K) * (1 / (count : K)))])
    else .ub

/-- path_utils.hpp:211-220: the loop over the segments -/
def buildLoop (interp : C → C → K → C) (path : List C) (total : Int) : List Nat → Int → List C → Out (List C)
  | [], _, acc => .ok acc
  | count :: counts, ind, acc =>
    if count = 0 then buildLoop interp path total counts (ind + 1) acc
    else
      match at? path ind, at? path (ind + 1) with
      | some a, some b => do
        let acc ← segmentLoop interp a b count total count 0 acc
        buildLoop interp path total counts (ind + 1) acc
      | _, _ => .ub

/-- path_utils.hpp:158-228 `UpsamplePathPartial`; `end_ind <= path.size()` compares as unsigned numbers.
The message about too many points is left out. -/
def upsamplePathPartial (path : List C) (start stop points : Int) (dist : C → C → K)
    (interp : C → C → K → C) (pick : Nat → Nat) : Out (List C) := do
  Out.assert (stop > start)
  Out.assert (stop % 2 ^ 64 ≤ (path.length : Int))
  let current ← int64 (stop - start)
  if current = points then .ok path
  else if current > points then .ok path
  else do
    let segments := current - 1
    Out.assert (segments > 0)
    let lengths ← lengthsLoop dist path segments.toNat start
    let queue := lengths.zipIdx
    let counts ← splitLoop pick lengths (points - current).toNat 0 queue (List.replicate segments.toNat 1)
    let acc ← buildLoop interp path points counts start []
    Out.assert ((acc.length : Int) = points - 1)
    match at? path (stop - 1) with
    | some last => .ok (acc ++ [last])
    | none => .ub

/-- path_utils.hpp:230-237 `UpsamplePath` -/
def upsamplePath (path : List C) (points : Int) (dist : C → C → K) (interp : C → C → K → C)
    (pick : Nat → Nat) : Out (List C) :=
  upsamplePathPartial path 0 (path.length : Int) points dist interp pick

end

end Verif.PathUtils
