import Verif.Base.Rounding
import Verif.Model.PathUtils

/-!
# Model of include/arc_utilities/path_utils.hpp: resampling with rounding

As in `Verif.Model.PathUtils`, but every result of an operation on `double`s is rounded. The conversions of whole
numbers below 2^32 to `double` are exact.
-/
namespace Verif.ResampleRounded
open Verif

variable {C : Type} (R : Rounding)

/-- path_utils.hpp:125-129: the loop over the pieces of a segment; the counter is a `uint32_t`. `none` when the fuel
does not suffice. -/
noncomputable def pieceLoop (interp : C → C → ℝ → C) (a b : C) (n : Nat) : Nat → Nat → List C → Option (List C)
  | 0, _, _ => none
  | fuel + 1, segment, acc =>
    if segment ≤ n then
      pieceLoop interp a b n fuel ((segment + 1) % 2 ^ 32)
        (acc ++ [interp a b (R.rd ((segment : ℝ) / (n : ℝ)))])
    else some acc

/-- path_utils.hpp:106-131: the loop over the segments from index `idx` on, for the given number of segments. `dist`
is what the distance function returns. The conversion to `uint32_t` is undefined outside its range. -/
noncomputable def resampleLoop (dist : C → C → ℝ) (interp : C → C → ℝ → C) (resolution : ℝ) (path : List C)
    (fuel : Nat) : Nat → Nat → List C → Option (Out (List C))
  | 0, _, acc => some (.ok acc)
  | left + 1, idx, acc =>
    match path[idx]?, path[idx + 1]? with
    | some a, some b =>
      let intervals := ⌈R.rd (dist a b / resolution)⌉
      if resolution = 0 ∨ intervals < 0 ∨ 2 ^ 32 ≤ intervals then some .ub
      else if intervals.toNat = 0 then resampleLoop dist interp resolution path fuel left (idx + 1) acc
      else if intervals.toNat = 1 then
        resampleLoop dist interp resolution path fuel left (idx + 1) (acc ++ [b])
      else
        match pieceLoop R interp a b intervals.toNat fuel 1 acc with
        | none => none
        | some acc => resampleLoop dist interp resolution path fuel left (idx + 1) acc
    | _, _ => some .ub

/-- path_utils.hpp:82-133 `ResamplePathPartial` -/
noncomputable def resamplePathPartial (path : List C) (start stop : Nat) (resolution : ℝ) (dist : C → C → ℝ)
    (interp : C → C → ℝ → C) (fuel : Nat) : Option (Out (List C)) :=
  if start ≥ stop ∨ stop > path.length then some (.throws .invalidArgument)
  else
    match path[start]? with
    | none => some .ub
    | some first =>
      if stop - start = 1 then some (.ok [first])
      else resampleLoop R dist interp resolution path fuel (stop - 1 - start) start [first]

/-- path_utils.hpp:135-142 `ResamplePath` -/
noncomputable def resamplePath (path : List C) (resolution : ℝ) (dist : C → C → ℝ) (interp : C → C → ℝ → C)
    (fuel : Nat) : Option (Out (List C)) :=
  resamplePathPartial R path 0 path.length resolution dist interp fuel

end Verif.ResampleRounded
