import Verif.Base.Ieee
import Verif.Base.Outcome
import Verif.Model.Angles

/-!
# Model of include/arc_utilities/math_helpers.hpp with special doubles

As in Model/RoundedMath.lean, but for all doubles: arguments can be infinite or not a number, and results can overflow.
`M_PI` is the parameter `pi`.
-/
namespace Verif.MathSpecial
open Verif

variable (A : Ieee)

open Classical in
/-- math_helpers.hpp:16-20 `CloseEnough` -/
noncomputable def closeEnough (p1 p2 threshold : Dbl) : Bool :=
  decide (Ieee.le (Ieee.abs (A.sub p2 p1)) (Ieee.abs threshold))

/-- math_helpers.hpp:26-30: the loop of `CloseEnough` for vectors -/
noncomputable def closeEnoughLoop (threshold : Dbl) : List Dbl → List Dbl → Out Bool
  | [], _ => .ok true
  | _ :: _, [] => .ub
  | x :: xs, y :: ys =>
    if closeEnough A x y threshold = false then .ok false else closeEnoughLoop threshold xs ys

/-- math_helpers.hpp:22-32 `CloseEnough` for vectors -/
noncomputable def closeEnoughVec (v1 v2 : List Dbl) (threshold : Dbl) : Out Bool :=
  if v1.length ≠ v2.length then .ok false else closeEnoughLoop A threshold v1 v2

open Classical in
/-- `std::min(a, b)`: the second only if it is smaller. Used for math_helpers.hpp:35-39. -/
noncomputable def stdMin (a b : Dbl) : Dbl := if Ieee.lt b a then b else a

/-- math_helpers.hpp:35-39 `IsApprox` -/
noncomputable def isApprox (p1 p2 precision : Dbl) : Bool :=
  closeEnough A p1 p2 (A.mul precision (stdMin (Ieee.abs p1) (Ieee.abs p2)))

open Classical in
/-- math_helpers.hpp:43-46 `Sign` -/
noncomputable def sign (v : Dbl) : Int :=
  (if Ieee.lt (.num 0) v then 1 else 0) - (if Ieee.lt v (.num 0) then 1 else 0)

open Classical in
/-- math_helpers.hpp:70-81 `SafetyCheckUnitInterval`; whether a message is printed is the second component -/
noncomputable def safetyCheckUnitInterval (ratio : Dbl) : Dbl × Bool :=
  if Ieee.lt ratio (.num 0) then (.num 0, true)
  else if Ieee.lt (.num 1) ratio then (.num 1, true)
  else (ratio, false)

/-- math_helpers.hpp:83-89 `Interpolate` -/
noncomputable def interpolate (p1 p2 ratio : Dbl) : Dbl :=
  let r := (safetyCheckUnitInterval ratio).1
  A.add (A.mul p1 (A.sub (.num 1) r)) (A.mul p2 r)

/-- `fmod(a, b)`; exact, and the sign of a zero is left out. Used for math_helpers.hpp:52-65, where the divisor is
`2.0 * M_PI`. -/
noncomputable def fmod : Dbl → Dbl → Dbl
  | .nan, _ => .nan
  | _, .nan => .nan
  | .inf _, _ => .nan
  | .num x, .inf _ => .num x
  | .num x, .num y => .num (Angles.fmod x y)

/-- `2.0 * M_PI`. Used for math_helpers.hpp:52-65, 91-119, 175-191, 201-228. -/
noncomputable def turn (pi : ℝ) : Dbl := A.mul (.num 2) (.num pi)

open Classical in
/-- math_helpers.hpp:52-65 `EnforceContinuousRevoluteBounds` -/
noncomputable def enforceBounds (pi : ℝ) (value : Dbl) : Dbl :=
  if Ieee.le value (.num (-pi)) ∨ Ieee.lt (.num pi) value then
    let remainder := fmod value (turn A pi)
    if Ieee.le remainder (.num (-pi)) then A.add remainder (turn A pi)
    else if Ieee.lt (.num pi) remainder then A.sub remainder (turn A pi)
    else remainder
  else value

open Classical in
/-- math_helpers.hpp:91-119 `InterpolateContinuousRevolute` -/
noncomputable def interpolateRevolute (pi : ℝ) (p1 p2 ratio : Dbl) : Dbl :=
  let r := (safetyCheckUnitInterval ratio).1
  let q1 := enforceBounds A pi p1
  let q2 := enforceBounds A pi p2
  let diff := A.sub q2 q1
  if Ieee.le (Ieee.abs diff) (.num pi) then A.add q1 (A.mul diff r)
  else
    let diff := if Ieee.lt (.num 0) diff then A.sub (turn A pi) diff
      else A.sub (A.mul (.num (-2)) (.num pi)) diff
    let interpolated := A.sub q1 (A.mul diff r)
    if Ieee.lt (.num pi) interpolated then A.sub interpolated (turn A pi)
    else if Ieee.lt interpolated (.num (-pi)) then A.add interpolated (turn A pi)
    else interpolated

open Classical in
/-- math_helpers.hpp:175-191 `ContinuousRevoluteSignedDistance` -/
noncomputable def signedDistance (pi : ℝ) (p1 p2 : Dbl) : Dbl :=
  let raw := A.sub (enforceBounds A pi p2) (enforceBounds A pi p1)
  if Ieee.le raw (.num (-pi)) ∨ Ieee.lt (.num pi) raw then
    if Ieee.le raw (.num (-pi)) then A.sub (Ieee.neg (turn A pi)) raw
    else if Ieee.lt (.num pi) raw then A.sub (turn A pi) raw
    else raw
  else raw

/-- math_helpers.hpp:193-195 `ContinuousRevoluteDistance` -/
noncomputable def revoluteDistance (pi : ℝ) (p1 p2 : Dbl) : Dbl := Ieee.abs (signedDistance A pi p1 p2)

/-- math_helpers.hpp:197-199 `AddContinuousRevoluteValues` -/
noncomputable def addRevolute (pi : ℝ) (start change : Dbl) : Dbl := enforceBounds A pi (A.add start change)

open Classical in
/-- math_helpers.hpp:201-208 `GetContinuousRevoluteRange` -/
noncomputable def getRange (pi : ℝ) (start stop : Dbl) : Dbl :=
  let raw := signedDistance A pi start stop
  if Ieee.le (.num 0) raw then raw else A.add (turn A pi) raw

open Classical in
/-- math_helpers.hpp:210-228 `CheckInContinuousRevoluteRange` -/
noncomputable def checkInRange (pi : ℝ) (start range val : Dbl) : Bool :=
  let realVal := enforceBounds A pi val
  let realStart := enforceBounds A pi start
  let delta := signedDistance A pi realStart realVal
  if Ieee.le (.num 0) delta then decide (Ieee.le delta range)
  else decide (Ieee.le (A.add (turn A pi) delta) range)

/-- math_helpers.hpp:230-233 `CheckInContinuousRevoluteBounds` -/
noncomputable def checkInBounds (pi : ℝ) (start stop val : Dbl) : Bool :=
  checkInRange A pi start (getRange A pi start stop) val

/-- math_helpers.hpp:158-160: the loop of `SquaredDistance` -/
noncomputable def squaredLoop (sum : Dbl) : List Dbl → List Dbl → Out Dbl
  | [], _ => .ok sum
  | _ :: _, [] => .ub
  | x :: xs, y :: ys => squaredLoop (A.add sum (A.mul (A.sub y x) (A.sub y x))) xs ys

/-- math_helpers.hpp:155-165 `SquaredDistance` -/
noncomputable def squaredDistance (p1 p2 : List Dbl) : Out Dbl :=
  if p1.length = p2.length then squaredLoop A (.num 0) p1 p2 else .ok (.inf false)

/-- math_helpers.hpp:167-173 `Distance` -/
noncomputable def distance (p1 p2 : List Dbl) : Out Dbl :=
  if p1.length = p2.length then do
    let s ← squaredDistance A p1 p2
    .ok (A.sqrt s)
  else .ok (.inf false)

open Classical in
/-- math_helpers.hpp:259-261: the first index whose weight is not zero, from `i` on; a weight that is not a number is
not zero -/
noncomputable def firstNonzero (i : Nat) : List Dbl → Nat
  | [] => i
  | w :: ws => if w = .num 0 then firstNonzero (i + 1) ws else i

/-- `use_weights ? std::abs(weights[idx]) : 1.0`. Used for math_helpers.hpp:270-277, 251-279. -/
noncomputable def weightAt (weights : List Dbl) (i : Nat) : Out Dbl :=
  if weights.length ≠ 0 then
    match weights[i]? with
    | some w => .ok (Ieee.abs w)
    | none => .ub
  else .ok (.num 1)

/-- math_helpers.hpp:270-277: the loop of `AverageStdVectorDouble` over the remaining values -/
noncomputable def averageLoop (weights : List Dbl) : List Dbl → Nat → Dbl → Dbl → Out Dbl
  | [], _, average, _ => .ok average
  | current :: rest, i, average, sum => do
    let weight ← weightAt weights i
    let sum := A.add sum weight
    let effective := A.div weight sum
    averageLoop weights rest (i + 1) (A.add average (A.mul effective (A.sub current average))) sum

open Classical in
/-- math_helpers.hpp:251-279 `AverageStdVectorDouble` -/
noncomputable def average (values weights : List Dbl) : Out Dbl := do
  Out.assert (0 < values.length)
  Out.assert (weights.length = values.length ∨ weights.length = 0)
  let start := firstNonzero 0 weights
  Out.assert (start < values.length)
  match values[start]? with
  | none => .ub
  | some first => do
    let w ← weightAt weights start
    Out.assert (Ieee.lt (.num 0) w)
    averageLoop A weights (values.drop (start + 1)) (start + 1) first w

/-- math_helpers.hpp:288-291: the loop of `ComputeStdDevStdVectorDouble` -/
noncomputable def deviationLoop (mean sum : Dbl) : List Dbl → Dbl
  | [] => sum
  | v :: vs => deviationLoop mean (A.add sum (A.mul (A.sub v mean) (A.sub v mean))) vs

/-- math_helpers.hpp:281-294 `ComputeStdDevStdVectorDouble` with a given mean -/
noncomputable def stdDevWithMean (values : List Dbl) (mean : Dbl) : Out Dbl := do
  Out.assert (0 < values.length)
  if values.length = 1 then .ok (.num 0)
  else
    let inverse := A.div (.num 1) (A.round ((values.length - 1 : Nat) : ℝ))
    .ok (A.sqrt (A.mul (deviationLoop A mean (.num 0) values) inverse))

/-- math_helpers.hpp:296-299 `ComputeStdDevStdVectorDouble` -/
noncomputable def stdDev (values : List Dbl) : Out Dbl := do
  let mean ← average A values []
  stdDevWithMean A values mean

end Verif.MathSpecial
