import Mathlib.Algebra.Order.Floor.Ring
import Verif.Base.Outcome

/-!
# Model of the scalar functions of include/arc_utilities/math_helpers.hpp: angles and interpolation

`double` is an ordered field with floors; arithmetic is exact, infinities and not-a-number are left out.
`M_PI` is the parameter `pi`.
-/
namespace Verif.Angles
open Verif

section
variable {K : Type} [Field K] [LinearOrder K]

/-- math_helpers.hpp:16-20 `CloseEnough` -/
def closeEnough (p1 p2 threshold : K) : Bool := decide (|p2 - p1| ≤ |threshold|)

/-- math_helpers.hpp:26-30: the loop of `CloseEnough` for vectors -/
def closeEnoughLoop (threshold : K) : List K → List K → Out Bool
  | [], _ => .ok true
  | _ :: _, [] => .ub
  | x :: xs, y :: ys => if closeEnough x y threshold = false then .ok false else closeEnoughLoop threshold xs ys

/-- math_helpers.hpp:22-32 `CloseEnough` for vectors -/
def closeEnoughVec (v1 v2 : List K) (threshold : K) : Out Bool :=
  if v1.length ≠ v2.length then .ok false else closeEnoughLoop threshold v1 v2

/-- math_helpers.hpp:35-39 `IsApprox` -/
def isApprox (p1 p2 precision : K) : Bool := closeEnough p1 p2 (precision * min |p1| |p2|)

/-- math_helpers.hpp:43-46 `Sign` -/
def sign (v : K) : Int := (if 0 < v then 1 else 0) - (if v < 0 then 1 else 0)

/-- math_helpers.hpp:70-81 `SafetyCheckUnitInterval`; whether a message is printed is the second component -/
def safetyCheckUnitInterval (ratio : K) : K × Bool :=
  if ratio < 0 then (0, true) else if 1 < ratio then (1, true) else (ratio, false)

/-- math_helpers.hpp:83-89 `Interpolate` -/
def interpolate (p1 p2 ratio : K) : K :=
  let r := (safetyCheckUnitInterval ratio).1
  p1 * (1 - r) + p2 * r

/-- math_helpers.hpp:121-129 `Interpolate` for pairs -/
def interpolatePair (p1 p2 : K × K) (ratio : K) : K × K :=
  let r := (safetyCheckUnitInterval ratio).1
  (p1.1 * (1 - r) + p2.1 * r, p1.2 * (1 - r) + p2.2 * r)

/-- math_helpers.hpp:145-147: the loop of `Interpolate` for vectors -/
def interpolateLoop (r : K) : List K → List K → Out (List K)
  | [], _ => .ok []
  | _ :: _, [] => .ub
  | x :: xs, y :: ys => do
    let rest ← interpolateLoop r xs ys
    .ok ((x * (1 - r) + y * r) :: rest)

/-- math_helpers.hpp:131-149 `Interpolate` for vectors -/
def interpolateVec (v1 v2 : List K) (ratio : K) : Out (List K) :=
  let r := (safetyCheckUnitInterval ratio).1
  if v1.length ≠ v2.length then .ok [] else interpolateLoop r v1 v2

section
variable [FloorRing K]

/-- rounding toward zero. Used for math_helpers.hpp:52-65. -/
def trunc (q : K) : Int := if 0 ≤ q then ⌊q⌋ else ⌈q⌉

/-- `fmod`. Used for math_helpers.hpp:52-65. -/
def fmod (x y : K) : K := x - (trunc (x / y) : K) * y

/-- math_helpers.hpp:52-65 `EnforceContinuousRevoluteBounds` -/
def enforceBounds (pi value : K) : K :=
  if value ≤ -pi ∨ pi < value then
    let remainder := fmod value (2 * pi)
    if remainder ≤ -pi then remainder + 2 * pi
    else if pi < remainder then remainder - 2 * pi
    else remainder
  else value

/-- math_helpers.hpp:91-119 `InterpolateContinuousRevolute` -/
def interpolateRevolute (pi p1 p2 ratio : K) : K :=
  let r := (safetyCheckUnitInterval ratio).1
  let q1 := enforceBounds pi p1
  let q2 := enforceBounds pi p2
  let diff := q2 - q1
  if |diff| ≤ pi then q1 + diff * r
  else
    let diff := if 0 < diff then 2 * pi - diff else -2 * pi - diff
    let interpolated := q1 - diff * r
    if pi < interpolated then interpolated - 2 * pi
    else if interpolated < -pi then interpolated + 2 * pi
    else interpolated

/-- math_helpers.hpp:175-191 `ContinuousRevoluteSignedDistance` -/
def signedDistance (pi p1 p2 : K) : K :=
  let raw := enforceBounds pi p2 - enforceBounds pi p1
  if raw ≤ -pi ∨ pi < raw then
    if raw ≤ -pi then -(2 * pi) - raw
    else if pi < raw then 2 * pi - raw
    else raw
  else raw

/-- math_helpers.hpp:193-195 `ContinuousRevoluteDistance` -/
def revoluteDistance (pi p1 p2 : K) : K := |signedDistance pi p1 p2|

/-- math_helpers.hpp:197-199 `AddContinuousRevoluteValues` -/
def addRevolute (pi start change : K) : K := enforceBounds pi (start + change)

/-- math_helpers.hpp:201-208 `GetContinuousRevoluteRange` -/
def getRange (pi start stop : K) : K :=
  let raw := signedDistance pi start stop
  if 0 ≤ raw then raw else 2 * pi + raw

/-- math_helpers.hpp:210-228 `CheckInContinuousRevoluteRange` -/
def checkInRange (pi start range val : K) : Bool :=
  let realVal := enforceBounds pi val
  let realStart := enforceBounds pi start
  let delta := signedDistance pi realStart realVal
  if 0 ≤ delta then decide (delta ≤ range)
  else decide (2 * pi + delta ≤ range)

/-- math_helpers.hpp:230-233 `CheckInContinuousRevoluteBounds` -/
def checkInBounds (pi start stop val : K) : Bool := checkInRange pi start (getRange pi start stop) val

end

end

end Verif.Angles
