import Mathlib.Analysis.Real.Sqrt
import Verif.Base.Outcome
import Verif.Base.Rounding
import Verif.Model.Angles
import Verif.Model.Averages

/-!
# Model of include/arc_utilities/math_helpers.hpp with rounding

As in Model/Angles.lean and Model/Averages.lean, but the result of every operation is rounded by `R`. `fmod` and
`std::abs` are exact, as the language requires; `sqrt` is rounded once. Exponents are not limited: there is no
overflow and no underflow. `M_PI` is the parameter `pi`.
-/
namespace Verif.RoundedMath
open Verif

variable (R : Rounding)

/-- math_helpers.hpp:83-89 `Interpolate` -/
noncomputable def interpolate (p1 p2 ratio : ℝ) : ℝ :=
  let r := (Angles.safetyCheckUnitInterval ratio).1
  R.rd (R.rd (p1 * R.rd (1 - r)) + R.rd (p2 * r))

/-- math_helpers.hpp:52-65 `EnforceContinuousRevoluteBounds` -/
noncomputable def enforceBounds (pi value : ℝ) : ℝ :=
  if value ≤ -pi ∨ pi < value then
    let remainder := Angles.fmod value (R.rd (2 * pi))
    if remainder ≤ -pi then R.rd (remainder + R.rd (2 * pi))
    else if pi < remainder then R.rd (remainder - R.rd (2 * pi))
    else remainder
  else value

/-- math_helpers.hpp:91-119 `InterpolateContinuousRevolute` -/
noncomputable def interpolateRevolute (pi p1 p2 ratio : ℝ) : ℝ :=
  let r := (Angles.safetyCheckUnitInterval ratio).1
  let q1 := enforceBounds R pi p1
  let q2 := enforceBounds R pi p2
  let diff := R.rd (q2 - q1)
  if |diff| ≤ pi then R.rd (q1 + R.rd (diff * r))
  else
    let diff := if 0 < diff then R.rd (R.rd (2 * pi) - diff) else R.rd (R.rd (-2 * pi) - diff)
    let interpolated := R.rd (q1 - R.rd (diff * r))
    if pi < interpolated then R.rd (interpolated - R.rd (2 * pi))
    else if interpolated < -pi then R.rd (interpolated + R.rd (2 * pi))
    else interpolated

/-- math_helpers.hpp:175-191 `ContinuousRevoluteSignedDistance` -/
noncomputable def signedDistance (pi p1 p2 : ℝ) : ℝ :=
  let raw := R.rd (enforceBounds R pi p2 - enforceBounds R pi p1)
  if raw ≤ -pi ∨ pi < raw then
    if raw ≤ -pi then R.rd (-R.rd (2 * pi) - raw)
    else if pi < raw then R.rd (R.rd (2 * pi) - raw)
    else raw
  else raw

/-- math_helpers.hpp:193-195 `ContinuousRevoluteDistance` -/
noncomputable def revoluteDistance (pi p1 p2 : ℝ) : ℝ := |signedDistance R pi p1 p2|

/-- math_helpers.hpp:197-199 `AddContinuousRevoluteValues` -/
noncomputable def addRevolute (pi start change : ℝ) : ℝ := enforceBounds R pi (R.rd (start + change))

/-- math_helpers.hpp:201-208 `GetContinuousRevoluteRange` -/
noncomputable def getRange (pi start stop : ℝ) : ℝ :=
  let raw := signedDistance R pi start stop
  if 0 ≤ raw then raw else R.rd (R.rd (2 * pi) + raw)

/-- math_helpers.hpp:158-160: the loop of `SquaredDistance` -/
noncomputable def squaredLoop (sum : ℝ) : List ℝ → List ℝ → Out ℝ
  | [], _ => .ok sum
  | _ :: _, [] => .ub
  | x :: xs, y :: ys => squaredLoop (R.rd (sum + R.rd (R.rd (y - x) * R.rd (y - x)))) xs ys

/-- math_helpers.hpp:155-165 `SquaredDistance`; `none` is `INFINITY` -/
noncomputable def squaredDistance (p1 p2 : List ℝ) : Out (Option ℝ) :=
  if p1.length = p2.length then do
    let d ← squaredLoop R 0 p1 p2
    .ok (some d)
  else .ok none

/-- math_helpers.hpp:167-173 `Distance`; `none` is `INFINITY` -/
noncomputable def distance (p1 p2 : List ℝ) : Out (Option ℝ) :=
  if p1.length = p2.length then do
    let s ← squaredDistance R p1 p2
    .ok (s.map fun d => R.rd (Real.sqrt d))
  else .ok none

/-- math_helpers.hpp:239-242: the loop of `CalculateTotalDistance` -/
noncomputable def totalLoop {T : Type} (dist : T → T → ℝ) (path : List T) : Nat → Nat → ℝ → Out ℝ
  | 0, _, total => .ok total
  | n + 1, i, total =>
    match path[i]?, path[i + 1]? with
    | some a, some b => totalLoop dist path n (i + 1) (R.rd (total + dist a b))
    | _, _ => .ub

/-- math_helpers.hpp:236-244 `CalculateTotalDistance`; `path_idx + 1 < path.size()` holds for
`path.size() - 1` values of the index -/
noncomputable def totalDistance {T : Type} (dist : T → T → ℝ) (path : List T) : Out ℝ :=
  totalLoop R dist path (path.length - 1) 0 0

/-- math_helpers.hpp:270-277: the loop of `AverageStdVectorDouble` over the remaining values -/
noncomputable def averageLoop (weights : List ℝ) : List ℝ → Nat → ℝ → ℝ → Out ℝ
  | [], _, average, _ => .ok average
  | current :: rest, i, average, sum => do
    let weight ← Averages.weightAt weights i
    let sum := R.rd (sum + weight)
    let effective := R.rd (weight / sum)
    averageLoop weights rest (i + 1) (R.rd (average + R.rd (effective * R.rd (current - average)))) sum

/-- math_helpers.hpp:251-279 `AverageStdVectorDouble` -/
noncomputable def average (values weights : List ℝ) : Out ℝ := do
  Out.assert (0 < values.length)
  Out.assert (weights.length = values.length ∨ weights.length = 0)
  let start := Averages.firstNonzero 0 weights
  Out.assert (start < values.length)
  match values[start]? with
  | none => .ub
  | some first => do
    let w ← Averages.weightAt weights start
    Out.assert (0 < w)
    averageLoop R weights (values.drop (start + 1)) (start + 1) first w

end Verif.RoundedMath
