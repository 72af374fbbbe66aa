import Verif.Model.RoundedMath

/-!
# Model of the angle range checks and the standard deviation of math_helpers.hpp with rounding

Every result of an arithmetic operation is rounded (`Rounding`); overflow, underflow and special values are not modelled. `sqrt` is
taken to be correctly rounded, as IEEE 754 requires.
-/
namespace Verif.RoundedMath
open Verif

variable (R : Rounding)

/-- math_helpers.hpp:210-228 `CheckInContinuousRevoluteRange` -/
noncomputable def checkInRange (pi start range val : ℝ) : Bool :=
  let realVal := enforceBounds R pi val
  let realStart := enforceBounds R pi start
  let delta := signedDistance R pi realStart realVal
  if 0 ≤ delta then decide (delta ≤ range)
  else decide (R.rd (R.rd (2 * pi) + delta) ≤ range)

/-- math_helpers.hpp:230-233 `CheckInContinuousRevoluteBounds` -/
noncomputable def checkInBounds (pi start stop val : ℝ) : Bool :=
  checkInRange R pi start (getRange R pi start stop) val

/-- math_helpers.hpp:288-291: the loop of `ComputeStdDevStdVectorDouble` -/
noncomputable def deviationLoop (mean sum : ℝ) : List ℝ → ℝ
  | [] => sum
  | v :: vs => deviationLoop mean (R.rd (sum + R.rd (R.rd (v - mean) * R.rd (v - mean)))) vs

/-- math_helpers.hpp:281-294 `ComputeStdDevStdVectorDouble` with a given mean -/
noncomputable def stdDevWithMean (values : List ℝ) (mean : ℝ) : Out ℝ := do
  Out.assert (0 < values.length)
  if values.length = 1 then .ok 0
  else
    let inverse := R.rd (1 / R.rd ((values.length - 1 : Nat) : ℝ))
    .ok (R.rd (Real.sqrt (R.rd (deviationLoop R mean 0 values * inverse))))

/-- math_helpers.hpp:296-299 `ComputeStdDevStdVectorDouble` -/
noncomputable def stdDev (values : List ℝ) : Out ℝ := do
  let mean ← average R values []
  stdDevWithMean R values mean

end Verif.RoundedMath
