import Mathlib.Analysis.Real.Pi.Bounds
import Mathlib.Data.EReal.Inv
import Mathlib.MeasureTheory.Integral.IntervalIntegral.Basic
import Verif.Base.Outcome

/-!
# Model of the Gaussian functions of include/arc_utilities/arc_helpers.hpp (935-1005)

`double` is a real number or an infinity, so arithmetic is exact and not-a-number is left out: the standard deviation
is not zero. Means and standard deviations are finite.
-/
namespace Verif.GaussianFunctions
open Verif

/-- `std::erf`: two over the root of pi times the integral of `exp (-t * t)` from 0 to `x`; 1 and -1 at infinity. Used
for arc_helpers.hpp:936-938. -/
noncomputable def erf (x : EReal) : ℝ :=
  if x = ⊤ then 1 else if x = ⊥ then -1
  else 2 / Real.sqrt Real.pi * ∫ t in (0 : ℝ)..x.toReal, Real.exp (-t ^ 2)

/-- arc_helpers.hpp:936-938 `EvaluateGaussianCDF` -/
noncomputable def evaluateGaussianCDF (mean stdDev : ℝ) (val : EReal) : ℝ :=
  0.5 * (1 + erf (((val - mean) / stdDev) / (Real.sqrt 2 : ℝ)))

/-- arc_helpers.hpp:940-945 `EvaluateGaussianPDF`, for a finite value -/
noncomputable def evaluateGaussianPDF (mean stdDev val : ℝ) : ℝ :=
  let exponent := ((val - mean) * (val - mean)) / (2 * stdDev * stdDev)
  let fraction := 1 / (stdDev * Real.sqrt (2 * Real.pi))
  fraction * Real.exp (-exponent)

open Classical in
/-- arc_helpers.hpp:947-961 `EvaluateTruncatedGaussianCDF` -/
noncomputable def evaluateTruncatedGaussianCDF (mean : ℝ) (lowerBound upperBound : EReal) (stdDev : ℝ) (val : EReal) :
    Out ℝ :=
  if lowerBound ≤ upperBound then
    if val ≤ lowerBound then .ok 0
    else if val ≥ upperBound then .ok 1
    else
      let cdfLower := evaluateGaussianCDF mean stdDev lowerBound
      let numerator := evaluateGaussianCDF mean stdDev val - cdfLower
      let denominator := evaluateGaussianCDF mean stdDev upperBound - cdfLower
      .ok (numerator / denominator)
  else .abort

open Classical in
/-- arc_helpers.hpp:963-979 `EvaluateTruncatedGaussianPDF`, for a finite value -/
noncomputable def evaluateTruncatedGaussianPDF (mean : ℝ) (lowerBound upperBound : EReal) (stdDev val : ℝ) : Out ℝ :=
  if lowerBound ≤ upperBound then
    if val ≤ lowerBound then .ok 0
    else if val ≥ upperBound then .ok 0
    else
      let cdfUpper := evaluateGaussianCDF mean stdDev upperBound
      let cdfLower := evaluateGaussianCDF mean stdDev lowerBound
      let probabilityEnclosed := cdfUpper - cdfLower
      let gaussianPdf := evaluateGaussianPDF mean stdDev val
      .ok (gaussianPdf / probabilityEnclosed)
  else .abort

open Classical in
/-- arc_helpers.hpp:981-991 `IntegrateGaussian` -/
noncomputable def integrateGaussian (mean stdDev : ℝ) (lowerLimit upperLimit : EReal) : Out ℝ :=
  if lowerLimit ≤ upperLimit then
    let upper := evaluateGaussianCDF mean stdDev upperLimit
    let lower := evaluateGaussianCDF mean stdDev lowerLimit
    .ok (upper - lower)
  else .abort

open Classical in
/-- arc_helpers.hpp:993-1005 `IntegrateTruncatedGaussian` -/
noncomputable def integrateTruncatedGaussian (mean : ℝ) (lowerBound upperBound : EReal) (stdDev : ℝ)
    (lowerLimit upperLimit : EReal) : Out ℝ := do
  Out.assert (lowerBound ≤ upperBound)
  Out.assert (lowerLimit ≤ upperLimit)
  let lower ← evaluateTruncatedGaussianCDF mean lowerBound upperBound stdDev lowerLimit
  let upper ← evaluateTruncatedGaussianCDF mean lowerBound upperBound stdDev upperLimit
  .ok (upper - lower)

end Verif.GaussianFunctions
