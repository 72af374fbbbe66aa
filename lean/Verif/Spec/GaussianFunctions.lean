import Mathlib.Probability.Distributions.Gaussian.Real
import Mathlib.Probability.ConditionalProbability
import Verif.Model.GaussianFunctions

/-!
# Specification: normal and truncated normal distributions
-/
namespace Verif.GaussianFunctions
open MeasureTheory ProbabilityTheory

/-- The normal distribution with a mean and a standard deviation -/
noncomputable def normal (mean stdDev : ℝ) : Measure ℝ := gaussianReal mean (stdDev ^ 2).toNNReal

/-- The numbers between two limits, which may be infinite -/
def between (lower upper : EReal) : Set ℝ := {x | lower ≤ x ∧ (x : EReal) ≤ upper}

/-- The normal distribution, given that the number is between the bounds -/
noncomputable def truncated (mean stdDev : ℝ) (lowerBound upperBound : EReal) : Measure ℝ :=
  (normal mean stdDev)[|between lowerBound upperBound]

end Verif.GaussianFunctions
