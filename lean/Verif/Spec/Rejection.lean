import Mathlib.Analysis.SpecialFunctions.Exp
import Mathlib.Order.Bounds.Basic

/-!
# Specification: rejection sampling

To draw from the distribution with density proportional to `target`, draw `z` from another distribution with density
`proposal`, and accept `z` with the probability `target z / (c * proposal z)`, where `c` is large enough for this not to be
above one. The expected number of tries is proportional to `c`.
-/
namespace Verif.Rejection

/-- The density of the normal distribution, but for the factor -/
noncomputable def target (z : ℝ) : ℝ := Real.exp (-z ^ 2 / 2)

/-- The density at `z ≥ lower` of `lower + e / rate`, where `e` is drawn from the exponential distribution -/
noncomputable def exponential (rate lower z : ℝ) : ℝ := rate * Real.exp (-rate * (z - lower))

/-- The constant is large enough for all points of the set -/
def Covers (proposal : ℝ → ℝ) (S : Set ℝ) (c : ℝ) : Prop := ∀ z ∈ S, target z ≤ c * proposal z

end Verif.Rejection
