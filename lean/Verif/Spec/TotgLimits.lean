import Mathlib.Data.Real.Basic

/-!
# Specification: limits of the joints on a path

A joint moves with velocity `q' v` and acceleration `q' a + q'' v²` where `q'` and `q''` are the derivatives
of its position along the path, `v` the velocity and `a` the acceleration on the path.
-/
namespace Verif.Totg
variable {n : Nat}

/-- No joint is faster than its limit. -/
def VelocityOk (limit first : Fin n → ℝ) (v : ℝ) : Prop := ∀ i, |first i * v| ≤ limit i

/-- No joint accelerates more than its limit. -/
def AccelerationOk (limit first second : Fin n → ℝ) (v a : ℝ) : Prop :=
  ∀ i, |first i * a + second i * v ^ 2| ≤ limit i

end Verif.Totg
