import Mathlib.Data.Real.Basic
import Mathlib.Data.List.Infix

/-!
# Specification: motion along a list of points in the phase plane

A point is a position on the path and a velocity.
-/
namespace Verif.Totg

/-- From each point to the next one the position grows and the velocities are not negative and not both zero,
or the point is repeated with a positive velocity. The last point is not a repetition. -/
def Moving (points : List (ℝ × ℝ)) : Prop :=
  (∀ a b, [a, b] <:+: points → (a.1 < b.1 ∧ 0 ≤ a.2 ∧ 0 ≤ b.2 ∧ 0 < a.2 + b.2) ∨ (a = b ∧ 0 < a.2)) ∧
  ∀ a b, [a, b] <:+ points → a ≠ b

/-- The time at which each point is reached if the velocity changes at a constant rate between points: the
distance is the mean velocity times the time it takes. -/
def Reached (points : List (ℝ × ℝ)) (times : List ℝ) : Prop :=
  times.length = points.length ∧ (∀ t, times[0]? = some t → t = 0) ∧
  ∀ k a b s t, points[k]? = some a → points[k + 1]? = some b → times[k]? = some s → times[k + 1]? = some t →
    b.1 - a.1 = (a.2 + b.2) / 2 * (t - s)

end Verif.Totg
