import Verif.Spec.Projection
import Mathlib.Data.List.Chain

/-!
# Specification: directions between points and polylines
-/
namespace Verif.Totg
open Verif.Projection (length distance)

/-- The unit vector from one point towards another. -/
noncomputable def direction {n : Nat} (a b : Fin n → ℝ) : Fin n → ℝ := (1 / length (b - a)) • (b - a)

/-- The point lies on a line between two consecutive waypoints. -/
def OnPolyline {n : Nat} (waypoints : List (Fin n → ℝ)) (x : Fin n → ℝ) : Prop :=
  ∃ a b, [a, b] <:+: waypoints ∧ ∃ r : ℝ, 0 ≤ r ∧ r ≤ 1 ∧ x = a + r • (b - a)

/-- Consecutive waypoints are more than `gap` apart. -/
def Apart {n : Nat} (gap : ℝ) (waypoints : List (Fin n → ℝ)) : Prop :=
  ∀ a b, [a, b] <:+: waypoints → gap < distance a b

/-- The polyline nowhere turns back exactly along itself. -/
def NoReversal {n : Nat} (waypoints : List (Fin n → ℝ)) : Prop :=
  ∀ a b c, [a, b, c] <:+: waypoints → direction b c ≠ -direction a b

/-- The length of the polyline up to the waypoint with an index. -/
noncomputable def travelled {n : Nat} : List (Fin n → ℝ) → Nat → ℝ
  | a :: b :: rest, k + 1 => distance a b + travelled (b :: rest) k
  | _, _ => 0

end Verif.Totg
