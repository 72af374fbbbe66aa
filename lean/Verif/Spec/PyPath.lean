import Verif.Model.PyPath

/-!
# Specification of paths: points on a path, and following it for a distance
-/
namespace Verif.PyPath

variable {E : Type} [NormedAddCommGroup E] [InnerProductSpace ℝ E]

/-- `x` is the point of the path at fraction `alpha` from waypoint `ind` to the next one. -/
def At (path : List E) (ind : Nat) (alpha : ℝ) (x : E) : Prop :=
  0 ≤ alpha ∧ alpha ≤ 1 ∧ ∃ a, path[ind]? = some a ∧
    ((alpha = 0 ∧ x = a) ∨ ∃ b, path[ind + 1]? = some b ∧ x = a + alpha • (b - a))

/-- The length of the polyline through the points -/
noncomputable def polylineLength : List E → ℝ
  | a :: b :: rest => ‖b - a‖ + polylineLength (b :: rest)
  | _ => 0

/-- `r` follows the polyline `ahead` from its first point for the distance `d`, or to its end if that comes first: `r`
has the waypoints of `ahead` one after the other, and then at most one point on the way to the next. -/
def Follows (ahead : List E) (d : ℝ) (r : List E) : Prop :=
  (∃ (begin : List E) (a : E) (rest : List E), ahead = begin ++ a :: rest ∧
    (r = begin ++ [a] ∨ ∃ (b : E) (rest' : List E) (β : ℝ), rest = b :: rest' ∧ 0 ≤ β ∧ β ≤ 1 ∧
      r = begin ++ [a, a + β • (b - a)])) ∧
  polylineLength r = min d (polylineLength ahead)

/-- The points of `r` lie on the path, one after the other: every point of `r` can be given a place on the path (an
index and a fraction) such that the places do not go back. -/
def Along (path : List E) (r : List E) : Prop :=
  ∃ marked : List (ℕ × ℝ × E), marked.map (fun m => m.2.2) = r ∧ (∀ m ∈ marked, At path m.1 m.2.1 m.2.2) ∧
    marked.Pairwise fun m m' => (m.1 : ℝ) + m.2.1 ≤ (m'.1 : ℝ) + m'.2.1

end Verif.PyPath
