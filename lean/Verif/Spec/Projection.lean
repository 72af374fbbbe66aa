import Mathlib.Analysis.Real.Sqrt
import Mathlib.Data.Matrix.Mul

/-!
# Specification: distances, lines, planes and cones
-/
namespace Verif.Projection
open Matrix

/-- Euclidean length -/
noncomputable def length {n : Nat} (v : Fin n → ℝ) : ℝ := Real.sqrt (∑ i, v i ^ 2)

/-- Euclidean distance -/
noncomputable def distance {n : Nat} (x y : Fin n → ℝ) : ℝ := Real.sqrt (∑ i, (x i - y i) ^ 2)

/-- The two vectors are at a right angle. -/
def Perpendicular {n : Nat} (v w : Fin n → ℝ) : Prop := ∑ i, v i * w i = 0

/-- The second vector is a multiple of the first. -/
def Multiple {n : Nat} (b v : Fin n → ℝ) : Prop := ∃ t : ℝ, v = t • b

/-- The point is on the line through `p` with direction `d`. -/
def OnLine {n : Nat} (p d x : Fin n → ℝ) : Prop := ∃ t : ℝ, x = p + t • d

/-- The point is on the plane through `o` with normal `m`. -/
def OnPlane {n : Nat} (o m x : Fin n → ℝ) : Prop := Perpendicular m (x - o)

/-- The vector is within the angle `arccos minDot` of the direction of the cone. -/
def InCone (cone : Fin 3 → ℝ) (minDot : ℝ) (r : Fin 3 → ℝ) : Prop :=
  minDot * length r ≤ ∑ i, cone i * r i

/-- No normal points to the side of `r`. -/
def InPyramid (normals : List (Fin 3 → ℝ)) (r : Fin 3 → ℝ) : Prop :=
  ∀ m ∈ normals, ∑ i, m i * r i ≤ 0

end Verif.Projection
