import Mathlib.Analysis.Real.Sqrt
import Mathlib.Analysis.SpecialFunctions.Trigonometric.Inverse
import Mathlib.LinearAlgebra.CrossProduct
import Mathlib.Data.Matrix.Mul
import Verif.Base.Outcome
import Verif.Model.Angles

/-!
# Model of the projections, lines, planes and cones of include/arc_utilities/eigen_helpers.hpp

A vector of `n` numbers is a function from `Fin n` (the sizes agree by typing, which Eigen checks at compile
time or with an assertion); `double` is a real number, so arithmetic is exact and there is no infinity or
not-a-number. `dot`, `cross`, sums and multiples are those of vectors.
-/
namespace Verif.Projection
open Verif Matrix

/-- Eigen's `squaredNorm`. Used for eigen_helpers.hpp:817-832, 882-901. -/
def squaredNorm {n : Nat} (v : Fin n → ℝ) : ℝ := v ⬝ᵥ v

/-- Eigen's `norm`. Used for eigen_helpers.hpp:882-901, 908-938. -/
noncomputable def norm {n : Nat} (v : Fin n → ℝ) : ℝ := Real.sqrt (squaredNorm v)

/-- Eigen's `normalized`, which leaves the zero vector as it is. Used for eigen_helpers.hpp:843-865, 882-901. -/
noncomputable def normalized {n : Nat} (v : Fin n → ℝ) : Fin n → ℝ :=
  if 0 < squaredNorm v then (1 / Real.sqrt (squaredNorm v)) • v else v

/-- eigen_helpers.hpp:817-832 `VectorProjection` -/
noncomputable def vectorProjection {n : Nat} (base v : Fin n → ℝ) : Fin n → ℝ :=
  if 0 < squaredNorm base then (base ⬝ᵥ v / squaredNorm base) • base else 0

/-- eigen_helpers.hpp:835-840 `VectorRejection` -/
noncomputable def vectorRejection {n : Nat} (base v : Fin n → ℝ) : Fin n → ℝ :=
  v - vectorProjection base v

/-- eigen_helpers.hpp:843-865 `VectorProjectionToPlane` -/
noncomputable def vectorProjectionToPlane (p1 p2 v : Fin 3 → ℝ) : Out (Fin 3 → ℝ) :=
  let u1 := normalized p1
  let u2 := normalized p2
  if Angles.isApprox |u1 ⬝ᵥ u2| 1 (1 / 10 ^ 10) = true then .throws .invalidArgument
  else .ok (vectorRejection (u1 ⨯₃ u2) v)

/-- eigen_helpers.hpp:882-901 `DistanceToLine`; the message of lines 886-889 is left out -/
noncomputable def distanceToLine (pointOnLine unitVector x : Fin 3 → ℝ) : Out (ℝ × ℝ) :=
  let u := normalized unitVector
  let delta := x - pointOnLine
  let along := u ⬝ᵥ delta
  let projected := pointOnLine + along • u
  let distance := norm (projected - x)
  do
    Out.assert (Angles.isApprox (distance * distance + along * along) (squaredNorm delta) (1 / 10 ^ 10) = true)
    .ok (distance, along)

/-- eigen_helpers.hpp:911-913: the vector from which the first side direction is made -/
noncomputable def coneSide (cone : Fin 3 → ℝ) : Fin 3 → ℝ :=
  vectorRejection cone ![1, 0, 0] + vectorRejection cone ![0, 1, 0] + vectorRejection cone ![0, 0, 1]

/-- eigen_helpers.hpp:908-938 `ConvertConeToPyramid` -/
noncomputable def convertConeToPyramid (cone : Fin 3 → ℝ) (minDot : ℝ) : Out (List (Fin 3 → ℝ)) :=
  let tmp := coneSide cone
  do
    Out.assert (1 / 10 ^ 6 < norm tmp)
    let p1 := normalized tmp
    let p2 := normalized (cone ⨯₃ p1)
    let p3 := -p1
    let p4 := -p2
    let dist := Real.tan (Real.arccos minDot)
    let ray1 := cone + dist • p1
    let ray2 := cone + dist • p2
    let ray3 := cone + dist • p3
    let ray4 := cone + dist • p4
    .ok [-normalized (ray1 ⨯₃ ray2), -normalized (ray2 ⨯₃ ray3), -normalized (ray3 ⨯₃ ray4),
      -normalized (ray4 ⨯₃ ray1)]

/-- eigen_helpers.hpp:992-1002: the members of `Hyperplane` -/
structure Hyperplane (n : Nat) where
  origin : Fin n → ℝ
  normal : Fin n → ℝ

/-- eigen_helpers.hpp:137-144 `SafeNormal` -/
noncomputable def safeNormal {n : Nat} (v : Fin n → ℝ) : Fin n → ℝ :=
  if 1 / 2 ^ 52 < norm v then (1 / norm v) • v else v

namespace Hyperplane

/-- eigen_helpers.hpp:1012-1018 `GetNormedDotProduct` -/
noncomputable def getNormedDotProduct {n : Nat} (h : Hyperplane n) (point : Fin n → ℝ) : ℝ :=
  safeNormal (point - h.origin) ⬝ᵥ h.normal

/-- eigen_helpers.hpp:1020-1025 `GetRawDotProduct` -/
noncomputable def getRawDotProduct {n : Nat} (h : Hyperplane n) (point : Fin n → ℝ) : ℝ :=
  (point - h.origin) ⬝ᵥ h.normal

/-- eigen_helpers.hpp:1027-1029 `RejectVectorOntoPlane` -/
noncomputable def rejectVectorOntoPlane {n : Nat} (h : Hyperplane n) (v : Fin n → ℝ) : Fin n → ℝ :=
  vectorProjection h.normal v

/-- eigen_helpers.hpp:1031-1034 `GetSquaredDistanceToPlane` -/
noncomputable def getSquaredDistanceToPlane {n : Nat} (h : Hyperplane n) (point : Fin n → ℝ) : ℝ :=
  squaredNorm (vectorProjection h.normal (point - h.origin))

/-- eigen_helpers.hpp:1036-1039 `GetDistanceToPlane` -/
noncomputable def getDistanceToPlane {n : Nat} (h : Hyperplane n) (point : Fin n → ℝ) : ℝ :=
  norm (vectorProjection h.normal (point - h.origin))

/-- eigen_helpers.hpp:1041-1043 `ProjectVectorOntoPlane` -/
noncomputable def projectVectorOntoPlane {n : Nat} (h : Hyperplane n) (v : Fin n → ℝ) : Fin n → ℝ :=
  vectorRejection h.normal v

/-- eigen_helpers.hpp:1045-1050 `ProjectPointOntoPlane` -/
noncomputable def projectPointOntoPlane {n : Nat} (h : Hyperplane n) (point : Fin n → ℝ) : Fin n → ℝ :=
  h.origin + vectorRejection h.normal (point - h.origin)

end Hyperplane

/-- eigen_helpers.hpp:97-104 `ClampNorm` -/
noncomputable def clampNorm {n : Nat} (v : Fin n → ℝ) (maxNorm : ℝ) : Out (Fin n → ℝ) := do
  Out.assert (0 < maxNorm)
  if maxNorm < norm v then .ok ((maxNorm / norm v) • v) else .ok v

/-- eigen_helpers.hpp:961-964 `WeightedDotProduct` -/
def weightedDotProduct {n : Nat} (v1 v2 w : Fin n → ℝ) : ℝ := (v1 * w) ⬝ᵥ v2

/-- eigen_helpers.hpp:966-968 `WeightedSquaredNorm` -/
def weightedSquaredNorm {n : Nat} (v w : Fin n → ℝ) : ℝ := weightedDotProduct v v w

/-- eigen_helpers.hpp:970-972 `WeightedNorm`; the root of a negative number, not-a-number in C++, is 0 here:
the theorems are for weights that are not negative -/
noncomputable def weightedNorm {n : Nat} (v w : Fin n → ℝ) : ℝ := Real.sqrt (weightedSquaredNorm v w)

/-- eigen_helpers.hpp:974-981 `WeightedCosineAngleBetweenVectors` -/
noncomputable def weightedCosine {n : Nat} (v1 v2 w : Fin n → ℝ) : Out ℝ := do
  Out.assert (0 < weightedNorm v1 w ∧ 0 < weightedNorm v2 w)
  .ok (max (-1) (min (weightedDotProduct v1 v2 w / (weightedNorm v1 w * weightedNorm v2 w)) 1))

/-- eigen_helpers.hpp:983-986 `WeightedAngleBetweenVectors` -/
noncomputable def weightedAngle {n : Nat} (v1 v2 w : Fin n → ℝ) : Out ℝ := do
  let c ← weightedCosine v1 v2 w
  .ok (Real.arccos c)

/-- eigen_helpers.hpp:945-959 `AngleDefinedByPoints`; the message of lines 949-951 is left out -/
noncomputable def angleDefinedByPoints {n : Nat} (a b c : Fin n → ℝ) : ℝ :=
  let vec1 := normalized (a - b)
  let vec2 := normalized (c - b)
  Real.arccos (max (-1) (min (vec1 ⬝ᵥ vec2) 1))

end Verif.Projection
