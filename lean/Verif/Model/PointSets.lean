import Verif.Model.Projection

/-!
# Model of path lengths, point sets and conversions of include/arc_utilities/eigen_helpers.hpp (326-331, 365-516, 582-688)

`double` is a real number. A matrix of points is the list of its columns. A vector of a length known at compile time
is a function from `Fin`, one of any length a list.
-/
namespace Verif.PointSets
open Verif Matrix Verif.Projection

/-- A point. Used for eigen_helpers.hpp:368-371, 365-374. -/
abbrev Point (d : Nat) := Fin d → ℝ

/-! ### Distances -/

/-- eigen_helpers.hpp:326-329 `SquaredDistance` of vectors of any size -/
noncomputable def squaredDistance (v1 v2 : List ℝ) : Out ℝ := do
  Out.assert (v1.length = v2.length)
  .ok ((List.zipWith (fun b a => (b - a) * (b - a)) v2 v1).sum)

/-- eigen_helpers.hpp:368-371: the loop; the point before is the one of the round before -/
noncomputable def totalLoop (prev : Point 3) (distance : ℝ) : List (Point 3) → ℝ
  | [] => distance
  | p :: ps => totalLoop p (distance + Projection.norm (p - prev)) ps

/-- eigen_helpers.hpp:365-374 `CalculateTotalDistance` -/
noncomputable def calculateTotalDistance : List (Point 3) → ℝ
  | [] => 0
  | p :: ps => totalLoop p 0 ps

/-- eigen_helpers.hpp:381-383: the loop -/
noncomputable def individualLoop (prev : Point 3) : List (Point 3) → List ℝ
  | [] => []
  | p :: ps => Projection.norm (p - prev) :: individualLoop p ps

/-- eigen_helpers.hpp:376-387 `CalculateIndividualDistances` -/
noncomputable def calculateIndividualDistances : List (Point 3) → List ℝ
  | [] => []
  | p :: ps => 0 :: individualLoop p ps

/-- eigen_helpers.hpp:394-397: the loop -/
noncomputable def cumulativeLoop (prev : Point 3) (before : ℝ) : List (Point 3) → List ℝ
  | [] => []
  | p :: ps => (before + Projection.norm (p - prev)) :: cumulativeLoop p (before + Projection.norm (p - prev)) ps

/-- eigen_helpers.hpp:389-401 `CalculateCumulativeDistances` -/
noncomputable def calculateCumulativeDistances : List (Point 3) → List ℝ
  | [] => []
  | p :: ps => 0 :: cumulativeLoop p 0 ps

/-! ### Distances in sets -/

/-- One write to the matrix of results: row, column, value. Used for eigen_helpers.hpp:421-426, 420-427. -/
abbrev Write := Nat × Nat × ℝ

/-- eigen_helpers.hpp:421-426: the writes of one round of the outer loop -/
noncomputable def rowWrites {d n : Nat} (set : Fin n → Point d) (i : Fin n) : List Write :=
  (i, i, 0) :: ((List.finRange n).filter (fun j : Fin n => i < j)).flatMap fun j : Fin n =>
    [(i, j, squaredNorm (set i - set j)), (j, i, squaredNorm (set i - set j))]

/-- eigen_helpers.hpp:420-427: the writes of all rounds, in the order of a single thread -/
noncomputable def allWrites {d n : Nat} (set : Fin n → Point d) : List Write :=
  (List.finRange n).flatMap (rowWrites set)

/-- The effect of one write. Used for eigen_helpers.hpp:411-430. -/
def write (m : Nat → Nat → ℝ) (w : Write) : Nat → Nat → ℝ :=
  fun i j => if i = w.1 ∧ j = w.2.1 then w.2.2 else m i j

/-- eigen_helpers.hpp:411-430 `CalculateSquaredDistanceMatrix`. The outer loop may be shared between threads: the writes
happen in some order `order`, any permutation of `allWrites set`; the matrix is first uninitialised (`garbage`). -/
noncomputable def calculateSquaredDistanceMatrix {d n : Nat} (_set : Fin n → Point d) (garbage : Nat → Nat → ℝ)
    (order : List Write) : Out (Nat → Nat → ℝ) := do
  Out.assert (0 < n)
  .ok (order.foldl write garbage)

/-- eigen_helpers.hpp:440-443 `CalculateDistanceMatrix` -/
noncomputable def calculateDistanceMatrix {d n : Nat} (set : Fin n → Point d) (garbage : Nat → Nat → ℝ)
    (order : List Write) : Out (Nat → Nat → ℝ) := do
  let m ← calculateSquaredDistanceMatrix set garbage order
  .ok (fun i j => Real.sqrt (m i j))

/-- eigen_helpers.hpp:454-458 `CalculateSquaredDistanceToSet` -/
noncomputable def calculateSquaredDistanceToSet {d : Nat} (set : List (Point d)) (point : Point d) : List ℝ :=
  set.map fun c => squaredNorm (c - point)

/-- eigen_helpers.hpp:469-473 `CalculateDistanceToSet` -/
noncomputable def calculateDistanceToSet {d : Nat} (set : List (Point d)) (point : Point d) : List ℝ :=
  (calculateSquaredDistanceToSet set point).map Real.sqrt

/-- Eigen's `minCoeff(&index)`: the loop over the coefficients after the first. Used for eigen_helpers.hpp:484-491. -/
noncomputable def minCoeffLoop (best : ℝ) (index : Nat) (next : Nat) : List ℝ → Nat
  | [] => index
  | c :: cs => if c < best then minCoeffLoop c next (next + 1) cs else minCoeffLoop best index (next + 1) cs

/-- eigen_helpers.hpp:484-491 `ClosestPointInSet` -/
noncomputable def closestPointInSet {d : Nat} (set : List (Point d)) (point : Point d) : Out Nat :=
  match calculateSquaredDistanceToSet set point with
  | [] => .abort
  | c :: cs => .ok (minCoeffLoop c 0 1 cs)

/-- eigen_helpers.hpp:504-516 `SquaredDistancesBetweenPointSets`: the list of the columns of the result -/
noncomputable def squaredDistancesBetweenPointSets {d : Nat} (A B : List (Point d)) : List (List ℝ) :=
  B.map fun b => A.map fun a => squaredNorm (a - b)

/-! ### Conversions -/

/-- eigen_helpers.hpp:582-585 `StdVectorDoubleToEigenVector3d` -/
def stdVectorDoubleToEigenVector3d : List ℝ → Out (Point 3)
  | [x, y, z] => .ok ![x, y, z]
  | _ => .abort

/-- eigen_helpers.hpp:596-598 `EigenVector3dToStdVectorDouble` -/
def eigenVector3dToStdVectorDouble (p : Point 3) : List ℝ := [p 0, p 1, p 2]

/-- eigen_helpers.hpp:609-622 `VectorEigenVectorToEigenVectorX`: the segments are written one after the other into an
uninitialised vector. -/
def vectorEigenVectorToEigenVectorX {L : Nat} {α : Type} (garbage : α) (vs : List (Fin L → α)) : Out (List α) := do
  Out.assert (0 < vs.length)
  .ok ((vs.zipIdx).foldl (fun r v => r.take (v.2 * L) ++ List.ofFn v.1 ++ r.drop (v.2 * L + L))
    (List.replicate (vs.length * L) garbage))

/-- The vector of `L` elements from an index on; outside of the vector the behaviour is undefined. Used for
eigen_helpers.hpp:637-639. -/
def segment {α : Type} (L : Nat) (v : List α) (start : Nat) : Out (Fin L → α) :=
  if h : start + L ≤ v.length then .ok fun i => v[start + i]'(by have := i.isLt; omega) else .ub

/-- eigen_helpers.hpp:637-639, also 653-657: the loop over the vectors that remain -/
def segments {α : Type} (L : Nat) (v : List α) : Nat → Nat → Out (List (Fin L → α))
  | _, 0 => .ok []
  | idx, n + 1 => do
    let s ← segment L v (idx * L)
    let rest ← segments L v (idx + 1) n
    .ok (s :: rest)

/-- eigen_helpers.hpp:626-642 `EigenVectorXToVectorEigenVector` and 646-660 `StdVectorXToVectorEigenVector`; the second
copies element by element what the first copies as a segment -/
def eigenVectorXToVectorEigenVector {α : Type} (L : Nat) (v : List α) : Out (List (Fin L → α)) := do
  Out.assert (v.length % L = 0)
  segments L v 0 (v.length / L)

/-- eigen_helpers.hpp:676-683 `StdVectorDoubleToEigenQuaterniond`, as (w, x, y, z) -/
def stdVectorDoubleToEigenQuaterniond : List ℝ → Out (ℝ × ℝ × ℝ × ℝ)
  | [v0, v1, v2, v3] => .ok (v3, v0, v1, v2)
  | _ => .abort

/-- eigen_helpers.hpp:686-688 `EigenQuaterniondToStdVectorDouble`, from (w, x, y, z) -/
def eigenQuaterniondToStdVectorDouble (q : ℝ × ℝ × ℝ × ℝ) : List ℝ := [q.2.1, q.2.2.1, q.2.2.2, q.1]

end Verif.PointSets
