import Mathlib.Algebra.Module.LinearMap.Defs
import Mathlib.Analysis.Real.Sqrt
import Verif.Base.Outcome

/-!
# Model of the distances and averages of include/arc_utilities/math_helpers.hpp

`double` is an ordered field (the reals where a square root is taken); arithmetic is exact, and of the special
values only the infinity returned for vectors of different sizes is kept.
-/
namespace Verif.Averages
open Verif

section
variable {K : Type} [Field K] [LinearOrder K]

/-- math_helpers.hpp:158-160: the loop of `SquaredDistance` -/
def squaredLoop (sum : K) : List K → List K → Out K
  | [], _ => .ok sum
  | _ :: _, [] => .ub
  | x :: xs, y :: ys => squaredLoop (sum + (y - x) * (y - x)) xs ys

/-- math_helpers.hpp:155-165 `SquaredDistance`; `none` is `INFINITY` -/
def squaredDistance (p1 p2 : List K) : Out (Option K) :=
  if p1.length = p2.length then do
    let d ← squaredLoop 0 p1 p2
    .ok (some d)
  else .ok none

/-- math_helpers.hpp:239-242: the loop of `CalculateTotalDistance` -/
def totalLoop {T : Type} (dist : T → T → K) (path : List T) : Nat → Nat → K → Out K
  | 0, _, total => .ok total
  | n + 1, i, total =>
    match path[i]?, path[i + 1]? with
    | some a, some b => totalLoop dist path n (i + 1) (total + dist a b)
    | _, _ => .ub

/-- math_helpers.hpp:236-244 `CalculateTotalDistance`; `path_idx + 1 < path.size()` holds for
`path.size() - 1` values of the index -/
def totalDistance {T : Type} (dist : T → T → K) (path : List T) : Out K :=
  totalLoop dist path (path.length - 1) 0 0

/-- math_helpers.hpp:259-261: the first index whose weight is not zero, from `i` on -/
def firstNonzero (i : Nat) : List K → Nat
  | [] => i
  | w :: ws => if w = 0 then firstNonzero (i + 1) ws else i

/-- `use_weights ? std::abs(weights[idx]) : 1.0`. Used for math_helpers.hpp:270-277, 251-279. -/
def weightAt (weights : List K) (i : Nat) : Out K :=
  if weights.length ≠ 0 then
    match weights[i]? with
    | some w => .ok |w|
    | none => .ub
  else .ok 1

/-- math_helpers.hpp:270-277: the loop of `AverageStdVectorDouble` over the remaining values -/
def averageLoop (weights : List K) : List K → Nat → K → K → Out K
  | [], _, average, _ => .ok average
  | current :: rest, i, average, sum => do
    let weight ← weightAt weights i
    let sum := sum + weight
    let effective := weight / sum
    averageLoop weights rest (i + 1) (average + effective * (current - average)) sum

/-- math_helpers.hpp:251-279 `AverageStdVectorDouble` -/
def average (values weights : List K) : Out K := do
  Out.assert (0 < values.length)
  Out.assert (weights.length = values.length ∨ weights.length = 0)
  let start := firstNonzero 0 weights
  Out.assert (start < values.length)
  match values[start]? with
  | none => .ub
  | some first => do
    let w ← weightAt weights start
    Out.assert (0 < w)
    averageLoop weights (values.drop (start + 1)) (start + 1) first w

/-- eigen_helpers.hpp:720-727: the loop of `AverageEigenVector` -/
def averageVecLoop {V : Type} [AddCommGroup V] [Module K V] (weights : List K) :
    List V → Nat → V → K → Out V
  | [], _, average, _ => .ok average
  | current :: rest, i, average, sum => do
    let weight ← weightAt weights i
    let sum := sum + weight
    let effective := weight / sum
    averageVecLoop weights rest (i + 1) (average + effective • (current - average)) sum

/-- eigen_helpers.hpp:699-739 `AverageEigenVector`, `AverageEigenVector3d`, `AverageEigenVectorXd`; `V` is
the space of vectors of one size (Eigen's own check that sizes agree is left out) -/
def averageVec {V : Type} [AddCommGroup V] [Module K V] (vectors : List V) (weights : List K) : Out V := do
  Out.assert (0 < vectors.length)
  Out.assert (weights.length = vectors.length ∨ weights.length = 0)
  let start := firstNonzero 0 weights
  Out.assert (start < vectors.length)
  match vectors[start]? with
  | none => .ub
  | some first => do
    let w ← weightAt weights start
    Out.assert (0 < w)
    averageVecLoop weights (vectors.drop (start + 1)) (start + 1) first w

/-- math_helpers.hpp:305-308 `AverageContinuousRevolute` -/
def averageRevolute (angles weights : List K) : Out K := average angles weights

/-- math_helpers.hpp:288-291: the sum of squared differences -/
def deviationLoop (mean : K) (sum : K) : List K → K
  | [] => sum
  | v :: vs => deviationLoop mean (sum + (v - mean) * (v - mean)) vs

/-- math_helpers.hpp:281-294 `ComputeStdDevStdVectorDouble` with a given mean; `sqrt` is a parameter -/
def stdDevWithMean (sqrt : K → K) (values : List K) (mean : K) : Out K := do
  Out.assert (0 < values.length)
  if values.length = 1 then .ok 0
  else
    .ok (sqrt (deviationLoop mean 0 values * (1 / ((values.length - 1 : Nat) : K))))

/-- math_helpers.hpp:296-299 `ComputeStdDevStdVectorDouble` -/
def stdDev (sqrt : K → K) (values : List K) : Out K := do
  let mean ← average values []
  stdDevWithMean sqrt values mean

end

/-- math_helpers.hpp:167-173 `Distance`; `none` is `INFINITY` -/
noncomputable def distance (p1 p2 : List ℝ) : Out (Option ℝ) :=
  if p1.length = p2.length then do
    let s ← squaredDistance p1 p2
    .ok (s.map Real.sqrt)
  else .ok none

end Verif.Averages
