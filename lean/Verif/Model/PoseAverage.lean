import Mathlib.Analysis.Complex.Basic
import Verif.Model.Pose
import Verif.Model.Averages

/-!
# Model of the averages of rotations and transforms of include/arc_utilities/eigen_helpers.hpp

`double` is a real number and arithmetic is exact. `Eigen::EigenSolver` is a parameter; Spec/PoseAverage says what it has to
compute.
-/
namespace Verif.PoseAverage
open Verif Matrix Verif.Kinematics Verif.Pose

/-- `Eigen::EigenSolver<Matrix4d>`: from a matrix, four eigenvalues and as many columns of the matrix of eigenvectors.
Used for eigen_helpers.hpp:745-786, 788-810. -/
abbrev Solver := Matrix (Fin 4) (Fin 4) ℝ → (Fin 4 → ℂ) × (Fin 4 → Fin 4 → ℂ)

/-- eigen_helpers.hpp:758-762: the columns of `q_matrix`, from number `idx` on. Reading behind the end of the weights would be
undefined. -/
noncomputable def columns (weights : List ℝ) (useWeights : Bool) : Nat → List Quat → Out (List (Fin 4 → ℝ))
  | _, [] => .ok []
  | idx, q :: rest => do
    let weight ← if useWeights = true then
        (match weights[idx]? with
        | some w => .ok |w|
        | none => .ub)
      else .ok 1
    let cs ← columns weights useWeights (idx + 1) rest
    .ok (![weight * q.w, weight * q.x, weight * q.y, weight * q.z] :: cs)

/-- eigen_helpers.hpp:764: the product of the matrix with these columns and its transpose -/
def square (cs : List (Fin 4 → ℝ)) : Matrix (Fin 4) (Fin 4) ℝ := fun i j => (cs.map fun c => c i * c j).sum

open Classical in
/-- eigen_helpers.hpp:770-778: the loop for the largest eigenvalue; `none` is minus infinity, and the index is `none` for -1 -/
noncomputable def largest (eigenValues : Fin 4 → ℂ) : List (Fin 4) → Option ℝ → Option (Fin 4) → Option (Fin 4)
  | [], _, index => index
  | idx :: rest, max, index =>
    let current := (eigenValues idx).re
    let greater : Prop := match max with
      | none => True
      | some m => current > m
    if greater then largest eigenValues rest (some current) (some idx) else largest eigenValues rest max index

/-- eigen_helpers.hpp:745-786 `AverageEigenQuaterniond` -/
noncomputable def averageQuat (solver : Solver) (quaternions : List Quat) (weights : List ℝ) : Out Quat := do
  let useWeights : Bool := if weights.length = quaternions.length then true else false
  Out.assert (quaternions.length > 0)
  Out.assert (weights.length = quaternions.length ∨ weights.length = 0)
  match quaternions with
  | [q] => do
    Out.assert (weights.length = 0 ∨ ∃ w, weights[0]? = some w ∧ w ≠ 0)
    .ok q
  | _ => do
    let cs ← columns weights useWeights 0 quaternions
    let solution := solver (square cs)
    match largest solution.1 [0, 1, 2, 3] none none with
    | none => .abort
    | some i =>
      let best := solution.2 i
      .ok ⟨(best 0).re, (best 1).re, (best 2).re, (best 3).re⟩

/-- eigen_helpers.hpp:788-810 `AverageEigenIsometry3d` -/
noncomputable def averageIsometry (solver : Solver) (transforms : List Transform) (weights : List ℝ) : Out Transform := do
  Out.assert (transforms.length > 0)
  Out.assert (weights.length = transforms.length ∨ weights.length = 0)
  match transforms with
  | [t] => do
    Out.assert (weights.length = 0 ∨ ∃ w, weights[0]? = some w ∧ w ≠ 0)
    .ok t
  | _ => do
    let translations := transforms.map (·.translation)
    let rotations := transforms.map fun t => ofMatrix t.rotation
    let averageTranslation ← Averages.averageVec translations weights
    let averageRotation ← averageQuat solver rotations weights
    .ok ⟨toRotationMatrix averageRotation, averageTranslation⟩

end Verif.PoseAverage
