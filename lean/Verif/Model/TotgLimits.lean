import Mathlib.Order.WithBot
import Verif.Model.TotgPath

/-!
# Model of the limits of the time-optimal trajectory parametrization

src/arc_utilities/time_optimal_trajectory_parametrization.cpp:545-615. `first` and `second` are the tangent
and the curvature of the path at the position, with as many entries as there are limits. The largest double,
from which the minima start, is a parameter. Arithmetic is exact.
-/
namespace Verif.Totg
open Verif

variable {n : Nat}

/-- time_optimal_trajectory_parametrization.cpp:545-558 `GetMinMaxPathAcceleration` -/
noncomputable def minMaxAcceleration (largest : ℝ) (maxAcceleration first second : Fin n → ℝ) (velocity : ℝ)
    (isMax : Bool) : ℝ :=
  let factor : ℝ := if isMax then 1 else -1
  factor * (List.finRange n).foldl (fun m i =>
    if first i ≠ 0 then
      min m (maxAcceleration i / |first i| - factor * second i * velocity * velocity / first i)
    else m) largest

/-- time_optimal_trajectory_parametrization.cpp:570-580: the inner loop -/
noncomputable def pairLimits (maxAcceleration first second : Fin n → ℝ) (i : Fin n) (m : WithTop ℝ) : WithTop ℝ :=
  ((List.finRange n).filter fun j => decide (i < j)).foldl (fun m j =>
    if first j ≠ 0 then
      let a := second i / first i - second j / first j
      if a ≠ 0 then
        min m ((Real.sqrt ((maxAcceleration i / |first i| + maxAcceleration j / |first j|) / |a|) : ℝ) : WithTop ℝ)
      else m
    else m) m

/-- time_optimal_trajectory_parametrization.cpp:564-586 `GetAccelerationMaxPathVelocity`; ⊤ is infinity -/
noncomputable def accelerationMaxVelocity (maxAcceleration first second : Fin n → ℝ) : WithTop ℝ :=
  (List.finRange n).foldl (fun m i =>
    if first i ≠ 0 then pairLimits maxAcceleration first second i m
    else if second i ≠ 0 then min m ((Real.sqrt (maxAcceleration i / |second i|) : ℝ) : WithTop ℝ)
    else m) ⊤

/-- time_optimal_trajectory_parametrization.cpp:588-595 `GetVelocityMaxPathVelocity`. Where the tangent is 0
the quotient is infinite, or not a number, and the minimum does not change (for limits that are not
negative). -/
noncomputable def velocityMaxVelocity (largest : ℝ) (maxVelocity first : Fin n → ℝ) : ℝ :=
  (List.finRange n).foldl (fun m i => if first i = 0 then m else min m (maxVelocity i / |first i|)) largest

/-- time_optimal_trajectory_parametrization.cpp:604-612: the joint whose limit is the tightest, the first of
them; joint 0 if there is no limit below the largest double -/
noncomputable def activeConstraint (largest : ℝ) (maxVelocity first : Fin (n + 1) → ℝ) : Fin (n + 1) :=
  ((List.finRange (n + 1)).foldl (fun (m : ℝ × Fin (n + 1)) i =>
    if first i ≠ 0 ∧ maxVelocity i / |first i| < m.1 then (maxVelocity i / |first i|, i) else m) (largest, 0)).2

/-- time_optimal_trajectory_parametrization.cpp:602-615 `GetVelocityMaxPathVelocityDeriv` -/
noncomputable def velocityMaxVelocityDeriv (largest : ℝ) (maxVelocity first second : Fin (n + 1) → ℝ) : ℝ :=
  match activeConstraint largest maxVelocity first with
  | i => -(maxVelocity i * second i) / (first i * |first i|)

end Verif.Totg
