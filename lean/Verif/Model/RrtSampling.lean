import Mathlib.Data.Real.Basic
import Verif.Model.Rrt

/-!
# Model of the overloads of the single-tree planner with a goal bias and a time limit

include/arc_utilities/simple_rrt_planner.hpp:161-174, 197-211 and 229-244. What the random numbers, the samplers and the clock
give is an argument: the `k`-th number drawn, the `k`-th state a sampler returns, the `k`-th reading of the clock. Times are
exact.
-/
namespace Verif.Rrt
open Verif

variable {T : Type}

/-- What the callers of the planner supply for choosing targets. Used for simple_rrt_planner.hpp:207-209, 170-172. -/
structure Sampling (T : Type) where
  /-- the numbers drawn from the uniform distribution over `[0, 1)` -/
  draw : Nat → ℝ
  bias : ℝ
  /-- the states that `state_sampling_fn` returns, call by call -/
  state : Nat → T
  /-- the states that `goal_sampling_fn` returns, call by call -/
  goal : Nat → T

/-- simple_rrt_planner.hpp:207-209 `sampling_function`, called for the `k`-th time, after `used` calls of the two samplers:
the target and the calls afterwards -/
noncomputable def Sampling.call (s : Sampling T) (k : Nat) (used : Nat × Nat) : T × (Nat × Nat) :=
  if s.draw k > s.bias then (s.state used.1, (used.1 + 1, used.2)) else (s.goal used.2, (used.1, used.2 + 1))

/-- simple_rrt_planner.hpp:207-209: the calls of the samplers made before the `k`-th call -/
noncomputable def Sampling.used (s : Sampling T) : Nat → Nat × Nat
  | 0 => (0, 0)
  | k + 1 => (s.call k (s.used k)).2

/-- simple_rrt_planner.hpp:207-209: the target of the `k`-th call -/
noncomputable def Sampling.target (s : Sampling T) (k : Nat) : T := (s.call k (s.used k)).1

/-- simple_rrt_planner.hpp:170-172: the overload with one goal state -/
noncomputable def Sampling.single (draw : Nat → ℝ) (bias : ℝ) (state : Nat → T) (goal : T) : Sampling T :=
  ⟨draw, bias, state, fun _ => goal⟩

/-- simple_rrt_planner.hpp:238-242 `termination_check_fn`, called for the `k`-th time; `began` is `start_time`, `now` the
readings of the clock -/
noncomputable def outOfTime (began limit : ℝ) (now : Nat → ℝ) (k : Nat) : Bool := decide (now k - began > limit)

/-- simple_rrt_planner.hpp:197-211 and 161-174 `Plan` with a goal bias, and 229-244 `Plan` with a time limit, which it calls -/
noncomputable def planBiased (s : Sampling T) (began limit : ℝ) (now : Nat → ℝ) (nearest : Nat → Tree T → T → Int)
    (propagate : Nat → T → T → List (T × Int)) (goal : T → Bool) (fuel : Nat) (start : T) :
    Option (Out (List T) × Tree T) :=
  plan ⟨s.target, nearest, propagate, goal, outOfTime began limit now⟩ fuel start

end Verif.Rrt
