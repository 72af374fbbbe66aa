import Verif.Base.Python
import Mathlib.Analysis.Calculus.Deriv.Basic

/-!
# Model of `src/arc_utilities/trajectory_planning.py`: polynomial trajectories

Positions are elements of a real normed space `E` (numbers or arrays). Arithmetic is exact. Dividing by the time zero
is the exception which Python numbers raise; NumPy arrays would give infinities or NaN with a warning.
-/
namespace Verif.TrajectoryPlanning
open Verif

variable {E : Type} [NormedAddCommGroup E] [NormedSpace ℝ E]

/-- `get_trajectory_fn` (src/arc_utilities/trajectory_planning.py:7-24): position, velocity and acceleration at `t` -/
def getTrajectoryFn (a0 a1 a2 a3 : E) (t : ℝ) : E × E × E :=
  let x := a0 + t • a1 + t ^ 2 • a2 + t ^ 3 • a3
  let v := a1 + t • (2 : ℝ) • a2 + t ^ 2 • (3 : ℝ) • a3
  let a := (2 : ℝ) • a2 + t • (6 : ℝ) • a3
  (x, v, a)

/-- `get_linear_trajectory` (src/arc_utilities/trajectory_planning.py:27-31) -/
def getLinearTrajectory (x0 v0 : E) : ℝ → E × E × E := getTrajectoryFn x0 v0 0 0

open Classical in
/-- `get_quadratic_trajectory` (src/arc_utilities/trajectory_planning.py:34-40) -/
noncomputable def getQuadraticTrajectory (x0 v0 xt : E) (t : ℝ) : Except PyExc (ℝ → E × E × E) :=
  if t = 0 then .error .zeroDivisionError
  else
    let a2 := (1 / t ^ 2) • (xt - x0 - t • v0)
    .ok (getTrajectoryFn x0 v0 a2 0)

open Classical in
/-- `get_cubic_trajectory` (src/arc_utilities/trajectory_planning.py:43-49) -/
noncomputable def getCubicTrajectory (x0 v0 xt vt : E) (t : ℝ) : Except PyExc (ℝ → E × E × E) :=
  if t = 0 then .error .zeroDivisionError
  else
    let a2 := (1 / t ^ 2) • ((3 : ℝ) • (xt - x0) - t • ((2 : ℝ) • v0 + vt))
    let a3 := (1 / t ^ 3) • ((2 : ℝ) • (x0 - xt) + t • (v0 + vt))
    .ok (getTrajectoryFn x0 v0 a2 a3)

end Verif.TrajectoryPlanning
