import Verif.Model.TrajectoryPlanning
import Mathlib.Analysis.Calculus.Deriv.Pow
import Mathlib.Analysis.Calculus.Deriv.Mul
import Mathlib.Analysis.Calculus.Deriv.Add
import Mathlib.Tactic.Module
import Mathlib.Tactic.FieldSimp

/-!
# C131: polynomial trajectories reach what they are asked to reach
-/
namespace Verif.TrajectoryPlanning
open Verif

variable {E : Type} [NormedAddCommGroup E] [NormedSpace ℝ E]

/-- The second component is the velocity and the third the acceleration of the motion in the first. -/
def Motion (f : ℝ → E × E × E) : Prop :=
  (∀ t, HasDerivAt (fun t => (f t).1) (f t).2.1 t) ∧ ∀ t, HasDerivAt (fun t => (f t).2.1) (f t).2.2 t

theorem smul_pow_deriv (n : ℕ) (a : E) (t : ℝ) :
    HasDerivAt (fun t : ℝ => t ^ n • a) (((n : ℝ) * t ^ (n - 1)) • a) t :=
  (hasDerivAt_pow n t).smul_const a

/-- C131: the velocities and accelerations returned are the derivatives. -/
theorem C131_motion (a0 a1 a2 a3 : E) : Motion (getTrajectoryFn a0 a1 a2 a3) := by
  constructor
  · intro t
    have h1 := (hasDerivAt_id t).smul_const a1
    have h := (((hasDerivAt_const t a0).add h1).add (smul_pow_deriv 2 a2 t)).add (smul_pow_deriv 3 a3 t)
    refine h.congr_deriv ?_
    simp only [getTrajectoryFn]
    norm_num
    module
  · intro t
    have h1 := (hasDerivAt_id t).smul_const ((2 : ℝ) • a2)
    have h := ((hasDerivAt_const t a1).add h1).add (smul_pow_deriv 2 ((3 : ℝ) • a3) t)
    refine h.congr_deriv ?_
    simp only [getTrajectoryFn]
    norm_num
    module

/-- C131: the linear trajectory starts at `x_0` and moves with the velocity `v_0` all the time. -/
theorem C131_linear (x0 v0 : E) :
    Motion (getLinearTrajectory x0 v0) ∧ (getLinearTrajectory x0 v0 0).1 = x0 ∧
      ∀ t, (getLinearTrajectory x0 v0 t).2 = (v0, 0) := by
  refine ⟨C131_motion _ _ _ _, by simp [getLinearTrajectory, getTrajectoryFn], fun t => ?_⟩
  simp [getLinearTrajectory, getTrajectoryFn]

/-- C131: the quadratic trajectory starts at `x_0` with the velocity `v_0`, is at `x_t` at the time `t`, and has one
acceleration all the time. -/
theorem C131_quadratic (x0 v0 xt : E) (t : ℝ) (ht : t ≠ 0) :
    ∃ f, getQuadraticTrajectory x0 v0 xt t = .ok f ∧ Motion f ∧ (f 0).1 = x0 ∧ (f 0).2.1 = v0 ∧ (f t).1 = xt ∧
      ∀ s, (f s).2.2 = (f 0).2.2 := by
  refine ⟨_, if_neg ht, C131_motion _ _ _ _, ?_, ?_, ?_, ?_⟩
  · simp [getTrajectoryFn]
  · simp [getTrajectoryFn]
  · simp only [getTrajectoryFn, smul_smul, smul_zero]
    rw [mul_one_div_cancel (pow_ne_zero 2 ht)]
    module
  · intro s
    simp [getTrajectoryFn]

/-- C131: the cubic trajectory starts at `x_0` with the velocity `v_0`, and at the time `t` it is at `x_t` with the
velocity `v_t`. Its acceleration changes at one rate. -/
theorem C131_cubic (x0 v0 xt vt : E) (t : ℝ) (ht : t ≠ 0) :
    ∃ f, getCubicTrajectory x0 v0 xt vt t = .ok f ∧ Motion f ∧ (f 0).1 = x0 ∧ (f 0).2.1 = v0 ∧ (f t).1 = xt ∧
      (f t).2.1 = vt ∧ ∃ j : E, ∀ s, (f s).2.2 = (f 0).2.2 + s • j := by
  refine ⟨_, if_neg ht, C131_motion _ _ _ _, ?_, ?_, ?_, ?_, ?_⟩
  · simp [getTrajectoryFn]
  · simp [getTrajectoryFn]
  · simp only [getTrajectoryFn, smul_smul]
    rw [mul_one_div_cancel (pow_ne_zero 2 ht), mul_one_div_cancel (pow_ne_zero 3 ht)]
    module
  · simp only [getTrajectoryFn, smul_smul]
    have e2 : t * (2 * (1 / t ^ 2)) = 2 / t := by field_simp
    have e3 : t ^ 2 * (3 * (1 / t ^ 3)) = 3 / t := by field_simp
    rw [e2, e3]
    match_scalars <;> field_simp <;> ring
  · exact ⟨(6 : ℝ) • _, fun s => by simp only [getTrajectoryFn, zero_smul, add_zero]; rfl⟩

/-- C131: no other cubic does. -/
theorem C131_cubic_unique (x0 v0 xt vt : E) (t : ℝ) (ht : t ≠ 0) (a0 a1 a2 a3 : E)
    (h0 : (getTrajectoryFn a0 a1 a2 a3 0).1 = x0) (h1 : (getTrajectoryFn a0 a1 a2 a3 0).2.1 = v0)
    (h2 : (getTrajectoryFn a0 a1 a2 a3 t).1 = xt) (h3 : (getTrajectoryFn a0 a1 a2 a3 t).2.1 = vt) :
    getCubicTrajectory x0 v0 xt vt t = .ok (getTrajectoryFn a0 a1 a2 a3) := by
  have e0 : a0 = x0 := by simpa [getTrajectoryFn] using h0
  have e1 : a1 = v0 := by simpa [getTrajectoryFn] using h1
  subst e0; subst e1; subst h2; subst h3
  unfold getCubicTrajectory
  rw [if_neg ht]
  simp only [getTrajectoryFn]
  congr 1
  have e2 : (1 / t ^ 2) • ((3 : ℝ) • (a0 + t • a1 + t ^ 2 • a2 + t ^ 3 • a3 - a0) -
      t • ((2 : ℝ) • a1 + (a1 + t • (2 : ℝ) • a2 + t ^ 2 • (3 : ℝ) • a3))) = a2 := by
    match_scalars <;> field_simp <;> ring
  have e3 : (1 / t ^ 3) • ((2 : ℝ) • (a0 - (a0 + t • a1 + t ^ 2 • a2 + t ^ 3 • a3)) +
      t • (a1 + (a1 + t • (2 : ℝ) • a2 + t ^ 2 • (3 : ℝ) • a3))) = a3 := by
    match_scalars <;> field_simp <;> ring
  simp only [e2, e3]

/-- C131: with the time zero both raise. -/
theorem C131_zero (x0 v0 xt vt : E) : getQuadraticTrajectory x0 v0 xt 0 = .error .zeroDivisionError ∧
    getCubicTrajectory x0 v0 xt vt 0 = .error .zeroDivisionError := ⟨if_pos rfl, if_pos rfl⟩

/-- The hypotheses are met: from rest at 0 to rest at 1 in two seconds. -/
example : ∃ f, getCubicTrajectory (0 : ℝ) 0 1 0 2 = .ok f ∧ (f 2).1 = 1 := by
  obtain ⟨f, h, _, _, _, h2, _⟩ := C131_cubic (0 : ℝ) 0 1 0 2 two_ne_zero
  exact ⟨f, h, h2⟩

end Verif.TrajectoryPlanning
