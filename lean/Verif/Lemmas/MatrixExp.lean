import Mathlib.Analysis.Normed.Algebra.MatrixExponential
import Mathlib.Analysis.SpecialFunctions.Exponential
import Mathlib.Analysis.Calculus.MeanValue
import Mathlib.Topology.Algebra.Module.FiniteDimension
import Mathlib.Analysis.Calculus.Deriv.Add

/-!
# A matrix function that solves the linear differential equation is the matrix exponential
-/
namespace Verif.Kinematics
open Matrix

section
attribute [local instance] Matrix.linftyOpNormedRing Matrix.linftyOpNormedAlgebra

theorem entry_deriv {m : Type} [Fintype m] [DecidableEq m] (B : Matrix m m ℝ) (t : ℝ) (i j : m) :
    HasDerivAt (fun t : ℝ => NormedSpace.exp (t • B) i j) ((NormedSpace.exp (t • B) * B) i j) t := by
  have h := hasDerivAt_exp_smul_const (𝕂 := ℝ) B t
  let L : Matrix m m ℝ →L[ℝ] ℝ := LinearMap.toContinuousLinearMap (Matrix.entryLinearMap ℝ ℝ i j)
  exact (L.hasFDerivAt.comp_hasDerivAt t h)

theorem exp_smul_neg_mul {m : Type} [Fintype m] [DecidableEq m] (A : Matrix m m ℝ) (t : ℝ) :
    NormedSpace.exp (t • A) * NormedSpace.exp (t • -A) = 1 := by
  have h : Commute (t • A) (t • -A) := ((Commute.refl A).neg_right.smul_right t).smul_left t
  rw [← Matrix.exp_add_of_commute _ _ h]
  simp
end

theorem eq_exp {m : Type} [Fintype m] [DecidableEq m] (A : Matrix m m ℝ) (X : ℝ → Matrix m m ℝ) (h0 : X 0 = 1)
    (hX : ∀ t i j, HasDerivAt (fun t => X t i j) ((A * X t) i j) t) (t : ℝ) :
    X t = NormedSpace.exp (t • A) := by
  have hY : ∀ i j s, HasDerivAt (fun s : ℝ => (NormedSpace.exp (s • -A) * X s) i j) 0 s := by
    intro i j s
    have h1 : ∀ k, HasDerivAt (fun s : ℝ => NormedSpace.exp (s • -A) i k * X s k j)
        ((NormedSpace.exp (s • -A) * -A) i k * X s k j + NormedSpace.exp (s • -A) i k * (A * X s) k j) s :=
      fun k => (entry_deriv (-A) s i k).mul (hX s k j)
    have h2 := HasDerivAt.fun_sum (u := Finset.univ) fun k _ => h1 k
    have e : ∑ k, ((NormedSpace.exp (s • -A) * -A) i k * X s k j +
        NormedSpace.exp (s • -A) i k * (A * X s) k j) = 0 := by
      rw [Finset.sum_add_distrib, ← Matrix.mul_apply, ← Matrix.mul_apply, ← Matrix.add_apply]
      rw [Matrix.mul_assoc, Matrix.neg_mul, Matrix.mul_neg, neg_add_cancel]; rfl
    rw [e] at h2
    exact h2
  have hc : ∀ i j, (NormedSpace.exp (t • -A) * X t) i j = (1 : Matrix m m ℝ) i j := by
    intro i j
    have := is_const_of_deriv_eq_zero (f := fun s : ℝ => (NormedSpace.exp (s • -A) * X s) i j)
      (fun s => (hY i j s).differentiableAt) (fun s => (hY i j s).deriv) t 0
    rw [this, h0]; simp
  have hm : NormedSpace.exp (t • -A) * X t = 1 := by ext i j; exact hc i j
  calc X t = (NormedSpace.exp (t • A) * NormedSpace.exp (t • -A)) * X t := by
        rw [exp_smul_neg_mul, Matrix.one_mul]
    _ = _ := by rw [Matrix.mul_assoc, hm, Matrix.mul_one]

end Verif.Kinematics
