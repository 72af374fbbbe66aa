import Mathlib.LinearAlgebra.Matrix.Adjugate
import Mathlib.Tactic.LinearCombination
import Mathlib.Tactic.FinCases
import Mathlib.Tactic.Linarith
import Verif.Spec.Kinematics

/-!
# The polynomial relations between the entries of a rotation matrix
-/
set_option linter.unusedSimpArgs false
set_option linter.unreachableTactic false
set_option linter.unusedTactic false
set_option linter.unnecessarySeqFocus false
namespace Verif.Pose
open Matrix Verif.Kinematics

/-- Columns and rows are orthonormal, and every entry is its own cofactor. -/
structure Rel (R : Matrix (Fin 3) (Fin 3) ℝ) : Prop where
  c00 : R 0 0 * R 0 0 + R 1 0 * R 1 0 + R 2 0 * R 2 0 = 1
  r00 : R 0 0 * R 0 0 + R 0 1 * R 0 1 + R 0 2 * R 0 2 = 1
  c01 : R 0 0 * R 0 1 + R 1 0 * R 1 1 + R 2 0 * R 2 1 = 0
  r01 : R 0 0 * R 1 0 + R 0 1 * R 1 1 + R 0 2 * R 1 2 = 0
  c02 : R 0 0 * R 0 2 + R 1 0 * R 1 2 + R 2 0 * R 2 2 = 0
  r02 : R 0 0 * R 2 0 + R 0 1 * R 2 1 + R 0 2 * R 2 2 = 0
  c11 : R 0 1 * R 0 1 + R 1 1 * R 1 1 + R 2 1 * R 2 1 = 1
  r11 : R 1 0 * R 1 0 + R 1 1 * R 1 1 + R 1 2 * R 1 2 = 1
  c12 : R 0 1 * R 0 2 + R 1 1 * R 1 2 + R 2 1 * R 2 2 = 0
  r12 : R 1 0 * R 2 0 + R 1 1 * R 2 1 + R 1 2 * R 2 2 = 0
  c22 : R 0 2 * R 0 2 + R 1 2 * R 1 2 + R 2 2 * R 2 2 = 1
  r22 : R 2 0 * R 2 0 + R 2 1 * R 2 1 + R 2 2 * R 2 2 = 1
  f00 : R 1 1 * R 2 2 - R 1 2 * R 2 1 = R 0 0
  f01 : R 1 2 * R 2 0 - R 1 0 * R 2 2 = R 0 1
  f02 : R 1 0 * R 2 1 - R 1 1 * R 2 0 = R 0 2
  f10 : R 2 1 * R 0 2 - R 2 2 * R 0 1 = R 1 0
  f11 : R 2 2 * R 0 0 - R 2 0 * R 0 2 = R 1 1
  f12 : R 2 0 * R 0 1 - R 2 1 * R 0 0 = R 1 2
  f20 : R 0 1 * R 1 2 - R 0 2 * R 1 1 = R 2 0
  f21 : R 0 2 * R 1 0 - R 0 0 * R 1 2 = R 2 1
  f22 : R 0 0 * R 1 1 - R 0 1 * R 1 0 = R 2 2

theorem Rel.of {R : Matrix (Fin 3) (Fin 3) ℝ} (hR : IsRotationMatrix R) : Rel R := by
  obtain ⟨h1, h2⟩ := hR
  have h3 : R * Rᵀ = 1 := mul_eq_one_comm.1 h1
  have hadj : R.adjugate = Rᵀ := by
    have : R.adjugate * R = 1 := by rw [adjugate_mul, h2, one_smul]
    calc R.adjugate = R.adjugate * (R * Rᵀ) := by rw [h3, Matrix.mul_one]
      _ = Rᵀ := by rw [← Matrix.mul_assoc, this, Matrix.one_mul]
  have c : ∀ i j, R 0 i * R 0 j + R 1 i * R 1 j + R 2 i * R 2 j = (1 : Matrix (Fin 3) (Fin 3) ℝ) i j := by
    intro i j
    rw [← h1, mul_apply, Fin.sum_univ_three]
    rfl
  have r : ∀ i j, R i 0 * R j 0 + R i 1 * R j 1 + R i 2 * R j 2 = (1 : Matrix (Fin 3) (Fin 3) ℝ) i j := by
    intro i j
    rw [← h3, mul_apply, Fin.sum_univ_three]
    rfl
  have f : ∀ i j, R.adjugate i j = R j i := fun i j => by rw [hadj]; rfl
  rw [adjugate_fin_three] at f
  constructor
  · simpa using c 0 0
  · simpa using r 0 0
  · simpa using c 0 1
  · simpa using r 0 1
  · simpa using c 0 2
  · simpa using r 0 2
  · simpa using c 1 1
  · simpa using r 1 1
  · simpa using c 1 2
  · simpa using r 1 2
  · simpa using c 2 2
  · simpa using r 2 2
  · have := f 0 0; simp only [of_apply, cons_val', cons_val] at this; linarith
  · have := f 1 0; simp only [of_apply, cons_val', cons_val] at this; linarith
  · have := f 2 0; simp only [of_apply, cons_val', cons_val] at this; linarith
  · have := f 0 1; simp only [of_apply, cons_val', cons_val] at this; linarith
  · have := f 1 1; simp only [of_apply, cons_val', cons_val] at this; linarith
  · have := f 2 1; simp only [of_apply, cons_val', cons_val] at this; linarith
  · have := f 0 2; simp only [of_apply, cons_val', cons_val] at this; linarith
  · have := f 1 2; simp only [of_apply, cons_val', cons_val] at this; linarith
  · have := f 2 2; simp only [of_apply, cons_val', cons_val] at this; linarith

/-- The matrix whose entries are four times the products of the parts of the quaternion -/
def K (R : Matrix (Fin 3) (Fin 3) ℝ) : Matrix (Fin 4) (Fin 4) ℝ :=
  !![1 + R 0 0 + R 1 1 + R 2 2, R 2 1 - R 1 2, R 0 2 - R 2 0, R 1 0 - R 0 1;
     R 2 1 - R 1 2, 1 + R 0 0 - R 1 1 - R 2 2, R 0 1 + R 1 0, R 0 2 + R 2 0;
     R 0 2 - R 2 0, R 0 1 + R 1 0, 1 + R 1 1 - R 0 0 - R 2 2, R 1 2 + R 2 1;
     R 1 0 - R 0 1, R 0 2 + R 2 0, R 1 2 + R 2 1, 1 + R 2 2 - R 0 0 - R 1 1]

theorem K_rank {R : Matrix (Fin 3) (Fin 3) ℝ} (h : Rel R) (i j k : Fin 4) :
    K R i j * K R i k = K R i i * K R j k := by
  unfold K
  fin_cases i <;> fin_cases j <;> fin_cases k
  · simp only [of_apply, Fin.zero_eta, Fin.mk_one, Fin.reduceFinMk, cons_val', cons_val_zero, cons_val_one, cons_val] <;> ring
  · simp only [of_apply, Fin.zero_eta, Fin.mk_one, Fin.reduceFinMk, cons_val', cons_val_zero, cons_val_one, cons_val] <;> ring
  · simp only [of_apply, Fin.zero_eta, Fin.mk_one, Fin.reduceFinMk, cons_val', cons_val_zero, cons_val_one, cons_val] <;> ring
  · simp only [of_apply, Fin.zero_eta, Fin.mk_one, Fin.reduceFinMk, cons_val', cons_val_zero, cons_val_one, cons_val] <;> ring
  · simp only [of_apply, Fin.zero_eta, Fin.mk_one, Fin.reduceFinMk, cons_val', cons_val_zero, cons_val_one, cons_val] <;> ring
  · simp only [of_apply, Fin.zero_eta, Fin.mk_one, Fin.reduceFinMk, cons_val', cons_val_zero, cons_val_one, cons_val]
    linear_combination (-1) * h.r00 + (1) * h.c11 + (1) * h.c22 + (2) * h.f00
  · simp only [of_apply, Fin.zero_eta, Fin.mk_one, Fin.reduceFinMk, cons_val', cons_val_zero, cons_val_one, cons_val]
    linear_combination (-1) * h.c01 + (-1) * h.r01 + (1) * h.f01 + (1) * h.f10
  · simp only [of_apply, Fin.zero_eta, Fin.mk_one, Fin.reduceFinMk, cons_val', cons_val_zero, cons_val_one, cons_val]
    linear_combination (-1) * h.c02 + (-1) * h.r02 + (1) * h.f02 + (1) * h.f20
  · simp only [of_apply, Fin.zero_eta, Fin.mk_one, Fin.reduceFinMk, cons_val', cons_val_zero, cons_val_one, cons_val] <;> ring
  · simp only [of_apply, Fin.zero_eta, Fin.mk_one, Fin.reduceFinMk, cons_val', cons_val_zero, cons_val_one, cons_val]
    linear_combination (-1) * h.c01 + (-1) * h.r01 + (1) * h.f01 + (1) * h.f10
  · simp only [of_apply, Fin.zero_eta, Fin.mk_one, Fin.reduceFinMk, cons_val', cons_val_zero, cons_val_one, cons_val]
    linear_combination (1) * h.c00 + (-1) * h.r11 + (1) * h.c22 + (2) * h.f11
  · simp only [of_apply, Fin.zero_eta, Fin.mk_one, Fin.reduceFinMk, cons_val', cons_val_zero, cons_val_one, cons_val]
    linear_combination (-1) * h.c12 + (-1) * h.r12 + (1) * h.f12 + (1) * h.f21
  · simp only [of_apply, Fin.zero_eta, Fin.mk_one, Fin.reduceFinMk, cons_val', cons_val_zero, cons_val_one, cons_val] <;> ring
  · simp only [of_apply, Fin.zero_eta, Fin.mk_one, Fin.reduceFinMk, cons_val', cons_val_zero, cons_val_one, cons_val]
    linear_combination (-1) * h.c02 + (-1) * h.r02 + (1) * h.f02 + (1) * h.f20
  · simp only [of_apply, Fin.zero_eta, Fin.mk_one, Fin.reduceFinMk, cons_val', cons_val_zero, cons_val_one, cons_val]
    linear_combination (-1) * h.c12 + (-1) * h.r12 + (1) * h.f12 + (1) * h.f21
  · simp only [of_apply, Fin.zero_eta, Fin.mk_one, Fin.reduceFinMk, cons_val', cons_val_zero, cons_val_one, cons_val]
    linear_combination (1) * h.r00 + (1) * h.r11 + (-1) * h.c22 + (2) * h.f22
  · simp only [of_apply, Fin.zero_eta, Fin.mk_one, Fin.reduceFinMk, cons_val', cons_val_zero, cons_val_one, cons_val]
    linear_combination (-1) * h.r00 + (1) * h.c11 + (1) * h.c22 + (2) * h.f00
  · simp only [of_apply, Fin.zero_eta, Fin.mk_one, Fin.reduceFinMk, cons_val', cons_val_zero, cons_val_one, cons_val] <;> ring
  · simp only [of_apply, Fin.zero_eta, Fin.mk_one, Fin.reduceFinMk, cons_val', cons_val_zero, cons_val_one, cons_val]
    linear_combination (-1) * h.c02 + (1) * h.r02 + (1) * h.f02 + (-1) * h.f20
  · simp only [of_apply, Fin.zero_eta, Fin.mk_one, Fin.reduceFinMk, cons_val', cons_val_zero, cons_val_one, cons_val]
    linear_combination (1) * h.c01 + (-1) * h.r01 + (-1) * h.f01 + (1) * h.f10
  · simp only [of_apply, Fin.zero_eta, Fin.mk_one, Fin.reduceFinMk, cons_val', cons_val_zero, cons_val_one, cons_val] <;> ring
  · simp only [of_apply, Fin.zero_eta, Fin.mk_one, Fin.reduceFinMk, cons_val', cons_val_zero, cons_val_one, cons_val] <;> ring
  · simp only [of_apply, Fin.zero_eta, Fin.mk_one, Fin.reduceFinMk, cons_val', cons_val_zero, cons_val_one, cons_val] <;> ring
  · simp only [of_apply, Fin.zero_eta, Fin.mk_one, Fin.reduceFinMk, cons_val', cons_val_zero, cons_val_one, cons_val] <;> ring
  · simp only [of_apply, Fin.zero_eta, Fin.mk_one, Fin.reduceFinMk, cons_val', cons_val_zero, cons_val_one, cons_val]
    linear_combination (-1) * h.c02 + (1) * h.r02 + (1) * h.f02 + (-1) * h.f20
  · simp only [of_apply, Fin.zero_eta, Fin.mk_one, Fin.reduceFinMk, cons_val', cons_val_zero, cons_val_one, cons_val] <;> ring
  · simp only [of_apply, Fin.zero_eta, Fin.mk_one, Fin.reduceFinMk, cons_val', cons_val_zero, cons_val_one, cons_val]
    linear_combination (1) * h.r00 + (1) * h.r11 + (-1) * h.c22 + (-2) * h.f22
  · simp only [of_apply, Fin.zero_eta, Fin.mk_one, Fin.reduceFinMk, cons_val', cons_val_zero, cons_val_one, cons_val]
    linear_combination (1) * h.c12 + (1) * h.r12 + (1) * h.f12 + (1) * h.f21
  · simp only [of_apply, Fin.zero_eta, Fin.mk_one, Fin.reduceFinMk, cons_val', cons_val_zero, cons_val_one, cons_val]
    linear_combination (1) * h.c01 + (-1) * h.r01 + (-1) * h.f01 + (1) * h.f10
  · simp only [of_apply, Fin.zero_eta, Fin.mk_one, Fin.reduceFinMk, cons_val', cons_val_zero, cons_val_one, cons_val] <;> ring
  · simp only [of_apply, Fin.zero_eta, Fin.mk_one, Fin.reduceFinMk, cons_val', cons_val_zero, cons_val_one, cons_val]
    linear_combination (1) * h.c12 + (1) * h.r12 + (1) * h.f12 + (1) * h.f21
  · simp only [of_apply, Fin.zero_eta, Fin.mk_one, Fin.reduceFinMk, cons_val', cons_val_zero, cons_val_one, cons_val]
    linear_combination (1) * h.c00 + (-1) * h.r11 + (1) * h.c22 + (-2) * h.f11
  · simp only [of_apply, Fin.zero_eta, Fin.mk_one, Fin.reduceFinMk, cons_val', cons_val_zero, cons_val_one, cons_val]
    linear_combination (1) * h.c00 + (-1) * h.r11 + (1) * h.c22 + (2) * h.f11
  · simp only [of_apply, Fin.zero_eta, Fin.mk_one, Fin.reduceFinMk, cons_val', cons_val_zero, cons_val_one, cons_val]
    linear_combination (1) * h.c12 + (-1) * h.r12 + (-1) * h.f12 + (1) * h.f21
  · simp only [of_apply, Fin.zero_eta, Fin.mk_one, Fin.reduceFinMk, cons_val', cons_val_zero, cons_val_one, cons_val] <;> ring
  · simp only [of_apply, Fin.zero_eta, Fin.mk_one, Fin.reduceFinMk, cons_val', cons_val_zero, cons_val_one, cons_val]
    linear_combination (-1) * h.c01 + (1) * h.r01 + (-1) * h.f01 + (1) * h.f10
  · simp only [of_apply, Fin.zero_eta, Fin.mk_one, Fin.reduceFinMk, cons_val', cons_val_zero, cons_val_one, cons_val]
    linear_combination (1) * h.c12 + (-1) * h.r12 + (-1) * h.f12 + (1) * h.f21
  · simp only [of_apply, Fin.zero_eta, Fin.mk_one, Fin.reduceFinMk, cons_val', cons_val_zero, cons_val_one, cons_val]
    linear_combination (1) * h.r00 + (1) * h.r11 + (-1) * h.c22 + (-2) * h.f22
  · simp only [of_apply, Fin.zero_eta, Fin.mk_one, Fin.reduceFinMk, cons_val', cons_val_zero, cons_val_one, cons_val] <;> ring
  · simp only [of_apply, Fin.zero_eta, Fin.mk_one, Fin.reduceFinMk, cons_val', cons_val_zero, cons_val_one, cons_val]
    linear_combination (1) * h.c02 + (1) * h.r02 + (1) * h.f02 + (1) * h.f20
  · simp only [of_apply, Fin.zero_eta, Fin.mk_one, Fin.reduceFinMk, cons_val', cons_val_zero, cons_val_one, cons_val] <;> ring
  · simp only [of_apply, Fin.zero_eta, Fin.mk_one, Fin.reduceFinMk, cons_val', cons_val_zero, cons_val_one, cons_val] <;> ring
  · simp only [of_apply, Fin.zero_eta, Fin.mk_one, Fin.reduceFinMk, cons_val', cons_val_zero, cons_val_one, cons_val] <;> ring
  · simp only [of_apply, Fin.zero_eta, Fin.mk_one, Fin.reduceFinMk, cons_val', cons_val_zero, cons_val_one, cons_val] <;> ring
  · simp only [of_apply, Fin.zero_eta, Fin.mk_one, Fin.reduceFinMk, cons_val', cons_val_zero, cons_val_one, cons_val]
    linear_combination (-1) * h.c01 + (1) * h.r01 + (-1) * h.f01 + (1) * h.f10
  · simp only [of_apply, Fin.zero_eta, Fin.mk_one, Fin.reduceFinMk, cons_val', cons_val_zero, cons_val_one, cons_val]
    linear_combination (1) * h.c02 + (1) * h.r02 + (1) * h.f02 + (1) * h.f20
  · simp only [of_apply, Fin.zero_eta, Fin.mk_one, Fin.reduceFinMk, cons_val', cons_val_zero, cons_val_one, cons_val] <;> ring
  · simp only [of_apply, Fin.zero_eta, Fin.mk_one, Fin.reduceFinMk, cons_val', cons_val_zero, cons_val_one, cons_val]
    linear_combination (-1) * h.r00 + (1) * h.c11 + (1) * h.c22 + (-2) * h.f00
  · simp only [of_apply, Fin.zero_eta, Fin.mk_one, Fin.reduceFinMk, cons_val', cons_val_zero, cons_val_one, cons_val]
    linear_combination (1) * h.r00 + (1) * h.r11 + (-1) * h.c22 + (2) * h.f22
  · simp only [of_apply, Fin.zero_eta, Fin.mk_one, Fin.reduceFinMk, cons_val', cons_val_zero, cons_val_one, cons_val]
    linear_combination (-1) * h.c12 + (1) * h.r12 + (-1) * h.f12 + (1) * h.f21
  · simp only [of_apply, Fin.zero_eta, Fin.mk_one, Fin.reduceFinMk, cons_val', cons_val_zero, cons_val_one, cons_val]
    linear_combination (1) * h.c02 + (-1) * h.r02 + (1) * h.f02 + (-1) * h.f20
  · simp only [of_apply, Fin.zero_eta, Fin.mk_one, Fin.reduceFinMk, cons_val', cons_val_zero, cons_val_one, cons_val] <;> ring
  · simp only [of_apply, Fin.zero_eta, Fin.mk_one, Fin.reduceFinMk, cons_val', cons_val_zero, cons_val_one, cons_val]
    linear_combination (-1) * h.c12 + (1) * h.r12 + (-1) * h.f12 + (1) * h.f21
  · simp only [of_apply, Fin.zero_eta, Fin.mk_one, Fin.reduceFinMk, cons_val', cons_val_zero, cons_val_one, cons_val]
    linear_combination (1) * h.c00 + (-1) * h.r11 + (1) * h.c22 + (-2) * h.f11
  · simp only [of_apply, Fin.zero_eta, Fin.mk_one, Fin.reduceFinMk, cons_val', cons_val_zero, cons_val_one, cons_val]
    linear_combination (1) * h.c01 + (1) * h.r01 + (1) * h.f01 + (1) * h.f10
  · simp only [of_apply, Fin.zero_eta, Fin.mk_one, Fin.reduceFinMk, cons_val', cons_val_zero, cons_val_one, cons_val] <;> ring
  · simp only [of_apply, Fin.zero_eta, Fin.mk_one, Fin.reduceFinMk, cons_val', cons_val_zero, cons_val_one, cons_val]
    linear_combination (1) * h.c02 + (-1) * h.r02 + (1) * h.f02 + (-1) * h.f20
  · simp only [of_apply, Fin.zero_eta, Fin.mk_one, Fin.reduceFinMk, cons_val', cons_val_zero, cons_val_one, cons_val]
    linear_combination (1) * h.c01 + (1) * h.r01 + (1) * h.f01 + (1) * h.f10
  · simp only [of_apply, Fin.zero_eta, Fin.mk_one, Fin.reduceFinMk, cons_val', cons_val_zero, cons_val_one, cons_val]
    linear_combination (-1) * h.r00 + (1) * h.c11 + (1) * h.c22 + (-2) * h.f00
  · simp only [of_apply, Fin.zero_eta, Fin.mk_one, Fin.reduceFinMk, cons_val', cons_val_zero, cons_val_one, cons_val] <;> ring
  · simp only [of_apply, Fin.zero_eta, Fin.mk_one, Fin.reduceFinMk, cons_val', cons_val_zero, cons_val_one, cons_val] <;> ring
  · simp only [of_apply, Fin.zero_eta, Fin.mk_one, Fin.reduceFinMk, cons_val', cons_val_zero, cons_val_one, cons_val] <;> ring
  · simp only [of_apply, Fin.zero_eta, Fin.mk_one, Fin.reduceFinMk, cons_val', cons_val_zero, cons_val_one, cons_val] <;> ring
  · simp only [of_apply, Fin.zero_eta, Fin.mk_one, Fin.reduceFinMk, cons_val', cons_val_zero, cons_val_one, cons_val] <;> ring

theorem K_trace (R : Matrix (Fin 3) (Fin 3) ℝ) : K R 0 0 + K R 1 1 + K R 2 2 + K R 3 3 = 4 := by
  simp only [K, of_apply, cons_val', cons_val_zero, cons_val_one, cons_val]
  ring

theorem K_symm (R : Matrix (Fin 3) (Fin 3) ℝ) (i j : Fin 4) : K R i j = K R j i := by
  fin_cases i <;> fin_cases j <;> rfl

/-- The diagonal entries are not negative. -/
theorem K_nonneg {R : Matrix (Fin 3) (Fin 3) ℝ} (h : Rel R) (i : Fin 4) : 0 ≤ K R i i := by
  have hp : ∀ j, 0 ≤ K R i i * K R j j := by
    intro j
    rw [← K_rank h i j j]
    exact mul_self_nonneg _
  by_contra hn
  push Not at hn
  have hj : ∀ j, K R j j ≤ 0 := by
    intro j
    by_contra hc
    push Not at hc
    have := mul_neg_of_neg_of_pos hn hc
    exact absurd (hp j) (not_le.2 this)
  have := K_trace R
  linarith [hj 0, hj 1, hj 2, hj 3]

end Verif.Pose
