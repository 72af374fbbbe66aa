import Mathlib.Tactic.FieldSimp
import Verif.Lemmas.Rotation
import Verif.Model.Pose
import Verif.Props.Kinematics

/-!
# Quaternions of length one and rotation matrices
-/
set_option linter.unusedSimpArgs false
namespace Verif.Pose
open Matrix Verif.Kinematics

/-- The parts of a quaternion -/
def comp (q : Quat) : Fin 4 → ℝ := ![q.w, q.x, q.y, q.z]

theorem products {R : Mat3} (h : Rel R) (i : Fin 4) (hi : 0 < K R i i) (q : Quat)
    (hq : ∀ j, comp q j = K R i j * (1 / 2 / Real.sqrt (K R i i))) (j k : Fin 4) :
    comp q j * comp q k = K R j k / 4 := by
  have hs := Real.mul_self_sqrt hi.le
  have hp := Real.sqrt_pos.2 hi
  have hr := K_rank h i j k
  rw [hq j, hq k]
  generalize Real.sqrt (K R i i) = s at *
  have : K R i j * (1 / 2 / s) * (K R i k * (1 / 2 / s)) = K R i j * K R i k / (4 * (s * s)) := by
    field_simp; ring
  rw [this, hr, hs]
  field_simp

theorem of_products {R : Mat3} (q : Quat) (h : ∀ j k, comp q j * comp q k = K R j k / 4) :
    q.squaredNorm = 1 ∧ toRotationMatrix q = R := by
  have ht := K_trace R
  constructor
  · have h0 := h 0 0
    have h1 := h 1 1
    have h2 := h 2 2
    have h3 := h 3 3
    simp only [comp, cons_val_zero, cons_val_one, cons_val] at h0 h1 h2 h3
    unfold Quat.squaredNorm
    linarith
  · have hc := h
    simp only [comp, K] at hc
    have e00 := hc 0 0
    have e01 := hc 0 1
    have e02 := hc 0 2
    have e03 := hc 0 3
    have e11 := hc 1 1
    have e12 := hc 1 2
    have e13 := hc 1 3
    have e22 := hc 2 2
    have e23 := hc 2 3
    have e33 := hc 3 3
    simp only [of_apply, cons_val', cons_val_zero, cons_val_one, cons_val] at e00 e01 e02 e03 e11 e12 e13 e22 e23 e33
    ext i j
    fin_cases i <;> fin_cases j <;>
      simp only [toRotationMatrix, of_apply, Fin.zero_eta, Fin.mk_one, Fin.reduceFinMk, cons_val', cons_val_zero,
        cons_val_one, cons_val] <;> linarith

/-- The quaternion Eigen makes of a rotation matrix has length one and that matrix. -/
theorem ofMatrix_spec {R : Mat3} (hR : IsRotationMatrix R) :
    (ofMatrix R).squaredNorm = 1 ∧ toRotationMatrix (ofMatrix R) = R := by
  have h := Rel.of hR
  have ht : R.trace = R 0 0 + R 1 1 + R 2 2 := by rw [trace, Fin.sum_univ_three]; rfl
  have k0 : K R 0 0 = R.trace + 1 := by rw [ht]; simp [K]; ring
  have k1 : K R 1 1 = R 0 0 - R 1 1 - R 2 2 + 1 := by simp [K]; ring
  have k2 : K R 2 2 = R 1 1 - R 2 2 - R 0 0 + 1 := by simp [K]; ring
  have k3 : K R 3 3 = R 2 2 - R 0 0 - R 1 1 + 1 := by simp [K]; ring
  have self : ∀ x : ℝ, 0 < x → 1 / 2 * Real.sqrt x = x * (1 / 2 / Real.sqrt x) := by
    intro x hx
    have hs := Real.mul_self_sqrt hx.le
    have hp := Real.sqrt_pos.2 hx
    generalize Real.sqrt x = s at *
    rw [← hs]
    field_simp
  have tr := K_trace R
  apply of_products
  unfold ofMatrix
  by_cases c0 : 0 < R.trace
  · rw [if_pos c0]
    have hi : 0 < K R 0 0 := by rw [k0]; linarith
    apply products h 0 hi
    rw [k0] at hi
    intro j
    rw [k0]
    fin_cases j
    · exact (self _ hi).trans (by rw [← k0]; rfl)
    · rfl
    · rfl
    · rfl
  · rw [if_neg c0]
    simp only
    by_cases c2 : R 2 2 > R (if R 1 1 > R 0 0 then 1 else 0) (if R 1 1 > R 0 0 then 1 else 0)
    · rw [if_pos c2]
      have hi : 0 < K R 3 3 := by
        rw [k3]
        by_cases c1 : R 1 1 > R 0 0
        · rw [if_pos c1] at c2; linarith
        · rw [if_neg c1] at c2; linarith
      apply products h 3 hi
      rw [k3] at hi
      intro j
      rw [k3]
      fin_cases j
      · rfl
      · rfl
      · rfl
      · exact (self _ hi).trans (by rw [← k3]; rfl)
    · rw [if_neg c2]
      by_cases c1 : R 1 1 > R 0 0
      · rw [if_pos c1] at c2 ⊢
        have hi : 0 < K R 2 2 := by rw [k2]; linarith
        apply products h 2 hi
        rw [k2] at hi
        intro j
        rw [k2]
        fin_cases j
        · rfl
        · rfl
        · exact (self _ hi).trans (by rw [← k2]; rfl)
        · exact congrArg (· * _) (add_comm _ _)
      · rw [if_neg c1] at c2 ⊢
        have hi : 0 < K R 1 1 := by rw [k1]; linarith
        apply products h 1 hi
        rw [k1] at hi
        intro j
        rw [k1]
        fin_cases j
        · rfl
        · exact (self _ hi).trans (by rw [← k1]; rfl)
        · exact congrArg (· * _) (add_comm _ _)
        · exact congrArg (· * _) (add_comm _ _)

/-- The rotation matrix with every entry of degree two -/
noncomputable def rawMatrix (q : Quat) : Mat3 :=
  !![q.w ^ 2 + q.x ^ 2 - q.y ^ 2 - q.z ^ 2, 2 * q.y * q.x - 2 * q.z * q.w, 2 * q.z * q.x + 2 * q.y * q.w;
     2 * q.y * q.x + 2 * q.z * q.w, q.w ^ 2 - q.x ^ 2 + q.y ^ 2 - q.z ^ 2, 2 * q.z * q.y - 2 * q.x * q.w;
     2 * q.z * q.x - 2 * q.y * q.w, 2 * q.z * q.y + 2 * q.x * q.w, q.w ^ 2 - q.x ^ 2 - q.y ^ 2 + q.z ^ 2]

theorem toRotationMatrix_raw {q : Quat} (hq : q.squaredNorm = 1) : toRotationMatrix q = rawMatrix q := by
  unfold Quat.squaredNorm at hq
  unfold toRotationMatrix rawMatrix
  congr 1
  rw [← hq]
  ext i j
  fin_cases i <;> fin_cases j <;>
    simp only [Fin.zero_eta, Fin.mk_one, Fin.reduceFinMk, cons_val', cons_val_zero, cons_val_one, cons_val] <;> ring

theorem toRotationMatrix_rotation {q : Quat} (hq : q.squaredNorm = 1) : IsRotationMatrix (toRotationMatrix q) := by
  rw [toRotationMatrix_raw hq]
  unfold Quat.squaredNorm at hq
  constructor
  · have : (rawMatrix q)ᵀ * rawMatrix q = (q.w ^ 2 + q.x ^ 2 + q.y ^ 2 + q.z ^ 2) ^ 2 • 1 := by
      ext i j
      fin_cases i <;> fin_cases j <;>
        simp only [rawMatrix, mul_apply, Fin.sum_univ_three, transpose_apply, of_apply, Fin.zero_eta, Fin.mk_one,
          Fin.reduceFinMk, cons_val', cons_val_zero, cons_val_one, cons_val, Matrix.smul_apply, smul_eq_mul,
          one_apply_eq, ne_eq, Fin.reduceEq, not_false_eq_true, one_apply_ne, zero_ne_one, one_ne_zero] <;> ring
    rw [this, hq]; simp
  · rw [det_fin_three]
    have : (1 : ℝ) = (q.w ^ 2 + q.x ^ 2 + q.y ^ 2 + q.z ^ 2) ^ 3 := by rw [hq]; norm_num
    rw [this]
    simp only [rawMatrix, of_apply, cons_val', cons_val_zero, cons_val_one, cons_val]
    ring

theorem rotateVector_matrix {q : Quat} (hq : q.squaredNorm = 1) (v : Fin 3 → ℝ) :
    rotateVector q v = toRotationMatrix q *ᵥ v := by
  rw [toRotationMatrix_raw hq, rotate_eq (by rw [hq]; norm_num), hq]
  ext i
  fin_cases i <;>
    simp only [rawMatrix, Quat.raw, Quat.vec, cross_apply, vec3_dotProduct, mulVec, dotProduct, Fin.sum_univ_three,
      of_apply, Fin.zero_eta, Fin.mk_one, Fin.reduceFinMk, cons_val', cons_val_zero, cons_val_one, cons_val,
      Pi.add_apply, Pi.smul_apply, smul_eq_mul] <;> ring

theorem toRotationMatrix_mul {p q : Quat} (hp : p.squaredNorm = 1) (hq : q.squaredNorm = 1) :
    toRotationMatrix (p.mul q) = toRotationMatrix p * toRotationMatrix q := by
  rw [toRotationMatrix_raw (by rw [mul_sq, hp, hq, mul_one]), toRotationMatrix_raw hp, toRotationMatrix_raw hq]
  ext i j
  fin_cases i <;> fin_cases j <;>
    simp only [rawMatrix, Quat.mul, mul_apply, Fin.sum_univ_three, of_apply, Fin.zero_eta, Fin.mk_one,
      Fin.reduceFinMk, cons_val', cons_val_zero, cons_val_one, cons_val] <;> ring

theorem trace_products {p q : Quat} (hp : p.squaredNorm = 1) (hq : q.squaredNorm = 1) :
    (toRotationMatrix p * (toRotationMatrix q)ᵀ).trace = 4 * dot p q ^ 2 - 1 := by
  have h1 : (1 : ℝ) = (p.w ^ 2 + p.x ^ 2 + p.y ^ 2 + p.z ^ 2) * (q.w ^ 2 + q.x ^ 2 + q.y ^ 2 + q.z ^ 2) := by
    unfold Quat.squaredNorm at hp hq; rw [hp, hq, mul_one]
  rw [toRotationMatrix_raw hp, toRotationMatrix_raw hq, h1, trace, Fin.sum_univ_three]
  simp only [rawMatrix, dot, diag_apply, mul_apply, Fin.sum_univ_three, transpose_apply, of_apply, cons_val',
    cons_val_zero, cons_val_one, cons_val]
  ring

theorem dot_sq_le {p q : Quat} (hp : p.squaredNorm = 1) (hq : q.squaredNorm = 1) : dot p q ^ 2 ≤ 1 := by
  have h1 : (1 : ℝ) = (p.w ^ 2 + p.x ^ 2 + p.y ^ 2 + p.z ^ 2) * (q.w ^ 2 + q.x ^ 2 + q.y ^ 2 + q.z ^ 2) := by
    unfold Quat.squaredNorm at hp hq; rw [hp, hq, mul_one]
  rw [h1]
  unfold dot
  nlinarith [sq_nonneg (p.w * q.x - p.x * q.w), sq_nonneg (p.w * q.y - p.y * q.w), sq_nonneg (p.w * q.z - p.z * q.w),
    sq_nonneg (p.x * q.y - p.y * q.x), sq_nonneg (p.x * q.z - p.z * q.x), sq_nonneg (p.y * q.z - p.z * q.y)]

theorem abs_dot_le {p q : Quat} (hp : p.squaredNorm = 1) (hq : q.squaredNorm = 1) : |dot p q| ≤ 1 := by
  have := dot_sq_le hp hq
  rw [← sq_abs] at this
  nlinarith [abs_nonneg (dot p q)]

end Verif.Pose
