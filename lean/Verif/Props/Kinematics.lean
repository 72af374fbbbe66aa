import Mathlib.LinearAlgebra.Matrix.Adjugate
import Mathlib.LinearAlgebra.Matrix.NonsingularInverse
import Mathlib.Analysis.SpecialFunctions.Trigonometric.Deriv
import Verif.Model.Kinematics
import Verif.Spec.Kinematics
import Verif.Lemmas.MatrixExp
import Verif.Props.Projection

/-!
# Properties C85 to C88: rotation by quaternions, skew matrices, adjoints and exponentials
-/
namespace Verif.Kinematics
open Verif Matrix Verif.Projection

/-! ### C85: rotation by a quaternion -/

/-- The vector part -/
def Quat.vec (q : Quat) : Fin 3 → ℝ := ![q.x, q.y, q.z]

/-- The rotation before the division -/
def Quat.raw (q : Quat) (v : Fin 3 → ℝ) : Fin 3 → ℝ :=
  (q.w ^ 2 - q.vec ⬝ᵥ q.vec) • v + (2 * (q.vec ⬝ᵥ v)) • q.vec + (2 * q.w) • (q.vec ⨯₃ v)

/-- The conjugate -/
def Quat.conj (q : Quat) : Quat := ⟨q.w, -q.x, -q.y, -q.z⟩

theorem sq_pos {q : Quat} (hq : q ≠ ⟨0, 0, 0, 0⟩) : 0 < q.squaredNorm := by
  by_contra h
  apply hq
  unfold Quat.squaredNorm at h
  have hw := sq_nonneg q.w
  have hx := sq_nonneg q.x
  have hy := sq_nonneg q.y
  have hz := sq_nonneg q.z
  have e : ∀ a : ℝ, a ^ 2 ≤ 0 → a = 0 := fun a ha => by
    have := le_antisymm ha (sq_nonneg a)
    exact pow_eq_zero_iff (n := 2) (by norm_num) |>.1 this
  ext
  · exact e _ (by linarith)
  · exact e _ (by linarith)
  · exact e _ (by linarith)
  · exact e _ (by linarith)

theorem conj_sq (q : Quat) : q.conj.squaredNorm = q.squaredNorm := by
  simp [Quat.squaredNorm, Quat.conj]

theorem rotate_eq {q : Quat} (hq : 0 < q.squaredNorm) (v : Fin 3 → ℝ) :
    rotateVector q v = (1 / q.squaredNorm) • q.raw v := by
  have hn := hq.ne'
  unfold rotateVector Quat.inverse
  rw [if_pos hq]
  generalize q.squaredNorm = N at *
  ext i
  fin_cases i <;>
    simp only [Quat.mul, Quat.raw, Quat.vec, vec3_dotProduct, cross_apply, Fin.zero_eta, Fin.mk_one,
      Fin.reduceFinMk, Pi.add_apply, Pi.smul_apply, smul_eq_mul, cons_val_zero, cons_val_one, cons_val] <;>
    field_simp <;> ring

theorem rotateReverse_eq {q : Quat} (hq : 0 < q.squaredNorm) (v : Fin 3 → ℝ) :
    rotateVectorReverse q v = rotateVector q.conj v := by
  have hn := hq.ne'
  rw [rotate_eq (by rw [conj_sq]; exact hq), conj_sq]
  unfold rotateVectorReverse Quat.inverse
  rw [if_pos hq]
  generalize q.squaredNorm = N at *
  ext i
  fin_cases i <;>
    simp only [Quat.mul, Quat.raw, Quat.conj, Quat.vec, vec3_dotProduct, cross_apply, Fin.zero_eta, Fin.mk_one,
      Fin.reduceFinMk, Pi.add_apply, Pi.smul_apply, smul_eq_mul, cons_val_zero, cons_val_one, cons_val] <;>
    field_simp <;> ring

theorem raw_dot (q : Quat) (v w : Fin 3 → ℝ) : q.raw v ⬝ᵥ q.raw w = q.squaredNorm ^ 2 * (v ⬝ᵥ w) := by
  simp only [Quat.raw, Quat.vec, Quat.squaredNorm, vec3_dotProduct, cross_apply, Pi.add_apply, Pi.smul_apply,
    smul_eq_mul, cons_val_zero, cons_val_one, cons_val]
  ring

theorem raw_cross (q : Quat) (v w : Fin 3 → ℝ) : q.raw v ⨯₃ q.raw w = q.squaredNorm • q.raw (v ⨯₃ w) := by
  ext i
  fin_cases i <;>
    simp only [Quat.raw, Quat.vec, Quat.squaredNorm, vec3_dotProduct, cross_apply, Fin.zero_eta, Fin.mk_one,
      Fin.reduceFinMk, Pi.add_apply, Pi.smul_apply, smul_eq_mul, cons_val_zero, cons_val_one, cons_val] <;>
    ring

theorem raw_mul (p q : Quat) (v : Fin 3 → ℝ) : (p.mul q).raw v = p.raw (q.raw v) := by
  ext i
  fin_cases i <;>
    simp only [Quat.raw, Quat.vec, Quat.mul, vec3_dotProduct, cross_apply, Fin.zero_eta, Fin.mk_one,
      Fin.reduceFinMk, Pi.add_apply, Pi.smul_apply, smul_eq_mul, cons_val_zero, cons_val_one, cons_val] <;>
    ring

theorem raw_smul (q : Quat) (a : ℝ) (v : Fin 3 → ℝ) : q.raw (a • v) = a • q.raw v := by
  unfold Quat.raw
  rw [dotProduct_smul, LinearMap.map_smul, smul_eq_mul]
  module

theorem mul_sq (p q : Quat) : (p.mul q).squaredNorm = p.squaredNorm * q.squaredNorm := by
  simp only [Quat.mul, Quat.squaredNorm]; ring

theorem raw_conj (q : Quat) (v : Fin 3 → ℝ) : q.conj.raw (q.raw v) = q.squaredNorm ^ 2 • v := by
  rw [← raw_mul]
  ext i
  fin_cases i <;>
    simp only [Quat.raw, Quat.vec, Quat.mul, Quat.conj, Quat.squaredNorm, vec3_dotProduct, cross_apply,
      Fin.zero_eta, Fin.mk_one, Fin.reduceFinMk, Pi.add_apply, Pi.smul_apply, smul_eq_mul, cons_val_zero,
      cons_val_one, cons_val] <;>
    ring

/-- C85: for every quaternion but zero (of any length), `RotateVector` is a rotation. -/
theorem C85_rotation (q : Quat) (hq : q ≠ ⟨0, 0, 0, 0⟩) : IsRotation (rotateVector q) := by
  have hp := sq_pos hq
  have hn := hp.ne'
  have he : rotateVector q = fun v => (1 / q.squaredNorm) • q.raw v := funext (rotate_eq hp)
  rw [he]
  constructor
  · intro v w
    rw [← smul_add]
    congr 1
    unfold Quat.raw
    rw [dotProduct_add, LinearMap.map_add]
    module
  · intro a v
    rw [raw_smul, smul_comm]
  · intro v w
    simp only [smul_dotProduct, dotProduct_smul, smul_eq_mul, raw_dot]
    field_simp
  · intro v w
    rw [LinearMap.map_smul, LinearMap.map_smul, LinearMap.smul_apply, raw_cross, smul_smul, smul_smul]
    congr 1
    field_simp

/-- C85: it is the rotation about the vector part of the quaternion, by twice the angle whose cosine is the
scalar part: the axis stays, and all else turns by the formula of Rodrigues. -/
theorem C85_axis_angle (u : Fin 3 → ℝ) (hu : length u = 1) (a : ℝ) (v : Fin 3 → ℝ) :
    rotateVector ⟨Real.cos (a / 2), Real.sin (a / 2) * u 0, Real.sin (a / 2) * u 1, Real.sin (a / 2) * u 2⟩ v =
      Real.cos a • v + Real.sin a • (u ⨯₃ v) + ((1 - Real.cos a) * ∑ i, u i * v i) • u := by
  have huu : u 0 ^ 2 + u 1 ^ 2 + u 2 ^ 2 = 1 := by
    have : u ⬝ᵥ u = 1 := by rw [← norm_sq, ← length_eq, hu]; norm_num
    rw [vec3_dotProduct] at this; linarith
  have hsc := Real.sin_sq_add_cos_sq (a / 2)
  have hN : (Quat.mk (Real.cos (a / 2)) (Real.sin (a / 2) * u 0) (Real.sin (a / 2) * u 1)
      (Real.sin (a / 2) * u 2)).squaredNorm = 1 := by
    simp only [Quat.squaredNorm]
    linear_combination hsc + Real.sin (a / 2) ^ 2 * huu
  rw [rotate_eq (by rw [hN]; norm_num), hN]
  have hc : Real.cos a = Real.cos (a / 2) ^ 2 - Real.sin (a / 2) ^ 2 := by
    rw [← Real.cos_two_mul']; congr 1; ring
  have hs : Real.sin a = 2 * Real.sin (a / 2) * Real.cos (a / 2) := by
    rw [← Real.sin_two_mul]; congr 1; ring
  rw [hc, hs, Fin.sum_univ_three]
  generalize Real.cos (a / 2) = c at *
  generalize Real.sin (a / 2) = s at *
  ext i
  fin_cases i <;>
    simp only [Quat.raw, Quat.vec, vec3_dotProduct, cross_apply, Fin.zero_eta, Fin.mk_one,
      Fin.reduceFinMk, Pi.add_apply, Pi.smul_apply, smul_eq_mul, cons_val_zero, cons_val_one, cons_val]
  · linear_combination (-(s ^ 2) * v 0) * huu + (u 0 * (u 0 * v 0 + u 1 * v 1 + u 2 * v 2)) * hsc
  · linear_combination (-(s ^ 2) * v 1) * huu + (u 1 * (u 0 * v 0 + u 1 * v 1 + u 2 * v 2)) * hsc
  · linear_combination (-(s ^ 2) * v 2) * huu + (u 2 * (u 0 * v 0 + u 1 * v 1 + u 2 * v 2)) * hsc

/-- C85: rotating by a product is rotating by the right factor and then by the left one. -/
theorem C85_product (p q : Quat) (hp : p ≠ ⟨0, 0, 0, 0⟩) (hq : q ≠ ⟨0, 0, 0, 0⟩) (v : Fin 3 → ℝ) :
    rotateVector (p.mul q) v = rotateVector p (rotateVector q v) := by
  have h1 := sq_pos hp
  have h2 := sq_pos hq
  rw [rotate_eq (by rw [mul_sq]; exact mul_pos h1 h2), rotate_eq h1, rotate_eq h2, raw_smul, raw_mul, mul_sq,
    smul_smul]
  congr 1
  field_simp

/-- C85: `RotateVectorReverse` undoes `RotateVector`, and the other way round. -/
theorem C85_reverse (q : Quat) (hq : q ≠ ⟨0, 0, 0, 0⟩) (v : Fin 3 → ℝ) :
    rotateVectorReverse q (rotateVector q v) = v ∧ rotateVector q (rotateVectorReverse q v) = v := by
  have hp := sq_pos hq
  have hn := hp.ne'
  have hcp : 0 < q.conj.squaredNorm := by rw [conj_sq]; exact hp
  have hcc : q.conj.conj = q := by simp [Quat.conj]
  have key : ∀ r : Quat, r.squaredNorm = q.squaredNorm → ∀ v : Fin 3 → ℝ,
      (1 / q.squaredNorm) • r.conj.raw ((1 / q.squaredNorm) • r.raw v) = v := by
    intro r hr v
    rw [raw_smul, raw_conj, hr, smul_smul, smul_smul]
    rw [show 1 / q.squaredNorm * (1 / q.squaredNorm) * q.squaredNorm ^ 2 = 1 by field_simp, one_smul]
  constructor
  · rw [rotateReverse_eq hp, rotate_eq hp, rotate_eq hcp, conj_sq]
    exact key q rfl v
  · rw [rotateReverse_eq hp, rotate_eq hcp, rotate_eq hp, conj_sq]
    have := key q.conj (conj_sq q) v
    rwa [hcc] at this

/-- C85: the zero quaternion turns every vector into zero. -/
theorem C85_zero (v : Fin 3 → ℝ) :
    rotateVector ⟨0, 0, 0, 0⟩ v = 0 ∧ rotateVectorReverse ⟨0, 0, 0, 0⟩ v = 0 := by
  constructor <;> ext i <;> fin_cases i <;>
    simp [rotateVector, rotateVectorReverse, Quat.inverse, Quat.squaredNorm, Quat.mul]

example : (⟨1, 2, 3, 4⟩ : Quat) ≠ ⟨0, 0, 0, 0⟩ := by
  intro h; have := congrArg Quat.w h; norm_num at this

/-! ### C86: skew matrices and twists -/

/-- C86: `Skew(v)` times a vector is the cross product. -/
theorem C86_skew (v x : Fin 3 → ℝ) : skew v *ᵥ x = v ⨯₃ x := by
  ext i
  fin_cases i <;> simp [skew, cross_apply, mulVec, dotProduct, Fin.sum_univ_three] <;> ring

/-- C86: `Unskew` undoes `Skew`; of any matrix it takes the skew part, so `Skew` undoes `Unskew` exactly for
skew matrices. -/
theorem C86_unskew (v : Fin 3 → ℝ) (m : Matrix (Fin 3) (Fin 3) ℝ) :
    unskew (skew v) = v ∧ skew (unskew m) = (1 / 2 : ℝ) • (m - mᵀ) ∧ (skew (unskew m) = m ↔ mᵀ = -m) := by
  have h1 : unskew (skew v) = v := by
    ext i
    fin_cases i <;> simp [skew, unskew] <;> ring
  have h2 : skew (unskew m) = (1 / 2 : ℝ) • (m - mᵀ) := by
    ext i j
    fin_cases i <;> fin_cases j <;> simp [skew, unskew] <;> ring
  refine ⟨h1, h2, ?_⟩
  rw [h2]
  constructor
  · intro h
    ext i j
    have := congrFun (congrFun h i) j
    simp at this ⊢
    linarith
  · intro h
    rw [h]
    ext i j
    simp
    ring

/-- C86: `TwistUnhat` undoes `TwistHat`. -/
theorem C86_twist (ξ : Twist) : twistUnhat (twistHat ξ) = ξ := by
  unfold twistUnhat twistHat
  rw [toBlocks_fromBlocks₁₁, toBlocks_fromBlocks₁₂]
  ext i
  · rfl
  · exact congrFun (C86_unskew ξ.rot 0).1 i

/-! ### C87: the adjoint -/

theorem rotation_skew {R : Matrix (Fin 3) (Fin 3) ℝ} (hR : IsRotationMatrix R) (v : Fin 3 → ℝ) :
    skew (R *ᵥ v) * R = R * skew v := by
  obtain ⟨h1, h2⟩ := hR
  have h3 : R * Rᵀ = 1 := mul_eq_one_comm.1 h1
  have hadj : R.adjugate = Rᵀ := by
    have : R.adjugate * R = 1 := by rw [adjugate_mul, h2, one_smul]
    calc R.adjugate = R.adjugate * (R * Rᵀ) := by rw [h3, Matrix.mul_one]
      _ = Rᵀ := by rw [← Matrix.mul_assoc, this, Matrix.one_mul]
  -- the identity holds for all matrices with the transposed adjugate
  have key : ∀ M : Matrix (Fin 3) (Fin 3) ℝ, Mᵀ * (skew (M *ᵥ v) * M) = M.det • skew v := by
    intro M
    ext i j
    fin_cases i <;> fin_cases j <;>
      simp only [skew, det_fin_three, mul_apply, mulVec, dotProduct, Fin.sum_univ_three, transpose_apply, of_apply,
        Matrix.smul_apply, smul_eq_mul, Fin.zero_eta, Fin.mk_one, Fin.reduceFinMk, cons_val', cons_val_zero,
        cons_val_one, cons_val] <;> ring
  have hk := key R
  rw [h2, one_smul] at hk
  calc skew (R *ᵥ v) * R = (R * Rᵀ) * (skew (R *ᵥ v) * R) := by rw [h3, Matrix.one_mul]
    _ = R * skew v := by rw [Matrix.mul_assoc, hk]

theorem skew_add (v w : Fin 3 → ℝ) : skew (v + w) = skew v + skew w := by
  ext i j
  fin_cases i <;> fin_cases j <;> simp [skew] <;> ring

/-- C87: `TransformTwist` is the change of frame: the hat of the result times the transform is the transform
times the hat of the twist. -/
theorem C87_frame (T : Transform) (hT : IsRotationMatrix T.rotation) (ξ : Twist) :
    twistHat (transformTwist T ξ) * T.matrix = T.matrix * twistHat ξ := by
  have hs := rotation_skew hT ξ.rot
  have h1 : (transformTwist T ξ).rot = T.rotation *ᵥ ξ.rot := by
    unfold transformTwist adjointFromTransform
    simp only [fromBlocks_mulVec]
    ext i
    simp
  have h2 : (transformTwist T ξ).trans = T.rotation *ᵥ ξ.trans + T.translation ⨯₃ (T.rotation *ᵥ ξ.rot) := by
    unfold transformTwist adjointFromTransform
    simp only [fromBlocks_mulVec]
    ext i
    simp only [Function.comp_apply, Sum.elim_inl, Pi.add_apply, Sum.elim_comp_inl, Sum.elim_comp_inr]
    rw [← mulVec_mulVec, C86_skew]
  unfold twistHat Transform.matrix
  rw [fromBlocks_multiply, fromBlocks_multiply, h1, h2]
  congr 1
  · simp [hs]
  · ext i j
    have hc : skew (T.rotation *ᵥ ξ.rot) * column T.translation =
        column (skew (T.rotation *ᵥ ξ.rot) *ᵥ T.translation) := rfl
    have hc' : T.rotation * column ξ.trans = column (T.rotation *ᵥ ξ.trans) := rfl
    rw [hc, C86_skew, hc']
    simp only [column, Matrix.mul_one, Matrix.mul_zero, add_zero, Matrix.add_apply, Pi.add_apply, Matrix.zero_apply]
    have := congrFun (cross_anticomm T.translation (T.rotation *ᵥ ξ.rot)) i
    simp only [Pi.neg_apply] at this
    linarith
  · simp
  · simp

/-- C87: the adjoint of a product is the product of the adjoints, and that of the identity is the identity. -/
theorem C87_product (T S : Transform) (hT : IsRotationMatrix T.rotation) :
    adjointFromTransform (T.mul S) = adjointFromTransform T * adjointFromTransform S ∧
    adjointFromTransform ⟨1, 0⟩ = 1 := by
  constructor
  · unfold adjointFromTransform Transform.mul
    rw [fromBlocks_multiply]
    congr 1
    · simp
    · simp only
      rw [skew_add, Matrix.add_mul, ← Matrix.mul_assoc, rotation_skew hT, Matrix.mul_assoc, Matrix.mul_assoc]
    · simp
    · simp
  · unfold adjointFromTransform
    have : skew 0 = 0 := by ext i j; fin_cases i <;> fin_cases j <;> simp [skew]
    simp [this]

example : IsRotationMatrix !![0, -1, 0; 1, 0, 0; 0, 0, 1] := by
  constructor
  · ext i j; fin_cases i <;> fin_cases j <;> simp [mul_apply, Fin.sum_univ_three]
  · simp [det_fin_three]

/-! ### C88: exponentials -/

/-- The formula of Rodrigues -/
noncomputable def rod (h : Matrix (Fin 3) (Fin 3) ℝ) (s : ℝ) : Matrix (Fin 3) (Fin 3) ℝ :=
  1 + Real.sin s • h + (1 - Real.cos s) • (h * h)

theorem skew_cube {u : Fin 3 → ℝ} (hu : u ⬝ᵥ u = 1) : skew u * skew u * skew u = -skew u := by
  have huu : u 0 ^ 2 + u 1 ^ 2 + u 2 ^ 2 = 1 := by rw [vec3_dotProduct] at hu; linarith
  ext i j
  fin_cases i <;> fin_cases j <;>
    simp only [skew, mul_apply, Fin.sum_univ_three, of_apply, Matrix.neg_apply, Fin.zero_eta, Fin.mk_one,
      Fin.reduceFinMk, cons_val', cons_val_zero, cons_val_one, cons_val]
  · ring
  · linear_combination (u 2) * huu
  · linear_combination (-u 1) * huu
  · linear_combination (-u 2) * huu
  · ring
  · linear_combination (u 0) * huu
  · linear_combination (u 1) * huu
  · linear_combination (-u 0) * huu
  · ring

theorem skew_transpose (u : Fin 3 → ℝ) : (skew u)ᵀ = -skew u := by
  ext i j
  fin_cases i <;> fin_cases j <;> simp [skew]

theorem rod_add {h : Matrix (Fin 3) (Fin 3) ℝ} (hc : h * h * h = -h) (a b : ℝ) :
    rod h a * rod h b = rod h (a + b) := by
  have hc' : h * (h * h) = -h := by rw [← Matrix.mul_assoc, hc]
  have h4 : h * h * (h * h) = -(h * h) := by rw [← Matrix.mul_assoc, hc, Matrix.neg_mul]
  unfold rod
  simp only [Matrix.mul_add, Matrix.add_mul, Matrix.mul_one, Matrix.one_mul, Matrix.smul_mul, Matrix.mul_smul,
    hc, hc', h4, Real.sin_add, Real.cos_add]
  module

theorem rod_zero (h : Matrix (Fin 3) (Fin 3) ℝ) : rod h 0 = 1 := by simp [rod]

theorem rod_rotation {u : Fin 3 → ℝ} (hu : u ⬝ᵥ u = 1) (s : ℝ) : IsRotationMatrix (rod (skew u) s) := by
  have hc := skew_cube hu
  have ht : ∀ s, (rod (skew u) s)ᵀ = rod (skew u) (-s) := by
    intro s
    unfold rod
    simp only [transpose_add, transpose_smul, transpose_mul, skew_transpose, transpose_one, Real.sin_neg,
      Real.cos_neg, Matrix.neg_mul, Matrix.mul_neg, neg_neg]
    module
  have h1 : ∀ s, (rod (skew u) s)ᵀ * rod (skew u) s = 1 := fun s => by
    rw [ht, rod_add hc, neg_add_cancel, rod_zero]
  refine ⟨h1 s, ?_⟩
  have h2 : rod (skew u) s = rod (skew u) (s / 2) * rod (skew u) (s / 2) := by
    rw [rod_add hc]; congr 1; ring
  have h3 := congrArg det (h1 (s / 2))
  rw [det_mul, det_transpose, det_one] at h3
  rw [h2, det_mul, h3]

theorem expMatrixExact_eq {u : Fin 3 → ℝ} (hu : u ⬝ᵥ u = 1) (s : ℝ) :
    expMatrixExact (skew u) s = .ok (rod (skew u) s) := by
  unfold expMatrixExact
  rw [(C86_unskew u 0).1, Out.assert_true, Out.bind_ok]
  · rfl
  · have : Projection.norm u = 1 := by
      unfold Projection.norm
      rw [show squaredNorm u = 1 from hu, Real.sqrt_one]
    rw [this]; norm_num

theorem twistHat_mul (ξ : Twist) (R : Matrix (Fin 3) (Fin 3) ℝ) (p : Fin 3 → ℝ) :
    twistHat ξ * fromBlocks R (column p) 0 1 =
      fromBlocks (skew ξ.rot * R) (column (skew ξ.rot *ᵥ p + ξ.trans)) 0 0 := by
  unfold twistHat
  rw [fromBlocks_multiply]
  congr 1
  · simp
  · ext i j; simp [column, mul_apply, mulVec, dotProduct]
  · simp
  · simp

theorem skew_smul (a : ℝ) (v : Fin 3 → ℝ) : skew (a • v) = a • skew v := by
  ext i j
  fin_cases i <;> fin_cases j <;> simp [skew]

/-- The curve of `screw` solves the differential equation of the exponential -/
theorem screw_exp (n : ℝ) {u : Fin 3 → ℝ} (hu : u ⬝ᵥ u = 1) (w : Fin 3 → ℝ) (t : ℝ) :
    Transform.matrix ⟨rod (skew u) (t * n), (1 - rod (skew u) (t * n)) *ᵥ (u ⨯₃ w) +
        (t * n) • (vecMulVec u u *ᵥ w)⟩ = NormedSpace.exp (t • twistHat ⟨n • w, n • u⟩) := by
  have hc := skew_cube hu
  apply eq_exp (twistHat ⟨n • w, n • u⟩) (fun t => Transform.matrix ⟨rod (skew u) (t * n),
    (1 - rod (skew u) (t * n)) *ᵥ (u ⨯₃ w) + (t * n) • (vecMulVec u u *ᵥ w)⟩)
  · unfold Transform.matrix
    have : column 0 = 0 := rfl
    simp [rod_zero, this]
  · intro t i j
    have hs : HasDerivAt (fun t : ℝ => t * n) n t := by simpa using (hasDerivAt_id t).mul_const n
    have hsin : HasDerivAt (fun t : ℝ => Real.sin (t * n)) (Real.cos (t * n) * n) t := hs.sin
    have hcos : HasDerivAt (fun t : ℝ => Real.cos (t * n)) (-Real.sin (t * n) * n) t := hs.cos
    have hR : ∀ a b, HasDerivAt (fun t : ℝ => rod (skew u) (t * n) a b)
        ((n • skew u * rod (skew u) (t * n)) a b) t := by
      intro a b
      have h1 := ((hsin.mul_const (skew u a b)).const_add ((1 : Matrix (Fin 3) (Fin 3) ℝ) a b)).add
        ((hcos.const_sub 1).mul_const ((skew u * skew u) a b))
      have e : n • skew u * rod (skew u) (t * n) =
          (Real.cos (t * n) * n) • skew u + (Real.sin (t * n) * n) • (skew u * skew u) := by
        unfold rod
        simp only [Matrix.mul_add, Matrix.mul_one, Matrix.smul_mul, Matrix.mul_smul, ← Matrix.mul_assoc, hc]
        module
      rw [e]
      have h2 : HasDerivAt (fun t : ℝ => rod (skew u) (t * n) a b) _ t := h1
      refine h2.congr_deriv ?_
      simp only [Matrix.add_apply, Matrix.smul_apply, smul_eq_mul]
      ring
    have hx : (twistHat ⟨n • w, n • u⟩ * Transform.matrix ⟨rod (skew u) (t * n),
        (1 - rod (skew u) (t * n)) *ᵥ (u ⨯₃ w) + (t * n) • (vecMulVec u u *ᵥ w)⟩) =
        fromBlocks (n • skew u * rod (skew u) (t * n))
          (column (-((n • skew u * rod (skew u) (t * n)) *ᵥ (u ⨯₃ w)) + n • (vecMulVec u u *ᵥ w))) 0 0 := by
      unfold Transform.matrix
      rw [twistHat_mul]
      simp only [skew_smul]
      congr 2
      have e1 : skew u *ᵥ (u ⨯₃ w) = vecMulVec u u *ᵥ w - w := by
        rw [C86_skew]
        have huu : u 0 ^ 2 + u 1 ^ 2 + u 2 ^ 2 = 1 := by rw [vec3_dotProduct] at hu; linarith
        ext i
        fin_cases i <;>
          simp only [cross_apply, vecMulVec_apply, mulVec, dotProduct, Fin.sum_univ_three, Pi.sub_apply,
            Fin.zero_eta, Fin.mk_one, Fin.reduceFinMk, cons_val_zero, cons_val_one, cons_val]
        · linear_combination (-w 0) * huu
        · linear_combination (-w 1) * huu
        · linear_combination (-w 2) * huu
      have e2 : skew u *ᵥ (vecMulVec u u *ᵥ w) = 0 := by
        rw [C86_skew]
        ext i
        fin_cases i <;>
          simp only [cross_apply, vecMulVec_apply, mulVec, dotProduct, Fin.sum_univ_three, Pi.zero_apply,
            Fin.zero_eta, Fin.mk_one, Fin.reduceFinMk, cons_val_zero, cons_val_one, cons_val] <;> ring
      simp only [mulVec_add, sub_mulVec, one_mulVec, mulVec_sub, smul_mulVec, mulVec_smul, e1, e2, Matrix.smul_mul,
        ← mulVec_mulVec]
      module
    rw [hx]
    rcases i with i | i <;> rcases j with j | j
    · exact hR i j
    · have h1 := fun k => ((hR i k).const_sub ((1 : Matrix (Fin 3) (Fin 3) ℝ) i k)).mul_const ((u ⨯₃ w) k)
      have h2 := HasDerivAt.fun_sum (u := Finset.univ) fun k _ => h1 k
      have h3 := h2.add (hs.mul_const ((vecMulVec u u *ᵥ w) i))
      have h4 : HasDerivAt (fun t : ℝ => Transform.matrix ⟨rod (skew u) (t * n),
        (1 - rod (skew u) (t * n)) *ᵥ (u ⨯₃ w) + (t * n) • (vecMulVec u u *ᵥ w)⟩ (Sum.inl i) (Sum.inr j)) _ t := h3
      refine h4.congr_deriv ?_
      simp only [fromBlocks_apply₁₂, column, Pi.add_apply, Pi.neg_apply, Pi.smul_apply, smul_eq_mul, mulVec,
        dotProduct, neg_mul, Finset.sum_neg_distrib]
    · exact hasDerivAt_const t _
    · exact hasDerivAt_const t _

theorem translation_exp (v : Fin 3 → ℝ) (t : ℝ) :
    Transform.matrix ⟨1, t • v⟩ = NormedSpace.exp (t • twistHat ⟨v, 0⟩) := by
  apply eq_exp (twistHat ⟨v, 0⟩) (fun t => Transform.matrix ⟨1, t • v⟩)
  · unfold Transform.matrix
    have : column 0 = 0 := rfl
    simp [this]
  · intro t i j
    have h0 : skew 0 = 0 := by ext i j; fin_cases i <;> fin_cases j <;> simp [skew]
    unfold Transform.matrix
    rw [twistHat_mul]
    simp only [h0, Matrix.zero_mul, zero_mulVec, zero_add]
    rcases i with i | i <;> rcases j with j | j
    · exact hasDerivAt_const t _
    · have := (hasDerivAt_id t).mul_const (v i)
      simpa [column] using this
    · exact hasDerivAt_const t _
    · exact hasDerivAt_const t _

theorem screw_ok (ξ : Twist) (hn : 0 < Projection.norm ξ.rot) (t : ℝ) :
    ∃ T, screw ξ t = .ok T ∧ T.matrix = NormedSpace.exp (t • twistHat ξ) ∧ IsRotationMatrix T.rotation := by
  obtain ⟨v, ω⟩ := ξ
  simp only at hn
  have hsq : Projection.norm ω ^ 2 = ω ⬝ᵥ ω := Projection.norm_sq ω
  unfold screw
  simp only
  generalize Projection.norm ω = n at *
  have hn' := hn.ne'
  have hu : ((1 / n) • ω) ⬝ᵥ ((1 / n) • ω) = 1 := by
    rw [smul_dotProduct, dotProduct_smul, ← hsq]
    simp only [smul_eq_mul]
    field_simp
  rw [expMatrixExact_eq hu, Out.bind_ok]
  refine ⟨_, rfl, ?_, rod_rotation hu _⟩
  rw [screw_exp n hu ((1 / n) • v) t]
  rw [smul_smul, smul_smul, mul_one_div_cancel hn', one_smul, one_smul]

/-- C88: `ExpTwist` never fails its assertion, and returns the matrix exponential of the twist times the time, which
is a rigid motion, whenever the rotation is not tiny (or is exactly zero), or the translation is tiny too. -/
theorem C88_exponential_partial (ξ : Twist) (t : ℝ)
    (h : ξ.rot = 0 ∨ 1 / 10 ^ 100 ≤ length ξ.rot ∨ length ξ.trans < 1 / 10 ^ 100) :
    ∃ T, expTwist ξ t = .ok T ∧ T.matrix = NormedSpace.exp (t • twistHat ξ) ∧ IsRotationMatrix T.rotation := by
  rw [length_eq, length_eq] at h
  have hone : IsRotationMatrix 1 := ⟨by simp, by simp⟩
  have hzero : ξ.rot = 0 → ∃ T, Out.ok (⟨1, t • ξ.trans⟩ : Transform) = .ok T ∧
      T.matrix = NormedSpace.exp (t • twistHat ξ) ∧ IsRotationMatrix T.rotation := by
    intro h0
    refine ⟨_, rfl, ?_, hone⟩
    rw [translation_exp, ← h0]
  have hnz : Projection.norm ξ.rot = 0 → ξ.rot = 0 := by
    intro h0
    by_contra hne
    exact absurd h0 (Projection.norm_pos hne).ne'
  unfold expTwist
  by_cases h1 : 1 / 10 ^ 100 ≤ Projection.norm ξ.rot
  · rw [if_pos h1]
    exact screw_ok ξ (lt_of_lt_of_le (by positivity) h1) t
  · rw [if_neg h1]
    by_cases h2 : 1 / 10 ^ 100 ≤ Projection.norm ξ.trans ∨ Projection.norm ξ.rot = 0
    · rw [if_pos h2]
      apply hzero
      rcases h with h | h | h
      · exact h
      · exact absurd h h1
      · rcases h2 with h2 | h2
        · exact absurd h2 (not_le.2 h)
        · exact hnz h2
    · rw [if_neg h2]
      apply screw_ok
      apply Projection.norm_pos
      intro h0
      apply h2
      right
      rw [h0]
      simp [Projection.norm, squaredNorm]

example : (1 : ℝ) / 10 ^ 100 ≤ length ![0, 0, 1] := by
  rw [show length ![0, 0, (1 : ℝ)] = 1 by simp [length, Fin.sum_univ_three]]
  rw [div_le_one (by positivity)]
  exact one_le_pow₀ (by norm_num)

/-- C88, what is missing from the partial theorem: a twist with a tiny rotation and any ordinary translation loses its
rotation, however long it runs. -/
theorem C88_rotation_lost (ξ : Twist) (t : ℝ) (_h0 : ξ.rot ≠ 0) (h1 : length ξ.rot < 1 / 10 ^ 100)
    (h2 : 1 / 10 ^ 100 ≤ length ξ.trans) :
    expTwist ξ t = .ok ⟨1, t • ξ.trans⟩ := by
  rw [length_eq] at h1 h2
  unfold expTwist
  rw [if_neg (not_le.2 h1), if_pos (Or.inl h2)]

/-- C88: so a slow enough screw, run for a quarter turn, does not turn: the result is not the exponential. -/
theorem C88_rotation_lost_wrong : ∃ (ξ : Twist) (t : ℝ) (T : Transform),
    expTwist ξ t = .ok T ∧ T.matrix ≠ NormedSpace.exp (t • twistHat ξ) := by
  have hn : ∀ a : ℝ, 0 ≤ a → length ![0, 0, a] = a := by
    intro a ha
    rw [length_eq]
    unfold Projection.norm
    rw [show squaredNorm ![0, 0, a] = a ^ 2 by simp [squaredNorm, sq]]
    exact Real.sqrt_sq ha
  let n : ℝ := 1 / 10 ^ 101
  have hnp : 0 < n := by positivity
  have hu : (![0, 0, 1] : Fin 3 → ℝ) ⬝ᵥ ![0, 0, 1] = 1 := by simp
  refine ⟨⟨![0, 0, 1], ![0, 0, n]⟩, Real.pi / n, _, C88_rotation_lost _ _ ?_ ?_ ?_, ?_⟩
  · intro h
    have := congrFun h 2
    simp at this
    exact hnp.ne' this
  · simp only
    rw [hn n hnp.le]
    exact one_div_lt_one_div_of_lt (by positivity) (pow_lt_pow_right₀ (by norm_num) (by norm_num))
  · simp only
    rw [hn 1 (by norm_num)]
    rw [div_le_one (by positivity)]
    exact one_le_pow₀ (by norm_num)
  · intro h
    have e := screw_exp n hu ((1 / n) • ![0, 0, 1]) (Real.pi / n)
    have e1 : n • ((1 / n) • ![0, 0, 1] : Fin 3 → ℝ) = ![0, 0, 1] := by
      rw [smul_smul, mul_one_div_cancel hnp.ne', one_smul]
    have e2 : n • (![0, 0, 1] : Fin 3 → ℝ) = ![0, 0, n] := by
      ext i; fin_cases i <;> simp
    rw [e1, e2, ← h] at e
    have := congrFun (congrFun e (Sum.inl 0)) (Sum.inl 0)
    rw [div_mul_cancel₀ _ hnp.ne'] at this
    simp [Transform.matrix, rod, skew] at this
    norm_num at this

theorem matrix_mul (T S : Transform) : (T.mul S).matrix = T.matrix * S.matrix := by
  unfold Transform.mul Transform.matrix
  rw [fromBlocks_multiply]
  congr 1
  · simp
  · ext i j; simp [column, mul_apply, mulVec, dotProduct]
  · simp
  · simp

theorem matrix_inj {T S : Transform} (h : T.matrix = S.matrix) : T = S := by
  unfold Transform.matrix at h
  rw [fromBlocks_inj] at h
  ext i j
  · rw [h.1]
  · exact congrFun (congrFun h.2.1 i) 0

/-- C88: moving from `start` for one unit of time along the twist between two transforms arrives at `end`, as long as
the logarithm used really is one. -/
theorem C88_between (log : Mat4 → Mat4) (start finish : Transform) (hs : IsRotationMatrix start.rotation)
    (hexp : NormedSpace.exp (log (start.inverse.mul finish).matrix) = (start.inverse.mul finish).matrix)
    (hhat : ∃ ξ, log (start.inverse.mul finish).matrix = twistHat ξ)
    (h : 1 / 10 ^ 100 ≤ length (twistBetweenTransforms log start finish).rot ∨
      (twistBetweenTransforms log start finish).rot = 0) :
    ∃ T, expTwist (twistBetweenTransforms log start finish) 1 = .ok T ∧ start.mul T = finish := by
  obtain ⟨ξ, hξ⟩ := hhat
  have ht : twistBetweenTransforms log start finish = ξ := by
    unfold twistBetweenTransforms; rw [hξ, C86_twist]
  rw [ht] at h ⊢
  obtain ⟨T, hT, hm, -⟩ := C88_exponential_partial ξ 1 (by tauto)
  refine ⟨T, hT, matrix_inj ?_⟩
  rw [one_smul, ← hξ, hexp, matrix_mul] at hm
  have h3 : start.rotation * start.rotationᵀ = 1 := mul_eq_one_comm.1 hs.1
  have hinv : start.matrix * start.inverse.matrix = 1 := by
    rw [← matrix_mul]
    unfold Transform.mul Transform.inverse Transform.matrix
    simp only [h3, mulVec_neg, mulVec_mulVec, one_mulVec, neg_add_cancel]
    have : column 0 = 0 := rfl
    simp [this]
  rw [matrix_mul, hm, ← Matrix.mul_assoc, hinv, Matrix.one_mul]

end Verif.Kinematics
