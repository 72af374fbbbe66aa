import Verif.Spec.TransformationHelper
import Verif.Props.Pose
import Verif.Props.Conversions

/-!
# C133: the transformation helpers (Python)
-/
namespace Verif.TransformationHelper
open Verif Matrix Verif.Conversions Verif.Kinematics Verif.Pose

/-! ### Matrices -/

theorem rigid_eq (R : Matrix (Fin 3) (Fin 3) ℝ) (t : Fin 3 → ℝ) : rigid R t =
    !![R 0 0, R 0 1, R 0 2, t 0; R 1 0, R 1 1, R 1 2, t 1; R 2 0, R 2 1, R 2 2, t 2; 0, 0, 0, 1] := by
  ext i j
  fin_cases i <;> fin_cases j <;> rfl

theorem rigid_mul (R S : Matrix (Fin 3) (Fin 3) ℝ) (t u : Fin 3 → ℝ) :
    rigid R t * rigid S u = rigid (R * S) (R *ᵥ u + t) := by
  rw [rigid_eq, rigid_eq, rigid_eq]
  ext i j
  fin_cases i <;> fin_cases j <;> simp [Matrix.mul_apply, Fin.sum_univ_succ, mulVec, dotProduct] <;> ring

theorem rigid_one : rigid 1 0 = 1 := by
  rw [rigid_eq]
  ext i j
  fin_cases i <;> fin_cases j <;> simp

theorem rigid_vec (R : Matrix (Fin 3) (Fin 3) ℝ) (t : Fin 3 → ℝ) (p : Point ℝ) :
    coords (pointFromVector (rigid R t *ᵥ pointToVector p)) = R *ᵥ coords p + t := by
  rw [rigid_eq]
  ext i
  fin_cases i <;> simp [coords, pointFromVector, pointToVector, mulVec, dotProduct, Fin.sum_univ_succ] <;> ring

theorem rigid_inv {R : Matrix (Fin 3) (Fin 3) ℝ} (hR : IsRotationMatrix R) (t : Fin 3 → ℝ) :
    (rigid R t)⁻¹ = rigid Rᵀ (-(Rᵀ *ᵥ t)) := by
  apply Matrix.inv_eq_left_inv
  rw [rigid_mul, hR.1, add_neg_cancel, rigid_one]

theorem buildMatrix_eq {tf : Tf} (h : IsTf tf) (t : Fin 3 → ℝ) {q : Quat} (hq : q.squaredNorm = 1) :
    buildMatrix tf t q = rigid (toRotationMatrix q) t := by
  unfold buildMatrix
  rw [h.toMatrix q hq]
  ext i j
  fin_cases i <;> fin_cases j <;> simp [Matrix.updateRow_apply, rigid]

theorem transformToMatrix_eq {tf : Tf} (h : IsTf tf) {t : TransformMsg ℝ} (ht : Unit t) :
    transformToMatrix tf t = rigid (toRotationMatrix (quat t.rotation)) ![t.translation.x, t.translation.y, t.translation.z] :=
  buildMatrix_eq h _ ht

theorem act_eq {t : TransformMsg ℝ} (ht : Unit t) (v : Fin 3 → ℝ) :
    act t v = toRotationMatrix (quat t.rotation) *ᵥ v + ![t.translation.x, t.translation.y, t.translation.z] := by
  unfold act
  rw [rotateVector_matrix ht]

/-- The message of a rigid matrix -/
theorem fromMatrix_eq {tf : Tf} (h : IsTf tf) {R : Matrix (Fin 3) (Fin 3) ℝ} (hR : IsRotationMatrix R) (t : Fin 3 → ℝ) :
    Unit (transformFromMatrix tf (rigid R t)) ∧ ∀ v, act (transformFromMatrix tf (rigid R t)) v = R *ᵥ v + t := by
  obtain ⟨h1, h2⟩ := h.fromMatrix R t hR
  have hu : Unit (transformFromMatrix tf (rigid R t)) := h1
  refine ⟨hu, fun v => ?_⟩
  rw [act_eq hu]
  have : toRotationMatrix (quat (transformFromMatrix tf (rigid R t)).rotation) = R := h2
  rw [this]
  congr 1
  ext i
  fin_cases i <;> rfl

/-- A motion determines its matrix. -/
theorem act_matrix {t : TransformMsg ℝ} (ht : Unit t) {R : Matrix (Fin 3) (Fin 3) ℝ} {u : Fin 3 → ℝ}
    (h : ∀ v, act t v = R *ᵥ v + u) : toRotationMatrix (quat t.rotation) = R ∧
      ![t.translation.x, t.translation.y, t.translation.z] = u := by
  have h0 : ![t.translation.x, t.translation.y, t.translation.z] = u := by
    have := h 0
    rw [act_eq ht, mulVec_zero, mulVec_zero, zero_add, zero_add] at this
    exact this
  refine ⟨?_, h0⟩
  ext i j
  have := congrFun (h (Pi.single j 1)) i
  rw [act_eq ht, h0] at this
  simpa using this

/-- C133: a point composed with a transform or a pose is turned by the quaternion and then moved. -/
theorem C133_point {tf : Tf} (h : IsTf tf) (t : TransformMsg ℝ) (ht : Unit t) (p : Point ℝ) :
    coords (composeTransformWithPoint tf t p) = act t (coords p) ∧
    composePoseWithPoint tf (poseFromTransform t) p = composeTransformWithPoint tf t p := by
  refine ⟨?_, rfl⟩
  unfold composeTransformWithPoint
  rw [transformToMatrix_eq h ht, rigid_vec, act_eq ht]

/-- C133: the composition of two transforms acts as the second followed by the first. -/
theorem C133_compose {tf : Tf} (h : IsTf tf) (t1 t2 : TransformMsg ℝ) (h1 : Unit t1) (h2 : Unit t2) :
    Unit (composeTransforms tf t1 t2) ∧ (∀ v, act (composeTransforms tf t1 t2) v = act t1 (act t2 v)) ∧
    poseToTransform (composePoses tf (poseFromTransform t1) (poseFromTransform t2)) = composeTransforms tf t1 t2 := by
  have hR := rotation_mul (toRotationMatrix_rotation h1) (toRotationMatrix_rotation h2)
  have e : composeTransforms tf t1 t2 = transformFromMatrix tf (rigid
      (toRotationMatrix (quat t1.rotation) * toRotationMatrix (quat t2.rotation))
      (toRotationMatrix (quat t1.rotation) *ᵥ ![t2.translation.x, t2.translation.y, t2.translation.z] +
        ![t1.translation.x, t1.translation.y, t1.translation.z])) := by
    unfold composeTransforms
    rw [transformToMatrix_eq h h1, transformToMatrix_eq h h2, rigid_mul]
  rw [e]
  obtain ⟨hu, ha⟩ := fromMatrix_eq h hR (toRotationMatrix (quat t1.rotation) *ᵥ
    ![t2.translation.x, t2.translation.y, t2.translation.z] + ![t1.translation.x, t1.translation.y, t1.translation.z])
  refine ⟨hu, fun v => ?_, by rw [← e]; rfl⟩
  rw [ha, act_eq h1, act_eq h2, mulVec_add, mulVec_mulVec, add_assoc]

/-- C133: the inverse of a transform undoes it, on both sides. -/
theorem C133_invert {tf : Tf} (h : IsTf tf) (t : TransformMsg ℝ) (ht : Unit t) :
    Unit (invertTransform tf t) ∧ (∀ v, act (invertTransform tf t) (act t v) = v) ∧
    (∀ v, act t (act (invertTransform tf t) v) = v) ∧
    poseToTransform (invertPose tf (poseFromTransform t)) = invertTransform tf t := by
  have hR := toRotationMatrix_rotation ht
  have e : invertTransform tf t = transformFromMatrix tf (rigid (toRotationMatrix (quat t.rotation))ᵀ
      (-((toRotationMatrix (quat t.rotation))ᵀ *ᵥ ![t.translation.x, t.translation.y, t.translation.z]))) := by
    unfold invertTransform
    rw [transformToMatrix_eq h ht, rigid_inv hR]
  have hR' : toRotationMatrix (quat t.rotation) * (toRotationMatrix (quat t.rotation))ᵀ = 1 := mul_eq_one_comm.1 hR.1
  obtain ⟨hu, ha⟩ := fromMatrix_eq h (rotation_transpose hR) (-((toRotationMatrix (quat t.rotation))ᵀ *ᵥ
    ![t.translation.x, t.translation.y, t.translation.z]))
  rw [← e] at hu ha
  refine ⟨hu, fun v => ?_, fun v => ?_, rfl⟩
  · rw [ha, act_eq ht, mulVec_add, mulVec_mulVec, hR.1, one_mulVec, add_neg_cancel_right]
  · rw [act_eq ht, ha, mulVec_add, mulVec_mulVec, hR', one_mulVec, mulVec_neg, mulVec_mulVec, hR', one_mulVec,
      neg_add_cancel_right]

/-- C133: a message, its matrix and back is the message, but perhaps the opposite quaternion; a rigid matrix, its
message and back is the matrix. Poses are the same. -/
theorem C133_matrix {tf : Tf} (h : IsTf tf) :
    (∀ t, Unit t → transformFromMatrix tf (transformToMatrix tf t) = t ∨
      transformFromMatrix tf (transformToMatrix tf t) =
        ⟨t.translation, ⟨-t.rotation.x, -t.rotation.y, -t.rotation.z, -t.rotation.w⟩⟩) ∧
    (∀ R u, IsRotationMatrix R → transformToMatrix tf (transformFromMatrix tf (rigid R u)) = rigid R u) ∧
    (∀ t, poseToMatrix tf (poseFromTransform t) = transformToMatrix tf t) ∧
    (∀ m, poseFromMatrix tf m = poseFromTransform (transformFromMatrix tf m)) ∧
    (∀ t, buildMatrixRos tf t.translation t.rotation = transformToMatrix tf t) := by
  refine ⟨?_, ?_, fun _ => rfl, fun _ => rfl, fun _ => rfl⟩
  · intro t ht
    rw [transformToMatrix_eq h ht]
    obtain ⟨h1, h2⟩ := h.fromMatrix _ ![t.translation.x, t.translation.y, t.translation.z] (toRotationMatrix_rotation ht)
    have e : ∀ q : Quat, tf.quaternionFromMatrix (rigid (toRotationMatrix (quat t.rotation))
        ![t.translation.x, t.translation.y, t.translation.z]) = q →
        transformFromMatrix tf (rigid (toRotationMatrix (quat t.rotation))
          ![t.translation.x, t.translation.y, t.translation.z]) = ⟨t.translation, ⟨q.x, q.y, q.z, q.w⟩⟩ := by
      rintro q rfl
      rfl
    rcases quat_unique h1 ht h2 with hq | hq
    · left; exact e _ hq
    · right; exact e _ hq
  · intro R u hR
    obtain ⟨hu, ha⟩ := fromMatrix_eq h hR u
    obtain ⟨e1, e2⟩ := act_matrix hu ha
    rw [transformToMatrix_eq h hu, e1, e2]

/-- C133: the raw rotation and translation of a matrix built from them are those. -/
theorem C133_raw (R : Matrix (Fin 3) (Fin 3) ℝ) (t : Fin 3 → ℝ) :
    buildRawMatrix R t = rigid R t ∧ extractRawFromMatrix (rigid R t) = (R, t) := by
  refine ⟨(rigid_eq R t).symm, ?_⟩
  unfold extractRawFromMatrix
  congr 1
  · ext i j
    fin_cases i <;> fin_cases j <;> rfl
  · ext i
    fin_cases i <;> rfl

/-- C133: components of messages and back. -/
theorem C133_components (t : TransformMsg ℝ) (p : Conversions.Pose ℝ) (v : Fin 3 → ℝ) (q : Quat) :
    transformFromComponents (componentsFromTransform t).1 (componentsFromTransform t).2 = t ∧
    componentsFromTransform (transformFromComponents v q) = (v, q) ∧
    poseFromComponents (componentsFromPose p).1 (componentsFromPose p).2 = p ∧
    componentsFromPose (poseFromComponents v q) = (v, q) ∧
    poseFromTransform (poseToTransform p) = p ∧ poseToTransform (poseFromTransform t) = t := by
  refine ⟨rfl, ?_, rfl, ?_, rfl, rfl⟩
  · unfold componentsFromTransform transformFromComponents
    congr 1
    ext i
    fin_cases i <;> rfl
  · unfold componentsFromPose poseFromComponents
    congr 1
    ext i
    fin_cases i <;> rfl

/-- C133: inverting a matrix never works. -/
theorem C133_invert_matrix (m : Mat) : invertMatrix m = .error .attributeError := rfl

/-- C133: points are added and subtracted; the first is subtracted from the second. -/
theorem C133_points (p q : Point ℝ) : coords (addPoints p q) = coords p + coords q ∧
    coords (subtractPoints p q) = coords q - coords p := by
  constructor <;> ext i <;> fin_cases i <;> simp [coords, addPoints, subtractPoints] <;> ring

/-- The promise can be kept: the formulas of Eigen do. -/
theorem exists_tf : ∃ tf, IsTf tf := by
  refine ⟨⟨fun q => rigid (toRotationMatrix q) 0, fun m => ofMatrix (extractRawFromMatrix m).1⟩, fun _ _ => rfl, ?_⟩
  intro R t hR
  simp only [(C133_raw R t).2]
  exact ofMatrix_spec hR

/-- The hypotheses are met: half a turn about the third axis and a step, twice. -/
example : ∃ tf, ∀ v, act (composeTransforms tf ⟨⟨1, 2, 3⟩, ⟨0, 0, 1, 0⟩⟩ ⟨⟨1, 2, 3⟩, ⟨0, 0, 1, 0⟩⟩) v =
    act ⟨⟨1, 2, 3⟩, ⟨0, 0, 1, 0⟩⟩ (act ⟨⟨1, 2, 3⟩, ⟨0, 0, 1, 0⟩⟩ v) := by
  obtain ⟨tf, h⟩ := exists_tf
  have hu : Unit ⟨⟨1, 2, 3⟩, ⟨0, 0, 1, 0⟩⟩ := by simp [Unit, quat, Quat.squaredNorm]
  exact ⟨tf, (C133_compose h _ _ hu hu).2.1⟩

/-! ### Quaternions -/

theorem normalize_some {q : Quat} (hq : q ≠ ⟨0, 0, 0, 0⟩) :
    ∃ m : ℝ, 0 < m ∧ m ^ 2 = q.squaredNorm ∧ normalizeQuaternion q = some ⟨q.w / m, q.x / m, q.y / m, q.z / m⟩ := by
  have hp := sq_pos hq
  have e : q.x ^ 2 + q.y ^ 2 + q.z ^ 2 + q.w ^ 2 = q.squaredNorm := by unfold Quat.squaredNorm; ring
  refine ⟨Real.sqrt q.squaredNorm, Real.sqrt_pos.mpr hp, Real.sq_sqrt hp.le, ?_⟩
  unfold normalizeQuaternion
  simp only [e]
  rw [if_neg (Real.sqrt_pos.mpr hp).ne']

/-- C133: normalizing keeps the direction and gives the length one; the quaternion zero gives NaN. -/
theorem C133_normalize (q : Quat) :
    (q ≠ ⟨0, 0, 0, 0⟩ → ∃ n : Quat, normalizeQuaternion q = some n ∧ n.squaredNorm = 1 ∧
      ∃ m : ℝ, 0 < m ∧ q = ⟨m * n.w, m * n.x, m * n.y, m * n.z⟩) ∧
    normalizeQuaternion ⟨0, 0, 0, 0⟩ = none := by
  constructor
  · intro hq
    obtain ⟨m, hm, hsq, h⟩ := normalize_some hq
    refine ⟨_, h, ?_, m, hm, ?_⟩
    · have : q.squaredNorm / m ^ 2 = 1 := by rw [← hsq]; exact div_self (by positivity)
      rw [← this]
      unfold Quat.squaredNorm
      field_simp
    · ext <;> field_simp
  · unfold normalizeQuaternion
    simp

theorem normalize_unit {q : Quat} (hq : q.squaredNorm = 1) : normalizeQuaternion q = some q := by
  have e : q.x ^ 2 + q.y ^ 2 + q.z ^ 2 + q.w ^ 2 = 1 := by rw [← hq]; unfold Quat.squaredNorm; ring
  unfold normalizeQuaternion
  simp [e]

theorem rotate_scaled {n : Quat} (hn : n.squaredNorm = 1) {m : ℝ} (hm : 0 < m) (v : Fin 3 → ℝ) :
    rotateVector ⟨m * n.w, m * n.x, m * n.y, m * n.z⟩ v = rotateVector n v := by
  have hsq : (Quat.mk (m * n.w) (m * n.x) (m * n.y) (m * n.z)).squaredNorm = m ^ 2 := by
    rw [← mul_one (m ^ 2), ← hn]; simp only [Quat.squaredNorm]; ring
  have hinv : (Quat.mk (m * n.w) (m * n.x) (m * n.y) (m * n.z)).inverse =
      ⟨n.w / m, -n.x / m, -n.y / m, -n.z / m⟩ := by
    unfold Quat.inverse
    rw [hsq, if_pos (by positivity)]
    simp only [Quat.mk.injEq]
    refine ⟨?_, ?_, ?_, ?_⟩ <;> field_simp
  have hinv1 : n.inverse = ⟨n.w, -n.x, -n.y, -n.z⟩ := by
    unfold Quat.inverse
    rw [hn, if_pos one_pos]
    simp
  unfold rotateVector
  rw [hinv, hinv1]
  ext i
  fin_cases i <;> simp [Quat.mul] <;> field_simp <;> ring

/-- C133: the product of two quaternions other than zero, of any length, has length one and turns by the second and
then by the first. -/
theorem C133_quaternions (p q : Quat) (hp : p ≠ ⟨0, 0, 0, 0⟩) (hq : q ≠ ⟨0, 0, 0, 0⟩) :
    ∃ r, composeQuaternions p q = some r ∧ r.squaredNorm = 1 ∧
      ∀ v, rotateVector r v = rotateVector p (rotateVector q v) := by
  obtain ⟨a, ha, han, m, hm, hpa⟩ := (C133_normalize p).1 hp
  obtain ⟨b, hb, hbn, k, hk, hqb⟩ := (C133_normalize q).1 hq
  have hr : (a.mul b).squaredNorm = 1 := by rw [mul_sq, han, hbn, mul_one]
  refine ⟨a.mul b, ?_, hr, fun v => ?_⟩
  · unfold composeQuaternions
    rw [ha, hb, ← normalize_unit hr]
    simp only [bind, Option.bind]
    congr 1
    ext <;> simp only [Quat.mul] <;> ring
  · rw [hpa, hqb, rotate_scaled han hm, rotate_scaled hbn hk, rotateVector_matrix hr, rotateVector_matrix han,
      rotateVector_matrix hbn, toRotationMatrix_mul han hbn, mulVec_mulVec]

theorem length_unit {u : Fin 3 → ℝ} (hu : u 0 ^ 2 + u 1 ^ 2 + u 2 ^ 2 = 1) : Projection.length u = 1 := by
  have h : Projection.length u ^ 2 = 1 := by
    rw [Projection.length_eq, Projection.norm_sq, vec3_dotProduct]; linarith
  have h0 : 0 ≤ Projection.length u := by
    rw [Projection.length_eq]; exact Real.sqrt_nonneg _
  nlinarith

/-- C133: the quaternion of an axis other than zero and an angle turns by the angle about the axis; the axis may have any
length. An axis zero or one which does not have three coordinates gives the identity. -/
theorem C133_axis_angle (x y z angle : ℝ) (h : 0 < x ^ 2 + y ^ 2 + z ^ 2) :
    ∃ q, quaternionFromAxisAngle [x, y, z] angle = some q ∧ q.squaredNorm = 1 ∧
      ∀ v, rotateVector q v = turn ((1 / Real.sqrt (x ^ 2 + y ^ 2 + z ^ 2)) • ![x, y, z]) angle v := by
  obtain ⟨m, hm⟩ : ∃ m, m = Real.sqrt (x ^ 2 + y ^ 2 + z ^ 2) := ⟨_, rfl⟩
  have hm0 : 0 < m := hm ▸ Real.sqrt_pos.mpr h
  have hsq : m ^ 2 = x ^ 2 + y ^ 2 + z ^ 2 := by rw [hm]; exact Real.sq_sqrt h.le
  have hu : (x / m) ^ 2 + (y / m) ^ 2 + (z / m) ^ 2 = 1 := by
    field_simp; linarith
  rw [← hm]
  have e : ((1 / m) • ![x, y, z] : Fin 3 → ℝ) = ![x / m, y / m, z / m] := by
    ext i; fin_cases i <;> simp <;> ring
  rw [e]
  have hq : (Quat.mk (Real.cos (angle / 2)) (Real.sin (angle / 2) * (x / m)) (Real.sin (angle / 2) * (y / m))
      (Real.sin (angle / 2) * (z / m))).squaredNorm = 1 := by
    simp only [Quat.squaredNorm]
    linear_combination Real.sin_sq_add_cos_sq (angle / 2) + Real.sin (angle / 2) ^ 2 * hu
  refine ⟨_, ?_, hq, fun v => ?_⟩
  · rw [← normalize_unit hq]
    unfold quaternionFromAxisAngle normalizeVector3
    simp only [← hm, hm0, not_true_eq_false, if_false]
    rw [show angle * (0.5 : ℝ) = angle / 2 by norm_num; ring]
    rfl
  · exact C85_axis_angle ![x / m, y / m, z / m] (length_unit hu) angle v

theorem C133_axis_zero (angle : ℝ) (axis : List ℝ) (h : axis = [0, 0, 0] ∨ axis.length ≠ 3) :
    quaternionFromAxisAngle axis angle = some ⟨1, 0, 0, 0⟩ := by
  have : normalizeVector3 axis = .error .assertionError := by
    unfold normalizeVector3
    split
    · rcases h with h | h
      · obtain ⟨rfl, rfl, rfl⟩ : _ ∧ _ ∧ _ := by simpa using h
        simp
      · simp at h
    · rfl
  unfold quaternionFromAxisAngle
  rw [this]

/-- C133: the angle and the axis of a quaternion other than zero: the axis has length one, the angle is between zero and
a turn, and the quaternion turns by the angle about the axis. Closer to the identity than a billionth the angle is
zero. -/
theorem C133_axis (q : Quat) (hq : q ≠ ⟨0, 0, 0, 0⟩) :
    ∃ a u, axisFromQuaternion q = some (a, u) ∧ 0 ≤ a ∧ a ≤ 2 * Real.pi ∧ u 0 ^ 2 + u 1 ^ 2 + u 2 ^ 2 = 1 ∧
      ((∀ v, rotateVector q v = turn u a v) ∨
        (a = 0 ∧ (q.x ^ 2 + q.y ^ 2 + q.z ^ 2 ≤ (1 / 10 ^ 9) ^ 2 * q.squaredNorm))) := by
  obtain ⟨n, hn, hnn, m, hm, hqn⟩ := (C133_normalize q).1 hq
  have hw : n.w ^ 2 ≤ 1 := by rw [← hnn]; unfold Quat.squaredNorm; nlinarith [sq_nonneg n.x, sq_nonneg n.y, sq_nonneg n.z]
  have hw' := abs_le.mp (sq_le_one_iff_abs_le_one n.w |>.mp hw)
  have hhalf : Real.arccos n.w * 2 * (0.5 : ℝ) = Real.arccos n.w := by norm_num; ring
  have hs0 : 0 ≤ Real.sin (Real.arccos n.w) := Real.sin_nonneg_of_nonneg_of_le_pi (Real.arccos_nonneg _) (Real.arccos_le_pi _)
  have hs2 : Real.sin (Real.arccos n.w) ^ 2 = n.x ^ 2 + n.y ^ 2 + n.z ^ 2 := by
    rw [Real.sin_arccos, Real.sq_sqrt (by linarith)]
    unfold Quat.squaredNorm at hnn
    linarith
  obtain ⟨s, hs⟩ : ∃ s, s = Real.sin (Real.arccos n.w) := ⟨_, rfl⟩
  have heq : axisFromQuaternion q = if |s| > 0.000000001 then
      some (Real.arccos n.w * 2, ![n.x / s, n.y / s, n.z / s]) else some (0, ![0, 0, 1]) := by
    unfold axisFromQuaternion
    rw [hn]
    simp only [bind, Option.bind, hhalf, ← hs]
  rw [heq]
  rw [← hs] at hs0 hs2
  split
  · rename_i hgt
    rw [abs_of_nonneg hs0] at hgt
    have hpos : 0 < s := lt_trans (by norm_num) hgt
    refine ⟨_, _, rfl, by linarith [Real.arccos_nonneg n.w], by linarith [Real.arccos_le_pi n.w], ?_, Or.inl fun v => ?_⟩
    · simp only [cons_val_zero, cons_val_one, cons_val]
      field_simp
      linarith
    · have hu : (n.x / s) ^ 2 + (n.y / s) ^ 2 + (n.z / s) ^ 2 = 1 := by field_simp; linarith
      have := C85_axis_angle ![n.x / s, n.y / s, n.z / s] (length_unit hu) (Real.arccos n.w * 2) v
      unfold turn
      rw [← this, hqn, rotate_scaled hnn hm]
      congr 1
      rw [show Real.arccos n.w * 2 / 2 = Real.arccos n.w by ring, ← hs, Real.cos_arccos hw'.1 hw'.2]
      ext <;> simp <;> field_simp
  · rename_i hle
    refine ⟨_, _, rfl, le_rfl, by positivity, by simp, Or.inr ⟨rfl, ?_⟩⟩
    rw [abs_of_nonneg hs0] at hle
    have hle : s ≤ 1 / 10 ^ 9 := by norm_num at hle ⊢; exact hle
    have h1 : s ^ 2 ≤ (1 / 10 ^ 9) ^ 2 := pow_le_pow_left₀ hs0 hle 2
    have h2 : q.x ^ 2 + q.y ^ 2 + q.z ^ 2 = m ^ 2 * s ^ 2 := by rw [hs2, hqn]; ring
    have h3 : q.squaredNorm = m ^ 2 := by
      rw [hqn, ← mul_one (m ^ 2), ← hnn]; simp only [Quat.squaredNorm]; ring
    rw [h2, h3]
    nlinarith [sq_nonneg m]

theorem angle_eq (a b : Quat) :
    |a.x * b.x + a.y * b.y + a.z * b.z + a.w * b.w| = |dot a b| := by
  congr 1; unfold dot; ring

/-- C133: the angle between two quaternions other than zero, of any length, is the angle of the rotation from one to the
other, or zero where that is less than a thirtieth. -/
theorem C133_angle (p q : Quat) (hp : p.squaredNorm = 1) (hq : q.squaredNorm = 1) (m k : ℝ) (hm : 0 < m) (hk : 0 < k) :
    ∃ a, angleBetweenQuaternions ⟨m * p.w, m * p.x, m * p.y, m * p.z⟩ ⟨k * q.w, k * q.x, k * q.y, k * q.z⟩ = some a ∧
      (a = distanceRotation (toRotationMatrix p) (toRotationMatrix q) ∨
        (a = 0 ∧ distanceRotation (toRotationMatrix p) (toRotationMatrix q) ≤ 1 / 30)) := by
  have norm : ∀ (n : Quat) (c : ℝ), n.squaredNorm = 1 → 0 < c →
      normalizeQuaternion ⟨c * n.w, c * n.x, c * n.y, c * n.z⟩ = some n := by
    intro n c hn hc
    have e : (c * n.x) ^ 2 + (c * n.y) ^ 2 + (c * n.z) ^ 2 + (c * n.w) ^ 2 = c ^ 2 := by
      rw [← mul_one (c ^ 2), ← hn]; simp only [Quat.squaredNorm]; ring
    unfold normalizeQuaternion
    simp only [e, Real.sqrt_sq hc.le]
    rw [if_neg hc.ne']
    congr 1
    ext <;> simp <;> field_simp
  refine ⟨angleOf |dot p q|, ?_, ?_⟩
  · unfold angleBetweenQuaternions
    rw [norm p m hp hm, norm q k hq hk]
    simp only [bind, Option.bind, angle_eq p q]
    rfl
  · unfold angleOf
    rw [dist_rot hp hq]
    split
    · left
      rw [sq_abs, arccos_double (abs_dot_le hp hq)]
    · rename_i h
      right
      refine ⟨rfl, ?_⟩
      have h : (0.9999 : ℝ) ≤ |dot p q| := not_lt.mp h
      have h1 : Real.cos (1 / 60) ≤ 0.9999 := by
        have hb := Real.cos_lt_one_div_sqrt_sq_add_one (x := 1 / 60) (by linarith [Real.pi_pos]) (by linarith [Real.two_le_pi]) (by norm_num)
        refine hb.le.trans ?_
        rw [div_le_iff₀ (Real.sqrt_pos.mpr (by norm_num))]
        rw [show (1 : ℝ) = 0.9999 * (1 / 0.9999) by norm_num]
        gcongr
        apply Real.le_sqrt_of_sq_le
        norm_num
      have h2 : Real.arccos |dot p q| ≤ 1 / 60 := by
        calc Real.arccos |dot p q| ≤ Real.arccos (Real.cos (1 / 60)) := Real.arccos_le_arccos (h1.trans h)
          _ = 1 / 60 := Real.arccos_cos (by norm_num) (by linarith [Real.two_le_pi])
      linarith

/-- C133: the version for messages is wrong: the angle between the identity and itself is half a turn. -/
theorem C133_angle_ros_wrong : angleBetweenQuaternionsRos ⟨1, 0, 0, 0⟩ ⟨1, 0, 0, 0⟩ = some Real.pi := by
  have : normalizeQuaternion ⟨1, 0, 0, 0⟩ = some ⟨1, 0, 0, 0⟩ := normalize_unit (by simp [Quat.squaredNorm])
  unfold angleBetweenQuaternionsRos
  rw [this]
  simp only [bind, Option.bind, pure]
  unfold angleOf
  norm_num

/-- C133: the version for messages is right for a first quaternion whose third and fourth parts agree, and for
every second one: it takes one for the other. -/
theorem C133_angle_ros (p q : Quat) (h : p.z = p.w) : angleBetweenQuaternionsRos p q = angleBetweenQuaternions p q := by
  unfold angleBetweenQuaternionsRos angleBetweenQuaternions
  by_cases hp : p = ⟨0, 0, 0, 0⟩
  · have : normalizeQuaternion p = none := by rw [hp]; simp [normalizeQuaternion]
    rw [this]; rfl
  · obtain ⟨m, -, -, hm⟩ := normalize_some hp
    rw [hm]
    simp only [bind, Option.bind, h]

/-- C133: the norm of a translation is its length -/
theorem C133_translation_norm (t : Vector3 ℝ) :
    0 ≤ translationNorm t ∧ translationNorm t ^ 2 = t.x ^ 2 + t.y ^ 2 + t.z ^ 2 := by
  unfold translationNorm
  exact ⟨Real.sqrt_nonneg _, Real.sq_sqrt (by positivity)⟩

example : translationNorm ⟨2, 3, 6⟩ = 7 := by
  have h := C133_translation_norm ⟨2, 3, 6⟩
  norm_num at h
  nlinarith [h.1, h.2]

/-! ### Denavit–Hartenberg parameters -/

/-- A matrix of the four steps: turn about and move along the third axis, move along and turn about the first -/
noncomputable def dh (d a theta alpha : ℝ) : Mat :=
  rigid (aboutZ theta) 0 * rigid 1 ![0, 0, d] * rigid 1 ![a, 0, 0] * rigid (aboutX alpha) 0

/-- C133: the matrix of Denavit–Hartenberg parameters has the angle `alpha` in the place of the length `a`, and does not
depend on `a`. -/
theorem C133_dh (d a theta alpha : ℝ) : buildMatrixFromDH d a theta alpha = dh d alpha theta alpha := by
  unfold dh
  rw [rigid_mul, rigid_mul, rigid_mul, rigid_eq]
  unfold buildMatrixFromDH aboutZ aboutX
  ext i j
  fin_cases i <;> fin_cases j <;> simp [Matrix.mul_apply, Fin.sum_univ_three]

theorem C133_dh_wrong : buildMatrixFromDH 0 1 0 0 ≠ dh 0 1 0 0 := by
  rw [C133_dh]
  intro h
  have := congrFun (congrFun h 0) 3
  unfold dh at this
  simp only [rigid_eq] at this
  simp [aboutZ] at this

/-! ### Spherical coordinates -/

/-- C133: a point at least a millionth away from the origin, or at the origin, is found again from its spherical
coordinates. -/
theorem C133_spherical (x y z : ℝ) :
    let s := vector3ToSpherical x y z
    (1e-6 < Real.sqrt (x ^ 2 + y ^ 2 + z ^ 2) ∨ (x = 0 ∧ y = 0 ∧ z = 0) → sphericalToVector3 s.1 s.2.1 s.2.2 = (x, y, z)) ∧
    (¬ 1e-6 < Real.sqrt (x ^ 2 + y ^ 2 + z ^ 2) →
      sphericalToVector3 s.1 s.2.1 s.2.2 = (0, 0, Real.sqrt (x ^ 2 + y ^ 2 + z ^ 2))) := by
  intro s
  obtain ⟨r, hr⟩ : ∃ r, r = Real.sqrt (x ^ 2 + y ^ 2 + z ^ 2) := ⟨_, rfl⟩
  have small : ¬ 1e-6 < r → sphericalToVector3 s.1 s.2.1 s.2.2 = (0, 0, r) := by
    intro h
    have hs : s = (r, atan2 y x, 0) := by
      show vector3ToSpherical x y z = _
      unfold vector3ToSpherical
      simp only [← hr]
      rw [if_neg h]
    rw [hs]
    unfold sphericalToVector3
    simp
  rw [← hr]
  refine ⟨fun h => ?_, small⟩
  by_cases hgt : 1e-6 < r
  · have hpos : 0 < r := lt_trans (by norm_num) hgt
    have hsq : r ^ 2 = x ^ 2 + y ^ 2 + z ^ 2 := by rw [hr]; exact Real.sq_sqrt (by positivity)
    have hs : s = (r, atan2 y x, Real.arccos (z / r)) := by
      show vector3ToSpherical x y z = _
      unfold vector3ToSpherical
      simp only [← hr]
      rw [if_pos hgt]
    rw [hs]
    unfold sphericalToVector3
    simp only
    have hz : |z / r| ≤ 1 := by
      rw [abs_div, abs_of_pos hpos, div_le_one hpos, hr, ← Real.sqrt_sq_eq_abs]
      exact Real.sqrt_le_sqrt (by nlinarith [sq_nonneg x, sq_nonneg y])
    have hsin : r * Real.sin (Real.arccos (z / r)) = Real.sqrt (x ^ 2 + y ^ 2) := by
      rw [Real.sin_arccos]
      nth_rewrite 1 [← Real.sqrt_sq hpos.le]
      rw [← Real.sqrt_mul (sq_nonneg _)]
      congr 1
      field_simp
      linarith
    obtain ⟨e1, e2⟩ := atan2_scaled x y
    rw [hsin, ← e1, ← e2, Real.cos_arccos (abs_le.mp hz).1 (abs_le.mp hz).2, mul_div_cancel₀ _ hpos.ne']
  · rcases h with h | ⟨rfl, rfl, rfl⟩
    · exact absurd h hgt
    · rw [small hgt, hr]; simp

/-- C133: spherical coordinates with a radius of more than a millionth, an angle in (-pi, pi] and an inclination
strictly between zero and pi are found again from their point. -/
theorem C133_spherical_back (r phi theta : ℝ) (hr : 1e-6 < r) (h1 : -Real.pi < phi) (h2 : phi ≤ Real.pi) (h3 : 0 < theta)
    (h4 : theta < Real.pi) :
    let p := sphericalToVector3 r phi theta
    vector3ToSpherical p.1 p.2.1 p.2.2 = (r, phi, theta) := by
  intro p
  have hpos : 0 < r := lt_trans (by norm_num) hr
  have hs : 0 < Real.sin theta := Real.sin_pos_of_pos_of_lt_pi h3 h4
  have hn : Real.sqrt (p.1 ^ 2 + p.2.1 ^ 2 + p.2.2 ^ 2) = r := by
    have : p.1 ^ 2 + p.2.1 ^ 2 + p.2.2 ^ 2 = r ^ 2 := by
      show (r * Real.sin theta * Real.cos phi) ^ 2 + (r * Real.sin theta * Real.sin phi) ^ 2 + (r * Real.cos theta) ^ 2 = _
      linear_combination (r ^ 2 * Real.sin theta ^ 2) * Real.sin_sq_add_cos_sq phi +
        r ^ 2 * Real.sin_sq_add_cos_sq theta
    rw [this, Real.sqrt_sq hpos.le]
  unfold vector3ToSpherical
  simp only [hn]
  rw [if_pos hr]
  have e1 : atan2 p.2.1 p.1 = phi := atan2_polar (mul_pos hpos hs) h1 h2
  have e2 : p.2.2 / r = Real.cos theta := by
    show r * Real.cos theta / r = _
    exact mul_div_cancel_left₀ _ hpos.ne'
  rw [e1, e2, Real.arccos_cos h3.le h4.le]

/-- C133: the transform made of Denavit–Hartenberg parameters is rigid and has their matrix, with the angle `alpha` in
the place of the length. -/
theorem C133_dh_transform {tf : Tf} (h : IsTf tf) (d a theta alpha : ℝ) :
    Unit (transformFromDH tf d a theta alpha) ∧
    transformToMatrix tf (transformFromDH tf d a theta alpha) = dh d alpha theta alpha := by
  have hR : IsRotationMatrix (aboutZ theta * 1 * 1 * aboutX alpha) := by
    rw [Matrix.mul_one, Matrix.mul_one]
    refine rotation_mul ?_ (aboutX_rotation alpha)
    rw [← matrix_z]; exact toRotationMatrix_rotation (sq_z theta)
  have e : dh d alpha theta alpha = rigid (aboutZ theta * 1 * 1 * aboutX alpha)
      ((aboutZ theta * 1 * 1) *ᵥ 0 + ((aboutZ theta * 1) *ᵥ ![alpha, 0, 0] + (aboutZ theta *ᵥ ![0, 0, d] + 0))) := by
    unfold dh
    rw [rigid_mul, rigid_mul, rigid_mul]
  unfold transformFromDH
  rw [C133_dh, e]
  exact ⟨(fromMatrix_eq h hR _).1, (C133_matrix h).2.1 _ _ hR⟩

/-- C133: `ComposeMatrices` on the matrices of two transforms is `ComposeTransforms`. -/
theorem C133_compose_matrices (tf : Tf) (t1 t2 : TransformMsg ℝ) (R S : Matrix (Fin 3) (Fin 3) ℝ) (u v : Fin 3 → ℝ) :
    transformFromMatrix tf (composeMatrices (transformToMatrix tf t1) (transformToMatrix tf t2)) =
      composeTransforms tf t1 t2 ∧
    composeMatrices (rigid R u) (rigid S v) = rigid (R * S) (R *ᵥ v + u) := ⟨rfl, rigid_mul R S u v⟩

end Verif.TransformationHelper
