import Mathlib.Geometry.Euclidean.Angle.Unoriented.TriangleInequality
import Mathlib.Analysis.SpecialFunctions.Trigonometric.Bounds
import Verif.Lemmas.Quaternion
import Verif.Spec.Pose
import Verif.Spec.Projection
import Verif.Props.Angles

/-!
# Distances between poses (C89), interpolation (C90) and roll, pitch and yaw (C91)
-/
set_option linter.unusedSimpArgs false
namespace Verif.Pose
open Matrix Verif.Kinematics Verif.Angles

/-! ### Lemmas -/

theorem arccos_double {d : ℝ} (h : |d| ≤ 1) : Real.arccos (2 * d ^ 2 - 1) = 2 * Real.arccos |d| := by
  have h0 := abs_nonneg d
  have hc := Real.cos_arccos (by linarith) h
  have h1 := Real.arccos_nonneg |d|
  have h2 : Real.arccos |d| ≤ Real.pi / 2 := Real.arccos_le_pi_div_two.2 h0
  rw [← sq_abs, ← hc, ← Real.cos_two_mul, Real.arccos_cos (by linarith) (by linarith), hc]

theorem dist_rot {p q : Quat} (hp : p.squaredNorm = 1) (hq : q.squaredNorm = 1) :
    distanceRotation (toRotationMatrix p) (toRotationMatrix q) = 2 * Real.arccos |dot p q| := by
  unfold distanceRotation
  rw [trace_products hp hq, ← arccos_double (abs_dot_le hp hq)]
  congr 1
  ring

theorem rotation_mul {R S : Mat3} (hR : IsRotationMatrix R) (hS : IsRotationMatrix S) : IsRotationMatrix (R * S) := by
  constructor
  · rw [transpose_mul, Matrix.mul_assoc, ← Matrix.mul_assoc Rᵀ, hR.1, Matrix.one_mul, hS.1]
  · rw [det_mul, hR.2, hS.2, mul_one]

theorem rotation_transpose {R : Mat3} (hR : IsRotationMatrix R) : IsRotationMatrix Rᵀ := by
  constructor
  · rw [transpose_transpose]; exact mul_eq_one_comm.1 hR.1
  · rw [det_transpose, hR.2]

theorem turns_trace {M : Mat3} {u : Fin 3 → ℝ} {b : ℝ} (h : TurnsBy M u b) : M.trace = 1 + 2 * Real.cos b := by
  obtain ⟨hu, hv⟩ := h
  have e : ∀ i, M i i = Real.cos b + (1 - Real.cos b) * u i ^ 2 := by
    intro i
    have := congrFun (hv (Pi.single i 1)) i
    rw [mulVec_single_one] at this
    simp only [col_apply] at this
    rw [this]
    unfold turn
    fin_cases i <;>
      simp only [cross_apply, Fin.sum_univ_three, Pi.add_apply, Pi.smul_apply, smul_eq_mul, Fin.zero_eta, Fin.mk_one,
        Fin.reduceFinMk, cons_val_zero, cons_val_one, cons_val, Pi.single_apply] <;> simp <;> ring
  rw [Fin.sum_univ_three] at hu
  rw [trace, Fin.sum_univ_three]
  simp only [diag_apply, e]
  linear_combination (1 - Real.cos b) * hu

theorem neg_matrix (q : Quat) : toRotationMatrix ⟨-q.w, -q.x, -q.y, -q.z⟩ = toRotationMatrix q := by
  unfold toRotationMatrix
  simp

/-- A rotation matrix turns by the angle whose cosine its trace gives -/
theorem exists_turn {M : Mat3} (hM : IsRotationMatrix M) :
    ∃ u, TurnsBy M u (Real.arccos ((M.trace - 1) / 2)) := by
  -- a quaternion with a scalar part that is not negative
  obtain ⟨q, hq, hqM, hw⟩ : ∃ q : Quat, q.squaredNorm = 1 ∧ toRotationMatrix q = M ∧ 0 ≤ q.w := by
    obtain ⟨h1, h2⟩ := ofMatrix_spec hM
    by_cases hw : 0 ≤ (ofMatrix M).w
    · exact ⟨_, h1, h2, hw⟩
    · refine ⟨⟨-(ofMatrix M).w, -(ofMatrix M).x, -(ofMatrix M).y, -(ofMatrix M).z⟩, ?_, ?_, ?_⟩
      · rw [← h1]; simp [Quat.squaredNorm]
      · rw [neg_matrix, h2]
      · simp only; linarith
  have hone : toRotationMatrix ⟨1, 0, 0, 0⟩ = 1 := by
    ext i j; fin_cases i <;> fin_cases j <;> simp [toRotationMatrix]
  have hs1 : (⟨1, 0, 0, 0⟩ : Quat).squaredNorm = 1 := by simp [Quat.squaredNorm]
  have ha : Real.arccos ((M.trace - 1) / 2) = 2 * Real.arccos q.w := by
    have := dist_rot hq hs1
    unfold distanceRotation at this
    rw [hone, transpose_one, Matrix.mul_one, hqM] at this
    rw [this]
    simp [dot, abs_of_nonneg hw]
  rw [ha]
  have hw1 : q.w ≤ 1 := by unfold Quat.squaredNorm at hq; nlinarith [sq_nonneg q.x, sq_nonneg q.y, sq_nonneg q.z]
  have hcos := Real.cos_arccos (by linarith) hw1
  have hsin : 0 ≤ Real.sin (Real.arccos q.w) :=
    Real.sin_nonneg_of_nonneg_of_le_pi (Real.arccos_nonneg _) (Real.arccos_le_pi _)
  have hsc := Real.sin_sq_add_cos_sq (Real.arccos q.w)
  rw [hcos] at hsc
  generalize hα : Real.arccos q.w = α at *
  by_cases h0 : Real.sin α = 0
  · -- no rotation
    rw [h0] at hsc
    have hw1 : q.w = 1 := by nlinarith
    have hα0 : α = 0 := by rw [← hα, hw1, Real.arccos_one]
    have hx : q.x ^ 2 + q.y ^ 2 + q.z ^ 2 = 0 := by unfold Quat.squaredNorm at hq; rw [hw1] at hq; linarith
    have hx0 : q.x = 0 := by nlinarith [sq_nonneg q.x, sq_nonneg q.y, sq_nonneg q.z]
    have hy0 : q.y = 0 := by nlinarith [sq_nonneg q.x, sq_nonneg q.y, sq_nonneg q.z]
    have hz0 : q.z = 0 := by nlinarith [sq_nonneg q.x, sq_nonneg q.y, sq_nonneg q.z]
    have : q = ⟨1, 0, 0, 0⟩ := by ext <;> assumption
    rw [← hqM, this, hone, hα0]
    refine ⟨![1, 0, 0], by simp [Fin.sum_univ_three], fun v => ?_⟩
    simp [turn]
  · have hpos : 0 < Real.sin α := lt_of_le_of_ne hsin (Ne.symm h0)
    have huu : ∑ i, (![q.x / Real.sin α, q.y / Real.sin α, q.z / Real.sin α] : Fin 3 → ℝ) i ^ 2 = 1 := by
      rw [Fin.sum_univ_three]
      simp only [cons_val_zero, cons_val_one, cons_val]
      unfold Quat.squaredNorm at hq
      field_simp
      linarith
    refine ⟨![q.x / Real.sin α, q.y / Real.sin α, q.z / Real.sin α], huu, fun v => ?_⟩
    have hl : Projection.length (![q.x / Real.sin α, q.y / Real.sin α, q.z / Real.sin α] : Fin 3 → ℝ) = 1 := by
      unfold Projection.length
      rw [huu, Real.sqrt_one]
    have key := C85_axis_angle _ hl (2 * α) v
    have e : 2 * α / 2 = α := by ring
    rw [e, hcos] at key
    simp only [cons_val_zero, cons_val_one, cons_val] at key
    rw [mul_div_cancel₀ _ h0, mul_div_cancel₀ _ h0, mul_div_cancel₀ _ h0] at key
    rw [← hqM, ← rotateVector_matrix hq]
    exact key

/-! ### C89: distances -/

/-- C89: the distance of two rotation matrices is the smallest angle of a rotation that takes one to the other, and it
is at most a half turn. -/
theorem C89_rotation_angle (R S : Mat3) (hR : IsRotationMatrix R) (hS : IsRotationMatrix S) :
    0 ≤ distanceRotation R S ∧ distanceRotation R S ≤ Real.pi ∧
    (∃ u, TurnsBy (R * Sᵀ) u (distanceRotation R S)) ∧
    ∀ u b, TurnsBy (R * Sᵀ) u b → distanceRotation R S ≤ |b| := by
  refine ⟨Real.arccos_nonneg _, Real.arccos_le_pi _, ?_, ?_⟩
  · exact exists_turn (rotation_mul hR (rotation_transpose hS))
  · intro u b h
    have ht := turns_trace h
    unfold distanceRotation
    rw [ht, show (1 + 2 * Real.cos b - 1) / 2 = Real.cos |b| by rw [Real.cos_abs]; ring]
    by_cases hb : |b| ≤ Real.pi
    · rw [Real.arccos_cos (abs_nonneg b) hb]
    · exact (Real.arccos_le_pi _).trans (not_le.1 hb).le

/-- The parts as a vector of a Euclidean space -/
noncomputable def euclid (q : Quat) : EuclideanSpace ℝ (Fin 4) := !₂[q.w, q.x, q.y, q.z]

theorem euclid_inner (p q : Quat) : inner ℝ (euclid p) (euclid q) = dot p q := by
  simp [euclid, PiLp.inner_apply, Fin.sum_univ_four, dot]; ring

theorem euclid_norm {q : Quat} (hq : q.squaredNorm = 1) : ‖euclid q‖ = 1 := by
  rw [EuclideanSpace.norm_eq]
  unfold Quat.squaredNorm at hq
  simp [euclid, Fin.sum_univ_four, hq]

theorem euclid_angle {p q : Quat} (hp : p.squaredNorm = 1) (hq : q.squaredNorm = 1) :
    InnerProductGeometry.angle (euclid p) (euclid q) = Real.arccos (dot p q) := by
  unfold InnerProductGeometry.angle
  rw [euclid_inner, euclid_norm hp, euclid_norm hq]; norm_num

/-- The other quaternion of the same rotation -/
def neg (q : Quat) : Quat := ⟨-q.w, -q.x, -q.y, -q.z⟩

theorem neg_sq (q : Quat) : (neg q).squaredNorm = q.squaredNorm := by simp [neg, Quat.squaredNorm]
theorem dot_neg (p q : Quat) : dot p (neg q) = -dot p q := by simp only [neg, dot]; ring
theorem neg_dot (p q : Quat) : dot (neg p) q = -dot p q := by simp only [neg, dot]; ring
theorem dot_comm (p q : Quat) : dot p q = dot q p := by simp only [dot]; ring
theorem dot_self {q : Quat} (hq : q.squaredNorm = 1) : dot q q = 1 := by
  rw [← hq]; simp only [dot, Quat.squaredNorm]; ring

theorem arccos_triangle {p q r : Quat} (hp : p.squaredNorm = 1) (hq : q.squaredNorm = 1) (hr : r.squaredNorm = 1) :
    Real.arccos |dot p r| ≤ Real.arccos |dot p q| + Real.arccos |dot q r| := by
  obtain ⟨q', hq', e1, e1'⟩ : ∃ q' : Quat, q'.squaredNorm = 1 ∧ dot p q' = |dot p q| ∧ |dot q' r| = |dot q r| := by
    rcases abs_choice (dot p q) with h | h
    · exact ⟨q, hq, h.symm, rfl⟩
    · exact ⟨neg q, by rw [neg_sq, hq], by rw [dot_neg, h], by rw [neg_dot, abs_neg]⟩
  obtain ⟨r', hr', e2, e2'⟩ : ∃ r' : Quat, r'.squaredNorm = 1 ∧ dot q' r' = |dot q r| ∧ |dot p r'| = |dot p r| := by
    rw [← e1']
    rcases abs_choice (dot q' r) with h | h
    · exact ⟨r, hr, h.symm, rfl⟩
    · exact ⟨neg r, by rw [neg_sq, hr], by rw [dot_neg, h], by rw [dot_neg, abs_neg]⟩
  have key := InnerProductGeometry.angle_le_angle_add_angle (euclid p) (euclid q') (euclid r')
  rw [euclid_angle hp hr', euclid_angle hp hq', euclid_angle hq' hr', e1, e2] at key
  rw [← e2']
  exact (Real.arccos_le_arccos (le_abs_self _)).trans key

/-- C89: the distance of rotation matrices is a metric. -/
theorem C89_rotation_metric (R S T : Mat3) (hR : IsRotationMatrix R) (hS : IsRotationMatrix S)
    (hT : IsRotationMatrix T) :
    (distanceRotation R S = 0 ↔ R = S) ∧ distanceRotation R S = distanceRotation S R ∧
    distanceRotation R T ≤ distanceRotation R S + distanceRotation S T := by
  refine ⟨⟨fun h => ?_, fun h => ?_⟩, ?_, ?_⟩
  · obtain ⟨u, -, hv⟩ := (C89_rotation_angle R S hR hS).2.2.1
    rw [h] at hv
    have h1 : R * Sᵀ = 1 := by
      apply ext_of_mulVec_single
      intro i
      rw [hv, one_mulVec]
      simp [turn]
    calc R = R * (Sᵀ * S) := by rw [hS.1, Matrix.mul_one]
      _ = S := by rw [← Matrix.mul_assoc, h1, Matrix.one_mul]
  · subst h
    unfold distanceRotation
    rw [mul_eq_one_comm.1 hR.1]
    simp [trace_one]
    norm_num
  · unfold distanceRotation
    rw [← trace_transpose, transpose_mul, transpose_transpose]
  · obtain ⟨h1, h2⟩ := ofMatrix_spec hR
    obtain ⟨h3, h4⟩ := ofMatrix_spec hS
    obtain ⟨h5, h6⟩ := ofMatrix_spec hT
    rw [← h2, ← h4, ← h6, dist_rot h1 h5, dist_rot h1 h3, dist_rot h3 h5]
    linarith [arccos_triangle h1 h3 h5]

theorem epsilon_angle : Real.arccos (1 - epsilon) ≤ 1 / 20000000 := by
  have hpi := Real.pi_le_four
  have hpi' := Real.two_le_pi
  have h1 : Real.cos (1 / 20000000) ≤ 1 - epsilon := by
    have h := Real.cos_le_one_sub_mul_cos_sq (x := 1 / 20000000)
      (by rw [abs_of_pos (by norm_num)]; linarith)
    have h2 : epsilon ≤ 2 / Real.pi ^ 2 * (1 / 20000000) ^ 2 := by
      unfold epsilon
      have : (1 : ℝ) / 8 ≤ 2 / Real.pi ^ 2 := by
        rw [div_le_div_iff₀ (by norm_num) (by positivity)]
        nlinarith
      calc (1 : ℝ) / 2 ^ 52 ≤ 1 / 8 * (1 / 20000000) ^ 2 := by norm_num
        _ ≤ _ := by gcongr
    linarith
  calc Real.arccos (1 - epsilon) ≤ Real.arccos (Real.cos (1 / 20000000)) := Real.arccos_le_arccos h1
    _ = 1 / 20000000 := Real.arccos_cos (by norm_num) (by linarith)

theorem distanceQuat_eq {p q : Quat} (hp : p.squaredNorm = 1) (hq : q.squaredNorm = 1) :
    distanceQuat p q = if |dot p q| < 1 - epsilon then
      distanceRotation (toRotationMatrix p) (toRotationMatrix q) else 0 := by
  unfold distanceQuat
  rw [dist_rot hp hq, ← arccos_double (abs_dot_le hp hq)]
  have e : 2 * (|dot p q| * |dot p q|) - 1 = 2 * dot p q ^ 2 - 1 := by rw [← sq, sq_abs]
  rw [← e]
  rfl

/-- C89: for unit quaternions the distance does not depend on the signs nor on the order, and is the distance of their
rotation matrices, but for rotations closer than a ten millionth of a radian, where it may be zero instead. -/
theorem C89_quaternion (p q : Quat) (hp : p.squaredNorm = 1) (hq : q.squaredNorm = 1) :
    (distanceQuat p q = distanceRotation (toRotationMatrix p) (toRotationMatrix q) ∨
      (distanceQuat p q = 0 ∧
        distanceRotation (toRotationMatrix p) (toRotationMatrix q) ≤ 1 / 10000000)) ∧
    distanceQuat p q = distanceQuat q p ∧
    distanceQuat ⟨-p.w, -p.x, -p.y, -p.z⟩ q = distanceQuat p q := by
  refine ⟨?_, ?_, ?_⟩
  · rw [distanceQuat_eq hp hq]
    by_cases h : |dot p q| < 1 - epsilon
    · left; rw [if_pos h]
    · right
      rw [if_neg h, dist_rot hp hq]
      refine ⟨rfl, ?_⟩
      push Not at h
      linarith [Real.arccos_le_arccos h, epsilon_angle]
  · rw [distanceQuat_eq hp hq, distanceQuat_eq hq hp, dot_comm,
      (C89_rotation_metric _ _ _ (toRotationMatrix_rotation hp) (toRotationMatrix_rotation hq)
        (toRotationMatrix_rotation hq)).2.1]
  · have hn : (neg p).squaredNorm = 1 := by rw [neg_sq, hp]
    have e := distanceQuat_eq hn hq
    rw [neg_dot, abs_neg, show toRotationMatrix (neg p) = toRotationMatrix p from neg_matrix p,
      ← distanceQuat_eq hp hq] at e
    exact e

/-- C89: so the triangle inequality holds for unit quaternions up to two ten millionths. -/
theorem C89_quaternion_triangle_partial (p q r : Quat) (hp : p.squaredNorm = 1) (hq : q.squaredNorm = 1)
    (hr : r.squaredNorm = 1) : distanceQuat p r ≤ distanceQuat p q + distanceQuat q r + 2 / 10000000 := by
  have h1 := (C89_quaternion p q hp hq).1
  have h2 := (C89_quaternion q r hq hr).1
  have h3 := (C89_quaternion p r hp hr).1
  have ht := (C89_rotation_metric _ _ _ (toRotationMatrix_rotation hp) (toRotationMatrix_rotation hq)
    (toRotationMatrix_rotation hr)).2.2
  have h0 : 0 ≤ distanceRotation (toRotationMatrix p) (toRotationMatrix r) := Real.arccos_nonneg _
  have e1 : distanceRotation (toRotationMatrix p) (toRotationMatrix q) ≤ distanceQuat p q + 1 / 10000000 := by
    rcases h1 with h | ⟨h, h'⟩ <;> rw [h] <;> linarith
  have e2 : distanceRotation (toRotationMatrix q) (toRotationMatrix r) ≤ distanceQuat q r + 1 / 10000000 := by
    rcases h2 with h | ⟨h, h'⟩ <;> rw [h] <;> linarith
  rcases h3 with h | ⟨h, -⟩ <;> rw [h] <;> linarith

/-- C89: it is not a metric on the quaternions: rotations at distance zero from a third one can be at a distance. -/
theorem C89_quaternion_triangle_fails : ∃ p q r : Quat, p.squaredNorm = 1 ∧ q.squaredNorm = 1 ∧ r.squaredNorm = 1 ∧
    distanceQuat p q = 0 ∧ distanceQuat q r = 0 ∧ 0 < distanceQuat p r := by
  have he : (0 : ℝ) < epsilon ∧ epsilon < 1 / 2 := by unfold epsilon; norm_num
  generalize hE : epsilon = e at *
  obtain ⟨h0, h1⟩ := he
  have hs : 0 ≤ 1 - (1 - e) ^ 2 := by nlinarith
  have hss := Real.sq_sqrt hs
  refine ⟨⟨1 - e, -Real.sqrt (1 - (1 - e) ^ 2), 0, 0⟩, ⟨1, 0, 0, 0⟩, ⟨1 - e, Real.sqrt (1 - (1 - e) ^ 2), 0, 0⟩,
    ?_, ?_, ?_, ?_, ?_, ?_⟩
  · simp only [Quat.squaredNorm]; linarith
  · simp [Quat.squaredNorm]
  · simp only [Quat.squaredNorm]; linarith
  · simp only [distanceQuat, hE]
    rw [if_neg]
    simp [abs_of_pos (show 0 < 1 - e by linarith)]
  · simp only [distanceQuat, hE]
    rw [if_neg]
    simp [abs_of_pos (show 0 < 1 - e by linarith)]
  · simp only [distanceQuat, hE]
    have e1 : (1 - e) * (1 - e) + -Real.sqrt (1 - (1 - e) ^ 2) * Real.sqrt (1 - (1 - e) ^ 2) + 0 * 0 + 0 * 0 =
        2 * (1 - e) ^ 2 - 1 := by
      linear_combination -hss
    rw [e1]
    have h2 : 2 * (1 - e) ^ 2 - 1 < 1 - e := by nlinarith
    have h3 : -(1 - e) < 2 * (1 - e) ^ 2 - 1 := by nlinarith
    have h4 : |2 * (1 - e) ^ 2 - 1| < 1 - e := abs_lt.2 ⟨h3, h2⟩
    rw [if_pos h4, Real.arccos_pos]
    have := abs_nonneg (2 * (1 - e) ^ 2 - 1)
    nlinarith

/-- C89: the distance of rigid transforms weighs the distance of the translations and the angle of the rotations; an
`alpha` outside of zero to one fails an assertion. -/
theorem C89_isometry (t1 t2 : Transform) (h1 : IsRotationMatrix t1.rotation) (h2 : IsRotationMatrix t2.rotation)
    (alpha : ℝ) :
    (alpha < 0 ∨ 1 < alpha → distanceIsometry t1 t2 alpha = .abort) ∧
    (0 ≤ alpha → alpha ≤ 1 → ∃ angle, distanceIsometry t1 t2 alpha =
        .ok (Projection.distance t1.translation t2.translation * (1 - alpha) + angle * alpha) ∧
      (angle = distanceRotation t1.rotation t2.rotation ∨
        (angle = 0 ∧ distanceRotation t1.rotation t2.rotation ≤ 1 / 10000000))) ∧
    distanceIsometry t1 t2 alpha = distanceIsometry t2 t1 alpha := by
  obtain ⟨a1, a2⟩ := ofMatrix_spec h1
  obtain ⟨b1, b2⟩ := ofMatrix_spec h2
  have hq := C89_quaternion _ _ a1 b1
  rw [a2, b2] at hq
  have hd : distanceVector t1.translation t2.translation = Projection.distance t1.translation t2.translation := by
    unfold distanceVector Projection.distance
    rw [Fin.sum_univ_three]
    simp only
    congr 1; ring
  have hd' : distanceVector t1.translation t2.translation = distanceVector t2.translation t1.translation := by
    unfold distanceVector
    simp only
    congr 1; ring
  refine ⟨?_, ?_, ?_⟩
  · rintro (h | h)
    · unfold distanceIsometry
      rw [Out.assert_false (by simpa using h)]; rfl
    · unfold distanceIsometry
      rw [Out.assert_true (by linarith : alpha ≥ 0), Out.bind_ok, Out.assert_false (by simpa using h)]; rfl
  · intro g1 g2
    refine ⟨_, ?_, hq.1⟩
    unfold distanceIsometry
    rw [Out.assert_true g1, Out.bind_ok, Out.assert_true g2, Out.bind_ok, hd]
  · unfold distanceIsometry
    rw [hd', hq.2.1]

example : (⟨1 / 2, 1 / 2, -1 / 2, 1 / 2⟩ : Quat).squaredNorm = 1 := by norm_num [Quat.squaredNorm]

/-! ### C90: interpolation -/

/-- C90: vectors of different sizes throw; otherwise each number is interpolated with the ratio cut to [0, 1]. -/
theorem C90_vector (v w : List ℝ) (ratio : ℝ) :
    (v.length ≠ w.length → interpolateVector v w ratio = .throws .invalidArgument) ∧
    (v.length = w.length → ∃ r, interpolateVector v w ratio = .ok r ∧ r.length = v.length ∧
      ∀ i (h : i < r.length) (h1 : i < v.length) (h2 : i < w.length),
        r[i] = v[i] + min 1 (max 0 ratio) * (w[i] - v[i])) := by
  constructor
  · intro h; unfold interpolateVector; rw [if_pos h]
  · intro h
    refine ⟨_, by unfold interpolateVector; rw [if_neg (by simpa using h)], by simp [h], ?_⟩
    intro i h0 h1 h2
    simp only [List.getElem_zipWith, List.getElem_map, unit_eq]
    ring

/-- The second quaternion with the sign `slerp` gives it -/
noncomputable def aligned (p q : Quat) : Quat := if dot p q < 0 then neg q else q

theorem aligned_dot (p q : Quat) : dot p (aligned p q) = |dot p q| := by
  unfold aligned
  split
  · rename_i h; rw [dot_neg, abs_of_neg h]
  · rename_i h; rw [abs_of_nonneg (not_lt.1 h)]

theorem aligned_sq (p q : Quat) : (aligned p q).squaredNorm = q.squaredNorm := by
  unfold aligned; split
  · rw [neg_sq]
  · rfl

theorem aligned_matrix (p q : Quat) : toRotationMatrix (aligned p q) = toRotationMatrix q := by
  unfold aligned; split
  · exact neg_matrix q
  · rfl

/-- A combination of two quaternions -/
noncomputable def comb (a : ℝ) (p : Quat) (b : ℝ) (q : Quat) : Quat :=
  ⟨a * p.w + b * q.w, a * p.x + b * q.x, a * p.y + b * q.y, a * p.z + b * q.z⟩

theorem slerp_comb (p q : Quat) (t : ℝ) :
    slerp p t q = comb (slerpScales |dot p q| t).1 p (slerpScales |dot p q| t).2 (aligned p q) := by
  unfold slerp comb aligned
  simp only
  by_cases h : dot p q < 0
  · simp only [if_pos h, neg]
    ext <;> simp
  · simp only [if_neg h]

theorem comb_dot (a b : ℝ) (p q r : Quat) : dot r (comb a p b q) = a * dot r p + b * dot r q := by
  simp only [dot, comb]; ring

theorem comb_sq (a b : ℝ) (p q : Quat) :
    (comb a p b q).squaredNorm = a ^ 2 * p.squaredNorm + b ^ 2 * q.squaredNorm + 2 * a * b * dot p q := by
  simp only [dot, comb, Quat.squaredNorm]; ring

/-- The proper case of `slerp` -/
theorem slerp_spec {p q : Quat} (hp : p.squaredNorm = 1) (hq : q.squaredNorm = 1) {t : ℝ} (h0 : 0 ≤ t) (h1 : t ≤ 1)
    (hd : |dot p q| < 1 - epsilon) :
    (slerp p t q).squaredNorm = 1 ∧
    distanceRotation (toRotationMatrix p) (toRotationMatrix (slerp p t q)) =
      t * distanceRotation (toRotationMatrix p) (toRotationMatrix q) ∧
    distanceRotation (toRotationMatrix (slerp p t q)) (toRotationMatrix q) =
      (1 - t) * distanceRotation (toRotationMatrix p) (toRotationMatrix q) := by
  have he : 0 < epsilon := by unfold epsilon; positivity
  have hqa : (aligned p q).squaredNorm = 1 := by rw [aligned_sq, hq]
  have hc : Real.cos (Real.arccos |dot p q|) = |dot p q| :=
    Real.cos_arccos (by linarith [abs_nonneg (dot p q)]) (by linarith)
  have hpos : 0 < Real.arccos |dot p q| := Real.arccos_pos.2 (by linarith)
  have hle : Real.arccos |dot p q| ≤ Real.pi / 2 := Real.arccos_le_pi_div_two.2 (abs_nonneg _)
  have hD : distanceRotation (toRotationMatrix p) (toRotationMatrix q) = 2 * Real.arccos |dot p q| := dist_rot hp hq
  rw [hD, ← aligned_matrix p q, slerp_comb]
  have hsc : slerpScales |dot p q| t = (Real.sin ((1 - t) * Real.arccos |dot p q|) / Real.sin (Real.arccos |dot p q|),
      Real.sin (t * Real.arccos |dot p q|) / Real.sin (Real.arccos |dot p q|)) := by
    unfold slerpScales
    rw [if_neg (not_le.2 hd)]
  rw [hsc]
  have hpi := Real.pi_pos
  have had := aligned_dot p q
  rw [← hc] at had
  generalize Real.arccos |dot p q| = θ at *
  generalize aligned p q = q' at *
  have hsin : 0 < Real.sin θ := Real.sin_pos_of_pos_of_lt_pi hpos (by linarith)
  have hs2 := Real.sin_sq_add_cos_sq θ
  have e1 : Real.sin ((1 - t) * θ) = Real.sin θ * Real.cos (t * θ) - Real.cos θ * Real.sin (t * θ) := by
    rw [show (1 - t) * θ = θ - t * θ by ring, Real.sin_sub]
  have e2 : Real.cos ((1 - t) * θ) = Real.cos θ * Real.cos (t * θ) + Real.sin θ * Real.sin (t * θ) := by
    rw [show (1 - t) * θ = θ - t * θ by ring, Real.cos_sub]
  have ht2 := Real.sin_sq_add_cos_sq (t * θ)
  simp only
  have d1 : dot p (comb (Real.sin ((1 - t) * θ) / Real.sin θ) p (Real.sin (t * θ) / Real.sin θ) q') =
      Real.cos (t * θ) := by
    rw [comb_dot, dot_self hp, had, e1]
    field_simp
    ring
  have d2 : dot q' (comb (Real.sin ((1 - t) * θ) / Real.sin θ) p (Real.sin (t * θ) / Real.sin θ) q') =
      Real.cos ((1 - t) * θ) := by
    rw [comb_dot, dot_self hqa, dot_comm q' p, had, e1, e2]
    field_simp
    linear_combination Real.sin (t * θ) * (-hs2)
  have d3 : (comb (Real.sin ((1 - t) * θ) / Real.sin θ) p (Real.sin (t * θ) / Real.sin θ) q').squaredNorm = 1 := by
    rw [comb_sq, hp, hqa, had, e1]
    field_simp
    linear_combination (Real.sin θ ^ 2) * ht2 - Real.sin (t * θ) ^ 2 * hs2
  have b0 : 0 ≤ t * θ := by positivity
  have b1 : t * θ ≤ Real.pi / 2 := by nlinarith
  have b2 : 0 ≤ (1 - t) * θ := by nlinarith
  have b3 : (1 - t) * θ ≤ Real.pi / 2 := by nlinarith
  refine ⟨d3, ?_, ?_⟩
  · rw [dist_rot hp d3, d1, abs_of_nonneg (Real.cos_nonneg_of_neg_pi_div_two_le_of_le (by linarith) b1),
      Real.arccos_cos b0 (by linarith)]
    ring
  · rw [dist_rot d3 hqa, dot_comm, d2, abs_of_nonneg (Real.cos_nonneg_of_neg_pi_div_two_le_of_le (by linarith) b3),
      Real.arccos_cos b2 (by linarith)]
    ring

theorem clamp_unit (r : ℝ) : 0 ≤ min 1 (max 0 r) ∧ min 1 (max 0 r) ≤ 1 :=
  ⟨le_min zero_le_one (le_max_left _ _), min_le_left _ _⟩

theorem near {p q : Quat} (hp : p.squaredNorm = 1) (hq : q.squaredNorm = 1)
    (h : 1 / 10000000 < distanceRotation (toRotationMatrix p) (toRotationMatrix q)) : |dot p q| < 1 - epsilon := by
  by_contra hn
  push Not at hn
  have := epsilon_angle
  have h2 := Real.arccos_le_arccos hn
  rw [dist_rot hp hq] at h
  linarith

/-- C90: interpolation of unit quaternions further apart than a ten millionth of a radian divides the rotation between
them in the ratio asked for, cut to [0, 1], and stays of length one. -/
theorem C90_quaternion (p q : Quat) (hp : p.squaredNorm = 1) (hq : q.squaredNorm = 1) (ratio : ℝ)
    (hd : 1 / 10000000 < distanceRotation (toRotationMatrix p) (toRotationMatrix q)) :
    (interpolateQuat p q ratio).squaredNorm = 1 ∧
    distanceRotation (toRotationMatrix p) (toRotationMatrix (interpolateQuat p q ratio)) =
      min 1 (max 0 ratio) * distanceRotation (toRotationMatrix p) (toRotationMatrix q) ∧
    distanceRotation (toRotationMatrix (interpolateQuat p q ratio)) (toRotationMatrix q) =
      (1 - min 1 (max 0 ratio)) * distanceRotation (toRotationMatrix p) (toRotationMatrix q) := by
  unfold interpolateQuat
  rw [unit_eq]
  exact slerp_spec hp hq (clamp_unit ratio).1 (clamp_unit ratio).2 (near hp hq hd)

/-- C90: for every pair of unit quaternions the result has a squared length between 1 - 2^-53 and 1, and ratios zero and
one give the two rotations. -/
theorem C90_quaternion_ends (p q : Quat) (hp : p.squaredNorm = 1) (hq : q.squaredNorm = 1) (ratio : ℝ) :
    1 - 1 / 2 ^ 53 ≤ (interpolateQuat p q ratio).squaredNorm ∧ (interpolateQuat p q ratio).squaredNorm ≤ 1 ∧
    (ratio ≤ 0 → interpolateQuat p q ratio = p) ∧
    (1 ≤ ratio → toRotationMatrix (interpolateQuat p q ratio) = toRotationMatrix q) := by
  have he : epsilon = 1 / 2 ^ 52 := rfl
  have hb := clamp_unit ratio
  unfold interpolateQuat
  rw [unit_eq]
  have hle := abs_dot_le hp hq
  refine ⟨?_, ?_, ?_, ?_⟩
  · by_cases hd : |dot p q| < 1 - epsilon
    · rw [(slerp_spec hp hq hb.1 hb.2 hd).1]; norm_num
    · rw [slerp_comb, comb_sq, hp, aligned_sq, hq, aligned_dot]
      unfold slerpScales
      rw [if_pos (not_lt.1 hd)]
      simp only
      push Not at hd
      generalize min 1 (max 0 ratio) = t at *
      have h1 : t * (1 - t) ≤ 1 / 4 := by nlinarith [sq_nonneg (t - 1 / 2)]
      have h2 : 0 ≤ t * (1 - t) := mul_nonneg hb.1 (by linarith)
      have h3 : 1 - |dot p q| ≤ 1 / 2 ^ 52 := by rw [← he]; linarith
      have h4 : t * (1 - t) * (1 - |dot p q|) ≤ 1 / 4 * (1 / 2 ^ 52) := by
        apply mul_le_mul h1 h3 (by linarith) (by norm_num)
      have e : (1 - t) ^ 2 * 1 + t ^ 2 * 1 + 2 * (1 - t) * t * |dot p q| = 1 - 2 * (t * (1 - t) * (1 - |dot p q|)) := by
        ring
      rw [e]
      norm_num at h4 ⊢
      linarith
  · by_cases hd : |dot p q| < 1 - epsilon
    · rw [(slerp_spec hp hq hb.1 hb.2 hd).1]
    · rw [slerp_comb, comb_sq, hp, aligned_sq, hq, aligned_dot]
      unfold slerpScales
      rw [if_pos (not_lt.1 hd)]
      simp only
      generalize min 1 (max 0 ratio) = t at *
      have h2 : 0 ≤ t * (1 - t) := mul_nonneg hb.1 (by linarith)
      have h4 : 0 ≤ t * (1 - t) * (1 - |dot p q|) := mul_nonneg h2 (by linarith)
      have e : (1 - t) ^ 2 * 1 + t ^ 2 * 1 + 2 * (1 - t) * t * |dot p q| = 1 - 2 * (t * (1 - t) * (1 - |dot p q|)) := by
        ring
      rw [e]
      linarith
  · intro h
    rw [max_eq_left h, min_eq_right zero_le_one, slerp_comb]
    unfold slerpScales
    split
    · ext <;> simp [comb]
    · rename_i hd
      have hs : Real.sin (Real.arccos |dot p q|) ≠ 0 := by
        have h1 : 0 < Real.arccos |dot p q| := Real.arccos_pos.2 (by rw [he] at hd; push Not at hd; linarith)
        have h2 : Real.arccos |dot p q| ≤ Real.pi / 2 := Real.arccos_le_pi_div_two.2 (abs_nonneg _)
        exact (Real.sin_pos_of_pos_of_lt_pi h1 (by linarith [Real.pi_pos])).ne'
      ext <;> simp [comb, hs]
  · intro h
    rw [max_eq_right (by linarith), min_eq_left h, slerp_comb, ← aligned_matrix p q]
    congr 1
    unfold slerpScales
    split
    · ext <;> simp [comb]
    · rename_i hd
      have hs : Real.sin (Real.arccos |dot p q|) ≠ 0 := by
        have h1 : 0 < Real.arccos |dot p q| := Real.arccos_pos.2 (by rw [he] at hd; push Not at hd; linarith)
        have h2 : Real.arccos |dot p q| ≤ Real.pi / 2 := Real.arccos_le_pi_div_two.2 (abs_nonneg _)
        exact (Real.sin_pos_of_pos_of_lt_pi h1 (by linarith [Real.pi_pos])).ne'
      ext <;> simp [comb, hs]

/-- C90: interpolation of rigid transforms divides the translation and the rotation in the same ratio. -/
theorem C90_isometry (t1 t2 : Transform) (h1 : IsRotationMatrix t1.rotation) (h2 : IsRotationMatrix t2.rotation)
    (ratio : ℝ) :
    (interpolateIsometry t1 t2 ratio).translation =
      t1.translation + min 1 (max 0 ratio) • (t2.translation - t1.translation) ∧
    (ratio ≤ 0 → interpolateIsometry t1 t2 ratio = t1) ∧ (1 ≤ ratio → interpolateIsometry t1 t2 ratio = t2) ∧
    (1 / 10000000 < distanceRotation t1.rotation t2.rotation →
      IsRotationMatrix (interpolateIsometry t1 t2 ratio).rotation ∧
      distanceRotation t1.rotation (interpolateIsometry t1 t2 ratio).rotation =
        min 1 (max 0 ratio) * distanceRotation t1.rotation t2.rotation ∧
      distanceRotation (interpolateIsometry t1 t2 ratio).rotation t2.rotation =
        (1 - min 1 (max 0 ratio)) * distanceRotation t1.rotation t2.rotation) := by
  obtain ⟨a1, a2⟩ := ofMatrix_spec h1
  obtain ⟨b1, b2⟩ := ofMatrix_spec h2
  have hb := clamp_unit ratio
  have idem : min 1 (max 0 (min 1 (max 0 ratio))) = min 1 (max 0 ratio) := by
    rw [max_eq_right hb.1, min_eq_right hb.2]
  have hq := C90_quaternion _ _ a1 b1 (min 1 (max 0 ratio))
  have hends := C90_quaternion_ends _ _ a1 b1 (min 1 (max 0 ratio))
  rw [a2, b2, idem] at hq
  rw [b2] at hends
  have ht : (interpolateIsometry t1 t2 ratio).translation =
      t1.translation + min 1 (max 0 ratio) • (t2.translation - t1.translation) := by
    unfold interpolateIsometry
    simp only [unit_eq, idem]
    module
  have hr : (interpolateIsometry t1 t2 ratio).rotation =
      toRotationMatrix (interpolateQuat (ofMatrix t1.rotation) (ofMatrix t2.rotation) (min 1 (max 0 ratio))) := by
    unfold interpolateIsometry
    simp only [unit_eq]
  refine ⟨ht, ?_, ?_, ?_⟩
  · intro h
    have e : min 1 (max 0 ratio) = 0 := by rw [max_eq_left h, min_eq_right zero_le_one]
    refine Transform.ext ?_ ?_
    · rw [hr, hends.2.2.1 (by rw [e]), a2]
    · rw [ht, e]; simp
  · intro h
    have e : min 1 (max 0 ratio) = 1 := by rw [max_eq_right (by linarith), min_eq_left h]
    refine Transform.ext ?_ ?_
    · rw [hr, hends.2.2.2 (by rw [e])]
    · rw [ht, e]; simp
  · intro h
    rw [hr]
    obtain ⟨c1, c2, c3⟩ := hq h
    exact ⟨toRotationMatrix_rotation c1, c2, c3⟩

example : 1 / 10000000 < distanceRotation 1 !![0, -1, 0; 1, 0, 0; 0, 0, 1] := by
  have : distanceRotation 1 !![0, -1, 0; 1, 0, 0; 0, 0, 1] = Real.pi / 2 := by
    unfold distanceRotation
    rw [← Real.arccos_zero]
    congr 1
    simp [trace, Fin.sum_univ_three]
  rw [this]
  linarith [Real.two_le_pi]

/-! ### C91: roll, pitch and yaw -/

theorem ofAngleAxis_sq (a : ℝ) {u : Fin 3 → ℝ} (hu : u 0 ^ 2 + u 1 ^ 2 + u 2 ^ 2 = 1) :
    (ofAngleAxis a u).squaredNorm = 1 := by
  have := Real.sin_sq_add_cos_sq (1 / 2 * a)
  simp only [ofAngleAxis, Quat.squaredNorm]
  linear_combination this + Real.sin (1 / 2 * a) ^ 2 * hu

theorem half_cos (a : ℝ) : Real.cos a = 1 - 2 * Real.sin (1 / 2 * a) ^ 2 := by
  have := Real.sin_sq_add_cos_sq (1 / 2 * a)
  rw [show a = 2 * (1 / 2 * a) by ring, Real.cos_two_mul, show 1 / 2 * (2 * (1 / 2 * a)) = 1 / 2 * a by ring]
  linarith

theorem half_sin (a : ℝ) : Real.sin a = 2 * Real.sin (1 / 2 * a) * Real.cos (1 / 2 * a) := by
  rw [show a = 2 * (1 / 2 * a) by ring, Real.sin_two_mul, show 1 / 2 * (2 * (1 / 2 * a)) = 1 / 2 * a by ring]

theorem matrix_x (a : ℝ) : toRotationMatrix (ofAngleAxis a ![1, 0, 0]) = aboutX a := by
  unfold toRotationMatrix aboutX ofAngleAxis
  rw [half_cos a, half_sin a]
  ext i j
  fin_cases i <;> fin_cases j <;> simp <;> ring

theorem matrix_y (a : ℝ) : toRotationMatrix (ofAngleAxis a ![0, 1, 0]) = aboutY a := by
  unfold toRotationMatrix aboutY ofAngleAxis
  rw [half_cos a, half_sin a]
  ext i j
  fin_cases i <;> fin_cases j <;> simp <;> ring

theorem matrix_z (a : ℝ) : toRotationMatrix (ofAngleAxis a ![0, 0, 1]) = aboutZ a := by
  unfold toRotationMatrix aboutZ ofAngleAxis
  rw [half_cos a, half_sin a]
  ext i j
  fin_cases i <;> fin_cases j <;> simp <;> ring

theorem sq_x (a : ℝ) : (ofAngleAxis a ![1, 0, 0]).squaredNorm = 1 := ofAngleAxis_sq a (by simp)
theorem sq_y (a : ℝ) : (ofAngleAxis a ![0, 1, 0]).squaredNorm = 1 := ofAngleAxis_sq a (by simp)
theorem sq_z (a : ℝ) : (ofAngleAxis a ![0, 0, 1]).squaredNorm = 1 := ofAngleAxis_sq a (by simp)

/-- C91: the matrix of `QuaternionFromRPY` is that about x times that about y times that about z;
`QuaternionFromUrdfRPY` has the other order. Both have length one. -/
theorem C91_rpy (r p y : ℝ) :
    (quaternionFromRPY r p y).squaredNorm = 1 ∧
    toRotationMatrix (quaternionFromRPY r p y) = aboutX r * aboutY p * aboutZ y ∧
    (quaternionFromUrdfRPY r p y).squaredNorm = 1 ∧
    toRotationMatrix (quaternionFromUrdfRPY r p y) = aboutZ y * aboutY p * aboutX r := by
  have h1 : ((ofAngleAxis r ![1, 0, 0]).mul (ofAngleAxis p ![0, 1, 0])).squaredNorm = 1 := by
    rw [mul_sq, sq_x, sq_y, mul_one]
  have h2 : ((ofAngleAxis y ![0, 0, 1]).mul (ofAngleAxis p ![0, 1, 0])).squaredNorm = 1 := by
    rw [mul_sq, sq_z, sq_y, mul_one]
  unfold quaternionFromRPY quaternionFromUrdfRPY
  refine ⟨?_, ?_, ?_, ?_⟩
  · rw [mul_sq, h1, sq_z, mul_one]
  · rw [toRotationMatrix_mul h1 (sq_z y), toRotationMatrix_mul (sq_x r) (sq_y p), matrix_x, matrix_y, matrix_z]
  · rw [mul_sq, h2, sq_x, mul_one]
  · rw [toRotationMatrix_mul h2 (sq_x r), toRotationMatrix_mul (sq_z y) (sq_y p), matrix_x, matrix_y, matrix_z]

theorem cos_atan2 {x y : ℝ} (h : x ^ 2 + y ^ 2 = 1) : Real.cos (atan2 y x) = x ∧ Real.sin (atan2 y x) = y := by
  have hn : ‖(⟨x, y⟩ : ℂ)‖ = 1 := by
    rw [Complex.norm_def, Complex.normSq_mk, show x * x + y * y = 1 by linarith, Real.sqrt_one]
  have h0 : (⟨x, y⟩ : ℂ) ≠ 0 := by
    intro h0; rw [h0] at hn; simp at hn
  unfold atan2
  rw [Complex.cos_arg h0, Complex.sin_arg, hn]
  simp

theorem atan2_scaled (x y : ℝ) :
    x = Real.sqrt (x ^ 2 + y ^ 2) * Real.cos (atan2 y x) ∧ y = Real.sqrt (x ^ 2 + y ^ 2) * Real.sin (atan2 y x) := by
  have hn : ‖(⟨x, y⟩ : ℂ)‖ = Real.sqrt (x ^ 2 + y ^ 2) := by
    rw [Complex.norm_def, Complex.normSq_mk]; congr 1; ring
  unfold atan2
  rw [← hn]
  exact ⟨(Complex.norm_mul_cos_arg ⟨x, y⟩).symm, (Complex.norm_mul_sin_arg ⟨x, y⟩).symm⟩

theorem aboutX_rotation (a : ℝ) : IsRotationMatrix (aboutX a) := by
  rw [← matrix_x]; exact toRotationMatrix_rotation (sq_x a)

theorem aboutX_mul (a b : ℝ) : aboutX a * aboutX b = aboutX (a + b) := by
  unfold aboutX
  rw [Real.cos_add, Real.sin_add]
  ext i j
  fin_cases i <;> fin_cases j <;> simp [mul_apply, Fin.sum_univ_three] <;> ring

/-- The angles found give back the matrix -/
theorem euler_matrix {R : Mat3} (hR : IsRotationMatrix R) :
    aboutX (eulerAngles R 0) * aboutY (eulerAngles R 1) * aboutZ (eulerAngles R 2) = R := by
  have h := Rel.of hR
  -- the sign, the first angle and the length of the last column without its first entry
  have hc2 : Real.sqrt (R 0 0 * R 0 0 + R 0 1 * R 0 1) = Real.sqrt (R 2 2 ^ 2 + R 1 2 ^ 2) := by
    congr 1; linear_combination h.r00 - h.c22
  have hc3 : Real.sqrt (R 2 2 ^ 2 + R 1 2 ^ 2) ^ 2 = 1 - R 0 2 ^ 2 := by
    rw [Real.sq_sqrt (by positivity)]; linear_combination h.c22
  obtain ⟨s, hs, hφ1, hφ2, hb⟩ : ∃ s : ℝ, s ^ 2 = 1 ∧
      R 2 2 = s * Real.sqrt (R 2 2 ^ 2 + R 1 2 ^ 2) * Real.cos (eulerFirst R).1 ∧
      R 1 2 = s * Real.sqrt (R 2 2 ^ 2 + R 1 2 ^ 2) * Real.sin (eulerFirst R).1 ∧
      eulerAngles R 1 = -atan2 (-R 0 2) (s * Real.sqrt (R 2 2 ^ 2 + R 1 2 ^ 2)) := by
    obtain ⟨hx, hy⟩ := atan2_scaled (R 2 2) (R 1 2)
    by_cases hp : atan2 (R 1 2) (R 2 2) > 0
    · have e : eulerFirst R = (atan2 (R 1 2) (R 2 2) - Real.pi, true) := by unfold eulerFirst; rw [if_pos hp]
      refine ⟨-1, by norm_num, ?_, ?_, ?_⟩
      · rw [e, Real.cos_sub_pi]; linarith
      · rw [e, Real.sin_sub_pi]; linarith
      · simp [eulerAngles, e, hc2]
    · have e : eulerFirst R = (atan2 (R 1 2) (R 2 2), false) := by unfold eulerFirst; rw [if_neg hp]
      refine ⟨1, by norm_num, ?_, ?_, ?_⟩
      · rw [e]; linarith
      · rw [e]; linarith
      · simp [eulerAngles, e, hc2]
  have h0 : eulerAngles R 0 = -(eulerFirst R).1 := rfl
  have h2 : eulerAngles R 2 = -atan2 (Real.sin (eulerFirst R).1 * R 2 0 - Real.cos (eulerFirst R).1 * R 1 0)
    (Real.cos (eulerFirst R).1 * R 1 1 - Real.sin (eulerFirst R).1 * R 2 1) := rfl
  generalize Real.sqrt (R 2 2 ^ 2 + R 1 2 ^ 2) = l at *
  generalize (eulerFirst R).1 = φ at *
  have hcs := Real.sin_sq_add_cos_sq φ
  have hpitch := cos_atan2 (x := s * l) (y := -R 0 2) (by rw [mul_pow, hs, hc3]; ring)
  -- undo the first rotation
  have hQ := Rel.of (rotation_mul (aboutX_rotation φ) hR)
  have q0 : ∀ j, (aboutX φ * R) 0 j = R 0 j := by intro j; simp [aboutX, mul_apply, Fin.sum_univ_three]
  have q1 : ∀ j, (aboutX φ * R) 1 j = Real.cos φ * R 1 j - Real.sin φ * R 2 j := by
    intro j; simp [aboutX, mul_apply, Fin.sum_univ_three]; ring
  have q2 : ∀ j, (aboutX φ * R) 2 j = Real.sin φ * R 1 j + Real.cos φ * R 2 j := by
    intro j; simp [aboutX, mul_apply, Fin.sum_univ_three]
  have q12 : (aboutX φ * R) 1 2 = 0 := by
    rw [q1, hφ1, hφ2]; ring
  have q22 : (aboutX φ * R) 2 2 = s * l := by
    rw [q2, hφ1, hφ2]; linear_combination s * l * hcs
  have hyaw := cos_atan2 (x := Real.cos φ * R 1 1 - Real.sin φ * R 2 1)
    (y := Real.sin φ * R 2 0 - Real.cos φ * R 1 0) (by
      have := hQ.r11
      rw [q12] at this
      rw [q1, q1] at this
      linear_combination this)
  have hQe : aboutX φ * R = aboutY (eulerAngles R 1) * aboutZ (eulerAngles R 2) := by
    have f00 := hQ.f00
    have f01 := hQ.f01
    have f20 := hQ.f20
    have f21 := hQ.f21
    rw [q12, q22] at f00 f01
    rw [q12] at f20 f21
    have hcb : Real.cos (eulerAngles R 1) = s * l := by rw [hb, Real.cos_neg, hpitch.1]
    have hsb : Real.sin (eulerAngles R 1) = R 0 2 := by rw [hb, Real.sin_neg, hpitch.2, neg_neg]
    have hcc : Real.cos (eulerAngles R 2) = (aboutX φ * R) 1 1 := by rw [h2, Real.cos_neg, hyaw.1, q1]
    have hsc : Real.sin (eulerAngles R 2) = (aboutX φ * R) 1 0 := by rw [h2, Real.sin_neg, hyaw.2, q1]; ring
    have q02 := q0 2
    rw [← hsb] at q02
    rw [← hcb] at q22 f00 f01
    rw [← hcc] at f00
    rw [← hsc] at f01
    rw [← hcc] at f20
    rw [← hsc] at f21
    rw [q02] at f20 f21
    ext i j
    fin_cases i <;> fin_cases j <;>
      simp only [aboutY, aboutZ, mul_apply (M := !![_, _, _; _, _, _; _, _, _]), Fin.sum_univ_three, of_apply, Fin.zero_eta, Fin.mk_one,
        Fin.reduceFinMk, cons_val', cons_val_zero, cons_val_one, cons_val]
    · rw [← f00]; ring
    · rw [← f01]; ring
    · rw [q02]; ring
    · rw [← hsc]; ring
    · rw [← hcc]; ring
    · rw [q12]; ring
    · rw [← f20]; ring
    · rw [← f21]; ring
    · rw [q22]; ring
  rw [Matrix.mul_assoc, ← hQe, h0, ← Matrix.mul_assoc, aboutX_mul, neg_add_cancel]
  have : aboutX 0 = 1 := by ext i j; fin_cases i <;> fin_cases j <;> simp [aboutX]
  rw [this, Matrix.one_mul]

theorem atan2_range (y x : ℝ) : -Real.pi < atan2 y x ∧ atan2 y x ≤ Real.pi :=
  ⟨Complex.neg_pi_lt_arg _, Complex.arg_le_pi _⟩

/-- C91: `TransformToRPY` gives six numbers from which `TransformFromRPY` makes the same transform, for every rigid
transform (also where the angles are not unique). The roll is in [0, pi), the others in [-pi, pi). -/
theorem C91_round_trip (t : Transform) (ht : IsRotationMatrix t.rotation) :
    transformFromComponents (transformToRPY t) = .ok t ∧
    (∃ r p y, transformToRPY t = [t.translation 0, t.translation 1, t.translation 2, r, p, y] ∧
      0 ≤ r ∧ r < Real.pi ∧ -Real.pi ≤ p ∧ p < Real.pi ∧ -Real.pi ≤ y ∧ y < Real.pi) := by
  constructor
  · unfold transformToRPY transformFromComponents eulerAnglesFromRotationMatrix
    simp only
    rw [(C91_rpy _ _ _).2.1, euler_matrix ht]
    congr 1
    refine Transform.ext rfl ?_
    ext i; fin_cases i <;> rfl
  · refine ⟨_, _, _, rfl, ?_⟩
    have hpi := Real.pi_pos
    have h1 := atan2_range (t.rotation 1 2) (t.rotation 2 2)
    refine ⟨?_, ?_, ?_, ?_, ?_, ?_⟩
    · show 0 ≤ -(eulerFirst t.rotation).1
      unfold eulerFirst
      simp only
      split <;> simp only
      · linarith
      · linarith
    · show -(eulerFirst t.rotation).1 < Real.pi
      unfold eulerFirst
      simp only
      split <;> simp only
      · linarith
      · linarith
    · show -Real.pi ≤ -(if (eulerFirst t.rotation).2 = true then _ else _)
      split
      · exact neg_le_neg (atan2_range _ _).2
      · exact neg_le_neg (atan2_range _ _).2
    · show -(if (eulerFirst t.rotation).2 = true then _ else _) < Real.pi
      split
      · exact neg_lt.1 (atan2_range _ _).1
      · exact neg_lt.1 (atan2_range _ _).1
    · exact neg_le_neg (atan2_range _ _).2
    · exact neg_lt.1 (atan2_range _ _).1

theorem atan2_polar {l a : ℝ} (hl : 0 < l) (h1 : -Real.pi < a) (h2 : a ≤ Real.pi) :
    atan2 (l * Real.sin a) (l * Real.cos a) = a := by
  unfold atan2
  have := Complex.arg_mul_cos_add_sin_mul_I hl (θ := a) ⟨h1, h2⟩
  refine Eq.trans ?_ this
  congr 1
  apply Complex.ext <;> simp [Complex.cos_ofReal_re, Complex.sin_ofReal_re]

/-- C91: in the other direction angles are only found again when the roll is in [0, pi), the pitch strictly between
minus and plus a quarter turn and the yaw in [-pi, pi). -/
theorem C91_angles (v : Fin 3 → ℝ) (r p y : ℝ) (hr : 0 ≤ r) (hr' : r < Real.pi) (hp : -(Real.pi / 2) < p)
    (hp' : p < Real.pi / 2) (hy : -Real.pi ≤ y) (hy' : y < Real.pi) :
    transformToRPY (transformFromRPY v ![r, p, y]) = [v 0, v 1, v 2, r, p, y] := by
  have hcp := Real.cos_pos_of_mem_Ioo ⟨hp, hp'⟩
  have sr := Real.sin_sq_add_cos_sq r
  have sp := Real.sin_sq_add_cos_sq p
  have sy := Real.sin_sq_add_cos_sq y
  have hM : (transformFromRPY v ![r, p, y]).rotation = aboutX r * aboutY p * aboutZ y := (C91_rpy r p y).2.1
  have hT : transformToRPY (transformFromRPY v ![r, p, y]) = [v 0, v 1, v 2,
      eulerAngles (transformFromRPY v ![r, p, y]).rotation 0, eulerAngles (transformFromRPY v ![r, p, y]).rotation 1,
      eulerAngles (transformFromRPY v ![r, p, y]).rotation 2] := rfl
  rw [hT, hM]
  have hent : aboutX r * aboutY p * aboutZ y =
      !![Real.cos p * Real.cos y, -(Real.cos p * Real.sin y), Real.sin p;
         Real.cos r * Real.sin y + Real.sin r * Real.sin p * Real.cos y,
         Real.cos r * Real.cos y - Real.sin r * Real.sin p * Real.sin y, -(Real.sin r * Real.cos p);
         Real.sin r * Real.sin y - Real.cos r * Real.sin p * Real.cos y,
         Real.sin r * Real.cos y + Real.cos r * Real.sin p * Real.sin y, Real.cos r * Real.cos p] := by
    ext i j
    fin_cases i <;> fin_cases j <;> simp [aboutX, aboutY, aboutZ, mul_apply, Fin.sum_univ_three] <;> ring
  rw [hent]
  have a1 : atan2 (-(Real.sin r * Real.cos p)) (Real.cos r * Real.cos p) = -r := by
    have := atan2_polar hcp (a := -r) (by linarith) (by linarith)
    rw [Real.sin_neg, Real.cos_neg] at this
    rw [← this]; congr 1 <;> ring
  have hf : ∀ M : Mat3, M 1 2 = -(Real.sin r * Real.cos p) → M 2 2 = Real.cos r * Real.cos p →
      eulerFirst M = (-r, false) := by
    intro M h1 h2
    unfold eulerFirst
    rw [h1, h2, a1]
    simp [hr]
  have a2 : atan2 (-Real.sin p) (Real.cos p) = -p := by
    have := atan2_polar one_pos (a := -p) (by linarith) (by linarith)
    rw [Real.sin_neg, Real.cos_neg, one_mul, one_mul] at this
    exact this
  have a3 : atan2 (-Real.sin y) (Real.cos y) = -y := by
    have := atan2_polar one_pos (a := -y) (by linarith) (by linarith)
    rw [Real.sin_neg, Real.cos_neg, one_mul, one_mul] at this
    exact this
  have c2 : Real.sqrt (Real.cos p * Real.cos y * (Real.cos p * Real.cos y) +
      -(Real.cos p * Real.sin y) * -(Real.cos p * Real.sin y)) = Real.cos p := by
    rw [show Real.cos p * Real.cos y * (Real.cos p * Real.cos y) +
      -(Real.cos p * Real.sin y) * -(Real.cos p * Real.sin y) = Real.cos p ^ 2 by
        linear_combination Real.cos p ^ 2 * sy]
    exact Real.sqrt_sq hcp.le
  have e1 : Real.sin (-r) * (Real.sin r * Real.sin y - Real.cos r * Real.sin p * Real.cos y) -
      Real.cos (-r) * (Real.cos r * Real.sin y + Real.sin r * Real.sin p * Real.cos y) = -Real.sin y := by
    rw [Real.sin_neg, Real.cos_neg]; linear_combination (-Real.sin y) * sr
  have e2 : Real.cos (-r) * (Real.cos r * Real.cos y - Real.sin r * Real.sin p * Real.sin y) -
      Real.sin (-r) * (Real.sin r * Real.cos y + Real.cos r * Real.sin p * Real.sin y) = Real.cos y := by
    rw [Real.sin_neg, Real.cos_neg]; linear_combination (Real.cos y) * sr
  unfold eulerAngles
  rw [hf _ rfl rfl]
  simp only [of_apply, cons_val', cons_val_zero, cons_val_one, cons_val, Bool.false_eq_true, if_false, c2, e1, e2, a2,
    a3, neg_neg]

/-- C91: so a negative roll is never found again. -/
theorem C91_negative_roll (v : Fin 3 → ℝ) (r p y : ℝ) (hr : r < 0) :
    transformToRPY (transformFromRPY v ![r, p, y]) ≠ [v 0, v 1, v 2, r, p, y] := by
  have ht : IsRotationMatrix (transformFromRPY v ![r, p, y]).rotation :=
    toRotationMatrix_rotation (C91_rpy r p y).1
  obtain ⟨-, r', p', y', h, h0, -⟩ := C91_round_trip _ ht
  rw [h]
  intro e
  simp only [List.cons.injEq] at e
  linarith [e.2.2.2.1]

/-- C91: a vector that does not have six numbers fails the assertion. -/
theorem C91_size (c : List ℝ) : transformFromComponents c = .abort ↔ c.length ≠ 6 := by
  unfold transformFromComponents
  split
  · simp
  · rename_i h
    simp only [true_iff]
    intro hl
    match c, hl with
    | [a, b, c, d, e, f], _ => exact h a b c d e f rfl

/-- C91: the Euler angles of a unit quaternion and of a rigid transform are roll, pitch and yaw of its rotation: the
quaternion and the transform made of them turn the same way. -/
theorem C91_euler (q : Quat) (hq : q.squaredNorm = 1) (t : Transform) (ht : IsRotationMatrix t.rotation) :
    toRotationMatrix (quaternionFromRPY (eulerAnglesFromQuaternion q 0) (eulerAnglesFromQuaternion q 1)
      (eulerAnglesFromQuaternion q 2)) = toRotationMatrix q ∧
    transformFromRPY t.translation (eulerAnglesFromIsometry t) = t := by
  constructor
  · unfold eulerAnglesFromQuaternion eulerAnglesFromRotationMatrix
    rw [(C91_rpy _ _ _).2.1, euler_matrix (toRotationMatrix_rotation hq)]
  · unfold transformFromRPY eulerAnglesFromIsometry eulerAnglesFromRotationMatrix
    rw [(C91_rpy _ _ _).2.1, euler_matrix ht]

example : (⟨1, 0, 0, 0⟩ : Quat).squaredNorm = 1 := by simp [Quat.squaredNorm]

end Verif.Pose
