import Verif.Spec.Conversions
import Verif.Lemmas.Quaternion
import Verif.Props.Pose
import Mathlib.Analysis.Matrix.Order
import Mathlib.Tactic.NormNum

/-!
# C125: conversions between messages and Eigen
-/
namespace Verif.Conversions
open Verif Matrix Verif.Kinematics Verif.Pose
open scoped MatrixOrder

/-- C125: points, vectors, quaternions and wrenches keep their coordinates, in both directions and in both families
of functions; a point has fourth coordinate one and a vector zero, which is dropped on the way back. -/
theorem C125_coordinates {K : Type} [Zero K] [One K] (a b c d e f : K) (frame : String) :
    pointToVector3d (Point.mk a b c) = ![a, b, c] ∧ vector3dToPoint ![a, b, c] = Point.mk a b c ∧
    pointToVector4d (Point.mk a b c) = ![a, b, c, 1] ∧ vector4dToPoint ![a, b, c, d] = Point.mk a b c ∧
    vector3dToPointStamped ![a, b, c] frame = ⟨frame, Point.mk a b c⟩ ∧
    vector3ToVector3d (Vector3.mk a b c) = ![a, b, c] ∧ vector3dToVector3 ![a, b, c] = Vector3.mk a b c ∧
    vector3ToVector4d (Vector3.mk a b c) = ![a, b, c, 0] ∧ vector4dToVector3 ![a, b, c, d] = Vector3.mk a b c ∧
    quaternionToEigen { x := a, y := b, z := c, w := d } = { x := a, y := b, z := c, w := d } ∧
    eigenToQuaternion { x := a, y := b, z := c, w := d } = { x := a, y := b, z := c, w := d } ∧
    wrenchToPair ⟨⟨a, b, c⟩, ⟨d, e, f⟩⟩ = (![a, b, c], ![d, e, f]) ∧
    convertPoint (Point.mk a b c) = ![a, b, c] ∧ convertToPoint ![a, b, c] = Point.mk a b c ∧
    convertVector3 (Vector3.mk a b c) = ![a, b, c] ∧ convertToVector3 ![a, b, c] = Vector3.mk a b c ∧
    convertQuaternion { x := a, y := b, z := c, w := d } = { x := a, y := b, z := c, w := d } ∧
    convertToQuaternion { x := a, y := b, z := c, w := d } = { x := a, y := b, z := c, w := d } ∧
    translationToTransform ![a, b, c] = ⟨⟨a, b, c⟩, { x := 0, y := 0, z := 0, w := 1 }⟩ :=
  ⟨rfl, rfl, rfl, rfl, rfl, rfl, rfl, rfl, rfl, rfl, rfl, rfl, rfl, rfl, rfl, rfl, rfl, rfl, rfl⟩

/-- C125: the makers of messages put every argument where its name says. -/
theorem C125_makers {K : Type} (a b c d : K) (q : Quaternion K) :
    makePoint a b c = { x := a, y := b, z := c } ∧ makeVector3 a b c = { x := a, y := b, z := c } ∧
    makeQuaternion a b c d = { x := a, y := b, z := c, w := d } ∧
    makeTransform (makeVector3 a b c) q = { translation := { x := a, y := b, z := c }, rotation := q } ∧
    makeTransformOfPoint (makePoint a b c) q = { translation := { x := a, y := b, z := c }, rotation := q } ∧
    makePose (makePoint a b c) q = { position := { x := a, y := b, z := c }, orientation := q } ∧
    makePoseOfVector (makeVector3 a b c) q = { position := { x := a, y := b, z := c }, orientation := q } :=
  ⟨rfl, rfl, rfl, rfl, rfl, rfl, rfl⟩

/-- C125: floats come back from a message as they were, when widening a float and narrowing it again gives the
float. -/
theorem C125_floats {K F : Type} (narrow : K → F) (widen : F → K) (h : ∀ x, narrow (widen x) = x) (v : Fin 3 → F)
    (q : EQuaternion F) :
    pointToVector3f narrow (vector3fToPoint widen v) = v ∧ vector3ToVector3f narrow (vector3fToVector3 widen v) = v ∧
    quaternionToEigenf narrow (eigenfToQuaternion widen q) = q := by
  refine ⟨?_, ?_, ?_⟩
  · ext i; fin_cases i <;> exact h _
  · ext i; fin_cases i <;> exact h _
  · simp [quaternionToEigenf, eigenfToQuaternion, h]

/-- Numbers with fewer digits: halves among quarters, as integers -/
example : ∀ x : Int, (fun n : Int => n / 2) ((fun n : Int => 2 * n) x) = x := by intro x; simp only; omega

theorem eachLoop_spec {α β : Type} (f : α → β) (input : List α) : ∀ (k idx : Nat) (output : List β),
    input.length - idx = k → idx ≤ input.length → output.length = input.length →
    output.take idx = (input.take idx).map f → eachLoop f input idx output = .ok (input.map f) := by
  intro k
  induction k with
  | zero =>
    intro idx output hk hi hl ht
    have : idx = input.length := by omega
    rw [eachLoop, dif_neg (by omega)]
    rw [this, ← hl, List.take_length, hl, List.take_length] at ht
    rw [ht]
  | succ k ih =>
    intro idx output hk hi hl ht
    have hlt : idx < input.length := by omega
    rw [eachLoop, dif_pos hlt, if_pos (by omega)]
    refine ih (idx + 1) _ (by omega) (by omega) (by rw [List.length_set]; exact hl) ?_
    rw [List.take_succ_eq_append_getElem hlt, List.map_append, ← ht,
      List.take_succ_eq_append_getElem (by rw [List.length_set]; omega), List.getElem_set_self, List.take_set_of_le (le_refl _)]
    rfl

/-- C125: the conversion of a vector has as many elements, each the conversion of the one at its place, and never
leaves the vectors. -/
theorem C125_each {α β : Type} [Inhabited β] (f : α → β) (input : List α) : each f input = .ok (input.map f) :=
  eachLoop_spec f input _ 0 _ rfl (Nat.zero_le _) List.length_replicate rfl

/-- C125: a list of points becomes the matrix with the points as columns, and comes back as it was. -/
theorem C125_matrices {K : Type} [Inhabited K] [Inhabited (Point K)] (points : List (Point K))
    (columns : List (Fin 3 → K)) :
    pointsToMatrix points = .ok (points.map fun p => ![p.x, p.y, p.z]) ∧
    (do let m ← pointsToMatrix points; matrixToPoints m) = .ok points ∧
    (do let l ← matrixToPoints columns; pointsToMatrix l) = .ok columns ∧
    vectorsToMatrix columns = .ok columns ∧ matrixToVectors columns = .ok columns := by
  have h1 : ∀ l : List (Point K), pointsToMatrix l = .ok (l.map pointToVector3d) := fun l => C125_each _ l
  have h2 : ∀ l : List (Fin 3 → K), matrixToPoints l = .ok (l.map vector3dToPoint) := fun l => C125_each _ l
  have e : ∀ v : Fin 3 → K, pointToVector3d (vector3dToPoint v) = v := by
    intro v; ext i; fin_cases i <;> rfl
  refine ⟨h1 points, ?_, ?_, ?_, ?_⟩
  · rw [h1, Out.bind_ok, h2, List.map_map]
    exact congrArg Out.ok (List.map_id points)
  · rw [h2, Out.bind_ok, h1, List.map_map]
    have : pointToVector3d ∘ vector3dToPoint = (id : (Fin 3 → K) → Fin 3 → K) := funext e
    rw [this, List.map_id]
  · exact (C125_each _ columns).trans (by rw [List.map_id'])
  · exact (C125_each _ columns).trans (by rw [List.map_id'])

/-- C125: a pose whose orientation turns by angle `a` about the unit axis `u` acts on points by the formula of
Rodrigues, then moves them by its position. Poses and transforms are isometries with rotation matrices. -/
theorem C125_pose_acts (u v : Fin 3 → ℝ) (hu : Projection.length u = 1) (a px py pz : ℝ) :
    let q : Quaternion ℝ := { w := Real.cos (a / 2), x := Real.sin (a / 2) * u 0, y := Real.sin (a / 2) * u 1,
                              z := Real.sin (a / 2) * u 2 }
    apply (poseToIsometry ⟨⟨px, py, pz⟩, q⟩) v =
      Real.cos a • v + Real.sin a • (u ⨯₃ v) + ((1 - Real.cos a) * ∑ i, u i * v i) • u + ![px, py, pz] ∧
    poseToAffine ⟨⟨px, py, pz⟩, q⟩ = poseToIsometry ⟨⟨px, py, pz⟩, q⟩ ∧
    transformToIsometry ⟨⟨px, py, pz⟩, q⟩ = poseToIsometry ⟨⟨px, py, pz⟩, q⟩ ∧
    transformToAffine ⟨⟨px, py, pz⟩, q⟩ = poseToIsometry ⟨⟨px, py, pz⟩, q⟩ ∧
    IsRotationMatrix (poseToIsometry ⟨⟨px, py, pz⟩, q⟩).rotation := by
  intro q
  have huu : u 0 ^ 2 + u 1 ^ 2 + u 2 ^ 2 = 1 := by
    have : u ⬝ᵥ u = 1 := by rw [← Projection.norm_sq, ← Projection.length_eq, hu]; norm_num
    rw [vec3_dotProduct] at this; linarith
  have hN : (quat ⟨q.w, q.x, q.y, q.z⟩).squaredNorm = 1 := by
    have := Real.sin_sq_add_cos_sq (a / 2)
    simp only [quat, Quat.squaredNorm, q]
    linear_combination this + Real.sin (a / 2) ^ 2 * huu
  refine ⟨?_, rfl, rfl, rfl, toRotationMatrix_rotation hN⟩
  show toRotationMatrix (quat ⟨q.w, q.x, q.y, q.z⟩) *ᵥ v + ![px, py, pz] = _
  rw [← rotateVector_matrix hN]
  congr 1
  exact C85_axis_angle u hu a v

example : Projection.length (![0, 0, 1] : Fin 3 → ℝ) = 1 := by
  simp [Projection.length, Fin.sum_univ_three]

theorem zero_of_squares {a b c d : ℝ} (h : a ^ 2 + b ^ 2 + c ^ 2 + d ^ 2 = 0) : a = 0 ∧ b = 0 ∧ c = 0 ∧ d = 0 := by
  have ha := sq_nonneg a; have hb := sq_nonneg b; have hc := sq_nonneg c; have hd := sq_nonneg d
  exact ⟨pow_eq_zero_iff two_ne_zero |>.mp (by linarith), pow_eq_zero_iff two_ne_zero |>.mp (by linarith),
    pow_eq_zero_iff two_ne_zero |>.mp (by linarith), pow_eq_zero_iff two_ne_zero |>.mp (by linarith)⟩

/-- Two unit quaternions of the same rotation are equal or opposite. -/
theorem quat_unique {p q : Quat} (hp : p.squaredNorm = 1) (hq : q.squaredNorm = 1)
    (h : toRotationMatrix p = toRotationMatrix q) : p = q ∨ p = ⟨-q.w, -q.x, -q.y, -q.z⟩ := by
  rw [toRotationMatrix_raw hp, toRotationMatrix_raw hq] at h
  unfold Quat.squaredNorm at hp hq
  have e : ∀ i j, rawMatrix p i j = rawMatrix q i j := fun i j => by rw [h]
  have e00 := e 0 0; have e11 := e 1 1; have e22 := e 2 2
  have e01 := e 0 1; have e02 := e 0 2; have e10 := e 1 0; have e12 := e 1 2; have e20 := e 2 0; have e21 := e 2 1
  simp only [rawMatrix, of_apply, cons_val', cons_val_zero, cons_val_one, cons_val] at e00 e11 e22 e01 e02 e10 e12 e20 e21
  have ww : p.w * p.w = q.w * q.w := by linarith
  have xx : p.x * p.x = q.x * q.x := by linarith
  have yy : p.y * p.y = q.y * q.y := by linarith
  have zz : p.z * p.z = q.z * q.z := by linarith
  have wx : p.w * p.x = q.w * q.x := by linarith
  have wy : p.w * p.y = q.w * q.y := by linarith
  have wz : p.w * p.z = q.w * q.z := by linarith
  have xy : p.x * p.y = q.x * q.y := by linarith
  have xz : p.x * p.z = q.x * q.z := by linarith
  have yz : p.y * p.z = q.y * q.z := by linarith
  have hd : (p.w * q.w + p.x * q.x + p.y * q.y + p.z * q.z) ^ 2 = 1 := by
    have : (p.w * q.w + p.x * q.x + p.y * q.y + p.z * q.z) ^ 2 =
        (p.w * p.w) * (q.w * q.w) + (p.x * p.x) * (q.x * q.x) + (p.y * p.y) * (q.y * q.y) + (p.z * p.z) * (q.z * q.z) +
        2 * ((p.w * p.x) * (q.w * q.x) + (p.w * p.y) * (q.w * q.y) + (p.w * p.z) * (q.w * q.z) +
          (p.x * p.y) * (q.x * q.y) + (p.x * p.z) * (q.x * q.z) + (p.y * p.z) * (q.y * q.z)) := by ring
    rw [this, ww, xx, yy, zz, wx, wy, wz, xy, xz, yz]
    linear_combination (q.w ^ 2 + q.x ^ 2 + q.y ^ 2 + q.z ^ 2 + 1) * hq
  obtain ⟨pw, px, py, pz⟩ := p
  obtain ⟨qw, qx, qy, qz⟩ := q
  simp only at *
  clear e e00 e11 e22 e01 e02 e10 e12 e20 e21 h ww xx yy zz wx wy wz xy xz yz
  rcases sq_eq_one_iff.mp hd with h1 | h1
  · left
    obtain ⟨h1, h2, h3, h4⟩ := zero_of_squares (a := pw - qw) (b := px - qx) (c := py - qy) (d := pz - qz)
      (by linear_combination hp + hq - 2 * h1)
    rw [Quat.mk.injEq]
    exact ⟨by linarith, by linarith, by linarith, by linarith⟩
  · right
    obtain ⟨h1, h2, h3, h4⟩ := zero_of_squares (a := pw + qw) (b := px + qx) (c := py + qy) (d := pz + qz)
      (by linear_combination hp + hq + 2 * h1)
    rw [Quat.mk.injEq]
    exact ⟨by linarith, by linarith, by linarith, by linarith⟩

/-- C125: the rotation part of a linear map is the rotation that is left when a positive definite symmetric map, a
stretch, is taken off. -/
theorem C125_rotation_part {svd : Mat3 → Svd} {R S : Mat3} (hR : IsRotationMatrix R) (hS : S.PosDef)
    (hsvd : IsSvd (R * S) (svd (R * S))) : rotationPart svd (R * S) = R := by
  obtain ⟨hu, hv, hs, hp⟩ := hsvd
  unfold rotationPart
  simp only
  generalize svd (R * S) = d at hu hv hs hp
  have hv' : d.v * d.vᵀ = 1 := mul_eq_one_comm.mp hv
  have hu' : d.u * d.uᵀ = 1 := mul_eq_one_comm.mp hu
  have hD : (diagonal d.s).PosSemidef := PosSemidef.diagonal hs
  have hP : (d.v * diagonal d.s * d.vᵀ).PosSemidef := by
    have := hD.mul_mul_conjTranspose_same d.v
    rwa [conjTranspose_eq_transpose_of_trivial] at this
  have hSS : S * S = (d.v * diagonal d.s * d.vᵀ) * (d.v * diagonal d.s * d.vᵀ) := by
    have h1 : (R * S)ᵀ * (R * S) = S * S := by
      rw [transpose_mul, show Sᵀ = S from by
        have := hS.isHermitian.eq; rwa [conjTranspose_eq_transpose_of_trivial] at this]
      rw [Matrix.mul_assoc, ← Matrix.mul_assoc Rᵀ, hR.1, Matrix.one_mul]
    rw [← h1, ← hp]
    simp only [transpose_mul, transpose_transpose, diagonal_transpose, Matrix.mul_assoc]
    rw [← Matrix.mul_assoc d.uᵀ d.u, hu, Matrix.one_mul, ← Matrix.mul_assoc d.vᵀ d.v, hv, Matrix.one_mul]
  have hSP : S = d.v * diagonal d.s * d.vᵀ := by
    rw [← CFC.sqrt_unique (a := S * S) rfl hS.posSemidef.nonneg]
    exact CFC.sqrt_unique hSS.symm hP.nonneg
  have hRU : R = d.u * d.vᵀ := by
    have h1 : R * S = d.u * d.vᵀ * S := by
      rw [← hp]
      conv_rhs => rw [hSP]
      simp only [Matrix.mul_assoc]
      rw [← Matrix.mul_assoc d.vᵀ d.v, hv, Matrix.one_mul]
    have hdet : IsUnit S.det := (hS.det_pos).ne'.isUnit
    let := S.invertibleOfIsUnitDet hdet
    exact (Matrix.mul_left_inj_of_invertible S).mp h1
  rw [← hRU, hR.2]
  simp only [div_one, ite_self]
  rw [hRU]
  rfl

/-- C125: the rotation part of every linear map, mirroring or not, is a rotation. -/
theorem C125_rotation_part_proper {svd : Mat3 → Svd} {m : Mat3} (hsvd : IsSvd m (svd m)) :
    IsRotationMatrix (rotationPart svd m) := by
  obtain ⟨hu, hv, -, -⟩ := hsvd
  unfold rotationPart
  simp only
  generalize svd m = d at hu hv
  have hv' : d.v * d.vᵀ = 1 := mul_eq_one_comm.mp hv
  have hdu : d.u.det * d.u.det = 1 := by
    have := congrArg Matrix.det hu
    rwa [det_mul, det_transpose, det_one] at this
  have hdv : d.v.det * d.v.det = 1 := by
    have := congrArg Matrix.det hv
    rwa [det_mul, det_transpose, det_one] at this
  obtain ⟨x, hx⟩ : ∃ x, x = (d.u * d.vᵀ).det := ⟨_, rfl⟩
  rw [← hx]
  have hx' : x = d.u.det * d.v.det := by rw [hx, det_mul, det_transpose]
  have hxx : x * x = 1 := by rw [hx']; linear_combination d.v.det * d.v.det * hdu + hdv
  have hx0 : x ≠ 0 := by rintro rfl; simp at hxx
  have hinv : x⁻¹ = x := inv_eq_of_mul_eq_one_left hxx
  have hw : (Matrix.of fun i j => if j = 0 then d.u i j / x else d.u i j) = d.u * diagonal ![x, 1, 1] := by
    ext i j
    rw [mul_diagonal]
    fin_cases j <;> simp [div_eq_mul_inv, hinv]
  have hd : (diagonal ![x, 1, 1] : Mat3) * diagonal ![x, 1, 1] = 1 := by
    rw [diagonal_mul_diagonal, ← diagonal_one]
    congr 1
    ext i
    fin_cases i <;> simp [hxx]
  rw [hw]
  constructor
  · rw [transpose_mul, transpose_mul, transpose_transpose, diagonal_transpose]
    calc d.v * (diagonal ![x, 1, 1] * d.uᵀ) * (d.u * diagonal ![x, 1, 1] * d.vᵀ)
        = d.v * (diagonal ![x, 1, 1] * (d.uᵀ * d.u) * diagonal ![x, 1, 1]) * d.vᵀ := by
          simp only [Matrix.mul_assoc]
      _ = 1 := by rw [hu, Matrix.mul_one, hd, Matrix.mul_one, hv']
  · rw [det_mul, det_mul, det_transpose, det_diagonal, Fin.prod_univ_three]
    simp only [cons_val_zero, cons_val_one, cons_val]
    rw [hx']
    linear_combination d.v.det * d.v.det * hdu + hdv

theorem rotationPart_rotation {svd : Mat3 → Svd} {R : Mat3} (hR : IsRotationMatrix R) (hsvd : IsSvd R (svd R)) :
    rotationPart svd R = R := by
  have := C125_rotation_part (svd := svd) (R := R) (S := 1) hR PosDef.one (by rwa [Matrix.mul_one])
  rwa [Matrix.mul_one] at this

example : IsSvd (aboutX 1) ⟨aboutX 1, fun _ => 1, 1⟩ :=
  ⟨(aboutX_rotation 1).1, by simp, fun _ => zero_le_one, by simp⟩

/-- A stretch by two after a turn -/
example : ∃ svd : Mat3 → Svd, IsRotationMatrix (aboutX 1) ∧ (diagonal fun _ => 2 : Mat3).PosDef ∧
    IsSvd (aboutX 1 * diagonal fun _ => 2) (svd (aboutX 1 * diagonal fun _ => 2)) :=
  ⟨fun _ => ⟨aboutX 1, fun _ => 2, 1⟩, aboutX_rotation 1, PosDef.diagonal fun _ => two_pos,
    ⟨(aboutX_rotation 1).1, by simp, fun _ => zero_le_two, by simp⟩⟩

/-- C125: an isometry comes back from a pose or a transform as it was; its message has an orientation of length one,
the position of the isometry, and the frame given. -/
theorem C125_isometry_roundtrip {svd : Mat3 → Svd} (T : Transform) (hT : IsRotationMatrix T.rotation)
    (hsvd : IsSvd T.rotation (svd T.rotation)) (frame : String) :
    poseToIsometry (isometryToPose svd T) = T ∧ poseToAffine (affineToPose svd T) = T ∧
    transformToIsometry (isometryToTransform svd T) = T ∧ transformToAffine (affineToTransform svd T) = T ∧
    (isometryToPose svd T).orientation.w ^ 2 + (isometryToPose svd T).orientation.x ^ 2 +
      (isometryToPose svd T).orientation.y ^ 2 + (isometryToPose svd T).orientation.z ^ 2 = 1 ∧
    isometryToPoseStamped svd T frame = ⟨frame, isometryToPose svd T⟩ ∧
    affineToPoseStamped svd T frame = ⟨frame, affineToPose svd T⟩ ∧
    isometryToTransformStamped svd T frame = ⟨frame, isometryToTransform svd T⟩ := by
  have h := rotationPart_rotation hT hsvd
  have key : translationTimesQuat ![T.translation 0, T.translation 1, T.translation 2]
      (eigenOfMatrix (rotationPart svd T.rotation)) = T := by
    rw [h]
    unfold translationTimesQuat
    have e : (![T.translation 0, T.translation 1, T.translation 2] : Fin 3 → ℝ) = T.translation := by
      ext i; fin_cases i <;> rfl
    rw [e]
    have : toRotationMatrix (quat (eigenOfMatrix T.rotation)) = T.rotation := (ofMatrix_spec hT).2
    rw [this]
  refine ⟨key, key, key, key, ?_, rfl, rfl, rfl⟩
  have := (ofMatrix_spec hT).1
  unfold isometryToPose
  rw [h]
  exact this

/-- C125: a pose or transform with an orientation of length one comes back from an isometry with the same position
and the same or the opposite quaternion, which is the same orientation. -/
theorem C125_pose_roundtrip {svd : Mat3 → Svd} (p : Conversions.Pose ℝ)
    (hq : p.orientation.w ^ 2 + p.orientation.x ^ 2 + p.orientation.y ^ 2 + p.orientation.z ^ 2 = 1)
    (hsvd : IsSvd (poseToIsometry p).rotation (svd (poseToIsometry p).rotation)) :
    let r := isometryToPose svd (poseToIsometry p)
    r.position = p.position ∧ affineToPose svd (poseToAffine p) = r ∧
    (r.orientation = p.orientation ∨ 
      r.orientation = ⟨-p.orientation.x, -p.orientation.y, -p.orientation.z, -p.orientation.w⟩) := by
  intro r
  refine ⟨rfl, rfl, ?_⟩
  have hN : (quat ⟨p.orientation.w, p.orientation.x, p.orientation.y, p.orientation.z⟩).squaredNorm = 1 := hq
  have hT : IsRotationMatrix (poseToIsometry p).rotation := toRotationMatrix_rotation hN
  obtain ⟨h1, h2⟩ := ofMatrix_spec hT
  have := quat_unique h1 hN h2
  have hr : r.orientation = ⟨(ofMatrix (poseToIsometry p).rotation).x, (ofMatrix (poseToIsometry p).rotation).y,
      (ofMatrix (poseToIsometry p).rotation).z, (ofMatrix (poseToIsometry p).rotation).w⟩ := by
    show Quaternion.mk _ _ _ _ = _
    rw [rotationPart_rotation hT hsvd]
    rfl
  rw [hr]
  rcases this with h | h <;> rw [h]
  · left; rfl
  · right; rfl

/-- A pose that is turned about the first axis -/
example : let p : Conversions.Pose ℝ := ⟨⟨1, 2, 3⟩, { x := 3 / 5, y := 0, z := 0, w := 4 / 5 }⟩
    p.orientation.w ^ 2 + p.orientation.x ^ 2 + p.orientation.y ^ 2 + p.orientation.z ^ 2 = 1 ∧
    IsSvd (poseToIsometry p).rotation ((fun m => ⟨m, fun _ => 1, 1⟩ : Mat3 → Svd) (poseToIsometry p).rotation) := by
  intro p
  have h : p.orientation.w ^ 2 + p.orientation.x ^ 2 + p.orientation.y ^ 2 + p.orientation.z ^ 2 = 1 := by
    simp only [p]; norm_num
  refine ⟨h, ⟨?_, by simp, fun _ => zero_le_one, by simp⟩⟩
  exact (toRotationMatrix_rotation (q := quat ⟨p.orientation.w, p.orientation.x, p.orientation.y, p.orientation.z⟩) h).1

/-- C125: the quaternion of a rotation matrix has length one and is that of the rotation. -/
theorem C125_matrix (R : Mat3) (hR : IsRotationMatrix R) (v : Fin 3 → ℝ) :
    let q := matrixToQuaternion R
    q.w ^ 2 + q.x ^ 2 + q.y ^ 2 + q.z ^ 2 = 1 ∧ (poseToIsometry ⟨⟨0, 0, 0⟩, q⟩).rotation = R ∧
    apply (poseToIsometry ⟨⟨v 0, v 1, v 2⟩, q⟩) 0 = v := by
  refine ⟨(ofMatrix_spec hR).1, (ofMatrix_spec hR).2, ?_⟩
  simp only [apply, mulVec_zero, zero_add]
  ext i; fin_cases i <;> rfl

/-- C125: a message that was never filled in has a zero quaternion; it becomes the identity. -/
theorem C125_default : poseToIsometry ⟨⟨0, 0, 0⟩, ⟨0, 0, 0, 0⟩⟩ = ⟨1, 0⟩ := by
  unfold poseToIsometry translationTimesQuat quat toRotationMatrix
  simp only [Transform.mk.injEq]
  constructor
  · ext i j; fin_cases i <;> fin_cases j <;> simp
  · ext i; fin_cases i <;> rfl

/-- C125 is false of a quaternion that does not have length one: the isometry is no rigid motion. -/
theorem C125_not_unit : ¬ IsRotationMatrix (poseToIsometry ⟨⟨0, 0, 0⟩, { x := 2, y := 0, z := 0, w := 0 }⟩).rotation := by
  rintro ⟨h, -⟩
  have := congrFun (congrFun h 1) 1
  rw [Matrix.mul_apply, Fin.sum_univ_three] at this
  simp only [Matrix.transpose_apply, poseToIsometry, translationTimesQuat, quat, toRotationMatrix, Matrix.of_apply,
    Matrix.cons_val] at this
  norm_num at this

/-- C125: applying a transform to pairs and vectors applies it to each; transforms applied one after the other are
their product applied once; a translation becomes the transform to the moved point with the rotation of the
transform; distances are kept by rotations. -/
theorem C125_apply [Inhabited Transform] (S T : Transform) (p q : Fin 3 → ℝ) (points : List (Fin 3 → ℝ))
    (poses : List Transform) :
    transformPair T (p, q) = (T.rotation *ᵥ p + T.translation, T.rotation *ᵥ q + T.translation) ∧
    transformTranslations T (p, q) =
      (⟨T.rotation, (transformPair T (p, q)).1⟩, ⟨T.rotation, (transformPair T (p, q)).2⟩) ∧
    transformPoints T points = .ok (points.map fun v => T.rotation *ᵥ v + T.translation) ∧
    (do let l ← transformPoints T points; transformPoints S l) = transformPoints (S.mul T) points ∧
    transformPoses T poses = .ok (poses.map fun P => ⟨T.rotation * P.rotation, T.rotation *ᵥ P.translation + T.translation⟩) ∧
    (IsRotationMatrix T.rotation → Projection.length ((transformPair T (p, q)).1 - (transformPair T (p, q)).2) =
      Projection.length (p - q)) := by
  refine ⟨rfl, ?_, C125_each _ _, ?_, C125_each _ _, ?_⟩
  · simp [transformTranslations, transformPair, Transform.mul, apply]
  · unfold transformPoints
    rw [C125_each, Out.bind_ok, C125_each, C125_each, List.map_map]
    congr 2
    funext v
    simp [apply, Transform.mul, Matrix.mulVec_add, Matrix.mulVec_mulVec, add_assoc]
  · intro hT
    have e : (transformPair T (p, q)).1 - (transformPair T (p, q)).2 = T.rotation *ᵥ (p - q) := by
      simp [transformPair, apply, Matrix.mulVec_sub]
    rw [e]
    have h : (T.rotation *ᵥ (p - q)) ⬝ᵥ (T.rotation *ᵥ (p - q)) = (p - q) ⬝ᵥ (p - q) := by
      rw [Matrix.dotProduct_mulVec, Matrix.vecMul_mulVec, hT.1, Matrix.vecMul_one]
    have n : ∀ w : Fin 3 → ℝ, Projection.length w = √(w ⬝ᵥ w) := by
      intro w; simp [Projection.length, dotProduct, sq]
    rw [n, n, h]

/-- C125: the conversion of a vector to a standard vector reads past its end, unless the vector is empty. -/
theorem C125_std_undefined {K : Type} (v : List K) :
    (v ≠ [] → vectorXdToStd v = .ub) ∧ (v = [] → vectorXdToStd v = .ok []) := by
  constructor
  · intro h
    have : 0 < v.length := List.length_pos_iff.mpr h
    unfold vectorXdToStd
    rw [if_neg (by omega)]
  · rintro rfl
    rfl

end Verif.Conversions
