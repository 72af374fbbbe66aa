import Verif.Props.RandomRotation

/-!
# C121: random Euler angles
-/
namespace Verif.RandomRotation
open Verif MeasureTheory Set ENNReal Verif.Kinematics Verif.Pose Verif.Draws Verif.Sphere Verif.UniformDraws

variable {σ : Type} (uniform : σ → ℝ × σ)

/-- The pitch before it may be turned by half a turn -/
noncomputable def basePitch (b : ℝ) : ℝ := Real.arccos (1 - 2 * b) + Real.pi / 2

/-- The angles made of four draws -/
noncomputable def anglesOf (x : Fin 4 → ℝ) : Fin 3 → ℝ :=
  ![2 * Real.pi * x 0 - Real.pi,
    if x 2 < 0.5 then (if basePitch (x 1) < Real.pi then basePitch (x 1) + Real.pi else basePitch (x 1) - Real.pi)
      else basePitch (x 1),
    2 * Real.pi * x 3 - Real.pi]

theorem getEulerAngles_eq (g : σ) :
    getEulerAngles uniform g = (anglesOf fun i => drawAt uniform g i, stateAfter uniform g 4) := rfl

/-- **C121.** Three angles take four draws. Roll and yaw are in [-π, π) and pitch is in [0, 2π). -/
theorem C121_range (g : σ) (h : ∀ k < 4, 0 ≤ drawAt uniform g k ∧ drawAt uniform g k < 1) :
    (getEulerAngles uniform g).2 = stateAfter uniform g 4 ∧
    (getEulerAngles uniform g).1 0 ∈ Ico (-Real.pi) Real.pi ∧
    (getEulerAngles uniform g).1 1 ∈ Ico 0 (2 * Real.pi) ∧
    (getEulerAngles uniform g).1 2 ∈ Ico (-Real.pi) Real.pi := by
  have hp := Real.pi_pos
  rw [getEulerAngles_eq]
  obtain ⟨a0, a1⟩ := h 0 (by omega)
  obtain ⟨b0, b1⟩ := h 1 (by omega)
  obtain ⟨d0, d1⟩ := h 3 (by omega)
  have t0 := Real.arccos_nonneg (1 - 2 * drawAt uniform g 1)
  have t1 : Real.arccos (1 - 2 * drawAt uniform g 1) < Real.pi := by
    rw [← Real.arccos_neg_one]
    exact Real.arccos_lt_arccos (by norm_num) (by linarith) (by linarith)
  refine ⟨rfl, ⟨?_, ?_⟩, ?_, ⟨?_, ?_⟩⟩
  · change -Real.pi ≤ 2 * Real.pi * drawAt uniform g 0 - Real.pi
    nlinarith
  · change 2 * Real.pi * drawAt uniform g 0 - Real.pi < Real.pi
    nlinarith
  · change (if drawAt uniform g 2 < 0.5 then (if basePitch (drawAt uniform g 1) < Real.pi then
      basePitch (drawAt uniform g 1) + Real.pi else basePitch (drawAt uniform g 1) - Real.pi)
      else basePitch (drawAt uniform g 1)) ∈ Ico 0 (2 * Real.pi)
    unfold basePitch
    split
    · split
      · constructor <;> linarith
      · constructor <;> linarith
    · constructor <;> linarith
  · change -Real.pi ≤ 2 * Real.pi * drawAt uniform g 3 - Real.pi
    nlinarith
  · change 2 * Real.pi * drawAt uniform g 3 - Real.pi < Real.pi
    nlinarith

/-- **C121.** The raw form lists roll, pitch and yaw, in this order. -/
theorem C121_raw (g : σ) : getRawEulerAngles uniform g =
    ([(getEulerAngles uniform g).1 0, (getEulerAngles uniform g).1 1, (getEulerAngles uniform g).1 2],
      (getEulerAngles uniform g).2) := rfl

/-- The hypothesis of `C121_range` is met by a generator that always gives 1/4. -/
example : (getEulerAngles (fun g : Nat => ((1 / 4 : ℝ), g + 1)) 7).2 = 11 :=
  (C121_range _ 7 fun k _ => by simp [drawAt]; norm_num).1

/-! ### The law -/

theorem aboutY_rotation (a : ℝ) : IsRotationMatrix (aboutY a) := by
  rw [← matrix_y]; exact toRotationMatrix_rotation (sq_y a)

theorem aboutZ_rotation (a : ℝ) : IsRotationMatrix (aboutZ a) := by
  rw [← matrix_z]; exact toRotationMatrix_rotation (sq_z a)

theorem aboutY_mul (a b : ℝ) : aboutY a * aboutY b = aboutY (a + b) := by
  unfold aboutY
  rw [Real.cos_add, Real.sin_add]
  ext i j
  fin_cases i <;> fin_cases j <;> simp [Matrix.mul_apply, Fin.sum_univ_three] <;> ring

theorem aboutY_period (a : ℝ) : aboutY (a - Real.pi) = aboutY (a + Real.pi) := by
  unfold aboutY
  rw [Real.cos_sub_pi, Real.sin_sub_pi, Real.cos_add_pi, Real.sin_add_pi]

/-- A quarter of a turn about y brings x to -z. -/
theorem quarter_x (r : ℝ) : aboutY (Real.pi / 2) * aboutX r = aboutZ (-r) * aboutY (Real.pi / 2) := by
  unfold aboutX aboutY aboutZ
  ext i j
  fin_cases i <;> fin_cases j <;> simp [Matrix.mul_apply, Fin.sum_univ_three]

theorem x_quarter (r : ℝ) : aboutX r * aboutY (Real.pi / 2) = aboutY (Real.pi / 2) * aboutZ r := by
  unfold aboutX aboutY aboutZ
  ext i j
  fin_cases i <;> fin_cases j <;> simp [Matrix.mul_apply, Fin.sum_univ_three]

theorem half_z (r : ℝ) : aboutY Real.pi * aboutZ r = aboutZ (-r) * aboutY Real.pi := by
  unfold aboutY aboutZ
  ext i j
  fin_cases i <;> fin_cases j <;> simp [Matrix.mul_apply, Fin.sum_univ_three]

/-- Turns about z, y and z from three draws -/
noncomputable def zyz (a b d : ℝ) : Mat3 :=
  aboutZ (2 * Real.pi * a - Real.pi) * aboutY (Real.arccos (1 - 2 * b)) * aboutZ (2 * Real.pi * d - Real.pi)

theorem zyz_rot (a d : ℝ) {b : ℝ} (hb : b ∈ Ioo (0 : ℝ) 1) :
    zyz a b d = rot (point (1 - b) ((d - a) / 2) ((a + d) / 2 + -(1 / 2))) := by
  have t0 := Real.arccos_nonneg (1 - 2 * b)
  have t1 := Real.arccos_le_pi (1 - 2 * b)
  have hp := Real.pi_pos
  have hcos : Real.cos (Real.arccos (1 - 2 * b)) = 1 - 2 * b := Real.cos_arccos (by linarith [hb.2]) (by linarith [hb.1])
  have hc : Real.cos (1 / 2 * Real.arccos (1 - 2 * b)) = √(1 - b) := by
    rw [show 1 / 2 * Real.arccos (1 - 2 * b) = Real.arccos (1 - 2 * b) / 2 by ring, Real.cos_half (by linarith) t1, hcos]
    congr 1; ring
  have hs : Real.sin (1 / 2 * Real.arccos (1 - 2 * b)) = √b := by
    rw [show 1 / 2 * Real.arccos (1 - 2 * b) = Real.arccos (1 - 2 * b) / 2 by ring,
      Real.sin_half_eq_sqrt t0 (by linarith), hcos]
    congr 1; ring
  unfold zyz rot
  rw [← matrix_z, ← matrix_y, ← matrix_z, ← toRotationMatrix_mul (sq_z _) (sq_y _),
    ← toRotationMatrix_mul (by rw [mul_sq, sq_z, sq_y, one_mul]) (sq_z _)]
  congr 1
  have e1 : 2 * Real.pi * ((d - a) / 2) = 1 / 2 * (2 * Real.pi * d - Real.pi) - 1 / 2 * (2 * Real.pi * a - Real.pi) := by ring
  have e2 : 2 * Real.pi * ((a + d) / 2 + -(1 / 2)) = 1 / 2 * (2 * Real.pi * a - Real.pi) + 1 / 2 * (2 * Real.pi * d - Real.pi) := by
    ring
  unfold point
  rw [e1, e2, show (1 : ℝ) - (1 - b) = b by ring, Real.cos_sub, Real.sin_sub, Real.cos_add, Real.sin_add]
  simp only [quat, ofAngleAxis, Quat.mul, hc, hs]
  ext <;> simp <;> ring

theorem point_neg (u v w : ℝ) : rot (point u (v + 1 / 2) (w + 1 / 2)) = rot (point u v w) := by
  unfold rot
  rw [← neg_matrix]
  congr 1
  have e : ∀ v : ℝ, 2 * Real.pi * (v + 1 / 2) = 2 * Real.pi * v + Real.pi := fun v => by ring
  simp only [point, quat, e, Real.cos_add_pi, Real.sin_add_pi]
  ext <;> simp

theorem point_period (u v w : ℝ) : point u v (w + 1) = point u v w := by
  have e : 2 * Real.pi * (w + 1) = 2 * Real.pi * w + 2 * Real.pi := by ring
  simp only [point, e, Real.cos_add_two_pi, Real.sin_add_two_pi]

theorem measurable_aboutY {α : Type} [MeasurableSpace α] {f : α → ℝ} (hf : Measurable f) : Measurable fun a => aboutY (f a) := by
  refine measurable_matrix fun i j => ?_
  unfold aboutY
  fin_cases i <;> fin_cases j <;> simp <;> fun_prop

theorem measurable_aboutX {α : Type} [MeasurableSpace α] {f : α → ℝ} (hf : Measurable f) : Measurable fun a => aboutX (f a) := by
  refine measurable_matrix fun i j => ?_
  unfold aboutX
  fin_cases i <;> fin_cases j <;> simp <;> fun_prop

theorem measurable_aboutZ {α : Type} [MeasurableSpace α] {f : α → ℝ} (hf : Measurable f) : Measurable fun a => aboutZ (f a) := by
  refine measurable_matrix fun i j => ?_
  unfold aboutZ
  fin_cases i <;> fin_cases j <;> simp <;> fun_prop

theorem measurable_zyz {α : Type} [MeasurableSpace α] {f g h : α → ℝ} (hf : Measurable f) (hg : Measurable g) (hh : Measurable h) :
    Measurable fun x => zyz (f x) (g x) (h x) :=
  measurable_mul (measurable_mul (measurable_aboutZ (by fun_prop)) (measurable_aboutY (Real.measurable_arccos.comp (by fun_prop))))
    (measurable_aboutZ (by fun_prop))

/-- Turns about z, y and z are uniform. -/
theorem zyz_avg (h : Mat3 → ℝ≥0∞) (hh : Measurable h) :
    ∫⁻ a in Ioo (0 : ℝ) 1, ∫⁻ b in Ioo (0 : ℝ) 1, ∫⁻ d in Ioo (0 : ℝ) 1, h (zyz a b d) = avg fun p => h (rot p) := by
  have hm : Measurable fun p : ℝ × ℝ => ∫⁻ d in Ioo (0 : ℝ) 1, h (zyz p.1 p.2 d) :=
    (hh.comp (measurable_zyz (f := fun x : (ℝ × ℝ) × ℝ => x.1.1) (g := fun x => x.1.2) (h := fun x => x.2)
      (by fun_prop) (by fun_prop) (by fun_prop))).lintegral_prod_right'
  rw [lintegral_lintegral_swap hm.aemeasurable]
  unfold avg
  conv_rhs => rw [← reflect]
  refine setLIntegral_congr_fun measurableSet_Ioo fun b hb => ?_
  beta_reduce
  rw [← shear (fun v w => h (rot (point (1 - b) v w))) (hh.comp (measurable_rot.comp (by unfold point; fun_prop)))
    (fun v w => by rw [point_period]) (fun v w => by rw [point_neg]) (-(1 / 2))]
  refine lintegral_congr fun a => lintegral_congr fun d => ?_
  rw [zyz_rot a d hb]

/-- ... also seen from anywhere -/
theorem zyz_sides (h : Mat3 → ℝ≥0∞) (hh : Measurable h) {S T : Mat3} (hS : IsRotationMatrix S) (hT : IsRotationMatrix T) :
    ∫⁻ a in Ioo (0 : ℝ) 1, ∫⁻ b in Ioo (0 : ℝ) 1, ∫⁻ d in Ioo (0 : ℝ) 1, h (S * zyz a b d * T) = avg fun p => h (rot p) := by
  rw [zyz_avg (fun R => h (S * R * T))
    (hh.comp (measurable_mul (measurable_mul measurable_const measurable_id) measurable_const)), avg_sides h hh hS hT]

/-- The first and the last draw exchanged -/
theorem exchange (F : ℝ → ℝ → ℝ → ℝ≥0∞) (hF : Measurable fun p : (ℝ × ℝ) × ℝ => F p.1.1 p.1.2 p.2) :
    ∫⁻ a in Ioo (0 : ℝ) 1, ∫⁻ b in Ioo (0 : ℝ) 1, ∫⁻ d in Ioo (0 : ℝ) 1, F d b a =
      ∫⁻ a in Ioo (0 : ℝ) 1, ∫⁻ b in Ioo (0 : ℝ) 1, ∫⁻ d in Ioo (0 : ℝ) 1, F a b d := by
  have e1 : ∀ a : ℝ, ∫⁻ b in Ioo (0 : ℝ) 1, ∫⁻ d in Ioo (0 : ℝ) 1, F d b a = ∫⁻ d in Ioo (0 : ℝ) 1, ∫⁻ b in Ioo (0 : ℝ) 1, F d b a :=
    fun a => by
      have m : Measurable fun p : ℝ × ℝ => F p.2 p.1 a := hF.comp (f := fun p : ℝ × ℝ => ((p.2, p.1), a)) (by fun_prop)
      exact lintegral_lintegral_swap m.aemeasurable
  simp only [e1]
  have m2 : Measurable fun p : ℝ × ℝ => ∫⁻ b in Ioo (0 : ℝ) 1, F p.2 b p.1 :=
    (hF.comp (f := fun x : (ℝ × ℝ) × ℝ => ((x.1.2, x.2), x.1.1)) (by fun_prop)).lintegral_prod_right'
  rw [lintegral_lintegral_swap m2.aemeasurable]
  refine lintegral_congr fun d => ?_
  have m3 : Measurable fun p : ℝ × ℝ => F d p.2 p.1 := hF.comp (f := fun p : ℝ × ℝ => ((d, p.2), p.1)) (by fun_prop)
  exact lintegral_lintegral_swap m3.aemeasurable

theorem zyz_swapped (h : Mat3 → ℝ≥0∞) (hh : Measurable h) {S T : Mat3} (hS : IsRotationMatrix S) (hT : IsRotationMatrix T) :
    ∫⁻ a in Ioo (0 : ℝ) 1, ∫⁻ b in Ioo (0 : ℝ) 1, ∫⁻ d in Ioo (0 : ℝ) 1, h (S * zyz d b (1 - a) * T) = avg fun p => h (rot p) := by
  have hz : Measurable fun p : (ℝ × ℝ) × ℝ => h (S * zyz p.1.1 p.1.2 p.2 * T) :=
    hh.comp (measurable_mul (measurable_mul measurable_const (measurable_zyz (f := fun p : (ℝ × ℝ) × ℝ => p.1.1)
      (g := fun p => p.1.2) (h := fun p => p.2) (by fun_prop) (by fun_prop) (by fun_prop))) measurable_const)
  rw [← zyz_sides h hh hS hT, ← exchange (fun a b d => h (S * zyz a b d * T)) hz]
  exact reflect fun a => ∫⁻ b in Ioo (0 : ℝ) 1, ∫⁻ d in Ioo (0 : ℝ) 1, h (S * zyz d b a * T)

/-- Half of the draws turn the pitch. -/
theorem coin (F G : ℝ → ℝ → ℝ → ℝ≥0∞) (hF : Measurable fun p : (ℝ × ℝ) × ℝ => F p.1.1 p.1.2 p.2)
    (I : ℝ≥0∞)
    (h1 : ∫⁻ a in Ioo (0 : ℝ) 1, ∫⁻ b in Ioo (0 : ℝ) 1, ∫⁻ d in Ioo (0 : ℝ) 1, F a b d = I)
    (h2 : ∫⁻ a in Ioo (0 : ℝ) 1, ∫⁻ b in Ioo (0 : ℝ) 1, ∫⁻ d in Ioo (0 : ℝ) 1, G a b d = I) :
    ∫⁻ a in Ioo (0 : ℝ) 1, ∫⁻ b in Ioo (0 : ℝ) 1, ∫⁻ c in Ioo (0 : ℝ) 1, ∫⁻ d in Ioo (0 : ℝ) 1,
      (if c < 0.5 then F a b d else G a b d) = I := by
  have e1 : ∀ a b : ℝ, ∫⁻ c in Ioo (0 : ℝ) 1, ∫⁻ d in Ioo (0 : ℝ) 1, (if c < 0.5 then F a b d else G a b d) =
      ENNReal.ofReal (1 / 2) * (∫⁻ d in Ioo (0 : ℝ) 1, F a b d) + ENNReal.ofReal (1 / 2) * (∫⁻ d in Ioo (0 : ℝ) 1, G a b d) := by
    intro a b
    have hu : Ioo (0 : ℝ) 1 = Ioo 0 (1 / 2) ∪ Ico (1 / 2) 1 := (Ioo_union_Ico_eq_Ioo (by norm_num) (by norm_num)).symm
    have hd : Disjoint (Ioo (0 : ℝ) (1 / 2)) (Ico (1 / 2) 1) :=
      Set.disjoint_left.2 fun x hx hy => absurd hx.2 (not_lt.2 hy.1)
    conv_lhs => rw [hu]
    rw [lintegral_union measurableSet_Ico hd]
    congr 1
    · rw [setLIntegral_congr_fun (g := fun _ => ∫⁻ d in Ioo (0 : ℝ) 1, F a b d) measurableSet_Ioo fun c hc => by
        have : c < 0.5 := by have := hc.2; norm_num at this ⊢; linarith
        simp only [this, if_true, ← hu]]
      rw [setLIntegral_const, Real.volume_Ioo, mul_comm]
      norm_num
    · rw [setLIntegral_congr_fun (g := fun _ => ∫⁻ d in Ioo (0 : ℝ) 1, G a b d) measurableSet_Ico fun c hc => by
        have : ¬ c < 0.5 := by have := hc.1; norm_num at this ⊢; linarith
        simp only [this, if_false, ← hu]]
      rw [setLIntegral_const, Real.volume_Ico, mul_comm]
      norm_num
  simp only [e1]
  have mF : Measurable fun p : ℝ × ℝ => ∫⁻ d in Ioo (0 : ℝ) 1, F p.1 p.2 d := hF.lintegral_prod_right'
  have mF2 : Measurable fun a : ℝ => ∫⁻ b in Ioo (0 : ℝ) 1, ∫⁻ d in Ioo (0 : ℝ) 1, F a b d := mF.lintegral_prod_right'
  have e2 : ∀ a : ℝ, ∫⁻ b in Ioo (0 : ℝ) 1, (ENNReal.ofReal (1 / 2) * (∫⁻ d in Ioo (0 : ℝ) 1, F a b d) +
      ENNReal.ofReal (1 / 2) * (∫⁻ d in Ioo (0 : ℝ) 1, G a b d)) =
      ENNReal.ofReal (1 / 2) * (∫⁻ b in Ioo (0 : ℝ) 1, ∫⁻ d in Ioo (0 : ℝ) 1, F a b d) +
      ENNReal.ofReal (1 / 2) * (∫⁻ b in Ioo (0 : ℝ) 1, ∫⁻ d in Ioo (0 : ℝ) 1, G a b d) := by
    intro a
    have mFa : Measurable fun b : ℝ => ∫⁻ d in Ioo (0 : ℝ) 1, F a b d := mF.comp (f := fun b => (a, b)) (by fun_prop)
    rw [lintegral_add_left (Measurable.const_mul mFa _),
      lintegral_const_mul' _ _ ENNReal.ofReal_ne_top, lintegral_const_mul' _ _ ENNReal.ofReal_ne_top]
  simp only [e2]
  rw [lintegral_add_left (Measurable.const_mul mF2 _), lintegral_const_mul' _ _ ENNReal.ofReal_ne_top,
    lintegral_const_mul' _ _ ENNReal.ofReal_ne_top, h1, h2, ← add_mul, ← ENNReal.ofReal_add (by norm_num) (by norm_num)]
  norm_num

theorem turned (b : ℝ) : aboutY (if basePitch b < Real.pi then basePitch b + Real.pi else basePitch b - Real.pi) =
    aboutY (basePitch b + Real.pi) := by
  split
  · rfl
  · exact aboutY_period _

theorem minus (t : ℝ) : -(2 * Real.pi * t - Real.pi) = 2 * Real.pi * (1 - t) - Real.pi := by ring

/-- roll about x, then pitch about y, then yaw about z, of moving axes -/
theorem xyz_eq (a b c d : ℝ) :
    aboutX (anglesOf ![a, b, c, d] 0) * aboutY (anglesOf ![a, b, c, d] 1) * aboutZ (anglesOf ![a, b, c, d] 2) =
      if c < 0.5 then aboutY (Real.pi / 2) * zyz a b (1 - d) * aboutY Real.pi
      else aboutY (Real.pi / 2) * zyz a b d * 1 := by
  have h0 : anglesOf ![a, b, c, d] 0 = 2 * Real.pi * a - Real.pi := rfl
  have h2 : anglesOf ![a, b, c, d] 2 = 2 * Real.pi * d - Real.pi := rfl
  have h1 : anglesOf ![a, b, c, d] 1 = if c < 0.5 then (if basePitch b < Real.pi then basePitch b + Real.pi
    else basePitch b - Real.pi) else basePitch b := rfl
  rw [h0, h1, h2]
  have hb : basePitch b = Real.pi / 2 + Real.arccos (1 - 2 * b) := add_comm _ _
  split
  · rw [turned, hb, ← aboutY_mul, ← aboutY_mul, zyz, ← minus]
    simp only [← mul_assoc]
    rw [x_quarter]
    simp only [mul_assoc]
    rw [half_z]
  · rw [hb, ← aboutY_mul, zyz, mul_one]
    simp only [← mul_assoc]
    rw [x_quarter]

/-- roll about x, then pitch about y, then yaw about z, of fixed axes -/
theorem zyx_eq (a b c d : ℝ) :
    aboutZ (anglesOf ![a, b, c, d] 2) * aboutY (anglesOf ![a, b, c, d] 1) * aboutX (anglesOf ![a, b, c, d] 0) =
      if c < 0.5 then aboutY Real.pi * zyz (1 - d) b (1 - a) * aboutY (Real.pi / 2)
      else 1 * zyz d b (1 - a) * aboutY (Real.pi / 2) := by
  have h0 : anglesOf ![a, b, c, d] 0 = 2 * Real.pi * a - Real.pi := rfl
  have h2 : anglesOf ![a, b, c, d] 2 = 2 * Real.pi * d - Real.pi := rfl
  have h1 : anglesOf ![a, b, c, d] 1 = if c < 0.5 then (if basePitch b < Real.pi then basePitch b + Real.pi
    else basePitch b - Real.pi) else basePitch b := rfl
  rw [h0, h1, h2]
  have hb : basePitch b = Real.arccos (1 - 2 * b) + Real.pi / 2 := rfl
  split
  · rw [turned, hb, add_comm, ← aboutY_mul, ← aboutY_mul, zyz, ← minus, ← minus]
    simp only [← mul_assoc]
    rw [half_z, neg_neg]
    simp only [mul_assoc]
    rw [quarter_x]
  · rw [hb, ← aboutY_mul, zyz, one_mul, ← minus]
    simp only [mul_assoc]
    rw [quarter_x]

theorem measurable_base : Measurable basePitch := by
  unfold basePitch
  exact (Real.measurable_arccos.comp (by fun_prop)).add measurable_const

theorem measurable_angles (i : Fin 3) : Measurable fun x => anglesOf x i := by
  have hb : Measurable fun x : Fin 4 → ℝ => basePitch (x 1) := measurable_base.comp (measurable_pi_apply 1)
  fin_cases i
  · change Measurable fun x : Fin 4 → ℝ => 2 * Real.pi * x 0 - Real.pi
    fun_prop
  · change Measurable fun x : Fin 4 → ℝ => if x 2 < 0.5 then (if basePitch (x 1) < Real.pi then basePitch (x 1) + Real.pi
      else basePitch (x 1) - Real.pi) else basePitch (x 1)
    exact Measurable.ite (measurableSet_lt (measurable_pi_apply 2) measurable_const)
      (Measurable.ite (measurableSet_lt hb measurable_const) (hb.add measurable_const) (hb.sub measurable_const)) hb
  · change Measurable fun x : Fin 4 → ℝ => 2 * Real.pi * x 3 - Real.pi
    fun_prop

/-- The law of a product of four draws is uniform if its averages are. -/
theorem law_of (v : (Fin 4 → ℝ) → Mat3) (hv : Measurable v) (hr : ∀ x, IsRotationMatrix (v x))
    (h : ∀ g, Measurable g → ∫⁻ a in Ioo (0 : ℝ) 1, ∫⁻ b in Ioo (0 : ℝ) 1, ∫⁻ c in Ioo (0 : ℝ) 1, ∫⁻ d in Ioo (0 : ℝ) 1,
      g (v ![a, b, c, d]) = avg fun p => g (rot p)) :
    IsUniformRotation ((Measure.infinitePi fun _ : Fin 4 => unitInterval).map v) := by
  have := Measure.isProbabilityMeasure_map (μ := Measure.infinitePi fun _ : Fin 4 => unitInterval) hv.aemeasurable
  refine uniform_of_avg _ ?_ fun g hg => ?_
  · rw [ae_map_iff hv.aemeasurable measurable_isRotation]
    exact Filter.Eventually.of_forall hr
  · rw [lintegral_map hg hv, Measure.infinitePi_eq_pi, pi_four _ (fun x => g (v x)) (hg.comp hv)]
    simp only [interval_eq]
    exact h g hg

/-- **C121.** From independent draws uniform on [0, 1), repeated calls give independent triples of angles whose rotations,
composed about x, y and z, are uniformly distributed; in the other order as well. -/
theorem C121_law :
    (∃ law, IsUniformRotation law ∧
      unitDraws.map (fun s k => let e := results (getEulerAngles next) s k; aboutX (e 0) * aboutY (e 1) * aboutZ (e 2)) =
        Measure.infinitePi fun _ : ℕ => law) ∧
    ∃ law, IsUniformRotation law ∧
      unitDraws.map (fun s k => let e := results (getEulerAngles next) s k; aboutZ (e 2) * aboutY (e 1) * aboutX (e 0)) =
        Measure.infinitePi fun _ : ℕ => law := by
  have hz := fun (f g h : (ℝ × ℝ) × ℝ → ℝ) (hf : Measurable f) (hg : Measurable g) (hh : Measurable h) (S T : Mat3) =>
    measurable_mul (measurable_mul (measurable_const (a := S)) (measurable_zyz hf hg hh)) (measurable_const (a := T))
  constructor
  · have hv : Measurable fun x => aboutX (anglesOf x 0) * aboutY (anglesOf x 1) * aboutZ (anglesOf x 2) :=
      measurable_mul (measurable_mul (measurable_aboutX (measurable_angles 0)) (measurable_aboutY (measurable_angles 1)))
        (measurable_aboutZ (measurable_angles 2))
    refine ⟨_, law_of (fun x => aboutX (anglesOf x 0) * aboutY (anglesOf x 1) * aboutZ (anglesOf x 2)) hv
      (fun x => rotation_mul (rotation_mul (aboutX_rotation _) (aboutY_rotation _)) (aboutZ_rotation _)) fun g hg => ?_,
      results_law unitInterval (fun s => (let e := (getEulerAngles next s).1; aboutX (e 0) * aboutY (e 1) * aboutZ (e 2),
        (getEulerAngles next s).2)) 4 _ hv (fun s => by rw [getEulerAngles_eq])⟩
    simp only [xyz_eq]
    have := coin (fun a b d => g (aboutY (Real.pi / 2) * zyz a b (1 - d) * aboutY Real.pi))
      (fun a b d => g (aboutY (Real.pi / 2) * zyz a b d * 1))
      (hg.comp (hz (fun p => p.1.1) (fun p => p.1.2) (fun p => 1 - p.2) (by fun_prop) (by fun_prop) (by fun_prop) _ _))
      (avg fun p => g (rot p)) (by
        rw [← zyz_sides g hg (aboutY_rotation (Real.pi / 2)) (aboutY_rotation Real.pi)]
        exact lintegral_congr fun a => lintegral_congr fun b =>
          reflect fun d => g (aboutY (Real.pi / 2) * zyz a b d * aboutY Real.pi))
      (zyz_sides g hg (aboutY_rotation (Real.pi / 2)) ⟨by simp, by simp⟩)
    rw [← this]
    refine lintegral_congr fun a => lintegral_congr fun b => lintegral_congr fun c => lintegral_congr fun d => ?_
    split <;> rfl
  · have hv : Measurable fun x => aboutZ (anglesOf x 2) * aboutY (anglesOf x 1) * aboutX (anglesOf x 0) :=
      measurable_mul (measurable_mul (measurable_aboutZ (measurable_angles 2)) (measurable_aboutY (measurable_angles 1)))
        (measurable_aboutX (measurable_angles 0))
    refine ⟨_, law_of (fun x => aboutZ (anglesOf x 2) * aboutY (anglesOf x 1) * aboutX (anglesOf x 0)) hv
      (fun x => rotation_mul (rotation_mul (aboutZ_rotation _) (aboutY_rotation _)) (aboutX_rotation _)) fun g hg => ?_,
      results_law unitInterval (fun s => (let e := (getEulerAngles next s).1; aboutZ (e 2) * aboutY (e 1) * aboutX (e 0),
        (getEulerAngles next s).2)) 4 _ hv (fun s => by rw [getEulerAngles_eq])⟩
    simp only [zyx_eq]
    have hone : IsRotationMatrix (1 : Mat3) := ⟨by simp, by simp⟩
    have := coin (fun a b d => g (aboutY Real.pi * zyz (1 - d) b (1 - a) * aboutY (Real.pi / 2)))
      (fun a b d => g (1 * zyz d b (1 - a) * aboutY (Real.pi / 2)))
      (hg.comp (hz (fun p => 1 - p.2) (fun p => p.1.2) (fun p => 1 - p.1.1) (by fun_prop) (by fun_prop) (by fun_prop) _ _))
      (avg fun p => g (rot p)) (by
        rw [← zyz_swapped g hg (aboutY_rotation Real.pi) (aboutY_rotation (Real.pi / 2))]
        exact lintegral_congr fun a => lintegral_congr fun b =>
          reflect fun d => g (aboutY Real.pi * zyz d b (1 - a) * aboutY (Real.pi / 2)))
      (zyz_swapped g hg hone (aboutY_rotation (Real.pi / 2)))
    rw [← this]
    refine lintegral_congr fun a => lintegral_congr fun b => lintegral_congr fun c => lintegral_congr fun d => ?_
    split <;> rfl

end Verif.RandomRotation
