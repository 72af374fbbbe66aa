import Verif.Lemmas.Sphere
import Verif.Lemmas.UniformDraws
import Verif.Lemmas.Draws
import Verif.Model.RandomRotation
import Verif.Props.Pose
import Verif.Spec.RandomRotation

/-!
# C120: random quaternions
-/
namespace Verif.RandomRotation
open Verif MeasureTheory Set ENNReal Verif.Kinematics Verif.Pose Verif.Draws Verif.Sphere Verif.UniformDraws

variable {σ : Type} (uniform : σ → ℝ × σ)

/-- The quaternion made of three draws -/
noncomputable def quatOf (x : Fin 3 → ℝ) : Quat :=
  ⟨Real.cos (2 * Real.pi * x 2) * √(x 0), Real.sin (2 * Real.pi * x 1) * √(1 - x 0),
    Real.cos (2 * Real.pi * x 1) * √(1 - x 0), Real.sin (2 * Real.pi * x 2) * √(x 0)⟩

theorem getQuaternion_eq (g : σ) :
    getQuaternion uniform g = (quatOf fun i => drawAt uniform g i, stateAfter uniform g 3) := rfl

theorem quatOf_unit (x : Fin 3 → ℝ) (h0 : 0 ≤ x 0) (h1 : x 0 ≤ 1) : (quatOf x).squaredNorm = 1 := by
  have a := Real.sq_sqrt h0
  have b := Real.sq_sqrt (sub_nonneg.2 h1)
  have c := Real.sin_sq_add_cos_sq (2 * Real.pi * x 1)
  have d := Real.sin_sq_add_cos_sq (2 * Real.pi * x 2)
  simp only [quatOf, Quat.squaredNorm]
  linear_combination √(x 0) ^ 2 * d + √(1 - x 0) ^ 2 * c + a + b

/-- **C120.** A quaternion takes three draws. It has norm one for all draws between 0 and 1. -/
theorem C120_unit (g : σ) (h : 0 ≤ drawAt uniform g 0 ∧ drawAt uniform g 0 ≤ 1) :
    (getQuaternion uniform g).1.squaredNorm = 1 ∧ (getQuaternion uniform g).2 = stateAfter uniform g 3 := by
  rw [getQuaternion_eq]
  exact ⟨quatOf_unit (fun i : Fin 3 => drawAt uniform g i) (by simpa using h.1) (by simpa using h.2), rfl⟩

/-- **C120.** The raw form lists x, y, z and w, in this order. -/
theorem C120_raw (g : σ) :
    getRawQuaternion uniform g = (let q := (getQuaternion uniform g).1; [q.x, q.y, q.z, q.w], (getQuaternion uniform g).2) :=
  rfl

/-! ### The law -/

/-- The vector of the numbers of a quaternion, from the pairs (y, x) and (w, z) -/
noncomputable def vec (p : P4) : EuclideanSpace ℝ (Fin 4) := !₂[p.2.1, p.1.2, p.1.1, p.2.2]

/-- The pairs of the numbers of a vector -/
noncomputable def pairs (q : EuclideanSpace ℝ (Fin 4)) : P4 := ((q 2, q 1), (q 0, q 3))

theorem vec_pairs (q : EuclideanSpace ℝ (Fin 4)) : vec (pairs q) = q := by
  ext i
  fin_cases i <;> rfl

theorem measurable_vec : Measurable vec := by unfold vec; fun_prop

theorem norm_vec (p : P4) : ‖vec p‖ ^ 2 = nsq p := by
  rw [EuclideanSpace.real_norm_sq_eq, Fin.sum_univ_four]
  simp [vec, nsq]
  ring

/-- One quaternion as a distribution -/
noncomputable def quatLaw : Measure (EuclideanSpace ℝ (Fin 4)) :=
  (Measure.infinitePi fun _ : Fin 3 => unitInterval).map fun x => euclid (quatOf x)

theorem measurable_quatOf : Measurable fun x => euclid (quatOf x) := by
  unfold quatOf euclid
  fun_prop

theorem euclid_point (a b c : ℝ) : euclid (quatOf ![a, b, c]) = vec (point a b c) := by
  ext i
  fin_cases i <;> simp [euclid, quatOf, vec, point, mul_comm]

theorem interval_eq : unitInterval = volume.restrict (Ioo 0 1) :=
  (Measure.restrict_congr_set Ioo_ae_eq_Ico).symm

/-- Integrals over the law are averages. -/
theorem quatLaw_avg (g : EuclideanSpace ℝ (Fin 4) → ℝ≥0∞) (hg : Measurable g) :
    ∫⁻ q, g q ∂quatLaw = avg fun p => g (vec p) := by
  rw [quatLaw, lintegral_map hg measurable_quatOf, Measure.infinitePi_eq_pi,
    pi_three _ (fun x => g (euclid (quatOf x))) (hg.comp measurable_quatOf)]
  simp only [euclid_point, interval_eq]
  rfl

instance : IsProbabilityMeasure quatLaw := Measure.isProbabilityMeasure_map measurable_quatOf.aemeasurable

theorem avg_set (s : Set (EuclideanSpace ℝ (Fin 4))) (hs : MeasurableSet s) :
    quatLaw s = avg fun p => s.indicator 1 (vec p) := by
  rw [← lintegral_indicator_one hs, quatLaw_avg _ (measurable_one.indicator hs)]

theorem draws_first : ∀ᵐ x ∂(Measure.infinitePi fun _ : Fin 3 => unitInterval), x 0 ∈ Ico (0 : ℝ) 1 := by
  rw [Measure.infinitePi_eq_pi]
  exact (measurePreserving_eval (fun _ : Fin 3 => unitInterval) 0).quasiMeasurePreserving.ae (ae_restrict_mem measurableSet_Ico)

theorem quatLaw_uniform : IsUniformDirection quatLaw where
  probability := inferInstance
  unit := by
    have hm : MeasurableSet {q : EuclideanSpace ℝ (Fin 4) | ‖q‖ = 1} := measurableSet_eq_fun measurable_norm measurable_const
    rw [quatLaw, ae_map_iff measurable_quatOf.aemeasurable hm]
    filter_upwards [draws_first] with x hx
    exact euclid_norm (quatOf_unit x hx.1 hx.2.le)
  symmetric := by
    intro e
    have hme : Measurable e := e.continuous.measurable
    ext s hs
    let e' : P4 →ₗ[ℝ] P4 :=
      { toFun := fun p => pairs (e (vec p))
        map_add' := fun p q => by
          have : vec (p + q) = vec p + vec q := by
            ext i; fin_cases i <;> simp [vec]
          rw [this, map_add]; rfl
        map_smul' := fun a p => by
          have : vec (a • p) = a • vec p := by
            ext i; fin_cases i <;> simp [vec]
          rw [this, map_smul]; rfl }
    have hv : ∀ p, vec (e' p) = e (vec p) := fun p => vec_pairs _
    have hn : ∀ p, nsq (e' p) = nsq p := fun p => by rw [← norm_vec, hv, e.norm_map, norm_vec]
    rw [Measure.map_apply hme hs, avg_set _ (hme hs), avg_set _ hs,
      ← avg_isometry e' hn (fun p => s.indicator 1 (vec p)) ((measurable_one.indicator hs).comp measurable_vec)]
    simp only [hv]
    rfl

/-- **C120.** From independent draws uniform on [0, 1), repeated calls give independent quaternions, uniformly distributed
on the unit sphere. -/
theorem C120_law : ∃ law, IsUniformDirection law ∧
    unitDraws.map (fun s k => euclid (results (getQuaternion next) s k)) = Measure.infinitePi fun _ : ℕ => law := by
  refine ⟨quatLaw, quatLaw_uniform, ?_⟩
  exact results_law unitInterval (fun s => (euclid (getQuaternion next s).1, (getQuaternion next s).2)) 3
    (fun x => euclid (quatOf x)) measurable_quatOf (fun g => by rw [getQuaternion_eq])

/-! ### Rotations -/

/-- The quaternion of four numbers -/
def quat (p : P4) : Quat := ⟨p.2.1, p.1.2, p.1.1, p.2.2⟩

/-- Its rotation -/
noncomputable def rot (p : P4) : Mat3 := toRotationMatrix (quat p)

theorem quat_sq (p : P4) : (quat p).squaredNorm = nsq p := by
  simp only [Quat.squaredNorm, quat, nsq]; ring

theorem nsq_point {u : ℝ} (hu : u ∈ Ioo (0 : ℝ) 1) (v w : ℝ) : nsq (point u v w) = 1 := by
  have a := Real.sq_sqrt hu.1.le
  have b := Real.sq_sqrt (sub_nonneg.2 hu.2.le)
  have c := Real.sin_sq_add_cos_sq (2 * Real.pi * v)
  have d := Real.sin_sq_add_cos_sq (2 * Real.pi * w)
  simp only [nsq, point]
  linear_combination √u ^ 2 * d + √(1 - u) ^ 2 * c + a + b

/-- Averages only see the sphere. -/
theorem avg_congr (f g : P4 → ℝ≥0∞) (h : ∀ p, nsq p = 1 → f p = g p) : avg f = avg g := by
  unfold avg
  refine setLIntegral_congr_fun measurableSet_Ioo fun u hu => ?_
  exact lintegral_congr fun v => lintegral_congr fun w => h _ (nsq_point hu v w)

theorem measurable_matrix {α : Type} [MeasurableSpace α] {f : α → Mat3} (h : ∀ i j, Measurable fun a => f a i j) :
    Measurable f := measurable_pi_iff.2 fun i => measurable_pi_iff.2 fun j => h i j

theorem measurable_entry (i j : Fin 3) : Measurable fun R : Mat3 => R i j :=
  (measurable_pi_apply j).comp (measurable_pi_apply i)

theorem measurable_mul {α : Type} [MeasurableSpace α] {f g : α → Mat3} (hf : Measurable f) (hg : Measurable g) :
    Measurable fun a => f a * g a := by
  refine measurable_matrix fun i j => ?_
  simp only [Matrix.mul_apply]
  exact Finset.measurable_sum _ fun k _ => ((measurable_entry i k).comp hf).mul ((measurable_entry k j).comp hg)

theorem measurable_rot : Measurable rot := by
  refine measurable_matrix fun i j => ?_
  unfold rot toRotationMatrix quat
  fin_cases i <;> fin_cases j <;> simp <;> fun_prop

/-- Multiplication by a quaternion, from the left -/
noncomputable def leftMul (q : Quat) : P4 →ₗ[ℝ] P4 where
  toFun p := (((q.mul (quat p)).y, (q.mul (quat p)).x), ((q.mul (quat p)).w, (q.mul (quat p)).z))
  map_add' p p' := by
    simp only [Quat.mul, quat, Prod.fst_add, Prod.snd_add, Prod.mk_add_mk, Prod.mk.injEq]
    refine ⟨⟨?_, ?_⟩, ?_, ?_⟩ <;> ring
  map_smul' a p := by
    simp only [Quat.mul, quat, Prod.smul_fst, Prod.smul_snd, smul_eq_mul, RingHom.id_apply, Prod.smul_mk, Prod.mk.injEq]
    refine ⟨⟨?_, ?_⟩, ?_, ?_⟩ <;> ring

/-- Multiplication by a quaternion, from the right -/
noncomputable def rightMul (q : Quat) : P4 →ₗ[ℝ] P4 where
  toFun p := ((((quat p).mul q).y, ((quat p).mul q).x), (((quat p).mul q).w, ((quat p).mul q).z))
  map_add' p p' := by
    simp only [Quat.mul, quat, Prod.fst_add, Prod.snd_add, Prod.mk_add_mk, Prod.mk.injEq]
    refine ⟨⟨?_, ?_⟩, ?_, ?_⟩ <;> ring
  map_smul' a p := by
    simp only [Quat.mul, quat, Prod.smul_fst, Prod.smul_snd, smul_eq_mul, RingHom.id_apply, Prod.smul_mk, Prod.mk.injEq]
    refine ⟨⟨?_, ?_⟩, ?_, ?_⟩ <;> ring

theorem avg_left (h : Mat3 → ℝ≥0∞) (hh : Measurable h) {S : Mat3} (hS : IsRotationMatrix S) :
    avg (fun p => h (S * rot p)) = avg fun p => h (rot p) := by
  obtain ⟨h1, h2⟩ := ofMatrix_spec hS
  have hq : ∀ p, quat (leftMul (ofMatrix S) p) = (ofMatrix S).mul (quat p) := fun p => rfl
  have hn : ∀ p, nsq (leftMul (ofMatrix S) p) = nsq p := fun p => by rw [← quat_sq, hq, mul_sq, h1, one_mul, quat_sq]
  rw [← avg_isometry (leftMul (ofMatrix S)) hn (fun p => h (rot p)) (hh.comp measurable_rot)]
  refine avg_congr _ _ fun p hp => ?_
  rw [rot, rot, hq, toRotationMatrix_mul h1 (by rw [quat_sq, hp]), h2]

theorem avg_right (h : Mat3 → ℝ≥0∞) (hh : Measurable h) {S : Mat3} (hS : IsRotationMatrix S) :
    avg (fun p => h (rot p * S)) = avg fun p => h (rot p) := by
  obtain ⟨h1, h2⟩ := ofMatrix_spec hS
  have hq : ∀ p, quat (rightMul (ofMatrix S) p) = (quat p).mul (ofMatrix S) := fun p => rfl
  have hn : ∀ p, nsq (rightMul (ofMatrix S) p) = nsq p := fun p => by rw [← quat_sq, hq, mul_sq, h1, mul_one, quat_sq]
  rw [← avg_isometry (rightMul (ofMatrix S)) hn (fun p => h (rot p)) (hh.comp measurable_rot)]
  refine avg_congr _ _ fun p hp => ?_
  rw [rot, rot, hq, toRotationMatrix_mul (by rw [quat_sq, hp]) h1, h2]

theorem avg_sides (h : Mat3 → ℝ≥0∞) (hh : Measurable h) {S T : Mat3} (hS : IsRotationMatrix S) (hT : IsRotationMatrix T) :
    avg (fun p => h (S * rot p * T)) = avg fun p => h (rot p) := by
  rw [avg_left (fun R => h (R * T)) (hh.comp (measurable_mul measurable_id measurable_const)) hS, avg_right h hh hT]

theorem measurable_isRotation : MeasurableSet {R : Mat3 | IsRotationMatrix R} := by
  have he : {R : Mat3 | IsRotationMatrix R} = (⋂ i, ⋂ j, {R : Mat3 | (R.transpose * R) i j = (1 : Mat3) i j}) ∩ {R : Mat3 | R.det = 1} := by
    ext R
    simp only [IsRotationMatrix, mem_ofPred_eq, mem_inter_iff, mem_iInter]
    exact and_congr_left fun _ => ⟨fun h i j => by rw [h], fun h => Matrix.ext h⟩
  rw [he]
  have hT : Measurable fun R : Mat3 => R.transpose := measurable_matrix fun i j => measurable_entry j i
  refine MeasurableSet.inter (MeasurableSet.iInter fun i => MeasurableSet.iInter fun j => ?_) ?_
  · exact measurableSet_eq_fun ((measurable_entry i j).comp (measurable_mul hT measurable_id)) measurable_const
  · refine measurableSet_eq_fun ?_ measurable_const
    have hd : (fun R : Mat3 => R.det) = fun R => R 0 0 * R 1 1 * R 2 2 - R 0 0 * R 1 2 * R 2 1 - R 0 1 * R 1 0 * R 2 2
        + R 0 1 * R 1 2 * R 2 0 + R 0 2 * R 1 0 * R 2 1 - R 0 2 * R 1 1 * R 2 0 := by
      funext R
      rw [Matrix.det_fin_three]
    change Measurable fun R : Mat3 => R.det
    rw [hd]
    have := measurable_entry
    fun_prop

/-- A law of rotations with the same averages is uniform. -/
theorem uniform_of_avg (law : Measure Mat3) [IsProbabilityMeasure law] (hr : ∀ᵐ R ∂law, IsRotationMatrix R)
    (h : ∀ g, Measurable g → ∫⁻ R, g R ∂law = avg fun p => g (rot p)) : IsUniformRotation law := by
  have hset : ∀ s : Set Mat3, MeasurableSet s → law s = avg fun p => s.indicator 1 (rot p) := fun s hs => by
    rw [← lintegral_indicator_one hs, h _ (measurable_one.indicator hs)]
  refine ⟨inferInstance, hr, fun S hS => ?_, fun S hS => ?_⟩
  · have hm : Measurable fun R : Mat3 => S * R := measurable_mul measurable_const measurable_id
    ext s hs
    rw [Measure.map_apply hm hs, hset _ (hm hs), hset _ hs, ← avg_left _ (measurable_one.indicator hs) hS]
    rfl
  · have hm : Measurable fun R : Mat3 => R * S := measurable_mul measurable_id measurable_const
    ext s hs
    rw [Measure.map_apply hm hs, hset _ (hm hs), hset _ hs, ← avg_right _ (measurable_one.indicator hs) hS]
    rfl

theorem matrix_quatOf (a b c : ℝ) : toRotationMatrix (quatOf ![a, b, c]) = rot (point a b c) := by
  unfold rot
  congr 1
  simp [quatOf, quat, point, mul_comm]

theorem measurable_matrix_quatOf : Measurable fun x => toRotationMatrix (quatOf x) := by
  refine measurable_matrix fun i j => ?_
  unfold toRotationMatrix quatOf
  fin_cases i <;> fin_cases j <;> simp <;> fun_prop

/-- **C120.** The rotations of the quaternions are independent and uniformly distributed. -/
theorem C120_rotation : ∃ law, IsUniformRotation law ∧
    unitDraws.map (fun s k => toRotationMatrix (results (getQuaternion next) s k)) = Measure.infinitePi fun _ : ℕ => law := by
  refine ⟨(Measure.infinitePi fun _ : Fin 3 => unitInterval).map fun x => toRotationMatrix (quatOf x), ?_,
    results_law unitInterval (fun s => (toRotationMatrix (getQuaternion next s).1, (getQuaternion next s).2)) 3
    (fun x => toRotationMatrix (quatOf x)) measurable_matrix_quatOf (fun g => by rw [getQuaternion_eq])⟩
  have := Measure.isProbabilityMeasure_map (μ := Measure.infinitePi fun _ : Fin 3 => unitInterval) measurable_matrix_quatOf.aemeasurable
  refine uniform_of_avg _ ?_ fun g hg => ?_
  · rw [ae_map_iff measurable_matrix_quatOf.aemeasurable measurable_isRotation]
    filter_upwards [draws_first] with x hx
    exact toRotationMatrix_rotation (quatOf_unit x hx.1 hx.2.le)
  · rw [lintegral_map hg measurable_matrix_quatOf, Measure.infinitePi_eq_pi,
      pi_three _ (fun x => g (toRotationMatrix (quatOf x))) (hg.comp measurable_matrix_quatOf)]
    simp only [matrix_quatOf, interval_eq]
    rfl

/-- **C120.** There is only one uniform distribution on rotations. -/
theorem C120_unique (μ ν : Measure Mat3) (hμ : IsUniformRotation μ) (hν : IsUniformRotation ν) : μ = ν := by
  have := hμ.probability
  have := hν.probability
  have key : ∀ f : Mat3 → ℝ≥0∞, Measurable f → ∫⁻ R, f R ∂μ = ∫⁻ S, f S ∂ν := by
    intro f hf
    have e1 : ∫⁻ S, ∫⁻ R, f (R * S) ∂μ ∂ν = ∫⁻ R, f R ∂μ := by
      rw [lintegral_congr_ae (g := fun _ => ∫⁻ R, f R ∂μ) (hν.rotation.mono fun S hS => by
        beta_reduce
        conv_rhs => rw [← hμ.inside S hS]
        exact (lintegral_map hf (measurable_mul (f := fun R : Mat3 => R) measurable_id measurable_const)).symm)]
      simp
    have e2 : ∫⁻ R, ∫⁻ S, f (R * S) ∂ν ∂μ = ∫⁻ S, f S ∂ν := by
      rw [lintegral_congr_ae (g := fun _ => ∫⁻ S, f S ∂ν) (hμ.rotation.mono fun R hR => by
        beta_reduce
        conv_rhs => rw [← hν.outside R hR]
        exact (lintegral_map hf (measurable_mul (g := fun R : Mat3 => R) measurable_const measurable_id)).symm)]
      simp
    have hm : Measurable fun p : Mat3 × Mat3 => f (p.2 * p.1) := hf.comp (measurable_mul measurable_snd measurable_fst)
    rw [← e1, ← e2, lintegral_lintegral_swap hm.aemeasurable]
  ext s hs
  rw [← lintegral_indicator_one hs, ← lintegral_indicator_one hs, key _ (measurable_one.indicator hs)]

/-- The hypothesis of `C120_unit` is met by a generator that always gives 1/4. -/
example : (getQuaternion (fun g : Nat => ((1 / 4 : ℝ), g + 1)) 7).1.squaredNorm = 1 ∧
    (getQuaternion (fun g : Nat => ((1 / 4 : ℝ), g + 1)) 7).2 = 10 :=
  C120_unit _ 7 (by simp [drawAt]; norm_num)

end Verif.RandomRotation
