import Mathlib.Analysis.SpecialFunctions.PolarCoord
import Mathlib.MeasureTheory.Function.JacobianOneDim
import Mathlib.MeasureTheory.Measure.Haar.Unique
import Mathlib.MeasureTheory.Measure.Lebesgue.EqHaar
import Mathlib.Tactic.FieldSimp
import Mathlib.Tactic.Positivity
import Mathlib.Tactic.Ring
import Mathlib.Tactic.Linarith
import Mathlib.Tactic.NormNum

/-!
# The uniform distribution on the sphere in four dimensions

Two pairs of polar coordinates, with the radii in polar coordinates again.
-/
namespace Verif.Sphere
open MeasureTheory Set Real ENNReal

/-- Polar coordinates with the angle as a part of a full turn -/
theorem polar2 (f : ℝ × ℝ → ℝ≥0∞) (hf : Measurable f) :
    ∫⁻ a, f a = ∫⁻ r in Ioi (0 : ℝ), ∫⁻ v in Ioo (0 : ℝ) 1,
      ENNReal.ofReal (2 * π * r) * f (r * cos (2 * π * v), r * sin (2 * π * v)) := by
  have h1 : ∫⁻ a, f (-a) = ∫⁻ a, f a := lintegral_neg_eq_self f
  rw [← h1, ← lintegral_comp_polarCoord_symm]
  have ht : polarCoord.target = Ioi (0 : ℝ) ×ˢ Ioo (-π) π := rfl
  rw [ht, Measure.volume_eq_prod, setLIntegral_prod _ (by
    apply Measurable.aemeasurable
    simp only [smul_eq_mul]
    refine Measurable.mul (by fun_prop) ?_
    exact hf.comp ((continuous_polarCoord_symm.neg).measurable))]
  refine setLIntegral_congr_fun measurableSet_Ioi fun r hr => ?_
  have himg : (fun v : ℝ => 2 * π * v - π) '' Ioo 0 1 = Ioo (-π) π := by
    ext t
    simp only [mem_image, mem_Ioo]
    have hp := pi_pos
    constructor
    · rintro ⟨v, ⟨h0, h1⟩, rfl⟩
      constructor <;> nlinarith
    · rintro ⟨h0, h1⟩
      refine ⟨(t + π) / (2 * π), ⟨by apply div_pos <;> linarith, by rw [div_lt_one (by linarith)]; linarith⟩, ?_⟩
      field_simp; ring
  have hd : ∀ v ∈ Ioo (0 : ℝ) 1, HasDerivWithinAt (fun v : ℝ => 2 * π * v - π) (2 * π) (Ioo 0 1) v := by
    intro v _
    have := ((hasDerivAt_id v).const_mul (2 * π)).sub_const π
    simpa using this.hasDerivWithinAt
  have hinj : InjOn (fun v : ℝ => 2 * π * v - π) (Ioo 0 1) := by
    intro a _ b _ h
    have hp := pi_pos
    have : 2 * π * a = 2 * π * b := by simpa using h
    exact mul_left_cancel₀ (by positivity) this
  simp only
  rw [← himg, lintegral_image_eq_lintegral_abs_deriv_mul measurableSet_Ioo hd hinj]
  refine setLIntegral_congr_fun measurableSet_Ioo fun v _ => ?_
  have hp := pi_pos
  simp only [smul_eq_mul, polarCoord_symm_apply, cos_sub_pi, sin_sub_pi]
  rw [← mul_assoc, ← ENNReal.ofReal_mul (abs_nonneg _), abs_of_pos (by positivity)]
  congr 2
  simp

/-- Polar coordinates in the first quadrant -/
theorem quadrant (f : ℝ × ℝ → ℝ≥0∞) (hf : Measurable f) :
    ∫⁻ a in Ioi (0 : ℝ), ∫⁻ b in Ioi (0 : ℝ), f (a, b) = ∫⁻ r in Ioi (0 : ℝ), ∫⁻ t in Ioo (0 : ℝ) (π / 2),
      ENNReal.ofReal r * f (r * cos t, r * sin t) := by
  have hp := pi_pos
  rw [← setLIntegral_prod f hf.aemeasurable, ← Measure.volume_eq_prod,
    ← lintegral_indicator (measurableSet_Ioi.prod measurableSet_Ioi), ← lintegral_comp_polarCoord_symm]
  have hq : MeasurableSet (Ioi (0 : ℝ) ×ˢ Ioi (0 : ℝ)) := measurableSet_Ioi.prod measurableSet_Ioi
  have ht : polarCoord.target = Ioi (0 : ℝ) ×ˢ Ioo (-π) π := rfl
  rw [ht, Measure.volume_eq_prod, setLIntegral_prod _ (by
    apply Measurable.aemeasurable
    simp only [smul_eq_mul]
    refine Measurable.mul (by fun_prop) ?_
    exact (hf.indicator hq).comp continuous_polarCoord_symm.measurable)]
  refine setLIntegral_congr_fun measurableSet_Ioi fun r hr => ?_
  simp only
  have hsub : Ioo (0 : ℝ) (π / 2) ⊆ Ioo (-π) π := fun t h => ⟨by linarith [h.1], by linarith [h.2]⟩
  conv_rhs => rw [← inter_eq_left.2 hsub, ← Measure.restrict_restrict measurableSet_Ioo,
    ← lintegral_indicator measurableSet_Ioo]
  refine setLIntegral_congr_fun measurableSet_Ioo fun t htt => ?_
  simp only [smul_eq_mul, polarCoord_symm_apply, indicator, mem_prod, mem_Ioi]
  have hr : 0 < r := hr
  have hiff : (0 < r * cos t ∧ 0 < r * sin t) ↔ t ∈ Ioo 0 (π / 2) := by
    rw [mul_pos_iff_of_pos_left hr, mul_pos_iff_of_pos_left hr]
    constructor
    · rintro ⟨h1, h2⟩
      have h0 : 0 < t := by
        by_contra h
        have := sin_nonpos_of_nonpos_of_neg_pi_le (not_lt.1 h) htt.1.le
        linarith
      refine ⟨h0, ?_⟩
      by_contra h
      have := cos_nonpos_of_pi_div_two_le_of_le (not_lt.1 h) (by linarith [htt.2])
      linarith
    · intro h
      exact ⟨cos_pos_of_mem_Ioo ⟨by linarith [h.1], h.2⟩, sin_pos_of_pos_of_lt_pi h.1 (by linarith [h.2])⟩
  by_cases h : t ∈ Ioo 0 (π / 2)
  · rw [if_pos (hiff.2 h), if_pos h]
  · rw [if_neg (fun h' => h (hiff.1 h')), if_neg h, mul_zero]

/-- The square of the sine of an angle as the variable -/
theorem square_sine (f : ℝ × ℝ → ℝ≥0∞) :
    ∫⁻ t in Ioo (0 : ℝ) (π / 2), ENNReal.ofReal (2 * sin t * cos t) * f (cos t, sin t) =
      ∫⁻ u in Ioo (0 : ℝ) 1, f (√(1 - u), √u) := by
  have hp := pi_pos
  have hpos : ∀ t ∈ Ioo (0 : ℝ) (π / 2), 0 < sin t ∧ 0 < cos t := fun t h =>
    ⟨sin_pos_of_pos_of_lt_pi h.1 (by linarith [h.2]), cos_pos_of_mem_Ioo ⟨by linarith [h.1], h.2⟩⟩
  have himg : (fun t : ℝ => sin t ^ 2) '' Ioo 0 (π / 2) = Ioo 0 1 := by
    ext u
    simp only [mem_image]
    constructor
    · rintro ⟨t, ht, rfl⟩
      obtain ⟨h1, h2⟩ := hpos t ht
      have := sin_sq_add_cos_sq t
      exact ⟨by positivity, by nlinarith⟩
    · rintro ⟨h0, h1⟩
      have hs : 0 < √u := sqrt_pos.2 h0
      have hs1 : √u < 1 := by rw [sqrt_lt' one_pos]; simpa using h1
      refine ⟨arcsin (√u), ⟨arcsin_pos.2 hs, arcsin_lt_pi_div_two.2 hs1⟩, ?_⟩
      rw [sin_arcsin (by linarith) hs1.le, sq_sqrt h0.le]
  have hd : ∀ t ∈ Ioo (0 : ℝ) (π / 2), HasDerivWithinAt (fun t : ℝ => sin t ^ 2) (2 * sin t * cos t) (Ioo 0 (π / 2)) t := by
    intro t _
    have := (hasDerivAt_sin t).fun_pow 2
    simpa using this.hasDerivWithinAt
  have hinj : InjOn (fun t : ℝ => sin t ^ 2) (Ioo 0 (π / 2)) := by
    intro a ha b hb h
    have h1 : sin a = sin b := by
      have := h
      simp only at this
      exact (sq_eq_sq₀ (hpos a ha).1.le (hpos b hb).1.le).1 this
    exact injOn_sin ⟨by linarith [ha.1], ha.2.le⟩ ⟨by linarith [hb.1], hb.2.le⟩ h1
  rw [← himg, lintegral_image_eq_lintegral_abs_deriv_mul measurableSet_Ioo hd hinj]
  refine setLIntegral_congr_fun measurableSet_Ioo fun t ht => ?_
  obtain ⟨h1, h2⟩ := hpos t ht
  rw [abs_of_pos (by positivity), sqrt_sq h1.le, ← cos_sq', sqrt_sq h2.le]

/-- Four numbers -/
abbrev P4 := (ℝ × ℝ) × (ℝ × ℝ)

/-- The squared length -/
def nsq (p : P4) : ℝ := p.1.1 ^ 2 + p.1.2 ^ 2 + p.2.1 ^ 2 + p.2.2 ^ 2

/-- The direction -/
noncomputable def dir (p : P4) : P4 :=
  ((p.1.1 / √(nsq p), p.1.2 / √(nsq p)), (p.2.1 / √(nsq p), p.2.2 / √(nsq p)))

/-- The point with three coordinates between 0 and 1 -/
noncomputable def point (u v w : ℝ) : P4 :=
  ((√(1 - u) * cos (2 * π * v), √(1 - u) * sin (2 * π * v)), (√u * cos (2 * π * w), √u * sin (2 * π * w)))

/-- The average over the coordinates -/
noncomputable def avg (g : P4 → ℝ≥0∞) : ℝ≥0∞ :=
  ∫⁻ u in Ioo (0 : ℝ) 1, ∫⁻ v in Ioo (0 : ℝ) 1, ∫⁻ w in Ioo (0 : ℝ) 1, g (point u v w)

theorem measurable_nsq : Measurable nsq := by unfold nsq; fun_prop
theorem measurable_dir : Measurable dir := by
  have := measurable_nsq
  unfold dir
  fun_prop

/-- The order of integration can be changed: four variables. -/
theorem reorder {R U : Measure ℝ} [SFinite R] [SFinite U] (k : ℝ → ℝ → ℝ → ℝ → ℝ≥0∞)
    (hk : Measurable fun p : (ℝ × ℝ) × (ℝ × ℝ) => k p.1.1 p.1.2 p.2.1 p.2.2) :
    ∫⁻ a, ∫⁻ v, ∫⁻ b, ∫⁻ w, k a v b w ∂U ∂R ∂U ∂R = ∫⁻ v, ∫⁻ w, ∫⁻ a, ∫⁻ b, k a v b w ∂R ∂R ∂U ∂U := by
  have m1 : Measurable fun p : ℝ × ℝ => ∫⁻ b, ∫⁻ w, k p.1 p.2 b w ∂U ∂R := by
    have h : Measurable fun q : (ℝ × ℝ) × ℝ => ∫⁻ w, k q.1.1 q.1.2 q.2 w ∂U :=
      (hk.comp (f := fun x : ((ℝ × ℝ) × ℝ) × ℝ => (x.1.1, (x.1.2, x.2))) (by fun_prop)).lintegral_prod_right'
    exact h.lintegral_prod_right'
  rw [lintegral_lintegral_swap m1.aemeasurable]
  refine lintegral_congr fun v => ?_
  have m2 : ∀ a, Measurable fun p : ℝ × ℝ => k a v p.1 p.2 := fun a =>
    hk.comp (f := fun x : ℝ × ℝ => ((a, v), x)) (by fun_prop)
  have e : ∀ a, ∫⁻ b, ∫⁻ w, k a v b w ∂U ∂R = ∫⁻ w, ∫⁻ b, k a v b w ∂R ∂U := fun a =>
    lintegral_lintegral_swap (m2 a).aemeasurable
  simp only [e]
  have m3 : Measurable fun p : ℝ × ℝ => ∫⁻ b, k p.1 v b p.2 ∂R :=
    (hk.comp (f := fun x : (ℝ × ℝ) × ℝ => ((x.1.1, v), (x.2, x.1.2))) (by fun_prop)).lintegral_prod_right'
  rw [lintegral_lintegral_swap m3.aemeasurable]

/-- Integrals over the ball of functions of the direction are averages. -/
theorem ball_average : ∃ C : ℝ≥0∞, ∀ g : P4 → ℝ≥0∞, Measurable g →
    ∫⁻ p : P4, (if nsq p ≤ 1 then g (dir p) else 0) = C * avg g := by
  refine ⟨∫⁻ r in Ioi (0 : ℝ), if r ^ 2 ≤ 1 then ENNReal.ofReal (2 * π ^ 2 * r ^ 3) else 0, fun g hg => ?_⟩
  have hp := pi_pos
  let F : P4 → ℝ≥0∞ := fun p => if nsq p ≤ 1 then g (dir p) else 0
  have hF : Measurable F :=
    Measurable.ite (measurableSet_le measurable_nsq measurable_const) (hg.comp measurable_dir) measurable_const
  change ∫⁻ p : P4, F p = _
  have hFa : Measurable fun a : ℝ × ℝ => ∫⁻ b : ℝ × ℝ, F (a, b) := hF.lintegral_prod_right'
  rw [Measure.volume_eq_prod, lintegral_prod _ hF.aemeasurable, polar2 _ hFa]
  have e1 : ∀ a : ℝ × ℝ, ∫⁻ b : ℝ × ℝ, F (a, b) = _ := fun a =>
    polar2 (fun b => F (a, b)) (hF.comp (f := fun b => (a, b)) (by fun_prop))
  simp only [e1]
  have e2 : ∀ r v : ℝ, ENNReal.ofReal (2 * π * r) * ∫⁻ r' in Ioi (0 : ℝ), ∫⁻ w in Ioo (0 : ℝ) 1,
        ENNReal.ofReal (2 * π * r') * F ((r * cos (2 * π * v), r * sin (2 * π * v)), (r' * cos (2 * π * w), r' * sin (2 * π * w)))
      = ∫⁻ r' in Ioi (0 : ℝ), ∫⁻ w in Ioo (0 : ℝ) 1, ENNReal.ofReal (2 * π * r) * (ENNReal.ofReal (2 * π * r') *
        F ((r * cos (2 * π * v), r * sin (2 * π * v)), (r' * cos (2 * π * w), r' * sin (2 * π * w)))) := by
    intro r v
    rw [← lintegral_const_mul' _ _ ENNReal.ofReal_ne_top]
    refine lintegral_congr fun r' => ?_
    rw [← lintegral_const_mul' _ _ ENNReal.ofReal_ne_top]
  simp only [e2]
  rw [reorder (fun r v r' w => ENNReal.ofReal (2 * π * r) * (ENNReal.ofReal (2 * π * r') *
        F ((r * cos (2 * π * v), r * sin (2 * π * v)), (r' * cos (2 * π * w), r' * sin (2 * π * w))))) (by
    refine Measurable.mul (by fun_prop) (Measurable.mul (by fun_prop) (hF.comp (by fun_prop))))]
  have e3 : ∀ v w : ℝ, ∫⁻ r in Ioi (0 : ℝ), ∫⁻ r' in Ioi (0 : ℝ), ENNReal.ofReal (2 * π * r) * (ENNReal.ofReal (2 * π * r') *
        F ((r * cos (2 * π * v), r * sin (2 * π * v)), (r' * cos (2 * π * w), r' * sin (2 * π * w)))) =
      (∫⁻ r in Ioi (0 : ℝ), if r ^ 2 ≤ 1 then ENNReal.ofReal (2 * π ^ 2 * r ^ 3) else 0) *
        ∫⁻ u in Ioo (0 : ℝ) 1, g (point u v w) := by
    intro v w
    let f : ℝ × ℝ → ℝ≥0∞ := fun p => ENNReal.ofReal (2 * π * p.1) * (ENNReal.ofReal (2 * π * p.2) *
        F ((p.1 * cos (2 * π * v), p.1 * sin (2 * π * v)), (p.2 * cos (2 * π * w), p.2 * sin (2 * π * w))))
    have hf : Measurable f :=
      Measurable.mul (by fun_prop) (Measurable.mul (by fun_prop) (hF.comp (by fun_prop)))
    refine (quadrant f hf).trans ?_
    have hu := square_sine (fun q => g ((q.1 * cos (2 * π * v), q.1 * sin (2 * π * v)), (q.2 * cos (2 * π * w), q.2 * sin (2 * π * w))))
    unfold point
    rw [← hu]
    have hc : Measurable fun r : ℝ => if r ^ 2 ≤ 1 then ENNReal.ofReal (2 * π ^ 2 * r ^ 3) else 0 :=
      Measurable.ite (measurableSet_le (by fun_prop) measurable_const) (by fun_prop) measurable_const
    rw [← lintegral_mul_const _ hc]
    refine setLIntegral_congr_fun measurableSet_Ioi fun r hr => ?_
    simp only [mem_Ioi] at hr
    beta_reduce
    rw [← lintegral_const_mul' _ _ (by split <;> simp)]
    refine setLIntegral_congr_fun measurableSet_Ioo fun t ht => ?_
    have hs : 0 < sin t := sin_pos_of_pos_of_lt_pi ht.1 (by linarith [ht.2])
    have hco : 0 < cos t := cos_pos_of_mem_Ioo ⟨by linarith [ht.1], ht.2⟩
    beta_reduce
    simp only [f, F]
    have hn : nsq ((r * cos t * cos (2 * π * v), r * cos t * sin (2 * π * v)),
        (r * sin t * cos (2 * π * w), r * sin t * sin (2 * π * w))) = r ^ 2 := by
      unfold nsq
      have a := sin_sq_add_cos_sq (2 * π * v)
      have b := sin_sq_add_cos_sq (2 * π * w)
      have c := sin_sq_add_cos_sq t
      linear_combination r ^ 2 * cos t ^ 2 * a + r ^ 2 * sin t ^ 2 * b + r ^ 2 * c
    have hd : dir ((r * cos t * cos (2 * π * v), r * cos t * sin (2 * π * v)),
        (r * sin t * cos (2 * π * w), r * sin t * sin (2 * π * w))) =
        ((cos t * cos (2 * π * v), cos t * sin (2 * π * v)), (sin t * cos (2 * π * w), sin t * sin (2 * π * w))) := by
      unfold dir
      rw [hn, sqrt_sq hr.le]
      simp only [Prod.mk.injEq]
      refine ⟨⟨?_, ?_⟩, ?_, ?_⟩ <;> field_simp
    rw [hn, hd]
    split
    · rw [← mul_assoc, ← mul_assoc, ← mul_assoc (ENNReal.ofReal (2 * π ^ 2 * r ^ 3)), ← ENNReal.ofReal_mul hr.le, ← ENNReal.ofReal_mul (by positivity),
        ← ENNReal.ofReal_mul (by positivity)]
      congr 2
      ring
    · simp
  simp only [e3]
  have hi : Measurable fun p : (ℝ × ℝ) × ℝ => g (point p.2 p.1.1 p.1.2) :=
    hg.comp (by unfold point; fun_prop)
  have h2 : Measurable fun p : ℝ × ℝ => ∫⁻ u in Ioo (0 : ℝ) 1, g (point u p.1 p.2) := hi.lintegral_prod_right'
  have h1 : Measurable fun v : ℝ => ∫⁻ w in Ioo (0 : ℝ) 1, ∫⁻ u in Ioo (0 : ℝ) 1, g (point u v w) :=
    h2.lintegral_prod_right'
  have e4 : ∀ v : ℝ, ∫⁻ w in Ioo (0 : ℝ) 1, (∫⁻ r in Ioi (0 : ℝ), if r ^ 2 ≤ 1 then ENNReal.ofReal (2 * π ^ 2 * r ^ 3) else 0) *
        ∫⁻ u in Ioo (0 : ℝ) 1, g (point u v w) =
      (∫⁻ r in Ioi (0 : ℝ), if r ^ 2 ≤ 1 then ENNReal.ofReal (2 * π ^ 2 * r ^ 3) else 0) *
        ∫⁻ w in Ioo (0 : ℝ) 1, ∫⁻ u in Ioo (0 : ℝ) 1, g (point u v w) := fun v =>
    lintegral_const_mul _ (h2.comp (f := fun w => (v, w)) (by fun_prop))
  simp only [e4]
  rw [lintegral_const_mul _ h1]
  congr 1
  unfold avg
  have m : ∀ v : ℝ, Measurable fun p : ℝ × ℝ => g (point p.2 v p.1) := fun v =>
    hg.comp (by unfold point; fun_prop)
  have e5 : ∀ v : ℝ, ∫⁻ w in Ioo (0 : ℝ) 1, ∫⁻ u in Ioo (0 : ℝ) 1, g (point u v w) =
      ∫⁻ u in Ioo (0 : ℝ) 1, ∫⁻ w in Ioo (0 : ℝ) 1, g (point u v w) := fun v =>
    lintegral_lintegral_swap (m v).aemeasurable
  simp only [e5]
  have m' : Measurable fun p : ℝ × ℝ => ∫⁻ w in Ioo (0 : ℝ) 1, g (point p.2 p.1 w) :=
    (hg.comp (g := g) (f := fun x : (ℝ × ℝ) × ℝ => point x.1.2 x.1.1 x.2) (by unfold point; fun_prop)).lintegral_prod_right'
  exact lintegral_lintegral_swap m'.aemeasurable

theorem avg_one : avg (fun _ => 1) = 1 := by
  unfold avg
  simp

/-- The unit ball has a volume. -/
theorem ball_volume : volume {p : P4 | nsq p ≤ 1} ≠ 0 ∧ volume {p : P4 | nsq p ≤ 1} ≠ ⊤ := by
  constructor
  · have ho : IsOpen {p : P4 | nsq p < 1} := isOpen_lt (by unfold nsq; fun_prop) continuous_const
    have hp : 0 < volume {p : P4 | nsq p < 1} := ho.measure_pos _ ⟨((0, 0), (0, 0)), by simp [nsq]⟩
    have hm : volume {p : P4 | nsq p < 1} ≤ volume {p : P4 | nsq p ≤ 1} :=
      measure_mono fun p h => le_of_lt (show nsq p < 1 from h)
    exact (hp.trans_le hm).ne'
  · have hb : Bornology.IsBounded {p : P4 | nsq p ≤ 1} := by
      refine (Metric.isBounded_closedBall (x := (0 : P4)) (r := 1)).subset fun p h => ?_
      simp only [mem_ofPred_eq, nsq] at h
      rw [Metric.mem_closedBall, dist_zero_right]
      simp only [Prod.norm_def, Real.norm_eq_abs, sup_le_iff]
      refine ⟨⟨?_, ?_⟩, ?_, ?_⟩ <;> (refine abs_le_one_iff_mul_self_le_one.mpr ?_; nlinarith [sq_nonneg p.1.1, sq_nonneg p.1.2, sq_nonneg p.2.1, sq_nonneg p.2.2])
    exact hb.measure_lt_top.ne

/-- Linear maps that keep lengths keep volumes. -/
theorem isometry_volume (e : P4 →ₗ[ℝ] P4) (he : ∀ p, nsq (e p) = nsq p) : volume.map e = (volume : Measure P4) := by
  have hinj : Function.Injective e := by
    rw [← LinearMap.ker_eq_bot, LinearMap.ker_eq_bot']
    intro p h
    have := he p
    rw [h] at this
    simp only [nsq, Prod.fst_zero, Prod.snd_zero] at this
    have a : p.1.1 ^ 2 = 0 := by nlinarith [sq_nonneg p.1.1, sq_nonneg p.1.2, sq_nonneg p.2.1, sq_nonneg p.2.2]
    have b : p.1.2 ^ 2 = 0 := by nlinarith [sq_nonneg p.1.1, sq_nonneg p.1.2, sq_nonneg p.2.1, sq_nonneg p.2.2]
    have c : p.2.1 ^ 2 = 0 := by nlinarith [sq_nonneg p.1.1, sq_nonneg p.1.2, sq_nonneg p.2.1, sq_nonneg p.2.2]
    have d : p.2.2 ^ 2 = 0 := by nlinarith [sq_nonneg p.1.1, sq_nonneg p.1.2, sq_nonneg p.2.1, sq_nonneg p.2.2]
    rw [sq_eq_zero_iff] at a b c d
    exact Prod.ext (Prod.ext a b) (Prod.ext c d)
  have hdet : LinearMap.det e ≠ 0 := by
    intro h0
    have := LinearMap.bot_lt_ker_of_det_eq_zero h0
    rw [LinearMap.ker_eq_bot.mpr hinj] at this
    exact lt_irrefl _ this
  have hh : (volume : Measure P4).IsAddHaarMeasure := by
    have h2 : (volume : Measure (ℝ × ℝ)).IsAddHaarMeasure := inferInstanceAs ((volume : Measure ℝ).prod volume).IsAddHaarMeasure
    exact inferInstanceAs ((volume : Measure (ℝ × ℝ)).prod volume).IsAddHaarMeasure
  have hm := Measure.map_linearMap_addHaar_eq_smul_addHaar (volume : Measure P4) hdet
  have hb : volume.map e {p : P4 | nsq p ≤ 1} = volume {p : P4 | nsq p ≤ 1} := by
    rw [Measure.map_apply (by exact e.continuous_of_finiteDimensional.measurable) (measurableSet_le measurable_nsq measurable_const)]
    congr 1
    ext p
    simp [he]
  rw [hm, Measure.smul_apply, smul_eq_mul] at hb
  have hone : ENNReal.ofReal |(LinearMap.det e)⁻¹| = 1 := by
    have := (ENNReal.mul_eq_right ball_volume.1 ball_volume.2).mp hb
    exact this
  rw [hm, hone, one_smul]

/-- The average does not change when the function is composed with a linear map that keeps lengths. -/
theorem avg_isometry (e : P4 →ₗ[ℝ] P4) (he : ∀ p, nsq (e p) = nsq p) (g : P4 → ℝ≥0∞) (hg : Measurable g) :
    avg (fun p => g (e p)) = avg g := by
  obtain ⟨C, hC⟩ := ball_average
  have hme : Measurable e := e.continuous_of_finiteDimensional.measurable
  have h1 : C = volume {p : P4 | nsq p ≤ 1} := by
    have := hC (fun _ => 1) measurable_const
    rw [avg_one, mul_one] at this
    rw [← this, ← lintegral_indicator_one (measurableSet_le measurable_nsq measurable_const)]
    rfl
  have hd : ∀ p, dir (e p) = e (dir p) := by
    intro p
    have : ∀ q : P4, dir q = (√(nsq q))⁻¹ • q := by
      intro q
      simp only [dir, div_eq_inv_mul]
      rfl
    rw [this, this, he, map_smul]
  have hF : Measurable fun p => if nsq p ≤ 1 then g (dir p) else 0 :=
    Measurable.ite (measurableSet_le measurable_nsq measurable_const) (hg.comp measurable_dir) measurable_const
  have h2 : C * avg (fun p => g (e p)) = C * avg g := by
    rw [← hC (fun p => g (e p)) (hg.comp hme), ← hC _ hg]
    conv_rhs => rw [← isometry_volume e he, lintegral_map hF hme]
    simp only [he, hd]
  exact (ENNReal.mul_right_inj (h1 ▸ ball_volume.1) (h1 ▸ ball_volume.2)).mp h2

end Verif.Sphere
