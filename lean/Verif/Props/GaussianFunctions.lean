import Mathlib.MeasureTheory.Integral.IntervalIntegral.FundThmCalculus
import Mathlib.Tactic.FieldSimp
import Mathlib.Tactic.Positivity
import Mathlib.Tactic.Ring
import Mathlib.Tactic.Linarith
import Verif.Spec.GaussianFunctions

/-!
# C119: the Gaussian functions are the densities and probabilities of the normal distribution
-/
namespace Verif.GaussianFunctions
open Verif MeasureTheory ProbabilityTheory Set

theorem variance_ne {s : ℝ} (h : 0 < s) : (s ^ 2).toNNReal ≠ 0 := by
  rw [Ne, Real.toNNReal_eq_zero, not_le]
  positivity

instance (m s : ℝ) : IsProbabilityMeasure (normal m s) := by unfold normal; infer_instance

theorem measurable_between (a b : EReal) : MeasurableSet (between a b) :=
  (measurableSet_Ici.preimage measurable_coe_real_ereal).inter (measurableSet_Iic.preimage measurable_coe_real_ereal)

/-- **C119.** The density -/
theorem C119_pdf (mean stdDev x : ℝ) (h : 0 < stdDev) :
    evaluateGaussianPDF mean stdDev x = gaussianPDFReal mean (stdDev ^ 2).toNNReal x := by
  unfold evaluateGaussianPDF gaussianPDFReal
  simp only [Real.coe_toNNReal _ (sq_nonneg stdDev)]
  rw [show 2 * Real.pi * stdDev ^ 2 = stdDev ^ 2 * (2 * Real.pi) by ring, Real.sqrt_mul (sq_nonneg _),
    Real.sqrt_sq h.le, one_div]
  congr 2
  ring

theorem pdf_continuous (m s : ℝ) : Continuous (evaluateGaussianPDF m s) := by
  unfold evaluateGaussianPDF
  fun_prop

theorem normal_Iic_mean {m s : ℝ} (h : 0 < s) : (normal m s).real (Iic m) = 1 / 2 := by
  have := nullSingletonClass_gaussianReal (μ := m) (variance_ne h)
  have hs : normal m s (Iic m) = normal m s (Ici m) := by
    have e := gaussianReal_map_const_sub (μ := m) (v := (s ^ 2).toNNReal) (2 * m)
    rw [show 2 * m - m = m by ring] at e
    unfold normal
    conv_lhs => rw [← e]
    rw [Measure.map_apply (by fun_prop) measurableSet_Iic]
    congr 1
    ext x
    simp only [mem_preimage, mem_Iic, mem_Ici]
    constructor <;> intro h <;> linarith
  have hc : (normal m s).real (Iic m) + (normal m s).real (Ioi m) = 1 := by
    rw [← compl_Iic, probReal_compl_eq_one_sub measurableSet_Iic]; ring
  have hi : (normal m s).real (Ioi m) = (normal m s).real (Ici m) := by
    unfold normal
    rw [measureReal_def, measureReal_def, measure_congr (Ioi_ae_eq_Ici (μ := gaussianReal m (s ^ 2).toNNReal) (a := m))]
  have : (normal m s).real (Iic m) = (normal m s).real (Ici m) := by
    rw [measureReal_def, hs, measureReal_def]
  linarith

theorem normal_Ioc {m s a b : ℝ} (h : 0 < s) (hab : a ≤ b) :
    (normal m s).real (Ioc a b) = ∫ x in a..b, evaluateGaussianPDF m s x := by
  rw [measureReal_def, normal, gaussianReal_apply_eq_integral _ (variance_ne h), ENNReal.toReal_ofReal,
    intervalIntegral.integral_of_le hab]
  · refine integral_congr_ae (Filter.Eventually.of_forall fun x => ?_)
    simp only [C119_pdf m s x h]
  · exact integral_nonneg fun x => gaussianPDFReal_nonneg _ _ _

theorem normal_Iic {m s : ℝ} (h : 0 < s) (x : ℝ) :
    (normal m s).real (Iic x) = 1 / 2 + ∫ t in m..x, evaluateGaussianPDF m s t := by
  rcases le_total m x with hx | hx
  · rw [← normal_Ioc h hx, ← normal_Iic_mean (m := m) h, ← measureReal_union (by
      exact Set.disjoint_left.2 fun y h1 h2 => absurd h2.1 (not_lt.2 h1)) measurableSet_Ioc, Iic_union_Ioc_eq_Iic hx]
  · rw [intervalIntegral.integral_symm, ← normal_Ioc h hx, ← normal_Iic_mean (m := m) h, ← Iic_union_Ioc_eq_Iic hx,
      measureReal_union (by exact Set.disjoint_left.2 fun y h1 h2 => absurd h2.1 (not_lt.2 h1)) measurableSet_Ioc]
    ring

theorem erf_coe (y : ℝ) : erf (y : EReal) = 2 / Real.sqrt Real.pi * ∫ t in (0 : ℝ)..y, Real.exp (-t ^ 2) := by
  rw [erf, if_neg (EReal.coe_ne_top _), if_neg (EReal.coe_ne_bot _), EReal.toReal_coe]

theorem integral_pdf {m s : ℝ} (h : 0 < s) (x : ℝ) :
    ∫ t in m..x, evaluateGaussianPDF m s t = 1 / 2 * erf (((x - m) / s / Real.sqrt 2 : ℝ) : EReal) := by
  have h2 : 0 < Real.sqrt 2 := by positivity
  have hc : s * Real.sqrt 2 ≠ 0 := by positivity
  have key := intervalIntegral.integral_comp_div_sub (fun t => Real.exp (-t ^ 2)) (a := m) (b := x) hc (m / (s * Real.sqrt 2))
  rw [erf_coe]
  have e : ∀ t, evaluateGaussianPDF m s t = 1 / (s * Real.sqrt (2 * Real.pi)) *
      Real.exp (-(t / (s * Real.sqrt 2) - m / (s * Real.sqrt 2)) ^ 2) := by
    intro t
    unfold evaluateGaussianPDF
    simp only
    congr 2
    rw [← sub_div, div_pow, mul_pow, Real.sq_sqrt zero_le_two]
    congr 1
    ring
  simp only [e]
  rw [intervalIntegral.integral_const_mul, key, sub_self, smul_eq_mul, Real.sqrt_mul zero_le_two, ← sub_div, ← div_div]
  have hp : Real.sqrt Real.pi ≠ 0 := by have := Real.pi_pos; positivity
  field_simp

theorem cdf_coe {m s : ℝ} (h : 0 < s) (x : ℝ) : evaluateGaussianCDF m s x = (normal m s).real (Iic x) := by
  rw [normal_Iic h, integral_pdf h, evaluateGaussianCDF]
  have : (((x : EReal) - (m : EReal)) / (s : EReal)) / ((Real.sqrt 2 : ℝ) : EReal) =
      (((x - m) / s / Real.sqrt 2 : ℝ) : EReal) := by
    rw [EReal.coe_div, EReal.coe_div, EReal.coe_sub]
  rw [this]
  ring

theorem cdf_top {m s : ℝ} (h : 0 < s) : evaluateGaussianCDF m s ⊤ = 1 := by
  have h2 : 0 < Real.sqrt 2 := by positivity
  rw [evaluateGaussianCDF, EReal.top_sub_coe, EReal.top_div_of_pos_ne_top (by exact_mod_cast h) (EReal.coe_ne_top _),
    EReal.top_div_of_pos_ne_top (by exact_mod_cast h2) (EReal.coe_ne_top _), erf, if_pos rfl]
  norm_num

theorem cdf_bot {m s : ℝ} (h : 0 < s) : evaluateGaussianCDF m s ⊥ = 0 := by
  have h2 : 0 < Real.sqrt 2 := by positivity
  rw [evaluateGaussianCDF, EReal.bot_sub, EReal.bot_div_of_pos_ne_top (by exact_mod_cast h) (EReal.coe_ne_top _),
    EReal.bot_div_of_pos_ne_top (by exact_mod_cast h2) (EReal.coe_ne_top _), erf, if_neg (by simp), if_pos rfl]
  norm_num

/-- **C119.** The probability of numbers up to a value, finite or not -/
theorem C119_cdf (mean stdDev : ℝ) (val : EReal) (h : 0 < stdDev) :
    evaluateGaussianCDF mean stdDev val = (normal mean stdDev).real {x : ℝ | (x : EReal) ≤ val} := by
  induction val with
  | bot => rw [cdf_bot h]; simp
  | top => rw [cdf_top h]; simp
  | coe x =>
    rw [cdf_coe h]
    congr 1
    ext y
    simp

/-- The difference of two probabilities -/
theorem cdf_sub {m s : ℝ} (h : 0 < s) {a b : EReal} (hab : a ≤ b) :
    evaluateGaussianCDF m s b - evaluateGaussianCDF m s a = (normal m s).real (between a b) := by
  rw [C119_cdf _ _ _ h, C119_cdf _ _ _ h]
  have := nullSingletonClass_gaussianReal (μ := m) (variance_ne h)
  have hm : ∀ v : EReal, MeasurableSet {x : ℝ | (x : EReal) ≤ v} := fun v => measurableSet_Iic.preimage measurable_coe_real_ereal
  have hsub : {x : ℝ | (x : EReal) ≤ a} ⊆ {x : ℝ | (x : EReal) ≤ b} := fun x hx => le_trans hx hab
  rw [← measureReal_sdiff hsub (hm a)]
  have hae : ({x : ℝ | (x : EReal) ≤ b} \ {x : ℝ | (x : EReal) ≤ a} : Set ℝ) =ᵐ[normal m s] between a b := by
    have hnull : normal m s {x : ℝ | (x : EReal) = a} = 0 := by
      refine (Set.Subsingleton.countable ?_).measure_zero (gaussianReal m (s ^ 2).toNNReal)
      intro x hx y hy
      exact EReal.coe_injective (hx.trans hy.symm)
    refine (ae_iff.2 (le_antisymm (le_trans (measure_mono fun x hx => ?_) hnull.le) bot_le) : ∀ᵐ x ∂(normal m s), _)
    by_contra hne
    apply hx
    refine propext ⟨fun h1 => ⟨(not_le.1 h1.2).le, h1.1⟩, fun h1 => ⟨h1.2, fun h2 => hne (le_antisymm h2 h1.1)⟩⟩
  rw [measureReal_def, measure_congr hae, measureReal_def]

/-- **C119.** The probability of numbers between two limits -/
theorem C119_integrate (mean stdDev : ℝ) (lower upper : EReal) (h : 0 < stdDev) :
    (lower ≤ upper → integrateGaussian mean stdDev lower upper = .ok ((normal mean stdDev).real (between lower upper))) ∧
    (upper < lower → integrateGaussian mean stdDev lower upper = .abort) := by
  constructor
  · intro hl
    rw [integrateGaussian, if_pos hl]
    simp only [cdf_sub h hl]
  · intro hl
    rw [integrateGaussian, if_neg (not_le.2 hl)]

/-- Between bounds that differ there is something. -/
theorem between_pos {m s : ℝ} (h : 0 < s) {a b : EReal} (hab : a < b) : 0 < (normal m s).real (between a b) := by
  rw [measureReal_def]
  refine ENNReal.toReal_pos ?_ (measure_ne_top _ _)
  intro h0
  have hv := gaussianReal_absolutelyContinuous' m (variance_ne h) h0
  obtain ⟨x, hx1, hx2⟩ := EReal.lt_iff_exists_real_btwn.1 hab
  obtain ⟨y, hy1, hy2⟩ := EReal.lt_iff_exists_real_btwn.1 hx2
  have hsub : Ioo x y ⊆ between a b := fun z hz =>
    ⟨(hx1.trans (by exact_mod_cast hz.1)).le, ((show ((z : ℝ) : EReal) < y by exact_mod_cast hz.2).trans hy2).le⟩
  have := measure_mono_null hsub hv
  rw [Real.volume_Ioo, ENNReal.ofReal_eq_zero] at this
  have : x < y := by exact_mod_cast hy1
  linarith

theorem truncated_real (m s : ℝ) (a b : EReal) (t : Set ℝ) :
    (truncated m s a b).real t = ((normal m s).real (between a b))⁻¹ * (normal m s).real (between a b ∩ t) := by
  rw [truncated, measureReal_def, cond_apply (measurable_between a b), ENNReal.toReal_mul, ENNReal.toReal_inv]; rfl

/-- **C119.** The truncated distribution: the probability of numbers up to a value, given that they are between the
bounds -/
theorem C119_truncated_cdf (mean stdDev : ℝ) (lower upper val : EReal) (h : 0 < stdDev) :
    (lower < upper → evaluateTruncatedGaussianCDF mean lower upper stdDev val =
      .ok ((truncated mean stdDev lower upper).real {x : ℝ | (x : EReal) ≤ val})) ∧
    (upper < lower → evaluateTruncatedGaussianCDF mean lower upper stdDev val = .abort) ∧
    (lower = upper → evaluateTruncatedGaussianCDF mean lower upper stdDev val = .ok (if val ≤ lower then 0 else 1)) := by
  refine ⟨fun hl => ?_, fun hl => ?_, fun hl => ?_⟩
  · rw [evaluateTruncatedGaussianCDF, if_pos hl.le, truncated_real]
    have hp := between_pos (m := mean) h hl
    by_cases h1 : val ≤ lower
    · rw [if_pos h1]
      have h0 : (normal mean stdDev).real (between lower upper ∩ {x : ℝ | (x : EReal) ≤ val}) = 0 := by
        have hz := cdf_sub (m := mean) h (le_refl lower)
        rw [sub_self] at hz
        refine le_antisymm (le_trans (measureReal_mono fun x hx => ?_) hz.symm.le) measureReal_nonneg
        exact ⟨hx.1.1, le_trans hx.2 h1⟩
      rw [h0, mul_zero]
    · rw [if_neg h1]
      push Not at h1
      by_cases h2 : val ≥ upper
      · rw [if_pos h2]
        have : between lower upper ∩ {x : ℝ | (x : EReal) ≤ val} = between lower upper :=
          Set.inter_eq_left.2 fun x hx => le_trans hx.2 h2
        rw [this, inv_mul_cancel₀ hp.ne']
      · rw [if_neg h2]
        push Not at h2
        have : between lower upper ∩ {x : ℝ | (x : EReal) ≤ val} = between lower val := by
          ext x
          exact ⟨fun hx => ⟨hx.1.1, hx.2⟩, fun hx => ⟨⟨hx.1, le_trans hx.2 h2.le⟩, hx.2⟩⟩
        simp only
        rw [this, cdf_sub h h1.le, cdf_sub h hl.le, div_eq_inv_mul]
  · rw [evaluateTruncatedGaussianCDF, if_neg (not_le.2 hl)]
  · subst hl
    rw [evaluateTruncatedGaussianCDF, if_pos le_rfl]
    by_cases h1 : val ≤ lower
    · rw [if_pos h1, if_pos h1]
    · rw [if_neg h1, if_neg h1, if_pos (not_le.1 h1).le]

theorem truncated_prob {m s : ℝ} (h : 0 < s) {a b : EReal} (hab : a < b) : IsProbabilityMeasure (truncated m s a b) := by
  refine cond_isProbabilityMeasure fun h0 => ?_
  have := between_pos (m := m) h hab
  rw [measureReal_def, h0] at this
  exact lt_irrefl _ this

theorem truncated_ac (m s : ℝ) (a b : EReal) : truncated m s a b ≪ normal m s := cond_absolutelyContinuous

/-- **C119.** The truncated distribution: the probability of numbers between two limits -/
theorem C119_truncated_integrate (mean stdDev : ℝ) (lower upper lowerLimit upperLimit : EReal) (h : 0 < stdDev)
    (hl : lower < upper) :
    (lowerLimit ≤ upperLimit → integrateTruncatedGaussian mean lower upper stdDev lowerLimit upperLimit =
      .ok ((truncated mean stdDev lower upper).real (between lowerLimit upperLimit))) ∧
    (upperLimit < lowerLimit → integrateTruncatedGaussian mean lower upper stdDev lowerLimit upperLimit = .abort) := by
  constructor
  · intro hlim
    have := nullSingletonClass_gaussianReal (μ := mean) (variance_ne h)
    have := truncated_prob (m := mean) h hl
    rw [integrateTruncatedGaussian, Out.assert_true hl.le, Out.bind_ok, Out.assert_true hlim, Out.bind_ok,
      (C119_truncated_cdf mean stdDev lower upper lowerLimit h).1 hl, Out.bind_ok,
      (C119_truncated_cdf mean stdDev lower upper upperLimit h).1 hl, Out.bind_ok]
    congr 1
    have hm : ∀ v : EReal, MeasurableSet {x : ℝ | (x : EReal) ≤ v} := fun v => measurableSet_Iic.preimage measurable_coe_real_ereal
    have hsub : {x : ℝ | (x : EReal) ≤ lowerLimit} ⊆ {x : ℝ | (x : EReal) ≤ upperLimit} := fun x hx => le_trans hx hlim
    rw [← measureReal_sdiff hsub (hm _)]
    have hae : ({x : ℝ | (x : EReal) ≤ upperLimit} \ {x : ℝ | (x : EReal) ≤ lowerLimit} : Set ℝ)
        =ᵐ[truncated mean stdDev lower upper] between lowerLimit upperLimit := by
      have hnull : normal mean stdDev {x : ℝ | (x : EReal) = lowerLimit} = 0 := by
        refine (Set.Subsingleton.countable ?_).measure_zero (gaussianReal mean (stdDev ^ 2).toNNReal)
        intro x hx y hy
        exact EReal.coe_injective (hx.trans hy.symm)
      have hnull := truncated_ac mean stdDev lower upper hnull
      refine (ae_iff.2 (le_antisymm (le_trans (measure_mono fun x hx => ?_) hnull.le) bot_le) :
        ∀ᵐ x ∂(truncated mean stdDev lower upper), _)
      by_contra hne
      apply hx
      refine propext ⟨fun h1 => ⟨(not_le.1 h1.2).le, h1.1⟩, fun h1 => ⟨h1.2, fun h2 => hne (le_antisymm h2 h1.1)⟩⟩
    rw [measureReal_def, measure_congr hae, measureReal_def]
  · intro hlim
    rw [integrateTruncatedGaussian, Out.assert_true hl.le, Out.bind_ok, Out.assert_false (not_le.2 hlim), Out.bind_abort]

/-- **C119.** The truncated distribution: the density. The probability of any set of numbers is the integral of the
function over it. -/
theorem C119_truncated_pdf (mean stdDev : ℝ) (lower upper : EReal) (h : 0 < stdDev) :
    (lower < upper → ∃ f : ℝ → ℝ, (∀ x : ℝ, evaluateTruncatedGaussianPDF mean lower upper stdDev x = .ok (f x) ∧ 0 ≤ f x) ∧
      truncated mean stdDev lower upper = volume.withDensity fun x => ENNReal.ofReal (f x)) ∧
    (∀ x : ℝ, upper < lower → evaluateTruncatedGaussianPDF mean lower upper stdDev x = .abort) ∧
    (∀ x : ℝ, lower = upper → evaluateTruncatedGaussianPDF mean lower upper stdDev x = .ok 0) := by
  refine ⟨fun hl => ?_, fun x hl => ?_, fun x hl => ?_⟩
  · have hp := between_pos (m := mean) h hl
    have := nullSingletonClass_gaussianReal (μ := mean) (variance_ne h)
    let f : ℝ → ℝ := fun x => if (x : EReal) ≤ lower then 0 else if (x : EReal) ≥ upper then 0 else
      evaluateGaussianPDF mean stdDev x / (normal mean stdDev).real (between lower upper)
    refine ⟨f, fun x => ⟨?_, ?_⟩, ?_⟩
    · rw [evaluateTruncatedGaussianPDF, if_pos hl.le]
      simp only [f, cdf_sub h hl.le]
      split
      · rfl
      · split <;> rfl
    · simp only [f]
      split
      · exact le_rfl
      · split
        · exact le_rfl
        · rw [C119_pdf _ _ _ h]
          exact div_nonneg (gaussianPDFReal_nonneg _ _ _) hp.le
    · have hne : normal mean stdDev (between lower upper) ≠ 0 := fun h0 => by
        rw [measureReal_def, h0] at hp
        exact lt_irrefl _ hp
      rw [truncated, ProbabilityTheory.cond]
      conv_lhs => rw [normal, gaussianReal_of_var_ne_zero _ (variance_ne h)]
      rw [restrict_withDensity (measurable_between _ _), ← withDensity_indicator (measurable_between _ _),
        ← withDensity_smul _ ((measurable_gaussianPDF _ _).indicator (measurable_between _ _))]
      refine withDensity_congr_ae ?_
      have hend : ∀ v : EReal, ∀ᵐ x : ℝ, (x : EReal) ≠ v := by
        intro v
        have : volume {x : ℝ | (x : EReal) = v} = 0 := by
          refine (Set.Subsingleton.countable ?_).measure_zero _
          intro x hx y hy
          exact EReal.coe_injective (hx.trans hy.symm)
        rw [ae_iff]
        simpa using this
      filter_upwards [hend lower, hend upper] with x h1 h2
      simp only [f, Pi.smul_apply, smul_eq_mul, indicator]
      rw [← gaussianReal_of_var_ne_zero _ (variance_ne h)]
      by_cases hx : x ∈ between lower upper
      · rw [if_pos hx, if_neg (fun h => h1 (le_antisymm h hx.1)), if_neg (fun h => h2 (le_antisymm hx.2 h)),
          C119_pdf _ _ _ h, ENNReal.ofReal_div_of_pos hp, measureReal_def, ENNReal.ofReal_toReal (measure_ne_top _ _),
          ENNReal.div_eq_inv_mul]
        rfl
      · rw [if_neg hx, mul_zero]
        split
        · rw [ENNReal.ofReal_zero]
        · rename_i h3
          rw [if_pos (by
            by_contra h4
            exact hx ⟨(not_le.1 h3).le, (not_le.1 h4).le⟩), ENNReal.ofReal_zero]
  · rw [evaluateTruncatedGaussianPDF, if_neg (not_le.2 hl)]
  · subst hl
    rw [evaluateTruncatedGaussianPDF, if_pos le_rfl]
    by_cases h1 : (x : EReal) ≤ lower
    · rw [if_pos h1]
    · rw [if_neg h1, if_pos (not_le.1 h1).le]

/-- The statements apply to the standard normal distribution on the positive numbers: half of it. -/
example : integrateGaussian 0 1 0 ⊤ = .ok (1 / 2) ∧ evaluateTruncatedGaussianCDF 0 0 ⊤ 1 ⊤ = .ok 1 ∧
    integrateGaussian 0 1 ⊤ 0 = .abort := by
  refine ⟨?_, ?_, (C119_integrate 0 1 ⊤ 0 one_pos).2 (EReal.coe_lt_top 0)⟩
  · have h := cdf_coe (m := 0) one_pos 0
    rw [normal_Iic_mean one_pos] at h
    rw [integrateGaussian, if_pos le_top]
    simp only
    rw [cdf_top one_pos, show (0 : EReal) = ((0 : ℝ) : EReal) from rfl, h]
    norm_num
  · rw [evaluateTruncatedGaussianCDF, if_pos le_top, if_neg (by simp), if_pos le_rfl]

end Verif.GaussianFunctions
