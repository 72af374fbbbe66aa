import Mathlib.MeasureTheory.Constructions.Pi
import Mathlib.MeasureTheory.Integral.IntervalIntegral.Periodic
import Mathlib.MeasureTheory.Function.JacobianOneDim
import Mathlib.MeasureTheory.Measure.Haar.Unique
import Mathlib.Tactic.Ring
import Mathlib.Tactic.Linarith

/-!
# Integrals over uniform draws and periodic functions
-/
namespace Verif.UniformDraws
open MeasureTheory Set ENNReal

/-- The first of the draws apart -/
theorem pi_succ {n : Nat} (μ : Measure ℝ) [SigmaFinite μ] (f : (Fin (n + 1) → ℝ) → ℝ≥0∞) (hf : Measurable f) :
    ∫⁻ x, f x ∂(Measure.pi fun _ => μ) = ∫⁻ a, ∫⁻ y, f (Fin.cons a y) ∂(Measure.pi fun _ => μ) ∂μ := by
  have h := (measurePreserving_piFinSuccAbove (fun _ : Fin (n + 1) => μ) 0).symm
  rw [← h.lintegral_comp hf]
  refine (lintegral_prod (μ := μ) (ν := Measure.pi fun _ : Fin n => μ) (fun p : ℝ × (Fin n → ℝ) => f ((MeasurableEquiv.piFinSuccAbove (fun _ => ℝ) 0).symm p))
    (hf.comp (MeasurableEquiv.measurable _)).aemeasurable).trans ?_
  refine lintegral_congr fun a => lintegral_congr fun y => ?_
  congr 1
  funext i
  refine Fin.cases ?_ (fun j => ?_) i <;> simp [MeasurableEquiv.piFinSuccAbove, Fin.insertNthEquiv]

theorem pi_zero (μ : Measure ℝ) [SigmaFinite μ] (f : (Fin 0 → ℝ) → ℝ≥0∞) :
    ∫⁻ x, f x ∂(Measure.pi fun _ => μ) = f ![] := by
  rw [Measure.pi_of_empty (fun _ : Fin 0 => μ) ![], lintegral_dirac]

theorem pi_three (μ : Measure ℝ) [SigmaFinite μ] (f : (Fin 3 → ℝ) → ℝ≥0∞) (hf : Measurable f) :
    ∫⁻ x, f x ∂(Measure.pi fun _ => μ) = ∫⁻ a, ∫⁻ b, ∫⁻ c, f ![a, b, c] ∂μ ∂μ ∂μ := by
  rw [pi_succ μ f hf]
  refine lintegral_congr fun a => ?_
  have ha : Measurable fun y : Fin 2 → ℝ => f (Fin.cons a y) :=
    hf.comp (measurable_pi_iff.2 fun i => by refine Fin.cases ?_ (fun j => ?_) i <;> simp <;> fun_prop)
  rw [pi_succ μ _ ha]
  refine lintegral_congr fun b => ?_
  have hb : Measurable fun y : Fin 1 → ℝ => f (Fin.cons a (Fin.cons b y)) :=
    ha.comp (measurable_pi_iff.2 fun i => by refine Fin.cases ?_ (fun j => ?_) i <;> simp <;> fun_prop)
  rw [pi_succ μ _ hb]
  refine lintegral_congr fun c => ?_
  rw [pi_zero]
  rfl

theorem pi_four (μ : Measure ℝ) [SigmaFinite μ] (f : (Fin 4 → ℝ) → ℝ≥0∞) (hf : Measurable f) :
    ∫⁻ x, f x ∂(Measure.pi fun _ => μ) = ∫⁻ a, ∫⁻ b, ∫⁻ c, ∫⁻ d, f ![a, b, c, d] ∂μ ∂μ ∂μ ∂μ := by
  rw [pi_succ μ f hf]
  refine lintegral_congr fun a => ?_
  have ha : Measurable fun y : Fin 3 → ℝ => f (Fin.cons a y) :=
    hf.comp (measurable_pi_iff.2 fun i => by refine Fin.cases ?_ (fun j => ?_) i <;> simp <;> fun_prop)
  rw [pi_three μ _ ha]
  rfl

/-- A periodic function can be shifted. -/
theorem periodic_shift (f : ℝ → ℝ≥0∞) (hf : ∀ x, f (x + 1) = f x) (c : ℝ) :
    ∫⁻ x in Ioo (0 : ℝ) 1, f (x + c) = ∫⁻ x in Ioo (0 : ℝ) 1, f x := by
  have hper : Function.Periodic f 1 := hf
  have h1 : ∫⁻ x in Ioo (0 : ℝ) 1, f (x + c) = ∫⁻ x in Ioo c (c + 1), f x := by
    rw [← (measurePreserving_add_right volume c).setLIntegral_comp_preimage_emb (measurableEmbedding_addRight c) f (Ioo c (c + 1))]
    congr 2
    simp
  rw [h1, restrict_Ioo_eq_restrict_Ioc, restrict_Ioo_eq_restrict_Ioc]
  have := (isAddFundamentalDomain_Ioc one_pos c).setLIntegral_eq (isAddFundamentalDomain_Ioc one_pos 0) f (fun g x => by
    obtain ⟨n, hn⟩ := AddSubgroup.mem_zmultiples_iff.1 g.2
    change f ((g : ℝ) + x) = f x
    rw [← hn, add_comm, hper.zsmul n x])
  rwa [zero_add] at this

/-- The interval can be turned around. -/
theorem reflect (f : ℝ → ℝ≥0∞) : ∫⁻ x in Ioo (0 : ℝ) 1, f (1 - x) = ∫⁻ x in Ioo (0 : ℝ) 1, f x := by
  have h := (Measure.measurePreserving_sub_left volume (1 : ℝ)).setLIntegral_comp_preimage_emb (MeasurableEquiv.subLeft (1 : ℝ)).measurableEmbedding f (Ioo 0 1)
  rw [← h]
  congr 2
  simp

/-- A function with half the period is averaged as well by its first half. -/
theorem periodic_half (f : ℝ → ℝ≥0∞) (hf : ∀ x, f (x + 1 / 2) = f x) :
    ∫⁻ x in Ioo (0 : ℝ) 1, f (x / 2) = ∫⁻ x in Ioo (0 : ℝ) 1, f x := by
  have key : ∀ g : ℝ → ℝ≥0∞, ∫⁻ x in Ioo (0 : ℝ) (1 / 2), g x = ENNReal.ofReal (1 / 2) * ∫⁻ x in Ioo (0 : ℝ) 1, g (x / 2) := by
    intro g
    have h := lintegral_image_eq_lintegral_abs_deriv_mul (s := Ioo (0 : ℝ) 1) (f := fun x : ℝ => x / 2) (f' := fun _ => 1 / 2)
      measurableSet_Ioo (fun x _ => ((hasDerivAt_id x).div_const 2).hasDerivWithinAt)
      (fun x _ y _ h => by simpa using h) g
    have hi : (fun x : ℝ => x / 2) '' Ioo 0 1 = Ioo 0 (1 / 2) := by
      ext y
      simp only [mem_image, mem_Ioo]
      constructor
      · rintro ⟨x, hx, rfl⟩
        constructor <;> linarith [hx.1, hx.2]
      · intro hy
        exact ⟨2 * y, ⟨by linarith, by linarith⟩, by ring⟩
    rw [hi, lintegral_const_mul' _ _ ENNReal.ofReal_ne_top, abs_of_pos (by norm_num)] at h
    exact h
  have hsplit : ∫⁻ x in Ioo (0 : ℝ) 1, f x = (∫⁻ x in Ioo (0 : ℝ) (1 / 2), f x) + (∫⁻ x in Ioo (0 : ℝ) (1 / 2), f x) := by
    have h2 : ∫⁻ x in Ioo (0 : ℝ) (1 / 2), f x = ∫⁻ x in Ioo (1 / 2 : ℝ) 1, f x := by
      rw [← (measurePreserving_add_right volume (1 / 2 : ℝ)).setLIntegral_comp_preimage_emb (measurableEmbedding_addRight _) f (Ioo (1 / 2) 1)]
      simp only [hf]
      congr 2
      simp
      norm_num
    refine Eq.trans ?_ (congrArg (fun z => (∫⁻ x in Ioo (0 : ℝ) (1 / 2), f x) + z) h2.symm)
    beta_reduce
    rw [restrict_Ioo_eq_restrict_Ioc, restrict_Ioo_eq_restrict_Ioc, restrict_Ioo_eq_restrict_Ioc,
      ← lintegral_union measurableSet_Ioc (Set.disjoint_left.2 fun x hx hy => by
        have := hx.2; have := hy.1; simp only [mem_Ioc] at *; linarith)]
    rw [Ioc_union_Ioc_eq_Ioc (by norm_num) (by norm_num)]
  rw [hsplit, key f, ← add_mul, ← ENNReal.ofReal_add (by norm_num) (by norm_num)]
  norm_num

/-- The two averages over differences and sums of angles -/
theorem shear (K : ℝ → ℝ → ℝ≥0∞) (hK : Measurable fun p : ℝ × ℝ => K p.1 p.2) 
    (h2 : ∀ v w, K v (w + 1) = K v w) (h3 : ∀ v w, K (v + 1 / 2) (w + 1 / 2) = K v w) (c : ℝ) :
    ∫⁻ a in Ioo (0 : ℝ) 1, ∫⁻ d in Ioo (0 : ℝ) 1, K ((d - a) / 2) ((a + d) / 2 + c) =
      ∫⁻ v in Ioo (0 : ℝ) 1, ∫⁻ w in Ioo (0 : ℝ) 1, K v w := by
  have e1 : ∀ a : ℝ, ∫⁻ d in Ioo (0 : ℝ) 1, K ((d - a) / 2) ((a + d) / 2 + c) =
      ∫⁻ s in Ioo (0 : ℝ) 1, K (s / 2) (a + (s / 2 + c)) := by
    intro a
    rw [← periodic_shift (fun s => K (s / 2) (a + (s / 2 + c))) (fun x => by
      rw [← h3 (x / 2)]; congr 1 <;> ring) (-a)]
    refine lintegral_congr fun d => ?_
    congr 1 <;> ring
  simp only [e1]
  have hm : Measurable fun p : ℝ × ℝ => K (p.2 / 2) (p.1 + (p.2 / 2 + c)) :=
    hK.comp (f := fun p : ℝ × ℝ => (p.2 / 2, p.1 + (p.2 / 2 + c))) (by fun_prop)
  rw [lintegral_lintegral_swap hm.aemeasurable]
  have e2 : ∀ s : ℝ, ∫⁻ a in Ioo (0 : ℝ) 1, K (s / 2) (a + (s / 2 + c)) = ∫⁻ w in Ioo (0 : ℝ) 1, K (s / 2) w := fun s =>
    periodic_shift (fun w => K (s / 2) w) (h2 _) _
  simp only [e2]
  refine periodic_half (fun v => ∫⁻ w in Ioo (0 : ℝ) 1, K v w) fun v => ?_
  rw [← periodic_shift (fun w => K (v + 1 / 2) w) (h2 _) (1 / 2)]
  simp only [h3]

end Verif.UniformDraws
