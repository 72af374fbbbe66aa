import Mathlib.Analysis.SpecialFunctions.Exponential
import Mathlib.Analysis.SpecialFunctions.Log.Deriv
import Mathlib.Analysis.SpecialFunctions.Trigonometric.ArctanDeriv
import Mathlib.Analysis.SpecialFunctions.Sqrt
import Mathlib.Analysis.Calculus.Deriv.MeanValue
import Mathlib.Algebra.MvPolynomial.Eval
import Mathlib.Algebra.BigOperators.Ring.Finset
import Mathlib.Algebra.Order.BigOperators.Ring.Finset
import Mathlib.Tactic.Ring
import Mathlib.Tactic.FieldSimp
import Mathlib.Tactic.LinearCombination
import Mathlib.Tactic.Linarith
import Mathlib.Tactic.Positivity

/-!
# The kernels of thin plate splines are conditionally positive definite

The exponential of the product of two points, then the Gaussian, then the inverse of the squared distance plus a
constant are positive definite on distinct points; the logarithm and the square root follow, each as the limit of a
function whose derivative is such a sum.
-/
namespace Verif.Kernel
open Filter Topology Finset

variable {ι κ : Type} [Fintype ι] [Fintype κ]

/-- The squared distance of two points -/
def sq (p q : κ → ℝ) : ℝ := ∑ k, (p k - q k) ^ 2

theorem sq_nonneg' (p q : κ → ℝ) : 0 ≤ sq p q := sum_nonneg fun _ _ => sq_nonneg _

theorem sq_eq_zero {p q : κ → ℝ} : sq p q = 0 ↔ p = q := by
  unfold sq
  rw [sum_eq_zero_iff_of_nonneg fun _ _ => sq_nonneg _]
  constructor
  · intro h; funext k; have := h k (mem_univ k); nlinarith [pow_eq_zero_iff (two_ne_zero) |>.1 this]
  · rintro rfl k _; ring

theorem sq_pos {p q : κ → ℝ} (h : p ≠ q) : 0 < sq p q :=
  lt_of_le_of_ne (sq_nonneg' p q) fun e => h (sq_eq_zero.1 e.symm)

theorem sq_expand (p q : κ → ℝ) : sq p q = ∑ k, p k ^ 2 + ∑ k, q k ^ 2 - 2 * ∑ k, p k * q k := by
  unfold sq
  rw [mul_sum, ← sum_add_distrib, ← sum_sub_distrib]
  exact sum_congr rfl fun k _ => by ring

/-- The quadratic form of a function of two points -/
def form (x : ι → κ → ℝ) (c : ι → ℝ) (f : (κ → ℝ) → (κ → ℝ) → ℝ) : ℝ :=
  ∑ i, ∑ j, c i * c j * f (x i) (x j)

theorem form_pow (x : ι → κ → ℝ) (c : ι → ℝ) (n : ℕ) :
    form x c (fun p q => (∑ k, p k * q k) ^ n) =
      ∑ f : Fin n → κ, (∑ i, c i * ∏ l, x i (f l)) ^ 2 := by
  have e : ∀ p q : κ → ℝ, (∑ k, p k * q k) ^ n = ∑ f : Fin n → κ, (∏ l, p (f l)) * ∏ l, q (f l) := by
    intro p q
    rw [← Fin.prod_const, Finset.prod_univ_sum, Fintype.piFinset_univ]
    exact sum_congr rfl fun f _ => prod_mul_distrib
  unfold form
  simp only [e, mul_sum]
  calc ∑ i, ∑ j, ∑ f : Fin n → κ, c i * c j * ((∏ l, x i (f l)) * ∏ l, x j (f l))
      = ∑ i, ∑ f : Fin n → κ, ∑ j, c i * c j * ((∏ l, x i (f l)) * ∏ l, x j (f l)) :=
        sum_congr rfl fun i _ => sum_comm
    _ = ∑ f : Fin n → κ, ∑ i, ∑ j, c i * c j * ((∏ l, x i (f l)) * ∏ l, x j (f l)) := sum_comm
    _ = _ := by
        refine sum_congr rfl fun f _ => ?_
        rw [pow_two, sum_mul_sum]
        exact sum_congr rfl fun i _ => sum_congr rfl fun j _ => by ring

/-- Weights that cancel on every product of coordinates are zero. -/
theorem weights_zero (x : ι → κ → ℝ) (hx : Function.Injective x) (c : ι → ℝ)
    (h : ∀ (n : ℕ) (f : Fin n → κ), ∑ i, c i * ∏ l, x i (f l) = 0) : c = 0 := by
  classical
  have key : ∀ p : MvPolynomial κ ℝ, ∀ (n : ℕ) (f : Fin n → κ),
      ∑ i, c i * (MvPolynomial.eval (x i) p * ∏ l, x i (f l)) = 0 := by
    intro p
    induction p using MvPolynomial.induction_on with
    | C a =>
      intro n f
      have := h n f
      calc _ = a * ∑ i, c i * ∏ l, x i (f l) := by
            rw [mul_sum]; exact sum_congr rfl fun i _ => by rw [MvPolynomial.eval_C]; ring
        _ = 0 := by rw [this, mul_zero]
    | add p q hp hq =>
      intro n f
      have := hp n f; have := hq n f
      calc _ = ∑ i, c i * (MvPolynomial.eval (x i) p * ∏ l, x i (f l)) +
            ∑ i, c i * (MvPolynomial.eval (x i) q * ∏ l, x i (f l)) := by
            rw [← sum_add_distrib]; exact sum_congr rfl fun i _ => by rw [map_add]; ring
        _ = 0 := by rw [hp n f, hq n f, add_zero]
    | mul_X p k hp =>
      intro n f
      rw [← hp (n + 1) (Fin.cons k f)]
      refine sum_congr rfl fun i _ => ?_
      rw [Fin.prod_univ_succ, map_mul, MvPolynomial.eval_X]
      simp only [Fin.cons_zero, Fin.cons_succ]
      ring
  funext i
  have h0 := key (∏ j ∈ univ.erase i, ∑ k, (MvPolynomial.X k - MvPolynomial.C (x j k)) *
    MvPolynomial.C (x i k - x j k)) 0 Fin.elim0
  rw [sum_eq_single i] at h0
  · rcases mul_eq_zero.1 h0 with h0 | h0
    · exact h0
    exfalso
    simp only [univ_eq_empty, prod_empty, mul_one, map_prod, map_sum, map_mul, map_sub,
      MvPolynomial.eval_X, MvPolynomial.eval_C] at h0
    obtain ⟨j, hj, e⟩ := prod_eq_zero_iff.1 h0
    have : sq (x i) (x j) = 0 := by rw [← e]; exact sum_congr rfl fun k _ => by ring
    exact (ne_of_mem_erase hj) (hx (sq_eq_zero.1 this)).symm
  · intro j _ hj
    have : MvPolynomial.eval (x j) (∏ j ∈ univ.erase i, ∑ k, (MvPolynomial.X k - MvPolynomial.C (x j k)) *
        MvPolynomial.C (x i k - x j k)) = 0 := by
      rw [map_prod]
      refine prod_eq_zero (mem_erase.2 ⟨hj, mem_univ j⟩) ?_
      simp only [map_sum, map_mul, map_sub, MvPolynomial.eval_X, MvPolynomial.eval_C, sub_self, zero_mul,
        sum_const_zero]
    rw [this]; ring
  · intro hi; exact absurd (mem_univ i) hi

/-- The exponential of the product of two points is positive definite. -/
theorem form_exp_pos (x : ι → κ → ℝ) (hx : Function.Injective x) (c : ι → ℝ) (hc : c ≠ 0) (w : ℝ) (hw : 0 < w) :
    0 < form x c (fun p q => Real.exp (w * ∑ k, p k * q k)) := by
  have hs : HasSum (fun n : ℕ => w ^ n / n.factorial * form x c (fun p q => (∑ k, p k * q k) ^ n))
      (form x c (fun p q => Real.exp (w * ∑ k, p k * q k))) := by
    have e : (fun n : ℕ => w ^ n / n.factorial * form x c (fun p q => (∑ k, p k * q k) ^ n)) = fun n : ℕ =>
        ∑ i, ∑ j, c i * c j * ((w * ∑ k, x i k * x j k) ^ n / n.factorial) := by
      funext n
      unfold form
      rw [mul_sum]
      refine sum_congr rfl fun i _ => ?_
      rw [mul_sum]
      refine sum_congr rfl fun j _ => ?_
      rw [mul_pow]; ring
    rw [e]
    unfold form
    refine hasSum_sum fun i _ => hasSum_sum fun j _ => ?_
    have h1 : HasSum (fun n : ℕ => (w * ∑ k, x i k * x j k) ^ n / (n.factorial : ℝ))
        (Real.exp (w * ∑ k, x i k * x j k)) := by
      rw [Real.exp_eq_exp_ℝ]
      exact NormedSpace.expSeries_div_hasSum_exp (w * ∑ k, x i k * x j k)
    exact h1.mul_left (c i * c j)
  have hnn : ∀ n : ℕ, 0 ≤ w ^ n / n.factorial * form x c (fun p q => (∑ k, p k * q k) ^ n) := by
    intro n
    rw [form_pow]
    exact mul_nonneg (by positivity) (sum_nonneg fun _ _ => sq_nonneg _)
  rcases (hs.nonneg hnn).lt_or_eq with h | h
  · exact h
  exfalso
  apply hc
  apply weights_zero x hx
  intro n f
  rw [← h] at hs
  have hz := (hasSum_zero_iff_of_nonneg hnn).1 hs
  have hn := congrFun hz n
  simp only [Pi.zero_apply] at hn
  have hp : (w ^ n / n.factorial : ℝ) ≠ 0 := by positivity
  rw [form_pow] at hn
  have := (mul_eq_zero.1 hn).resolve_left hp
  have := (sum_eq_zero_iff_of_nonneg fun _ _ => sq_nonneg _).1 this f (mem_univ f)
  exact pow_eq_zero_iff two_ne_zero |>.1 this

/-- The Gaussian is positive definite. -/
theorem form_gauss_pos (x : ι → κ → ℝ) (hx : Function.Injective x) (c : ι → ℝ) (hc : c ≠ 0) (w : ℝ) (hw : 0 < w) :
    0 < form x c (fun p q => Real.exp (-(w * sq p q))) := by
  have h := form_exp_pos x hx (fun i => c i * Real.exp (-(w * ∑ k, x i k ^ 2))) (by
    intro e; apply hc; funext i
    have := congrFun e i
    exact (mul_eq_zero.1 this).resolve_right (Real.exp_ne_zero _)) (2 * w) (by positivity)
  refine h.trans_eq ?_
  unfold form
  refine sum_congr rfl fun i _ => sum_congr rfl fun j _ => ?_
  beta_reduce
  rw [sq_expand, show -(w * (∑ k, x i k ^ 2 + ∑ k, x j k ^ 2 - 2 * ∑ k, x i k * x j k)) =
    -(w * ∑ k, x i k ^ 2) + -(w * ∑ k, x j k ^ 2) + 2 * w * ∑ k, x i k * x j k by ring, Real.exp_add, Real.exp_add]
  ring

/-- The inverse of the squared distance plus a positive constant is positive definite. -/
theorem form_inv_pos (x : ι → κ → ℝ) (hx : Function.Injective x) (c : ι → ℝ) (hc : c ≠ 0) (u : ℝ) (hu : 0 < u) :
    0 < form x c (fun p q => 1 / (sq p q + u)) := by
  set L : ℝ → ℝ := fun w => form x c (fun p q => -Real.exp (-(w * (sq p q + u))) / (sq p q + u)) with hL
  have hd : ∀ w, HasDerivAt L (form x c (fun p q => Real.exp (-(w * (sq p q + u))))) w := by
    intro w
    simp only [hL, form]
    refine HasDerivAt.fun_sum fun i _ => HasDerivAt.fun_sum fun j _ => ?_
    have hp : sq (x i) (x j) + u ≠ 0 := by have := sq_nonneg' (x i) (x j); positivity
    have h1 : HasDerivAt (fun w : ℝ => -(w * (sq (x i) (x j) + u))) (-(sq (x i) (x j) + u)) w := by
      have := ((hasDerivAt_id w).mul_const (sq (x i) (x j) + u)).fun_neg
      rw [one_mul] at this
      exact this
    have h2 := ((h1.exp.neg.div_const (sq (x i) (x j) + u)).const_mul (c i * c j))
    refine h2.congr_deriv ?_
    field_simp
  have hpos : ∀ w, 0 < w → 0 < form x c (fun p q => Real.exp (-(w * (sq p q + u)))) := by
    intro w hw
    have h := mul_pos (Real.exp_pos (-(w * u))) (form_gauss_pos x hx c hc w hw)
    refine h.trans_eq ?_
    unfold form
    rw [mul_sum]
    refine sum_congr rfl fun i _ => ?_
    rw [mul_sum]
    refine sum_congr rfl fun j _ => ?_
    beta_reduce
    rw [show -(w * (sq (x i) (x j) + u)) = -(w * u) + -(w * sq (x i) (x j)) by ring, Real.exp_add]
    ring
  have hm : StrictMonoOn L (Set.Ici 0) := by
    refine strictMonoOn_of_hasDerivWithinAt_pos (convex_Ici 0) (fun w _ => (hd w).continuousAt.continuousWithinAt)
      (fun w _ => (hd w).hasDerivWithinAt) ?_
    intro w hw
    rw [interior_Ici] at hw
    exact hpos w hw
  have ht : Tendsto L atTop (𝓝 0) := by
    have h0 : (0 : ℝ) = ∑ i, ∑ j, c i * c j * (-0 / (sq (x i) (x j) + u)) := by simp
    rw [h0]
    simp only [hL, form]
    refine tendsto_finsetSum _ fun i _ => tendsto_finsetSum _ fun j _ => ?_
    refine Tendsto.const_mul _ (Tendsto.div_const (Tendsto.neg ?_) _)
    have hp : 0 < sq (x i) (x j) + u := by have := sq_nonneg' (x i) (x j); positivity
    exact Real.tendsto_exp_neg_atTop_nhds_zero.comp (tendsto_id.atTop_mul_const hp)
  have h1 : L 1 ≤ 0 := by
    refine ge_of_tendsto ht ?_
    filter_upwards [eventually_ge_atTop (1 : ℝ)] with w hw
    exact hm.monotoneOn (by simp) (by simp; linarith) hw
  have h2 : L 0 < L 1 := hm (by simp) (by simp) one_pos
  have h3 : L 0 = -form x c (fun p q => 1 / (sq p q + u)) := by
    simp only [hL, form]
    rw [← sum_neg_distrib]
    refine sum_congr rfl fun i _ => ?_
    rw [← sum_neg_distrib]
    refine sum_congr rfl fun j _ => ?_
    rw [zero_mul, neg_zero, Real.exp_zero]; ring
  linarith

omit [Fintype κ] in
/-- Sums of a product of a function of the first point and the weight of the second vanish. -/
theorem form_first (x : ι → κ → ℝ) (c : ι → ℝ) (h : ∑ i, c i = 0) (f : (κ → ℝ) → ℝ) :
    form x c (fun p _ => f p) = 0 := by
  unfold form
  calc _ = ∑ i, c i * f (x i) * ∑ j, c j := by
        refine sum_congr rfl fun i _ => ?_
        rw [mul_sum]; exact sum_congr rfl fun j _ => by ring
    _ = 0 := by simp [h]

omit [Fintype κ] in
theorem form_second (x : ι → κ → ℝ) (c : ι → ℝ) (h : ∑ i, c i = 0) (f : (κ → ℝ) → ℝ) :
    form x c (fun _ q => f q) = 0 := by
  unfold form
  rw [sum_comm]
  calc _ = ∑ j, c j * f (x j) * ∑ i, c i := by
        refine sum_congr rfl fun i _ => ?_
        rw [mul_sum]; exact sum_congr rfl fun j _ => by ring
    _ = 0 := by simp [h]

omit [Fintype κ] in
theorem form_add (x : ι → κ → ℝ) (c : ι → ℝ) (f g : (κ → ℝ) → (κ → ℝ) → ℝ) :
    form x c (fun p q => f p q + g p q) = form x c f + form x c g := by
  unfold form
  rw [← sum_add_distrib]
  refine sum_congr rfl fun i _ => ?_
  rw [← sum_add_distrib]
  exact sum_congr rfl fun j _ => by ring

omit [Fintype κ] in
theorem form_smul (x : ι → κ → ℝ) (c : ι → ℝ) (a : ℝ) (f : (κ → ℝ) → (κ → ℝ) → ℝ) :
    form x c (fun p q => a * f p q) = a * form x c f := by
  unfold form
  rw [mul_sum]
  refine sum_congr rfl fun i _ => ?_
  rw [mul_sum]
  exact sum_congr rfl fun j _ => by ring

omit [Fintype κ] in
theorem form_congr (x : ι → κ → ℝ) (c : ι → ℝ) {f g : (κ → ℝ) → (κ → ℝ) → ℝ} (h : ∀ p q, f p q = g p q) :
    form x c f = form x c g := by
  have : f = g := by funext p q; exact h p q
  rw [this]

/-- The squared distance vanishes on weights without sum and without moment. -/
theorem form_sq (x : ι → κ → ℝ) (c : ι → ℝ) (h : ∑ i, c i = 0) (hm : ∀ k, ∑ i, c i * x i k = 0) :
    form x c sq = 0 := by
  rw [form_congr x c (g := fun p q => (∑ k, p k ^ 2 + ∑ k, q k ^ 2) + (-2) * (∑ k, p k * q k))
    (fun p q => by rw [sq_expand]; ring), form_add, form_add, form_first x c h (fun p => ∑ k, p k ^ 2),
    form_second x c h (fun q => ∑ k, q k ^ 2), form_smul]
  have : form x c (fun p q => ∑ k, p k * q k) = 0 := by
    unfold form
    calc _ = ∑ k, (∑ i, c i * x i k) * ∑ j, c j * x j k := by
          simp only [mul_sum, sum_mul]
          rw [sum_congr rfl fun i _ => sum_comm, sum_comm]
          refine sum_congr rfl fun k _ => ?_
          rw [sum_comm]
          exact sum_congr rfl fun i _ => sum_congr rfl fun j _ => by ring
      _ = 0 := by simp [hm]
  rw [this]; ring

/-- The distance is conditionally negative definite: minus the distance is positive on weights without sum. -/
theorem form_sqrt_neg (x : ι → κ → ℝ) (hx : Function.Injective x) (c : ι → ℝ) (hc : c ≠ 0) (h : ∑ i, c i = 0) :
    form x c (fun p q => Real.sqrt (sq p q)) < 0 := by
  set H : ℝ → ℝ := fun U => form x c (fun p q => Real.sqrt (sq p q) * Real.arctan (U / Real.sqrt (sq p q))) with hH
  have hd : ∀ U, 0 < U → HasDerivAt H (-(U ^ 2 * form x c (fun p q => 1 / (sq p q + U ^ 2)))) U := by
    intro U hU
    have e : -(U ^ 2 * form x c (fun p q => 1 / (sq p q + U ^ 2))) =
        form x c (fun p q => sq p q / (sq p q + U ^ 2)) := by
      have h1 := form_first x c h (fun _ => 1)
      rw [form_congr x c (f := fun p q => sq p q / (sq p q + U ^ 2))
        (g := fun p q => 1 + (-(U ^ 2)) * (1 / (sq p q + U ^ 2))) (fun p q => by
          have := sq_nonneg' p q
          have : sq p q + U ^ 2 ≠ 0 := by positivity
          field_simp; ring), form_add, form_smul, h1]
      ring
    rw [e]
    simp only [hH, form]
    refine HasDerivAt.fun_sum fun i _ => HasDerivAt.fun_sum fun j _ => ?_
    rcases (sq_nonneg' (x i) (x j)).eq_or_lt with h0 | h0
    · rw [← h0]; simp [hasDerivAt_const]
    · set s := sq (x i) (x j)
      have hr : 0 < Real.sqrt s := Real.sqrt_pos.2 h0
      have h1 : HasDerivAt (fun U : ℝ => U / Real.sqrt s) (1 / Real.sqrt s) U := (hasDerivAt_id U).div_const _
      refine ((h1.arctan.const_mul (Real.sqrt s)).const_mul (c i * c j)).congr_deriv ?_
      have e2 : s = Real.sqrt s ^ 2 := (Real.sq_sqrt h0.le).symm
      rw [e2, Real.sqrt_sq hr.le]
      field_simp
  have hcont : ContinuousOn H (Set.Ici 0) := by
    refine Continuous.continuousOn ?_
    simp only [hH, form]
    refine continuous_finsetSum _ fun i _ => continuous_finsetSum _ fun j _ => ?_
    exact continuous_const.mul (continuous_const.mul (Real.continuous_arctan.comp (continuous_id.div_const _)))
  have hm : StrictAntiOn H (Set.Ici 0) := by
    refine strictAntiOn_of_hasDerivWithinAt_neg (convex_Ici 0) hcont
      (f' := fun U => -(U ^ 2 * form x c (fun p q => 1 / (sq p q + U ^ 2)))) ?_ ?_
    · intro U hU
      rw [interior_Ici] at hU
      exact (hd U hU).hasDerivWithinAt
    · intro U hU
      rw [interior_Ici] at hU
      have hU' : 0 < U := hU
      have := form_inv_pos x hx c hc (U ^ 2) (by positivity)
      have := mul_pos (show 0 < U ^ 2 by positivity) this
      linarith
  have ht : Tendsto H atTop (𝓝 (form x c (fun p q => Real.sqrt (sq p q)) * (Real.pi / 2))) := by
    have e : form x c (fun p q => Real.sqrt (sq p q)) * (Real.pi / 2) =
        form x c (fun p q => Real.sqrt (sq p q) * (Real.pi / 2)) := by
      rw [mul_comm, ← form_smul]; exact form_congr _ _ fun p q => by ring
    rw [e]
    simp only [hH, form]
    refine tendsto_finsetSum _ fun i _ => tendsto_finsetSum _ fun j _ => ?_
    refine Tendsto.const_mul _ ?_
    rcases (sq_nonneg' (x i) (x j)).eq_or_lt with h0 | h0
    · rw [← h0]; simp
    · have hr : 0 < Real.sqrt (sq (x i) (x j)) := Real.sqrt_pos.2 h0
      exact Tendsto.const_mul _ ((tendsto_nhds_of_tendsto_nhdsWithin Real.tendsto_arctan_atTop).comp
        (tendsto_id.atTop_div_const hr))
  have h1 : form x c (fun p q => Real.sqrt (sq p q)) * (Real.pi / 2) ≤ H 1 := by
    refine le_of_tendsto ht ?_
    filter_upwards [eventually_ge_atTop (1 : ℝ)] with w hw
    exact hm.antitoneOn (by simp) (by simp; linarith) hw
  have h2 : H 1 < H 0 := hm (by simp) (by simp) one_pos
  have h3 : H 0 = 0 := by simp [hH, form]
  have := Real.pi_pos
  by_contra hcon
  push Not at hcon
  have := mul_nonneg hcon (show 0 ≤ Real.pi / 2 by positivity)
  linarith

/-- The squared distance times its logarithm is positive on weights without sum and without moment. -/
theorem form_log_pos (x : ι → κ → ℝ) (hx : Function.Injective x) (c : ι → ℝ) (hc : c ≠ 0) (h : ∑ i, c i = 0)
    (hmom : ∀ k, ∑ i, c i * x i k = 0) :
    0 < form x c (fun p q => sq p q * Real.log (sq p q)) := by
  have hsq := form_sq x c h hmom
  set F : ℝ → ℝ := fun U => form x c (fun p q => sq p q * Real.log (sq p q) - sq p q * Real.log (sq p q + U)) with hF
  have hd : ∀ U, 0 < U → HasDerivAt F (U * form x c (fun p q => 1 / (sq p q + U))) U := by
    intro U hU
    have e : U * form x c (fun p q => 1 / (sq p q + U)) = form x c (fun p q => -(sq p q / (sq p q + U))) := by
      have h1 := form_first x c h (fun _ => -1)
      rw [form_congr x c (f := fun p q => -(sq p q / (sq p q + U)))
        (g := fun p q => -1 + U * (1 / (sq p q + U))) (fun p q => by
          have := sq_nonneg' p q
          have : sq p q + U ≠ 0 := by positivity
          field_simp; ring), form_add, form_smul, h1]
      ring
    rw [e]
    simp only [hF, form]
    refine HasDerivAt.fun_sum fun i _ => HasDerivAt.fun_sum fun j _ => ?_
    have hp : sq (x i) (x j) + U ≠ 0 := by have := sq_nonneg' (x i) (x j); positivity
    have h1 : HasDerivAt (fun U : ℝ => sq (x i) (x j) + U) 1 U := (hasDerivAt_id U).const_add _
    refine ((((h1.log hp).const_mul (sq (x i) (x j))).const_sub _).const_mul (c i * c j)).congr_deriv ?_
    ring
  have hcont : ContinuousOn F (Set.Ici 0) := by
    simp only [hF, form]
    refine continuousOn_finsetSum _ fun i _ => continuousOn_finsetSum _ fun j _ => ?_
    refine continuousOn_const.mul (continuousOn_const.sub ?_)
    rcases (sq_nonneg' (x i) (x j)).eq_or_lt with h0 | h0
    · rw [← h0]; simp [continuousOn_const]
    · refine continuousOn_const.mul (ContinuousOn.log (continuousOn_const.add continuousOn_id) ?_)
      intro U hU
      have : (0 : ℝ) ≤ U := hU
      have : 0 < sq (x i) (x j) + U := by linarith
      exact this.ne'
  have hm : StrictMonoOn F (Set.Ici 0) := by
    refine strictMonoOn_of_hasDerivWithinAt_pos (convex_Ici 0) hcont
      (f' := fun U => U * form x c (fun p q => 1 / (sq p q + U))) ?_ ?_
    · intro U hU
      rw [interior_Ici] at hU
      exact (hd U hU).hasDerivWithinAt
    · intro U hU
      rw [interior_Ici] at hU
      exact mul_pos hU (form_inv_pos x hx c hc U hU)
  have ht : Tendsto F atTop (𝓝 (form x c (fun p q => sq p q * Real.log (sq p q)))) := by
    have e : ∀ᶠ U : ℝ in atTop, form x c (fun p q => sq p q * Real.log (sq p q) -
        sq p q * Real.log (1 + sq p q / U)) = F U := by
      filter_upwards [eventually_gt_atTop (0 : ℝ)] with U hU
      have e1 : F U = form x c (fun p q => (sq p q * Real.log (sq p q) - sq p q * Real.log (1 + sq p q / U)) +
          (-Real.log U) * sq p q) := by
        simp only [hF]
        refine form_congr _ _ fun p q => ?_
        have := sq_nonneg' p q
        rw [show sq p q + U = U * (1 + sq p q / U) by field_simp; ring,
          Real.log_mul hU.ne' (by positivity)]
        ring
      rw [e1, form_add, form_smul, hsq]; ring
    refine Tendsto.congr' e ?_
    simp only [form]
    refine tendsto_finsetSum _ fun i _ => tendsto_finsetSum _ fun j _ => ?_
    refine Tendsto.const_mul _ ?_
    have : Tendsto (fun U : ℝ => Real.log (1 + sq (x i) (x j) / U)) atTop (𝓝 0) := by
      rw [← Real.log_one]
      refine (Real.continuousAt_log one_ne_zero).tendsto.comp ?_
      have := (tendsto_const_nhds (x := sq (x i) (x j))).div_atTop (tendsto_id (α := ℝ) (x := atTop))
      simpa using this.const_add 1
    simpa using (this.const_mul (sq (x i) (x j))).const_sub (sq (x i) (x j) * Real.log (sq (x i) (x j)))
  have h1 : F 1 ≤ form x c (fun p q => sq p q * Real.log (sq p q)) := by
    refine ge_of_tendsto ht ?_
    filter_upwards [eventually_ge_atTop (1 : ℝ)] with w hw
    exact hm.monotoneOn (by simp) (by simp; linarith) hw
  have h2 : F 0 < F 1 := hm (by simp) (by simp) one_pos
  have h3 : F 0 = 0 := by simp [hF, form]
  linarith

end Verif.Kernel
