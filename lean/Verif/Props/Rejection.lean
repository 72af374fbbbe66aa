import Verif.Props.TruncatedNormal
import Verif.Spec.Rejection

/-!
# C106: the truncated normal distribution accepts with the right probability
-/
namespace Verif.TruncatedNormal
open Verif Verif.Rejection

/-- The functions of `<cmath>`, on real numbers -/
noncomputable def realMath : Math ℝ := ⟨Real.sqrt, Real.exp⟩

/-- The rate of the exponential distribution that is drawn from -/
noncomputable def rate (lower : ℝ) : ℝ := (lower + √ (lower ^ 2 + 4)) / 2

theorem rate_spec (lower : ℝ) : 0 < rate lower ∧ rate lower ^ 2 = lower * rate lower + 1 := by
  unfold rate
  have h1 : √ (lower ^ 2 + 4) ^ 2 = lower ^ 2 + 4 := Real.sq_sqrt (by positivity)
  have h2 : |lower| < √ (lower ^ 2 + 4) := by
    rw [← Real.sqrt_sq_eq_abs]
    exact Real.sqrt_lt_sqrt (sq_nonneg _) (by linarith)
  have h3 := neg_abs_le lower
  constructor
  · linarith
  · linear_combination h1 / 4

/-- The constant for the exponential distribution -/
noncomputable def constant (lower : ℝ) : ℝ := Real.exp (rate lower ^ 2 / 2 - rate lower * lower) / rate lower

theorem constant_mul (lower z : ℝ) :
    constant lower * exponential (rate lower) lower z = Real.exp (rate lower ^ 2 / 2 - rate lower * z) := by
  have h := (rate_spec lower).1.ne'
  unfold constant exponential
  rw [show Real.exp (rate lower ^ 2 / 2 - rate lower * lower) / rate lower *
      (rate lower * Real.exp (-rate lower * (z - lower))) =
      Real.exp (rate lower ^ 2 / 2 - rate lower * lower) * Real.exp (-rate lower * (z - lower)) by field_simp,
    ← Real.exp_add]
  congr 1
  ring

theorem constant_covers (lower : ℝ) : Covers (exponential (rate lower) lower) Set.univ (constant lower) := by
  intro z _
  rw [constant_mul]
  unfold target
  rw [Real.exp_le_exp]
  nlinarith [sq_nonneg (z - rate lower)]

theorem constant_le {lower a : ℝ} (ha : 0 < a) : constant lower ≤ Real.exp (a ^ 2 / 2 - a * lower) / a := by
  obtain ⟨h1, h2⟩ := rate_spec lower
  unfold constant
  generalize rate lower = r at *
  rw [div_le_div_iff₀ h1 ha]
  have e := Real.add_one_le_exp (a ^ 2 / 2 - a * lower - (r ^ 2 / 2 - r * lower))
  rw [Real.exp_sub] at e
  have hp := Real.exp_pos (r ^ 2 / 2 - r * lower)
  generalize Real.exp (r ^ 2 / 2 - r * lower) = x at *
  generalize Real.exp (a ^ 2 / 2 - a * lower) = y at *
  rw [le_div_iff₀ hp] at e
  have k : a ≤ (a ^ 2 / 2 - a * lower - (r ^ 2 / 2 - r * lower) + 1) * r := by
    have : (a ^ 2 / 2 - a * lower - (r ^ 2 / 2 - r * lower) + 1) * r - a = r * (a - r) ^ 2 / 2 := by
      linear_combination (a - r) * h2
    nlinarith [mul_nonneg h1.le (sq_nonneg (a - r))]
  nlinarith [mul_le_mul_of_nonneg_right e h1.le, mul_le_mul_of_nonneg_left k hp.le]

/-- C106: the exponential distribution that is drawn from is the best for the bound: no rate and no constant need fewer
tries. -/
theorem C106_rate (lower : ℝ) :
    IsLeast {c | ∃ a, 0 < a ∧ Covers (exponential a lower) (Set.Ici lower) c} (constant lower) := by
  constructor
  · exact ⟨rate lower, (rate_spec lower).1, fun z _ => constant_covers lower z trivial⟩
  · rintro c ⟨a, ha, hc⟩
    by_cases h : lower ≤ a
    · refine (constant_le ha).trans ?_
      rw [div_le_iff₀ ha]
      have := hc a h
      unfold target exponential at this
      have e : Real.exp (a ^ 2 / 2 - a * lower) * Real.exp (-a * (a - lower)) = Real.exp (-a ^ 2 / 2) := by
        rw [← Real.exp_add]; congr 1; ring
      rw [← e, ← mul_assoc] at this
      exact le_of_mul_le_mul_right this (Real.exp_pos _)
    · have h := not_le.1 h
      have hl : 0 < lower := ha.trans h
      refine (constant_le hl).trans ?_
      have := hc lower (Set.self_mem_Ici)
      unfold target exponential at this
      rw [sub_self, mul_zero, Real.exp_zero, mul_one] at this
      rw [show lower ^ 2 / 2 - lower * lower = -lower ^ 2 / 2 by ring]
      rw [div_le_iff₀ hl]
      have h0 : 0 < c := by
        have := (Real.exp_pos (-lower ^ 2 / 2)).trans_le this
        exact (pos_iff_pos_of_mul_pos this).2 ha
      exact this.trans (mul_le_mul_of_nonneg_left h.le h0.le)

/-- The candidate and the test are those of rejection sampling with this rate and constant. -/
theorem candidate_eq (lower : ℝ) (d : Draw ℝ) : candidate realMath lower d = lower + d.exponential / rate lower := rfl

theorem accept_iff (lower : ℝ) (d : Draw ℝ) : acceptSimple realMath lower d ↔
    d.unit ≤ target (lower + d.exponential / rate lower) /
      (constant lower * exponential (rate lower) lower (lower + d.exponential / rate lower)) := by
  unfold acceptSimple
  rw [candidate_eq, constant_mul]
  unfold target
  rw [← Real.exp_sub]
  generalize lower + d.exponential / rate lower = z
  show _ ≤ Real.exp (-(rate lower - z) ^ 2 / 2) ↔ _
  rw [show -(rate lower - z) ^ 2 / 2 = -z ^ 2 / 2 - (rate lower ^ 2 / 2 - rate lower * z) by ring]

/-- A draw is accepted for the lower bound `lower`. -/
def Accepted (lower : ℝ) (d : Draw ℝ) : Prop :=
  d.unit ≤ target (lower + d.exponential / rate lower) /
    (constant lower * exponential (rate lower) lower (lower + d.exponential / rate lower))

theorem simple_first (lower : ℝ) (pre : List (Draw ℝ)) (e : Draw ℝ) (post : List (Draw ℝ))
    (hpre : ∀ d ∈ pre, ¬ Accepted lower d) (he : Accepted lower e) :
    simple realMath lower (pre ++ e :: post) = some (lower + e.exponential / rate lower, post) := by
  induction pre with
  | nil => rw [List.nil_append, simple, if_pos ((accept_iff lower e).2 he)]; rfl
  | cons d ds ih =>
    rw [List.cons_append, simple, if_neg fun h => hpre d List.mem_cons_self ((accept_iff lower d).1 h)]
    exact ih fun x hx => hpre x (List.mem_cons_of_mem _ hx)

/-- C106: with a lower bound above the mean and no upper bound, the sample is made of the first draw that is accepted: with
the probability for rejection sampling from the best exponential distribution above the bound. -/
theorem C106_one_sided (mean sd lower : ℝ) (h0 : 0 < sd) (h : mean < lower) (d : Dist ℝ)
    (hd : construct realMath mean sd (.fin lower) .posInf = .ok d) (pre : List (Draw ℝ)) (e : Draw ℝ) (post : List (Draw ℝ))
    (hpre : ∀ x ∈ pre, ¬ Accepted ((lower - mean) / sd) x) (he : Accepted ((lower - mean) / sd) e) :
    sample realMath d (pre ++ e :: post) =
      some (mean + sd * ((lower - mean) / sd + e.exponential / rate ((lower - mean) / sd)), post) := by
  have hz : |sd| ≠ 0 := by rw [abs_of_pos h0]; exact h0.ne'
  have hl : 0 < (lower - mean) / sd := div_pos (by linarith) h0
  unfold construct at hd
  rw [if_neg hz] at hd
  simp [standardize, chooseComplex, Ext.lt, Ext.le, h0, not_le.2 hl, Out.assert_true] at hd
  subst hd
  unfold sample
  simp only
  rw [simple_first _ pre e post hpre he]
  rfl

/-- C106: with an upper bound below the mean and no lower bound, the mirror image of this. -/
theorem C106_one_sided_below (mean sd upper : ℝ) (h0 : 0 < sd) (h : upper < mean) (d : Dist ℝ)
    (hd : construct realMath mean sd .negInf (.fin upper) = .ok d) (pre : List (Draw ℝ)) (e : Draw ℝ) (post : List (Draw ℝ))
    (hpre : ∀ x ∈ pre, ¬ Accepted ((mean - upper) / sd) x) (he : Accepted ((mean - upper) / sd) e) :
    sample realMath d (pre ++ e :: post) =
      some (mean - sd * ((mean - upper) / sd + e.exponential / rate ((mean - upper) / sd)), post) := by
  have hz : |sd| ≠ 0 := by rw [abs_of_pos h0]; exact h0.ne'
  have hl : (upper - mean) / sd < 0 := div_neg_of_neg_of_pos (by linarith) h0
  have e1 : -((upper - mean) / sd) = (mean - upper) / sd := by rw [← neg_div]; congr 1; ring
  unfold construct at hd
  rw [if_neg hz] at hd
  simp [standardize, chooseComplex, Ext.lt, Ext.le, Ext.neg, h0, not_le.2 hl, Out.assert_true, e1] at hd
  subst hd
  unfold sample
  simp only
  rw [simple_first _ pre e post hpre he, Option.map_some]
  congr 2
  ring

/-- C106: rejection from the uniform distribution accepts with the probability for it: the density divided by the largest one
between the bounds. Where a bound is exactly zero the code never uses it. -/
theorem C106_uniform (lower upper z most : ℝ) (h : lower ≤ upper) (hl : lower ≠ 0) (hu : upper ≠ 0)
    (hm : IsGreatest (target '' Set.Icc lower upper) most) :
    rhoComplex realMath lower upper z = target z / most ∧ ∀ y ∈ Set.Icc lower upper, target y / most ≤ 1 := by
  have hpos : 0 < most := by
    obtain ⟨y, -, rfl⟩ := hm.1
    exact Real.exp_pos _
  have key : ∀ p ∈ Set.Icc lower upper, (∀ y ∈ Set.Icc lower upper, p ^ 2 ≤ y ^ 2) → most = target p := by
    intro p hp hmin
    apply le_antisymm
    · obtain ⟨y, hy, rfl⟩ := hm.1
      unfold target
      rw [Real.exp_le_exp]
      have := hmin y hy
      linarith
    · exact hm.2 ⟨p, hp, rfl⟩
  refine ⟨?_, fun y hy => (div_le_one hpos).2 (hm.2 ⟨y, hy, rfl⟩)⟩
  unfold rhoComplex
  rcases lt_or_gt_of_ne hl with h1 | h1
  · rw [if_neg (not_lt.2 h1.le)]
    rcases lt_or_gt_of_ne hu with h2 | h2
    · rw [if_pos h2, key upper ⟨h, le_refl _⟩ fun y hy => by nlinarith [hy.2]]
      unfold target realMath
      simp only
      rw [← Real.exp_sub]
      congr 1; ring
    · rw [if_neg (not_lt.2 h2.le), if_pos ⟨h2, h1⟩, key 0 ⟨h1.le, h2.le⟩ fun y _ => by nlinarith [sq_nonneg y]]
      unfold target realMath
      simp
  · rw [if_pos h1, key lower ⟨le_refl _, h⟩ fun y hy => by nlinarith [hy.1]]
    unfold target realMath
    simp only
    rw [← Real.exp_sub]
    congr 1; ring

/-- C106: for two bounds above the mean, the method is the one that needs fewer tries: the exponential one exactly if its best
constant is smaller than the best constant for the uniform distribution. -/
theorem C106_choice (lower upper cE cU : ℝ) (h0 : 0 < lower) (h1 : lower < upper)
    (hE : IsLeast {c | ∃ a, 0 < a ∧ Covers (exponential a lower) (Set.Ici lower) c} cE)
    (hU : IsLeast {c | Covers (fun _ => 1 / (upper - lower)) (Set.Icc lower upper) c} cU) :
    checkSimple realMath lower upper = true ↔ cE < cU := by
  have e1 : cE = constant lower := hE.unique (C106_rate lower)
  have hd : 0 < upper - lower := by linarith
  have e2 : cU = (upper - lower) * target lower := by
    refine hU.unique ⟨fun z hz => ?_, fun c hc => ?_⟩
    · have : (upper - lower) * target lower * (1 / (upper - lower)) = target lower := by field_simp
      rw [this]
      unfold target
      rw [Real.exp_le_exp]
      nlinarith [hz.1]
    · have := hc lower ⟨le_refl _, h1.le⟩
      rw [mul_one_div, le_div_iff₀ hd] at this
      linarith
  obtain ⟨r1, r2⟩ := rate_spec lower
  rw [e1, e2]
  unfold checkSimple
  rw [decide_eq_true_eq]
  have hs : √ (lower ^ 2 + 4) = 2 * rate lower - lower := by unfold rate; ring
  have hval : lower + 2 * realMath.sqrt (realMath.exp 1) / (lower + realMath.sqrt (lower ^ 2 + 4)) *
      realMath.exp ((lower ^ 2 - lower * realMath.sqrt (lower ^ 2 + 4)) / 4) = lower + constant lower / target lower := by
    unfold realMath constant target
    simp only
    have hx : √ (Real.exp 1) = Real.exp (1 / 2) := by
      rw [show Real.exp 1 = Real.exp (1 / 2) ^ 2 by rw [← Real.exp_nat_mul]; norm_num]
      exact Real.sqrt_sq (Real.exp_pos _).le
    rw [hs, hx, div_right_comm, ← Real.exp_sub]
    rw [show lower + (2 * rate lower - lower) = 2 * rate lower by ring]
    rw [show 2 * Real.exp (1 / 2) / (2 * rate lower) = Real.exp (1 / 2) / rate lower by
      rw [mul_div_mul_left _ _ two_ne_zero]]
    rw [div_mul_eq_mul_div, ← Real.exp_add]
    congr 3
    linear_combination (-1 / 2) * r2
  simp only [hval]
  have ht : 0 < target lower := Real.exp_pos _
  rw [← lt_sub_iff_add_lt', div_lt_iff₀ ht]

/-- The constants exist: bounds 1 and 2 -/
example : ∃ cU, IsLeast {c | Covers (fun _ => 1 / ((2 : ℝ) - 1)) (Set.Icc 1 2) c} cU := by
  refine ⟨target 1, fun z hz => ?_, fun c hc => ?_⟩
  · norm_num
    unfold target
    rw [Real.exp_le_exp]
    nlinarith [hz.1]
  · have := hc 1 ⟨le_refl _, by norm_num⟩
    norm_num at this
    exact this

/-- A draw that is accepted, one that is not, and the sample from both -/
example : ∃ d, construct realMath 0 1 (.fin 1) .posInf = .ok d ∧
    sample realMath d [⟨0, 0, 2, 0⟩, ⟨0, 1, 0, 0⟩] = some (0 + 1 * ((1 - 0) / 1 + 1 / rate ((1 - 0) / 1)), []) := by
  obtain ⟨d, hd, -⟩ := (C45_method realMath 0 1 (.fin 1) .posInf rfl).1 one_pos
  refine ⟨d, hd, C106_one_sided 0 1 1 one_pos one_pos d hd [⟨0, 0, 2, 0⟩] ⟨0, 1, 0, 0⟩ [] ?_ ?_⟩
  · intro x hx
    simp only [List.mem_singleton] at hx
    subst hx
    unfold Accepted
    have := constant_covers ((1 - 0) / 1) ((1 - 0) / 1 + 0 / rate ((1 - 0) / 1)) trivial
    have hp : 0 < target ((1 - 0) / 1 + 0 / rate ((1 - 0) / 1)) := Real.exp_pos _
    simp only
    rw [not_le, div_lt_iff₀ (hp.trans_le this)]
    linarith
  · unfold Accepted
    rw [constant_mul]
    unfold target
    positivity

end Verif.TruncatedNormal
