import Verif.Spec.TruncatedNormalRounded
import Verif.Props.TruncatedNormal
import Verif.Props.VoxelRoundedSizes

/-!
# C176: samples of a truncated normal distribution, with rounding
-/
namespace Verif.TruncatedNormalRounded
open Verif Verif.TruncatedNormal

section
variable (R : Rounding) (L : Library)

theorem rd_le_zero {x : ℝ} : R.rd x ≤ 0 ↔ x ≤ 0 := by
  constructor
  · intro h
    by_contra c
    have c := not_le.1 c
    have h1 := R.lower c.le
    have h2 := Rounding.unit_lt_one
    have : 0 < x * (1 - unit) := mul_pos c (by linarith)
    linarith
  · intro h
    have := R.mono h
    rwa [R.zero] at this

theorem zero_le_rd {x : ℝ} : 0 ≤ R.rd x ↔ 0 ≤ x := by
  have := rd_le_zero R (x := -x)
  rw [R.odd] at this
  constructor
  · intro h; have := this.1 (by linarith); linarith
  · exact R.nonneg

/-- Standardizing and scaling a bound again changes it by at most the slack. -/
theorem again (mean sd b : ℝ) (hs : sd ≠ 0) :
    |R.rd (mean + R.rd (sd * R.rd (R.rd (b - mean) / sd))) - b| ≤ slack mean b := by
  have hu : unit = 1 / 2 ^ 53 := rfl
  have h1 := R.err (b - mean)
  have h2 := R.err (R.rd (b - mean) / sd)
  have h3 := R.err (sd * R.rd (R.rd (b - mean) / sd))
  have h4 := R.err (mean + R.rd (sd * R.rd (R.rd (b - mean) / sd)))
  unfold slack
  generalize R.rd (mean + R.rd (sd * R.rd (R.rd (b - mean) / sd))) = y at *
  generalize R.rd (sd * R.rd (R.rd (b - mean) / sd)) = w at *
  have h2' : |sd * R.rd (R.rd (b - mean) / sd) - R.rd (b - mean)| ≤ unit * |R.rd (b - mean)| := by
    have e : sd * R.rd (R.rd (b - mean) / sd) - R.rd (b - mean)
        = sd * (R.rd (R.rd (b - mean) / sd) - R.rd (b - mean) / sd) := by field_simp
    rw [e, abs_mul]
    calc |sd| * |R.rd (R.rd (b - mean) / sd) - R.rd (b - mean) / sd|
        ≤ |sd| * (unit * |R.rd (b - mean) / sd|) := mul_le_mul_of_nonneg_left h2 (abs_nonneg _)
      _ = unit * |R.rd (b - mean)| := by
        rw [abs_div]; have := abs_pos.2 hs; field_simp
  generalize sd * R.rd (R.rd (b - mean) / sd) = v at *
  generalize R.rd (b - mean) = t at *
  have t1 : |t| ≤ |b - mean| + |t - (b - mean)| := by
    have := abs_add_le (b - mean) (t - (b - mean)); simpa using this
  have t2 : |v| ≤ |t| + |v - t| := by
    have := abs_add_le t (v - t); simpa using this
  have t3 : |w - (b - mean)| ≤ |w - v| + |v - t| + |t - (b - mean)| := by
    have a := abs_add_le (w - v) (v - t)
    have c := abs_add_le (w - v + (v - t)) (t - (b - mean))
    have e : w - v + (v - t) + (t - (b - mean)) = w - (b - mean) := by ring
    rw [e] at c; linarith
  have t4 : |mean + w| ≤ |b| + |w - (b - mean)| := by
    have := abs_add_le b (w - (b - mean))
    have e : b + (w - (b - mean)) = mean + w := by ring
    rwa [e] at this
  have t5 : |y - b| ≤ |y - (mean + w)| + |w - (b - mean)| := by
    have := abs_add_le (y - (mean + w)) (w - (b - mean))
    have e : y - (mean + w) + (w - (b - mean)) = y - b := by ring
    rwa [e] at this
  rw [hu] at *
  have p := abs_nonneg (b - mean)
  linarith

theorem candidate_ge (hs : GoodRoots R L) (lo : ℝ) (hf : R.Fp lo) {d : Draw ℝ}
    (h : 0 ≤ d.exponential) : lo ≤ candidate R L lo d := by
  have a : 0 ≤ alpha R L lo :=
    R.nonneg (div_nonneg (R.nonneg (show 0 ≤ lo + root R L lo by linarith [hs lo hf, neg_abs_le lo, show root R L lo = L.sqrt (R.rd (L.square lo + 4)) from rfl])) (by norm_num))
  have q := R.nonneg (div_nonneg h a)
  have := R.mono (show lo ≤ lo + R.rd (d.exponential / alpha R L lo) by linarith)
  rw [hf] at this
  exact this

theorem simple_ge (hs : GoodRoots R L) (lo : ℝ) (hf : R.Fp lo) : ∀ {ds : List (Draw ℝ)} {z rest},
    (∀ d ∈ ds, 0 ≤ d.exponential) → simple R L lo ds = some (z, rest) → lo ≤ z ∧ ∀ d ∈ rest, d ∈ ds
  | [], _, _, _, h => by simp [simple] at h
  | d :: ds, z, rest, hd, h => by
    rw [simple] at h
    split at h
    · simp only [Option.some.injEq, Prod.mk.injEq] at h
      rw [← h.1, ← h.2]
      exact ⟨candidate_ge R L hs lo hf (hd d (by simp)), fun e he => by simp [he]⟩
    · obtain ⟨h1, h2⟩ := simple_ge hs lo hf (fun e he => hd e (by simp [he])) h
      exact ⟨h1, fun e he => by simp [h2 e he]⟩

theorem simpleBelow_within (hs : GoodRoots R L) (lo : ℝ) (hf : R.Fp lo) (hi : Ext ℝ)
    (ds : List (Draw ℝ)) {z rest} (hd : ∀ d ∈ ds, 0 ≤ d.exponential)
    (h : simpleBelow R L lo hi ds = some (z, rest)) : lo ≤ z ∧ (Ext.fin z).le hi = true := by
  rw [simpleBelow] at h
  split at h
  · simp at h
  · next w r hw =>
    obtain ⟨g1, g2⟩ := simple_ge R L hs lo hf hd hw
    split at h
    · next hz =>
      simp only [Option.some.injEq, Prod.mk.injEq] at h
      rw [← h.1]; exact ⟨g1, hz⟩
    · have := simple_length R L lo hw
      exact simpleBelow_within hs lo hf hi r (fun e he => hd e (g2 e he)) h
termination_by ds.length

theorem complex_mem (lo hi : ℝ) : ∀ {ds : List (Draw ℝ)} {z rest},
    complex R L lo hi ds = some (z, rest) → ∃ d ∈ ds, z = d.range
  | [], _, _, h => by simp [complex] at h
  | d :: ds, z, rest, h => by
    rw [complex] at h
    split at h
    · simp only [Option.some.injEq, Prod.mk.injEq] at h
      exact ⟨d, by simp, h.1.symm⟩
    · obtain ⟨e, he, h1⟩ := complex_mem lo hi h
      exact ⟨e, by simp [he], h1⟩

theorem construct_inv {mean sd : ℝ} (h0 : sd ≠ 0) {lower upper : Ext ℝ} {d : TruncatedNormal.Dist ℝ}
    (h : construct R L mean sd lower upper = .ok d) :
    d.mean = mean ∧ d.case ≠ .none ∧
    ((d.stddev = sd ∧ d.stdLower = standardize R mean sd lower ∧ d.stdUpper = standardize R mean sd upper ∧
        (d.case = .type2 → d.stdUpper = .posInf ∧ (Ext.fin 0).lt d.stdLower = true) ∧
        (d.case = .type1 ↔ Within (standardize R mean sd lower) (standardize R mean sd upper) 0)) ∨
     (d.stddev = -1 * sd ∧ d.stdLower = (standardize R mean sd upper).neg ∧ standardize R mean sd lower = .negInf ∧
        d.stdUpper = .posInf ∧ d.case = .type2 ∧ (standardize R mean sd upper).lt (.fin 0) = true)) := by
  unfold construct at h
  rw [if_neg (fun e => h0 (abs_eq_zero.1 e))] at h
  dsimp only at h
  generalize hlo : standardize R mean sd lower = lo at h ⊢
  generalize hhi : standardize R mean sd upper = hi at h ⊢
  unfold Within
  by_cases c3 : hi.lt (.fin 0) = true ∧ lo = .negInf
  · simp only [if_pos c3, chooseComplex] at h
    simp [Out.assert_true] at h
    subst h
    exact ⟨by dsimp only; split_ifs <;> rfl, by simp, .inr ⟨by simp, rfl, c3.2, rfl, rfl, c3.1⟩⟩
  · simp only [if_neg c3] at h
    by_cases c1 : (Ext.fin 0).le hi = true ∧ lo.le (.fin 0) = true
    · have c2 : ¬ ((Ext.fin 0).lt lo = true ∧ hi = .posInf) := by
        intro c; have := c.1; simp [Ext.lt, c1.2] at this
      have c4 : ¬ ((hi.lt (.fin 0) = true ∨ (Ext.fin 0).lt lo = true) ∧ ¬ (hi = .posInf ∨ lo = .negInf)) := by
        intro c; have := c.1; simp [Ext.lt, c1.1, c1.2] at this
      simp only [if_pos c1, if_neg c2, chooseComplex, if_neg c4] at h
      simp [Out.assert_true] at h
      subst h
      exact ⟨rfl, by simp, .inl ⟨rfl, rfl, rfl, by simp, by simp [c1]⟩⟩
    · simp only [if_neg c1] at h
      by_cases c2 : (Ext.fin 0).lt lo = true ∧ hi = .posInf
      · have c4 : ¬ ((hi.lt (.fin 0) = true ∨ (Ext.fin 0).lt lo = true) ∧ ¬ (hi = .posInf ∨ lo = .negInf)) :=
          fun c => c.2 (.inl c2.2)
        simp only [if_pos c2, chooseComplex, if_neg c4] at h
        simp [Out.assert_true] at h
        subst h
        exact ⟨rfl, by simp, .inl ⟨rfl, rfl, rfl, fun _ => ⟨c2.2, c2.1⟩, by simp [and_comm] at c1 ⊢; exact c1⟩⟩
      · simp only [if_neg c2] at h
        cases hc : chooseComplex R L lo hi with
        | none =>
          rw [hc] at h
          simp [Out.assert_false] at h
        | some c =>
          have hcc : c = .type3 ∨ c = .type4 := by
            unfold chooseComplex at hc
            split at hc
            · split at hc
              · split at hc <;> simp at hc <;> simp [← hc]
              · simp at hc; simp [← hc]
            · simp at hc
          rw [hc] at h
          dsimp only at h
          rw [Out.assert_true (by rcases hcc with e | e <;> simp [e]), Out.bind_ok] at h
          injection h with h
          subst h
          refine ⟨rfl, ?_, .inl ⟨rfl, rfl, rfl, ?_, ?_⟩⟩
          · rcases hcc with e | e <;> simp [e]
          · rcases hcc with e | e <;> simp [e]
          · have : ¬ (lo.le (.fin 0) = true ∧ (Ext.fin 0).le hi = true) := fun e => c1 ⟨e.2, e.1⟩
            rcases hcc with e | e <;> simp [e] <;> simpa using this

theorem within_zero (mean sd : ℝ) (h : 0 < sd) (lower upper : Ext ℝ) :
    Within (standardize R mean sd lower) (standardize R mean sd upper) 0 ↔ Within lower upper mean := by
  have e1 : ∀ x, R.rd (R.rd (x - mean) / sd) ≤ 0 ↔ x ≤ mean := by
    intro x
    rw [rd_le_zero, div_le_iff₀ h, zero_mul, rd_le_zero]
    exact sub_nonpos
  have e2 : ∀ x, 0 ≤ R.rd (R.rd (x - mean) / sd) ↔ mean ≤ x := by
    intro x
    rw [zero_le_rd, le_div_iff₀ h, zero_mul, zero_le_rd]
    exact sub_nonneg
  unfold Within
  cases lower <;> cases upper <;> simp [standardize, h, Ext.le, e1, e2]

/-- Scaling keeps the order. -/
theorem scale_mono (mean sd : ℝ) (h : 0 < sd) {y z : ℝ} (hz : y ≤ z) :
    R.rd (mean + R.rd (sd * y)) ≤ R.rd (mean + R.rd (sd * z)) := by
  apply R.mono
  have := R.mono (mul_le_mul_of_nonneg_left hz h.le)
  linarith

/-- A draw is delivered by a distribution that does not use rejection from the uniform distribution: it is within the
standardized bounds, and is scaled. -/
theorem sampled (hs : GoodRoots R L) (mean sd : ℝ) (h0 : 0 < sd) (lower upper : Ext ℝ)
    (d : TruncatedNormal.Dist ℝ) (h : construct R L mean sd lower upper = .ok d) (hc : d.case ≠ .type4)
    (ds : List (Draw ℝ)) (hd : ∀ e ∈ ds, 0 ≤ e.exponential) (x : ℝ) (rest : List (Draw ℝ))
    (hx : sample R L d ds = some (x, rest)) :
    ∃ z, Within (standardize R mean sd lower) (standardize R mean sd upper) z ∧ x = R.rd (mean + R.rd (sd * z)) := by
  have hz : sd ≠ 0 := ne_of_gt h0
  obtain ⟨hm, hnn, hcases⟩ := construct_inv R L hz h
  have fp : ∀ (b : Ext ℝ) (lo : ℝ), standardize R mean sd b = .fin lo → R.Fp lo := by
    intro b lo e
    cases b <;> simp [standardize, h0] at e
    rw [← e]; exact R.fp_rd _
  rcases hcases with ⟨e1, e2, e3, e4, -⟩ | ⟨e1, e2, e3, e4, e5, e6⟩
  · unfold sample at hx
    dsimp only at hx
    cases hcase : d.case with
    | none => exact absurd hcase hnn
    | type4 => exact absurd hcase hc
    | type1 =>
      simp only [hcase, Option.map_eq_some_iff, Prod.mk.injEq, Prod.exists] at hx
      obtain ⟨z, r, h1, h2, -⟩ := hx
      rw [e2, e3] at h1
      exact ⟨z, naive_within _ _ h1, by rw [← h2, scale, hm, e1]⟩
    | type2 =>
      simp only [hcase] at hx
      cases hl : d.stdLower with
      | negInf => simp [hl] at hx
      | posInf => simp [hl] at hx
      | fin lo =>
        simp only [hl, Option.map_eq_some_iff, Prod.mk.injEq, Prod.exists] at hx
        obtain ⟨z, r, h1, h2, -⟩ := hx
        obtain ⟨e5, e6⟩ := e4 hcase
        refine ⟨z, ?_, by rw [← h2, scale, hm, e1]⟩
        rw [← e2, ← e3, hl, e5]
        simp [hl, Ext.lt, Ext.le] at e6
        exact ⟨by simpa [Ext.le] using (simple_ge R L hs lo (fp lower lo (by rw [← e2, hl])) hd h1).1,
          by simp [Ext.le]⟩
    | type3 =>
      simp only [hcase] at hx
      cases hl : d.stdLower with
      | negInf => simp [hl] at hx
      | posInf => simp [hl] at hx
      | fin lo =>
        simp only [hl, Option.map_eq_some_iff, Prod.mk.injEq, Prod.exists] at hx
        obtain ⟨z, r, h1, h2, -⟩ := hx
        obtain ⟨g1, g2⟩ := simpleBelow_within R L hs lo (fp lower lo (by rw [← e2, hl])) _ ds hd h1
        refine ⟨z, ?_, by rw [← h2, scale, hm, e1]⟩
        rw [← e2, ← e3, hl]
        exact ⟨by simpa [Ext.le] using g1, g2⟩
  · unfold sample at hx
    simp only [e5] at hx
    cases hl : d.stdLower with
    | negInf => simp [hl] at hx
    | posInf => simp [hl] at hx
    | fin lo =>
      simp only [hl, Option.map_eq_some_iff, Prod.mk.injEq, Prod.exists] at hx
      obtain ⟨z, r, h1, h2, -⟩ := hx
      rw [hl] at e2
      cases hu : standardize R mean sd upper with
      | negInf => simp [hu, Ext.neg] at e2
      | posInf => simp [hu, Ext.neg] at e2
      | fin u =>
        simp only [hu, Ext.neg, Ext.fin.injEq] at e2
        simp [hu, Ext.lt, Ext.le] at e6
        have g := (simple_ge R L hs lo (by rw [e2]; exact R.fp_neg (fp upper u hu)) hd h1).1
        refine ⟨-z, ?_, ?_⟩
        · rw [e3]
          refine ⟨by simp [Ext.le], ?_⟩
          simp only [Ext.le, decide_eq_true_eq]
          linarith
        · rw [← h2, scale, hm, e1]
          have e : -1 * sd * z = sd * -z := by ring
          rw [e]

/-- **C176.** With rounding, and a positive standard deviation, samples are within the bounds up to a few rounding units,
whatever the random distributions deliver, unless rejection from the uniform distribution is used. -/
theorem C176_bounds (hs : GoodRoots R L) (mean sd : ℝ) (h0 : 0 < sd) (lower upper : Ext ℝ)
    (hle : lower ≠ .posInf ∧ upper ≠ .negInf)
    (d : TruncatedNormal.Dist ℝ) (h : construct R L mean sd lower upper = .ok d) (hc : d.case ≠ .type4)
    (ds : List (Draw ℝ)) (hd : ∀ e ∈ ds, 0 ≤ e.exponential) (x : ℝ) (rest : List (Draw ℝ))
    (hx : sample R L d ds = some (x, rest)) : NearlyWithin mean lower upper x := by
  obtain ⟨z, hw, rfl⟩ := sampled R L hs mean sd h0 lower upper d h hc ds hd x rest hx
  refine ⟨hle.1, hle.2, ?_, ?_⟩
  · rintro b rfl
    have := hw.1
    simp only [standardize, Ext.le, decide_eq_true_eq] at this
    have h1 := scale_mono R mean sd h0 this
    have h2 := (abs_le.1 (again R mean sd b (ne_of_gt h0))).1
    linarith
  · rintro b rfl
    have := hw.2
    simp only [standardize, Ext.le, decide_eq_true_eq] at this
    have h1 := scale_mono R mean sd h0 this
    have h2 := (abs_le.1 (again R mean sd b (ne_of_gt h0))).2
    linarith

/-- **C176.** The standard normal distribution has no such error: with bounds that are `double`s its samples are within
them. -/
theorem C176_standard (hs : GoodRoots R L) (lower upper : Ext ℝ)
    (hf : ∀ b, lower = .fin b ∨ upper = .fin b → R.Fp b)
    (d : TruncatedNormal.Dist ℝ) (h : construct R L 0 1 lower upper = .ok d) (hc : d.case ≠ .type4)
    (ds : List (Draw ℝ)) (hd : ∀ e ∈ ds, 0 ≤ e.exponential) (x : ℝ) (rest : List (Draw ℝ))
    (hx : sample R L d ds = some (x, rest)) : Within lower upper x := by
  obtain ⟨z, hw, rfl⟩ := sampled R L hs 0 1 one_pos lower upper d h hc ds hd x rest hx
  have e : ∀ b : Ext ℝ, b = lower ∨ b = upper → standardize R 0 1 b = b := by
    intro b hb
    cases b with
    | negInf => simp [standardize]
    | posInf => simp [standardize]
    | fin b =>
      have : R.rd b = b := hf b (by rcases hb with e | e <;> simp [← e])
      simp [standardize, this]
  rw [e lower (.inl rfl), e upper (.inr rfl)] at hw
  simp only [zero_add, one_mul, R.idem]
  constructor
  · have hw := hw.1
    cases lower with
    | negInf => simp [Ext.le]
    | posInf => simp [Ext.le] at hw
    | fin b =>
      simp only [Ext.le, decide_eq_true_eq] at hw ⊢
      have := R.mono hw
      rwa [hf b (.inl rfl)] at this
  · have hw := hw.2
    cases upper with
    | posInf => simp [Ext.le]
    | negInf => simp [Ext.le] at hw
    | fin b =>
      simp only [Ext.le, decide_eq_true_eq] at hw ⊢
      have := R.mono hw
      rwa [hf b (.inr rfl)] at this

/-- **C176.** Rounding has no influence on whether construction succeeds, and the method follows exactly from where the
mean lies. A zero standard deviation always yields the mean. -/
theorem C176_method (mean sd : ℝ) (lower upper : Ext ℝ) (hle : lower.le upper = true) :
    (0 < sd → ∃ d, construct R L mean sd lower upper = .ok d ∧
      (d.case = .type1 ↔ Within lower upper mean) ∧
      (d.case = .type2 ↔ ¬ Within lower upper mean ∧ (lower = .negInf ∨ upper = .posInf)) ∧
      (d.case = .type3 ∨ d.case = .type4 ↔
        ¬ Within lower upper mean ∧ lower ≠ .negInf ∧ upper ≠ .posInf)) ∧
    (∀ d, construct R L mean 0 lower upper = .ok d → ∀ ds, sample R L d ds = some (mean, ds)) := by
  constructor
  · intro hp
    have hz : |sd| ≠ 0 := fun e => absurd (abs_eq_zero.1 e) (ne_of_gt hp)
    have w := within_zero R mean sd hp lower upper
    unfold construct
    rw [if_neg hz]
    dsimp only
    rw [← w]
    have i1 : standardize R mean sd lower = .negInf ↔ lower = .negInf := by
      cases lower <;> simp [standardize, hp]
    have i2 : standardize R mean sd upper = .posInf ↔ upper = .posInf := by
      cases upper <;> simp [standardize, hp]
    have hle' : (standardize R mean sd lower).le (standardize R mean sd upper) = true := by
      cases lower <;> cases upper <;> simp_all [standardize, Ext.le]
      exact R.mono ((div_le_div_iff_of_pos_right hp).2 (R.mono (by linarith)))
    rw [ne_eq, ne_eq, ← i1, ← i2]
    generalize standardize R mean sd lower = lo at *
    generalize standardize R mean sd upper = hi at *
    unfold Within chooseComplex
    cases lo with
    | negInf =>
      cases hi with
      | negInf => simp [Ext.lt, Ext.le, Out.assert_true, Ext.neg]
      | posInf => simp [Ext.lt, Ext.le, Out.assert_true]
      | fin u => by_cases hu : 0 ≤ u <;> simp [Ext.lt, Ext.le, Out.assert_true, Ext.neg, hu]
    | posInf =>
      cases hi with
      | negInf => simp [Ext.le] at hle'
      | posInf => simp [Ext.lt, Ext.le, Out.assert_true]
      | fin u => simp [Ext.le] at hle'
    | fin l =>
      cases hi with
      | negInf => simp [Ext.le] at hle'
      | posInf => by_cases hl : l ≤ 0 <;> simp [Ext.lt, Ext.le, Out.assert_true, hl]
      | fin u =>
        by_cases hl : l ≤ 0 <;> by_cases hu : 0 ≤ u <;> by_cases hc : checkSimple R L l u = true <;>
          simp [Ext.lt, Ext.le, Out.assert_true, hl, hu, hc]
  · intro d h ds
    unfold construct at h
    rw [if_pos abs_zero] at h
    injection h with h
    subst h
    simp [sample]

/-- **C176.** Naive rejection (the mean is within the bounds): the sample comes from the first normal draw within the
standardized bounds. -/
theorem C176_naive (mean sd : ℝ) (h : 0 < sd) (lower upper : Ext ℝ)
    (hm : Within lower upper mean) (d : TruncatedNormal.Dist ℝ) (hd : construct R L mean sd lower upper = .ok d)
    (pre : List (Draw ℝ)) (e : Draw ℝ) (post : List (Draw ℝ))
    (hpre : ∀ x ∈ pre, ¬ Within (standardize R mean sd lower) (standardize R mean sd upper) x.normal)
    (he : Within (standardize R mean sd lower) (standardize R mean sd upper) e.normal) :
    sample R L d (pre ++ e :: post) = some (R.rd (mean + R.rd (sd * e.normal)), post) := by
  obtain ⟨h1, -, h3⟩ := construct_inv R L (ne_of_gt h) hd
  have w0 := (within_zero R mean sd h lower upper).2 hm
  rcases h3 with ⟨e1, e2, e3, -, e5⟩ | ⟨-, -, -, -, -, e6⟩
  · have hc := e5.2 w0
    unfold sample
    simp only [hc, e2, e3, scale, e1, h1]
    suffices hh : naive (standardize R mean sd lower) (standardize R mean sd upper) (pre ++ e :: post) =
          some (e.normal, post) by
      rw [hh]; rfl
    clear hd e1 e2 e3 e5 h1 hc
    induction pre with
    | nil => rw [List.nil_append, naive, if_pos ⟨he.2, he.1⟩]
    | cons x xs ih =>
      have : ¬ ((Ext.fin x.normal).le (standardize R mean sd upper) = true ∧
          (standardize R mean sd lower).le (.fin x.normal) = true) := fun c => hpre x (by simp) ⟨c.2, c.1⟩
      rw [List.cons_append, naive, if_neg this]
      exact ih (fun y hy => hpre y (by simp [hy]))
  · have := w0.2
    simp [Ext.lt, this] at e6

/-- **C176.** What rejection from the uniform distribution yields: a draw from between the bounds that were given, scaled
once more. For the standard normal distribution it is within the bounds, if draws are `double`s. -/
theorem C176_uniform (mean sd : ℝ) (h0 : sd ≠ 0) (lower upper : Ext ℝ) (d : TruncatedNormal.Dist ℝ)
    (h : construct R L mean sd lower upper = .ok d) (hc : d.case = .type4) (ds : List (Draw ℝ))
    (hd : ∀ e ∈ ds, Legal lower upper e) (x : ℝ) (rest : List (Draw ℝ))
    (hx : sample R L d ds = some (x, rest)) :
    (∃ z, Within lower upper z ∧ x = R.rd (mean + R.rd (sd * z))) ∧
    (mean = 0 → sd = 1 → (∀ e ∈ ds, R.Fp e.range) → Within lower upper x) := by
  obtain ⟨h1, -, h3⟩ := construct_inv R L h0 h
  rcases h3 with ⟨e1, -⟩ | ⟨-, -, -, -, e5, -⟩
  · unfold sample at hx
    simp only [hc] at hx
    split at hx
    · simp only [Option.map_eq_some_iff, Prod.mk.injEq, Prod.exists] at hx
      obtain ⟨z, r, g1, g2, -⟩ := hx
      obtain ⟨e, he, g3⟩ := complex_mem R L _ _ g1
      have hw : Within lower upper z := by rw [g3]; exact (hd e he).2
      have hxz : x = R.rd (mean + R.rd (sd * z)) := by rw [← g2, scale, h1, e1]
      refine ⟨⟨z, hw, hxz⟩, ?_⟩
      rintro rfl rfl hfp
      have : R.rd z = z := by rw [g3]; exact hfp e he
      rw [hxz, zero_add, one_mul, R.idem, this]
      exact hw
    · simp at hx
  · rw [hc] at e5; cases e5

/-- **C176.** With a lower bound above the mean and no upper bound, the sample is made of the first draw that is accepted:
`s` is the standardized bound and `a` the rate of the exponential distribution, both as computed. -/
theorem C176_one_sided (mean sd lower s a : ℝ) (h0 : 0 < sd) (h : mean < lower) (d : TruncatedNormal.Dist ℝ)
    (hd : construct R L mean sd (.fin lower) .posInf = .ok d) (hs : s = R.rd (R.rd (lower - mean) / sd))
    (ha : a = R.rd (R.rd (s + L.sqrt (R.rd (L.square s + 4))) / 2)) (h1 : a ≠ 0)
    (z : Draw ℝ → ℝ) (hz : ∀ e, z e = R.rd (s + R.rd (e.exponential / a)))
    (pre : List (Draw ℝ)) (e : Draw ℝ) (post : List (Draw ℝ))
    (hpre : ∀ x ∈ pre, L.exp (R.rd (-L.square (R.rd (a - z x)) / 2)) < x.unit)
    (he : e.unit ≤ L.exp (R.rd (-L.square (R.rd (a - z e)) / 2))) :
    sample R L d (pre ++ e :: post) = some (R.rd (mean + R.rd (sd * z e)), post) := by
  have hp : 0 < s := by
    rw [hs]
    refine lt_of_le_of_ne (R.nonneg (div_nonneg (R.nonneg (by linarith)) h0.le)) fun e => ?_
    rw [eq_comm, R.eq_zero, div_eq_zero_iff, R.eq_zero] at e
    rcases e with e | e <;> linarith
  have s1 : standardize R mean sd (.fin lower) = .fin s := by rw [hs]; rfl
  have s2 : standardize R mean sd .posInf = .posInf := by simp [standardize, h0]
  unfold construct at hd
  rw [if_neg (fun e => absurd (abs_eq_zero.1 e) (ne_of_gt h0)), s1, s2] at hd
  simp [chooseComplex, Ext.lt, Ext.le, Out.assert_true, not_le.2 hp] at hd
  subst hd
  unfold sample
  have ha' : alpha R L s = a := ha.symm
  have hc : ∀ e, candidate R L s e = z e := by intro e; rw [hz, candidate, ha']
  suffices hh : simple R L s (pre ++ e :: post) = some (z e, post) by simp [hh, scale]
  clear hz ha
  induction pre with
  | nil => rw [List.nil_append, simple, if_pos ⟨by rw [ha']; exact h1, by rw [ha', hc]; exact he⟩, hc]
  | cons x xs ih =>
    have : ¬ Accepted R L s x := by
      rintro ⟨-, c⟩
      rw [ha', hc] at c
      exact absurd (hpre x (by simp)) (not_lt.2 c)
    rw [List.cons_append, simple, if_neg this]
    exact ih fun y hy => hpre y (by simp [hy])

/-- **C176.** With two finite bounds above the mean, the exponential method is chosen exactly if its estimate is below the
standardized upper bound; otherwise the sample is made of the first accepted draw from the uniform distribution, scaled. -/
theorem C176_choice (mean sd lower upper s t q : ℝ) (h0 : 0 < sd) (h : mean < lower) (h2 : lower ≤ upper)
    (d : TruncatedNormal.Dist ℝ) (hd : construct R L mean sd (.fin lower) (.fin upper) = .ok d)
    (hs : s = R.rd (R.rd (lower - mean) / sd)) (ht : t = R.rd (R.rd (upper - mean) / sd))
    (hq : q = L.sqrt (R.rd (L.square s + 4))) (hpos : 0 ≤ q) :
    (d.case = .type3 ↔ R.rd (s + R.rd (R.rd (R.rd (2 * L.sqrt (L.exp 1)) / R.rd (s + q)) *
      L.exp (R.rd (R.rd (L.square s - R.rd (s * q)) / 4)))) < t) ∧
    (d.case ≠ .type3 → ∀ (pre : List (Draw ℝ)) (e : Draw ℝ) (post : List (Draw ℝ)),
      (∀ x ∈ pre, L.exp (R.rd (R.rd (L.square s - L.square x.range) / 2)) < x.unit) →
      e.unit ≤ L.exp (R.rd (R.rd (L.square s - L.square e.range) / 2)) →
      sample R L d (pre ++ e :: post) = some (R.rd (mean + R.rd (sd * e.range)), post)) := by
  have hp : 0 < s := by
    rw [hs]
    refine lt_of_le_of_ne (R.nonneg (div_nonneg (R.nonneg (by linarith)) h0.le)) fun e => ?_
    rw [eq_comm, R.eq_zero, div_eq_zero_iff, R.eq_zero] at e
    rcases e with e | e <;> linarith
  have hst : s ≤ t := by
    rw [hs, ht]
    exact R.mono ((div_le_div_iff_of_pos_right h0).2 (R.mono (by linarith)))
  have s1 : standardize R mean sd (.fin lower) = .fin s := by rw [hs]; rfl
  have s2 : standardize R mean sd (.fin upper) = .fin t := by rw [ht]; rfl
  have hr : root R L s = q := hq.symm
  have hsq : R.rd (s + q) ≠ 0 := by
    intro e; rw [R.eq_zero] at e; linarith
  have hcs : checkSimple R L s t = decide (R.rd (s + R.rd (R.rd (R.rd (2 * L.sqrt (L.exp 1)) / R.rd (s + q)) *
      L.exp (R.rd (R.rd (L.square s - R.rd (s * q)) / 4)))) < t) := by
    unfold checkSimple
    rw [hr, if_neg hsq]
  unfold construct at hd
  rw [if_neg (fun e => absurd (abs_eq_zero.1 e) (ne_of_gt h0)), s1, s2] at hd
  have hcase : d = ⟨mean, sd, .fin s, .fin t, if checkSimple R L s t then .type3 else .type4⟩ := by
    cases hc : checkSimple R L s t <;>
      simp [chooseComplex, Ext.lt, Ext.le, Out.assert_true, not_le.2 hp, hc] at hd <;> simp [← hd]
  clear hd
  subst hcase
  refine ⟨?_, ?_⟩
  · rw [hcs]
    simp only
    split <;> simp_all
  · intro h3 pre e post hpre he
    have hf : checkSimple R L s t = false := by
      cases hc : checkSimple R L s t with
      | false => rfl
      | true => simp [hc] at h3
    unfold sample
    simp only [hf]
    suffices hh : complex R L s t (pre ++ e :: post) = some (e.range, post) by simp [hh, scale]
    have hrho : ∀ z, rhoComplex R L s t z = L.exp (R.rd (R.rd (L.square s - L.square z) / 2)) := by
      intro z; unfold rhoComplex; rw [if_pos hp]
    induction pre with
    | nil => rw [List.nil_append, complex, if_pos (by rw [hrho]; exact he)]
    | cons x xs ih =>
      rw [List.cons_append, complex, if_neg (by rw [hrho]; exact not_le.2 (hpre x (by simp)))]
      exact ih fun y hy => hpre y (by simp [hy])

/-- **C176.** With two finite bounds below the mean and the uniform method, the draw is compared with the density at the upper
bound, the one next to the mean. -/
theorem C176_choice_below (mean sd lower upper t : ℝ) (h0 : 0 < sd) (h : upper < mean) (h2 : lower ≤ upper)
    (d : TruncatedNormal.Dist ℝ) (hd : construct R L mean sd (.fin lower) (.fin upper) = .ok d)
    (h4 : d.case = .type4) (ht : t = R.rd (R.rd (upper - mean) / sd))
    (pre : List (Draw ℝ)) (e : Draw ℝ) (post : List (Draw ℝ))
    (hpre : ∀ x ∈ pre, L.exp (R.rd (R.rd (L.square t - L.square x.range) / 2)) < x.unit)
    (he : e.unit ≤ L.exp (R.rd (R.rd (L.square t - L.square e.range) / 2))) :
    sample R L d (pre ++ e :: post) = some (R.rd (mean + R.rd (sd * e.range)), post) := by
  have hp : t < 0 := by
    rw [ht]
    refine lt_of_le_of_ne ((rd_le_zero R).2 (div_nonpos_of_nonpos_of_nonneg ((rd_le_zero R).2 (by linarith)) h0.le))
      fun e => ?_
    rw [R.eq_zero, div_eq_zero_iff, R.eq_zero] at e
    rcases e with e | e <;> linarith
  obtain ⟨s, hs⟩ : ∃ s, standardize R mean sd (.fin lower) = .fin s := ⟨_, rfl⟩
  have s2 : standardize R mean sd (.fin upper) = .fin t := by rw [ht]; rfl
  have hst : s ≤ t := by
    simp only [standardize, Ext.fin.injEq] at hs
    rw [← hs, ht]
    exact R.mono ((div_le_div_iff_of_pos_right h0).2 (R.mono (by linarith)))
  obtain ⟨hm, -, hcases⟩ := construct_inv R L (ne_of_gt h0) hd
  rcases hcases with ⟨e1, e2, e3, -, -⟩ | ⟨-, -, -, -, e5, -⟩
  · rw [hs] at e2
    rw [s2] at e3
    unfold sample
    simp only [h4, e2, e3]
    suffices hh : complex R L s t (pre ++ e :: post) = some (e.range, post) by simp [hh, scale, hm, e1]
    have hrho : ∀ z, rhoComplex R L s t z = L.exp (R.rd (R.rd (L.square t - L.square z) / 2)) := by
      intro z; unfold rhoComplex; rw [if_neg (by linarith), if_pos hp]
    induction pre with
    | nil => rw [List.nil_append, complex, if_pos (by rw [hrho]; exact he)]
    | cons x xs ih =>
      rw [List.cons_append, complex, if_neg (by rw [hrho]; exact not_le.2 (hpre x (by simp)))]
      exact ih fun y hy => hpre y (by simp [hy])
  · rw [h4] at e5; cases e5

/-- The first accepted draw is taken. -/
theorem simple_first (s a : ℝ) (ha : a = R.rd (R.rd (s + L.sqrt (R.rd (L.square s + 4))) / 2)) (h1 : a ≠ 0)
    (z : Draw ℝ → ℝ) (hz : ∀ e, z e = R.rd (s + R.rd (e.exponential / a)))
    (pre : List (Draw ℝ)) (e : Draw ℝ) (post : List (Draw ℝ))
    (hpre : ∀ x ∈ pre, L.exp (R.rd (-L.square (R.rd (a - z x)) / 2)) < x.unit)
    (he : e.unit ≤ L.exp (R.rd (-L.square (R.rd (a - z e)) / 2))) :
    simple R L s (pre ++ e :: post) = some (z e, post) := by
  have ha' : alpha R L s = a := ha.symm
  have hc : ∀ e, candidate R L s e = z e := by intro e; rw [hz, candidate, ha']
  clear hz ha
  induction pre with
  | nil => rw [List.nil_append, simple, if_pos ⟨by rw [ha']; exact h1, by rw [ha', hc]; exact he⟩, hc]
  | cons x xs ih =>
    have : ¬ Accepted R L s x := by
      rintro ⟨-, c⟩
      rw [ha', hc] at c
      exact absurd c (not_le.2 (hpre x (by simp)))
    rw [List.cons_append, simple, if_neg this]
    exact ih fun y hy => hpre y (by simp [hy])

theorem below_neg (mean sd upper t : ℝ) (h0 : 0 < sd) (h : upper < mean) (ht : t = R.rd (R.rd (upper - mean) / sd)) :
    t < 0 := by
  rw [ht]
  refine lt_of_le_of_ne ((rd_le_zero R).2 (div_nonpos_of_nonpos_of_nonneg ((rd_le_zero R).2 (by linarith)) h0.le))
    fun e => ?_
  rw [R.eq_zero, div_eq_zero_iff, R.eq_zero] at e
  rcases e with e | e <;> linarith

theorem above_pos (mean sd lower s : ℝ) (h0 : 0 < sd) (h : mean < lower) (hs : s = R.rd (R.rd (lower - mean) / sd)) :
    0 < s := by
  rw [hs]
  refine lt_of_le_of_ne (R.nonneg (div_nonneg (R.nonneg (by linarith)) h0.le)) fun e => ?_
  rw [eq_comm, R.eq_zero, div_eq_zero_iff, R.eq_zero] at e
  rcases e with e | e <;> linarith

/-- **C176.** With an upper bound below the mean and no lower bound, the method for a lower bound is used on the mirrored
bound `s`, and the sign of the standard deviation is changed. -/
theorem C176_one_sided_below (mean sd upper s a : ℝ) (h0 : 0 < sd) (h : upper < mean) (d : TruncatedNormal.Dist ℝ)
    (hd : construct R L mean sd .negInf (.fin upper) = .ok d) (hs : s = -R.rd (R.rd (upper - mean) / sd))
    (ha : a = R.rd (R.rd (s + L.sqrt (R.rd (L.square s + 4))) / 2)) (h1 : a ≠ 0)
    (z : Draw ℝ → ℝ) (hz : ∀ e, z e = R.rd (s + R.rd (e.exponential / a)))
    (pre : List (Draw ℝ)) (e : Draw ℝ) (post : List (Draw ℝ))
    (hpre : ∀ x ∈ pre, L.exp (R.rd (-L.square (R.rd (a - z x)) / 2)) < x.unit)
    (he : e.unit ≤ L.exp (R.rd (-L.square (R.rd (a - z e)) / 2))) :
    sample R L d (pre ++ e :: post) = some (R.rd (mean + R.rd (-sd * z e)), post) := by
  obtain ⟨t, ht⟩ : ∃ t, t = R.rd (R.rd (upper - mean) / sd) := ⟨_, rfl⟩
  have hp := below_neg R mean sd upper t h0 h ht
  have s1 : standardize R mean sd (.fin upper) = .fin t := by rw [ht]; rfl
  have s2 : standardize R mean sd .negInf = .negInf := by simp [standardize, h0]
  have hst : s = -t := by rw [hs, ht]
  unfold construct at hd
  rw [if_neg (fun e => absurd (abs_eq_zero.1 e) (ne_of_gt h0)), s1, s2] at hd
  simp [chooseComplex, Ext.lt, Ext.le, Ext.neg, Out.assert_true, not_le.2 hp] at hd
  subst hd
  unfold sample
  have hh := simple_first R L s a ha h1 z hz pre e post hpre he
  rw [hst] at hh
  simp [hh, scale]

/-- **C176.** With two finite bounds below the mean: the method of the exponential distribution is used if the sum `s + q`
is not zero and the comparison of Robert's criterion holds. -/
theorem C176_below_method (mean sd lower upper s t q : ℝ) (h0 : 0 < sd) (h : upper < mean)
    (d : TruncatedNormal.Dist ℝ) (hd : construct R L mean sd (.fin lower) (.fin upper) = .ok d)
    (hs : s = R.rd (R.rd (lower - mean) / sd)) (ht : t = R.rd (R.rd (upper - mean) / sd))
    (hq : q = L.sqrt (R.rd (L.square s + 4))) :
    (d.case = .type3 ↔ R.rd (s + q) ≠ 0 ∧
      R.rd (s + R.rd (R.rd (R.rd (2 * L.sqrt (L.exp 1)) / R.rd (s + q)) *
        L.exp (R.rd (R.rd (L.square s - R.rd (s * q)) / 4)))) < t) ∧ (d.case = .type3 ∨ d.case = .type4) := by
  have hp := below_neg R mean sd upper t h0 h ht
  have s1 : standardize R mean sd (.fin lower) = .fin s := by rw [hs]; rfl
  have s2 : standardize R mean sd (.fin upper) = .fin t := by rw [ht]; rfl
  have hr : root R L s = q := hq.symm
  have hcs : checkSimple R L s t = true ↔ R.rd (s + q) ≠ 0 ∧
      R.rd (s + R.rd (R.rd (R.rd (2 * L.sqrt (L.exp 1)) / R.rd (s + q)) *
        L.exp (R.rd (R.rd (L.square s - R.rd (s * q)) / 4)))) < t := by
    unfold checkSimple
    rw [hr]
    split <;> simp_all
  unfold construct at hd
  rw [if_neg (fun e => absurd (abs_eq_zero.1 e) (ne_of_gt h0)), s1, s2] at hd
  have hcase : d = ⟨mean, sd, .fin s, .fin t, if checkSimple R L s t then .type3 else .type4⟩ := by
    cases hc : checkSimple R L s t <;>
      simp [chooseComplex, Ext.lt, Ext.le, Out.assert_true, not_le.2 hp, hc] at hd <;> simp [← hd]
  subst hcase
  rw [← hcs]
  cases checkSimple R L s t <;> simp

/-- **C176.** The method of the exponential distribution with two finite bounds: draws are taken in turn, and the sample is
made of the first accepted one that is not above the standardized upper bound. -/
theorem C176_two_sided (mean sd lower upper s t a : ℝ) (h0 : sd ≠ 0) (d : TruncatedNormal.Dist ℝ)
    (hd : construct R L mean sd (.fin lower) (.fin upper) = .ok d) (hc : d.case = .type3)
    (hs : s = R.rd (R.rd (lower - mean) / sd)) (ht : t = R.rd (R.rd (upper - mean) / sd))
    (ha : a = R.rd (R.rd (s + L.sqrt (R.rd (L.square s + 4))) / 2)) (h1 : a ≠ 0)
    (z : Draw ℝ → ℝ) (hz : ∀ e, z e = R.rd (s + R.rd (e.exponential / a)))
    (pre : List (Draw ℝ)) (e : Draw ℝ) (post : List (Draw ℝ))
    (hpre : ∀ x ∈ pre, L.exp (R.rd (-L.square (R.rd (a - z x)) / 2)) < x.unit ∨ t < z x)
    (he : e.unit ≤ L.exp (R.rd (-L.square (R.rd (a - z e)) / 2))) (het : z e ≤ t) :
    sample R L d (pre ++ e :: post) = some (R.rd (mean + R.rd (sd * z e)), post) := by
  have ha' : alpha R L s = a := ha.symm
  have hcd : ∀ e, candidate R L s e = z e := by intro e; rw [hz, candidate, ha']
  have hacc : ∀ e, Accepted R L s e ↔ e.unit ≤ L.exp (R.rd (-L.square (R.rd (a - z e)) / 2)) := by
    intro e
    unfold Accepted
    rw [ha', hcd]
    simp [h1]
  have hh : simpleBelow R L s (.fin t) (pre ++ e :: post) = some (z e, post) := by
    clear hz ha
    induction pre with
    | nil =>
      unfold simpleBelow
      have : simple R L s ([] ++ e :: post) = some (z e, post) := by
        rw [List.nil_append, simple, if_pos ((hacc e).2 he), hcd]
      split
      · rename_i h; rw [this] at h; cases h
      · rename_i z' rest h
        rw [this] at h
        simp only [Option.some.injEq, Prod.mk.injEq] at h
        obtain ⟨rfl, rfl⟩ := h
        simp [Ext.le, het]
    | cons x xs ih =>
      have ih := ih fun y hy => hpre y (by simp [hy])
      by_cases hx : Accepted R L s x
      · have hxt : t < z x := by
          rcases hpre x (by simp) with c | c
          · exact absurd ((hacc x).1 hx) (not_le.2 c)
          · exact c
        have : simple R L s (x :: xs ++ e :: post) = some (z x, xs ++ e :: post) := by
          rw [List.cons_append, simple, if_pos hx, hcd]
        unfold simpleBelow
        split
        · rename_i h; rw [this] at h; cases h
        · rename_i z' rest h
          rw [this] at h
          simp only [Option.some.injEq, Prod.mk.injEq] at h
          obtain ⟨rfl, rfl⟩ := h
          rw [if_neg (by simp [Ext.le, hxt])]
          exact ih
      · have : simple R L s (x :: xs ++ e :: post) = simple R L s (xs ++ e :: post) := by
          rw [List.cons_append, simple, if_neg hx]
        unfold simpleBelow at ih ⊢
        split
        · rename_i h
          rw [this] at h
          split at ih
          · cases ih
          · rename_i h'; rw [h] at h'; cases h'
        · rename_i z' rest h
          rw [this] at h
          split at ih
          · cases ih
          · rename_i h'
            rw [h] at h'
            simp only [Option.some.injEq, Prod.mk.injEq] at h'
            obtain ⟨rfl, rfl⟩ := h'
            exact ih
  obtain ⟨hm, -, hcases⟩ := construct_inv R L h0 hd
  rcases hcases with ⟨e1, e2, e3, -, -⟩ | ⟨-, -, -, -, e5, -⟩
  · have hl : d.stdLower = .fin s := by rw [e2, hs]; rfl
    have hu : d.stdUpper = .fin t := by rw [e3, ht]; rfl
    unfold sample
    simp only [hc, hl, hu, hh]
    simp [scale, hm, e1]
  · rw [hc] at e5; cases e5
end

/-- **C176.** With rounding to nearest, correctly rounded square roots and squares are good enough. -/
theorem C176_roots (exp : ℝ → ℝ) : GoodRoots Nearest.nearest (correctlyRounded Nearest.nearest exp) := by
  intro x hx
  have main : ∀ x : ℝ, 0 < x → Nearest.rd x = x →
      x ≤ Nearest.rd (Real.sqrt (Nearest.rd (Nearest.rd (x ^ 2) + 4))) := by
    intro x hp hf
    have hu : unit = 1 / 2 ^ 53 := rfl
    generalize hs : Nearest.rd (Nearest.rd (x ^ 2) + 4) = s
    have q0 : (0 : ℝ) ≤ x ^ 2 := sq_nonneg x
    have hge : Nearest.rd (x ^ 2) ≤ s := by
      rw [← hs]
      have := Nearest.nearest.mono (show Nearest.rd (x ^ 2) ≤ Nearest.rd (x ^ 2) + 4 by linarith)
      have e := Nearest.nearest.idem (x ^ 2)
      change Nearest.rd (Nearest.rd (x ^ 2)) ≤ _ at this
      change Nearest.rd (Nearest.rd (x ^ 2)) = Nearest.rd (x ^ 2) at e
      rwa [e] at this
    have hlow : x ^ 2 * (1 - unit) ≤ Nearest.rd (x ^ 2) := Nearest.nearest.lower q0
    rcases le_or_gt x (Real.sqrt s) with h | h
    · have := Nearest.nearest.mono h
      change Nearest.rd x ≤ _ at this
      rwa [hf] at this
    · obtain ⟨k1, k2⟩ := Nearest.scaled hp
      have hpe := Nearest.two_zpow_pos (Nearest.ex x)
      obtain ⟨k, hk⟩ : ∃ k : ℤ, x = k * 2 ^ Nearest.ex x := ⟨_, by
        conv_lhs => rw [← hf, Nearest.rd_pos hp]
        rfl⟩
      generalize Nearest.ex x = e at *
      have hkd : x / 2 ^ e = k := by rw [hk]; field_simp
      rw [hkd] at k1 k2
      have k3 : (2 : ℤ) ^ 52 ≤ k := by exact_mod_cast k1
      rcases eq_or_lt_of_le k3 with hk0 | hk0
      · exfalso
        have : Nearest.rd (x ^ 2) = x ^ 2 := by
          have := Nearest.nearest.fixed 1 (104 + (e + e)) (by norm_num)
          have e1 : ((1 : ℤ) : ℝ) * 2 ^ (104 + (e + e)) = x ^ 2 := by
            rw [hk, ← hk0, zpow_add₀ (by norm_num), zpow_add₀ (by norm_num)]
            push_cast
            rw [show (2 : ℝ) ^ (104 : ℤ) = 2 ^ 104 by norm_cast]
            ring
          rw [e1] at this
          exact this
        rw [this] at hge
        have := Real.le_sqrt_of_sq_le hge
        linarith
      · have k4 : ((2 : ℝ) ^ 52 + 1) ≤ k := by exact_mod_cast hk0
        have hv : (k - 1 / 2) * 2 ^ e < Real.sqrt s := by
          apply Real.lt_sqrt_of_sq_lt
          refine lt_of_lt_of_le ?_ (le_trans hlow hge)
          rw [hk, hu]
          have p2 : (0 : ℝ) < 2 ^ e * 2 ^ e := mul_pos hpe hpe
          have : ((k : ℝ) - 1 / 2) ^ 2 < (k : ℝ) ^ 2 * (1 - 1 / 2 ^ 53) := by
            have : (k : ℝ) * (2 ^ 53 - k) ≥ 2 ^ 52 * 1 :=
              mul_le_mul k1 (by
                have : k + 1 ≤ 2 ^ 53 := by exact_mod_cast k2
                have : (k : ℝ) + 1 ≤ 2 ^ 53 := by exact_mod_cast this
                linarith) (by norm_num) (by linarith)
            nlinarith
          nlinarith
        have n1 : (2 : ℝ) ^ 52 * 2 ^ e ≤ Real.sqrt s := by
          refine le_trans ?_ hv.le
          exact mul_le_mul_of_nonneg_right (by linarith) hpe.le
        have n2 : Real.sqrt s < 2 ^ 53 * 2 ^ e := by
          refine lt_trans h ?_
          rw [hk]
          exact mul_lt_mul_of_pos_right k2 hpe
        rw [VoxelRounded.nearest_of _ e n1 n2, VoxelRounded.whole_near _ k, ← hk]
        rw [abs_lt]
        constructor
        · have := (lt_div_iff₀ hpe).2 hv
          linarith
        · have : Real.sqrt s / 2 ^ e < k := by rw [div_lt_iff₀ hpe, ← hk]; exact h
          linarith
  rcases lt_trichotomy x 0 with h | h | h
  · have hx' : Nearest.rd (-x) = -x := Nearest.nearest.fp_neg hx
    have := main (-x) (by linarith) hx'
    rw [neg_sq] at this
    rw [abs_of_neg h]
    exact this
  · rw [h, abs_zero]
    exact Nearest.nearest.nonneg (Real.sqrt_nonneg _)
  · rw [abs_of_pos h]
    exact main x h hx

/-- **C176.** Samples can really be outside of the bounds: with mean 0, standard deviation 49 and lower bound 1 the sample
can be smaller than 1. -/
theorem C176_outside (exp : ℝ → ℝ) (he : ∀ x, 0 ≤ exp x) :
    ∃ d : TruncatedNormal.Dist ℝ,
      construct Nearest.nearest (correctlyRounded Nearest.nearest exp) 0 49 (.fin 1) .posInf = .ok d ∧
      sample Nearest.nearest (correctlyRounded Nearest.nearest exp) d [⟨0, 0, 0, 1⟩] = some (1 - 1 / 2 ^ 53, []) := by
  have e1 : Nearest.nearest.rd (Nearest.nearest.rd (1 - 0) / 49) = 5882252574524729 / 2 ^ 58 := by
    have : Nearest.nearest.rd (1 - 0) = 1 := by rw [sub_zero]; exact Nearest.nearest.fp_one
    rw [this]
    show Nearest.rd (1 / 49) = _
    have hz : (2 : ℝ) ^ (-58 : ℤ) = 1 / 2 ^ 58 := by rw [zpow_neg, one_div]; norm_cast
    rw [VoxelRounded.nearest_of (1 / 49) (-58) (by rw [hz]; norm_num) (by rw [hz]; norm_num), hz,
      VoxelRounded.whole_near _ 5882252574524729 (by rw [abs_lt]; constructor <;> norm_num)]
    norm_num
  have e2 : Nearest.nearest.rd (5882252574524729 / 2 ^ 58) = 5882252574524729 / 2 ^ 58 := by
    rw [← e1]; exact Nearest.nearest.idem _
  have e3 : Nearest.nearest.rd (49 * (5882252574524729 / 2 ^ 58)) = 1 - 1 / 2 ^ 53 := by
    have hz : (2 : ℝ) ^ (-53 : ℤ) = 1 / 2 ^ 53 := by rw [zpow_neg, one_div]; norm_cast
    show Nearest.rd _ = _
    rw [VoxelRounded.nearest_of _ (-53) (by rw [hz]; norm_num) (by rw [hz]; norm_num), hz,
      VoxelRounded.whole_near _ 9007199254740991 (by rw [abs_lt]; constructor <;> norm_num)]
    norm_num
  have e4 : Nearest.nearest.rd (1 - 1 / 2 ^ 53) = 1 - 1 / 2 ^ 53 := by
    rw [← e3]; exact Nearest.nearest.idem _
  refine ⟨⟨0, 49, .fin (5882252574524729 / 2 ^ 58), .posInf, .type2⟩, ?_, ?_⟩
  · unfold construct
    have s1 : standardize Nearest.nearest 0 49 (.fin 1) = .fin (5882252574524729 / 2 ^ 58) := congrArg Ext.fin e1
    have s2 : standardize Nearest.nearest 0 49 .posInf = .posInf := by simp [standardize]
    have hn : (0 : ℝ) < 5882252574524729 / 2 ^ 58 := by norm_num
    rw [if_neg (by norm_num), s1, s2]
    generalize (5882252574524729 / 2 ^ 58 : ℝ) = n at hn
    simp [chooseComplex, Ext.lt, Ext.le, Out.assert_true, not_le.2 hn]
  · have hr := C176_roots exp (5882252574524729 / 2 ^ 58) e2
    have ha : alpha Nearest.nearest (correctlyRounded Nearest.nearest exp) (5882252574524729 / 2 ^ 58) ≠ 0 := by
      unfold alpha
      rw [ne_eq, Nearest.nearest.eq_zero, div_eq_zero_iff, Nearest.nearest.eq_zero]
      have := le_trans (abs_nonneg _) hr
      have hroot : (0 : ℝ) ≤ root Nearest.nearest (correctlyRounded Nearest.nearest exp) (5882252574524729 / 2 ^ 58) := this
      have : (0 : ℝ) < 5882252574524729 / 2 ^ 58 := by norm_num
      rintro (h | h) <;> linarith
    simp only [sample, simple]
    rw [if_pos ⟨ha, he _⟩]
    simp [scale, candidate, Nearest.nearest.zero, -one_div]
    rw [e2, e3, e4]

/-- The constructor accepts bounds on both sides of the mean, and a normal draw of zero is then within the bounds. -/
example (exp : ℝ → ℝ) :
    ∃ d, construct Nearest.nearest (correctlyRounded Nearest.nearest exp) 0 2 (.fin (-1)) (.fin 3) = .ok d ∧
      d.case = .type1 ∧ sample Nearest.nearest (correctlyRounded Nearest.nearest exp) d [⟨0, 0, 0, 1⟩] = some (0, []) ∧
      NearlyWithin 0 (.fin (-1)) (.fin 3) 0 := by
  have hw : Within (.fin (-1)) (.fin 3) (0 : ℝ) := by
    constructor <;> simp only [Ext.le, decide_eq_true_eq] <;> norm_num
  obtain ⟨d, h1, h2, -, -⟩ := (C176_method Nearest.nearest (correctlyRounded Nearest.nearest exp) 0 2 (.fin (-1))
    (.fin 3) (by simp only [Ext.le, decide_eq_true_eq]; norm_num)).1 (by norm_num)
  have h3 := C176_naive Nearest.nearest (correctlyRounded Nearest.nearest exp) 0 2 (by norm_num) _ _ hw d h1 []
    ⟨0, 0, 0, 1⟩ [] (by simp) ((within_zero _ 0 2 (by norm_num) _ _).2 hw)
  have h4 : sample Nearest.nearest (correctlyRounded Nearest.nearest exp) d [⟨0, 0, 0, 1⟩] = some (0, []) := by
    simpa [Nearest.nearest.zero] using h3
  have hc := h2.2 hw
  exact ⟨d, h1, hc, h4, C176_bounds _ _ (C176_roots exp) 0 2 (by norm_num) _ _ ⟨by simp, by simp⟩ d h1 (by simp [hc]) _
    (by simp) _ _ h4⟩

end Verif.TruncatedNormalRounded
