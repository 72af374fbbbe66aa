import Mathlib.Analysis.Complex.Exponential
import Mathlib.Analysis.Real.Sqrt
import Mathlib.Tactic.Linarith
import Mathlib.Tactic.FieldSimp
import Mathlib.Tactic.Ring
import Mathlib.Tactic.NormNum
import Mathlib.Tactic.Positivity
import Mathlib.Data.Rat.Floor
import Verif.Model.TruncatedNormal

/-!
# C45: samples of a truncated normal distribution
-/
namespace Verif.TruncatedNormal
open Verif

set_option linter.unusedSectionVars false

section
variable {K : Type} [Field K] [LinearOrder K] [IsStrictOrderedRing K]

/-- `x` lies within the bounds. -/
def Within (lower upper : Ext K) (x : K) : Prop := lower.le (.fin x) = true ∧ (Ext.fin x).le upper = true

/-- What the random distributions may deliver: exponential draws are not negative and range draws are
between the bounds. -/
def Legal (lower upper : Ext K) (d : Draw K) : Prop := 0 ≤ d.exponential ∧ Within lower upper d.range

/-- The square root of the standard library (in exact arithmetic). -/
def IsSqrt (sqrt : K → K) : Prop := ∀ x, 0 ≤ x → 0 ≤ sqrt x ∧ sqrt x * sqrt x = x

theorem alpha_pos {m : Math K} (hs : IsSqrt m.sqrt) (lo : K) : 0 < (lo + m.sqrt (lo ^ 2 + 4)) / 2 := by
  obtain ⟨h1, h2⟩ := hs (lo ^ 2 + 4) (by positivity)
  have : -lo < m.sqrt (lo ^ 2 + 4) := by
    by_contra h
    have := not_lt.1 h
    nlinarith
  linarith

theorem candidate_ge {m : Math K} (hs : IsSqrt m.sqrt) (lo : K) {d : Draw K} (h : 0 ≤ d.exponential) :
    lo ≤ candidate m lo d := by
  unfold candidate
  have := div_nonneg h (alpha_pos hs lo).le
  linarith

theorem simple_ge {m : Math K} (hs : IsSqrt m.sqrt) (lo : K) : ∀ {ds : List (Draw K)} {z rest},
    (∀ d ∈ ds, 0 ≤ d.exponential) → simple m lo ds = some (z, rest) →
    lo ≤ z ∧ ∀ d ∈ rest, d ∈ ds
  | [], _, _, _, h => by simp [simple] at h
  | d :: ds, z, rest, hd, h => by
    rw [simple] at h
    split at h
    · simp only [Option.some.injEq, Prod.mk.injEq] at h
      rw [← h.1, ← h.2]
      exact ⟨candidate_ge hs lo (hd d (by simp)), fun e he => by simp [he]⟩
    · obtain ⟨h1, h2⟩ := simple_ge hs lo (fun e he => hd e (by simp [he])) h
      exact ⟨h1, fun e he => by simp [h2 e he]⟩

theorem simpleBelow_within {m : Math K} (hs : IsSqrt m.sqrt) (lo : K) (hi : Ext K) (ds : List (Draw K)) {z rest}
    (hd : ∀ d ∈ ds, 0 ≤ d.exponential) (h : simpleBelow m lo hi ds = some (z, rest)) :
    lo ≤ z ∧ (Ext.fin z).le hi = true := by
  rw [simpleBelow] at h
  split at h
  · simp at h
  · next w r hw =>
    obtain ⟨g1, g2⟩ := simple_ge hs lo hd hw
    split at h
    · next hz =>
      simp only [Option.some.injEq, Prod.mk.injEq] at h
      rw [← h.1]; exact ⟨g1, hz⟩
    · have := simple_length m lo hw
      exact simpleBelow_within hs lo hi r (fun e he => hd e (g2 e he)) h
termination_by ds.length

theorem naive_within (lo hi : Ext K) : ∀ {ds : List (Draw K)} {z rest}, naive lo hi ds = some (z, rest) →
    Within lo hi z
  | [], _, _, h => by simp [naive] at h
  | d :: ds, z, rest, h => by
    rw [naive] at h
    split at h
    · next hz =>
      simp only [Option.some.injEq, Prod.mk.injEq] at h
      rw [← h.1]; exact ⟨hz.2, hz.1⟩
    · exact naive_within lo hi h

theorem complex_mem (m : Math K) (lo hi : K) : ∀ {ds : List (Draw K)} {z rest},
    complex m lo hi ds = some (z, rest) → ∃ d ∈ ds, z = d.range ∧ d.unit ≤ rhoComplex m lo hi z
  | [], _, _, h => by simp [complex] at h
  | d :: ds, z, rest, h => by
    rw [complex] at h
    split at h
    · next hu =>
      simp only [Option.some.injEq, Prod.mk.injEq] at h
      exact ⟨d, by simp, h.1.symm, by rw [← h.1]; exact hu⟩
    · obtain ⟨e, he, h1⟩ := complex_mem m lo hi h
      exact ⟨e, by simp [he], h1⟩

/-- the standardized draw lies within the standardized bounds exactly if the sample is within the bounds -/
theorem within_pos (mean sd : K) (h : 0 < sd) (lower upper : Ext K) (z : K) :
    Within (standardize mean sd lower) (standardize mean sd upper) z ↔ Within lower upper (mean + sd * z) := by
  have e1 : ∀ x, (x - mean) / sd ≤ z ↔ x ≤ mean + sd * z := by
    intro x; rw [div_le_iff₀ h, mul_comm]; constructor <;> intro <;> linarith
  have e2 : ∀ x, z ≤ (x - mean) / sd ↔ mean + sd * z ≤ x := by
    intro x; rw [le_div_iff₀ h, mul_comm]; constructor <;> intro <;> linarith
  unfold Within
  cases lower <;> cases upper <;> simp [standardize, h, Ext.le, e1, e2]

/-- with a negative standard deviation the bounds are exchanged -/
theorem within_neg (mean sd : K) (h : sd < 0) (lower upper : Ext K) (z : K) :
    Within (standardize mean sd lower) (standardize mean sd upper) z ↔ Within upper lower (mean + sd * z) := by
  have e1 : ∀ x, (x - mean) / sd ≤ z ↔ mean + sd * z ≤ x := by
    intro x; rw [div_le_iff_of_neg h, mul_comm]; constructor <;> intro <;> linarith
  have e2 : ∀ x, z ≤ (x - mean) / sd ↔ x ≤ mean + sd * z := by
    intro x; rw [le_div_iff_of_neg h, mul_comm]; constructor <;> intro <;> linarith
  unfold Within
  cases lower <;> cases upper <;> simp [standardize, not_lt.2 h.le, Ext.le, e1, e2, and_comm]

theorem le_trans' {a b c : Ext K} (h : a.le b = true) (h' : b.le c = true) : a.le c = true := by
  cases a <;> cases b <;> cases c <;> simp_all [Ext.le]
  exact h.trans h'

/-- Within the standardized bounds is within the bounds, whatever the sign. -/
theorem within_of_std (mean sd : K) (h : sd ≠ 0) (lower upper : Ext K) (hle : lower.le upper = true) (z : K)
    (hz : Within (standardize mean sd lower) (standardize mean sd upper) z) :
    Within lower upper (mean + sd * z) := by
  rcases lt_or_gt_of_ne h with hn | hp
  · obtain ⟨h1, h2⟩ := (within_neg mean sd hn lower upper z).1 hz
    exact ⟨le_trans' hle h1, le_trans' h2 hle⟩
  · exact (within_pos mean sd hp lower upper z).1 hz

theorem construct_zero (m : Math K) (mean : K) (lower upper : Ext K) :
    construct m mean 0 lower upper = .ok ⟨mean, 0, .fin 0, .fin 0, .none⟩ := by
  unfold construct; rw [if_pos abs_zero]

/-- what the constructor leaves: the standardized bounds, unless they were mirrored -/
theorem construct_inv {m : Math K} {mean sd : K} (h0 : sd ≠ 0) {lower upper : Ext K} {d : Dist K}
    (h : construct m mean sd lower upper = .ok d) :
    d.mean = mean ∧ d.case ≠ .none ∧
    ((d.stddev = sd ∧ d.stdLower = standardize mean sd lower ∧ d.stdUpper = standardize mean sd upper ∧
        (d.case = .type2 → d.stdUpper = .posInf) ∧
        (d.case = .type1 ↔ Within (standardize mean sd lower) (standardize mean sd upper) 0)) ∨
     (d.stddev = -sd ∧ d.stdLower = (standardize mean sd upper).neg ∧ standardize mean sd lower = .negInf ∧
        d.stdUpper = .posInf ∧ d.case = .type2 ∧ (standardize mean sd upper).lt (.fin 0) = true)) := by
  unfold construct at h
  rw [if_neg (fun e => h0 (abs_eq_zero.1 e))] at h
  dsimp only at h
  generalize hlo : standardize mean sd lower = lo at h ⊢
  generalize hhi : standardize mean sd upper = hi at h ⊢
  unfold Within
  by_cases c3 : hi.lt (.fin 0) = true ∧ lo = .negInf
  · simp only [if_pos c3, chooseComplex] at h
    simp [Out.assert_true] at h
    subst h
    exact ⟨by dsimp only; split_ifs <;> rfl, by simp, .inr ⟨rfl, rfl, c3.2, rfl, rfl, c3.1⟩⟩
  · simp only [if_neg c3] at h
    by_cases c1 : (Ext.fin 0).le hi = true ∧ lo.le (.fin 0) = true
    · have c2 : ¬ ((Ext.fin 0).lt lo = true ∧ hi = .posInf) := by
        intro c; have := c.1; simp [Ext.lt, c1.2] at this
      have c4 : ¬ ((hi.lt (.fin 0) = true ∨ (Ext.fin 0).lt lo = true) ∧ ¬ (hi = .posInf ∨ lo = .negInf)) := by
        intro c; have := c.1; simp [Ext.lt, c1.1, c1.2] at this
      simp only [if_pos c1, if_neg c2, chooseComplex, if_neg c4] at h
      simp [Out.assert_true] at h
      subst h
      exact ⟨rfl, by simp, .inl ⟨rfl, rfl, rfl, by simp, by simp [c1]⟩⟩
    · simp only [if_neg c1] at h
      by_cases c2 : (Ext.fin 0).lt lo = true ∧ hi = .posInf
      · have c4 : ¬ ((hi.lt (.fin 0) = true ∨ (Ext.fin 0).lt lo = true) ∧ ¬ (hi = .posInf ∨ lo = .negInf)) :=
          fun c => c.2 (.inl c2.2)
        simp only [if_pos c2, chooseComplex, if_neg c4] at h
        simp [Out.assert_true] at h
        subst h
        exact ⟨rfl, by simp, .inl ⟨rfl, rfl, rfl, fun _ => c2.2, by simp [and_comm] at c1 ⊢; exact c1⟩⟩
      · simp only [if_neg c2] at h
        cases hc : chooseComplex m lo hi with
        | none =>
          rw [hc] at h
          simp [Out.assert_false] at h
        | some c =>
          have hcc : c = .type3 ∨ c = .type4 := by
            unfold chooseComplex at hc
            split at hc
            · split at hc
              · split at hc <;> simp at hc <;> simp [← hc]
              · simp at hc; simp [← hc]
            · simp at hc
          rw [hc] at h
          dsimp only at h
          rw [Out.assert_true (by rcases hcc with e | e <;> simp [e]), Out.bind_ok] at h
          injection h with h
          subst h
          refine ⟨rfl, ?_, .inl ⟨rfl, rfl, rfl, ?_, ?_⟩⟩
          · rcases hcc with e | e <;> simp [e]
          · rcases hcc with e | e <;> simp [e]
          · have : ¬ (lo.le (.fin 0) = true ∧ (Ext.fin 0).le hi = true) := fun e => c1 ⟨e.2, e.1⟩
            rcases hcc with e | e <;> simp [e] <;> simpa using this

/-- A distribution that was constructed with bounds in order, and whose mean is within them if the standard
deviation is zero, only yields samples within the bounds, whatever the random distributions deliver, unless
it works by rejection from the uniform distribution (the fourth case; see `C45_uniform_rejection_wrong`). -/
theorem C45_within_partial (m : Math K) (hs : IsSqrt m.sqrt) (mean sd : K) (lower upper : Ext K)
    (hle : lower.le upper = true) (h0 : sd = 0 → Within lower upper mean) (d : Dist K)
    (h : construct m mean sd lower upper = .ok d) (hc : d.case ≠ .type4) (ds : List (Draw K))
    (hd : ∀ e ∈ ds, Legal lower upper e) (x : K) (rest : List (Draw K))
    (hx : sample m d ds = some (x, rest)) : Within lower upper x := by
  by_cases hz : sd = 0
  · subst hz
    rw [construct_zero] at h
    injection h with h
    subst h
    simp only [sample, Option.some.injEq, Prod.mk.injEq] at hx
    rw [← hx.1]; exact h0 rfl
  have he : ∀ e ∈ ds, 0 ≤ e.exponential := fun e he => (hd e he).1
  obtain ⟨hm, hnn, hcases⟩ := construct_inv hz h
  rcases hcases with ⟨e1, e2, e3, e4, -⟩ | ⟨e1, e2, e3, e4, e5, e6⟩
  · have goal : ∀ z, Within d.stdLower d.stdUpper z → Within lower upper (d.mean + d.stddev * z) := by
      intro z hw
      rw [e2, e3] at hw
      rw [hm, e1]
      exact within_of_std mean sd hz lower upper hle z hw
    unfold sample at hx
    dsimp only at hx
    cases hcase : d.case with
    | none => exact absurd hcase hnn
    | type4 => exact absurd hcase hc
    | type1 =>
      simp only [hcase, Option.map_eq_some_iff, Prod.mk.injEq, Prod.exists] at hx
      obtain ⟨z, r, h1, h2, -⟩ := hx
      rw [← h2]; exact goal z (naive_within _ _ h1)
    | type2 =>
      simp only [hcase] at hx
      cases hl : d.stdLower with
      | negInf => simp [hl] at hx
      | posInf => simp [hl] at hx
      | fin lo =>
        simp only [hl, Option.map_eq_some_iff, Prod.mk.injEq, Prod.exists] at hx
        obtain ⟨z, r, h1, h2, -⟩ := hx
        rw [← h2]
        refine goal z ?_
        rw [hl, e4 hcase]
        exact ⟨by simpa [Ext.le] using (simple_ge hs lo he h1).1, by simp [Ext.le]⟩
    | type3 =>
      simp only [hcase] at hx
      cases hl : d.stdLower with
      | negInf => simp [hl] at hx
      | posInf => simp [hl] at hx
      | fin lo =>
        simp only [hl, Option.map_eq_some_iff, Prod.mk.injEq, Prod.exists] at hx
        obtain ⟨z, r, h1, h2, -⟩ := hx
        rw [← h2]
        refine goal z ?_
        obtain ⟨g1, g2⟩ := simpleBelow_within hs lo _ ds he h1
        rw [hl]
        exact ⟨by simpa [Ext.le] using g1, g2⟩
  · unfold sample at hx
    simp only [e5] at hx
    cases hl : d.stdLower with
    | negInf => simp [hl] at hx
    | posInf => simp [hl] at hx
    | fin lo =>
      simp only [hl, Option.map_eq_some_iff, Prod.mk.injEq, Prod.exists] at hx
      obtain ⟨z, r, h1, h2, -⟩ := hx
      have g := (simple_ge hs lo he h1).1
      have hw : Within (standardize mean sd lower) (standardize mean sd upper) (-z) := by
        rw [e3]
        rw [hl] at e2
        cases hu : standardize mean sd upper with
        | negInf => simp [hu, Ext.neg] at e2
        | posInf => simp [hu, Ext.neg] at e2
        | fin u =>
          simp only [hu, Ext.neg, Ext.fin.injEq] at e2
          refine ⟨by simp [Ext.le], ?_⟩
          simp only [Ext.le, decide_eq_true_eq]
          linarith
      have := within_of_std mean sd hz lower upper hle (-z) hw
      rw [← h2, hm, e1]
      have e : mean + -sd * z = mean + sd * -z := by ring
      rw [e]; exact this

/-- With a positive standard deviation and bounds in order, construction succeeds, and the method follows
from where the mean lies: naive rejection exactly if it is within the bounds; otherwise the one-sided method
exactly if one of the bounds is infinite. A zero standard deviation always yields the mean. -/
theorem C45_method (m : Math K) (mean sd : K) (lower upper : Ext K) (hle : lower.le upper = true) :
    (0 < sd → ∃ d, construct m mean sd lower upper = .ok d ∧
      (d.case = .type1 ↔ Within lower upper mean) ∧
      (d.case = .type2 ↔ ¬ Within lower upper mean ∧ (lower = .negInf ∨ upper = .posInf)) ∧
      (d.case = .type3 ∨ d.case = .type4 ↔
        ¬ Within lower upper mean ∧ lower ≠ .negInf ∧ upper ≠ .posInf)) ∧
    (∀ d, construct m mean 0 lower upper = .ok d → ∀ ds, sample m d ds = some (mean, ds)) := by
  constructor
  · intro hp
    have hz : |sd| ≠ 0 := fun e => absurd (abs_eq_zero.1 e) (ne_of_gt hp)
    have w := within_pos mean sd hp lower upper 0
    rw [mul_zero, add_zero] at w
    unfold construct
    rw [if_neg hz]
    dsimp only
    rw [← w]
    have i1 : standardize mean sd lower = .negInf ↔ lower = .negInf := by
      cases lower <;> simp [standardize, hp]
    have i2 : standardize mean sd upper = .posInf ↔ upper = .posInf := by
      cases upper <;> simp [standardize, hp]
    have hle' : (standardize mean sd lower).le (standardize mean sd upper) = true := by
      cases lower <;> cases upper <;> simp_all [standardize, Ext.le]
      rw [div_le_div_iff_of_pos_right hp]; linarith
    rw [ne_eq, ne_eq, ← i1, ← i2]
    generalize standardize mean sd lower = lo at *
    generalize standardize mean sd upper = hi at *
    unfold Within chooseComplex
    cases lo with
    | negInf =>
      cases hi with
      | negInf => simp [Ext.lt, Ext.le, Out.assert_true, Ext.neg]
      | posInf => simp [Ext.lt, Ext.le, Out.assert_true]
      | fin u => by_cases hu : 0 ≤ u <;> simp [Ext.lt, Ext.le, Out.assert_true, Ext.neg, hu]
    | posInf =>
      cases hi with
      | negInf => simp [Ext.le] at hle'
      | posInf => simp [Ext.lt, Ext.le, Out.assert_true]
      | fin u => simp [Ext.le] at hle'
    | fin l =>
      cases hi with
      | negInf => simp [Ext.le] at hle'
      | posInf => by_cases hl : l ≤ 0 <;> simp [Ext.lt, Ext.le, Out.assert_true, hl]
      | fin u =>
        by_cases hl : l ≤ 0 <;> by_cases hu : 0 ≤ u <;> by_cases hc : checkSimple m l u = true <;>
          simp [Ext.lt, Ext.le, Out.assert_true, hl, hu, hc]
  · intro d h ds
    rw [construct_zero] at h
    injection h with h
    subst h
    simp [sample]

/-- Naive rejection (the mean is within the bounds): the sample is the first `mean + stddev * normal` that
lies within the bounds, so one such draw is enough. -/
theorem C45_naive (m : Math K) (mean sd : K) (h : 0 < sd) (lower upper : Ext K)
    (hm : Within lower upper mean) (d : Dist K) (hd : construct m mean sd lower upper = .ok d)
    (pre : List (Draw K)) (e : Draw K) (post : List (Draw K))
    (hpre : ∀ x ∈ pre, ¬ Within lower upper (mean + sd * x.normal))
    (he : Within lower upper (mean + sd * e.normal)) :
    sample m d (pre ++ e :: post) = some (mean + sd * e.normal, post) := by
  obtain ⟨h1, -, h3⟩ := construct_inv (ne_of_gt h) hd
  have w0 : Within (standardize mean sd lower) (standardize mean sd upper) 0 := by
    rw [within_pos mean sd h, mul_zero, add_zero]; exact hm
  rcases h3 with ⟨e1, e2, e3, -, e5⟩ | ⟨-, -, -, -, -, e6⟩
  · have hc := e5.2 w0
    unfold sample
    simp only [hc, e2, e3, e1, h1]
    suffices hh : ∀ pre : List (Draw K), (∀ x ∈ pre, ¬ Within lower upper (mean + sd * x.normal)) →
        naive (standardize mean sd lower) (standardize mean sd upper) (pre ++ e :: post) =
          some (e.normal, post) by
      rw [hh pre hpre]; rfl
    intro pre
    induction pre with
    | nil =>
      intro _
      have := (within_pos mean sd h lower upper e.normal).2 he
      rw [List.nil_append, naive, if_pos ⟨this.2, this.1⟩]
    | cons x xs ih =>
      intro hx
      have : ¬ ((Ext.fin x.normal).le (standardize mean sd upper) = true ∧
          (standardize mean sd lower).le (.fin x.normal) = true) := fun c =>
        hx x (by simp) ((within_pos mean sd h lower upper x.normal).1 ⟨c.2, c.1⟩)
      rw [List.cons_append, naive, if_neg this]
      exact ih (fun y hy => hx y (by simp [hy]))
  · have := w0.2
    simp [Ext.lt, this] at e6

/-- With a negative standard deviation and the mean strictly inside the bounds, the standardized bounds are
out of order and the uniform rejection is used instead of the naive method. -/
theorem C45_negative_deviation (m : Math K) (mean sd lower upper : K) (h : sd < 0) (h1 : lower < mean)
    (h2 : mean < upper) (hs : checkSimple m ((lower - mean) / sd) ((upper - mean) / sd) = false) :
    ∃ d, construct m mean sd (.fin lower) (.fin upper) = .ok d ∧ d.case = .type4 := by
  have a1 : 0 < (lower - mean) / sd := div_pos_of_neg_of_neg (by linarith) h
  have a2 : (upper - mean) / sd < 0 := div_neg_of_pos_of_neg (by linarith) h
  unfold construct
  rw [if_neg (fun e => absurd (abs_eq_zero.1 e) (ne_of_lt h))]
  simp [standardize, chooseComplex, Ext.lt, Ext.le, hs, not_le.2 a1, not_le.2 a2, Out.assert_true]

/-- What rejection from the uniform distribution really yields: a draw from between the bounds that were
given, scaled once more. It is within the bounds for the standard normal distribution. -/
theorem C45_uniform_rejection (m : Math K) (mean sd : K) (h0 : sd ≠ 0) (lower upper : Ext K) (d : Dist K)
    (h : construct m mean sd lower upper = .ok d) (hc : d.case = .type4) (ds : List (Draw K))
    (hd : ∀ e ∈ ds, Legal lower upper e) (x : K) (rest : List (Draw K))
    (hx : sample m d ds = some (x, rest)) :
    ∃ z, Within lower upper z ∧ x = mean + sd * z := by
  obtain ⟨h1, -, h3⟩ := construct_inv h0 h
  rcases h3 with ⟨e1, -⟩ | ⟨-, -, -, -, e5, -⟩
  · unfold sample at hx
    simp only [hc] at hx
    split at hx
    · simp only [Option.map_eq_some_iff, Prod.mk.injEq, Prod.exists] at hx
      obtain ⟨z, r, g1, g2, -⟩ := hx
      obtain ⟨e, he, g3, -⟩ := complex_mem m _ _ g1
      exact ⟨z, by rw [g3]; exact (hd e he).2, by rw [← g2, h1, e1]⟩
    · simp at hx
  · rw [hc] at e5; cases e5

end

/-- The property is false of the code. With mean 10, standard deviation 1 and bounds 11 and 11.1, the
rejection from the uniform distribution is used, and every sample is above the upper bound. -/
theorem C45_uniform_rejection_wrong :
    ∃ d : Dist ℝ, construct ⟨Real.sqrt, Real.exp⟩ 10 1 (.fin 11) (.fin 11.1) = .ok d ∧
      (∀ ds x rest, (∀ e ∈ ds, Legal (.fin 11) (.fin 11.1) e) →
        sample ⟨Real.sqrt, Real.exp⟩ d ds = some (x, rest) → 11.1 < x) ∧
      ∃ ds x rest, (∀ e ∈ ds, Legal (.fin 11) (.fin 11.1) e) ∧
        sample ⟨Real.sqrt, Real.exp⟩ d ds = some (x, rest) := by
  have hs : checkSimple (⟨Real.sqrt, Real.exp⟩ : Math ℝ) ((11 - 10) / 1) ((11.1 - 10) / 1) = false := by
    unfold checkSimple
    simp only [decide_eq_false_iff_not, not_lt]
    have n1 : ((11 : ℝ) - 10) / 1 = 1 := by norm_num
    have n2 : ((11.1 : ℝ) - 10) / 1 = 1.1 := by norm_num
    rw [n1, n2]
    have q1 : Real.sqrt (1 ^ 2 + 4) ≤ 2.25 := by
      rw [Real.sqrt_le_left (by norm_num)]; norm_num
    have q0 : 0 ≤ Real.sqrt (1 ^ 2 + 4) := Real.sqrt_nonneg _
    have q2 : 1 ≤ Real.sqrt (Real.exp 1) := by
      rw [Real.one_le_sqrt]; exact Real.one_le_exp (by norm_num)
    have v1 : 0.6 ≤ 2 * Real.sqrt (Real.exp 1) / (1 + Real.sqrt (1 ^ 2 + 4)) := by
      rw [le_div_iff₀ (by linarith)]; linarith
    have v2 : 0.6 ≤ Real.exp ((1 ^ 2 - 1 * Real.sqrt (1 ^ 2 + 4)) / 4) := by
      have := Real.add_one_le_exp ((1 ^ 2 - 1 * Real.sqrt (1 ^ 2 + 4)) / 4)
      linarith
    have := mul_le_mul v1 v2 (by norm_num) (le_trans (by norm_num) v1)
    linarith
  have hcon : construct (⟨Real.sqrt, Real.exp⟩ : Math ℝ) 10 1 (.fin 11) (.fin 11.1) =
      .ok ⟨10, 1, .fin ((11 - 10) / 1), .fin ((11.1 - 10) / 1), .type4⟩ := by
    unfold construct
    rw [if_neg (by norm_num)]
    have hs' := hs
    simp only [div_one] at hs'
    simp [standardize, chooseComplex, Ext.lt, Ext.le, Out.assert_true, hs',
      show ¬ ((11 : ℝ) - 10 ≤ 0) by norm_num]
  refine ⟨_, hcon, ?_, ?_⟩
  · intro ds x rest hd hx
    obtain ⟨z, hz, rfl⟩ := C45_uniform_rejection _ 10 1 one_ne_zero _ _ _ hcon rfl ds hd x rest hx
    have := hz.1
    simp only [Ext.le, decide_eq_true_eq] at this
    norm_num at this ⊢
    linarith
  · refine ⟨[⟨0, 0, 0, 11⟩], 10 + 1 * 11, [], ?_, ?_⟩
    · intro e he
      simp only [List.mem_singleton] at he
      subst he
      refine ⟨le_refl _, ?_, ?_⟩
      · simp [Ext.le]
      · simp only [Ext.le, decide_eq_true_eq]; norm_num
    · simp only [sample, complex]
      rw [if_pos]
      · rfl
      · unfold rhoComplex
        split
        · exact (Real.exp_pos _).le
        · split
          · exact (Real.exp_pos _).le
          · split
            · exact (Real.exp_pos _).le
            · exact le_refl _

/-- The functions of the real numbers meet the hypotheses of the theorems above. -/
example : IsSqrt Real.sqrt := fun x hx => ⟨Real.sqrt_nonneg x, Real.mul_self_sqrt hx⟩

/-- A distribution with the mean inside the bounds, and one with an infinite bound that is mirrored. -/
example : construct (⟨id, id⟩ : Math ℚ) 0 2 (.fin (-1)) (.fin 3) =
      .ok ⟨0, 2, .fin (-1 / 2), .fin (3 / 2), .type1⟩ ∧
    construct (⟨id, id⟩ : Math ℚ) 0 2 .negInf (.fin (-4)) = .ok ⟨0, -2, .fin 2, .posInf, .type2⟩ ∧
    Within (.fin (-1)) (.fin 3) (0 : ℚ) := by
  refine ⟨by decide +kernel, by decide +kernel, by decide +kernel, by decide +kernel⟩

end Verif.TruncatedNormal
