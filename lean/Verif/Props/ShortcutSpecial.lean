import Verif.Model.PathSpecial
import Verif.Props.PathUtils
import Verif.Props.MathSpecial

/-!
# Property C193 (path_utils.hpp): shortcut smoothing with special doubles
-/
namespace Verif.PathSpecial
open Verif
open Verif.PathUtils (Consecutive Check)
open Verif.Voxel (int64 truncate)
open Verif.VoxelSpecial (toInt64)

variable {C : Type} (A : Ieee)

/-! ## Fractions for which there is no uniform distribution -/

theorem interval_iff (m : Dbl) : (Ieee.le (Ieee.neg m) m ∧ (A.sub m (Ieee.neg m)).Finite) ↔
    ∃ x, m = .num x ∧ 0 ≤ x ∧ |A.R.rd (2 * x)| ≤ A.top := by
  cases m with
  | nan => constructor <;> [exact fun h => h.1.elim; (rintro ⟨x, h, _⟩; cases h)]
  | inf s =>
    constructor
    · rintro ⟨_, z, h⟩
      cases s <;> simp [Ieee.neg, Ieee.sub] at h
    · rintro ⟨x, h, _⟩; cases h
  | num x =>
    have e : x - -x = 2 * x := by ring
    constructor
    · rintro ⟨h, z, hz⟩
      have h : -x ≤ x := h
      refine ⟨x, rfl, by linarith, ?_⟩
      simp only [Ieee.neg, Ieee.sub] at hz
      rw [e] at hz
      rcases A.round_cases (2 * x) with ⟨_, g⟩ | ⟨⟨s, g⟩, _⟩
      · exact g
      · rw [g] at hz; cases hz
    · rintro ⟨y, h, h0, ht⟩
      injection h with h
      subst h
      refine ⟨show -x ≤ x by linarith, A.R.rd (2 * x), ?_⟩
      simp only [Ieee.neg, Ieee.sub]
      rw [e]
      exact A.round_eq ht

/-- **C193.** A fraction that is not a number, infinite, negative, or so large that twice the fraction overflows makes
smoothing undefined, as soon as there is something to smooth. -/
theorem C193_undefined (path : List C) (maxIterations maxFailed : Nat) (maxFraction : Dbl) (valid : Nat → C → C → Bool)
    (draw : Nat → Nat → Nat × Dbl) (h : ¬ ∃ x, maxFraction = .num x ∧ 0 ≤ x ∧ |A.R.rd (2 * x)| ≤ A.top) :
    shortcutSmoothPath A path maxIterations maxFailed maxFraction valid draw =
      if 2 < path.length ∧ 0 < maxIterations ∧ 0 < maxFailed then .ub else .ok (path, []) := by
  unfold shortcutSmoothPath
  cases maxIterations with
  | zero => rw [if_neg (by omega)]; rfl
  | succ n =>
    rw [shortcutLoop]
    by_cases hc : 0 < maxFailed ∧ path.length > 2
    · rw [if_pos hc, if_pos (fun g => h ((interval_iff A _).1 g)), if_pos ⟨hc.2, by omega, hc.1⟩]
    · rw [if_neg hc, if_neg (by omega)]

/-! ## Numbers: the same steps as with exact arithmetic, for other draws -/

/-- a draw of exact arithmetic with the same effect -/
noncomputable def exactDraw (draw : Nat → Nat → Nat × Dbl) (i n : Nat) : Nat × ℝ :=
  ((draw i n).1, match (draw i n).2 with
    | .num f => A.R.rd (A.R.rd (n : ℝ) * f) / n
    | _ => 0)

theorem shortcut_agrees (maxFailed : Nat) (m : ℝ) (hm0 : 0 ≤ m) (ht : |A.R.rd (2 * m)| ≤ A.top)
    (valid : Nat → C → C → Bool) (draw : Nat → Nat → Nat × Dbl) (size : Nat) (hsize : size < 2 ^ 62)
    (hm : (size : ℝ) * m < 2 ^ 61)
    (hd : ∀ i n, 0 < n → (draw i n).1 < n ∧ ∃ f, (draw i n).2 = .num f ∧ |f| ≤ m) :
    ∀ (left i failed : Nat) (path : List C) (log : List (Check C)), path.length ≤ size →
      shortcutLoop A maxFailed (.num m) valid draw left i failed path log =
      PathUtils.shortcutLoop maxFailed (2 * m) valid (exactDraw A draw) left i failed path log := by
  intro left
  induction left with
  | zero => intro i failed path log _; rfl
  | succ left ih =>
    intro i failed path log hl
    rw [shortcutLoop, PathUtils.shortcutLoop]
    by_cases hc : failed < maxFailed ∧ path.length > 2
    · rw [if_pos hc, if_pos hc, if_neg (not_not.2 ((interval_iff A _).2 ⟨m, rfl, hm0, ht⟩)), if_neg (by linarith)]
      obtain ⟨hb, f, hf, hfm⟩ := hd i path.length (by omega)
      have hn0 : (0 : ℝ) < (path.length : ℝ) := by exact_mod_cast (by omega : 0 < path.length)
      have hnb : (path.length : ℝ) ≤ size := by exact_mod_cast hl
      have hsz : (path.length : ℝ) ≤ 2 ^ 62 := by exact_mod_cast (by omega : path.length ≤ 2 ^ 62)
      have er : A.round (path.length : ℝ) = .num (A.R.rd path.length) :=
        A.round_small (by rw [abs_of_pos hn0]; exact le_trans hsz (by norm_num))
      have hrd : A.R.rd (path.length : ℝ) ≤ path.length * (1 + unit) := A.R.upper hn0.le
      have hrd0 : 0 ≤ A.R.rd (path.length : ℝ) := A.R.nonneg hn0.le
      have hu : unit = 1 / 2 ^ 53 := rfl
      have hprod : |A.R.rd (path.length : ℝ) * f| ≤ 2 ^ 62 := by
        rw [abs_mul, abs_of_nonneg hrd0]
        have h1 : A.R.rd (path.length : ℝ) * |f| ≤ path.length * (1 + unit) * m :=
          mul_le_mul hrd hfm (abs_nonneg f) (by rw [hu]; positivity)
        have h2 : (path.length : ℝ) * m ≤ size * m := mul_le_mul_of_nonneg_right hnb hm0
        have h3 : 0 ≤ (path.length : ℝ) * m := by positivity
        rw [hu] at h1
        nlinarith
      have em : A.mul (A.round (path.length : ℝ)) (draw i path.length).2 =
          .num (A.R.rd (A.R.rd (path.length : ℝ) * f)) := by
        rw [er, hf]
        show A.round _ = _
        exact A.round_small (le_trans hprod (by norm_num))
      have ee : (exactDraw A draw i path.length) = ((draw i path.length).1, A.R.rd (A.R.rd (path.length : ℝ) * f) / path.length) := by
        unfold exactDraw
        rw [hf]
      dsimp only
      rw [em, ee]
      dsimp only
      rw [mul_div_cancel₀ _ hn0.ne']
      show (truncate _ >>= _) = (truncate _ >>= _)
      refine congrArg _ (funext fun shift => ?_)
      refine congrArg _ (funext fun offset => ?_)
      cases hcl : Clamp.clampValue offset 0 ((path.length : Int) - 1) with
      | throws e => rfl
      | abort => rfl
      | ub => rfl
      | ok safe =>
        rw [Out.bind_ok, Out.bind_ok]
        by_cases hs : (max ((draw i path.length).1 : Int) safe).toNat ≤ (min ((draw i path.length).1 : Int) safe).toNat + 1
        · rw [if_pos hs, if_pos hs]
          exact ih _ _ _ _ hl
        · rw [if_neg hs, if_neg hs]
          cases path[(min ((draw i path.length).1 : Int) safe).toNat]? with
          | none => rfl
          | some a =>
            cases path[(max ((draw i path.length).1 : Int) safe).toNat]? with
            | none => rfl
            | some b =>
              dsimp only
              split
              · refine ih _ _ _ _ ?_
                rw [List.length_append, List.length_take, List.length_drop]
                omega
              · exact ih _ _ _ _ hl
    · rw [if_neg hc, if_neg hc]

/-- **C193.** With a number as the fraction, products of path length and fraction below `2 ^ 61`, and draws within the
bounds, smoothing does what it does with exact arithmetic, whatever rounding and overflow make of the fractions that
are drawn: it returns a part of the path, in order and with the same ends; states that follow each other in it did so
before or were approved by the validity check; the number of checks and of failed checks is bounded, and every approved
check shortens the path. -/
theorem C193_shortcut (path : List C) (maxIterations maxFailed : Nat) (m : ℝ) (valid : Nat → C → C → Bool)
    (draw : Nat → Nat → Nat × Dbl) (hm0 : 0 ≤ m) (ht : |A.R.rd (2 * m)| ≤ A.top) (hlen : path.length < 2 ^ 62)
    (hsize : (path.length : ℝ) * m < 2 ^ 61)
    (hd : ∀ i n, 0 < n → (draw i n).1 < n ∧ ∃ f, (draw i n).2 = .num f ∧ |f| ≤ m) :
    ∃ result log, shortcutSmoothPath A path maxIterations maxFailed (.num m) valid draw = .ok (result, log) ∧
      result.Sublist path ∧ result.head? = path.head? ∧ result.getLast? = path.getLast? ∧
      (∀ a b, Consecutive result a b → Consecutive path a b ∨ Check.mk a b true ∈ log) ∧
      (∀ (k : Nat) (c : Check C), log[k]? = some c → c.answer = valid k c.start c.stop) ∧
      log.length ≤ maxIterations ∧ (log.filter (! ·.answer)).length ≤ maxFailed ∧
      result.length + (log.filter (·.answer)).length ≤ path.length := by
  have hu : unit = 1 / 2 ^ 53 := rfl
  have hd' : ∀ i n, 0 < n → (exactDraw A draw i n).1 < n ∧ |(exactDraw A draw i n).2| ≤ 2 * m := by
    intro i n hn
    obtain ⟨hb, f, hf, hfm⟩ := hd i n hn
    refine ⟨hb, ?_⟩
    unfold exactDraw
    rw [hf]
    dsimp only
    have hn0 : (0 : ℝ) < (n : ℝ) := by exact_mod_cast hn
    have hrd : A.R.rd (n : ℝ) ≤ n * (1 + unit) := A.R.upper hn0.le
    have hrd0 : 0 ≤ A.R.rd (n : ℝ) := A.R.nonneg hn0.le
    rw [abs_div, abs_of_pos hn0, div_le_iff₀ hn0]
    have h1 : |A.R.rd (n : ℝ) * f| ≤ n * (1 + unit) * m := by
      rw [abs_mul, abs_of_nonneg hrd0]
      exact mul_le_mul hrd hfm (abs_nonneg f) (by rw [hu]; positivity)
    have h2 : |A.R.rd (A.R.rd (n : ℝ) * f)| ≤ |A.R.rd (n : ℝ) * f| * (1 + unit) := by
      have := A.R.err (A.R.rd (n : ℝ) * f)
      have h3 := abs_sub_abs_le_abs_sub (A.R.rd (A.R.rd (n : ℝ) * f)) (A.R.rd (n : ℝ) * f)
      linarith
    have h3 : 0 ≤ (n : ℝ) * m := by positivity
    rw [hu] at h1 h2
    nlinarith [abs_nonneg (A.R.rd (n : ℝ) * f)]
  obtain ⟨result, log, g, g1, g2, g3, g4, g5, g6, g7, g8, -⟩ := PathUtils.C49_shortcut path maxIterations maxFailed
    (2 * m) valid (exactDraw A draw) (by linarith) (by linarith) hlen hd'
  refine ⟨result, log, ?_, g1, g2, g3, g4, g5, g6, g7, g8⟩
  rw [← g]
  exact shortcut_agrees A maxFailed m hm0 ht valid draw path.length hlen hsize hd _ _ _ _ _ (le_refl _)

/-- **C193.** Where there is nothing to smooth the path is returned as it is, whatever the fraction is. -/
theorem C193_unchanged (path : List C) (maxIterations maxFailed : Nat) (maxFraction : Dbl)
    (valid : Nat → C → C → Bool) (draw : Nat → Nat → Nat × Dbl)
    (h : path.length ≤ 2 ∨ maxIterations = 0 ∨ maxFailed = 0) :
    shortcutSmoothPath A path maxIterations maxFailed maxFraction valid draw = .ok (path, []) := by
  unfold shortcutSmoothPath
  cases maxIterations with
  | zero => rfl
  | succ n => rw [shortcutLoop, if_neg (by omega)]

/-- **C193.** A fraction that passes is not enough: if the path has `n > 2` states and a number is drawn whose product with
`n` is `2 ^ 63` or more, then smoothing is undefined. -/
theorem C193_too_large (path : List C) (maxIterations maxFailed : Nat) (m : ℝ) (valid : Nat → C → C → Bool)
    (draw : Nat → Nat → Nat × Dbl) (hm0 : 0 ≤ m) (ht : |A.R.rd (2 * m)| ≤ A.top)
    (hlen : 2 < path.length) (hlen' : path.length ≤ 2 ^ 53) (hi : 0 < maxIterations) (hf : 0 < maxFailed) (f : ℝ)
    (hd : (draw 0 path.length).2 = .num f) (hbig : 2 ^ 63 ≤ (path.length : ℝ) * f) :
    shortcutSmoothPath A path maxIterations maxFailed (.num m) valid draw = .ub := by
  unfold shortcutSmoothPath
  obtain ⟨n, rfl⟩ : ∃ n, maxIterations = n + 1 := ⟨maxIterations - 1, by omega⟩
  rw [shortcutLoop, if_pos ⟨hf, hlen⟩, if_neg (not_not.2 ((interval_iff A _).2 ⟨m, rfl, hm0, ht⟩)), hd]
  have er0 : A.R.rd (path.length : ℝ) = path.length := by
    have := A.R.int (path.length : ℤ) (by rw [abs_of_nonneg (by omega)]; omega)
    simpa using this
  have hn0 : (0 : ℝ) < (path.length : ℝ) := by exact_mod_cast (by omega : 0 < path.length)
  have hsz : (path.length : ℝ) ≤ 2 ^ 53 := by exact_mod_cast hlen'
  have er : A.round (path.length : ℝ) = .num path.length := by
    rw [A.round_small (by rw [abs_of_pos hn0]; exact le_trans hsz (by norm_num)), er0]
  rw [er]
  have hge : (2 : ℝ) ^ 63 ≤ A.R.rd ((path.length : ℝ) * f) := by
    have e : A.R.rd ((2 : ℝ) ^ 63) = 2 ^ 63 := by
      have := A.R.fixed 1 63 (by norm_num)
      simpa using this
    have := A.R.mono hbig
    rwa [e] at this
  have : toInt64 (A.mul (.num path.length) (.num f)) = .ub := by
    show toInt64 (A.round _) = _
    rcases A.round_cases ((path.length : ℝ) * f) with ⟨e, _⟩ | ⟨⟨s, e⟩, _⟩
    · rw [e]
      show truncate _ = _
      unfold truncate int64
      have h0 : (0 : ℝ) ≤ A.R.rd ((path.length : ℝ) * f) := le_trans (by norm_num) hge
      rw [if_pos h0, if_neg]
      rintro ⟨_, h⟩
      have h2 := Int.floor_lt.1 h
      push_cast at h2
      linarith
    · rw [e]; rfl
  dsimp only
  rw [this]
  rfl

/-! ## Cases that meet the hypotheses -/

/-- A fraction that is not a number, for three states. -/
example : shortcutSmoothPath MathSpecial.exIeee [1, 2, 3] 5 5 .nan (fun _ _ _ => true) (fun _ _ => (0, .nan)) = .ub := by
  rw [C193_undefined _ _ _ _ _ _ _ (by rintro ⟨x, h, _⟩; cases h), if_pos (by simp)]

/-- Three states and the fraction one half. -/
example : ∃ result log, shortcutSmoothPath MathSpecial.exIeee [1, 2, 3] 5 5 (.num (1 / 2)) (fun _ _ _ => true)
    (fun _ _ => (0, .num (1 / 4))) = .ok (result, log) ∧ result.Sublist [1, 2, 3] := by
  obtain ⟨r, l, h, g, -⟩ := C193_shortcut MathSpecial.exIeee [1, 2, 3] 5 5 (1 / 2) (fun _ _ _ => true)
    (fun _ _ => (0, .num (1 / 4))) (by norm_num) (by
      rw [show (2 : ℝ) * (1 / 2) = 1 by norm_num, MathSpecial.exIeee.R.fp_one, abs_one]
      exact le_trans (by norm_num) MathSpecial.exIeee.large) (by simp) (by norm_num)
    (fun i n hn => ⟨hn, 1 / 4, rfl, by rw [abs_of_pos] <;> norm_num⟩)
  exact ⟨r, l, h, g⟩

end Verif.PathSpecial
