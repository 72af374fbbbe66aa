import Verif.Model.RoundedChecks
import Verif.Props.AnglesRounded
import Verif.Props.RoundedMath

/-!
# Properties C179 and C180 (math_helpers.hpp): angle range checks and the standard deviation with rounding
-/
namespace Verif.RoundedMath
open Verif

variable (R : Rounding)

open Verif.Angles (Principal SameAngle Ccw)

/-- Both angles may be brought into the principal range first. -/
theorem signed_enforced {pi : ℝ} (hp : 0 < pi) (fpi : R.Fp pi) {a b : ℝ} (fa : R.Fp a) (fb : R.Fp b) :
    signedDistance R pi (enforceBounds R pi a) (enforceBounds R pi b) = signedDistance R pi a b := by
  obtain ⟨-, p1, -, -, -⟩ := C159_wrap R pi hp fpi a fa
  obtain ⟨-, p2, -, -, -⟩ := C159_wrap R pi hp fpi b fb
  obtain ⟨f1, -⟩ := C159_wrap R pi hp fpi a fa
  obtain ⟨f2, -⟩ := C159_wrap R pi hp fpi b fb
  have e1 := (C159_wrap R pi hp fpi _ f1).2.2.2.2 p1
  have e2 := (C159_wrap R pi hp fpi _ f2).2.2.2.2 p2
  unfold signedDistance
  rw [e1, e2]

/-- **C179.** The check compares the computed range up to the angle with the range given. -/
theorem C179_range (pi : ℝ) (hp : 0 < pi) (fpi : R.Fp pi) (start range val : ℝ) (fs : R.Fp start) (fv : R.Fp val) :
    checkInRange R pi start range val = decide (getRange R pi start val ≤ range) := by
  unfold checkInRange getRange
  simp only [signed_enforced R hp fpi fs fv]
  split <;> rfl

/-- **C179.** Both ends are within the bounds, however the range is rounded; of two angles one is within the bounds given by the
other; what is within the bounds of something within the bounds is within them. -/
theorem C179_bounds (pi : ℝ) (hp : 0 < pi) (fpi : R.Fp pi) (start a b c : ℝ) (fs : R.Fp start) (fa : R.Fp a)
    (fb : R.Fp b) :
    checkInBounds R pi start a start = true ∧ checkInBounds R pi start a a = true ∧
    (checkInBounds R pi start a b = true ∨ checkInBounds R pi start b a = true) ∧
    (checkInBounds R pi start b a = true → checkInBounds R pi start c b = true →
      checkInBounds R pi start c a = true) := by
  unfold checkInBounds
  rw [C179_range R pi hp fpi _ _ _ fs fs, C179_range R pi hp fpi _ _ _ fs fa, C179_range R pi hp fpi _ _ _ fs fb,
    C179_range R pi hp fpi _ _ _ fs fa, C179_range R pi hp fpi _ _ _ fs fb, C179_range R pi hp fpi _ _ _ fs fa]
  simp only [decide_eq_true_eq]
  refine ⟨?_, le_refl _, ?_, fun h1 h2 => le_trans h1 h2⟩
  · have h0 : getRange R pi start start = 0 := by
      have : signedDistance R pi start start = 0 := by
        have h := (C159_distance R pi hp fpi start start fs fs).2.2.2.2.1 ⟨0, by simp⟩
        exact abs_eq_zero.1 h
      unfold getRange
      simp [this]
    rw [h0]
    exact (C159_range R pi hp fpi start a fs fa).1
  · exact le_total _ _

/-- **C179.** When the wrapped angles differ by at most half a turn, the computed range is at most `4 * unit * π` off. -/
theorem C179_near (pi : ℝ) (hp : 0 < pi) (fpi : R.Fp pi) (start val c : ℝ) (fs : R.Fp start) (fv : R.Fp val)
    (hc : Ccw pi start val c)
    (h : Principal pi (Angles.enforceBounds pi val - Angles.enforceBounds pi start)) :
    |getRange R pi start val - c| ≤ 4 * unit * pi ∧
    ∀ range, (c + 4 * unit * pi ≤ range → checkInRange R pi start range val = true) ∧
      (range + 4 * unit * pi < c → checkInRange R pi start range val = false) := by
  have hu := Rounding.unit_pos
  have key : |getRange R pi start val - c| ≤ 4 * unit * pi := by
    have hex := (Angles.C71_range_partial pi hp start val c hc).1 h
    rw [← hex]
    have hs := signed_eq R hp fpi fs fv
    have hsE : Angles.signedDistance pi start val = Angles.enforceBounds pi val - Angles.enforceBounds pi start := by
      rw [signed_exact]
      rcases fold_cases (pi := pi) (Angles.enforceBounds pi val - Angles.enforceBounds pi start) with
        ⟨-, -, e⟩ | ⟨e, -⟩ | ⟨e, -, -⟩
      · exact e
      · exact absurd h.1 (not_lt.2 e)
      · exact absurd h.2 (not_le.2 e)
    generalize Angles.enforceBounds pi val - Angles.enforceBounds pi start = x at *
    obtain ⟨h1, h2⟩ := h
    have b1 : R.rd x ≤ pi := by have := R.mono h2; rwa [fpi] at this
    have b2 : -pi ≤ R.rd x := by
      have := R.mono h1.le
      rw [R.odd] at this
      rwa [fpi] at this
    have hxe := R.err x
    have hxa : |x| ≤ pi := abs_le.2 ⟨h1.le, h2⟩
    have hxe' : |R.rd x - x| ≤ unit * pi := le_trans hxe (mul_le_mul_of_nonneg_left hxa hu.le)
    have hR := C159_range R pi hp fpi start val fs fv
    rcases eq_or_lt_of_le b2 with hb | hb
    · -- the difference was rounded to -pi
      have hfold : signedDistance R pi start val = -pi := by
        rw [hs, ← hb]
        rcases fold_cases (pi := pi) (-pi) with ⟨c1, -, -⟩ | ⟨-, e⟩ | ⟨c1, -, -⟩
        · linarith
        · rw [e]; ring
        · linarith
      obtain ⟨hr1, -⟩ := hR.2.2.2 (by rw [hfold]; linarith)
      rw [hfold] at hr1
      have hxneg : x < 0 := by
        by_contra hx
        have := R.nonneg (not_lt.1 hx)
        linarith
      have hE : Angles.getRange pi start val = 2 * pi + x := by
        unfold Angles.getRange
        simp only [hsE]
        rw [if_neg (not_le.2 hxneg)]
      rw [hE]
      rw [← hb] at hxe'
      rw [abs_le] at hr1 hxe' ⊢
      constructor <;> nlinarith [hr1.1, hr1.2, hxe'.1, hxe'.2]
    · have hfold : signedDistance R pi start val = R.rd x := by
        rw [hs]
        rcases fold_cases (pi := pi) (R.rd x) with ⟨-, -, e⟩ | ⟨c1, -⟩ | ⟨c1, -, -⟩
        · exact e
        · linarith
        · linarith
      by_cases hx : 0 ≤ x
      · have hx' := R.nonneg hx
        rw [hR.2.2.1 (by rw [hfold]; exact hx'), hfold]
        have hE : Angles.getRange pi start val = x := by
          unfold Angles.getRange
          simp only [hsE]
          rw [if_pos hx]
        rw [hE]
        refine le_trans hxe' ?_
        nlinarith [mul_pos hu hp]
      · have hx1 := not_le.1 hx
        have hx' : R.rd x < 0 := by
          refine lt_of_le_of_ne ?_ (fun e => ?_)
          · have := R.mono hx1.le; rwa [R.zero] at this
          · rw [R.eq_zero] at e; linarith
        obtain ⟨hr1, -⟩ := hR.2.2.2 (by rw [hfold]; exact hx')
        rw [hfold] at hr1
        have hE : Angles.getRange pi start val = 2 * pi + x := by
          unfold Angles.getRange
          simp only [hsE]
          rw [if_neg hx]
        rw [hE]
        rw [abs_le] at hr1 hxe' ⊢
        constructor <;> nlinarith [hr1.1, hr1.2, hxe'.1, hxe'.2, mul_pos hu hp]
  refine ⟨key, fun range => ⟨fun hr => ?_, fun hr => ?_⟩⟩
  · rw [C179_range R pi hp fpi _ _ _ fs fv, decide_eq_true_eq]
    have := (abs_le.1 key).2
    linarith
  · rw [C179_range R pi hp fpi _ _ _ fs fv, decide_eq_false_iff_not, not_le]
    have := (abs_le.1 key).1
    linarith

theorem deviation_squared (mean : ℝ) : ∀ (values : List ℝ) (sum : ℝ),
    squaredLoop R sum (List.replicate values.length mean) values = .ok (deviationLoop R mean sum values)
  | [], _ => rfl
  | v :: vs, sum => by
    rw [List.length_cons, List.replicate_succ, squaredLoop, deviation_squared mean vs, deviationLoop]

theorem zip_replicate (mean : ℝ) : ∀ values : List ℝ,
    List.zipWith (fun x y => (y - x) ^ 2) (List.replicate values.length mean) values =
      values.map fun v => (v - mean) ^ 2
  | [] => rfl
  | v :: vs => by
    rw [List.length_cons, List.replicate_succ, List.zipWith_cons_cons, zip_replicate mean vs, List.map_cons]

/-- **C180.** The computed standard deviation about a given mean. -/
theorem C180_given (values : List ℝ) (mean : ℝ) (h2 : 2 ≤ values.length) (hn : values.length ≤ 2 ^ 53) :
    ∃ d, stdDevWithMean R values mean = .ok d ∧ 0 ≤ d ∧ (d = 0 ↔ ∀ v ∈ values, v = mean) ∧
      (values.map fun v => (v - mean) ^ 2).sum / ((values.length : ℝ) - 1) * (1 - unit) ^ (values.length + 7) ≤ d ^ 2 ∧
      d ^ 2 ≤ (values.map fun v => (v - mean) ^ 2).sum / ((values.length : ℝ) - 1) *
        (1 + unit) ^ (values.length + 7) := by
  have hu := Rounding.unit_pos
  have hu1 := unit_small
  obtain ⟨s, e1, -, s0, -, sz, sL, sU⟩ := squaredLoop_spec R (List.replicate values.length mean) values 0
    (by simp) (le_refl _)
  rw [deviation_squared] at e1
  simp only [Out.ok.injEq] at e1
  rw [exactSquares, zip_replicate] at sL sU
  simp only [List.length_replicate, zero_mul, zero_add] at sL sU
  have hm : ((values.length - 1 : Nat) : ℝ) = (values.length : ℝ) - 1 := by
    rw [Nat.cast_sub (by omega)]; simp
  have hm1 : (1 : ℝ) ≤ (values.length : ℝ) - 1 := by
    have : (2 : ℝ) ≤ (values.length : ℝ) := by exact_mod_cast h2
    linarith
  have hint : R.rd ((values.length - 1 : Nat) : ℝ) = (values.length : ℝ) - 1 := by
    have := R.int ((values.length - 1 : Nat) : ℤ) (by
      rw [Int.abs_natCast]
      have : (2 : ℤ) ^ 53 = ((2 ^ 53 : Nat) : ℤ) := by norm_num
      rw [this]
      exact_mod_cast (by omega : values.length - 1 ≤ 2 ^ 53))
    rw [← hm]
    exact_mod_cast this
  set S := (values.map fun v => (v - mean) ^ 2).sum with hS
  set m := (values.length : ℝ) - 1 with hmdef
  have hmpos : 0 < m := by linarith
  have i0 : 0 ≤ 1 / m := by positivity
  have iU := R.upper i0
  have iL := R.lower i0
  have inn := R.nonneg i0
  have p0 : 0 ≤ s * R.rd (1 / m) := mul_nonneg s0 inn
  have pU := R.upper p0
  have pL := R.lower p0
  have pnn := R.nonneg p0
  have q0 := Real.sqrt_nonneg (R.rd (s * R.rd (1 / m)))
  have hsq := Real.sq_sqrt pnn
  have qU := R.upper q0
  have qL := R.lower q0
  have qnn := R.nonneg q0
  have hSn : 0 ≤ S := by
    rw [hS]
    exact List.sum_nonneg (by intro z hz; obtain ⟨v, -, rfl⟩ := List.mem_map.1 hz; exact sq_nonneg _)
  have w0 : 0 ≤ 1 - unit := by linarith
  refine ⟨R.rd (Real.sqrt (R.rd (s * R.rd (1 / m)))), ?_, qnn, ?_, ?_, ?_⟩
  · unfold stdDevWithMean
    simp only [Out.assert_true, show 0 < values.length by omega, hint, e1]
    simp [show ¬ values.length = 1 by omega]
  · rw [R.eq_zero, Real.sqrt_eq_zero pnn, R.eq_zero, mul_eq_zero, R.eq_zero]
    have hne : ¬ (1 / m = 0) := by positivity
    simp only [hne, or_false]
    rw [sz]
    simp only [true_and]
    constructor
    · intro h v hv
      rw [← h] at hv
      exact (List.mem_replicate.1 hv).2
    · intro h
      exact (List.eq_replicate_iff.2 ⟨rfl, h⟩).symm
  · have a1 : S * (1 - unit) ^ (values.length + 3) * (1 / m * (1 - unit)) ≤ s * R.rd (1 / m) :=
      mul_le_mul sL iL (mul_nonneg i0 w0) s0
    have a2 : S * (1 - unit) ^ (values.length + 3) * (1 / m * (1 - unit)) * (1 - unit) ≤ R.rd (s * R.rd (1 / m)) :=
      le_trans (mul_le_mul_of_nonneg_right a1 w0) pL
    have a3 : R.rd (s * R.rd (1 / m)) * (1 - unit) ^ 2 ≤ R.rd (Real.sqrt (R.rd (s * R.rd (1 / m)))) ^ 2 := by
      have := pow_le_pow_left₀ (mul_nonneg q0 w0) qL 2
      rwa [mul_pow, hsq] at this
    have a4 := mul_le_mul_of_nonneg_right a2 (sq_nonneg (1 - unit))
    have e : S / m * (1 - unit) ^ (values.length + 7) =
        S * (1 - unit) ^ (values.length + 3) * (1 / m * (1 - unit)) * (1 - unit) * (1 - unit) ^ 2 := by
      rw [div_eq_mul_one_div]; ring
    rw [e]
    exact le_trans a4 a3
  · have w1 : 0 ≤ 1 + unit := by linarith
    have a1 : s * R.rd (1 / m) ≤ S * (1 + unit) ^ (values.length + 3) * (1 / m * (1 + unit)) :=
      mul_le_mul sU iU inn (mul_nonneg hSn (pow_nonneg w1 _))
    have a2 : R.rd (s * R.rd (1 / m)) ≤ S * (1 + unit) ^ (values.length + 3) * (1 / m * (1 + unit)) * (1 + unit) :=
      le_trans pU (mul_le_mul_of_nonneg_right a1 w1)
    have a3 : R.rd (Real.sqrt (R.rd (s * R.rd (1 / m)))) ^ 2 ≤ R.rd (s * R.rd (1 / m)) * (1 + unit) ^ 2 := by
      have := pow_le_pow_left₀ qnn qU 2
      rwa [mul_pow, hsq] at this
    have a4 := mul_le_mul_of_nonneg_right a2 (sq_nonneg (1 + unit))
    have e : S / m * (1 + unit) ^ (values.length + 7) =
        S * (1 + unit) ^ (values.length + 3) * (1 / m * (1 + unit)) * (1 + unit) * (1 + unit) ^ 2 := by
      rw [div_eq_mul_one_div]; ring
    rw [e]
    exact le_trans a3 a4

/-- **C179.** The answer depends on the angles only, not on which of the doubles of an angle are given. -/
theorem C179_turns (pi : ℝ) (hp : 0 < pi) (fpi : R.Fp pi) (start start' range val val' : ℝ) (fs : R.Fp start)
    (fs' : R.Fp start') (fv : R.Fp val) (fv' : R.Fp val') (hs : SameAngle pi start start')
    (hv : SameAngle pi val val') :
    checkInRange R pi start range val = checkInRange R pi start' range val' := by
  have same : ∀ a b : ℝ, R.Fp a → R.Fp b → SameAngle pi a b → enforceBounds R pi a = enforceBounds R pi b := by
    intro a b fa fb h
    rw [(enforce_exact R hp fpi fa).1, (enforce_exact R hp fpi fb).1]
    obtain ⟨p, q⟩ := Angles.enforce_spec hp b
    exact (Angles.C46_wrap pi hp a).2.2.1 _ p (h.trans q)
  unfold checkInRange
  rw [same _ _ fs fs' hs, same _ _ fv fv' hv]

theorem sum_shift (r m : ℝ) : ∀ values : List ℝ,
    (values.map fun v => (v - m) ^ 2).sum =
      (values.map fun v => (v - r) ^ 2).sum + 2 * (r - m) * (values.sum - values.length * r) +
        values.length * (r - m) ^ 2
  | [] => by simp
  | v :: vs => by
    simp only [List.map_cons, List.sum_cons, List.length_cons]
    rw [sum_shift r m vs]
    push_cast
    ring

/-- **C180.** No values abort; the deviation of one value is zero; otherwise the result is zero exactly if all the values are the
same, and its square is the sample variance up to the factors of the roundings and the error of the computed mean. -/
theorem C180_deviation (values : List ℝ) (fv : ∀ v ∈ values, R.Fp v) (hn : values.length ≤ 2 ^ 40) :
    (values = [] → stdDev R values = .abort ∧ ∀ m, stdDevWithMean R values m = .abort) ∧
    (values.length = 1 → stdDev R values = .ok 0 ∧ ∀ m, stdDevWithMean R values m = .ok 0) ∧
    (2 ≤ values.length → ∃ d, stdDev R values = .ok d ∧ 0 ≤ d ∧ (d = 0 ↔ ∀ a ∈ values, ∀ b ∈ values, a = b) ∧
      ∀ mean M, mean * (values.length : ℝ) = values.sum → (∀ v ∈ values, |v| ≤ M) →
        (values.map fun v => (v - mean) ^ 2).sum / ((values.length : ℝ) - 1) * (1 - unit) ^ (values.length + 7) ≤ d ^ 2 ∧
        d ^ 2 ≤ ((values.map fun v => (v - mean) ^ 2).sum +
          (values.length : ℝ) * (20 * (values.length : ℝ) * unit * M) ^ 2) / ((values.length : ℝ) - 1) *
            (1 + unit) ^ (values.length + 7)) := by
  have hu := Rounding.unit_pos
  have hu1 := unit_small
  refine ⟨?_, ?_, ?_⟩
  · rintro rfl
    exact ⟨rfl, fun m => rfl⟩
  · intro h1
    have hw : ∀ m, stdDevWithMean R values m = .ok 0 := by
      intro m
      unfold stdDevWithMean
      rw [Out.assert_true (by omega), Out.bind_ok, if_pos h1]
    obtain ⟨v, rfl⟩ := List.length_eq_one_iff.1 h1
    obtain ⟨rE, hE⟩ := (Averages.C48_aborts (K := ℝ) [v] []).2.1 (by
      rw [ne_eq, (Averages.C48_aborts (K := ℝ) [v] []).1]; simp)
    obtain ⟨r, hr, -⟩ := (C160_average R [v] [] fv (by simp) hn).2 rE hE
    refine ⟨?_, hw⟩
    unfold stdDev
    rw [hr, Out.bind_ok, hw]
  · intro h2
    have hne : values ≠ [] := by rintro rfl; simp at h2
    obtain ⟨rE, hE, hsum, -⟩ := Averages.C48_unweighted (K := ℝ) values hne
    obtain ⟨r, hr, hnear, hsame⟩ := (C160_average R values [] fv (by simp) hn).2 rE hE
    obtain ⟨d, hd, d0, dz, dL, dU⟩ := C180_given R values r h2 (le_trans hn (by norm_num))
    have hlen : (2 : ℝ) ≤ (values.length : ℝ) := by exact_mod_cast h2
    refine ⟨d, ?_, d0, ?_, ?_⟩
    · unfold stdDev
      rw [hr, Out.bind_ok, hd]
    · rw [dz]
      constructor
      · intro h a ha b hb
        rw [h a ha, h b hb]
      · intro h v hv
        exact (hsame v (fun x hx => h x hx v hv)).symm
    · intro mean M hmean hM
      have hmE : mean = rE := by
        have : mean * (values.length : ℝ) = rE * (values.length : ℝ) := by rw [hmean, hsum]
        exact mul_right_cancel₀ (by positivity) this
      subst hmE
      obtain ⟨v0, hv0⟩ := List.exists_mem_of_ne_nil _ hne
      have hM0 : 0 ≤ M := le_trans (abs_nonneg _) (hM v0 hv0)
      obtain ⟨-, -, herr⟩ := hnear (-M) M M (by rw [abs_neg, abs_of_nonneg hM0]) (by rw [abs_of_nonneg hM0])
        (fun v hv => abs_le.1 (hM v hv))
      have hs := sum_shift mean r values
      rw [← hmean, show mean * (values.length : ℝ) - values.length * mean = 0 by ring, mul_zero, add_zero] at hs
      have hm1 : 0 < (values.length : ℝ) - 1 := by linarith
      constructor
      · refine le_trans ?_ dL
        refine mul_le_mul_of_nonneg_right ?_ (pow_nonneg (by linarith) _)
        refine div_le_div_of_nonneg_right ?_ hm1.le
        rw [hs]
        nlinarith [sq_nonneg (mean - r)]
      · refine le_trans dU ?_
        refine mul_le_mul_of_nonneg_right ?_ (pow_nonneg (by linarith) _)
        refine div_le_div_of_nonneg_right ?_ hm1.le
        rw [hs]
        have hq : (mean - r) ^ 2 ≤ (20 * (values.length : ℝ) * unit * M) ^ 2 := by
          rw [abs_sub_comm] at herr
          rw [← sq_abs]
          exact pow_le_pow_left₀ (abs_nonneg _) herr 2
        nlinarith [hq]

/-- The hypotheses can be met. -/
example : ∃ d, stdDev Nearest.nearest [1, 2, 5] = .ok d ∧ 0 < d := by
  have f1 : Nearest.nearest.Fp 1 := by simpa using Nearest.nearest.fp_int 1 (by norm_num)
  have f2 : Nearest.nearest.Fp 2 := by simpa using Nearest.nearest.fp_int 2 (by norm_num)
  have f5 : Nearest.nearest.Fp 5 := by simpa using Nearest.nearest.fp_int 5 (by norm_num)
  obtain ⟨d, h1, h2, h3, -⟩ := (C180_deviation Nearest.nearest [1, 2, 5] (by simp [f1, f2, f5]) (by norm_num)).2.2
    (by norm_num)
  refine ⟨d, h1, lt_of_le_of_ne h2 fun e => ?_⟩
  have := h3.1 e.symm 1 (by simp) 2 (by simp)
  norm_num at this

/-- The hypotheses can be met: a turn from 1 to 2 is within a range of 3 but not within one of a half. -/
example : checkInRange Nearest.nearest mPi 1 3 2 = true ∧ checkInRange Nearest.nearest mPi 1 (1 / 2) 2 = false := by
  have f1 : Nearest.nearest.Fp 1 := by simpa using Nearest.nearest.fp_int 1 (by norm_num)
  have f2 : Nearest.nearest.Fp 2 := by simpa using Nearest.nearest.fp_int 2 (by norm_num)
  have hp : 0 < mPi := by unfold mPi; norm_num
  have e1 : Angles.enforceBounds mPi 1 = 1 :=
    (Angles.C46_wrap mPi hp 1).2.2.1 1 (by unfold Principal mPi; norm_num) (Angles.SameAngle.refl _ _)
  have e2 : Angles.enforceBounds mPi 2 = 2 :=
    (Angles.C46_wrap mPi hp 2).2.2.1 2 (by unfold Principal mPi; norm_num) (Angles.SameAngle.refl _ _)
  have h := (C179_near Nearest.nearest mPi hp (fp_mPi _) 1 2 1 f1 f2
    ⟨by norm_num, by unfold mPi; norm_num, 0, by norm_num⟩ (by rw [e1, e2]; unfold Principal mPi; norm_num)).2
  have hu : 4 * unit * mPi ≤ 1 / 4 := by unfold unit mPi; norm_num
  exact ⟨(h 3).1 (by linarith), (h (1 / 2)).2 (by linarith)⟩

end Verif.RoundedMath
