import Verif.Lemmas.VectorMath
import Verif.Spec.VectorMath

/-!
# C126: arithmetic on pairs and vectors
-/
namespace Verif.VectorMath
open Verif

/-! ### Exact numbers -/

/-- C126: on vectors of exact numbers every function works element by element; two vectors of different sizes give
the empty vector; `Sum` is the sum. -/
theorem C126_exact {K : Type} [Field K] [LinearOrder K] (u v : List K) (s : K) :
    absVec exact v = .ok (v.map fun x => |x|) ∧
    multiplyScalar exact v s = .ok (v.map (· * s)) ∧
    divideScalar exact v s = .ok (v.map (· / s)) ∧
    addScalar exact v s = .ok (v.map (· + s)) ∧
    subScalar exact v s = .ok (v.map (· - s)) ∧
    multiplyVecs exact u v = .ok (if u.length = v.length then List.zipWith (· * ·) u v else []) ∧
    divideVecs exact u v = .ok (if u.length = v.length then List.zipWith (· / ·) u v else []) ∧
    addVecs exact u v = .ok (if u.length = v.length then List.zipWith (· + ·) u v else []) ∧
    subVecs exact u v = .ok (if u.length = v.length then List.zipWith (· - ·) u v else []) ∧
    sum exact v = .ok v.sum := by
  have one : ∀ (l : List K) (g : K → K),
      fill (fun idx => do let a ← at' l idx; Out.ok (g a)) 0 (List.replicate l.length (0 : K)) = .ok (l.map g) := by
    intro l g
    rw [fill_one l (fun a => .ok (g a)) (fun _ => True) g 0 (fun _ _ => by simp)]
    simp
  have two : ∀ (g : K → K → K), (if u.length = v.length then
      fill (fun idx => do let a ← at' u idx; let b ← at' v idx; Out.ok (g a b)) 0 (List.replicate u.length (0 : K))
      else .ok []) = .ok (if u.length = v.length then List.zipWith g u v else []) := by
    intro g
    split_ifs with h
    · rw [fill_two u v (fun a b => .ok (g a b)) (fun _ _ => True) g 0 h (fun _ _ _ _ => by simp)]
      simp
    · rfl
  refine ⟨one v _, one v _, ?_, one v _, one v _, two _, two _, two _, two _, ?_⟩
  · refine (one v fun x => x * (1 / s)).trans ?_
    congr 2
    funext x
    rw [mul_one_div]
  · have : ∀ (l : List K) (a : K), sumLoop exact l a = .ok (a + l.sum) := by
      intro l
      induction l with
      | nil => intro a; simp [sumLoop]
      | cons x l ih =>
        intro a
        show (do let b ← Out.ok (a + x); sumLoop exact l b) = _
        rw [Out.bind_ok, ih, List.sum_cons, add_assoc]
    rw [sum, this]
    exact congrArg Out.ok (zero_add _)

example : divideScalar exact [(3 : ℚ), 1] 2 = .ok [3 / 2, 1 / 2] := (C126_exact [] [(3 : ℚ), 1] 2).2.2.1

/-- C126: on pairs of exact numbers every function works on both parts. -/
theorem C126_pairs {K : Type} [Field K] [LinearOrder K] (a b c d s : K) :
    absPair exact (a, b) = .ok (|a|, |b|) ∧
    multiplyPairScalar exact (a, b) s = .ok (a * s, b * s) ∧ multiplyPairs exact (a, b) (c, d) = .ok (a * c, b * d) ∧
    dividePairScalar exact (a, b) s = .ok (a / s, b / s) ∧ dividePairs exact (a, b) (c, d) = .ok (a / c, b / d) ∧
    addPairs exact (a, b) (c, d) = .ok (a + c, b + d) ∧ subPairs exact (a, b) (c, d) = .ok (a - c, b - d) :=
  ⟨rfl, rfl, rfl, rfl, rfl, rfl, rfl⟩

/-! ### Integers -/

theorem fit_eq (w : Nat) (x : Int) : fit w x = if Fits w x then .ok x else .ub := rfl

/-- C126: on vectors of integers `Abs`, `Add` and `Sub` with a number, `Sub` and `Divide` of two vectors give the
integer results element by element, the quotients truncated, if these all fit into a word and no divisor is zero;
otherwise they are undefined. Vectors of different sizes give the empty vector. -/
theorem C126_words (w : Nat) (u v : List Int) (s : Int) :
    (absVec (words w) v = if ∀ x ∈ v, x < 0 → Fits w (-x) then .ok (v.map fun x => |x|) else .ub) ∧
    (addScalar (words w) v s = if ∀ x ∈ v, Fits w (x + s) then .ok (v.map (· + s)) else .ub) ∧
    (subScalar (words w) v s = if ∀ x ∈ v, Fits w (x - s) then .ok (v.map (· - s)) else .ub) ∧
    (u.length = v.length → subVecs (words w) u v =
      if ∀ p ∈ u.zip v, Fits w (p.1 - p.2) then .ok (List.zipWith (· - ·) u v) else .ub) ∧
    (u.length = v.length → divideVecs (words w) u v =
      if ∀ p ∈ u.zip v, p.2 ≠ 0 ∧ Fits w (p.1.tdiv p.2) then .ok (List.zipWith Int.tdiv u v) else .ub) ∧
    (u.length ≠ v.length → subVecs (words w) u v = .ok [] ∧ divideVecs (words w) u v = .ok [] ∧
      multiplyVecs (words w) u v = .ok []) := by
  refine ⟨?_, ?_, ?_, ?_, ?_, ?_⟩
  · refine (fill_one v (words w).abs (fun x => x < 0 → Fits w (-x)) (fun x => |x|) 0 ?_)
    intro x _
    show (if x < 0 then fit w (-x) else .ok x) = _
    by_cases h : x < 0
    · rw [if_pos h, fit_eq, abs_of_neg h]
      by_cases hf : Fits w (-x)
      · rw [if_pos hf, if_pos fun _ => hf]
      · rw [if_neg hf, if_neg fun h' => hf (h' h)]
    · rw [if_neg h, if_pos fun h' => absurd h' h, abs_of_nonneg (not_lt.mp h)]
  · exact fill_one v (fun x => (words w).add x s) (fun x => Fits w (x + s)) (· + s) 0 fun x _ => fit_eq _ _
  · exact fill_one v (fun x => (words w).sub x s) (fun x => Fits w (x - s)) (· - s) 0 fun x _ => fit_eq _ _
  · intro h
    unfold subVecs
    rw [if_pos h]
    exact fill_two u v (words w).sub (fun x y => Fits w (x - y)) (· - ·) 0 h fun x _ y _ => fit_eq _ _
  · intro h
    unfold divideVecs
    rw [if_pos h]
    refine fill_two u v (words w).div (fun x y => y ≠ 0 ∧ Fits w (x.tdiv y)) Int.tdiv 0 h fun x _ y _ => ?_
    show (if y = 0 then .ub else fit w (x.tdiv y)) = _
    by_cases h0 : y = 0
    · rw [if_pos h0, if_neg fun h' => h'.1 h0]
    · rw [if_neg h0, fit_eq]
      by_cases hf : Fits w (x.tdiv y)
      · rw [if_pos hf, if_pos ⟨h0, hf⟩]
      · rw [if_neg hf, if_neg fun h' => hf h'.2]
  · intro h
    exact ⟨if_neg h, if_neg h, if_neg h⟩

example : divideVecs (words 32) [7, -7] [2, 2] = .ok [3, -3] := by
  rw [(C126_words 32 [7, -7] [2, 2] 0).2.2.2.2.1 rfl]
  decide

/-- C126: the sum of a vector of integers is the sum if no partial sum leaves the words; otherwise it is undefined. -/
theorem C126_sum (w : Nat) (v : List Int) :
    ((∀ k, 0 < k → k ≤ v.length → Fits w (v.take k).sum) → sum (words w) v = .ok v.sum) ∧
    (¬ (∀ k, 0 < k → k ≤ v.length → Fits w (v.take k).sum) → sum (words w) v = .ub) := by
  have key : ∀ (l : List Int) (a : Int),
      ((∀ k, 0 < k → k ≤ l.length → Fits w (a + (l.take k).sum)) → sumLoop (words w) l a = .ok (a + l.sum)) ∧
      (¬ (∀ k, 0 < k → k ≤ l.length → Fits w (a + (l.take k).sum)) → sumLoop (words w) l a = .ub) := by
    intro l
    induction l with
    | nil =>
      intro a
      exact ⟨fun _ => by simp [sumLoop], fun h => absurd (fun k h1 h2 => absurd h2 (by simp; omega)) h⟩
    | cons x l ih =>
      intro a
      have step : sumLoop (words w) (x :: l) a = if Fits w (a + x) then sumLoop (words w) l (a + x) else .ub := by
        show (do let b ← fit w (a + x); sumLoop (words w) l b) = _
        rw [fit_eq]
        split_ifs
        · rw [Out.bind_ok]
        · rw [Out.bind_ub]
      have cond : (∀ k, 0 < k → k ≤ (x :: l).length → Fits w (a + ((x :: l).take k).sum)) ↔
          Fits w (a + x) ∧ ∀ k, 0 < k → k ≤ l.length → Fits w (a + x + (l.take k).sum) := by
        constructor
        · intro h
          refine ⟨by simpa using h 1 (by omega) (by simp), fun k h1 h2 => ?_⟩
          have := h (k + 1) (by omega) (by simp; omega)
          rwa [List.take_succ_cons, List.sum_cons, ← add_assoc] at this
        · rintro ⟨h0, h⟩ k h1 h2
          obtain ⟨k, rfl⟩ : ∃ j, k = j + 1 := ⟨k - 1, by omega⟩
          rw [List.take_succ_cons, List.sum_cons, ← add_assoc]
          rcases Nat.eq_zero_or_pos k with rfl | hk
          · simpa using h0
          · exact h k hk (by simp at h2; omega)
      rw [cond, step, List.sum_cons, ← add_assoc]
      constructor
      · rintro ⟨h0, h⟩
        rw [if_pos h0]
        exact (ih _).1 h
      · intro h
        by_cases h0 : Fits w (a + x)
        · rw [if_pos h0]
          exact (ih _).2 fun h' => h ⟨h0, h'⟩
        · rw [if_neg h0]
  have := key v 0
  simp only [zero_add] at this
  exact this

example : sum (words 32) [2147483647, -1, 1] = .ok 2147483647 := by
  refine (C126_sum 32 _).1 fun k h1 h2 => ?_
  have : k = 1 ∨ k = 2 ∨ k = 3 := by simp at h2; omega
  rcases this with rfl | rfl | rfl <;> decide

theorem fits_abs {w : Nat} {x : Int} (hw : w ≤ 53) (h : Fits w x) : |x| ≤ 2 ^ 52 := by
  have : (2 : Int) ^ (w - 1) ≤ 2 ^ 52 := pow_le_pow_right₀ (by norm_num) (by omega)
  rw [abs_le]
  exact ⟨by have := h.1; omega, by have := h.2; omega⟩

theorem truncate_int (w : Nat) (x : Int) : truncate w (some (x : ℚ)) = fit w x := by
  unfold truncate
  simp

theorem truncate_large {w : Nat} {x : ℚ} (hw : w ≤ 53) (h : 2 ^ 53 ≤ x ∨ x ≤ -2 ^ 53) : truncate w (some x) = .ub := by
  have hp : (2 : Int) ^ (w - 1) ≤ 2 ^ 52 := pow_le_pow_right₀ (by norm_num) (by omega)
  unfold truncate
  simp only
  rw [fit_eq, if_neg]
  rintro ⟨h1, h2⟩
  rcases h with h | h
  · rw [if_pos (le_trans (by norm_num) h)] at h2
    have : (2 : Int) ^ 53 ≤ ⌊x⌋ := Int.le_floor.mpr (by push_cast; exact h)
    omega
  · rw [if_neg (not_le.mpr (lt_of_le_of_lt h (by norm_num)))] at h1
    have h4 : ⌈x⌉ ≤ -2 ^ 53 := Int.ceil_le.mpr (by push_cast; exact h)
    omega

/-- The product of two words through `double` -/
theorem product_word {w : Nat} (hw : w ≤ 53) {x y : Int} (hx : Fits w x) (hy : Fits w y) :
    (words w).ofDouble ((words w).mulD ((words w).toDouble x) ((words w).toDouble y)) =
      if Fits w (x * y) then .ok (x * y) else .ub := by
  show truncate w (some (roundDouble (roundDouble (x : ℚ) * roundDouble (y : ℚ)))) = _
  have ax := fits_abs hw hx
  have ay := fits_abs hw hy
  rw [roundDouble_int x (by omega), roundDouble_int y (by omega), ← fit_eq]
  by_cases h : |x * y| ≤ 2 ^ 53
  · have := roundDouble_int (x * y) h
    push_cast at this
    rw [this]
    exact_mod_cast truncate_int w (x * y)
  · have hf : ¬ Fits w (x * y) := fun hf => h (by have := fits_abs hw hf; omega)
    rw [fit_eq, if_neg hf]
    apply truncate_large hw
    rcases lt_abs.mp (not_le.mp h) with h | h
    · left
      apply le_roundDouble
      exact_mod_cast h.le
    · right
      apply roundDouble_le
      have : x * y ≤ -2 ^ 53 := by omega
      exact_mod_cast this

/-- C126: for integers of at most 53 bits the detour of `Multiply` through `double` is not seen: the products are
exact if they all fit into a word, and otherwise the call is undefined, as integer multiplication is. -/
theorem C126_multiply (w : Nat) (hw : w ≤ 53) (u v : List Int) (s : Int) (hu : ∀ x ∈ u, Fits w x)
    (hv : ∀ x ∈ v, Fits w x) (hs : Fits w s) :
    (multiplyScalar (words w) v s = if ∀ x ∈ v, Fits w (x * s) then .ok (v.map (· * s)) else .ub) ∧
    (u.length = v.length → multiplyVecs (words w) u v =
      if ∀ p ∈ u.zip v, Fits w (p.1 * p.2) then .ok (List.zipWith (· * ·) u v) else .ub) := by
  constructor
  · exact fill_one v (fun x => (words w).ofDouble ((words w).mulD ((words w).toDouble x) ((words w).toDouble s)))
      (fun x => Fits w (x * s)) (· * s) 0 fun x hx => product_word hw (hv x hx) hs
  · intro h
    unfold multiplyVecs
    rw [if_pos h]
    exact fill_two u v (fun x y => (words w).ofDouble ((words w).mulD ((words w).toDouble x) ((words w).toDouble y)))
      (fun x y => Fits w (x * y)) (· * ·) 0 h fun x hx y hy => product_word hw (hu x hx) (hv y hy)

example : multiplyScalar (words 32) [46341, -2] 46340 = .ok [2147441940, -92680] := by
  rw [(C126_multiply 32 (by omega) [] [46341, -2] 46340 (by simp) (by decide) (by decide)).1]
  decide

/-- C126: with 64 bits `Multiply` is exact as long as numbers and products have at most 53 bits. -/
theorem C126_multiply_long (v : List Int) (s : Int) (hs : |s| ≤ 2 ^ 53)
    (hv : ∀ x ∈ v, |x| ≤ 2 ^ 53 ∧ |x * s| ≤ 2 ^ 53) : multiplyScalar (words 64) v s = .ok (v.map (· * s)) := by
  have := fill_one v (fun x => (words 64).ofDouble ((words 64).mulD ((words 64).toDouble x) ((words 64).toDouble s)))
      (fun _ => True) (· * s) 0 fun x hx => by
    rw [if_pos trivial]
    show truncate 64 (some (roundDouble (roundDouble (x : ℚ) * roundDouble (s : ℚ)))) = _
    obtain ⟨h1, h2⟩ := hv x hx
    have h3 := roundDouble_int (x * s) h2
    push_cast at h3
    rw [roundDouble_int x h1, roundDouble_int s hs, h3]
    have h4 := truncate_int 64 (x * s)
    push_cast at h4
    rw [h4, fit_eq, if_pos]
    rw [abs_le] at h2
    exact ⟨by omega, by omega⟩
  refine this.trans ?_
  rw [if_pos fun _ _ => trivial]

example : multiplyScalar (words 64) [2 ^ 40, -3] 5 = .ok [5497558138880, -15] := by
  rw [C126_multiply_long _ 5 (by norm_num) (by decide)]
  decide

theorem log_eq {x : ℚ} {e : Int} (h1 : 2 ^ e ≤ x) (h2 : x < 2 ^ (e + 1)) : Int.log 2 |x| = e := by
  have hpos : 0 < x := lt_of_lt_of_le (two_zpow_pos e) h1
  obtain ⟨h3, h4⟩ := log_abs_pos hpos.ne'
  rw [abs_of_pos hpos] at *
  have a := (zpow_lt_zpow_iff_right₀ (by norm_num : (1 : ℚ) < 2)).mp (lt_of_le_of_lt h1 h4)
  have b := (zpow_lt_zpow_iff_right₀ (by norm_num : (1 : ℚ) < 2)).mp (lt_of_le_of_lt h3 h2)
  omega

/-- Rounding of a number that is not half way between two doubles -/
theorem roundDouble_value {x : ℚ} {e n : Int} (h1 : 2 ^ e ≤ x) (h2 : x < 2 ^ (e + 1))
    (h3 : |x / 2 ^ (e - 52) - n| < 1 / 2) : roundDouble x = n * 2 ^ (e - 52) := by
  have hpos : 0 < x := lt_of_lt_of_le (two_zpow_pos e) h1
  unfold roundDouble
  rw [if_neg hpos.ne', log_eq h1 h2]
  simp only
  have h4 := nearest_near (x / 2 ^ (e - 52))
  rw [abs_lt] at h3
  rw [abs_le] at h4
  have a : (nearest (x / 2 ^ (e - 52)) : ℚ) < n + 1 := by linarith
  have b : (n : ℚ) - 1 < nearest (x / 2 ^ (e - 52)) := by linarith
  have a' : nearest (x / 2 ^ (e - 52)) < n + 1 := by exact_mod_cast a
  have b' : n - 1 < nearest (x / 2 ^ (e - 52)) := by exact_mod_cast b
  rw [show nearest (x / 2 ^ (e - 52)) = n by omega]

/-- C126 is false of integers with 64 bits: `Multiply({2^53 + 1}, 1)` is `{2^53}`. -/
theorem C126_multiply_long_wrong : multiplyScalar (words 64) [2 ^ 53 + 1] 1 = .ok [2 ^ 53] := by
  have hlog : Int.log 2 |((2 ^ 53 + 1 : Int) : ℚ)| = 53 := log_eq (by norm_num) (by norm_num)
  have h1 : roundDouble ((2 ^ 53 + 1 : Int) : ℚ) = 2 ^ 53 := by
    unfold roundDouble
    rw [if_neg (by norm_num), hlog]
    have e : (((2 ^ 53 + 1 : Int) : ℚ) / 2 ^ ((53 : Int) - 52)) = 4503599627370496 + 1 / 2 := by norm_num
    simp only [e]
    have hf : ⌊(4503599627370496 + 1 / 2 : ℚ)⌋ = 4503599627370496 := by
      rw [Int.floor_eq_iff]; norm_num
    rw [nearest, hf]
    norm_num
  have h2 : roundDouble ((1 : Int) : ℚ) = 1 := by exact_mod_cast roundDouble_int 1 (by norm_num)
  have h3 : roundDouble (2 ^ 53 : ℚ) = 2 ^ 53 := by
    have := roundDouble_int ((2 : Int) ^ 53) (by norm_num)
    rwa [Int.cast_pow, Int.cast_ofNat] at this
  have := fill_one [2 ^ 53 + 1]
      (fun x => (words 64).ofDouble ((words 64).mulD ((words 64).toDouble x) ((words 64).toDouble 1)))
      (fun _ => True) (fun _ => 2 ^ 53) 0 fun x hx => by
    rw [List.mem_singleton.mp hx, if_pos trivial]
    show truncate 64 (some (roundDouble (roundDouble ((2 ^ 53 + 1 : Int) : ℚ) * roundDouble ((1 : Int) : ℚ)))) = _
    rw [h1, h2, mul_one, h3]
    have h4 := truncate_int 64 ((2 : Int) ^ 53)
    rw [Int.cast_pow, Int.cast_ofNat] at h4
    rw [h4]
    rfl
  refine this.trans ?_
  rw [if_pos fun _ _ => trivial]
  rfl

/-! ### Division by a number -/

/-- The conversion to an integer, where it is defined -/
def chop (p : ℚ) : Int := if 0 ≤ p then ⌊p⌋ else ⌈p⌉

theorem chop_neg (p : ℚ) : chop (-p) = -chop p := by
  unfold chop
  rcases lt_trichotomy p 0 with h | h | h
  · rw [if_pos (by linarith), if_neg (by linarith), Int.floor_neg]
  · subst h; simp
  · rw [if_neg (by linarith), if_pos h.le, Int.ceil_neg]

theorem chop_base {x s : Int} {p : ℚ} (hx : 0 ≤ x) (hs : 0 < s) (h : |p * s - x| < 1) :
    (¬ s ∣ x → chop p = x.tdiv s) ∧ (chop p = x.tdiv s ∨ chop p = x.tdiv s - (x.tdiv s).sign) := by
  rw [abs_lt] at h
  obtain ⟨h1, h2⟩ := h
  have hsq : (1 : ℚ) ≤ s := by exact_mod_cast hs
  rw [Int.tdiv_eq_ediv_of_nonneg hx]
  have hd := Int.emod_add_mul_ediv x s
  have hm := Int.emod_nonneg x hs.ne'
  have hm' := Int.emod_lt_of_pos x hs
  have ht : 0 ≤ x / s := Int.ediv_nonneg hx hs.le
  generalize x / s = t at *
  have hdq : ((x % s : Int) : ℚ) + s * t = x := by exact_mod_cast hd
  have hmq' : ((x % s : Int) : ℚ) + 1 ≤ s := by exact_mod_cast hm'
  have htq : (0 : ℚ) ≤ t := by exact_mod_cast ht
  by_cases h0 : x % s = 0
  · have hdiv : s ∣ x := Int.dvd_of_emod_eq_zero h0
    rw [h0] at hdq
    push_cast at hdq
    refine ⟨fun h => absurd hdiv h, ?_⟩
    have hlo : (t : ℚ) - 1 < p := by nlinarith
    have hhi : p < t + 1 := by nlinarith
    rcases ht.eq_or_lt with ht0 | ht0
    · left
      subst ht0
      push_cast at hlo hhi
      unfold chop
      split_ifs with hp
      · rw [Int.floor_eq_iff]; push_cast; constructor <;> linarith
      · rw [Int.ceil_eq_iff]; push_cast; constructor <;> linarith
    · have ht1 : (1 : ℚ) ≤ t := by exact_mod_cast ht0
      have hp : 0 ≤ p := by linarith
      rw [Int.sign_eq_one_of_pos ht0]
      unfold chop
      rw [if_pos hp]
      by_cases hpt : (t : ℚ) ≤ p
      · left
        rw [Int.floor_eq_iff]; exact ⟨hpt, hhi⟩
      · right
        rw [Int.floor_eq_iff]; push_cast; constructor <;> linarith
  · have hm1 : (1 : ℚ) ≤ ((x % s : Int) : ℚ) := by
      have : 1 ≤ x % s := by omega
      exact_mod_cast this
    have hlo : (t : ℚ) < p := by nlinarith
    have hhi : p < t + 1 := by nlinarith
    have : chop p = t := by
      unfold chop
      rw [if_pos (by linarith), Int.floor_eq_iff]
      exact ⟨hlo.le, hhi⟩
    exact ⟨fun _ => this, Or.inl this⟩

theorem chop_quotient {x s : Int} {p : ℚ} (hs : s ≠ 0) (h : |p * s - x| < 1) :
    (¬ s ∣ x → chop p = x.tdiv s) ∧ (chop p = x.tdiv s ∨ chop p = x.tdiv s - (x.tdiv s).sign) := by
  have pos : ∀ {x s : Int} {p : ℚ}, 0 < s → |p * s - x| < 1 →
      (¬ s ∣ x → chop p = x.tdiv s) ∧ (chop p = x.tdiv s ∨ chop p = x.tdiv s - (x.tdiv s).sign) := by
    intro x s p hs h
    rcases le_total 0 x with hx | hx
    · exact chop_base hx hs h
    · have h' : |(-p) * s - ((-x : Int) : ℚ)| < 1 := by
        rw [← abs_neg] at h
        refine lt_of_eq_of_lt ?_ h
        congr 1; push_cast; ring
      have := chop_base (by omega) hs h'
      rw [chop_neg, Int.neg_tdiv, Int.sign_neg] at this
      refine ⟨fun hd => ?_, ?_⟩
      · have := this.1 (by rwa [Int.dvd_neg])
        omega
      · rcases this.2 with h | h
        · left; omega
        · right; omega
  rcases lt_or_gt_of_ne hs with hs | hs
  · have h' : |p * ((-s : Int) : ℚ) - ((-x : Int) : ℚ)| < 1 := by
      rw [← abs_neg] at h
      refine lt_of_eq_of_lt ?_ h
      congr 1; push_cast; ring
    have := pos (by omega) h'
    rwa [Int.neg_tdiv, Int.tdiv_neg, neg_neg, Int.neg_dvd, Int.dvd_neg] at this
  · exact pos hs h

/-- The quotient that the code computes is near. -/
theorem quotient_near {x s : Int} (hs : s ≠ 0) (hx : |x| ≤ 2 ^ 50) :
    |roundDouble ((x : ℚ) * roundDouble (1 / (s : ℚ))) * s - x| < 1 := by
  have hsq : (s : ℚ) ≠ 0 := by exact_mod_cast hs
  have hspos : (0 : ℚ) < |(s : ℚ)| := abs_pos.mpr hsq
  have hxq : |(x : ℚ)| ≤ 2 ^ 50 := by exact_mod_cast hx
  have h1 := roundDouble_near (1 / (s : ℚ))
  set r := roundDouble (1 / (s : ℚ))
  have h2 := roundDouble_near ((x : ℚ) * r)
  set p := roundDouble ((x : ℚ) * r)
  have e1 : |r * s - 1| ≤ 1 / 2 ^ 53 := by
    have : r * s - 1 = (r - 1 / s) * s := by field_simp
    rw [this, abs_mul]
    calc |r - 1 / (s : ℚ)| * |(s : ℚ)| ≤ |1 / (s : ℚ)| / 2 ^ 53 * |(s : ℚ)| := by gcongr
      _ = 1 / 2 ^ 53 := by rw [abs_div, abs_one]; field_simp
  have e2 : |r * s| ≤ 2 := by
    have : |r * s| ≤ |r * s - 1| + 1 := by
      calc |r * s| = |(r * s - 1) + 1| := by ring_nf
        _ ≤ |r * s - 1| + |(1 : ℚ)| := abs_add_le _ _
        _ = _ := by rw [abs_one]
    have h3 : (1 : ℚ) / 2 ^ 53 ≤ 1 := by norm_num
    linarith
  have e3 : |(p - x * r) * s| ≤ |(x : ℚ)| * 2 / 2 ^ 53 := by
    rw [abs_mul]
    calc |p - x * r| * |(s : ℚ)| ≤ |(x : ℚ) * r| / 2 ^ 53 * |(s : ℚ)| := by gcongr
      _ = |(x : ℚ)| * |r * s| / 2 ^ 53 := by rw [abs_mul, abs_mul]; ring
      _ ≤ _ := by gcongr
  have e4 : |(x : ℚ) * (r * s - 1)| ≤ |(x : ℚ)| * (1 / 2 ^ 53) := by
    rw [abs_mul]; gcongr
  calc |p * s - x| = |(p - x * r) * s + x * (r * s - 1)| := by congr 1; ring
    _ ≤ |(p - x * r) * s| + |(x : ℚ) * (r * s - 1)| := abs_add_le _ _
    _ ≤ 2 ^ 50 * 2 / 2 ^ 53 + 2 ^ 50 * (1 / 2 ^ 53) := by
      have a : |(x : ℚ)| * 2 / 2 ^ 53 ≤ 2 ^ 50 * 2 / 2 ^ 53 := by gcongr
      have b : |(x : ℚ)| * (1 / 2 ^ 53) ≤ 2 ^ 50 * (1 / 2 ^ 53) := by gcongr
      linarith
    _ < 1 := by norm_num

theorem quotient_code {w : Nat} {x s : Int} (hs : s ≠ 0) (hx : |x| ≤ 2 ^ 53) (hs' : |s| ≤ 2 ^ 53) :
    (words w).ofDouble ((words w).mulD ((words w).toDouble x) ((words w).invD ((words w).toDouble s))) =
      fit w (chop (roundDouble ((x : ℚ) * roundDouble (1 / (s : ℚ))))) := by
  have hsq : (s : ℚ) ≠ 0 := by exact_mod_cast hs
  have e : (words w).invD ((words w).toDouble s) = some (roundDouble (1 / (s : ℚ))) := by
    show (if roundDouble (s : ℚ) = 0 then none else some (roundDouble (1 / roundDouble (s : ℚ)))) = _
    rw [roundDouble_int s hs', if_neg hsq]
  rw [e]
  show truncate w (some (roundDouble (roundDouble (x : ℚ) * roundDouble (1 / (s : ℚ))))) = _
  rw [roundDouble_int x hx]
  rfl

/-- C126: `Divide` of a vector of integers, of at most 50 bits, by a number other than zero: an element the number
does not divide gives the truncated quotient. An element it divides gives the quotient or the integer next to it on
the side of zero. -/
theorem C126_divide_partial (w : Nat) (hw : w ≤ 50) (v : List Int) (s : Int) (hv : ∀ x ∈ v, Fits w x)
    (hs : Fits w s) (h0 : s ≠ 0) (hf : ∀ x ∈ v, Fits w (x.tdiv s)) :
    ∃ out, divideScalar (words w) v s = .ok out ∧ out.length = v.length ∧
      ∀ (i : Nat) (h : i < v.length) (h' : i < out.length),
        (¬ s ∣ v[i] → out[i] = v[i].tdiv s) ∧
        (out[i] = v[i].tdiv s ∨ out[i] = v[i].tdiv s - (v[i].tdiv s).sign) := by
  have small : ∀ {x}, Fits w x → |x| ≤ 2 ^ 50 := by
    intro x h
    have : (2 : Int) ^ (w - 1) ≤ 2 ^ 50 := pow_le_pow_right₀ (by norm_num) (by omega)
    rw [abs_le]
    exact ⟨by have := h.1; omega, by have := h.2; omega⟩
  have as := small hs
  let g : Int → Int := fun x => chop (roundDouble ((x : ℚ) * roundDouble (1 / (s : ℚ))))
  have hg : ∀ x ∈ v, (¬ s ∣ x → g x = x.tdiv s) ∧ (g x = x.tdiv s ∨ g x = x.tdiv s - (x.tdiv s).sign) :=
    fun x hx => chop_quotient h0 (quotient_near h0 (small (hv x hx)))
  have := fill_one v
      (fun x => (words w).ofDouble ((words w).mulD ((words w).toDouble x) ((words w).invD ((words w).toDouble s))))
      (fun x => Fits w (g x)) g 0 fun x hx => by
    have := small (hv x hx)
    rw [quotient_code h0 (by omega) (by omega)]
    rfl
  rw [if_pos] at this
  · refine ⟨v.map g, this, by simp, ?_⟩
    intro i h h'
    rw [List.getElem_map]
    exact hg _ (List.getElem_mem h)
  · intro x hx
    have hq := hf x hx
    have hp : (0 : Int) < 2 ^ (w - 1) := by positivity
    rcases (hg x hx).2 with h | h
    · rw [h]; exact hq
    · rw [h]
      obtain ⟨q1, q2⟩ := hq
      rcases lt_trichotomy (x.tdiv s) 0 with h | h | h
      · rw [Int.sign_eq_neg_one_of_neg h]; exact ⟨by omega, by omega⟩
      · rw [h]; exact ⟨by simp, by simp⟩
      · rw [Int.sign_eq_one_of_pos h]; exact ⟨by omega, by omega⟩

example : (∀ x ∈ [7, -9, 2147483647], Fits 32 x) ∧ Fits 32 3 ∧ ∀ x ∈ [7, -9, 2147483647], Fits 32 (x.tdiv 3) := by
  decide

/-- C126: dividing by a power of two, or minus one, gives exactly the truncated quotients. -/
theorem C126_divide_power (w : Nat) (hw : w ≤ 50) (v : List Int) (k : Nat) (s : Int) (hv : ∀ x ∈ v, Fits w x)
    (hs : Fits w s) (hk : s = 2 ^ k ∨ s = -2 ^ k) :
    divideScalar (words w) v s = if ∀ x ∈ v, Fits w (x.tdiv s) then .ok (v.map fun x => x.tdiv s) else .ub := by
  have small : ∀ {x}, Fits w x → |x| ≤ 2 ^ 50 := by
    intro x h
    have : (2 : Int) ^ (w - 1) ≤ 2 ^ 50 := pow_le_pow_right₀ (by norm_num) (by omega)
    rw [abs_le]
    exact ⟨by have := h.1; omega, by have := h.2; omega⟩
  have as := small hs
  have hp : (0 : Int) < 2 ^ k := by positivity
  have h0 : s ≠ 0 := by rcases hk with rfl | rfl <;> omega
  refine fill_one v
      (fun x => (words w).ofDouble ((words w).mulD ((words w).toDouble x) ((words w).invD ((words w).toDouble s))))
      (fun x => Fits w (x.tdiv s)) (fun x => x.tdiv s) 0 fun x hx => ?_
  have ax := small (hv x hx)
  have hsq : (s : ℚ) ≠ 0 := by exact_mod_cast h0
  have hr : ∃ σ : Int, |σ| = 1 ∧ 1 / (s : ℚ) = σ * 2 ^ (-(k : Int)) := by
    rcases hk with rfl | rfl
    · exact ⟨1, by norm_num, by push_cast; rw [zpow_neg, zpow_natCast, one_div, one_mul]⟩
    · refine ⟨-1, by norm_num, ?_⟩
      push_cast
      rw [zpow_neg, zpow_natCast, one_div, neg_one_mul, inv_neg]
  obtain ⟨σ, hσ, hr⟩ := hr
  rw [quotient_code h0 (by omega) (by omega), ← fit_eq]
  have e1 : roundDouble (1 / (s : ℚ)) = 1 / s := by
    rw [hr]; exact roundDouble_exact σ _ (by rw [hσ]; norm_num)
  have e2 : roundDouble ((x : ℚ) * (1 / s)) = x / s := by
    have := roundDouble_exact (x * σ) (-(k : Int)) (by rw [abs_mul, hσ]; omega)
    push_cast at this
    rw [hr, ← mul_assoc, this, mul_assoc, ← hr, mul_one_div]
  rw [e1, e2]
  congr 1
  have : |(x : ℚ) / s * s - x| < 1 := by rw [div_mul_cancel₀ _ hsq]; simp
  obtain ⟨c1, c2⟩ := chop_quotient h0 this
  by_cases hd : s ∣ x
  · obtain ⟨t, rfl⟩ := hd
    rw [Int.mul_tdiv_cancel_left _ h0]
    have : ((s * t : Int) : ℚ) / s = t := by push_cast; field_simp
    rw [this]
    simp [chop]
  · exact c1 hd

example : divideScalar (words 32) [7, -9] 4 = .ok [1, -2] := by
  rw [C126_divide_power 32 (by omega) [7, -9] 2 4 (by decide) (by decide) (Or.inl rfl)]
  decide

/-- C126: dividing by zero is undefined, unless the vector is empty. -/
theorem C126_divide_zero (w : Nat) (v : List Int) :
    divideScalar (words w) v 0 = if v = [] then .ok [] else .ub := by
  have e : (words w).invD ((words w).toDouble 0) = none := by
    show (if roundDouble ((0 : Int) : ℚ) = 0 then none else some (roundDouble (1 / roundDouble ((0 : Int) : ℚ)))) = _
    rw [if_pos (by simp [roundDouble])]
  have := fill_one v
      (fun x => (words w).ofDouble ((words w).mulD ((words w).toDouble x) ((words w).invD ((words w).toDouble 0))))
      (fun _ => False) (fun x => x) 0 fun x hx => by
    rw [e, if_neg not_false]
    rfl
  refine this.trans ?_
  cases v with
  | nil => rfl
  | cons a l => rw [if_neg (fun h => h a List.mem_cons_self), if_neg (by simp)]

/-- C126 is false of `Divide` of a vector of integers: 49 divided by 49 is 0. -/
theorem C126_divide_wrong : divideScalar (words 32) [49] 49 = .ok [0] := by
  have r1 : roundDouble (1 / ((49 : Int) : ℚ)) = 5882252574524729 / 2 ^ 58 := by
    have := roundDouble_value (x := 1 / ((49 : Int) : ℚ)) (e := -6) (n := 5882252574524729)
      (by norm_num) (by norm_num) (by norm_num [abs_lt])
    rw [this]
    norm_num
  have r2 : roundDouble (((49 : Int) : ℚ) * (5882252574524729 / 2 ^ 58)) = 9007199254740991 / 2 ^ 53 := by
    have := roundDouble_value (x := ((49 : Int) : ℚ) * (5882252574524729 / 2 ^ 58)) (e := -1) (n := 9007199254740991)
      (by norm_num) (by norm_num) (by norm_num [abs_lt])
    rw [this]
    norm_num
  have := fill_one [49]
      (fun x => (words 32).ofDouble ((words 32).mulD ((words 32).toDouble x) ((words 32).invD ((words 32).toDouble 49))))
      (fun _ => True) (fun _ => 0) 0 fun x hx => by
    rw [List.mem_singleton.mp hx, if_pos trivial, quotient_code (by norm_num) (by norm_num) (by norm_num), r1, r2]
    have : chop (9007199254740991 / 2 ^ 53) = 0 := by
      unfold chop
      rw [if_pos (by norm_num), Int.floor_eq_iff]
      norm_num
    rw [this]
    rfl
  refine this.trans ?_
  rw [if_pos fun _ _ => trivial]
  rfl

end Verif.VectorMath
