import Verif.Model.VectorSpecial
import Verif.Spec.VectorSpecial

/-!
# Properties of norms of vectors with special doubles: C202
-/
namespace Verif.VectorSpecial
open Verif

variable (A : Ieee)

/-! ## Sums of squares -/

theorem long_add {a b : Dbl} (ha : Long a) (hb : Long b) : Long (A.add a b) := by
  rcases ha with rfl | ⟨x, rfl, hx⟩ <;> rcases hb with rfl | ⟨y, rfl, hy⟩
  · exact .inl rfl
  · exact .inl rfl
  · exact .inl rfl
  · show Long (A.round (x + y))
    unfold Ieee.round
    split
    · exact .inr ⟨_, rfl, A.R.nonneg (add_nonneg hx hy)⟩
    · left
      rw [decide_eq_false (not_lt.2 (add_nonneg hx hy))]

theorem long_square {x : Dbl} (h : x ≠ .nan) : Long (A.mul x x) := by
  cases x with
  | nan => exact absurd rfl h
  | inf s => left; simp [Ieee.mul]
  | num x =>
    show Long (A.round (x * x))
    unfold Ieee.round
    split
    · exact .inr ⟨_, rfl, A.R.nonneg (mul_self_nonneg x)⟩
    · left
      rw [decide_eq_false (not_lt.2 (mul_self_nonneg x))]

/-- what a sum is made of -/
theorem total_cases {l : List Dbl} {t : Dbl} (h : Total A l t) :
    (.nan ∈ l → t = .nan) ∧ ((∀ x ∈ l, Long x) → Long t) ∧
      ((∀ x ∈ l, Long x) → .inf false ∈ l → t = .inf false) := by
  induction h with
  | zero => exact ⟨by simp, fun _ => .inr ⟨0, rfl, le_refl _⟩, by simp⟩
  | one a =>
    refine ⟨?_, fun h => h a (by simp), ?_⟩
    · intro h; rw [List.mem_singleton] at h; exact h.symm
    · intro _ h; rw [List.mem_singleton] at h; exact h.symm
  | @two l m n a b h1 h2 hp ih1 ih2 =>
    have mem : ∀ x, x ∈ n ↔ x ∈ l ∨ x ∈ m := fun x => by rw [hp.mem_iff, List.mem_append]
    refine ⟨?_, ?_, ?_⟩
    · intro h
      rcases (mem _).1 h with h | h
      · rw [ih1.1 h]; cases b <;> rfl
      · rw [ih2.1 h]; cases a <;> rfl
    · intro h
      exact long_add A (ih1.2.1 fun x hx => h x ((mem x).2 (.inl hx))) (ih2.2.1 fun x hx => h x ((mem x).2 (.inr hx)))
    · intro h hi
      have k1 := ih1.2.1 fun x hx => h x ((mem x).2 (.inl hx))
      have k2 := ih2.2.1 fun x hx => h x ((mem x).2 (.inr hx))
      rcases (mem _).1 hi with hi | hi
      · rw [ih1.2.2 (fun x hx => h x ((mem x).2 (.inl hx))) hi]
        rcases k2 with rfl | ⟨y, rfl, -⟩ <;> rfl
      · rw [ih2.2.2 (fun x hx => h x ((mem x).2 (.inr hx))) hi]
        rcases k1 with rfl | ⟨y, rfl, -⟩ <;> rfl

theorem sqrt_long {t : Dbl} (h : Long t) : Long (A.sqrt t) := by
  rcases h with rfl | ⟨x, rfl, hx⟩
  · left; simp [Ieee.sqrt]
  · unfold Ieee.sqrt
    simp only
    rw [if_neg (not_lt.2 hx)]
    unfold Ieee.round
    split
    · exact .inr ⟨_, rfl, A.R.nonneg (Real.sqrt_nonneg x)⟩
    · left
      rw [decide_eq_false (not_lt.2 (Real.sqrt_nonneg x))]

theorem sum_cases {v : List Dbl} {t : Dbl} (h : Total A (v.map (fun x => A.mul x x)) t) :
    (.nan ∈ v → t = .nan) ∧ (.nan ∉ v → Long t) ∧ (Infinite v ∨ TooLong A v → t = .inf false) := by
  obtain ⟨h1, h2, h3⟩ := total_cases A h
  have hl : .nan ∉ v → ∀ x ∈ v.map (fun x => A.mul x x), Long x := by
    intro hn x hx
    obtain ⟨y, hy, rfl⟩ := List.mem_map.1 hx
    exact long_square A (fun e => hn (e ▸ hy))
  refine ⟨fun hn => h1 (List.mem_map.2 ⟨.nan, hn, rfl⟩), fun hn => h2 (hl hn), ?_⟩
  rintro (⟨hn, s, hs⟩ | ⟨hf, x, hx, ho⟩)
  · exact h3 (hl hn) (List.mem_map.2 ⟨.inf s, hs, by simp [Ieee.mul]⟩)
  · have hn : .nan ∉ v := fun h => by obtain ⟨y, hy⟩ := hf _ h; cases hy
    refine h3 (hl hn) (List.mem_map.2 ⟨.num x, hx, ?_⟩)
    show A.round (x * x) = _
    rw [A.round_over ho, decide_eq_false (not_lt.2 (mul_self_nonneg x))]

/-- **C202, norms in Eigen.** In whatever order it adds up: the norm of a vector with a NaN entry is NaN; without one it
is never NaN and not negative, and it is infinite if an entry is infinite or the square of an entry is too large. -/
theorem C202_eigen_norm (v : List Dbl) (n : Dbl) (h : IsNorm A v n) :
    (.nan ∈ v → n = .nan) ∧ (.nan ∉ v → Long n) ∧ (Infinite v ∨ TooLong A v → n = .inf false) := by
  obtain ⟨t, ht, rfl⟩ := h
  obtain ⟨h1, h2, h3⟩ := sum_cases A ht
  refine ⟨?_, fun hn => sqrt_long A (h2 hn), ?_⟩
  · intro hn; rw [h1 hn]; rfl
  · intro hi; rw [h3 hi]; simp [Ieee.sqrt]

theorem loop_total {l : List Dbl} {a : Dbl} (v : List Dbl) (h : Total A l a) :
    Total A (l ++ v.map (fun x => A.mul x x)) (squaredNormLoop A a v) := by
  induction v generalizing l a with
  | nil => simpa [squaredNormLoop] using h
  | cons x xs ih =>
    unfold squaredNormLoop
    have := ih (Total.two h (Total.one (A.mul x x)) (List.Perm.refl (l ++ [A.mul x x])))
    simpa [List.append_assoc] using this

/-- **C202, norms of vectors.** `SquaredNorm` and `Norm` treat NaN and infinities in the same way. -/
theorem C202_norm (v : List Dbl) : IsNorm A v (norm A v) ∧
    (.nan ∈ v → squaredNorm A v = .nan) ∧ (.nan ∉ v → Long (squaredNorm A v)) ∧
    (Infinite v ∨ TooLong A v → squaredNorm A v = .inf false) := by
  have h : Total A (v.map (fun x => A.mul x x)) (squaredNorm A v) := loop_total A v Total.zero
  exact ⟨⟨_, h, rfl⟩, sum_cases A h⟩

/-! ## Accuracy -/

theorem loop_inf (v : List ℝ) : squaredNormLoop A (.inf false) (v.map .num) = .inf false := by
  induction v with
  | nil => rfl
  | cons x xs ih =>
    rw [List.map_cons, squaredNormLoop]
    have : A.add (.inf false) (A.mul (.num x) (.num x)) = .inf false := by
      rcases long_square A (x := .num x) (by simp) with h | ⟨y, h, -⟩ <;> rw [h] <;> rfl
    rw [this, ih]

theorem squares_nonneg (v : List ℝ) : 0 ≤ squares v := by
  induction v with
  | nil => exact le_refl _
  | cons x xs ih => exact add_nonneg (mul_self_nonneg x) ih

theorem loop_bounds (v : List ℝ) (a : ℝ) (ha : 0 ≤ a) (z : ℝ)
    (h : squaredNormLoop A (.num a) (v.map .num) = .num z) :
    (a + squares v) * (1 - unit) ^ (2 * v.length) ≤ z ∧ z ≤ (a + squares v) * (1 + unit) ^ (2 * v.length) := by
  induction v generalizing a with
  | nil =>
    simp only [List.map_nil, squaredNormLoop] at h
    injection h with h
    subst h
    simp [squares]
  | cons x xs ih =>
    have hu := Rounding.unit_pos
    have hu1 := Rounding.unit_lt_one
    rw [List.map_cons, squaredNormLoop] at h
    have hm : A.mul (.num x) (.num x) = A.round (x * x) := rfl
    rw [hm] at h
    rcases long_square A (x := .num x) (by simp) with hs | ⟨y, hs, hy⟩
    · rw [hm] at hs
      rw [hs] at h
      have : A.add (.num a) (.inf false) = .inf false := rfl
      rw [this, loop_inf] at h
      cases h
    · rw [hm] at hs
      have hy' := A.round_num hs
      rw [hs] at h
      have hadd : A.add (.num a) (.num y) = A.round (a + y) := rfl
      rw [hadd] at h
      rcases long_add A (a := .num a) (b := .num y) (.inr ⟨a, rfl, ha⟩) (.inr ⟨y, rfl, hy⟩) with h2 | ⟨w, h2, hw⟩
      · rw [hadd] at h2
        rw [h2, loop_inf] at h
        cases h
      · rw [hadd] at h2
        rw [h2] at h
        have hw' := A.round_num h2
        obtain ⟨i1, i2⟩ := ih w hw h
        have hxx := mul_self_nonneg x
        have sq := squares_nonneg xs
        have y1 := A.R.lower hxx
        have y2 := A.R.upper hxx
        have w1 := A.R.lower (add_nonneg ha hy)
        have w2 := A.R.upper (add_nonneg ha hy)
        rw [← hy'] at y1 y2
        rw [← hw'] at w1 w2
        have p1 : (0 : ℝ) ≤ 1 - unit := by linarith
        have p2 : (0 : ℝ) ≤ 1 + unit := by linarith
        have t1 : (a + x * x) * (1 - unit) ≤ a + y := by nlinarith
        have t2 : a + y ≤ (a + x * x) * (1 + unit) := by nlinarith
        have q1 : (1 - unit) ^ 2 ≤ 1 := pow_le_one₀ p1 (by linarith)
        have q2 : 1 ≤ (1 + unit) ^ 2 := one_le_pow₀ (by linarith)
        have s1 : (a + (x * x + squares xs)) * (1 - unit) ^ 2 ≤ w + squares xs := by
          have := mul_le_mul_of_nonneg_right t1 p1
          have := mul_le_mul_of_nonneg_left q1 sq
          nlinarith
        have s2 : w + squares xs ≤ (a + (x * x + squares xs)) * (1 + unit) ^ 2 := by
          have := mul_le_mul_of_nonneg_right t2 p2
          have := mul_le_mul_of_nonneg_left q2 sq
          nlinarith
        have e : 2 * (x :: xs).length = 2 + 2 * xs.length := by simp; omega
        rw [e, pow_add, pow_add, ← mul_assoc, ← mul_assoc]
        constructor
        · exact (mul_le_mul_of_nonneg_right s1 (pow_nonneg p1 _)).trans i1
        · exact i2.trans (mul_le_mul_of_nonneg_right s2 (pow_nonneg p2 _))

/-- **C202, accuracy.** For numbers `SquaredNorm` is infinite or has a relative error of about `2 n` roundings, and
`Norm` is its rounded root. -/
theorem C202_accuracy (v : List ℝ) :
    squaredNorm A (v.map .num) = .inf false ∧ norm A (v.map .num) = .inf false ∨
    ∃ z, squaredNorm A (v.map .num) = .num z ∧ norm A (v.map .num) = A.round (Real.sqrt z) ∧
      squares v * (1 - unit) ^ (2 * v.length) ≤ z ∧ z ≤ squares v * (1 + unit) ^ (2 * v.length) := by
  have hn : .nan ∉ v.map Dbl.num := by simp
  rcases (C202_norm A (v.map .num)).2.2.1 hn with h | ⟨z, h, hz⟩
  · left
    refine ⟨h, ?_⟩
    unfold norm
    rw [h]
    simp [Ieee.sqrt]
  · right
    refine ⟨z, h, ?_, ?_⟩
    · unfold norm
      rw [h]
      simp only [Ieee.sqrt]
      rw [if_neg (not_lt.2 hz)]
    · have := loop_bounds A v 0 (le_refl _) z h
      rwa [zero_add] at this

/-! ## SafeNormal -/

/-- **C202, safe normalisation.** A vector with a NaN entry comes back as it is. If an entry is infinite, the infinite
entries become NaN and the others 0. A vector of numbers so long that the square of an entry overflows
becomes the zero vector. Otherwise, if the norm is a number, the vector is divided by it or, up to 2^-52, comes
back as it is. -/
theorem C202_safe_normal (v : List Dbl) (n : Dbl) (h : IsNorm A v n) :
    (.nan ∈ v → safeNormal A v n = v) ∧
    (Infinite v → safeNormal A v n = v.map (fun x => match x with | .num _ => .num 0 | _ => .nan)) ∧
    (TooLong A v → safeNormal A v n = v.map (fun _ => .num 0)) ∧
    (∀ x, n = .num x → safeNormal A v n =
      open Classical in if x ≤ 1 / 2 ^ 52 then v else v.map (fun y => A.div y (.num x))) := by
  classical
  obtain ⟨h1, h2, h3⟩ := C202_eigen_norm A v n h
  have hi : safeNormal A v (.inf false) = v.map (fun x => A.div x (.inf false)) := by
    unfold safeNormal
    rw [if_pos (show Ieee.lt (.num (1 / 2 ^ 52)) (.inf false) from rfl)]
  refine ⟨?_, ?_, ?_, ?_⟩
  · intro hn
    rw [h1 hn]
    unfold safeNormal
    rw [if_neg (show ¬ Ieee.lt (.num (1 / 2 ^ 52)) .nan from id)]
  · intro hv
    rw [h3 (.inl hv), hi]
    apply List.map_congr_left
    intro x hx
    cases x with
    | nan => exact absurd hx hv.1
    | inf s => rfl
    | num x => rfl
  · intro hv
    rw [h3 (.inr hv), hi]
    apply List.map_congr_left
    intro x hx
    obtain ⟨y, rfl⟩ := hv.1 x hx
    rfl
  · rintro x rfl
    unfold safeNormal
    by_cases hx : x ≤ 1 / 2 ^ 52
    · rw [if_neg (show ¬ Ieee.lt (.num (1 / 2 ^ 52)) (.num x) from not_lt.2 hx), if_pos hx]
    · rw [if_pos (show Ieee.lt (.num (1 / 2 ^ 52)) (.num x) from not_le.1 hx), if_neg hx]

/-! ## ClampNorm -/

/-- **C202, norm clamping.** A limit that is not positive, NaN included, fails the assertion. A vector with a NaN entry
comes back as it is, however long its other entries are. With a finite limit, infinite entries become
NaN and the others 0, and a vector of numbers that is so long that a square overflows becomes 0. With an infinite limit
every vector comes back as it is. If the norm is a number, the vector comes back up to the limit, and is
otherwise scaled by the rounded quotient. -/
theorem C202_clamp_norm (v : List Dbl) (n m : Dbl) (h : IsNorm A v n) :
    (¬ Ieee.lt (.num 0) m → clampNorm A v n m = .abort) ∧
    (Ieee.lt (.num 0) m → .nan ∈ v → clampNorm A v n m = .ok v) ∧
    (m = .inf false → clampNorm A v n m = .ok v) ∧
    (∀ y, m = .num y → 0 < y →
      (Infinite v → clampNorm A v n m = .ok (v.map (fun x => match x with | .num _ => .num 0 | _ => .nan))) ∧
      (TooLong A v → clampNorm A v n m = .ok (v.map (fun _ => .num 0))) ∧
      ∀ x, n = .num x → clampNorm A v n m =
        open Classical in if x ≤ y then .ok v else .ok (v.map (fun e => A.mul e (A.round (y / x))))) := by
  classical
  obtain ⟨h1, h2, h3⟩ := C202_eigen_norm A v n h
  have pos : Ieee.lt (.num 0) m → clampNorm A v n m =
      if Ieee.lt m n then .ok (v.map (fun x => A.mul x (A.div m n))) else .ok v := by
    intro hm
    unfold clampNorm
    rw [Out.assert_true hm, Out.bind_ok]
  refine ⟨?_, ?_, ?_, ?_⟩
  · intro hm
    unfold clampNorm
    rw [Out.assert_false hm]
    rfl
  · intro hm hn
    rw [pos hm, h1 hn, if_neg]
    cases m <;> exact id
  · rintro rfl
    rw [pos rfl, if_neg]
    cases n <;> simp [Ieee.lt]
  · rintro y rfl hy
    have hinf : n = .inf false → clampNorm A v n (.num y) = .ok (v.map (fun x => A.mul x (.num 0))) := by
      rintro rfl
      rw [pos hy, if_pos (show Ieee.lt (.num y) (.inf false) from rfl)]
      rfl
    have z : ∀ x : ℝ, A.mul (.num x) (.num 0) = .num 0 := by
      intro x
      show A.round (x * 0) = _
      rw [mul_zero, A.round_small (by norm_num), A.R.zero]
    refine ⟨?_, ?_, ?_⟩
    · intro hv
      rw [hinf (h3 (.inl hv))]
      congr 1
      apply List.map_congr_left
      intro x hx
      cases x with
      | nan => exact absurd hx hv.1
      | inf s => simp [Ieee.mul]
      | num x => exact z x
    · intro hv
      rw [hinf (h3 (.inr hv))]
      congr 1
      apply List.map_congr_left
      intro x hx
      obtain ⟨w, rfl⟩ := hv.1 x hx
      exact z w
    · rintro x rfl
      rw [pos hy]
      by_cases hx : x ≤ y
      · rw [if_neg (show ¬ Ieee.lt (.num y) (.num x) from not_lt.2 hx), if_pos hx]
      · have hx' := not_le.1 hx
        rw [if_pos (show Ieee.lt (.num y) (.num x) from hx'), if_neg hx]
        have hd : A.div (.num y) (.num x) = A.round (y / x) := by
          show (if x = 0 then _ else A.round (y / x)) = _
          rw [if_neg (by linarith)]
        rw [hd]

/-- **C202, clamping numbers.** Where the norm is a number, no entry grows and none changes its sign. -/
theorem C202_clamp_shrinks (v : List ℝ) (x y : ℝ) (hv : ∀ e ∈ v, A.R.Fp e ∧ |e| ≤ A.top)
    (h : IsNorm A (v.map .num) (.num x)) (hy : 0 < y) :
    ∃ f : ℝ → ℝ, clampNorm A (v.map .num) (.num x) (.num y) = .ok (v.map (fun e => .num (f e))) ∧
      ∀ e ∈ v, |f e| ≤ |e| ∧ 0 ≤ f e * e := by
  classical
  rw [((C202_clamp_norm A _ _ _ h).2.2.2 y rfl hy).2.2 x rfl]
  by_cases hx : x ≤ y
  · rw [if_pos hx]
    exact ⟨fun e => e, rfl, fun e _ => ⟨le_refl _, mul_self_nonneg e⟩⟩
  · rw [if_neg hx]
    have hx' := not_le.1 hx
    have q0 : 0 ≤ y / x := div_nonneg hy.le (by linarith)
    have q1 : y / x ≤ 1 := by rw [div_le_one (by linarith)]; exact hx'.le
    have f0 := A.R.nonneg q0
    have f1 : A.R.rd (y / x) ≤ 1 := by
      have := A.R.mono q1
      rwa [A.R.fp_one] at this
    have hr : A.round (y / x) = .num (A.R.rd (y / x)) :=
      A.round_small (by rw [abs_of_nonneg q0]; exact q1.trans (by norm_num))
    refine ⟨fun e => A.R.rd (e * A.R.rd (y / x)), ?_, ?_⟩
    · rw [hr, List.map_map]
      congr 1
      apply List.map_congr_left
      intro e he
      show A.round (e * A.R.rd (y / x)) = _
      apply A.round_eq
      refine le_trans ?_ (hv e he).2
      have b : |e * A.R.rd (y / x)| ≤ |e| := by
        rw [abs_mul, abs_of_nonneg f0]
        exact mul_le_of_le_one_right (abs_nonneg e) f1
      obtain ⟨b1, b2⟩ := abs_le.1 b
      have k1 := A.R.mono b1
      have k2 := A.R.mono b2
      have ea : A.R.Fp |e| := by
        rcases abs_cases e with ⟨h, -⟩ | ⟨h, -⟩ <;> rw [h]
        · exact (hv e he).1
        · exact A.R.fp_neg (hv e he).1
      rw [A.R.odd, ea] at k1
      rw [ea] at k2
      exact abs_le.2 ⟨k1, k2⟩
    · intro e he
      have b : |e * A.R.rd (y / x)| ≤ |e| := by
        rw [abs_mul, abs_of_nonneg f0]
        exact mul_le_of_le_one_right (abs_nonneg e) f1
      obtain ⟨b1, b2⟩ := abs_le.1 b
      have k1 := A.R.mono b1
      have k2 := A.R.mono b2
      have ea : A.R.Fp |e| := by
        rcases abs_cases e with ⟨h, -⟩ | ⟨h, -⟩ <;> rw [h]
        · exact (hv e he).1
        · exact A.R.fp_neg (hv e he).1
      rw [A.R.odd, ea] at k1
      rw [ea] at k2
      refine ⟨abs_le.2 ⟨k1, k2⟩, ?_⟩
      rcases le_total 0 e with h' | h'
      · exact mul_nonneg (A.R.nonneg (mul_nonneg h' f0)) h'
      · have : A.R.rd (e * A.R.rd (y / x)) ≤ 0 := by
          have := A.R.mono (mul_nonpos_of_nonpos_of_nonneg h' f0)
          rwa [A.R.zero] at this
        exact mul_nonneg_of_nonpos_of_nonpos this h'

/-! ## Concrete cases -/

/-- Every vector has a norm. -/
example (v : List Dbl) : ∃ n, IsNorm A v n := ⟨_, (C202_norm A v).1⟩

example : Infinite [.num 1, .inf true] := ⟨by simp, true, by simp⟩

/-- A vector that is normalised to zero although it is not zero. -/
example : TooLong A [.num A.top, .num 1] := by
  refine ⟨by simp [Numbers, Dbl.Finite], A.top, by simp, ?_⟩
  have ht := A.large
  have h1 : (4 : ℝ) ≤ A.top := le_trans (by norm_num) ht
  have hp : 0 ≤ A.top * A.top := mul_self_nonneg _
  have l := A.R.lower hp
  rw [abs_of_nonneg (A.R.nonneg hp)]
  have hu : unit ≤ 1 / 2 := by unfold unit; norm_num
  nlinarith

end Verif.VectorSpecial
