import Verif.Props.AnglesRounded
import Verif.Props.Averages

/-!
# Property C160 (math_helpers.hpp): interpolation, distances and averages with rounding
-/
namespace Verif.RoundedMath
open Verif

variable (R : Rounding)

theorem unit_small : unit ≤ 1 / 1000 := by unfold unit; norm_num

/-! ## Interpolation -/

/-- **C160.** Interpolating numbers: exact at both ends, never decreasing in either number, and at most
`4 * unit * max |p| |q|` off. -/
theorem C160_interpolate (p q ratio : ℝ) (fp : R.Fp p) (fq : R.Fp q) :
    (ratio ≤ 0 → interpolate R p q ratio = p) ∧ (1 ≤ ratio → interpolate R p q ratio = q) ∧
    (∀ p' q', p ≤ p' → q ≤ q' → interpolate R p q ratio ≤ interpolate R p' q' ratio) ∧
    |interpolate R p q ratio - (p + min 1 (max 0 ratio) * (q - p))| ≤ 4 * unit * max |p| |q| := by
  obtain ⟨r0, r1, hr⟩ := ratio_bounds ratio
  have ep : R.rd p = p := fp
  have eq' : R.rd q = q := fq
  have e1 : R.rd 1 = 1 := R.fp_one
  have hu := Rounding.unit_pos
  have hu1 := unit_small
  unfold interpolate
  dsimp only
  refine ⟨?_, ?_, ?_, ?_⟩
  · intro h
    have : (Angles.safetyCheckUnitInterval ratio).1 = 0 := by rw [hr, max_eq_left h]; norm_num
    rw [this]
    simp [R.zero, e1, ep]
  · intro h
    have : (Angles.safetyCheckUnitInterval ratio).1 = 1 := by
      rw [hr, max_eq_right (by linarith), min_eq_left h]
    rw [this]
    simp [R.zero, eq']
  · intro p' q' hp hq
    apply R.mono
    have s0 := R.nonneg (sub_nonneg.2 r1)
    exact add_le_add (R.mono (mul_le_mul_of_nonneg_right hp s0)) (R.mono (mul_le_mul_of_nonneg_right hq r0))
  · rw [← hr]
    generalize (Angles.safetyCheckUnitInterval ratio).1 = r at *
    have hp : |p| ≤ max |p| |q| := le_max_left _ _
    have hq : |q| ≤ max |p| |q| := le_max_right _ _
    generalize max |p| |q| = M at *
    have hM : 0 ≤ M := le_trans (abs_nonneg p) hp
    have s1 := R.err (1 - r)
    rw [abs_of_nonneg (sub_nonneg.2 r1)] at s1
    have s0 := R.nonneg (sub_nonneg.2 r1)
    have su := R.upper (sub_nonneg.2 r1)
    generalize R.rd (1 - r) = s at *
    have hr1 : 0 ≤ 1 - r := sub_nonneg.2 r1
    -- the two products
    have a1 : |p * s - p * (1 - r)| ≤ M * (unit * (1 - r)) := by
      rw [← mul_sub, abs_mul]
      exact mul_le_mul hp s1 (abs_nonneg _) hM
    have ps : |p * s| ≤ M * ((1 - r) * (1 + unit)) := by
      rw [abs_mul, abs_of_nonneg s0]
      exact mul_le_mul hp su s0 hM
    have a2 := R.err (p * s)
    have a2' : |R.rd (p * s) - p * s| ≤ unit * (M * ((1 - r) * (1 + unit))) :=
      le_trans a2 (mul_le_mul_of_nonneg_left ps hu.le)
    have qr : |q * r| ≤ M * r := by
      rw [abs_mul, abs_of_nonneg r0]
      exact mul_le_mul_of_nonneg_right hq r0
    have a3 : |R.rd (q * r) - q * r| ≤ unit * (M * r) :=
      le_trans (R.err _) (mul_le_mul_of_nonneg_left qr hu.le)
    have hmr : 0 ≤ M * r := mul_nonneg hM r0
    have hm1 : 0 ≤ M * (1 - r) := mul_nonneg hM hr1
    have hur : 0 ≤ unit * (M * r) := mul_nonneg hu.le hmr
    have hu1r : 0 ≤ unit * (M * (1 - r)) := mul_nonneg hu.le hm1
    have huu : unit * (unit * (M * (1 - r))) ≤ 1 / 1000 * (unit * (M * (1 - r))) :=
      mul_le_mul_of_nonneg_right hu1 hu1r
    have tot : |R.rd (p * s) + R.rd (q * r) - (p + r * (q - p))| ≤ (2 + 1 / 1000) * (unit * M) := by
      obtain ⟨x1, x2⟩ := abs_le.1 a1
      obtain ⟨y1, y2⟩ := abs_le.1 a2'
      obtain ⟨z1, z2⟩ := abs_le.1 a3
      rw [abs_le]
      constructor <;> linarith
    have ex : |p + r * (q - p)| ≤ M := by
      obtain ⟨x1, x2⟩ := abs_le.1 hp
      obtain ⟨y1, y2⟩ := abs_le.1 hq
      have m1 := mul_le_mul_of_nonneg_left x2 hr1
      have m2 := mul_le_mul_of_nonneg_left x1 hr1
      have m3 := mul_le_mul_of_nonneg_left y2 r0
      have m4 := mul_le_mul_of_nonneg_left y1 r0
      rw [abs_le]
      constructor <;> linarith
    have huM : 0 ≤ unit * M := mul_nonneg hu.le hM
    have fin := R.err (R.rd (p * s) + R.rd (q * r))
    have big : |R.rd (p * s) + R.rd (q * r)| ≤ M + (2 + 1 / 1000) * (unit * M) := by
      have := abs_add_le (R.rd (p * s) + R.rd (q * r) - (p + r * (q - p))) (p + r * (q - p))
      rw [sub_add_cancel] at this
      linarith
    have fin' := le_trans fin (mul_le_mul_of_nonneg_left big hu.le)
    have huuM : unit * (unit * M) ≤ 1 / 1000 * (unit * M) := mul_le_mul_of_nonneg_right hu1 huM
    obtain ⟨x1, x2⟩ := abs_le.1 tot
    obtain ⟨y1, y2⟩ := abs_le.1 fin'
    rw [abs_le]
    constructor <;> linarith

/-! ## Distances -/

/-- the square of a computed difference -/
theorem term_bounds (x y : ℝ) :
    0 ≤ R.rd (R.rd (y - x) * R.rd (y - x)) ∧
    (y - x) ^ 2 * (1 - unit) ^ 3 ≤ R.rd (R.rd (y - x) * R.rd (y - x)) ∧
    R.rd (R.rd (y - x) * R.rd (y - x)) ≤ (y - x) ^ 2 * (1 + unit) ^ 3 ∧
    (R.rd (R.rd (y - x) * R.rd (y - x)) = 0 ↔ x = y) := by
  have hu := Rounding.unit_pos
  have hu1 := unit_small
  have key : ∀ z : ℝ, 0 ≤ z →
      z ^ 2 * (1 - unit) ^ 3 ≤ R.rd (R.rd z * R.rd z) ∧ R.rd (R.rd z * R.rd z) ≤ z ^ 2 * (1 + unit) ^ 3 := by
    intro z hz
    have z0 := R.nonneg hz
    have zu := R.upper hz
    have zl := R.lower hz
    have pu := R.upper (mul_nonneg z0 z0)
    have pl := R.lower (mul_nonneg z0 z0)
    have a := mul_le_mul zu zu z0 (mul_nonneg hz (by linarith))
    have b := mul_le_mul zl zl (mul_nonneg hz (by linarith)) z0
    constructor
    · refine le_trans ?_ pl
      have := mul_le_mul_of_nonneg_right b (show 0 ≤ 1 - unit by linarith)
      calc z ^ 2 * (1 - unit) ^ 3 = z * (1 - unit) * (z * (1 - unit)) * (1 - unit) := by ring
        _ ≤ _ := this
    · refine le_trans pu ?_
      have := mul_le_mul_of_nonneg_right a (show 0 ≤ 1 + unit by linarith)
      calc R.rd z * R.rd z * (1 + unit) ≤ z * (1 + unit) * (z * (1 + unit)) * (1 + unit) := this
        _ = _ := by ring
  refine ⟨R.nonneg (mul_self_nonneg _), ?_, ?_, ?_⟩
  · rcases le_total 0 (y - x) with h | h
    · exact (key _ h).1
    · have := (key (-(y - x)) (by linarith)).1
      rwa [R.odd, neg_mul_neg, neg_sq] at this
  · rcases le_total 0 (y - x) with h | h
    · exact (key _ h).2
    · have := (key (-(y - x)) (by linarith)).2
      rwa [R.odd, neg_mul_neg, neg_sq] at this
  · rw [R.eq_zero, mul_self_eq_zero, R.eq_zero, sub_eq_zero, eq_comm]

/-- the exact sum of squares -/
noncomputable def exactSquares (p q : List ℝ) : ℝ := (List.zipWith (fun x y => (y - x) ^ 2) p q).sum

theorem squaredLoop_spec : ∀ (p q : List ℝ) (sum : ℝ), p.length = q.length → 0 ≤ sum →
    ∃ s, squaredLoop R sum p q = .ok s ∧ squaredLoop R sum q p = .ok s ∧ 0 ≤ s ∧ R.rd sum ≤ R.rd s ∧
      (s = 0 ↔ sum = 0 ∧ p = q) ∧
      sum * (1 - unit) ^ p.length + exactSquares p q * (1 - unit) ^ (p.length + 3) ≤ s ∧
      s ≤ sum * (1 + unit) ^ p.length + exactSquares p q * (1 + unit) ^ (p.length + 3)
  | [], [], sum, _, h => ⟨sum, rfl, rfl, h, le_refl _, by simp, by simp [exactSquares], by simp [exactSquares]⟩
  | [], _ :: _, _, h, _ => by simp at h
  | _ :: _, [], _, h, _ => by simp at h
  | x :: p, y :: q, sum, h, hs => by
    obtain ⟨t0, t1, t2, t3⟩ := term_bounds R x y
    have hsw : R.rd (R.rd (x - y) * R.rd (x - y)) = R.rd (R.rd (y - x) * R.rd (y - x)) := by
      rw [← neg_sub y x, R.odd, neg_mul_neg]
    have hu := Rounding.unit_pos
    have hu1 := unit_small
    have hn := add_nonneg hs t0
    have su := R.upper hn
    have sl := R.lower hn
    have sm := R.mono (le_add_of_nonneg_right t0 : sum ≤ sum + R.rd (R.rd (y - x) * R.rd (y - x)))
    have idem := R.idem (sum + R.rd (R.rd (y - x) * R.rd (y - x)))
    obtain ⟨s, e1, e2, s0, smono, sz, sL, sU⟩ := squaredLoop_spec p q
      (R.rd (sum + R.rd (R.rd (y - x) * R.rd (y - x)))) (by simpa using h) (R.nonneg hn)
    rw [R.eq_zero] at sz
    rw [idem] at smono
    refine ⟨s, e1, ?_, s0, le_trans sm smono, ?_, ?_, ?_⟩
    · unfold squaredLoop
      rw [hsw]; exact e2
    · rw [sz, List.cons.injEq, ← t3]
      constructor
      · rintro ⟨h1, h2⟩
        exact ⟨by linarith, by linarith, h2⟩
      · rintro ⟨h1, h2, h3⟩
        exact ⟨by linarith, h3⟩
    · refine le_trans ?_ sL
      have hE : exactSquares (x :: p) (y :: q) = (y - x) ^ 2 + exactSquares p q := by simp [exactSquares]
      rw [hE, List.length_cons]
      have pw : 0 ≤ (1 - unit) ^ p.length := pow_nonneg (by linarith) _
      have h1 : (sum + (y - x) ^ 2 * (1 - unit) ^ 3) * (1 - unit) ≤ R.rd (sum + R.rd (R.rd (y - x) * R.rd (y - x))) :=
        le_trans (mul_le_mul_of_nonneg_right (by linarith) (by linarith)) sl
      have h2 := mul_le_mul_of_nonneg_right h1 pw
      have hEn : 0 ≤ exactSquares p q := List.sum_nonneg (by
        intro z hz
        obtain ⟨i, hi, rfl⟩ := List.mem_iff_getElem.1 hz
        rw [List.getElem_zipWith]; exact sq_nonneg _)
      have h3 : exactSquares p q * (1 - unit) ^ (p.length + 1 + 3) ≤ exactSquares p q * (1 - unit) ^ (p.length + 3) :=
        mul_le_mul_of_nonneg_left (pow_le_pow_of_le_one (by linarith) (by linarith) (by omega)) hEn
      have e : (sum + (y - x) ^ 2 * (1 - unit) ^ 3) * (1 - unit) * (1 - unit) ^ p.length =
          sum * (1 - unit) ^ (p.length + 1) + (y - x) ^ 2 * (1 - unit) ^ (p.length + 1 + 3) := by ring
      rw [e] at h2
      linarith
    · refine le_trans sU ?_
      have hE : exactSquares (x :: p) (y :: q) = (y - x) ^ 2 + exactSquares p q := by simp [exactSquares]
      rw [hE, List.length_cons]
      have pw : 0 ≤ (1 + unit) ^ p.length := pow_nonneg (by linarith) _
      have h1 : R.rd (sum + R.rd (R.rd (y - x) * R.rd (y - x))) ≤ (sum + (y - x) ^ 2 * (1 + unit) ^ 3) * (1 + unit) :=
        le_trans su (mul_le_mul_of_nonneg_right (by linarith) (by linarith))
      have h2 := mul_le_mul_of_nonneg_right h1 pw
      have hEn : 0 ≤ exactSquares p q := List.sum_nonneg (by
        intro z hz
        obtain ⟨i, hi, rfl⟩ := List.mem_iff_getElem.1 hz
        rw [List.getElem_zipWith]; exact sq_nonneg _)
      have h3 : exactSquares p q * (1 + unit) ^ (p.length + 3) ≤ exactSquares p q * (1 + unit) ^ (p.length + 1 + 3) :=
        mul_le_mul_of_nonneg_left (pow_le_pow_right₀ (by linarith) (by omega)) hEn
      have e : (sum + (y - x) ^ 2 * (1 + unit) ^ 3) * (1 + unit) * (1 + unit) ^ p.length =
          sum * (1 + unit) ^ (p.length + 1) + (y - x) ^ 2 * (1 + unit) ^ (p.length + 1 + 3) := by ring
      rw [e] at h2
      linarith

/-- **C160.** The computed squared distance: infinite for different sizes; otherwise not negative, the same in both
directions, zero exactly for equal vectors, and off by a factor of at most `(1 ± unit) ^ (n + 3)`. -/
theorem C160_squared (p q : List ℝ) :
    (p.length ≠ q.length → squaredDistance R p q = .ok none) ∧
    (p.length = q.length → ∃ s, squaredDistance R p q = .ok (some s) ∧ squaredDistance R q p = .ok (some s) ∧
      0 ≤ s ∧ (s = 0 ↔ p = q) ∧
      (List.zipWith (fun x y => (y - x) ^ 2) p q).sum * (1 - unit) ^ (p.length + 3) ≤ s ∧
      s ≤ (List.zipWith (fun x y => (y - x) ^ 2) p q).sum * (1 + unit) ^ (p.length + 3)) := by
  refine ⟨fun h => by unfold squaredDistance; rw [if_neg h], fun h => ?_⟩
  obtain ⟨s, e1, e2, s0, _, sz, sL, sU⟩ := squaredLoop_spec R p q 0 h (le_refl _)
  refine ⟨s, ?_, ?_, s0, by simpa using sz, by simpa [exactSquares] using sL, by simpa [exactSquares] using sU⟩
  · unfold squaredDistance
    rw [if_pos h, e1]; rfl
  · unfold squaredDistance
    rw [if_pos h.symm, e2]; rfl

/-- **C160.** The computed distance likewise, its square being off by a factor of at most `(1 ± unit) ^ (n + 5)`. -/
theorem C160_distance (p q : List ℝ) :
    (p.length ≠ q.length → distance R p q = .ok none) ∧
    (p.length = q.length → ∃ d, distance R p q = .ok (some d) ∧ distance R q p = .ok (some d) ∧
      0 ≤ d ∧ (d = 0 ↔ p = q) ∧
      (List.zipWith (fun x y => (y - x) ^ 2) p q).sum * (1 - unit) ^ (p.length + 5) ≤ d ^ 2 ∧
      d ^ 2 ≤ (List.zipWith (fun x y => (y - x) ^ 2) p q).sum * (1 + unit) ^ (p.length + 5)) := by
  have hu := Rounding.unit_pos
  have hu1 := unit_small
  refine ⟨fun h => by unfold distance; rw [if_neg h], fun h => ?_⟩
  obtain ⟨s, e1, e2, s0, sz, sL, sU⟩ := (C160_squared R p q).2 h
  have q0 := Real.sqrt_nonneg s
  have hsq := Real.sq_sqrt s0
  have up := R.upper q0
  have lo := R.lower q0
  have r0 := R.nonneg q0
  refine ⟨R.rd (Real.sqrt s), ?_, ?_, r0, ?_, ?_, ?_⟩
  · unfold distance
    rw [if_pos h, e1]; rfl
  · unfold distance
    rw [if_pos h.symm, e2]; rfl
  · rw [R.eq_zero, Real.sqrt_eq_zero s0, sz]
  · have h1 : (Real.sqrt s * (1 - unit)) ^ 2 ≤ R.rd (Real.sqrt s) ^ 2 :=
      pow_le_pow_left₀ (mul_nonneg q0 (by linarith)) lo 2
    rw [mul_pow, hsq] at h1
    refine le_trans ?_ h1
    have := mul_le_mul_of_nonneg_right sL (sq_nonneg (1 - unit))
    rw [mul_assoc, ← pow_add] at this
    exact this
  · have h1 : R.rd (Real.sqrt s) ^ 2 ≤ (Real.sqrt s * (1 + unit)) ^ 2 := pow_le_pow_left₀ r0 up 2
    rw [mul_pow, hsq] at h1
    refine le_trans h1 ?_
    have := mul_le_mul_of_nonneg_right sU (sq_nonneg (1 + unit))
    rw [mul_assoc, ← pow_add] at this
    exact this

example : ∃ d, distance Nearest.nearest [1, 2, 3] [4, 6, 3] = .ok (some d) ∧ d ≠ 0 := by
  obtain ⟨d, h, _, _, hz, _⟩ := (C160_distance Nearest.nearest [1, 2, 3] [4, 6, 3]).2 rfl
  exact ⟨d, h, fun e => by have := hz.1 e; norm_num at this⟩

/-! ## Length of a path -/

theorem totalLoop_spec {T : Type} (dist : T → T → ℝ) (hd : ∀ a b, 0 ≤ dist a b) (path : List T) :
    ∀ (n i k : Nat) (t e : ℝ), n = 0 ∨ i + n < path.length → R.Fp t → 0 ≤ t → 0 ≤ e →
    e * (1 - unit) ^ k ≤ t → t ≤ e * (1 + unit) ^ k →
    ∃ r E, totalLoop R dist path n i t = .ok r ∧ Averages.totalLoop dist path n i e = .ok E ∧ R.Fp r ∧ t ≤ r ∧
      0 ≤ E ∧ E * (1 - unit) ^ (k + n) ≤ r ∧ r ≤ E * (1 + unit) ^ (k + n)
  | 0, i, k, t, e, _, ft, h0, he, h1, h2 => ⟨t, e, rfl, rfl, ft, le_refl _, he, h1, h2⟩
  | n + 1, i, k, t, e, h, ft, h0, he, h1, h2 => by
    have hu := Rounding.unit_pos
    have hu1 := unit_small
    have hi : i + 1 < path.length := by omega
    have hn : 0 ≤ t + dist path[i] path[i + 1] := add_nonneg h0 (hd _ _)
    have up := R.upper hn
    have lo := R.lower hn
    have dn := hd path[i] path[i + 1]
    have mono : t ≤ R.rd (t + dist path[i] path[i + 1]) := by
      have := R.mono (le_add_of_nonneg_right dn : t ≤ t + dist path[i] path[i + 1])
      rwa [show R.rd t = t from ft] at this
    have p1 : (1 - unit) ^ k ≤ 1 := pow_le_one₀ (by linarith) (by linarith)
    have p2 : 1 ≤ (1 + unit) ^ k := one_le_pow₀ (by linarith)
    have d1 := mul_le_mul_of_nonneg_left p1 dn
    have d2 := mul_le_mul_of_nonneg_left p2 dn
    have lower : (e + dist path[i] path[i + 1]) * (1 - unit) ^ (k + 1) ≤ R.rd (t + dist path[i] path[i + 1]) := by
      refine le_trans ?_ lo
      rw [pow_succ, ← mul_assoc]
      exact mul_le_mul_of_nonneg_right (by linarith) (by linarith)
    have upper : R.rd (t + dist path[i] path[i + 1]) ≤ (e + dist path[i] path[i + 1]) * (1 + unit) ^ (k + 1) := by
      refine le_trans up ?_
      rw [pow_succ, ← mul_assoc]
      exact mul_le_mul_of_nonneg_right (by linarith) (by linarith)
    obtain ⟨r, E, e1, e2, fr, hr, hE, l, u⟩ := totalLoop_spec dist hd path n (i + 1) (k + 1)
      (R.rd (t + dist path[i] path[i + 1])) (e + dist path[i] path[i + 1]) (by omega) (R.fp_rd _) (R.nonneg hn)
      (add_nonneg he dn) lower upper
    have g1 : path[i]? = some path[i] := List.getElem?_eq_getElem _
    have g2 : path[i + 1]? = some path[i + 1] := List.getElem?_eq_getElem _
    refine ⟨r, E, ?_, ?_, fr, le_trans mono hr, hE, ?_, ?_⟩
    · unfold totalLoop
      rw [g1, g2]; exact e1
    · unfold Averages.totalLoop
      rw [g1, g2]; exact e2
    · rw [show k + (n + 1) = k + 1 + n by omega]; exact l
    · rw [show k + (n + 1) = k + 1 + n by omega]; exact u

theorem totalLoop_append {T : Type} (dist : T → T → ℝ) (path back : List T) :
    ∀ (n i : Nat) (t : ℝ), n = 0 ∨ i + n < path.length →
    totalLoop R dist (path ++ back) n i t = totalLoop R dist path n i t
  | 0, _, _, _ => rfl
  | n + 1, i, t, h => by
    unfold totalLoop
    rw [List.getElem?_append_left (by omega), List.getElem?_append_left (by omega)]
    cases path[i]? <;> cases path[i + 1]? <;> try rfl
    exact totalLoop_append dist path back n (i + 1) _ (by omega)

theorem totalLoop_last {T : Type} (dist : T → T → ℝ) (path : List T) :
    ∀ (n i : Nat) (t r : ℝ) (a b : T), totalLoop R dist path n i t = .ok r →
    path[i + n]? = some a → path[i + n + 1]? = some b →
    totalLoop R dist path (n + 1) i t = .ok (R.rd (r + dist a b))
  | 0, i, t, r, a, b, h, ha, hb => by
    simp only [totalLoop, Out.ok.injEq] at h
    subst h
    rw [Nat.add_zero] at ha hb
    unfold totalLoop
    rw [ha, hb]; rfl
  | n + 1, i, t, r, a, b, h, ha, hb => by
    unfold totalLoop at h ⊢
    cases h1 : path[i]? with
    | none => rw [h1] at h; simp at h
    | some x =>
      cases h2 : path[i + 1]? with
      | none => rw [h1, h2] at h; simp at h
      | some y =>
        rw [h1, h2] at h
        exact totalLoop_last dist path n (i + 1) _ r a b h
          (by rw [← ha]; congr 1; omega) (by rw [← hb]; congr 1; omega)

/-- **C160.** The computed length of a path of `n + 1` points is off by a factor of at most `(1 ± unit) ^ n`, whatever
the (non-negative) distance; adding a point adds the rounded distance and never makes the path shorter. -/
theorem C160_total {T : Type} (dist : T → T → ℝ) (hd : ∀ a b, 0 ≤ dist a b) (front : List T) (a : T) :
    ∃ r E, totalDistance R dist (front ++ [a]) = .ok r ∧ Averages.totalDistance dist (front ++ [a]) = .ok E ∧
      E * (1 - unit) ^ front.length ≤ r ∧ r ≤ E * (1 + unit) ^ front.length ∧
      ∀ b, totalDistance R dist (front ++ [a, b]) = .ok (R.rd (r + dist a b)) ∧ r ≤ R.rd (r + dist a b) := by
  obtain ⟨r, E, e1, e2, fr, _, _, l, u⟩ := totalLoop_spec R dist hd (front ++ [a]) front.length 0 0 0 0
    (by simp) R.fp_zero (le_refl _) (le_refl _) (by simp) (by simp)
  rw [Nat.zero_add] at l u
  refine ⟨r, E, ?_, ?_, l, u, fun b => ⟨?_, ?_⟩⟩
  · unfold totalDistance
    rw [List.length_append]; exact e1
  · unfold Averages.totalDistance
    rw [List.length_append]; exact e2
  · unfold totalDistance
    rw [show (front ++ [a, b]).length - 1 = front.length + 1 by simp]
    apply totalLoop_last
    · rw [show front ++ [a, b] = (front ++ [a]) ++ [b] by simp, totalLoop_append R dist _ _ _ _ _ (by simp)]
      exact e1
    · simp
    · simp
  · have := R.mono (le_add_of_nonneg_right (hd a b) : r ≤ r + dist a b)
    rwa [show R.rd r = r from fr] at this

example : ∃ r, totalDistance Nearest.nearest (fun x y : ℝ => |x - y|) [1, 2, 4] = .ok r := by
  obtain ⟨r, _, h, _⟩ := C160_total Nearest.nearest (fun x y : ℝ => |x - y|) (fun _ _ => abs_nonneg _) [1, 2] 4
  exact ⟨r, h⟩

/-! ## Averages -/

/-- the share of one weight -/
theorem share {w S : ℝ} (hw : 0 ≤ w) (fw : R.Fp w) (hS : 0 < S) :
    w ≤ R.rd (S + w) ∧ 0 < R.rd (S + w) ∧ 0 ≤ R.rd (w / R.rd (S + w)) ∧ R.rd (w / R.rd (S + w)) ≤ 1 := by
  have h1 : w ≤ R.rd (S + w) := by
    have := R.mono (le_add_of_nonneg_left hS.le : w ≤ S + w)
    rwa [show R.rd w = w from fw] at this
  have h2 : 0 < R.rd (S + w) := by
    have h3 := R.nonneg (add_nonneg hS.le hw)
    rcases eq_or_lt_of_le h3 with h | h
    · have := R.eq_zero.1 h.symm
      linarith
    · exact h
  obtain ⟨a, b⟩ := R.between R.fp_zero R.fp_one (div_nonneg hw h2.le) ((div_le_one h2).2 h1)
  exact ⟨h1, h2, a, b⟩

/-- One step of the average, with the share `s` of the new value: it stays near the values, and is the exact step up to
seven rounding errors. -/
theorem step_bounds {avg cur s lo hi M : ℝ} (favg : R.Fp avg) (s0 : 0 ≤ s) (s1 : s ≤ 1)
    (hlo : |lo| ≤ M) (hhi : |hi| ≤ M) (c1 : lo ≤ cur) (c2 : cur ≤ hi)
    (a1 : lo - 4 * unit * M ≤ avg) (a2 : avg ≤ hi + 4 * unit * M) :
    lo - 4 * unit * M ≤ R.rd (avg + R.rd (s * R.rd (cur - avg))) ∧
    R.rd (avg + R.rd (s * R.rd (cur - avg))) ≤ hi + 4 * unit * M ∧
    |R.rd (avg + R.rd (s * R.rd (cur - avg))) - (avg + s * (cur - avg))| ≤ 7 * unit * M := by
  have hu := Rounding.unit_pos
  have hu1 := unit_small
  have hM : 0 ≤ M := le_trans (abs_nonneg _) hlo
  obtain ⟨l1, l2⟩ := abs_le.1 hlo
  obtain ⟨k1, k2⟩ := abs_le.1 hhi
  have huM : 0 ≤ unit * M := mul_nonneg hu.le hM
  have huMM : unit * M ≤ 1 / 1000 * M := mul_le_mul_of_nonneg_right hu1 hM
  have huu : unit * (unit * M) ≤ 1 / 1000 * (unit * M) := mul_le_mul_of_nonneg_right hu1 huM
  have huu0 : 0 ≤ unit * (unit * M) := mul_nonneg hu.le huM
  -- the difference
  have hD : |cur - avg| ≤ 2 * M + 4 * (unit * M) := by rw [abs_le]; constructor <;> linarith
  have cerr : |R.rd (cur - avg) - (cur - avg)| ≤ unit * (2 * M + 4 * (unit * M)) :=
    le_trans (R.err _) (mul_le_mul_of_nonneg_left hD hu.le)
  obtain ⟨ce1, ce2⟩ := abs_le.1 cerr
  -- where the value would go with the whole difference
  have hfull : |avg + R.rd (cur - avg)| ≤ M + unit * (2 * M + 4 * (unit * M)) := by
    rw [abs_le]; constructor <;> linarith
  have ferr : |R.rd (avg + R.rd (cur - avg)) - (avg + R.rd (cur - avg))| ≤
      unit * (M + unit * (2 * M + 4 * (unit * M))) :=
    le_trans (R.err _) (mul_le_mul_of_nonneg_left hfull hu.le)
  obtain ⟨fe1, fe2⟩ := abs_le.1 ferr
  have huuu : unit * (unit * (unit * M)) ≤ 1 / 1000 * (unit * (unit * M)) := mul_le_mul_of_nonneg_right hu1 huu0
  have full1 : lo - 4 * unit * M ≤ R.rd (avg + R.rd (cur - avg)) := by linarith
  have full2 : R.rd (avg + R.rd (cur - avg)) ≤ hi + 4 * unit * M := by linarith
  have fc := R.fp_rd (cur - avg)
  have eavg : R.rd avg = avg := favg
  -- the exact step
  have herr : |R.rd (avg + R.rd (s * R.rd (cur - avg))) - (avg + s * (cur - avg))| ≤ 7 * unit * M := by
    have hcb : |R.rd (cur - avg)| ≤ 2 * M + 4 * (unit * M) + unit * (2 * M + 4 * (unit * M)) := by
      have := abs_add_le (R.rd (cur - avg) - (cur - avg)) (cur - avg)
      rw [sub_add_cancel] at this
      linarith
    have hp1 : |s * R.rd (cur - avg)| ≤ 2 * M + 4 * (unit * M) + unit * (2 * M + 4 * (unit * M)) := by
      rw [abs_mul, abs_of_nonneg s0]
      exact le_trans (mul_le_of_le_one_left (abs_nonneg _) s1) hcb
    have perr := le_trans (R.err (s * R.rd (cur - avg))) (mul_le_mul_of_nonneg_left hp1 hu.le)
    have serr : |s * (R.rd (cur - avg) - (cur - avg))| ≤ unit * (2 * M + 4 * (unit * M)) := by
      rw [abs_mul, abs_of_nonneg s0]
      exact le_trans (mul_le_of_le_one_left (abs_nonneg _) s1) cerr
    obtain ⟨pe1, pe2⟩ := abs_le.1 perr
    obtain ⟨se1, se2⟩ := abs_le.1 serr
    have m1 := mul_nonneg s0 (sub_nonneg.2 (show cur ≤ M by linarith))
    have m2 := mul_nonneg s0 (sub_nonneg.2 (show -M ≤ cur by linarith))
    have n1 := mul_nonneg (sub_nonneg.2 s1) (sub_nonneg.2 (show avg ≤ M + 4 * (unit * M) by linarith))
    have n2 := mul_nonneg (sub_nonneg.2 s1) (sub_nonneg.2 (show -(M + 4 * (unit * M)) ≤ avg by linarith))
    have o1 := mul_nonneg s0 huM
    have hex : |avg + s * (cur - avg)| ≤ M + 4 * (unit * M) := by
      rw [abs_le]; constructor <;> linarith
    obtain ⟨x1, x2⟩ := abs_le.1 hex
    have hy : |avg + R.rd (s * R.rd (cur - avg))| ≤ M + 9 * (unit * M) := by
      rw [abs_le]; constructor <;> linarith
    have yerr := le_trans (R.err (avg + R.rd (s * R.rd (cur - avg)))) (mul_le_mul_of_nonneg_left hy hu.le)
    obtain ⟨ye1, ye2⟩ := abs_le.1 yerr
    rw [abs_le]; constructor <;> linarith
  rcases le_total 0 (R.rd (cur - avg)) with h | h
  · have p0 : 0 ≤ R.rd (s * R.rd (cur - avg)) := R.nonneg (mul_nonneg s0 h)
    have p1 : R.rd (s * R.rd (cur - avg)) ≤ R.rd (cur - avg) := by
      have := R.mono (mul_le_of_le_one_left h s1)
      rwa [show R.rd (R.rd (cur - avg)) = R.rd (cur - avg) from fc] at this
    have u1 := R.mono (le_add_of_nonneg_right p0 : avg ≤ avg + R.rd (s * R.rd (cur - avg)))
    have u2 := R.mono (add_le_add_right p1 avg)
    rw [eavg] at u1
    exact ⟨by linarith, by linarith, herr⟩
  · have p0 : R.rd (s * R.rd (cur - avg)) ≤ 0 := by
      have := R.mono (mul_nonpos_of_nonneg_of_nonpos s0 h)
      rwa [R.zero] at this
    have p1 : R.rd (cur - avg) ≤ R.rd (s * R.rd (cur - avg)) := by
      have : R.rd (cur - avg) ≤ s * R.rd (cur - avg) := by nlinarith
      have := R.mono this
      rwa [show R.rd (R.rd (cur - avg)) = R.rd (cur - avg) from fc] at this
    have u1 := R.mono (add_le_of_nonpos_right p0 : avg + R.rd (s * R.rd (cur - avg)) ≤ avg)
    have u2 := R.mono (add_le_add_right p1 avg)
    rw [eavg] at u1
    exact ⟨by linarith, by linarith, herr⟩

/-- The error of the running sum of weights and of the share of the newest. -/
theorem share_error {w S E K : ℝ} (hw : 0 ≤ w) (hS : 0 ≤ S) (hE : 0 < E) (hK : 0 ≤ K) (hk : (K + 1) * unit ≤ 1 / 1000)
    (h : |S - E| ≤ 2 * K * unit * E) :
    |R.rd (S + w) - (E + w)| ≤ 2 * (K + 1) * unit * (E + w) ∧
    |R.rd (w / R.rd (S + w)) - w / (E + w)| ≤ 4 * (K + 1) * unit * (w / (E + w)) := by
  have hu := Rounding.unit_pos
  have hu1 := unit_small
  have hX : 0 < E + w := by linarith
  obtain ⟨h1, h2⟩ := abs_le.1 h
  have n := add_nonneg hS hw
  have up := R.upper n
  have lo := R.lower n
  have hKu : 0 ≤ K * unit := mul_nonneg hK hu.le
  have hKuw : 0 ≤ K * unit * w := mul_nonneg hKu hw
  have hKuE : 0 ≤ K * unit * E := mul_nonneg hKu hE.le
  have hsu : (S + w) * unit ≤ ((E + w) * (1 + 2 * K * unit)) * unit :=
    mul_le_mul_of_nonneg_right (by linarith) hu.le
  have hXu : 0 < (E + w) * unit := mul_pos hX hu
  have hKuX : K * unit * ((E + w) * unit) ≤ 1 / 1000 * ((E + w) * unit) :=
    mul_le_mul_of_nonneg_right (by linarith) hXu.le
  have hS' : |R.rd (S + w) - (E + w)| ≤ 2 * (K + 1) * unit * (E + w) := by
    rw [abs_le]; constructor <;> linarith
  refine ⟨hS', ?_⟩
  -- the share
  generalize R.rd (S + w) = S' at *
  obtain ⟨a1, a2⟩ := abs_le.1 hS'
  set θ := 2 * ((K + 1) * unit) with hθ
  have θ0 : 0 ≤ θ := by positivity
  have θ1 : θ ≤ 1 / 500 := by linarith
  have θu : unit ≤ θ / 2 := by rw [hθ]; linarith
  have b1 : (E + w) * (1 - θ) ≤ S' := by linarith
  have b2 : S' ≤ (E + w) * (1 + θ) := by linarith
  have S'0 : 0 < S' := lt_of_lt_of_le (mul_pos hX (by linarith)) b1
  set e := w / (E + w) with he
  have e0 : 0 ≤ e := div_nonneg hw hX.le
  have ew : w = e * (E + w) := by rw [he]; field_simp
  have q0 : 0 ≤ w / S' := div_nonneg hw S'0.le
  have q1 : w / S' ≤ e * (1 + 51 / 50 * θ) := by
    rw [div_le_iff₀ S'0]
    have c1 : 1 ≤ (1 + 51 / 50 * θ) * (1 - θ) := by nlinarith
    have c2 := mul_le_mul_of_nonneg_left b1 (mul_nonneg e0 (show 0 ≤ 1 + 51 / 50 * θ by linarith))
    have c3 := mul_le_mul_of_nonneg_left c1 (mul_nonneg e0 hX.le)
    calc w = e * (E + w) * 1 := by rw [mul_one]; exact ew
      _ ≤ e * (E + w) * ((1 + 51 / 50 * θ) * (1 - θ)) := c3
      _ = e * (1 + 51 / 50 * θ) * ((E + w) * (1 - θ)) := by ring
      _ ≤ _ := c2
  have q2 : e * (1 - θ) ≤ w / S' := by
    rw [le_div_iff₀ S'0]
    have c2 := mul_le_mul_of_nonneg_left b2 (mul_nonneg e0 (show 0 ≤ 1 - θ by linarith))
    have c1 : (1 - θ) * (1 + θ) ≤ 1 := by nlinarith
    have c3 := mul_le_mul_of_nonneg_left c1 (mul_nonneg e0 hX.le)
    calc e * (1 - θ) * S' ≤ e * (1 - θ) * ((E + w) * (1 + θ)) := c2
      _ = e * (E + w) * ((1 - θ) * (1 + θ)) := by ring
      _ ≤ e * (E + w) * 1 := c3
      _ = w := by rw [mul_one]; exact ew.symm
  have up := R.upper q0
  have lo := R.lower q0
  have eθ : 0 ≤ e * θ := mul_nonneg e0 θ0
  have eu : e * unit ≤ e * (θ / 2) := mul_le_mul_of_nonneg_left θu e0
  have eu0 : 0 ≤ e * unit := mul_nonneg e0 hu.le
  have eθu : e * θ * unit ≤ e * θ * (1 / 1000) := mul_le_mul_of_nonneg_left hu1 eθ
  have eθu0 : 0 ≤ e * θ * unit := mul_nonneg eθ hu.le
  have q1u := mul_le_mul_of_nonneg_right q1 hu.le
  have key : 4 * (K + 1) * unit * e = 2 * (e * θ) := by rw [hθ]; ring
  rw [key, abs_le]
  constructor <;> linarith

theorem averageLoop_spec {lo hi M : ℝ} (hlo : |lo| ≤ M) (hhi : |hi| ≤ M) (weights : List ℝ) :
    ∀ (rest : List ℝ) (i k : Nat) (avg S avgE E : ℝ),
    (∀ j : Nat, j < rest.length → ∃ w, Averages.weightAt weights (i + j) = .ok w ∧ 0 ≤ w ∧ R.Fp w) →
    (∀ v ∈ rest, lo ≤ v ∧ v ≤ hi) → k + rest.length ≤ 2 ^ 40 →
    R.Fp avg → lo - 4 * unit * M ≤ avg → avg ≤ hi + 4 * unit * M → 0 < S → 0 < E →
    |S - E| ≤ 2 * k * unit * E → |avg - avgE| ≤ 20 * k * unit * M →
    ∃ r rE, averageLoop R weights rest i avg S = .ok r ∧ Averages.averageLoop weights rest i avgE E = .ok rE ∧
      lo - 4 * unit * M ≤ r ∧ r ≤ hi + 4 * unit * M ∧ |r - rE| ≤ 20 * ((k + rest.length : Nat) : ℝ) * unit * M
  | [], i, k, avg, S, avgE, E, _, _, _, _, a1, a2, _, _, _, hD => ⟨avg, avgE, rfl, rfl, a1, a2, hD⟩
  | cur :: rest, i, k, avg, S, avgE, E, hw, hv, hk, favg, a1, a2, hS, hE, hSE, hD => by
    obtain ⟨w, ew, w0, fw⟩ := hw 0 (by simp)
    rw [Nat.add_zero] at ew
    obtain ⟨c1, c2⟩ := hv cur (by simp)
    obtain ⟨_, S'0, s0, s1⟩ := share R w0 fw hS
    obtain ⟨b1, b2, b3⟩ := step_bounds R favg s0 s1 hlo hhi c1 c2 a1 a2
    have hu := Rounding.unit_pos
    have hu1 := unit_small
    have hM : 0 ≤ M := le_trans (abs_nonneg _) hlo
    have hK : (0 : ℝ) ≤ (k : ℝ) := Nat.cast_nonneg k
    have hk' : ((k : ℝ) + 1) * unit ≤ 1 / 1000 := by
      have h1 : ((k + 1 : Nat) : ℝ) ≤ ((2 ^ 40 : Nat) : ℝ) :=
        Nat.cast_le.2 (by rw [List.length_cons] at hk; omega)
      push_cast at h1
      have h2 := mul_le_mul_of_nonneg_right h1 hu.le
      have h3 : (2 : ℝ) ^ 40 * unit ≤ 1 / 1000 := by unfold unit; norm_num
      linarith
    obtain ⟨d1, d2⟩ := share_error R w0 hS.le hE hK hk' hSE
    have X0 : 0 < E + w := by linarith
    have e0 : 0 ≤ w / (E + w) := div_nonneg w0 X0.le
    have e1 : w / (E + w) ≤ 1 := (div_le_one X0).2 (by linarith)
    -- the error of the average
    have huM : 0 ≤ unit * M := mul_nonneg hu.le hM
    have huMM : unit * M ≤ 1 / 1000 * M := mul_le_mul_of_nonneg_right hu1 hM
    obtain ⟨l1, l2⟩ := abs_le.1 hlo
    obtain ⟨k1, k2⟩ := abs_le.1 hhi
    have hcur : |cur - avg| ≤ 3 * M := by rw [abs_le]; constructor <;> linarith
    have herr : |R.rd (avg + R.rd (R.rd (w / R.rd (S + w)) * R.rd (cur - avg))) -
        (avgE + w / (E + w) * (cur - avgE))| ≤ 20 * ((k + 1 : Nat) : ℝ) * unit * M := by
      push_cast
      generalize R.rd (avg + R.rd (R.rd (w / R.rd (S + w)) * R.rd (cur - avg))) = y at *
      generalize R.rd (w / R.rd (S + w)) = s at *
      generalize w / (E + w) = e at *
      have f1 : |(s - e) * (cur - avg)| ≤ 4 * ((k : ℝ) + 1) * unit * e * (3 * M) := by
        rw [abs_mul]
        exact mul_le_mul d2 hcur (abs_nonneg _) (by positivity)
      have f2 : |(1 - e) * (avg - avgE)| ≤ (1 - e) * (20 * k * unit * M) := by
        rw [abs_mul, abs_of_nonneg (sub_nonneg.2 e1)]
        exact mul_le_mul_of_nonneg_left hD (sub_nonneg.2 e1)
      obtain ⟨x1, x2⟩ := abs_le.1 f1
      obtain ⟨y1, y2⟩ := abs_le.1 f2
      obtain ⟨z1, z2⟩ := abs_le.1 b3
      have hkuM : 0 ≤ (k : ℝ) * (unit * M) := mul_nonneg hK huM
      have g1 : 0 ≤ e * ((k : ℝ) * (unit * M)) := mul_nonneg e0 hkuM
      have g2 : e * (unit * M) ≤ 1 * (unit * M) := mul_le_mul_of_nonneg_right e1 huM
      rw [abs_le]
      constructor <;> linarith
    obtain ⟨r, rE, h1, h2, h3, h4, h5⟩ := averageLoop_spec hlo hhi weights rest (i + 1) (k + 1) _ _
      (avgE + w / (E + w) * (cur - avgE)) (E + w)
      (fun j hj => by
        obtain ⟨w', h⟩ := hw (j + 1) (by simpa using hj)
        exact ⟨w', by rw [show i + 1 + j = i + (j + 1) by omega]; exact h⟩)
      (fun v h => hv v (by simp [h])) (by rw [List.length_cons] at hk; omega) (R.fp_rd _) b1 b2 S'0 X0
      (by push_cast; exact d1) herr
    refine ⟨r, rE, ?_, ?_, h3, h4, ?_⟩
    · unfold averageLoop
      rw [ew]; exact h1
    · unfold Averages.averageLoop
      rw [ew]; exact h2
    · rw [List.length_cons, show k + (rest.length + 1) = k + 1 + rest.length by omega]
      exact h5

theorem fp_abs {x : ℝ} (h : R.Fp x) : R.Fp |x| := by
  rcases abs_choice x with e | e <;> rw [e]
  · exact h
  · exact R.fp_neg h

/-- Both averages start from the first value whose weight is not zero. -/
theorem average_start (values weights : List ℝ) (h0 : values ≠ [])
    (hw : weights = [] ∨ weights.length = values.length ∧ ∃ w ∈ weights, w ≠ 0)
    (fw : ∀ w ∈ weights, R.Fp w) :
    ∃ (s : Nat) (first w : ℝ), s < values.length ∧ first ∈ values ∧ 0 < w ∧ R.Fp w ∧
      average R values weights = averageLoop R weights (values.drop (s + 1)) (s + 1) first w ∧
      Averages.average values weights = Averages.averageLoop weights (values.drop (s + 1)) (s + 1) first w ∧
      ∀ j : Nat, j < values.length → ∃ w, Averages.weightAt weights j = .ok w ∧ 0 ≤ w ∧ R.Fp w := by
  have hl := List.length_pos_iff.2 h0
  have hs : Averages.firstNonzero 0 weights < values.length ∧
      ∃ w, Averages.weightAt weights (Averages.firstNonzero 0 weights) = .ok w ∧ 0 < w ∧ R.Fp w := by
    rcases hw with rfl | ⟨hl', hne⟩
    · exact ⟨hl, 1, rfl, one_pos, R.fp_one⟩
    · obtain ⟨f1, f2, f3⟩ := Averages.firstNonzero_spec weights
      have hlt : Averages.firstNonzero 0 weights < weights.length := by
        rcases Nat.lt_or_ge (Averages.firstNonzero 0 weights) weights.length with h | h
        · exact h
        · obtain ⟨w, hm, hn⟩ := hne
          rw [List.take_of_length_le h] at f1
          exact absurd (f1 w hm) hn
      have g := List.getElem?_eq_getElem hlt
      refine ⟨by omega, |weights[Averages.firstNonzero 0 weights]|, ?_, abs_pos.2 (f3 _ g),
        fp_abs R (fw _ (List.getElem_mem hlt))⟩
      unfold Averages.weightAt
      rw [if_pos (by omega), g]
  obtain ⟨hlt, w, ew, w0, fw'⟩ := hs
  have hlen : weights.length = values.length ∨ weights.length = 0 := by
    rcases hw with rfl | ⟨h, _⟩
    · exact Or.inr rfl
    · exact Or.inl h
  refine ⟨Averages.firstNonzero 0 weights, values[Averages.firstNonzero 0 weights], w, hlt, List.getElem_mem hlt, w0,
    fw', ?_, ?_, ?_⟩
  · unfold average
    rw [Out.assert_true hl, Out.bind_ok, Out.assert_true hlen, Out.bind_ok]
    dsimp only
    rw [Out.assert_true hlt, Out.bind_ok, List.getElem?_eq_getElem hlt]
    dsimp only
    rw [ew, Out.bind_ok, Out.assert_true w0, Out.bind_ok]
  · unfold Averages.average
    rw [Out.assert_true hl, Out.bind_ok, Out.assert_true hlen, Out.bind_ok]
    dsimp only
    rw [Out.assert_true hlt, Out.bind_ok, List.getElem?_eq_getElem hlt]
    dsimp only
    rw [ew, Out.bind_ok, Out.assert_true w0, Out.bind_ok]
  · intro j hj
    rcases hw with rfl | ⟨h, _⟩
    · exact ⟨1, rfl, zero_le_one, R.fp_one⟩
    · have hj' : j < weights.length := by omega
      refine ⟨|weights[j]|, ?_, abs_nonneg _, fp_abs R (fw _ (List.getElem_mem hj'))⟩
      unfold Averages.weightAt
      rw [if_pos (by omega), List.getElem?_eq_getElem hj']

theorem averageLoop_same (weights : List ℝ) (v : ℝ) (fv : R.Fp v) : ∀ (rest : List ℝ) (i : Nat) (S r : ℝ),
    (∀ x ∈ rest, x = v) → averageLoop R weights rest i v S = .ok r → r = v
  | [], i, S, r, _, h => by simpa [averageLoop] using h.symm
  | cur :: rest, i, S, r, hv, h => by
    have hc := hv cur (by simp)
    subst hc
    unfold averageLoop at h
    rw [Out.bind_eq_ok] at h
    obtain ⟨w, _, h⟩ := h
    dsimp only at h
    rw [sub_self, R.zero, mul_zero, R.zero, add_zero, show R.rd cur = cur from fv] at h
    exact averageLoop_same weights cur fv rest (i + 1) _ r (fun x hx => hv x (by simp [hx])) h

/-- **C160.** The computed weighted average of up to `2 ^ 40` values: it ends in an assertion exactly when the exact one
does; it stays within the range of the values up to `4 * unit * M`, however many there are; it differs from the exact
average by at most `20 * n * unit * M`; and it is exact when all values are the same. `M` bounds the absolute values. -/
theorem C160_average (values weights : List ℝ) (fv : ∀ v ∈ values, R.Fp v) (fw : ∀ w ∈ weights, R.Fp w)
    (hn : values.length ≤ 2 ^ 40) :
    (average R values weights = .abort ↔
      values = [] ∨ (weights ≠ [] ∧ (weights.length ≠ values.length ∨ ∀ w ∈ weights, w = 0))) ∧
    ∀ rE, Averages.average values weights = .ok rE → ∃ r, average R values weights = .ok r ∧
      (∀ lo hi M, |lo| ≤ M → |hi| ≤ M → (∀ v ∈ values, lo ≤ v ∧ v ≤ hi) →
        lo - 4 * unit * M ≤ r ∧ r ≤ hi + 4 * unit * M ∧ |r - rE| ≤ 20 * (values.length : ℝ) * unit * M) ∧
      (∀ v, (∀ x ∈ values, x = v) → r = v) := by
  have hu := Rounding.unit_pos
  -- the run
  have run : ∀ lo hi M, |lo| ≤ M → |hi| ≤ M → (∀ v ∈ values, lo ≤ v ∧ v ≤ hi) → values ≠ [] →
      (weights = [] ∨ weights.length = values.length ∧ ∃ w ∈ weights, w ≠ 0) →
      ∃ r rE, average R values weights = .ok r ∧ Averages.average values weights = .ok rE ∧
        lo - 4 * unit * M ≤ r ∧ r ≤ hi + 4 * unit * M ∧ |r - rE| ≤ 20 * (values.length : ℝ) * unit * M := by
    intro lo hi M hlo hhi hv h0 hw
    have hM : 0 ≤ M := le_trans (abs_nonneg _) hlo
    have huM : 0 ≤ unit * M := mul_nonneg hu.le hM
    obtain ⟨s, first, w, hs, hm, w0, fw', e1, e2, hj⟩ := average_start R values weights h0 hw fw
    obtain ⟨c1, c2⟩ := hv first hm
    obtain ⟨r, rE, h1, h2, h3, h4, h5⟩ := averageLoop_spec R hlo hhi weights (values.drop (s + 1)) (s + 1) 0 first w
      first w (fun j h => hj _ (by rw [List.length_drop] at h; omega))
      (fun v h => hv v (List.mem_of_mem_drop h)) (by rw [List.length_drop]; omega) (fv first hm)
      (by linarith) (by linarith) w0 w0 (by simp) (by simp)
    refine ⟨r, rE, e1.trans h1, e2.trans h2, h3, h4, le_trans h5 ?_⟩
    have : ((0 + (values.drop (s + 1)).length : Nat) : ℝ) ≤ (values.length : ℝ) := by
      rw [List.length_drop]; exact_mod_cast (by omega)
    have := mul_le_mul_of_nonneg_right this huM
    linarith
  -- a bound on the values always exists
  have bound : ∃ M : ℝ, 0 ≤ M ∧ ∀ v ∈ values, |v| ≤ M := by
    clear run hn fv
    induction values with
    | nil => exact ⟨0, le_refl _, by simp⟩
    | cons x xs ih =>
      obtain ⟨M, hM, h⟩ := ih
      refine ⟨max M |x|, le_max_of_le_left hM, fun v hv => ?_⟩
      rcases List.mem_cons.1 hv with rfl | hv
      · exact le_max_right _ _
      · exact le_max_of_le_left (h v hv)
  obtain ⟨B, hB, hBv⟩ := bound
  have ok : values ≠ [] → (weights = [] ∨ weights.length = values.length ∧ ∃ w ∈ weights, w ≠ 0) →
      ∃ r, average R values weights = .ok r := by
    intro h0 hw
    obtain ⟨r, _, h, _⟩ := run (-B) B B (by rw [abs_neg, abs_of_nonneg hB]) (by rw [abs_of_nonneg hB])
      (fun v hv => abs_le.1 (hBv v hv)) h0 hw
    exact ⟨r, h⟩
  refine ⟨⟨fun h => ?_, fun h => ?_⟩, ?_⟩
  · by_contra hc
    rw [not_or, not_and_or, not_or] at hc
    obtain ⟨h0, hc⟩ := hc
    have hw : weights = [] ∨ weights.length = values.length ∧ ∃ w ∈ weights, w ≠ 0 := by
      rcases hc with hc | ⟨hc1, hc2⟩
      · exact Or.inl (not_not.1 hc)
      · refine Or.inr ⟨not_not.1 hc1, ?_⟩
        by_contra hz
        exact hc2 fun w hw => by
          by_contra hne
          exact hz ⟨w, hw, hne⟩
    obtain ⟨r, hr⟩ := ok h0 hw
    rw [hr] at h; cases h
  · by_cases h0 : values = []
    · subst h0; rfl
    · have hl := List.length_pos_iff.2 h0
      rcases h with h | ⟨h1, h⟩
      · exact absurd h h0
      · have hne : weights.length ≠ 0 := fun h => h1 (List.length_eq_zero_iff.1 h)
        unfold average
        rw [Out.assert_true hl, Out.bind_ok]
        by_cases h2 : weights.length = values.length
        · rw [Out.assert_true (Or.inl h2), Out.bind_ok]
          have hz := h.resolve_left (fun h => h h2)
          obtain ⟨f1, f2, f3⟩ := Averages.firstNonzero_spec weights
          have : ¬ Averages.firstNonzero 0 weights < values.length := by
            intro hlt
            rw [← h2] at hlt
            exact f3 _ (List.getElem?_eq_getElem hlt) (hz _ (List.getElem_mem hlt))
          dsimp only
          rw [Out.assert_false this]
          rfl
        · rw [Out.assert_false (by rintro (h | h) <;> contradiction)]
          rfl
  · intro rE hE
    have hna : ¬ Averages.average values weights = .abort := by rw [hE]; exact fun h => by cases h
    rw [(Averages.C48_aborts values weights).1, not_or, not_and_or, not_or] at hna
    obtain ⟨h0, hc⟩ := hna
    have hw : weights = [] ∨ weights.length = values.length ∧ ∃ w ∈ weights, w ≠ 0 := by
      rcases hc with hc | ⟨hc1, hc2⟩
      · exact Or.inl (not_not.1 hc)
      · refine Or.inr ⟨not_not.1 hc1, ?_⟩
        by_contra hz
        exact hc2 fun w hw => by
          by_contra hne
          exact hz ⟨w, hw, hne⟩
    obtain ⟨r, hr⟩ := ok h0 hw
    refine ⟨r, hr, ?_, ?_⟩
    · intro lo hi M hlo hhi hv
      obtain ⟨r', rE', h1, h2, h3, h4, h5⟩ := run lo hi M hlo hhi hv h0 hw
      rw [hr, Out.ok.injEq] at h1
      rw [hE, Out.ok.injEq] at h2
      subst h1 h2
      exact ⟨h3, h4, h5⟩
    · intro v hv
      obtain ⟨s, first, w, hs, hm, _, _, e1, _, _⟩ := average_start R values weights h0 hw fw
      have hf := hv first hm
      subst hf
      rw [e1] at hr
      exact averageLoop_same R weights first (fv _ hm) _ _ _ _ (fun x hx => hv x (List.mem_of_mem_drop hx)) hr

/-- Three values with weights, with rounding to nearest. -/
example : ∃ r, average Nearest.nearest [1, 2, 5] [1, 0, 3] = .ok r := by
  have f : ∀ n : ℤ, |n| ≤ 2 ^ 53 → Nearest.nearest.Fp (n : ℝ) := Nearest.nearest.fp_int
  have f0 := Nearest.nearest.fp_zero
  have f1 := Nearest.nearest.fp_one
  have f2 : Nearest.nearest.Fp 2 := by simpa using f 2 (by norm_num)
  have f3 : Nearest.nearest.Fp 3 := by simpa using f 3 (by norm_num)
  have f5 : Nearest.nearest.Fp 5 := by simpa using f 5 (by norm_num)
  have h := C160_average Nearest.nearest [1, 2, 5] [1, 0, 3] (by simp [f1, f2, f5]) (by simp [f0, f1, f3]) (by norm_num)
  obtain ⟨rE, hE⟩ := (Averages.C48_aborts (K := ℝ) [1, 2, 5] [1, 0, 3]).2.1 (by
    rw [ne_eq, (Averages.C48_aborts (K := ℝ) [1, 2, 5] [1, 0, 3]).1]
    simp)
  obtain ⟨r, hr, _⟩ := h.2 rE hE
  exact ⟨r, hr⟩

end Verif.RoundedMath
