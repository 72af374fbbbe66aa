import Verif.Model.RoundedMath
import Verif.Props.Angles

/-!
# Property C159 (math_helpers.hpp): angles with rounding
-/
namespace Verif.RoundedMath
open Verif Verif.Angles

variable (R : Rounding)

theorem trunc_abs (q : ℝ) : |q - (trunc q : ℝ)| ≤ |q| := by
  unfold trunc
  split
  · next h =>
    have h1 := Int.floor_le q
    have h2 : (0 : ℝ) ≤ (⌊q⌋ : ℝ) := by exact_mod_cast Int.floor_nonneg.2 h
    rw [abs_of_nonneg (by linarith), abs_of_nonneg h]
    linarith
  · next h =>
    have h' : q < 0 := not_le.1 h
    have h1 := Int.le_ceil q
    have h2 : (⌈q⌉ : ℝ) ≤ 0 := by exact_mod_cast Int.ceil_nonpos.2 h'.le
    rw [abs_of_nonpos (by linarith), abs_of_neg h']
    linarith

/-- The remainder of `fmod` is a `double`. -/
theorem fp_fmod {x y : ℝ} (hx : R.Fp x) (hy : R.Fp y) (hp : 0 < y) : R.Fp (fmod x y) := by
  have e : x - (trunc (x / y) : ℝ) * y = (x / y - (trunc (x / y) : ℝ)) * y := by field_simp
  apply R.fp_combination hx hy
  · rw [e, abs_mul]
    have := mul_le_mul_of_nonneg_right (trunc_abs (x / y)) (abs_nonneg y)
    rwa [← abs_mul (x / y), div_mul_cancel₀ _ hp.ne'] at this
  · rw [e, abs_mul]
    obtain ⟨h1, h2⟩ := trunc_near (x / y)
    have h3 : |x / y - (trunc (x / y) : ℝ)| ≤ 1 := abs_le.2 ⟨h1.le, h2.le⟩
    have := mul_le_mul_of_nonneg_right h3 (abs_nonneg y)
    rwa [one_mul] at this

theorem fmod_bounds (x : ℝ) {y : ℝ} (hp : 0 < y) : -y < fmod x y ∧ fmod x y < y := by
  obtain ⟨t1, t2⟩ := trunc_near (x / y)
  have e : fmod x y = (x / y - (trunc (x / y) : ℝ)) * y := by
    unfold fmod; field_simp
  rw [e]
  constructor <;> nlinarith

/-- Bringing an angle into the range makes no rounding error. -/
theorem enforce_exact {pi v : ℝ} (hp : 0 < pi) (fpi : R.Fp pi) (fv : R.Fp v) :
    enforceBounds R pi v = Angles.enforceBounds pi v ∧ R.Fp (Angles.enforceBounds pi v) := by
  have e2 : R.rd (2 * pi) = 2 * pi := R.fp_two_mul fpi
  have f2 : R.Fp (2 * pi) := e2
  have hm := fp_fmod R fv f2 (by linarith)
  obtain ⟨b1, b2⟩ := fmod_bounds v (y := 2 * pi) (by linarith)
  unfold enforceBounds Angles.enforceBounds
  rw [e2]
  split
  · dsimp only
    split
    · next h =>
      have : R.Fp (fmod v (2 * pi) + 2 * pi) := by
        have := R.sterbenz f2 (R.fp_neg hm) (by linarith) (by linarith)
        rwa [show 2 * pi - -fmod v (2 * pi) = fmod v (2 * pi) + 2 * pi by ring] at this
      exact ⟨this, this⟩
    · split
      · next h =>
        have := R.sterbenz hm f2 (by linarith) (by linarith)
        exact ⟨this, this⟩
      · exact ⟨rfl, hm⟩
  · exact ⟨rfl, fv⟩

/-- **C159.** `EnforceContinuousRevoluteBounds` makes no rounding error: for every `double` it returns the one `double`
in (-π, π] that is the same angle, where a turn is `2 * M_PI`. -/
theorem C159_wrap (pi : ℝ) (hp : 0 < pi) (fpi : R.Fp pi) (v : ℝ) (fv : R.Fp v) :
    R.Fp (enforceBounds R pi v) ∧ Principal pi (enforceBounds R pi v) ∧ SameAngle pi v (enforceBounds R pi v) ∧
    (∀ w, Principal pi w → SameAngle pi v w → enforceBounds R pi v = w) ∧
    (Principal pi v → enforceBounds R pi v = v) := by
  obtain ⟨e, f⟩ := enforce_exact R hp fpi fv
  rw [e]
  exact ⟨f, C46_wrap pi hp v⟩

/-- **C159.** `AddContinuousRevoluteValues` makes one rounding error, that of the sum. -/
theorem C159_add (pi : ℝ) (hp : 0 < pi) (fpi : R.Fp pi) (a b : ℝ) :
    Principal pi (addRevolute R pi a b) ∧
    ∃ e, |e| ≤ unit * |a + b| ∧ SameAngle pi (a + b + e) (addRevolute R pi a b) := by
  obtain ⟨_, h1, h2, _⟩ := C159_wrap R pi hp fpi (R.rd (a + b)) (R.fp_rd _)
  refine ⟨h1, R.rd (a + b) - (a + b), R.err _, ?_⟩
  rw [show a + b + (R.rd (a + b) - (a + b)) = R.rd (a + b) by ring]
  exact h2

/-- the correction of a difference of two angles -/
noncomputable def fold (pi x : ℝ) : ℝ :=
  if x ≤ -pi ∨ pi < x then
    if x ≤ -pi then -(2 * pi) - x else if pi < x then 2 * pi - x else x
  else x

theorem fold_cases {pi : ℝ} (x : ℝ) :
    (-pi < x ∧ x ≤ pi ∧ fold pi x = x) ∨ (x ≤ -pi ∧ fold pi x = -(2 * pi) - x) ∨
    (pi < x ∧ ¬ x ≤ -pi ∧ fold pi x = 2 * pi - x) := by
  unfold fold
  by_cases h1 : x ≤ -pi
  · exact Or.inr (Or.inl ⟨h1, by rw [if_pos (Or.inl h1), if_pos h1]⟩)
  · by_cases h2 : pi < x
    · exact Or.inr (Or.inr ⟨h2, h1, by rw [if_pos (Or.inr h2), if_neg h1, if_pos h2]⟩)
    · exact Or.inl ⟨not_le.1 h1, not_lt.1 h2, if_neg (by rintro (h | h) <;> contradiction)⟩

theorem fold_lipschitz {pi : ℝ} (hp : 0 < pi) (x y : ℝ) : |fold pi x - fold pi y| ≤ |x - y| := by
  have a := le_abs_self (x - y)
  have b := neg_abs_le (x - y)
  rw [abs_le]
  rcases fold_cases (pi := pi) x with ⟨h1, h2, e⟩ | ⟨h1, e⟩ | ⟨h1, h2, e⟩ <;>
    rcases fold_cases (pi := pi) y with ⟨k1, k2, f⟩ | ⟨k1, f⟩ | ⟨k1, k2, f⟩ <;>
    rw [e, f] <;> constructor <;> linarith

theorem fold_odd {pi : ℝ} (hp : 0 < pi) (x : ℝ) : fold pi (-x) = -fold pi x := by
  rcases fold_cases (pi := pi) x with ⟨h1, h2, e⟩ | ⟨h1, e⟩ | ⟨h1, h2, e⟩ <;>
    rcases fold_cases (pi := pi) (-x) with ⟨k1, k2, f⟩ | ⟨k1, f⟩ | ⟨k1, k2, f⟩ <;>
    rw [e, f] <;> linarith

theorem fold_bounds {pi : ℝ} (x : ℝ) (h : |x| ≤ 2 * pi) (hp : 0 < pi) : |fold pi x| ≤ pi := by
  obtain ⟨a, b⟩ := abs_le.1 h
  rw [abs_le]
  rcases fold_cases (pi := pi) x with ⟨h1, h2, e⟩ | ⟨h1, e⟩ | ⟨h1, h2, e⟩ <;> rw [e] <;> constructor <;> linarith

theorem raw_le {pi : ℝ} (hp : 0 < pi) (a b : ℝ) :
    |Angles.enforceBounds pi b - Angles.enforceBounds pi a| ≤ 2 * pi := by
  obtain ⟨⟨h1, h2⟩, _⟩ := enforce_spec hp a
  obtain ⟨⟨h3, h4⟩, _⟩ := enforce_spec hp b
  rw [abs_le]; constructor <;> linarith

theorem rd_abs_le {x y : ℝ} (hy : R.Fp y) (h : |x| ≤ y) : |R.rd x| ≤ y := by
  obtain ⟨a, b⟩ := abs_le.1 h
  exact abs_le.2 (R.between (R.fp_neg hy) hy a b)

/-- Only the difference of the two angles is rounded. -/
theorem signed_eq {pi a b : ℝ} (hp : 0 < pi) (fpi : R.Fp pi) (fa : R.Fp a) (fb : R.Fp b) :
    signedDistance R pi a b = fold pi (R.rd (Angles.enforceBounds pi b - Angles.enforceBounds pi a)) := by
  have e2 : R.rd (2 * pi) = 2 * pi := R.fp_two_mul fpi
  have f2 : R.Fp (2 * pi) := e2
  obtain ⟨c1, c2⟩ := abs_le.1 (rd_abs_le R f2 (raw_le hp a b))
  unfold signedDistance
  rw [(enforce_exact R hp fpi fa).1, (enforce_exact R hp fpi fb).1, e2]
  have fr := R.fp_rd (Angles.enforceBounds pi b - Angles.enforceBounds pi a)
  generalize R.rd (Angles.enforceBounds pi b - Angles.enforceBounds pi a) = x at *
  unfold fold
  dsimp only
  by_cases h1 : x ≤ -pi
  · rw [if_pos (Or.inl h1), if_pos h1, if_pos (Or.inl h1), if_pos h1]
    have := R.sterbenz (R.fp_neg fr) f2 (by linarith) (by linarith)
    rw [show -(2 * pi) - x = -x - 2 * pi by ring]
    exact this
  · by_cases h2 : pi < x
    · rw [if_pos (Or.inr h2), if_neg h1, if_pos h2, if_pos (Or.inr h2), if_neg h1, if_pos h2]
      exact R.sterbenz f2 fr (by linarith) (by linarith)
    · rw [if_neg (by rintro (h | h) <;> contradiction), if_neg (by rintro (h | h) <;> contradiction)]

theorem signed_exact (pi a b : ℝ) :
    Angles.signedDistance pi a b = fold pi (Angles.enforceBounds pi b - Angles.enforceBounds pi a) := rfl

/-- **C159.** The computed signed distance is at most `2 * unit * π` off, changes its sign when the angles are swapped,
and is within [-π, π]. -/
theorem C159_signed (pi : ℝ) (hp : 0 < pi) (fpi : R.Fp pi) (a b : ℝ) (fa : R.Fp a) (fb : R.Fp b) :
    |signedDistance R pi a b - Angles.signedDistance pi a b| ≤ 2 * unit * pi ∧
    signedDistance R pi b a = -signedDistance R pi a b ∧
    -pi ≤ signedDistance R pi a b ∧ signedDistance R pi a b ≤ pi := by
  have f2 : R.Fp (2 * pi) := R.fp_two_mul fpi
  rw [signed_eq R hp fpi fa fb, signed_eq R hp fpi fb fa, signed_exact]
  refine ⟨?_, ?_, ?_⟩
  · refine le_trans (fold_lipschitz hp _ _) (le_trans (R.err _) ?_)
    have := mul_le_mul_of_nonneg_left (raw_le hp a b) Rounding.unit_pos.le
    linarith
  · rw [← fold_odd hp, ← R.odd, neg_sub]
  · exact abs_le.1 (fold_bounds _ (rd_abs_le R f2 (raw_le hp a b)) hp)

/-- **C159.** The computed distance is at most `2 * unit * π` off, symmetric, at most π, zero for the same angle, the
same for the same angles, and keeps the triangle inequality up to `6 * unit * π`. -/
theorem C159_distance (pi : ℝ) (hp : 0 < pi) (fpi : R.Fp pi) (a b : ℝ) (fa : R.Fp a) (fb : R.Fp b) :
    |revoluteDistance R pi a b - Angles.revoluteDistance pi a b| ≤ 2 * unit * pi ∧
    revoluteDistance R pi a b = revoluteDistance R pi b a ∧
    0 ≤ revoluteDistance R pi a b ∧ revoluteDistance R pi a b ≤ pi ∧
    (SameAngle pi a b → revoluteDistance R pi a b = 0) ∧
    (∀ a', R.Fp a' → SameAngle pi a a' → revoluteDistance R pi a' b = revoluteDistance R pi a b) ∧
    (∀ c, R.Fp c →
      revoluteDistance R pi a c ≤ revoluteDistance R pi a b + revoluteDistance R pi b c + 6 * unit * pi) := by
  have near : ∀ a b : ℝ, R.Fp a → R.Fp b →
      |revoluteDistance R pi a b - Angles.revoluteDistance pi a b| ≤ 2 * unit * pi := by
    intro a b fa fb
    unfold revoluteDistance Angles.revoluteDistance
    exact le_trans (abs_abs_sub_abs_le_abs_sub _ _) (C159_signed R pi hp fpi a b fa fb).1
  have same : ∀ a', SameAngle pi a a' → Angles.enforceBounds pi a' = Angles.enforceBounds pi a := by
    intro a' h
    obtain ⟨p1, p2⟩ := enforce_spec hp a
    obtain ⟨q1, q2⟩ := enforce_spec hp a'
    exact (principal_unique hp p1 q1 (p2.symm.trans (h.trans q2))).symm
  obtain ⟨_, h2, h3, h4⟩ := C159_signed R pi hp fpi a b fa fb
  refine ⟨near a b fa fb, ?_, abs_nonneg _, abs_le.2 ⟨h3, h4⟩, ?_, ?_, ?_⟩
  · unfold revoluteDistance
    rw [h2, abs_neg]
  · intro h
    unfold revoluteDistance
    rw [signed_eq R hp fpi fa fb, same b h, sub_self, R.zero]
    rcases fold_cases (pi := pi) 0 with ⟨_, _, e⟩ | ⟨k, e⟩ | ⟨k, _, e⟩
    · rw [e, abs_zero]
    · linarith
    · linarith
  · intro a' fa' h
    unfold revoluteDistance
    rw [signed_eq R hp fpi fa' fb, signed_eq R hp fpi fa fb, same a' h]
  · intro c fc
    have t := (C47_distance pi hp a b).2.2.2.2.2.2 c
    have n1 := abs_le.1 (near a c fa fc)
    have n2 := abs_le.1 (near a b fa fb)
    have n3 := abs_le.1 (near b c fb fc)
    linarith [n1.2, n2.1, n3.1]

/-- **C159.** The computed range is within [0, 2π]. -/
theorem C159_range (pi : ℝ) (hp : 0 < pi) (fpi : R.Fp pi) (a b : ℝ) (fa : R.Fp a) (fb : R.Fp b) :
    0 ≤ getRange R pi a b ∧ getRange R pi a b ≤ 2 * pi ∧
    (0 ≤ signedDistance R pi a b → getRange R pi a b = signedDistance R pi a b) ∧
    (signedDistance R pi a b < 0 →
      |getRange R pi a b - (2 * pi + signedDistance R pi a b)| ≤ 2 * unit * pi ∧ pi ≤ getRange R pi a b) := by
  have e2 : R.rd (2 * pi) = 2 * pi := R.fp_two_mul fpi
  have f2 : R.Fp (2 * pi) := e2
  obtain ⟨_, _, h3, h4⟩ := C159_signed R pi hp fpi a b fa fb
  unfold getRange
  rw [e2]
  dsimp only
  by_cases h : 0 ≤ signedDistance R pi a b
  · rw [if_pos h]
    exact ⟨h, by linarith, fun _ => rfl, fun h' => absurd h (not_le.2 h')⟩
  · rw [if_neg h]
    have h' := not_le.1 h
    obtain ⟨k1, k2⟩ := R.between fpi f2 (x := 2 * pi + signedDistance R pi a b) (by linarith) (by linarith)
    refine ⟨by linarith, k2, fun h'' => absurd h'' h, fun _ => ⟨?_, k1⟩⟩
    refine le_trans (R.err _) ?_
    rw [abs_of_nonneg (by linarith)]
    have := Rounding.unit_pos
    nlinarith

theorem ratio_bounds (ratio : ℝ) :
    let r := (safetyCheckUnitInterval ratio).1
    0 ≤ r ∧ r ≤ 1 ∧ r = min 1 (max 0 ratio) := by
  obtain ⟨h1, h2, h3⟩ := C72_ratio ratio
  rcases lt_or_ge ratio 0 with h | h
  · rw [h2 h]
    simp [max_eq_left h.le]
  · rcases lt_or_ge 1 ratio with k | k
    · rw [h3 k]
      simp [max_eq_right h, k.le]
    · rw [h1 h k]
      exact ⟨h, k, by rw [max_eq_right h, min_eq_right k]⟩

/-- **C159.** Interpolating with rounding: the result is the same angle as a point of the way from `a` to `b`, up to
`5 * unit * π`; the way is not longer than π, up to `2 * unit * π`; at the start the result is exact. -/
theorem C159_interpolate (pi : ℝ) (hp : 0 < pi) (fpi : R.Fp pi) (a b ratio : ℝ) (fa : R.Fp a) (fb : R.Fp b) :
    let x := interpolateRevolute R pi a b ratio
    let r := min 1 (max 0 ratio)
    (∃ t e, SameAngle pi (a + t) b ∧ |t| ≤ pi * (1 + 2 * unit) ∧ |e| ≤ 5 * unit * pi ∧
      SameAngle pi (a + r * t + e) x) ∧
    |x| ≤ pi * (1 + 5 * unit) ∧
    (ratio ≤ 0 → x = enforceBounds R pi a) := by
  intro x r
  obtain ⟨r0, r1, hr⟩ := ratio_bounds ratio
  have hu := Rounding.unit_pos
  have e2 : R.rd (2 * pi) = 2 * pi := R.fp_two_mul fpi
  have f2 : R.Fp (2 * pi) := e2
  have e3 : R.rd (-2 * pi) = -(2 * pi) := by rw [neg_mul, R.odd, e2]
  obtain ⟨ea, fqa⟩ := enforce_exact R hp fpi fa
  obtain ⟨eb, fqb⟩ := enforce_exact R hp fpi fb
  obtain ⟨⟨a1, a2⟩, sa⟩ := enforce_spec hp a
  obtain ⟨⟨b1, b2⟩, sb⟩ := enforce_spec hp b
  have hraw := raw_le hp a b
  have xe : x = interpolateRevolute R pi a b ratio := rfl
  unfold interpolateRevolute at xe
  rw [ea, eb, e2, e3] at xe
  dsimp only at xe
  have hr' : (safetyCheckUnitInterval ratio).1 = r := hr
  rw [hr'] at xe r0 r1
  rw [ea]
  have rz : ratio ≤ 0 → r = 0 := by
    intro h
    show min 1 (max 0 ratio) = 0
    rw [max_eq_left h]; norm_num
  clear_value x r
  generalize hq1 : Angles.enforceBounds pi a = q1 at *
  generalize hq2 : Angles.enforceBounds pi b = q2 at *
  have rerr := R.err (q2 - q1)
  have rle := rd_abs_le R f2 hraw
  have frd := R.fp_rd (q2 - q1)
  generalize hd : R.rd (q2 - q1) = d at *
  have hdt : |d - (q2 - q1)| ≤ 2 * unit * pi := by
    have := mul_le_mul_of_nonneg_left hraw hu.le
    linarith
  obtain ⟨d1, d2⟩ := abs_le.1 hdt
  obtain ⟨k, hk⟩ := sa
  obtain ⟨l, hl⟩ := sb
  -- the product with the ratio
  have prod : ∀ s, |s| ≤ pi → |R.rd (s * r) - s * r| ≤ unit * pi ∧ |R.rd (s * r)| ≤ pi := by
    intro s hs
    have : |s * r| ≤ pi := by
      rw [abs_mul, abs_of_nonneg r0]
      have := mul_le_mul hs r1 r0 hp.le
      linarith
    exact ⟨le_trans (R.err _) (mul_le_mul_of_nonneg_left this hu.le), rd_abs_le R fpi this⟩
  have sum : ∀ p, |p| ≤ pi → |R.rd (q1 + p) - (q1 + p)| ≤ 2 * unit * pi ∧ |R.rd (q1 + p)| ≤ 2 * pi := by
    intro p h
    obtain ⟨h1, h2⟩ := abs_le.1 h
    have : |q1 + p| ≤ 2 * pi := by rw [abs_le]; constructor <;> linarith
    refine ⟨le_trans (R.err _) ?_, rd_abs_le R f2 this⟩
    have := mul_le_mul_of_nonneg_left this hu.le
    linarith
  have rmul : ∀ z w : ℝ, |z| ≤ w → |r * z| ≤ w := by
    intro z w h
    rw [abs_mul, abs_of_nonneg r0]
    exact le_trans (mul_le_of_le_one_left (abs_nonneg z) r1) h
  by_cases hc : |d| ≤ pi
  · rw [if_pos hc] at xe
    obtain ⟨p1, p2⟩ := prod d hc
    obtain ⟨s1, s2⟩ := sum _ p2
    rw [← xe] at s1 s2
    have m := rmul _ _ hdt
    obtain ⟨m1, m2⟩ := abs_le.1 m
    obtain ⟨p11, p12⟩ := abs_le.1 p1
    obtain ⟨s11, s12⟩ := abs_le.1 s1
    have he : |x - (q1 + r * (q2 - q1))| ≤ 5 * unit * pi := by
      rw [abs_le]; constructor <;> linarith
    obtain ⟨he1, he2⟩ := abs_le.1 he
    refine ⟨⟨q2 - q1, x - (q1 + r * (q2 - q1)), ⟨k - l, ?_⟩, ?_, he, ⟨k, ?_⟩⟩, ?_, ?_⟩
    · push_cast; linear_combination hk - hl
    · obtain ⟨c1, c2⟩ := abs_le.1 hc
      rw [abs_le]; constructor <;> linarith
    · linear_combination hk
    · have u1 := mul_nonneg (sub_nonneg.2 r1) (sub_nonneg.2 a2)
      have u2 := mul_nonneg r0 (sub_nonneg.2 b2)
      have v1 := mul_nonneg (sub_nonneg.2 r1) (sub_nonneg.2 a1.le)
      have v2 := mul_nonneg r0 (sub_nonneg.2 b1.le)
      have u : q1 + r * (q2 - q1) ≤ pi := by linarith
      have v : -pi ≤ q1 + r * (q2 - q1) := by linarith
      rw [abs_le]; constructor <;> linarith
    · intro h
      rw [xe, rz h, mul_zero, R.zero, add_zero]
      exact fqa
  · rw [if_neg hc] at xe
    -- the other way round
    have key : ∀ s : ℝ, (s = 2 * pi - d ∧ pi < d ∨ s = -(2 * pi) - d ∧ d < -pi) →
        x = (if pi < R.rd (q1 - R.rd (s * r)) then R.rd (R.rd (q1 - R.rd (s * r)) - 2 * pi)
          else if R.rd (q1 - R.rd (s * r)) < -pi then R.rd (R.rd (q1 - R.rd (s * r)) + 2 * pi)
          else R.rd (q1 - R.rd (s * r))) →
        (∃ t e, SameAngle pi (a + t) b ∧ |t| ≤ pi * (1 + 2 * unit) ∧ |e| ≤ 5 * unit * pi ∧
          SameAngle pi (a + r * t + e) x) ∧
        |x| ≤ pi * (1 + 5 * unit) ∧ (ratio ≤ 0 → x = q1) := by
      intro s hs xe
      obtain ⟨n1, n2⟩ := abs_le.1 rle
      have hsb : |s| ≤ pi := by
        rw [abs_le]
        rcases hs with ⟨rfl, h⟩ | ⟨rfl, h⟩ <;> constructor <;> linarith
      obtain ⟨p1, p2⟩ := prod s hsb
      obtain ⟨s1, s2⟩ := sum (-R.rd (s * r)) (by rw [abs_neg]; exact p2)
      rw [← sub_eq_add_neg] at s1 s2
      have fy := R.fp_rd (q1 - R.rd (s * r))
      have hy0 : ratio ≤ 0 → R.rd (q1 - R.rd (s * r)) = q1 := by
        intro h
        rw [rz h, mul_zero, R.zero, sub_zero]
        exact fqa
      generalize R.rd (q1 - R.rd (s * r)) = y at *
      obtain ⟨y1, y2⟩ := abs_le.1 s2
      -- wrapping is exact
      have wrap : ∃ m : ℤ, x = y + m * (2 * pi) ∧ |x| ≤ pi ∧ (-pi ≤ y → y ≤ pi → x = y) := by
        by_cases h1 : pi < y
        · rw [if_pos h1] at xe
          have := R.sterbenz fy f2 (by linarith) (by linarith)
          have ex : x = y - 2 * pi := by rw [xe]; exact this
          refine ⟨-1, by rw [ex]; push_cast; ring, ?_, fun _ h => absurd h1 (not_lt.2 h)⟩
          rw [ex, abs_le]; constructor <;> linarith
        · rw [if_neg h1] at xe
          by_cases h2 : y < -pi
          · rw [if_pos h2] at xe
            have := R.sterbenz f2 (R.fp_neg fy) (by linarith) (by linarith)
            have ex : x = y + 2 * pi := by
              rw [xe, show y + 2 * pi = 2 * pi - -y by ring]; exact this
            refine ⟨1, by rw [ex]; push_cast; ring, ?_, fun h _ => absurd h2 (not_lt.2 h)⟩
            rw [ex, abs_le]; constructor <;> linarith
          · rw [if_neg h2] at xe
            exact ⟨0, by rw [xe]; push_cast; ring, by rw [xe, abs_le]; exact ⟨not_lt.1 h2, not_lt.1 h1⟩,
              fun _ _ => xe⟩
      obtain ⟨m, hm, hx, hxy⟩ := wrap
      have m0 := rmul _ _ hdt
      obtain ⟨m1, m2⟩ := abs_le.1 m0
      obtain ⟨p11, p12⟩ := abs_le.1 p1
      obtain ⟨s11, s12⟩ := abs_le.1 s1
      have hup : 0 < unit * pi := mul_pos hu hp
      have hxb : |x| ≤ pi * (1 + 5 * unit) := le_trans hx (by linarith)
      have hz : ratio ≤ 0 → x = q1 := by
        intro h
        have := hy0 h
        rw [← this]
        apply hxy <;> linarith
      rcases hs with ⟨rfl, h⟩ | ⟨rfl, h⟩
      · have he : |y - (q1 + r * (q2 - q1 - 2 * pi))| ≤ 5 * unit * pi := by
          rw [abs_le]; constructor <;> linarith
        refine ⟨⟨q2 - q1 - 2 * pi, y - (q1 + r * (q2 - q1 - 2 * pi)), ⟨k - l + 1, ?_⟩, ?_, he, ⟨k + m, ?_⟩⟩, hxb, hz⟩
        · push_cast; linear_combination hk - hl
        · rw [abs_le]; constructor <;> linarith
        · push_cast; linear_combination hm + hk
      · have he : |y - (q1 + r * (q2 - q1 + 2 * pi))| ≤ 5 * unit * pi := by
          rw [abs_le]; constructor <;> linarith
        refine ⟨⟨q2 - q1 + 2 * pi, y - (q1 + r * (q2 - q1 + 2 * pi)), ⟨k - l - 1, ?_⟩, ?_, he, ⟨k + m, ?_⟩⟩, hxb, hz⟩
        · push_cast; linear_combination hk - hl
        · rw [abs_le]; constructor <;> linarith
        · push_cast; linear_combination hm + hk
    obtain ⟨n1, n2⟩ := abs_le.1 rle
    by_cases h0 : 0 < d
    · have h1 : pi < d := by rw [abs_of_pos h0] at hc; exact not_le.1 hc
      have hs : R.rd (2 * pi - d) = 2 * pi - d := R.sterbenz f2 frd (by linarith) (by linarith)
      rw [if_pos h0, hs] at xe
      exact key _ (Or.inl ⟨rfl, h1⟩) xe
    · have h1 : d < -pi := by
        rw [abs_of_nonpos (not_lt.1 h0)] at hc
        linarith [not_le.1 hc]
      have hs : R.rd (-(2 * pi) - d) = -(2 * pi) - d := by
        have := R.sterbenz (R.fp_neg frd) f2 (by linarith) (by linarith)
        rw [show -(2 * pi) - d = -d - 2 * pi by ring]
        exact this
      rw [if_neg h0, hs] at xe
      exact key _ (Or.inr ⟨rfl, h1⟩) xe

/-! ## The distance can vanish -/

/-- `M_PI` -/
noncomputable def mPi : ℝ := 7074237752028440 / 2 ^ 51

theorem fp_digits51 {R : Rounding} (k : ℤ) (h : |k| ≤ 2 ^ 53) : R.Fp ((k : ℝ) / 2 ^ 51) := by
  have := R.fixed k (-51) h
  rw [show ((2 : ℝ) ^ (-51 : ℤ)) = 1 / 2 ^ 51 by rw [zpow_neg, one_div]; norm_cast, mul_one_div] at this
  exact this

theorem fp_mPi : R.Fp mPi := by
  have := fp_digits51 (R := R) 7074237752028440 (by norm_num)
  simpa [mPi] using this

/-- Rounding the difference of the two outermost angles. -/
theorem nearest_outermost : Nearest.rd (14148475504056879 / 2 ^ 51) = 14148475504056880 / 2 ^ 51 := by
  have hl : Int.log 2 (14148475504056879 / 2 ^ 51 : ℝ) = 2 := by
    apply le_antisymm
    · rw [← Int.lt_add_one_iff, ← Int.lt_zpow_iff_log_lt (by norm_num) (by norm_num)]
      norm_num
    · rw [← Int.zpow_le_iff_le_log (by norm_num) (by norm_num)]
      norm_num
  have hex : Nearest.ex (14148475504056879 / 2 ^ 51) = -50 := by unfold Nearest.ex; rw [hl]; norm_num
  have hz : (2 : ℝ) ^ (-50 : ℤ) = 1 / 2 ^ 50 := by rw [zpow_neg, one_div]; norm_cast
  have hw : Nearest.whole (14148475504056879 / 2) = 7074237752028440 := by
    have hf : ⌊(14148475504056879 / 2 : ℝ)⌋ = 7074237752028439 := by
      rw [Int.floor_eq_iff]; norm_num
    unfold Nearest.whole
    rw [if_neg, round_eq, Int.floor_eq_iff]
    · norm_num
    · rw [hf]
      rintro ⟨-, h⟩
      exact absurd h (by decide)
  rw [Nearest.rd_pos (by norm_num)]
  unfold Nearest.pos
  rw [hex, hz, show (14148475504056879 / 2 ^ 51 / (1 / 2 ^ 50) : ℝ) = 14148475504056879 / 2 by norm_num, hw]
  norm_num

/-- **C159.** The computed distance of two different angles can be zero: from π to the `double` next to -π. -/
theorem C159_zero_wrong :
    ∃ a b, Nearest.nearest.Fp a ∧ Nearest.nearest.Fp b ∧ Principal mPi a ∧ Principal mPi b ∧ a ≠ b ∧
      ¬ SameAngle mPi a b ∧ revoluteDistance Nearest.nearest mPi a b = 0 := by
  have hp : 0 < mPi := by unfold mPi; norm_num
  have fa := fp_mPi Nearest.nearest
  have fb : Nearest.nearest.Fp (-(7074237752028439 / 2 ^ 51)) := by
    have := fp_digits51 (R := Nearest.nearest) (-7074237752028439) (by norm_num)
    rw [show (((-7074237752028439 : ℤ) : ℝ) / 2 ^ 51) = -(7074237752028439 / 2 ^ 51) by norm_num] at this
    exact this
  have pa : Principal mPi mPi := ⟨by linarith, le_refl _⟩
  have pb : Principal mPi (-(7074237752028439 / 2 ^ 51)) := by
    constructor <;> unfold mPi <;> norm_num
  have ne : mPi ≠ -(7074237752028439 / 2 ^ 51) := by unfold mPi; norm_num
  refine ⟨mPi, -(7074237752028439 / 2 ^ 51), fa, fb, pa, pb, ne, fun h => ne (principal_unique hp pa pb h), ?_⟩
  unfold revoluteDistance
  rw [signed_eq Nearest.nearest hp fa fa fb, (C46_wrap mPi hp _).2.2.2 pa, (C46_wrap mPi hp _).2.2.2 pb]
  have e : Nearest.nearest.rd (-(7074237752028439 / 2 ^ 51) - mPi) = -(2 * mPi) := by
    rw [show -(7074237752028439 / 2 ^ 51) - mPi = -(14148475504056879 / 2 ^ 51) by unfold mPi; norm_num,
      Nearest.nearest.odd]
    show -Nearest.rd _ = _
    rw [nearest_outermost]
    unfold mPi; norm_num
  rw [e]
  rcases fold_cases (pi := mPi) (-(2 * mPi)) with ⟨k, _, _⟩ | ⟨_, f⟩ | ⟨k, _, _⟩
  · linarith
  · rw [f]; simp
  · linarith

/-- The hypotheses hold of `M_PI` and for example of the angles ten and minus one hundred. -/
example : 0 < mPi ∧ Nearest.nearest.Fp mPi ∧ Nearest.nearest.Fp 10 ∧ Nearest.nearest.Fp (-100) := by
  refine ⟨by unfold mPi; norm_num, fp_mPi _, ?_, ?_⟩
  · simpa using Nearest.nearest.fp_int 10 (by norm_num)
  · simpa using Nearest.nearest.fp_int (-100) (by norm_num)

end Verif.RoundedMath
