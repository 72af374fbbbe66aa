import Mathlib.Data.Rat.Floor
import Mathlib.Algebra.Order.Floor.Ring
import Mathlib.Tactic.Linarith
import Mathlib.Tactic.LinearCombination
import Mathlib.Tactic.FieldSimp
import Mathlib.Tactic.Ring
import Mathlib.Tactic.NormNum
import Mathlib.Tactic.Positivity
import Verif.Spec.Angles

/-!
# C46, C47, C71, C72: angles and interpolation
-/
namespace Verif.Angles
open Verif

set_option linter.unusedSectionVars false

section
variable {K : Type} [Field K] [LinearOrder K] [IsStrictOrderedRing K] [FloorRing K]

theorem SameAngle.refl (pi a : K) : SameAngle pi a a := ⟨0, by simp⟩

theorem SameAngle.symm {pi a b : K} : SameAngle pi a b → SameAngle pi b a := by
  rintro ⟨k, h⟩; exact ⟨-k, by rw [h]; push_cast; ring⟩

theorem SameAngle.trans {pi a b c : K} : SameAngle pi a b → SameAngle pi b c → SameAngle pi a c := by
  rintro ⟨k, h⟩ ⟨j, h'⟩; exact ⟨k + j, by rw [h', h]; push_cast; ring⟩

theorem turns_zero {pi : K} (hp : 0 < pi) {k : Int} (h1 : -(2 * pi) < (k : K) * (2 * pi))
    (h2 : (k : K) * (2 * pi) < 2 * pi) : k = 0 := by
  have a : (k : K) < 1 := by
    by_contra c; have := not_lt.1 c; nlinarith
  have b : (-1 : K) < k := by
    by_contra c; have := not_lt.1 c; nlinarith
  have a' : k < 1 := by exact_mod_cast a
  have b' : -1 < k := by exact_mod_cast b
  omega

/-- the same angle in the principal range is the same number -/
theorem principal_unique {pi a b : K} (hp : 0 < pi) (ha : Principal pi a) (hb : Principal pi b)
    (h : SameAngle pi a b) : a = b := by
  obtain ⟨k, h⟩ := h
  have : k = 0 := turns_zero hp (by linarith [ha.2, hb.1]) (by linarith [ha.1, hb.2])
  rw [h, this]; simp

theorem trunc_near (q : K) : -1 < q - (trunc q : K) ∧ q - (trunc q : K) < 1 := by
  unfold trunc
  split
  · constructor
    · linarith [Int.floor_le q]
    · linarith [Int.lt_floor_add_one q]
  · constructor
    · linarith [Int.ceil_lt_add_one q]
    · linarith [Int.le_ceil q]

theorem enforce_spec {pi : K} (hp : 0 < pi) (v : K) :
    Principal pi (enforceBounds pi v) ∧ SameAngle pi v (enforceBounds pi v) := by
  have h2 : 0 < 2 * pi := by linarith
  unfold enforceBounds
  by_cases c : v ≤ -pi ∨ pi < v
  · rw [if_pos c]
    obtain ⟨t1, t2⟩ := trunc_near (v / (2 * pi))
    have e : fmod v (2 * pi) = (v / (2 * pi) - (trunc (v / (2 * pi)) : K)) * (2 * pi) := by
      unfold fmod; field_simp
    have b1 : -(2 * pi) < fmod v (2 * pi) := by rw [e]; nlinarith
    have b2 : fmod v (2 * pi) < 2 * pi := by rw [e]; nlinarith
    have s : ∃ k : Int, fmod v (2 * pi) = v + (k : K) * (2 * pi) :=
      ⟨-trunc (v / (2 * pi)), by unfold fmod; push_cast; ring⟩
    obtain ⟨k, hk⟩ := s
    dsimp only
    by_cases c1 : fmod v (2 * pi) ≤ -pi
    · rw [if_pos c1]
      exact ⟨⟨by linarith, by linarith⟩, ⟨k + 1, by rw [hk]; push_cast; ring⟩⟩
    · rw [if_neg c1]
      by_cases c2 : pi < fmod v (2 * pi)
      · rw [if_pos c2]
        exact ⟨⟨by linarith, by linarith⟩, ⟨k - 1, by rw [hk]; push_cast; ring⟩⟩
      · rw [if_neg c2]
        exact ⟨⟨not_le.1 c1, not_lt.1 c2⟩, ⟨k, hk⟩⟩
  · rw [if_neg c]
    rw [not_or] at c
    exact ⟨⟨not_le.1 c.1, not_lt.1 c.2⟩, SameAngle.refl pi v⟩

/-- `EnforceContinuousRevoluteBounds` gives the one number in `(-π, π]` that is the same angle; numbers in
that range are returned as they are. -/
theorem C46_wrap (pi : K) (hp : 0 < pi) (v : K) :
    Principal pi (enforceBounds pi v) ∧ SameAngle pi v (enforceBounds pi v) ∧
    (∀ w, Principal pi w → SameAngle pi v w → enforceBounds pi v = w) ∧
    (Principal pi v → enforceBounds pi v = v) := by
  obtain ⟨h1, h2⟩ := enforce_spec hp v
  refine ⟨h1, h2, fun w hw hs => principal_unique hp h1 hw (h2.symm.trans hs), fun h => ?_⟩
  exact principal_unique hp h1 h h2.symm

/-- `AddContinuousRevoluteValues` adds up to whole turns, into the range. -/
theorem C46_add (pi : K) (hp : 0 < pi) (a b : K) :
    Principal pi (addRevolute pi a b) ∧ SameAngle pi (a + b) (addRevolute pi a b) := enforce_spec hp (a + b)

/-- the shortest way from one angle to another -/
theorem signed_cases (pi a b : K) :
    let raw := enforceBounds pi b - enforceBounds pi a
    (Principal pi raw ∧ signedDistance pi a b = raw) ∨
    (raw ≤ -pi ∧ signedDistance pi a b = -(raw + 2 * pi)) ∨
    (pi < raw ∧ signedDistance pi a b = -(raw - 2 * pi)) := by
  intro raw
  unfold signedDistance
  by_cases c : raw ≤ -pi ∨ pi < raw
  · simp only [raw] at c ⊢
    rw [if_pos c]
    by_cases c1 : raw ≤ -pi
    · right; left
      simp only [raw] at c1
      rw [if_pos c1]
      exact ⟨c1, by ring⟩
    · right; right
      simp only [raw] at c1
      have c2 := c.resolve_left c1
      rw [if_neg c1, if_pos c2]
      exact ⟨c2, by ring⟩
  · left
    simp only [raw] at c ⊢
    rw [if_neg c]
    rw [not_or] at c
    exact ⟨⟨not_le.1 c.1, not_lt.1 c.2⟩, rfl⟩

theorem raw_bounds {pi : K} (hp : 0 < pi) (a b : K) :
    -(2 * pi) < enforceBounds pi b - enforceBounds pi a ∧ enforceBounds pi b - enforceBounds pi a < 2 * pi := by
  obtain ⟨⟨a1, a2⟩, -⟩ := enforce_spec hp a
  obtain ⟨⟨b1, b2⟩, -⟩ := enforce_spec hp b
  constructor <;> linarith

theorem raw_same {pi : K} (hp : 0 < pi) (a b : K) :
    SameAngle pi (b - a) (enforceBounds pi b - enforceBounds pi a) := by
  obtain ⟨-, k, hk⟩ := enforce_spec hp a
  obtain ⟨-, j, hj⟩ := enforce_spec hp b
  exact ⟨j - k, by rw [hk, hj]; push_cast; ring⟩

theorem distance_attained {pi : K} (hp : 0 < pi) (a b : K) :
    ∃ t, |t| = revoluteDistance pi a b ∧ |t| ≤ pi ∧ SameAngle pi (b - a) t := by
  obtain ⟨l, u⟩ := raw_bounds hp a b
  have s := raw_same hp a b
  unfold revoluteDistance
  rcases signed_cases pi a b with ⟨⟨h1, h2⟩, e⟩ | ⟨h1, e⟩ | ⟨h1, e⟩
  · exact ⟨_, by rw [e], abs_le.2 ⟨h1.le, h2⟩, s⟩
  · refine ⟨enforceBounds pi b - enforceBounds pi a + 2 * pi, by rw [e, abs_neg],
      abs_le.2 ⟨by linarith, by linarith⟩, s.trans ⟨1, by push_cast; ring⟩⟩
  · refine ⟨enforceBounds pi b - enforceBounds pi a - 2 * pi, by rw [e, abs_neg],
      abs_le.2 ⟨by linarith, by linarith⟩, s.trans ⟨-1, by push_cast; ring⟩⟩

/-- a representative of at most half a turn is a shortest one -/
theorem shortest_of_half {pi t u : K} (hp : 0 < pi) (ht : |t| ≤ pi) (h : SameAngle pi t u) : |t| ≤ |u| := by
  obtain ⟨k, rfl⟩ := h
  obtain ⟨t1, t2⟩ := abs_le.1 ht
  rcases lt_trichotomy k 0 with hk | hk | hk
  · have : (k : K) ≤ -1 := by exact_mod_cast (by omega : k ≤ -1)
    have : t + k * (2 * pi) ≤ -|t| := by
      have := abs_le.2 ⟨t1, t2⟩
      nlinarith
    have := neg_le_abs (t + k * (2 * pi))
    linarith
  · subst hk; simp
  · have : (1 : K) ≤ k := by exact_mod_cast (by omega : 1 ≤ k)
    have : |t| ≤ t + k * (2 * pi) := by
      have := abs_le.2 ⟨t1, t2⟩
      nlinarith
    exact this.trans (le_abs_self _)

/-- `ContinuousRevoluteDistance` is the least amount by which to turn from one angle to the other. It is at
most half a turn, symmetric, zero exactly for the same angle, does not depend on whole turns, and satisfies
the triangle inequality. -/
theorem C47_distance (pi : K) (hp : 0 < pi) (a b : K) :
    (∃ t, |t| = revoluteDistance pi a b ∧ SameAngle pi (a + t) b) ∧
    (∀ t, SameAngle pi (a + t) b → revoluteDistance pi a b ≤ |t|) ∧
    revoluteDistance pi a b ≤ pi ∧
    revoluteDistance pi a b = revoluteDistance pi b a ∧
    (revoluteDistance pi a b = 0 ↔ SameAngle pi a b) ∧
    (∀ a', SameAngle pi a a' → revoluteDistance pi a' b = revoluteDistance pi a b) ∧
    (∀ c, revoluteDistance pi a c ≤ revoluteDistance pi a b + revoluteDistance pi b c) := by
  have att : ∀ a b : K, ∃ t, |t| = revoluteDistance pi a b ∧ |t| ≤ pi ∧ SameAngle pi (a + t) b := by
    intro a b
    obtain ⟨t, h1, h2, k, h3⟩ := distance_attained hp a b
    exact ⟨t, h1, h2, -k, by rw [h3]; push_cast; ring⟩
  have least : ∀ a b t : K, SameAngle pi (a + t) b → revoluteDistance pi a b ≤ |t| := by
    intro a b t h
    obtain ⟨s, h1, h2, h3⟩ := att a b
    rw [← h1]
    refine shortest_of_half hp h2 ?_
    obtain ⟨k, hk⟩ := h3.trans h.symm
    exact ⟨k, by linear_combination hk⟩
  refine ⟨?_, least a b, ?_, ?_, ?_, ?_, ?_⟩
  · obtain ⟨t, h1, -, h3⟩ := att a b; exact ⟨t, h1, h3⟩
  · obtain ⟨t, h1, h2, -⟩ := att a b; rw [← h1]; exact h2
  · have half : ∀ a b : K, revoluteDistance pi a b ≤ revoluteDistance pi b a := by
      intro a b
      obtain ⟨t, h1, -, k, h3⟩ := att b a
      rw [← h1, ← abs_neg]
      exact least a b (-t) ⟨-k, by rw [h3]; push_cast; ring⟩
    exact le_antisymm (half a b) (half b a)
  · constructor
    · intro h
      obtain ⟨t, h1, -, h3⟩ := att a b
      rw [h, abs_eq_zero] at h1
      rw [h1, add_zero] at h3; exact h3
    · intro h
      have := least a b 0 (by rw [add_zero]; exact h)
      rw [abs_zero] at this
      exact le_antisymm this (abs_nonneg _)
  · intro a' ha
    have half : ∀ a a' : K, SameAngle pi a a' → revoluteDistance pi a' b ≤ revoluteDistance pi a b := by
      intro a a' ⟨k, hk⟩
      obtain ⟨t, h1, -, h3⟩ := att a b
      rw [← h1]
      exact least a' b t (SameAngle.trans ⟨-k, by rw [hk]; push_cast; ring⟩ h3)
    exact le_antisymm (half a a' ha) (half a' a ha.symm)
  · intro c
    obtain ⟨t, h1, -, k, h3⟩ := att a b
    obtain ⟨u, h4, -, j, h6⟩ := att b c
    rw [← h1, ← h4]
    refine (least a c (t + u) ⟨k + j, ?_⟩).trans (abs_add_le t u)
    rw [h6, h3]; push_cast; ring

/-- The signed distance added to the first angle gives the second, when the difference of the wrapped angles
is at most half a turn. -/
theorem C47_signed_partial (pi : K) (hp : 0 < pi) (a b : K)
    (h : Principal pi (enforceBounds pi b - enforceBounds pi a)) :
    SameAngle pi (a + signedDistance pi a b) b ∧ Principal pi (signedDistance pi a b) := by
  rcases signed_cases pi a b with ⟨h1, e⟩ | ⟨h1, -⟩ | ⟨h1, -⟩
  · obtain ⟨k, hk⟩ := raw_same hp a b
    rw [e]
    exact ⟨⟨-k, by rw [hk]; push_cast; ring⟩, h1⟩
  · exact absurd h1 (not_le.2 h.1)
  · exact absurd h1 (not_lt.2 h.2)

/-- Otherwise it has the wrong sign: it is subtracting it from the first angle that gives the second, and
adding it does not, unless the angles are opposite. -/
theorem C47_signed_wrong (pi : K) (hp : 0 < pi) (a b : K)
    (h : ¬ Principal pi (enforceBounds pi b - enforceBounds pi a)) :
    SameAngle pi (a - signedDistance pi a b) b ∧
    (SameAngle pi (a + signedDistance pi a b) b → revoluteDistance pi a b = pi) := by
  obtain ⟨l, u⟩ := raw_bounds hp a b
  obtain ⟨k, hk⟩ := raw_same hp a b
  unfold revoluteDistance
  rcases signed_cases pi a b with ⟨h1, -⟩ | ⟨h1, e⟩ | ⟨h1, e⟩
  · exact absurd h1 h
  · rw [e]
    refine ⟨⟨-k - 1, by rw [hk]; push_cast; ring⟩, ?_⟩
    rintro ⟨j, hj⟩
    have hz : ((j + k + 1 : Int) : K) * (2 * pi) = 2 * (enforceBounds pi b - enforceBounds pi a + 2 * pi) + 0 := by
      push_cast; linear_combination -hj - hk
    have hz' : ((j + k + 1 : Int) : K) * (2 * pi) ≤ 2 * pi := by rw [hz]; linarith
    have hz'' : 0 < ((j + k + 1 : Int) : K) * (2 * pi) := by rw [hz]; linarith
    have i1 : (0 : K) < ((j + k + 1 : Int) : K) := by
      by_contra c; have := not_lt.1 c; nlinarith
    have i2 : ((j + k + 1 : Int) : K) ≤ 1 := by
      by_contra c; have := not_le.1 c; nlinarith
    have i1' : 0 < j + k + 1 := by exact_mod_cast i1
    have i2' : j + k + 1 ≤ 1 := by exact_mod_cast i2
    have : j + k + 1 = 1 := by omega
    rw [this] at hz
    push_cast at hz
    rw [abs_neg, abs_of_pos (by linarith)]
    linarith
  · rw [e]
    refine ⟨⟨-k + 1, by rw [hk]; push_cast; ring⟩, ?_⟩
    rintro ⟨j, hj⟩
    have hz : ((j + k - 1 : Int) : K) * (2 * pi) = 2 * (enforceBounds pi b - enforceBounds pi a - 2 * pi) + 0 := by
      push_cast; linear_combination -hj - hk
    have hz' : -(2 * pi) < ((j + k - 1 : Int) : K) * (2 * pi) := by rw [hz]; linarith
    have hz'' : ((j + k - 1 : Int) : K) * (2 * pi) < 0 := by rw [hz]; linarith
    have := turns_zero hp hz' (by linarith)
    rw [this] at hz''
    simp at hz''

/-! ## Ranges -/

theorem ccw_exists {pi : K} (hp : 0 < pi) (a b : K) :
    ∃ c, Ccw pi a b c ∧ (Principal pi (enforceBounds pi b - enforceBounds pi a) → getRange pi a b = c) ∧
      (¬ Principal pi (enforceBounds pi b - enforceBounds pi a) → getRange pi a b = 2 * pi - c) := by
  obtain ⟨l, u⟩ := raw_bounds hp a b
  obtain ⟨k, hk⟩ := raw_same hp a b
  unfold getRange
  dsimp only
  rcases signed_cases pi a b with ⟨h1, e⟩ | ⟨h1, e⟩ | ⟨h1, e⟩
  · rw [e]
    by_cases c0 : 0 ≤ enforceBounds pi b - enforceBounds pi a
    · rw [if_pos c0]
      exact ⟨_, ⟨c0, u, -k, by rw [hk]; push_cast; ring⟩, fun _ => rfl, fun h => absurd h1 h⟩
    · rw [if_neg c0]
      have := not_le.1 c0
      exact ⟨_, ⟨by linarith, by linarith, -k - 1, by rw [hk]; push_cast; ring⟩, fun _ => rfl,
        fun h => absurd h1 h⟩
  · have hn : ¬ Principal pi (enforceBounds pi b - enforceBounds pi a) := fun h => absurd h1 (not_le.2 h.1)
    refine ⟨enforceBounds pi b - enforceBounds pi a + 2 * pi,
      ⟨by linarith, by linarith, -k - 1, by rw [hk]; push_cast; ring⟩, fun h => absurd h hn, fun _ => ?_⟩
    rw [e, if_neg (by linarith)]; ring
  · have hn : ¬ Principal pi (enforceBounds pi b - enforceBounds pi a) := fun h => absurd h1 (not_lt.2 h.2)
    refine ⟨enforceBounds pi b - enforceBounds pi a,
      ⟨by linarith, by linarith, -k, by rw [hk]; push_cast; ring⟩, fun h => absurd h hn, fun _ => ?_⟩
    rw [e, if_pos (by linarith)]; ring

theorem ccw_unique {pi a b c c' : K} (hp : 0 < pi) (h : Ccw pi a b c) (h' : Ccw pi a b c') : c = c' := by
  obtain ⟨h1, h2, h3⟩ := h
  obtain ⟨h1', h2', h3'⟩ := h'
  obtain ⟨k, hk⟩ := h3.trans h3'.symm
  have : k = 0 := turns_zero hp (by linarith) (by linarith)
  rw [this] at hk
  simp at hk
  exact hk.symm

theorem checkInRange_eq {pi : K} (hp : 0 < pi) (start range val : K) :
    checkInRange pi start range val = decide (getRange pi start val ≤ range) := by
  have idem : ∀ v, enforceBounds pi (enforceBounds pi v) = enforceBounds pi v := fun v =>
    (C46_wrap pi hp _).2.2.2 (enforce_spec hp v).1
  have e : signedDistance pi (enforceBounds pi start) (enforceBounds pi val) = signedDistance pi start val := by
    unfold signedDistance; rw [idem, idem]
  unfold checkInRange getRange
  simp only [e]
  split <;> rfl

/-- `GetContinuousRevoluteRange` is how far to turn counter-clockwise from `start` to `end`, when the
difference of the wrapped angles is at most half a turn; otherwise it is how far to turn clockwise. -/
theorem C71_range_partial (pi : K) (hp : 0 < pi) (start stop c : K) (hc : Ccw pi start stop c) :
    (Principal pi (enforceBounds pi stop - enforceBounds pi start) → getRange pi start stop = c) ∧
    (¬ Principal pi (enforceBounds pi stop - enforceBounds pi start) → getRange pi start stop = 2 * pi - c) := by
  obtain ⟨c', h1, h2, h3⟩ := ccw_exists hp start stop
  rw [ccw_unique hp hc h1]
  exact ⟨h2, h3⟩

/-- `CheckInContinuousRevoluteRange` tells whether `val` is within `range` counter-clockwise of `start`, and
`CheckInContinuousRevoluteBounds` whether it is between `start` and `end`, when the differences of the
wrapped angles are at most half a turn. -/
theorem C71_check_partial (pi : K) (hp : 0 < pi) (start stop range val c d : K)
    (hc : Ccw pi start val c) (hd : Ccw pi start stop d)
    (h1 : Principal pi (enforceBounds pi val - enforceBounds pi start)) :
    (checkInRange pi start range val = true ↔ c ≤ range) ∧
    (Principal pi (enforceBounds pi stop - enforceBounds pi start) →
      (checkInBounds pi start stop val = true ↔ c ≤ d)) := by
  have e1 := (C71_range_partial pi hp start val c hc).1 h1
  refine ⟨by rw [checkInRange_eq hp, decide_eq_true_eq, e1], fun h2 => ?_⟩
  unfold checkInBounds
  rw [checkInRange_eq hp, decide_eq_true_eq, e1, (C71_range_partial pi hp start stop d hd).1 h2]

/-! ## Interpolation -/

/-- a ratio cut off at 0 and 1 -/
theorem unit_eq (r : K) : (safetyCheckUnitInterval r).1 = min 1 (max 0 r) := by
  unfold safetyCheckUnitInterval
  by_cases h1 : r < 0
  · rw [if_pos h1, max_eq_left h1.le, min_eq_right zero_le_one]
  · rw [if_neg h1, max_eq_right (not_lt.1 h1)]
    by_cases h2 : 1 < r
    · rw [if_pos h2, min_eq_left h2.le]
    · rw [if_neg h2, min_eq_right (not_lt.1 h2)]

/-- Ratios from 0 to 1 are used without a warning; others are cut off to 0 or 1 with a warning. -/
theorem C72_ratio (r : K) : (0 ≤ r → r ≤ 1 → safetyCheckUnitInterval r = (r, false)) ∧
    (r < 0 → safetyCheckUnitInterval r = (0, true)) ∧ (1 < r → safetyCheckUnitInterval r = (1, true)) := by
  unfold safetyCheckUnitInterval
  refine ⟨fun h0 h1 => ?_, fun h => if_pos h, fun h => ?_⟩
  · rw [if_neg (not_lt.2 h0), if_neg (not_lt.2 h1)]
  · rw [if_neg (not_lt.2 (zero_le_one.trans h.le)), if_pos h]

example : safetyCheckUnitInterval (3 / 2 : ℚ) = (1, true) := (C72_ratio _).2.2 (by norm_num)

theorem unit_bounds (r : K) : 0 ≤ (safetyCheckUnitInterval r).1 ∧ (safetyCheckUnitInterval r).1 ≤ 1 := by
  rw [unit_eq]
  exact ⟨le_min zero_le_one (le_max_left _ _), min_le_left _ _⟩

theorem interpolateRevolute_spec {pi : K} (hp : 0 < pi) (a b ratio : K) :
    ∃ t, |t| ≤ pi ∧ SameAngle pi (a + t) b ∧ ∃ turns : Int,
      interpolateRevolute pi a b ratio =
        enforceBounds pi a + (safetyCheckUnitInterval ratio).1 * t + (turns : K) * (2 * pi) ∧
      -pi ≤ interpolateRevolute pi a b ratio ∧ interpolateRevolute pi a b ratio ≤ pi ∧
      ((safetyCheckUnitInterval ratio).1 = 0 → turns = 0) := by
  obtain ⟨⟨a1, a2⟩, ka, hka⟩ := enforce_spec hp a
  obtain ⟨⟨b1, b2⟩, kb, hkb⟩ := enforce_spec hp b
  obtain ⟨r0, r1⟩ := unit_bounds ratio
  unfold interpolateRevolute
  dsimp only
  generalize (safetyCheckUnitInterval ratio).1 = r at *
  generalize enforceBounds pi a = q1 at *
  generalize enforceBounds pi b = q2 at *
  by_cases c : |q2 - q1| ≤ pi
  · simp only [if_pos c]
    refine ⟨q2 - q1, c, ⟨kb * -1 + ka, by rw [hka, hkb]; push_cast; ring⟩, 0, by push_cast; ring, ?_, ?_, fun _ => rfl⟩
    · nlinarith
    · nlinarith
  · simp only [if_neg c]
    rw [abs_le, not_and_or, not_le, not_le] at c
    by_cases d : 0 < q2 - q1
    · simp only [if_pos d]
      have c' : pi < q2 - q1 := c.resolve_left (by intro h; linarith)
      have key : q1 - (2 * pi - (q2 - q1)) * r ≤ q1 := by nlinarith
      have key2 : q2 - 2 * pi ≤ q1 - (2 * pi - (q2 - q1)) * r := by nlinarith
      rw [if_neg (by linarith)]
      refine ⟨q2 - q1 - 2 * pi, abs_le.2 ⟨by linarith, by linarith⟩,
        ⟨kb * -1 + ka + 1, by rw [hka, hkb]; push_cast; ring⟩, ?_⟩
      by_cases e : q1 - (2 * pi - (q2 - q1)) * r < -pi
      · simp only [if_pos e]
        refine ⟨1, by push_cast; ring, by linarith, by linarith, fun h => ?_⟩
        exfalso; rw [h] at e; linarith
      · simp only [if_neg e]
        refine ⟨0, by push_cast; ring, by linarith, by linarith, fun _ => rfl⟩
    · simp only [if_neg d]
      have c' : q2 - q1 < -pi := c.resolve_right (by intro h; linarith)
      have key : q1 ≤ q1 - (-2 * pi - (q2 - q1)) * r := by nlinarith
      have key2 : q1 - (-2 * pi - (q2 - q1)) * r ≤ q2 + 2 * pi := by nlinarith
      refine ⟨q2 - q1 + 2 * pi, abs_le.2 ⟨by linarith, by linarith⟩,
        ⟨kb * -1 + ka - 1, by rw [hka, hkb]; push_cast; ring⟩, ?_⟩
      by_cases e : pi < q1 - (-2 * pi - (q2 - q1)) * r
      · simp only [if_pos e]
        refine ⟨-1, by push_cast; ring, by linarith, by linarith, fun h => ?_⟩
        exfalso; rw [h] at e; linarith
      · simp only [if_neg e]
        rw [if_neg (by linarith)]
        refine ⟨0, by push_cast; ring, by linarith, by linarith, fun _ => rfl⟩

/-- `InterpolateContinuousRevolute` moves along a shortest way: for a ratio `r` (cut off at 0 and 1) the
result is `r` times the distance away from the first angle and `1 - r` times the distance from the second.
It lies in `[-π, π]`, is the wrapped first angle for ratios up to 0 and the second angle (up to a turn) from
1 on. -/
theorem C72_revolute (pi : K) (hp : 0 < pi) (a b ratio : K) :
    let x := interpolateRevolute pi a b ratio
    let r := min 1 (max 0 ratio)
    (-pi ≤ x ∧ x ≤ pi) ∧
    revoluteDistance pi a x = r * revoluteDistance pi a b ∧
    revoluteDistance pi x b = (1 - r) * revoluteDistance pi a b ∧
    (∃ t, |t| = revoluteDistance pi a b ∧ SameAngle pi (a + t) b ∧ SameAngle pi (a + r * t) x) ∧
    (ratio ≤ 0 → x = enforceBounds pi a) ∧ (1 ≤ ratio → SameAngle pi b x) := by
  intro x r
  obtain ⟨t, h1, ⟨k, h2⟩, n, h3, h4, h5, h7⟩ := interpolateRevolute_spec hp a b ratio
  obtain ⟨-, ka, hka⟩ := enforce_spec hp a
  rw [unit_eq] at h3 h7
  have r0 : 0 ≤ r := le_min zero_le_one (le_max_left _ _)
  have r1 : r ≤ 1 := min_le_left _ _
  have hx : x = enforceBounds pi a + r * t + (n : K) * (2 * pi) := h3
  have dist : ∀ a b t : K, |t| ≤ pi → SameAngle pi (a + t) b → revoluteDistance pi a b = |t| := by
    intro a b t ht hs
    obtain ⟨⟨s, e1, e2⟩, e3, -⟩ := C47_distance pi hp a b
    refine le_antisymm (e3 t hs) ?_
    rw [← e1]
    refine shortest_of_half hp ht ?_
    obtain ⟨j, hj⟩ := hs.trans e2.symm
    exact ⟨j, by linear_combination hj⟩
  have dab := dist a b t h1 ⟨k, h2⟩
  have hxs : SameAngle pi (a + r * t) x := ⟨ka + n, by rw [hx, hka]; push_cast; ring⟩
  refine ⟨⟨h4, h5⟩, ?_, ?_, ⟨t, dab.symm, ⟨k, h2⟩, hxs⟩, ?_, ?_⟩
  · rw [dist a x (r * t) ?_ hxs, abs_mul, abs_of_nonneg r0, dab]
    rw [abs_mul, abs_of_nonneg r0]
    calc r * |t| ≤ 1 * |t| := mul_le_mul_of_nonneg_right r1 (abs_nonneg t)
      _ ≤ pi := by rw [one_mul]; exact h1
  · have : SameAngle pi (x + (1 - r) * t) b :=
      ⟨k - ka - n, by rw [hx, h2, hka]; push_cast; ring⟩
    rw [dist x b ((1 - r) * t) ?_ this, abs_mul, abs_of_nonneg (by linarith), dab]
    rw [abs_mul, abs_of_nonneg (by linarith : (0 : K) ≤ 1 - r)]
    calc (1 - r) * |t| ≤ 1 * |t| := mul_le_mul_of_nonneg_right (by linarith) (abs_nonneg t)
      _ ≤ pi := by rw [one_mul]; exact h1
  · intro h
    have hr : r = 0 := by
      show min 1 (max 0 ratio) = 0
      rw [max_eq_left h, min_eq_right zero_le_one]
    have := h7 hr
    rw [hx, hr, this]; simp
  · intro h
    have hr : r = 1 := by
      show min 1 (max 0 ratio) = 1
      rw [min_eq_left (h.trans (le_max_right _ _))]
    refine SameAngle.trans ?_ hxs
    rw [hr, one_mul]
    exact SameAngle.symm ⟨k, h2⟩

/-- `Interpolate` of numbers is the point the given fraction (cut off at 0 and 1) of the way between them;
for pairs and vectors it does so in each component, and vectors of different sizes give the empty vector. -/
theorem C72_interpolate (ratio : K) :
    let r := min 1 (max 0 ratio)
    (∀ p q : K, interpolate p q ratio = p + r * (q - p) ∧
      min p q ≤ interpolate p q ratio ∧ interpolate p q ratio ≤ max p q ∧
      (ratio ≤ 0 → interpolate p q ratio = p) ∧ (1 ≤ ratio → interpolate p q ratio = q)) ∧
    (∀ p q : K × K, interpolatePair p q ratio = (interpolate p.1 q.1 ratio, interpolate p.2 q.2 ratio)) ∧
    (∀ v w : List K, interpolateVec v w ratio = .ok (if v.length = w.length then
      List.zipWith (fun p q => interpolate p q ratio) v w else [])) := by
  intro r
  have r0 : 0 ≤ r := le_min zero_le_one (le_max_left _ _)
  have r1 : r ≤ 1 := min_le_left _ _
  have e : ∀ p q : K, interpolate p q ratio = p + r * (q - p) := by
    intro p q
    unfold interpolate
    rw [unit_eq]
    show p * (1 - r) + q * r = _
    ring
  refine ⟨fun p q => ⟨e p q, ?_, ?_, ?_, ?_⟩, fun p q => rfl, fun v w => ?_⟩
  · rw [e]
    have h1 := min_le_left p q
    have h2 := min_le_right p q
    nlinarith
  · rw [e]
    have h1 := le_max_left p q
    have h2 := le_max_right p q
    nlinarith
  · intro h
    have hr : r = 0 := by
      show min 1 (max 0 ratio) = 0
      rw [max_eq_left h, min_eq_right zero_le_one]
    rw [e, hr]; ring
  · intro h
    have hr : r = 1 := by
      show min 1 (max 0 ratio) = 1
      rw [min_eq_left (h.trans (le_max_right _ _))]
    rw [e, hr]; ring
  · unfold interpolateVec
    dsimp only
    by_cases h : v.length = w.length
    · rw [if_neg (not_not.2 h), if_pos h]
      induction v generalizing w with
      | nil => simp [interpolateLoop]
      | cons x v ih =>
        cases w with
        | nil => simp at h
        | cons y w =>
          rw [interpolateLoop, ih w (by simpa using h), Out.bind_ok, List.zipWith_cons_cons]
          rfl
    · rw [if_pos h, if_neg h]

/-- `CloseEnough` compares the difference with the absolute value of the threshold; vectors must have the
same size and be close in every component. `IsApprox` and `CloseEnough` are symmetric. `Sign` is the sign. -/
theorem C72_comparisons (p q t : K) :
    (closeEnough p q t = true ↔ |p - q| ≤ |t|) ∧ closeEnough p q t = closeEnough q p t ∧
    (∀ v w : List K, ∃ b, closeEnoughVec v w t = .ok b ∧
      (b = true ↔ v.length = w.length ∧ ∀ (i : Nat) (x y : K), v[i]? = some x → w[i]? = some y → |x - y| ≤ |t|)) ∧
    isApprox p q t = isApprox q p t ∧
    (isApprox p q t = true ↔ |p - q| ≤ |t| * |p| ∧ |p - q| ≤ |t| * |q|) ∧
    (sign p = 1 ↔ 0 < p) ∧ (sign p = 0 ↔ p = 0) ∧ (sign p = -1 ↔ p < 0) := by
  have ce : ∀ p q t : K, closeEnough p q t = true ↔ |p - q| ≤ |t| := by
    intro p q t; unfold closeEnough; rw [decide_eq_true_eq, abs_sub_comm]
  have sy : ∀ p q t : K, closeEnough p q t = closeEnough q p t := by
    intro p q t; rw [Bool.eq_iff_iff, ce, ce, abs_sub_comm]
  refine ⟨ce p q t, sy p q t, ?_, ?_, ?_, ?_, ?_, ?_⟩
  · intro v w
    unfold closeEnoughVec
    by_cases h : v.length = w.length
    · rw [if_neg (not_not.2 h)]
      induction v generalizing w with
      | nil => exact ⟨true, rfl, by simp [h]⟩
      | cons x v ih =>
        cases w with
        | nil => simp at h
        | cons y w =>
          rw [closeEnoughLoop]
          have hl : v.length = w.length := by simpa using h
          by_cases hc : closeEnough x y t = true
          · rw [if_neg (by simp [hc])]
            obtain ⟨b, hb, hi⟩ := ih w hl
            refine ⟨b, hb, ?_⟩
            rw [hi]
            constructor
            · rintro ⟨-, g⟩
              refine ⟨h, fun i a c ha hcc => ?_⟩
              cases i with
              | zero => simp at ha hcc; subst ha; subst hcc; exact (ce _ _ t).1 hc
              | succ i => exact g i a c (by simpa using ha) (by simpa using hcc)
            · rintro ⟨-, g⟩
              exact ⟨hl, fun i a c ha hcc => g (i + 1) a c (by simpa using ha) (by simpa using hcc)⟩
          · rw [if_pos (by simpa using hc)]
            refine ⟨false, rfl, ?_⟩
            simp only [Bool.false_eq_true, false_iff]
            rintro ⟨-, g⟩
            exact hc ((ce _ _ t).2 (g 0 x y rfl rfl))
    · rw [if_pos h]
      exact ⟨false, rfl, by simp [h]⟩
  · unfold isApprox; rw [sy, min_comm]
  · unfold isApprox
    rw [ce, abs_mul, abs_of_nonneg (le_min (abs_nonneg p) (abs_nonneg q)),
      mul_min_of_nonneg _ _ (abs_nonneg t), le_min_iff]
  · unfold sign
    rcases lt_trichotomy p 0 with h | h | h
    · simp [h, not_lt.2 h.le]
    · simp [h]
    · simp [h, not_lt.2 h.le]
  · unfold sign
    rcases lt_trichotomy p 0 with h | h | h
    · simp [h, not_lt.2 h.le, ne_of_lt h]
    · simp [h]
    · simp [h, not_lt.2 h.le, ne_of_gt h]
  · unfold sign
    rcases lt_trichotomy p 0 with h | h | h
    · simp [h, not_lt.2 h.le]
    · simp [h]
    · simp [h, not_lt.2 h.le]

/-- For example from 3 to -3 the signed distance (about -0.28) leads away from -3. -/
theorem C47_signed_example : ¬ SameAngle (157 / 50 : ℚ) (3 + signedDistance (157 / 50) 3 (-3)) (-3) := by
  intro h
  have hr : enforceBounds (157 / 50 : ℚ) (-3) - enforceBounds (157 / 50 : ℚ) 3 = -6 := by decide +kernel
  have := (C47_signed_wrong (157 / 50 : ℚ) (by norm_num) 3 (-3) (by rw [hr]; unfold Principal; norm_num)).2 h
  have e : revoluteDistance (157 / 50 : ℚ) 3 (-3) = 7 / 25 := by decide +kernel
  rw [e] at this
  norm_num at this

/-- With the wrong sign the checks go wrong too: 0 is not between 3 and -3 (counter-clockwise, over π), but it
is reported to be; it is between -3 and 3, but reported not to be. -/
theorem C71_check_wrong :
    checkInBounds (157 / 50 : ℚ) 3 (-3) 0 = true ∧ checkInBounds (157 / 50 : ℚ) (-3) 3 0 = false ∧
    Ccw (157 / 50 : ℚ) 3 (-3) (7 / 25) ∧ Ccw (157 / 50 : ℚ) 3 0 (82 / 25) ∧
    Ccw (157 / 50 : ℚ) (-3) 3 6 ∧ Ccw (157 / 50 : ℚ) (-3) 0 3 := by
  refine ⟨by decide +kernel, by decide +kernel, ⟨by norm_num, by norm_num, -1, by norm_num⟩,
    ⟨by norm_num, by norm_num, -1, by norm_num⟩, ⟨by norm_num, by norm_num, 0, by norm_num⟩,
    ⟨by norm_num, by norm_num, 0, by norm_num⟩⟩

/-- The hypotheses of the partial theorems hold for example between 1 and 2. -/
example : Principal (157 / 50 : ℚ) (enforceBounds (157 / 50) 2 - enforceBounds (157 / 50) 1) ∧
    signedDistance (157 / 50 : ℚ) 1 2 = 1 ∧ enforceBounds (157 / 50 : ℚ) 10 = -64 / 25 ∧
    interpolateRevolute (157 / 50 : ℚ) 3 (-3) (1 / 4) = 307 / 100 ∧
    checkInBounds (157 / 50 : ℚ) 1 2 (3 / 2) = true := by
  unfold Principal
  refine ⟨⟨by decide +kernel, by decide +kernel⟩, by decide +kernel, by decide +kernel, by decide +kernel,
    by decide +kernel⟩

end

end Verif.Angles
