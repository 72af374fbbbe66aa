import Verif.Spec.RobotJoint
import Verif.Props.Angles

/-!
# The values of joints (C95)
-/
namespace Verif.LinkedRobot
open Verif

theorem isContinuous_iff (j : Joint) : j.isContinuous = true ↔ j.type = CONTINUOUS := by
  unfold Joint.isContinuous; split <;> simp_all

theorem within_limits {l u : Option ℝ} : (∃ v, Within ⟨l, u, 0, 0⟩ v) ↔ ¬ Joint.crossed (l, u) := by
  unfold Joint.crossed Within
  cases l with
  | none =>
    cases u with
    | none => simp
    | some u => simp; exact ⟨u, le_refl _⟩
  | some l =>
    cases u with
    | none => simp; exact ⟨l, le_refl _⟩
    | some u =>
      simp only [Option.some.injEq, forall_eq', gt_iff_lt, not_lt]
      exact ⟨fun ⟨v, h1, h2⟩ => h1.trans h2, fun h => ⟨l, le_refl _, h⟩⟩

theorem not_below {j : Joint} {v : ℝ} : ¬ j.belowLower v ↔ ∀ l, j.lower = some l → l ≤ v := by
  unfold Joint.belowLower
  cases j.lower <;> simp

theorem not_above {j : Joint} {v : ℝ} : ¬ j.aboveUpper v ↔ ∀ u, j.upper = some u → v ≤ u := by
  unfold Joint.aboveUpper
  cases j.upper <;> simp

theorem setValue_spec (j : Joint) (hl : ∃ v, Within j v)
    (hc : j.type = CONTINUOUS → j.lower = none ∧ j.upper = none) (v : ℝ) :
    ∃ j', j.setValue (some v) = .ok j' ∧ Valid j' ∧ SetTo j' v ∧ j'.type = j.type ∧ j'.lower = j.lower ∧
      j'.upper = j.upper := by
  have out : ∀ x, j.enforceLimits (some v) = .ok x → Valid { j with value := x } ∧ SetTo { j with value := x } v →
      ∃ j', j.setValue (some v) = .ok j' ∧ Valid j' ∧ SetTo j' v ∧ j'.type = j.type ∧ j'.lower = j.lower ∧
        j'.upper = j.upper := by
    intro x hx h
    refine ⟨{ j with value := x }, ?_, h.1, h.2, rfl, rfl, rfl⟩
    unfold Joint.setValue
    rw [hx]; rfl
  by_cases c : j.type = CONTINUOUS
  · obtain ⟨h1, h2, -, -⟩ := Angles.C46_wrap Real.pi Real.pi_pos v
    refine out (Angles.enforceBounds Real.pi v) (by unfold Joint.enforceLimits; simp only; rw [if_pos ((isContinuous_iff j).2 c)])
      ⟨⟨hl, fun _ => ?_, fun h => ?_⟩, fun _ => h2, fun h => ?_⟩
    · exact ⟨(hc c).1, (hc c).2, h1⟩
    · exact absurd c h
    · exact absurd c h
  · have key : ∀ x, j.enforceLimits (some v) = .ok x → Within j x → (∀ w, Within j w → |v - x| ≤ |v - w|) → _ :=
      fun x hx h1 h2 => out x hx ⟨⟨hl, fun h => absurd h c, fun _ => h1⟩, fun h => absurd h c, fun _ => h2⟩
    have cf : ¬ j.isContinuous = true := fun h => c ((isContinuous_iff j).1 h)
    obtain ⟨z, hz1, hz2⟩ := hl
    by_cases b : j.belowLower v
    · obtain ⟨l, hl⟩ : ∃ l, j.lower = some l := by
        cases h : j.lower with
        | none => unfold Joint.belowLower at b; rw [h] at b; exact b.elim
        | some l => exact ⟨l, rfl⟩
      have hvl : v < l := by unfold Joint.belowLower at b; rw [hl] at b; exact b
      refine key l (by unfold Joint.enforceLimits; simp only; rw [if_neg cf, if_pos b, hl]; rfl) ⟨fun l' h => ?_, fun u h => ?_⟩ ?_
      · rw [hl] at h; simp at h; rw [h]
      · exact (hz1 l hl).trans (hz2 u h)
      · intro w hw
        have := hw.1 l hl
        rw [abs_of_nonpos (by linarith), abs_of_nonpos (by linarith)]
        linarith
    · by_cases a : j.aboveUpper v
      · obtain ⟨u, hu⟩ : ∃ u, j.upper = some u := by
          cases h : j.upper with
          | none => unfold Joint.aboveUpper at a; rw [h] at a; exact a.elim
          | some u => exact ⟨u, rfl⟩
        have hvu : u < v := by unfold Joint.aboveUpper at a; rw [hu] at a; exact a
        refine key u (by unfold Joint.enforceLimits; simp only; rw [if_neg cf, if_neg b, if_pos a, hu]; rfl) ⟨fun l h => ?_, fun u' h => ?_⟩ ?_
        · exact (hz1 l h).trans (hz2 u hu)
        · rw [hu] at h; simp at h; rw [h]
        · intro w hw
          have := hw.2 u hu
          rw [abs_of_nonneg (by linarith), abs_of_nonneg (by linarith)]
          linarith
      · refine key v (by unfold Joint.enforceLimits; simp only; rw [if_neg cf, if_neg b, if_neg a]) ⟨not_below.1 b, not_above.1 a⟩ ?_
        intro w _
        rw [sub_self, abs_zero]; exact abs_nonneg _

/-- C95: constructing a joint fails for a value that is not a number or infinite, and for limits that are crossed unless the
joint is continuous; otherwise it gives a joint of the type and limits asked for (a continuous joint has none), set to the
value. -/
theorem C95_construct (limits : Option ℝ × Option ℝ) (type : JointType) :
    Joint.make limits none type = .throws .invalidArgument ∧
    (∀ v, type ≠ CONTINUOUS → (¬ ∃ w, Within ⟨limits.1, limits.2, 0, type⟩ w) →
      Joint.make limits v type = .throws .invalidArgument) ∧
    (∀ v, (type = CONTINUOUS ∨ ∃ w, Within ⟨limits.1, limits.2, 0, type⟩ w) →
      ∃ j, Joint.make limits (some v) type = .ok j ∧ Valid j ∧ SetTo j v ∧ j.type = type ∧
        (type ≠ CONTINUOUS → j.lower = limits.1 ∧ j.upper = limits.2)) ∧
    Joint.default = .ok ⟨some 0, some 0, 0, FIXED⟩ := by
  have hw : (∃ w, Within ⟨limits.1, limits.2, 0, type⟩ w) ↔ ¬ Joint.crossed limits := within_limits
  refine ⟨?_, fun v h1 h2 => ?_, fun v h => ?_, ?_⟩
  · unfold Joint.make
    split
    · rfl
    · split <;> rfl
  · unfold Joint.make
    rw [if_neg h1, if_pos (by rw [hw, not_not] at h2; exact h2)]
  · by_cases c : type = CONTINUOUS
    · obtain ⟨j, h1, h2, h3, h4, -⟩ := setValue_spec ⟨none, none, 0, type⟩ ⟨0, by simp [Within]⟩ (fun _ => ⟨rfl, rfl⟩) v
      exact ⟨j, by unfold Joint.make; rw [if_pos c, h1], h2, h3, h4, fun h => absurd c h⟩
    · have hl := h.resolve_left c
      obtain ⟨j, h1, h2, h3, h4, h5, h6⟩ := setValue_spec ⟨limits.1, limits.2, 0, type⟩ hl (fun h => absurd h c) v
      exact ⟨j, by unfold Joint.make; rw [if_neg c, if_neg (hw.1 hl), h1], h2, h3, h4, fun _ => ⟨h5, h6⟩⟩
  · unfold Joint.default Joint.setValue Joint.enforceLimits Joint.isContinuous
    simp [FIXED, CONTINUOUS, Joint.belowLower, Joint.aboveUpper]

/-- C95: setting the value of a joint fails for a value that is not a number or infinite; otherwise it keeps the type and
the limits, and sets the value. A value between the limits is kept as it is. -/
theorem C95_set (j : Joint) (hj : Valid j) :
    j.setValue none = .throws .invalidArgument ∧
    (∀ v, ∃ j', j.setValue (some v) = .ok j' ∧ Valid j' ∧ SetTo j' v ∧ j'.type = j.type ∧ j'.lower = j.lower ∧
      j'.upper = j.upper ∧ (Within j v → (j.type = CONTINUOUS → Angles.Principal Real.pi v) → j'.value = v)) ∧
    (∀ v, j.copyWithNewValue v = j.setValue v) ∧
    (∀ v, j.inLimits v = true ↔ Within j v) ∧ j.inLimits j.value = true := by
  have hin : ∀ v, j.inLimits v = true ↔ Within j v := by
    intro v
    unfold Joint.inLimits
    by_cases c : j.type = CONTINUOUS
    · rw [if_pos ((isContinuous_iff j).2 c)]
      obtain ⟨h1, h2, -⟩ := hj.continuous c
      simp [Within, h1, h2]
    · rw [if_neg (fun h => c ((isContinuous_iff j).1 h))]
      unfold Within
      rw [← not_below, ← not_above]
      split
      · next h => simp only [Bool.false_eq_true, false_iff]; tauto
      · next h => simp only [true_iff]; tauto
  refine ⟨rfl, fun v => ?_, fun v => ?_, hin, ?_⟩
  · obtain ⟨j', h1, h2, h3, h4, h5, h6⟩ := setValue_spec j hj.limits (fun h => ⟨(hj.continuous h).1, (hj.continuous h).2.1⟩) v
    refine ⟨j', h1, h2, h3, h4, h5, h6, fun h7 h8 => ?_⟩
    by_cases c : j.type = CONTINUOUS
    · exact Angles.principal_unique Real.pi_pos (h2.continuous (h4.trans c)).2.2 (h8 c) (h3.1 (h4.trans c)).symm
    · have := h3.2 (by rwa [h4]) v ⟨fun l hl => h7.1 l (by rwa [← h5]), fun u hu => h7.2 u (by rwa [← h6])⟩
      rw [sub_self, abs_zero] at this
      have := abs_nonpos_iff.1 this
      linarith
  · unfold Joint.copyWithNewValue Joint.make
    by_cases c : j.type = CONTINUOUS
    · rw [if_pos c]
      obtain ⟨h1, h2, -⟩ := hj.continuous c
      cases v with
      | none => rfl
      | some v =>
        unfold Joint.setValue Joint.enforceLimits Joint.isContinuous
        simp only [if_pos c, if_true, h1, h2]
    · rw [if_neg c, if_neg]
      · cases v with
        | none => rfl
        | some v => rfl
      · rw [← within_limits]
        exact hj.limits
  · by_cases c : j.type = CONTINUOUS
    · unfold Joint.inLimits
      rw [if_pos ((isContinuous_iff j).2 c)]
    · exact (hin _).2 (hj.other c)

/-- C95: the distance of two joints fails if they are not of the same type; otherwise it is the difference of the values, for
continuous joints the smallest angle between them. It is symmetric, zero only between equal values, and keeps to the triangle
inequality. -/
theorem C95_distance (a b : Joint) (ha : Valid a) (hb : Valid b) :
    (a.type ≠ b.type → a.distance b = .throws .invalidArgument ∧ a.signedDistance b = .throws .invalidArgument) ∧
    (a.type = b.type → ∃ d s, a.distance b = .ok d ∧ b.distance a = .ok d ∧ a.signedDistance b = .ok s ∧ |s| = d ∧ 0 ≤ d ∧
      (d = 0 ↔ a.value = b.value) ∧ a.distanceTo b.value = d ∧ a.distanceValues a.value b.value = d ∧
      a.signedDistanceTo b.value = s ∧
      (a.type ≠ CONTINUOUS → s = b.value - a.value) ∧
      (a.type = CONTINUOUS → d ≤ Real.pi ∧ (∃ t, |t| = d ∧ Angles.SameAngle Real.pi (a.value + t) b.value) ∧
        ∀ t, Angles.SameAngle Real.pi (a.value + t) b.value → d ≤ |t|) ∧
      ∀ c : Joint, c.type = a.type → ∃ d1 d2, a.distance c = .ok d1 ∧ c.distance b = .ok d2 ∧ d ≤ d1 + d2) := by
  have hs : ∀ x y : Joint, x.isSameType y = true ↔ x.type = y.type := by
    intro x y; unfold Joint.isSameType; split <;> simp_all
  have ok : ∀ x y : Joint, x.type = y.type → x.signedDistance y = .ok (x.signedDistanceValues x.value y.value) ∧
      x.distance y = .ok |x.signedDistanceValues x.value y.value| := by
    intro x y h
    have h1 : x.signedDistance y = .ok (x.signedDistanceValues x.value y.value) := by
      unfold Joint.signedDistance; rw [if_pos ((hs x y).2 h)]
    refine ⟨h1, ?_⟩
    unfold Joint.distance; rw [h1]; rfl
  constructor
  · intro h
    have h1 : a.signedDistance b = .throws .invalidArgument := by
      unfold Joint.signedDistance; rw [if_neg (fun h' => h ((hs a b).1 h'))]
    refine ⟨?_, h1⟩
    unfold Joint.distance; rw [h1]; rfl
  · intro h
    obtain ⟨s1, d1⟩ := ok a b h
    obtain ⟨s2, d2⟩ := ok b a h.symm
    by_cases c : a.type = CONTINUOUS
    · have cb : b.type = CONTINUOUS := h ▸ c
      have e : ∀ (x y : Joint), x.type = CONTINUOUS → |x.signedDistanceValues x.value y.value| =
          Angles.revoluteDistance Real.pi x.value y.value := by
        intro x y hx
        unfold Joint.signedDistanceValues
        rw [if_pos ((isContinuous_iff x).2 hx)]
        rfl
      obtain ⟨p1, p2, p3, p4, p5, -, p7⟩ := Angles.C47_distance Real.pi Real.pi_pos a.value b.value
      refine ⟨_, _, d1, ?_, s1, rfl, abs_nonneg _, ?_, rfl, rfl, rfl, fun hc => absurd c hc, fun _ => ?_, fun z hz => ?_⟩
      · rw [d2, e b a cb, e a b c, p4]
      · rw [e a b c, p5]
        exact ⟨fun hh => Angles.principal_unique Real.pi_pos (ha.continuous c).2.2 (hb.continuous cb).2.2 hh,
          fun hh => ⟨0, by rw [hh]; simp⟩⟩
      · rw [e a b c]; exact ⟨p3, p1, p2⟩
      · refine ⟨_, _, (ok a z hz.symm).2, (ok z b (hz.trans h)).2, ?_⟩
        rw [e a b c, e a z c, e z b (hz.trans c)]
        exact (Angles.C47_distance Real.pi Real.pi_pos a.value z.value).2.2.2.2.2.2 b.value
    · have e : ∀ (x y : Joint), x.type ≠ CONTINUOUS → x.signedDistanceValues x.value y.value = y.value - x.value := by
        intro x y hx
        unfold Joint.signedDistanceValues
        rw [if_neg (fun h' => hx ((isContinuous_iff x).1 h'))]
      refine ⟨_, _, d1, ?_, s1, rfl, abs_nonneg _, ?_, rfl, rfl, rfl, fun _ => e a b c, fun hc => absurd hc c, fun z hz => ?_⟩
      · rw [d2, e b a (h ▸ c), e a b c, abs_sub_comm]
      · rw [e a b c, abs_eq_zero, sub_eq_zero, eq_comm]
      · refine ⟨_, _, (ok a z hz.symm).2, (ok z b (hz.trans h)).2, ?_⟩
        rw [e a b c, e a z c, e z b (by rw [hz]; exact c)]
        have := abs_add_le (z.value - a.value) (b.value - z.value)
        rw [show z.value - a.value + (b.value - z.value) = b.value - a.value by ring] at this
        exact this

/-- Joints as in the theorems: a revolute joint with limits, and a continuous one -/
example : Valid ⟨some (-1), some 2, 1, REVOLUTE⟩ ∧ Valid ⟨none, none, 1, CONTINUOUS⟩ ∧
    (¬ ∃ w, Within ⟨some 2, some 1, 0, PRISMATIC⟩ w) ∧
    Joint.setValue ⟨some (-1), some 2, 1, REVOLUTE⟩ (some 5) = .ok ⟨some (-1), some 2, 2, REVOLUTE⟩ := by
  refine ⟨⟨⟨0, ?_⟩, fun h => absurd h (by decide), fun _ => ?_⟩, ⟨⟨0, ?_⟩, fun _ => ⟨rfl, rfl, ?_⟩, fun h => absurd rfl h⟩, ?_, ?_⟩
  · simp [Within]
  · simp [Within]
  · simp [Within]
  · have := Real.two_le_pi
    constructor <;> simp only <;> linarith
  · rintro ⟨w, h1, h2⟩
    have a := h1 2 rfl
    have b := h2 1 rfl
    linarith
  · unfold Joint.setValue Joint.enforceLimits Joint.isContinuous Joint.belowLower Joint.aboveUpper
    have h : ¬ (REVOLUTE = CONTINUOUS) := by decide
    simp only [if_neg h]
    norm_num

end Verif.LinkedRobot
