import Verif.Props.RobotJoint
import Verif.Props.LinkedRobot
import Verif.Props.Averages
import Mathlib.Analysis.Real.Pi.Bounds

/-!
# Configurations of linked robots (C101)
-/

namespace Verif.LinkedRobot
open Verif

/-! ### Distances -/

/-- How far apart two joints of the same type are -/
noncomputable def gap (a b : Joint) : ℝ := a.distanceValues a.value b.value

theorem gap_spec {a b : Joint} (ha : Valid a) (hb : Valid b) (h : a.type = b.type) :
    a.distance b = .ok (gap a b) ∧ gap a b = gap b a ∧ 0 ≤ gap a b ∧ (gap a b = 0 ↔ a.value = b.value) ∧
      ∀ c : Joint, Valid c → c.type = a.type → gap a b ≤ gap a c + gap c b := by
  obtain ⟨d, s, h1, h2, h3, h4, h5, h6, h7, h8, h9, h10, h11, h12⟩ := (C95_distance a b ha hb).2 h
  obtain ⟨d', s', k1, k2, k3, k4, k5, k6, k7, k8, -⟩ := (C95_distance b a hb ha).2 h.symm
  have e : gap a b = d := h8
  have e' : gap b a = d' := k8
  rw [h2] at k1
  simp only [Out.ok.injEq] at k1
  refine ⟨by rw [h1, e], by rw [e, e', k1], by rw [e]; exact h5, by rw [e]; exact h6, fun c hc hct => ?_⟩
  obtain ⟨d1, d2, l1, l2, l3⟩ := h12 c hct
  obtain ⟨d3, -, m1, -, -, -, -, -, -, m8, -⟩ := (C95_distance a c ha hc).2 hct.symm
  obtain ⟨d4, -, n1, -, -, -, -, -, -, n8, -⟩ := (C95_distance c b hc hb).2 (hct.trans h)
  rw [l1] at m1
  rw [l2] at n1
  simp only [Out.ok.injEq] at m1 n1
  have e1 : gap a c = d3 := m8
  have e2 : gap c b = d4 := n8
  rw [e, e1, e2, ← m1, ← n1]
  exact l3

theorem mink2 {a b c A B C : ℝ} (ha : 0 ≤ a) (hA : 0 ≤ A)
    (h : a ≤ b + c) (h' : A ≤ B + C) : √(a ^ 2 + A ^ 2) ≤ √(b ^ 2 + B ^ 2) + √(c ^ 2 + C ^ 2) := by
  apply Real.sqrt_le_iff.2
  refine ⟨by positivity, ?_⟩
  have h1 := Real.sq_sqrt (show 0 ≤ b ^ 2 + B ^ 2 by positivity)
  have h2 := Real.sq_sqrt (show 0 ≤ c ^ 2 + C ^ 2 by positivity)
  have h3 : b * c + B * C ≤ √(b ^ 2 + B ^ 2) * √(c ^ 2 + C ^ 2) := by
    rw [← Real.sqrt_mul (by positivity)]
    apply Real.le_sqrt_of_sq_le
    nlinarith [sq_nonneg (b * C - B * c)]
  nlinarith [mul_self_le_mul_self ha h, mul_self_le_mul_self hA h']

/-- The sum of the squared weighted distances of the joints of two configurations -/
noncomputable def sumSquares : List Joint → List Joint → List ℝ → ℝ
  | a :: as, b :: bs, w :: ws => (gap a b * w) ^ 2 + sumSquares as bs ws
  | _, _, _ => 0

theorem sumSquares_nonneg (c1 c2 : List Joint) (ws : List ℝ) : 0 ≤ sumSquares c1 c2 ws := by
  induction c1 generalizing c2 ws with
  | nil => simp [sumSquares]
  | cons a as ih =>
    cases c2 with
    | nil => simp [sumSquares]
    | cons b bs =>
      cases ws with
      | nil => simp [sumSquares]
      | cons w ws => simp only [sumSquares]; have := ih bs ws; positivity

theorem signedDistance_same {a b : Joint} (h : a.type = b.type) :
    a.signedDistance b = .ok (a.signedDistanceValues a.value b.value) := by
  unfold Joint.signedDistance Joint.isSameType
  rw [if_pos h, if_pos rfl]

theorem signedDistance_other {a b : Joint} (h : a.type ≠ b.type) : a.signedDistance b = .throws .invalidArgument := by
  unfold Joint.signedDistance Joint.isSameType
  rw [if_neg h, if_neg (by simp)]

theorem weightedLoop_spec (c1 c2 : List Joint) (ws : List ℝ) (h1 : c1.length = c2.length) (h2 : ws.length = c1.length) :
    (c1.map (·.type) = c2.map (·.type) → ∃ ds, weightedLoop c1 c2 ws = .ok ds ∧ ds.length = c1.length ∧
      (∀ (i : Nat) (a b : Joint) (w : ℝ), c1[i]? = some a → c2[i]? = some b → ws[i]? = some w →
        ∃ s, a.signedDistance b = .ok s ∧ ds[i]? = some (s * w)) ∧
      (ds.map fun d => d * d).sum = sumSquares c1 c2 ws) ∧
    (c1.map (·.type) ≠ c2.map (·.type) → weightedLoop c1 c2 ws = .throws .invalidArgument) := by
  induction c1 generalizing c2 ws with
  | nil =>
    cases c2 with
    | nil =>
      refine ⟨fun _ => ⟨[], rfl, rfl, fun i a b w h => ?_, ?_⟩, fun h => absurd rfl h⟩
      · simp at h
      · simp [sumSquares]
    | cons b bs => simp at h1
  | cons a as ih =>
    cases c2 with
    | nil => simp at h1
    | cons b bs =>
      cases ws with
      | nil => simp at h2
      | cons w ws =>
        obtain ⟨i1, i2⟩ := ih bs ws (by simpa using h1) (by simpa using h2)
        unfold weightedLoop
        constructor
        · intro h
          simp only [List.map_cons, List.cons.injEq] at h
          obtain ⟨ds, e1, e2, e3, e4⟩ := i1 h.2
          rw [signedDistance_same h.1, Out.bind_ok, e1, Out.bind_ok]
          refine ⟨_, rfl, by simp [e2], fun i x y v hx hy hv => ?_, ?_⟩
          · cases i with
            | zero =>
              simp only [List.getElem?_cons_zero, Option.some.injEq] at hx hy hv
              subst hx hy hv
              exact ⟨_, signedDistance_same h.1, rfl⟩
            | succ i => exact e3 i x y v (by simpa using hx) (by simpa using hy) (by simpa using hv)
          · rw [List.map_cons, List.sum_cons, e4]
            simp only [sumSquares]
            congr 1
            unfold gap Joint.distanceValues
            rw [mul_pow, sq_abs]
            ring
        · intro h
          by_cases ht : a.type = b.type
          · rw [signedDistance_same ht, Out.bind_ok, i2 (by simpa [ht] using h)]
            rfl
          · rw [signedDistance_other ht]
            rfl

theorem sumSquares_symm (c1 c2 : List Joint) (ws : List ℝ) (h1 : ∀ j ∈ c1, Valid j) (h2 : ∀ j ∈ c2, Valid j)
    (h : c1.map (·.type) = c2.map (·.type)) : sumSquares c1 c2 ws = sumSquares c2 c1 ws := by
  induction c1 generalizing c2 ws with
  | nil => cases c2 <;> simp_all [sumSquares]
  | cons a as ih =>
    cases c2 with
    | nil => simp at h
    | cons b bs =>
      cases ws with
      | nil => simp [sumSquares]
      | cons w ws =>
        simp only [List.map_cons, List.cons.injEq] at h
        simp only [sumSquares]
        rw [(gap_spec (h1 a List.mem_cons_self) (h2 b List.mem_cons_self) h.1).2.1,
          ih bs ws (fun j hj => h1 j (List.mem_cons_of_mem _ hj)) (fun j hj => h2 j (List.mem_cons_of_mem _ hj)) h.2]

theorem sumSquares_zero (c1 c2 : List Joint) (ws : List ℝ) (h1 : ∀ j ∈ c1, Valid j) (h2 : ∀ j ∈ c2, Valid j)
    (h : c1.map (·.type) = c2.map (·.type)) (hw : ws.length = c1.length) (hp : ∀ w ∈ ws, 0 < w) :
    sumSquares c1 c2 ws = 0 ↔ c1.map (·.value) = c2.map (·.value) := by
  induction c1 generalizing c2 ws with
  | nil => cases c2 <;> simp_all [sumSquares]
  | cons a as ih =>
    cases c2 with
    | nil => simp at h
    | cons b bs =>
      cases ws with
      | nil => simp at hw
      | cons w ws =>
        simp only [List.map_cons, List.cons.injEq] at h
        simp only [sumSquares, List.map_cons, List.cons.injEq]
        have hn := sumSquares_nonneg as bs ws
        rw [← ih bs ws (fun j hj => h1 j (List.mem_cons_of_mem _ hj)) (fun j hj => h2 j (List.mem_cons_of_mem _ hj)) h.2
          (by simpa using hw) (fun w hw => hp w (List.mem_cons_of_mem _ hw)),
          ← (gap_spec (h1 a List.mem_cons_self) (h2 b List.mem_cons_self) h.1).2.2.2.1]
        have hwp := hp w List.mem_cons_self
        constructor
        · intro he
          have h0 : (gap a b * w) ^ 2 = 0 := by nlinarith [sq_nonneg (gap a b * w)]
          refine ⟨?_, by linarith⟩
          rcases mul_eq_zero.1 (pow_eq_zero_iff (two_ne_zero)|>.1 h0) with h | h
          · exact h
          · exact absurd h hwp.ne'
        · rintro ⟨e1, e2⟩
          rw [e1, e2]; ring

theorem sumSquares_triangle (c1 c2 c3 : List Joint) (ws : List ℝ) (h1 : ∀ j ∈ c1, Valid j) (h2 : ∀ j ∈ c2, Valid j)
    (h3 : ∀ j ∈ c3, Valid j) (h : c1.map (·.type) = c2.map (·.type)) (h' : c3.map (·.type) = c1.map (·.type))
    (hp : ∀ w ∈ ws, 0 ≤ w) :
    √(sumSquares c1 c2 ws) ≤ √(sumSquares c1 c3 ws) + √(sumSquares c3 c2 ws) := by
  induction c1 generalizing c2 c3 ws with
  | nil => cases c2 <;> simp_all [sumSquares]
  | cons a as ih =>
    cases c2 with
    | nil => simp at h
    | cons b bs =>
      cases c3 with
      | nil => simp at h'
      | cons c cs =>
        cases ws with
        | nil => simp [sumSquares]
        | cons w ws =>
          simp only [List.map_cons, List.cons.injEq] at h h'
          simp only [sumSquares]
          have va := h1 a List.mem_cons_self
          have vb := h2 b List.mem_cons_self
          have vc := h3 c List.mem_cons_self
          have hw := hp w List.mem_cons_self
          obtain ⟨-, -, n1, -, tri⟩ := gap_spec va vb h.1
          have ht := tri c vc h'.1
          have i := ih bs cs ws (fun j hj => h1 j (List.mem_cons_of_mem _ hj)) (fun j hj => h2 j (List.mem_cons_of_mem _ hj))
            (fun j hj => h3 j (List.mem_cons_of_mem _ hj)) h.2 h'.2 (fun w hw => hp w (List.mem_cons_of_mem _ hw))
          have := mink2 (a := gap a b * w) (b := gap a c * w) (c := gap c b * w) (mul_nonneg n1 hw)
            (Real.sqrt_nonneg _) (by nlinarith) i
          rw [Real.sq_sqrt (sumSquares_nonneg _ _ _), Real.sq_sqrt (sumSquares_nonneg _ _ _),
            Real.sq_sqrt (sumSquares_nonneg _ _ _)] at this
          exact this

/-- A robot that was constructed, with any calls after that -/
def Made (r : Robot) : Prop :=
  ∃ base links joints initial weights r0 calls, (∀ j ∈ joints, InRange links.length j) ∧ (∀ j ∈ joints, Valid j.model) ∧
    make base links joints initial weights = .ok r0 ∧ r = after r0 calls

theorem Made.built {r : Robot} (h : Made r) : Built r := by
  obtain ⟨base, links, joints, initial, weights, r0, calls, h1, h2, h3, rfl⟩ := h
  exact (after_cases r0 ((make_cases h1 h2).1 r0 h3).1 calls).1

/-- C101: distances of configurations need a joint for each joint of the robot that moves, of the same types in the two
configurations, and throw otherwise. Then each joint has its signed distance times its weight, and the distance is the root
of the sum of the squares of these. -/
theorem C101_signed (r : Robot) (hr : Made r) (c1 c2 : List Joint) :
    (¬ (c1.length = r.numActive ∧ c2.length = r.numActive ∧ c1.map (·.type) = c2.map (·.type)) →
      signedDistances r c1 c2 = .throws .invalidArgument ∧ configurationDistance r c1 c2 = .throws .invalidArgument) ∧
    (c1.length = r.numActive → c2.length = r.numActive → c1.map (·.type) = c2.map (·.type) →
      ∃ ds, signedDistances r c1 c2 = .ok ds ∧ ds.length = r.numActive ∧
        (∀ (i : Nat) (a b : Joint) (w : ℝ), c1[i]? = some a → c2[i]? = some b → r.weights[i]? = some w →
          ∃ s, a.signedDistance b = .ok s ∧ ds[i]? = some (s * w)) ∧
        configurationDistance r c1 c2 = .ok (√ (ds.map fun d => d ^ 2).sum)) := by
  have hr := hr.built
  constructor
  · intro h
    have e : signedDistances r c1 c2 = .throws .invalidArgument := by
      unfold signedDistances
      split
      · next hl =>
        exact (weightedLoop_spec c1 c2 r.weights (hl.1.trans hl.2.symm) (by rw [hr.weights.1, hl.1])).2
          fun ht => h ⟨hl.1, hl.2, ht⟩
      · rfl
    exact ⟨e, by unfold configurationDistance; rw [e]; rfl⟩
  · intro l1 l2 ht
    obtain ⟨ds, e1, e2, e3, -⟩ := (weightedLoop_spec c1 c2 r.weights (l1.trans l2.symm) (by rw [hr.weights.1, l1])).1 ht
    have e : signedDistances r c1 c2 = .ok ds := by unfold signedDistances; rw [if_pos ⟨l1, l2⟩, e1]
    refine ⟨ds, e, e2.trans l1, e3, ?_⟩
    unfold configurationDistance
    rw [e, Out.bind_ok]
    simp only [pow_two]

/-- C101: the distance of configurations is symmetric, never negative and keeps to the triangle inequality; if the weights are
not zero it is zero only between configurations with the same values. -/
theorem C101_metric (r : Robot) (hr : Made r) (c1 c2 c3 : List Joint) (l1 : c1.length = r.numActive)
    (t2 : c2.map (·.type) = c1.map (·.type)) (t3 : c3.map (·.type) = c1.map (·.type)) (h1 : ∀ j ∈ c1, Valid j)
    (h2 : ∀ j ∈ c2, Valid j) (h3 : ∀ j ∈ c3, Valid j) :
    ∃ d12 d13 d32, configurationDistance r c1 c2 = .ok d12 ∧ configurationDistance r c2 c1 = .ok d12 ∧
      configurationDistance r c1 c3 = .ok d13 ∧ configurationDistance r c3 c2 = .ok d32 ∧ 0 ≤ d12 ∧ d12 ≤ d13 + d32 ∧
      ((∀ w ∈ r.weights, w ≠ 0) → (d12 = 0 ↔ c1.map (·.value) = c2.map (·.value))) := by
  have hb := hr.built
  have key : ∀ a b : List Joint, a.map (·.type) = c1.map (·.type) → b.map (·.type) = c1.map (·.type) →
      configurationDistance r a b = .ok (√ (sumSquares a b r.weights)) := by
    intro a b ta tb
    have la : a.length = r.numActive := by rw [← l1]; simpa using congrArg List.length ta
    have lb : b.length = r.numActive := by rw [← l1]; simpa using congrArg List.length tb
    obtain ⟨ds, e1, -, -, e4⟩ := (weightedLoop_spec a b r.weights (la.trans lb.symm) (by rw [hb.weights.1, la])).1
      (ta.trans tb.symm)
    unfold configurationDistance signedDistances
    rw [if_pos ⟨la, lb⟩, e1, Out.bind_ok, e4]
  refine ⟨_, _, _, key c1 c2 rfl t2, ?_, key c1 c3 rfl t3, key c3 c2 t3 t2, Real.sqrt_nonneg _, ?_, fun hw => ?_⟩
  · rw [key c2 c1 t2 rfl, sumSquares_symm c1 c2 _ h1 h2 t2.symm]
  · exact sumSquares_triangle c1 c2 c3 _ h1 h2 h3 t2.symm t3 hb.weights.2
  · rw [Real.sqrt_eq_zero (sumSquares_nonneg _ _ _)]
    exact sumSquares_zero c1 c2 _ h1 h2 t2.symm (by rw [hb.weights.1, l1])
      fun w h => lt_of_le_of_ne (hb.weights.2 w h) (hw w h).symm

theorem rawLoop_spec (c1 c2 : List Joint) (h1 : c1.length = c2.length) :
    (c1.map (·.type) = c2.map (·.type) → ∃ ds, rawLoop c1 c2 = .ok ds ∧ ds.length = c1.length ∧
      (∀ (i : Nat) (a b : Joint), c1[i]? = some a → c2[i]? = some b →
        ∃ s, a.signedDistance b = .ok s ∧ ds[i]? = some s)) ∧
    (c1.map (·.type) ≠ c2.map (·.type) → rawLoop c1 c2 = .throws .invalidArgument) := by
  induction c1 generalizing c2 with
  | nil =>
    cases c2 with
    | nil => exact ⟨fun _ => ⟨[], rfl, rfl, fun i a b h => by simp at h⟩, fun h => absurd rfl h⟩
    | cons b bs => simp at h1
  | cons a as ih =>
    cases c2 with
    | nil => simp at h1
    | cons b bs =>
      obtain ⟨i1, i2⟩ := ih bs (by simpa using h1)
      unfold rawLoop
      constructor
      · intro h
        simp only [List.map_cons, List.cons.injEq] at h
        obtain ⟨ds, e1, e2, e3⟩ := i1 h.2
        rw [signedDistance_same h.1, Out.bind_ok, e1, Out.bind_ok]
        refine ⟨_, rfl, by simp [e2], fun i x y hx hy => ?_⟩
        cases i with
        | zero =>
          simp only [List.getElem?_cons_zero, Option.some.injEq] at hx hy
          subst hx hy
          exact ⟨_, signedDistance_same h.1, rfl⟩
        | succ i => exact e3 i x y (by simpa using hx) (by simpa using hy)
      · intro h
        by_cases ht : a.type = b.type
        · rw [signedDistance_same ht, Out.bind_ok, i2 (by simpa [ht] using h)]
          rfl
        · rw [signedDistance_other ht]
          rfl

/-- C101: the distances without weights are the signed distances of the joints; they throw if the numbers or the types of the
joints differ. -/
theorem C101_raw (c1 c2 : List Joint) :
    (c1.map (·.type) ≠ c2.map (·.type) → rawDistance c1 c2 = .throws .invalidArgument) ∧
    (c1.map (·.type) = c2.map (·.type) → ∃ ds, rawDistance c1 c2 = .ok ds ∧ ds.length = c1.length ∧
      (∀ (i : Nat) (a b : Joint), c1[i]? = some a → c2[i]? = some b →
        ∃ s, a.signedDistance b = .ok s ∧ ds[i]? = some s)) := by
  unfold rawDistance
  constructor
  · intro h
    split
    · next hl => exact (rawLoop_spec c1 c2 hl).2 h
    · rfl
  · intro h
    have hl : c1.length = c2.length := by simpa using congrArg List.length h
    rw [if_pos hl]
    exact (rawLoop_spec c1 c2 hl).1 h

/-! ### Interpolation -/

/-- The joint `j` is between `a` and `b`, the fraction `r` of the way from `a`: for a continuous joint on a shortest way, for
others on the line, with the type and the limits of `a`. -/
def Between (r : ℝ) (a b j : Joint) : Prop :=
  Valid j ∧ j.type = a.type ∧ j.lower = a.lower ∧ j.upper = a.upper ∧
  (a.type = CONTINUOUS → ∃ t, (∀ t', Angles.SameAngle Real.pi (a.value + t') b.value → |t| ≤ |t'|) ∧
    Angles.SameAngle Real.pi (a.value + t) b.value ∧ Angles.SameAngle Real.pi (a.value + r * t) j.value) ∧
  (a.type ≠ CONTINUOUS → Within a b.value → j.value = a.value + r * (b.value - a.value)) ∧
  (a.type ≠ CONTINUOUS → SetTo j (a.value + r * (b.value - a.value)))

theorem interpolated_between {a b : Joint} (ha : Valid a) (ratio : ℝ) :
    ∃ j, a.copyWithNewValue (some (interpolatedValue a b ratio)) = .ok j ∧ Between (min 1 (max 0 ratio)) a b j := by
  obtain ⟨-, h1, h2, -⟩ := C95_set a ha
  obtain ⟨j, e1, e2, e3, e4, e5, e6, e7⟩ := h1 (interpolatedValue a b ratio)
  refine ⟨j, by rw [h2]; exact e1, e2, e4, e5, e6, fun hc => ?_, fun hc hw => ?_, fun hc => ?_⟩
  · obtain ⟨-, -, -, ⟨t, k1, k2, k3⟩, -⟩ := Angles.C72_revolute Real.pi Real.pi_pos a.value b.value ratio
    have hx : interpolatedValue a b ratio = Angles.interpolateRevolute Real.pi a.value b.value ratio := by
      unfold interpolatedValue; rw [if_pos ((isContinuous_iff a).2 hc)]
    refine ⟨t, fun t' ht' => ?_, k2, ?_⟩
    · rw [k1]
      exact (Angles.C47_distance Real.pi Real.pi_pos a.value b.value).2.1 t' ht'
    · have := e3.1 (by rw [e4]; exact hc)
      rw [hx] at this
      exact k3.trans this
  · have hx : interpolatedValue a b ratio = Angles.interpolate a.value b.value ratio := by
      unfold interpolatedValue; rw [if_neg fun h => hc ((isContinuous_iff a).1 h)]
    obtain ⟨k1, k2, k3, -⟩ := (Angles.C72_interpolate ratio).1 a.value b.value
    rw [← k1, ← hx]
    refine e7 ?_ fun h => absurd h hc
    have hwa := ha.other hc
    rw [hx]
    refine ⟨fun l hl => ?_, fun u hu => ?_⟩
    · exact (le_min (hwa.1 l hl) (hw.1 l hl)).trans k2
    · exact k3.trans (max_le (hwa.2 u hu) (hw.2 u hu))
  · have hx : interpolatedValue a b ratio = Angles.interpolate a.value b.value ratio := by
      unfold interpolatedValue; rw [if_neg fun h => hc ((isContinuous_iff a).1 h)]
    rw [hx, ((Angles.C72_interpolate ratio).1 a.value b.value).1] at e3
    exact e3

theorem copy_invalid (j : Joint) (v : Option ℝ) :
    (∃ j', j.copyWithNewValue v = .ok j') ∨ j.copyWithNewValue v = .throws .invalidArgument := by
  have hset : ∀ k : Joint, (∃ j', k.setValue v = .ok j') ∨ k.setValue v = .throws .invalidArgument := by
    intro k
    unfold Joint.setValue Joint.enforceLimits
    cases v with
    | none => exact Or.inr rfl
    | some v => left; simp only; split <;> [skip; split <;> [skip; split]] <;> exact ⟨_, rfl⟩
  unfold Joint.copyWithNewValue Joint.make
  split
  · exact hset _
  · split
    · exact Or.inr rfl
    · exact hset _

theorem interpolateLoop_spec (ratio : ℝ) (c1 c2 : List Joint) (hl : c1.length = c2.length) (h1 : ∀ j ∈ c1, Valid j) :
    (c1.map (·.type) = c2.map (·.type) → ∃ c, interpolateLoop ratio c1 c2 = .ok c ∧ c.length = c1.length ∧
      ∀ (i : Nat) (a b : Joint), c1[i]? = some a → c2[i]? = some b →
        ∃ j, c[i]? = some j ∧ Between (min 1 (max 0 ratio)) a b j) ∧
    (c1.map (·.type) ≠ c2.map (·.type) → interpolateLoop ratio c1 c2 = .throws .invalidArgument) := by
  induction c1 generalizing c2 with
  | nil =>
    cases c2 with
    | nil => exact ⟨fun _ => ⟨[], rfl, rfl, fun i a b h => by simp at h⟩, fun h => absurd rfl h⟩
    | cons b bs => simp at hl
  | cons a as ih =>
    cases c2 with
    | nil => simp at hl
    | cons b bs =>
      obtain ⟨i1, i2⟩ := ih bs (by simpa using hl) fun j hj => h1 j (List.mem_cons_of_mem _ hj)
      obtain ⟨j, e1, e2⟩ := interpolated_between (b := b) (h1 a List.mem_cons_self) ratio
      unfold interpolateLoop
      by_cases ht : a.type = b.type
      · have hst : a.isSameType b = true := by unfold Joint.isSameType; rw [if_pos ht]
        rw [if_pos hst, e1, Out.bind_ok]
        constructor
        · intro h
          simp only [List.map_cons, List.cons.injEq] at h
          obtain ⟨c, f1, f2, f3⟩ := i1 h.2
          rw [f1, Out.bind_ok]
          refine ⟨_, rfl, by simp [f2], fun i x y hx hy => ?_⟩
          cases i with
          | zero =>
            simp only [List.getElem?_cons_zero, Option.some.injEq] at hx hy
            subst hx hy
            exact ⟨j, rfl, e2⟩
          | succ i => exact f3 i x y (by simpa using hx) (by simpa using hy)
        · intro h
          rw [i2 (by simpa [ht] using h)]
          rfl
      · have hst : ¬ a.isSameType b = true := by unfold Joint.isSameType; rw [if_neg ht]; simp
        rw [if_neg hst]
        exact ⟨fun h => by simp only [List.map_cons, List.cons.injEq] at h; exact absurd h.1 ht, fun _ => rfl⟩

/-- C101: interpolating between configurations throws if the numbers or the types of the joints differ; otherwise each joint
of the result is the fraction (cut off at 0 and 1) of the way between those of the configurations. -/
theorem C101_interpolate (start finish : List Joint) (ratio : ℝ) (h1 : ∀ j ∈ start, Valid j) :
    (start.map (·.type) ≠ finish.map (·.type) → interpolateConfigurations start finish ratio = .throws .invalidArgument) ∧
    (start.map (·.type) = finish.map (·.type) → ∃ c, interpolateConfigurations start finish ratio = .ok c ∧
      c.length = start.length ∧ ∀ (i : Nat) (a b : Joint), start[i]? = some a → finish[i]? = some b →
        ∃ j, c[i]? = some j ∧ Between (min 1 (max 0 ratio)) a b j) := by
  unfold interpolateConfigurations
  constructor
  · intro h
    split
    · next hl => exact (interpolateLoop_spec ratio start finish hl h1).2 h
    · rfl
  · intro h
    have hl : start.length = finish.length := by simpa using congrArg List.length h
    rw [if_pos hl]
    exact (interpolateLoop_spec ratio start finish hl h1).1 h

/-- C101: the ends of an interpolation: the start for ratios up to 0, the values of the end from 1 on (if they are between
the limits of the start). -/
theorem C101_interpolate_ends (a b j : Joint) (ha : Valid a) (hb : Valid b) (ht : a.type = b.type) :
    (Between 0 a b j → j = a) ∧ (Between 1 a b j → Within a b.value → j.value = b.value) := by
  constructor
  · rintro ⟨h1, h2, h3, h4, h5, -, h7⟩
    have hv : j.value = a.value := by
      by_cases hc : a.type = CONTINUOUS
      · obtain ⟨t, -, -, hs⟩ := h5 hc
        rw [zero_mul, add_zero] at hs
        exact Angles.principal_unique Real.pi_pos (h1.continuous (h2.trans hc)).2.2 (ha.continuous hc).2.2 hs.symm
      · have hw : Within j a.value := by
          have := ha.other hc
          unfold Within at *
          rw [h3, h4]; exact this
        have := (h7 hc).2 (by rw [h2]; exact hc) a.value hw
        simp at this
        linarith [abs_nonpos_iff.1 (le_of_eq (abs_eq_zero.2 this))]
    cases j; cases a; simp_all
  · rintro ⟨h1, h2, h3, h4, h5, h6, -⟩ hw
    by_cases hc : a.type = CONTINUOUS
    · obtain ⟨t, -, hs, hs'⟩ := h5 hc
      rw [one_mul] at hs'
      exact Angles.principal_unique Real.pi_pos (h1.continuous (h2.trans hc)).2.2 (hb.continuous (ht ▸ hc)).2.2
        (hs'.symm.trans hs)
    · rw [h6 hc hw]; ring

/-! ### Averages -/

theorem sameTypes_spec (a b : List Joint) (h : a.length = b.length) :
    sameTypes a b = if a.map (·.type) = b.map (·.type) then .ok () else .throws .invalidArgument := by
  induction a generalizing b with
  | nil =>
    cases b with
    | nil => rfl
    | cons b bs => simp at h
  | cons x xs ih =>
    cases b with
    | nil => simp at h
    | cons y ys =>
      unfold sameTypes Joint.isSameType
      by_cases ht : x.type = y.type
      · rw [if_pos ht, if_neg (by simp), ih ys (by simpa using h)]
        simp [ht]
      · rw [if_neg ht, if_pos rfl, if_neg (by simp [ht])]

theorem sameShape_spec (first : List Joint) (cs : List (List Joint)) :
    ((∀ c ∈ cs, c.map (·.type) = first.map (·.type)) → sameShape first cs = .ok ()) ∧
    ((¬ ∀ c ∈ cs, c.map (·.type) = first.map (·.type)) → sameShape first cs = .throws .invalidArgument) := by
  induction cs with
  | nil => exact ⟨fun _ => rfl, fun h => absurd (by simp) h⟩
  | cons c cs ih =>
    unfold sameShape
    constructor
    · intro h
      have hc := h c List.mem_cons_self
      have hl : first.length = c.length := by simpa using congrArg List.length hc.symm
      rw [if_pos hl, sameTypes_spec first c hl, if_pos hc.symm, Out.bind_ok]
      exact ih.1 fun c' h' => h c' (List.mem_cons_of_mem _ h')
    · intro h
      split
      · next hl =>
        rw [sameTypes_spec first c hl]
        split
        · next hc =>
          rw [Out.bind_ok]
          apply ih.2
          intro h'
          apply h
          intro c' hc'
          rcases List.mem_cons.1 hc' with rfl | hc'
          · exact hc.symm
          · exact h' c' hc'
        · rfl
      · rfl

theorem jointValues_spec (k : Nat) (cs : List (List Joint)) (h : ∀ c ∈ cs, k < c.length) :
    ∃ vs, jointValues k cs = .ok vs ∧ vs.length = cs.length ∧ vs = cs.filterMap fun c => c[k]?.map (·.value) := by
  induction cs with
  | nil => exact ⟨[], rfl, rfl, rfl⟩
  | cons c cs ih =>
    obtain ⟨vs, e1, e2, e3⟩ := ih fun c' h' => h c' (List.mem_cons_of_mem _ h')
    have hc := h c List.mem_cons_self
    refine ⟨c[k].value :: vs, ?_, by simp [e2], ?_⟩
    · unfold jointValues
      rw [List.getElem?_eq_getElem hc]
      simp only
      rw [e1, Out.bind_ok]
    · rw [List.filterMap_cons, List.getElem?_eq_getElem hc, e3]
      rfl

/-- The values of joint `k` in the configurations -/
def valuesOf (k : Nat) (cs : List (List Joint)) : List ℝ := cs.filterMap fun c => c[k]?.map (·.value)

theorem averageLoop_spec (cs : List (List Joint)) (hne : cs ≠ []) (first : List Joint) (hv : ∀ j ∈ first, Valid j) (k : Nat)
    (h : ∀ c ∈ cs, c.length = k + first.length) :
    ∃ c, averageLoop cs k first = .ok c ∧ c.length = first.length ∧
      ∀ (i : Nat) (a : Joint), first[i]? = some a → ∃ j m, c[i]? = some j ∧ Valid j ∧ j.type = a.type ∧
        j.lower = a.lower ∧ j.upper = a.upper ∧ m * cs.length = (valuesOf (k + i) cs).sum ∧ SetTo j m ∧
        ((∀ v ∈ valuesOf (k + i) cs, Within a v ∧ (a.type = CONTINUOUS → Angles.Principal Real.pi v)) → j.value = m) := by
  induction first generalizing k with
  | nil => exact ⟨[], rfl, rfl, fun i a h => by simp at h⟩
  | cons a as ih =>
    obtain ⟨c, e1, e2, e3⟩ := ih (fun j hj => hv j (List.mem_cons_of_mem _ hj)) (k + 1) fun c hc => by
      rw [h c hc]; simp; omega
    obtain ⟨vs, f1, f2, f3⟩ := jointValues_spec k cs fun c hc => by rw [h c hc]; simp
    have hvs : vs ≠ [] := by
      intro h0
      rw [h0] at f2
      exact hne (List.length_eq_zero_iff.1 f2.symm)
    obtain ⟨m, g1, g2, g3⟩ := Averages.C48_unweighted vs hvs
    obtain ⟨-, s1, s2, -⟩ := C95_set a (hv a List.mem_cons_self)
    obtain ⟨j, t1, t2, t3, t4, t5, t6, t7⟩ := s1 m
    refine ⟨j :: c, ?_, by simp [e2], fun i x hx => ?_⟩
    · unfold averageLoop
      rw [f1, Out.bind_ok]
      have hav : Averages.averageRevolute vs [] = .ok m := by rw [(Averages.C48_aborts vs []).2.2]; exact g1
      by_cases hc : a.isContinuous = true
      · simp only [if_pos hc]
        rw [hav, Out.bind_ok, s2, t1, Out.bind_ok, e1, Out.bind_ok]
      · simp only [if_neg hc]
        rw [g1, Out.bind_ok, s2, t1, Out.bind_ok, e1, Out.bind_ok]
    · cases i with
      | zero =>
        simp only [List.getElem?_cons_zero, Option.some.injEq] at hx
        subst hx
        refine ⟨j, m, rfl, t2, t4, t5, t6, ?_, t3, fun hw => ?_⟩
        · rw [Nat.add_zero, ← f2]
          exact g2.trans (congrArg List.sum f3)
        · have hw' : ∀ v ∈ vs, Within a v ∧ (a.type = CONTINUOUS → Angles.Principal Real.pi v) := by
            rw [f3]; exact hw
          apply t7
          · refine ⟨fun l hl => ?_, fun u hu => ?_⟩
            · by_contra hlt
              obtain ⟨v0, hv0⟩ := List.exists_mem_of_ne_nil _ hvs
              have hb : ∃ hi, ∀ v ∈ vs, v ≤ hi := ⟨(vs.map (|·|)).sum, fun v hv =>
                (le_abs_self v).trans (List.single_le_sum (by simp) _ (List.mem_map.2 ⟨v, hv, rfl⟩))⟩
              obtain ⟨hi, hhi⟩ := hb
              exact hlt (g3 l hi fun v hv => ⟨(hw' v hv).1.1 l hl, hhi v hv⟩).1
            · by_contra hlt
              have hb : ∃ lo, ∀ v ∈ vs, lo ≤ v := ⟨-(vs.map (|·|)).sum, fun v hv => by
                have := (neg_abs_le v)
                have h2 : |v| ≤ (vs.map (|·|)).sum := List.single_le_sum (by simp) _ (List.mem_map.2 ⟨v, hv, rfl⟩)
                linarith⟩
              obtain ⟨lo, hlo⟩ := hb
              exact hlt (g3 lo u fun v hv => ⟨hlo v hv, (hw' v hv).1.2 u hu⟩).2
          · intro hc
            have hmem : ∀ v ∈ vs, -Real.pi < v ∧ v ≤ Real.pi := fun v hv => (hw' v hv).2 hc
            have hfin : ∃ lo, -Real.pi < lo ∧ ∀ v ∈ vs, lo ≤ v := by
              clear g1 g2 g3 f1 f2 f3 hw' t1 t2 t3 t4 t5 t6 t7 s1 s2
              induction vs with
              | nil => exact absurd rfl hvs
              | cons v vs ihv =>
                have h1 := hmem v List.mem_cons_self
                by_cases hvs' : vs = []
                · subst hvs'
                  exact ⟨v, h1.1, by simp⟩
                · obtain ⟨lo, l1, l2⟩ := ihv hvs' fun x hx => hmem x (List.mem_cons_of_mem _ hx)
                  refine ⟨min v lo, lt_min h1.1 l1, fun x hx => ?_⟩
                  rcases List.mem_cons.1 hx with rfl | hx
                  · exact min_le_left _ _
                  · exact (min_le_right _ _).trans (l2 x hx)
            obtain ⟨lo, l1, l2⟩ := hfin
            have := g3 lo Real.pi fun v hv => ⟨l2 v hv, (hmem v hv).2⟩
            exact ⟨lt_of_lt_of_le l1 this.1, this.2⟩
      | succ i =>
        obtain ⟨j', m', h1⟩ := e3 i x (by simpa using hx)
        refine ⟨j', m', ?_⟩
        rw [show k + 1 + i = k + (i + 1) by omega] at h1
        simpa using h1

/-- C101: the average of no configurations is empty; averaging throws if the numbers or the types of the joints are not the
same in all configurations. Otherwise each joint of the average has the type and the limits of that of the first
configuration, and is set to the mean of the values, which is the value if all values are between the limits. -/
theorem C101_average_partial (first : List Joint) (rest : List (List Joint)) (hv : ∀ j ∈ first, Valid j) :
    averageConfigurations [] = .ok [] ∧
    ((¬ ∀ c ∈ rest, c.map (·.type) = first.map (·.type)) →
      averageConfigurations (first :: rest) = .throws .invalidArgument) ∧
    ((∀ c ∈ rest, c.map (·.type) = first.map (·.type)) →
      ∃ c, averageConfigurations (first :: rest) = .ok c ∧ c.length = first.length ∧
        ∀ (i : Nat) (a : Joint), first[i]? = some a → ∃ j m, c[i]? = some j ∧ Valid j ∧ j.type = a.type ∧
          j.lower = a.lower ∧ j.upper = a.upper ∧ m * (rest.length + 1 : ℕ) = (valuesOf i (first :: rest)).sum ∧ SetTo j m ∧
          ((∀ v ∈ valuesOf i (first :: rest), Within a v ∧ (a.type = CONTINUOUS → Angles.Principal Real.pi v)) →
            j.value = m)) := by
  refine ⟨rfl, fun h => ?_, fun h => ?_⟩
  · unfold averageConfigurations
    simp only
    rw [(sameShape_spec first (first :: rest)).2 fun h' => h fun c hc => h' c (List.mem_cons_of_mem _ hc)]
    rfl
  · have hall : ∀ c ∈ first :: rest, c.map (·.type) = first.map (·.type) := by
      intro c hc
      rcases List.mem_cons.1 hc with rfl | hc
      · rfl
      · exact h c hc
    obtain ⟨c, e1, e2, e3⟩ := averageLoop_spec (first :: rest) (by simp) first hv 0 fun c hc => by
      rw [Nat.zero_add]; simpa using congrArg List.length (hall c hc)
    refine ⟨c, ?_, e2, fun i a ha => ?_⟩
    · unfold averageConfigurations
      simp only
      rw [(sameShape_spec first (first :: rest)).1 hall, Out.bind_ok, e1]
    · have := e3 i a ha
      simpa only [Nat.zero_add, List.length_cons] using this

/-- C101: the mean of the values is no average of angles: two continuous joints at 3 and -3, which are less than 1 apart,
average to 0, which is 3 away from both. -/
theorem C101_average_continuous_wrong :
    averageConfigurations [[⟨none, none, 3, CONTINUOUS⟩], [⟨none, none, -3, CONTINUOUS⟩]] = .ok [⟨none, none, 0, CONTINUOUS⟩] ∧
    gap ⟨none, none, 3, CONTINUOUS⟩ ⟨none, none, -3, CONTINUOUS⟩ < 1 ∧
    gap ⟨none, none, 0, CONTINUOUS⟩ ⟨none, none, 3, CONTINUOUS⟩ = 3 ∧
    gap ⟨none, none, 0, CONTINUOUS⟩ ⟨none, none, -3, CONTINUOUS⟩ = 3 := by
  have hpi := Real.pi_gt_three
  have hpi4 := Real.pi_lt_d2
  have val : ∀ x : ℝ, |x| ≤ 3 → Valid ⟨none, none, x, CONTINUOUS⟩ := by
    intro x hx
    rw [abs_le] at hx
    exact ⟨⟨0, by simp [Within]⟩, fun _ => ⟨rfl, rfl, by constructor <;> simp only <;> linarith⟩, fun h => absurd rfl h⟩
  have v3 := val 3 (by norm_num)
  have vm3 := val (-3) (by norm_num)
  have v0 := val 0 (by norm_num)
  have hgap : ∀ x y : ℝ, |x| ≤ 3 → |y| ≤ 3 → (∃ t, |t| = gap ⟨none, none, x, CONTINUOUS⟩ ⟨none, none, y, CONTINUOUS⟩ ∧
      Angles.SameAngle Real.pi (x + t) y) ∧ ∀ t, Angles.SameAngle Real.pi (x + t) y →
        gap ⟨none, none, x, CONTINUOUS⟩ ⟨none, none, y, CONTINUOUS⟩ ≤ |t| := by
    intro x y hx hy
    obtain ⟨d, s, -, -, -, -, -, -, -, h8, -, -, h11, -⟩ := (C95_distance _ _ (val x hx) (val y hy)).2 rfl
    have e : gap ⟨none, none, x, CONTINUOUS⟩ ⟨none, none, y, CONTINUOUS⟩ = d := h8
    rw [e]
    exact (h11 rfl).2
  refine ⟨?_, ?_, ?_, ?_⟩
  · obtain ⟨c, e1, e2, e3⟩ := (C101_average_partial [⟨none, none, 3, CONTINUOUS⟩] [[⟨none, none, -3, CONTINUOUS⟩]]
      (by simpa using v3)).2.2 (by simp)
    obtain ⟨j, m, f1, f2, f3, f4, f5, f6, f7, f8⟩ := e3 0 _ rfl
    rw [e1]
    have hm : m = 0 := by
      simp [valuesOf] at f6
      exact f6
    have hj := f8 (by
      intro v hv
      simp [valuesOf] at hv
      rcases hv with rfl | rfl
      · exact ⟨by simp [Within], fun _ => v3.continuous rfl |>.2.2⟩
      · exact ⟨by simp [Within], fun _ => vm3.continuous rfl |>.2.2⟩)
    match c, e2, f1 with
    | [x], _, f1 =>
      simp only [List.getElem?_cons_zero, Option.some.injEq] at f1
      subst f1
      cases x
      simp_all
  · refine lt_of_le_of_lt ((hgap 3 (-3) (by norm_num) (by norm_num)).2 (2 * Real.pi - 6) ⟨-1, by push_cast; ring⟩) ?_
    rw [abs_lt]; constructor <;> linarith
  · obtain ⟨⟨t, h1, k, hk⟩, h2⟩ := hgap 0 3 (by norm_num) (by norm_num)
    have := h2 3 ⟨0, by push_cast; ring⟩
    rw [← h1] at this ⊢
    simp only [Nat.abs_ofNat] at this
    rw [abs_le] at this
    have hk0 : k = 0 := by
      have a1 : (k : ℝ) * (2 * Real.pi) = 3 - t := by linear_combination -hk
      by_contra hne
      rcases lt_or_gt_of_ne hne with h | h
      · have : (k : ℝ) ≤ -1 := by exact_mod_cast Int.le_sub_one_of_lt h
        nlinarith
      · have : (1 : ℝ) ≤ k := by exact_mod_cast h
        nlinarith
    rw [hk0] at hk
    have : t = 3 := by push_cast at hk; linarith
    rw [this]; norm_num
  · obtain ⟨⟨t, h1, k, hk⟩, h2⟩ := hgap 0 (-3) (by norm_num) (by norm_num)
    have := h2 (-3) ⟨0, by push_cast; ring⟩
    rw [← h1] at this ⊢
    rw [abs_neg, Nat.abs_ofNat, abs_le] at this
    have hk0 : k = 0 := by
      have a1 : (k : ℝ) * (2 * Real.pi) = -3 - t := by linear_combination -hk
      by_contra hne
      rcases lt_or_gt_of_ne hne with h | h
      · have : (k : ℝ) ≤ -1 := by exact_mod_cast Int.le_sub_one_of_lt h
        nlinarith
      · have : (1 : ℝ) ≤ k := by exact_mod_cast h
        nlinarith
    rw [hk0] at hk
    have : t = -3 := by push_cast at hk; linarith
    rw [this]; norm_num

/-- The arm, and configurations of it as in the theorems -/
example : ∃ r, Made r ∧ r.numActive = 2 ∧
    ∀ a b : ℝ, |a| ≤ 1 → 0 ≤ b → b ≤ 1 →
      ∀ j ∈ ([⟨some (-1), some 1, a, REVOLUTE⟩, ⟨some 0, some 1, b, PRISMATIC⟩] : List Joint), Valid j := by
  obtain ⟨-, -, h3, r, hm⟩ := example_robot 0 0
  have hM : Made r := ⟨_, _, _, _, _, r, [], example_range, example_valid, hm, rfl⟩
  refine ⟨r, hM, ?_, fun a b ha hb hb' j hj => ?_⟩
  · have := (C99_set _ _ _ _ _ example_range example_valid r hm []).1
    exact this.trans h3
  · rw [abs_le] at ha
    simp only [List.mem_cons, List.not_mem_nil, or_false] at hj
    rcases hj with rfl | rfl
    · exact ⟨⟨0, by simp [Within]⟩, fun h => by simp [REVOLUTE, CONTINUOUS] at h, fun _ => by simp [Within]; exact ha⟩
    · exact ⟨⟨0, by simp [Within]⟩, fun h => by simp [PRISMATIC, CONTINUOUS] at h, fun _ => by simp [Within]; exact ⟨hb, hb'⟩⟩

end Verif.LinkedRobot
