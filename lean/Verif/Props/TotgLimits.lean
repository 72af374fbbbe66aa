import Mathlib.Analysis.Calculus.Deriv.Inv
import Mathlib.Analysis.Calculus.Deriv.Prod
import Mathlib.Analysis.Calculus.Deriv.Add
import Verif.Model.TotgLimits
import Verif.Spec.TotgLimits

/-!
# C109: limits of velocity and acceleration on the path
-/
namespace Verif.Totg
open Verif

variable {n : Nat}

/-- a minimum over some elements of a list -/
theorem le_foldl_min {α β : Type} [LinearOrder β] (l : List α) (c : α → Prop) [DecidablePred c] (f : α → β) (m b : β) :
    b ≤ l.foldl (fun m i => if c i then min m (f i) else m) m ↔ b ≤ m ∧ ∀ i ∈ l, c i → b ≤ f i := by
  induction l generalizing m with
  | nil => simp
  | cons a l ih =>
    rw [List.foldl_cons, ih]
    by_cases h : c a
    · rw [if_pos h, le_min_iff]
      simp only [List.mem_cons, forall_eq_or_imp, h, true_implies, and_assoc]
    · rw [if_neg h]
      simp only [List.mem_cons, forall_eq_or_imp, h, false_implies, true_and]

theorem le_acceleration (largest : ℝ) (limit first second : Fin n → ℝ) (v b : ℝ) (isMax : Bool) :
    b ≤ (if isMax then (1 : ℝ) else -1) * minMaxAcceleration largest limit first second v isMax ↔
      b ≤ largest ∧ ∀ i, first i ≠ 0 →
        b ≤ limit i / |first i| - (if isMax then (1 : ℝ) else -1) * second i * v * v / first i := by
  have e : (if isMax then (1 : ℝ) else -1) * minMaxAcceleration largest limit first second v isMax =
      (List.finRange n).foldl (fun m i => if first i ≠ 0 then
        min m (limit i / |first i| - (if isMax then (1 : ℝ) else -1) * second i * v * v / first i) else m) largest := by
    unfold minMaxAcceleration
    simp only
    rw [← mul_assoc]
    cases isMax <;> norm_num
  rw [e, le_foldl_min]
  refine and_congr_right fun _ => ⟨fun h i => h i (List.mem_finRange i), fun h i _ => h i⟩

/-- The accelerations between the minimum and the maximum for a velocity are those with which every joint
that moves along the path stays within its acceleration limit (and that a double can hold). -/
theorem C109_acceleration (largest : ℝ) (limit first second : Fin n → ℝ) (v a : ℝ) :
    (minMaxAcceleration largest limit first second v false ≤ a ∧
      a ≤ minMaxAcceleration largest limit first second v true) ↔
    |a| ≤ largest ∧ ∀ i, first i ≠ 0 → |first i * a + second i * v ^ 2| ≤ limit i := by
  have h1 := le_acceleration largest limit first second v a true
  have h2 := le_acceleration largest limit first second v (-a) false
  simp only [if_true, Bool.false_eq_true, if_false, one_mul, neg_mul, neg_le_neg_iff] at h1 h2
  rw [h1, h2, abs_le]
  have key : ∀ i, first i ≠ 0 → (|first i * a + second i * v ^ 2| ≤ limit i ↔
      -a ≤ limit i / |first i| - -(second i * v * v) / first i ∧
        a ≤ limit i / |first i| - second i * v * v / first i) := by
    intro i hi
    have hp : 0 < |first i| := abs_pos.2 hi
    have e : |first i * a + second i * v ^ 2| = |first i| * |a + second i * v * v / first i| := by
      rw [← abs_mul]
      congr 1
      field_simp
    rw [e, ← le_div_iff₀' hp, abs_le, neg_div]
    constructor
    · rintro ⟨h1, h2⟩; exact ⟨by linarith, by linarith⟩
    · rintro ⟨h1, h2⟩; exact ⟨by linarith, by linarith⟩
  constructor
  · rintro ⟨⟨a1, a2⟩, b1, b2⟩
    exact ⟨⟨by linarith, b1⟩, fun i hi => (key i hi).2 ⟨a2 i hi, b2 i hi⟩⟩
  · rintro ⟨⟨a1, a2⟩, b⟩
    exact ⟨⟨by linarith, fun i hi => ((key i hi).1 (b i hi)).1⟩, a2, fun i hi => ((key i hi).1 (b i hi)).2⟩

/-- A velocity is within the velocity limit of the path if and only if every joint is within its velocity
limit. -/
theorem C109_velocity (largest : ℝ) (limit first : Fin n → ℝ) (v : ℝ) (hv : 0 ≤ v) (hl : ∀ i, 0 ≤ limit i) :
    v ≤ velocityMaxVelocity largest limit first ↔ v ≤ largest ∧ VelocityOk limit first v := by
  have e : velocityMaxVelocity largest limit first =
      (List.finRange n).foldl (fun m i => if first i ≠ 0 then min m (limit i / |first i|) else m) largest := by
    unfold velocityMaxVelocity
    congr 1
    funext m i
    by_cases h : first i = 0
    · rw [if_pos h, if_neg (not_not.2 h)]
    · rw [if_neg h, if_pos h]
  rw [e, le_foldl_min]
  refine and_congr_right fun _ => ?_
  constructor
  · intro h i
    by_cases hi : first i = 0
    · rw [hi, zero_mul, abs_zero]; exact hl i
    · rw [abs_mul, abs_of_nonneg hv, ← le_div_iff₀' (abs_pos.2 hi)]
      exact h i (List.mem_finRange i) hi
  · intro h i _ hi
    have := h i
    rwa [abs_mul, abs_of_nonneg hv, ← le_div_iff₀' (abs_pos.2 hi)] at this

/-- finitely many intervals of which any two meet have a common point -/
theorem helly {ι : Type} (l : List ι) (lo hi : ι → ℝ) (h : ∀ i ∈ l, ∀ j ∈ l, lo i ≤ hi j) :
    ∃ a, ∀ i ∈ l, lo i ≤ a ∧ a ≤ hi i := by
  induction l with
  | nil => exact ⟨0, fun i hi => by simp at hi⟩
  | cons k l ih =>
    obtain ⟨a, ha⟩ := ih fun i hi j hj => h i (List.mem_cons_of_mem _ hi) j (List.mem_cons_of_mem _ hj)
    refine ⟨min (max a (lo k)) (hi k), fun i hi' => ?_⟩
    rcases List.mem_cons.1 hi' with rfl | hm
    · have := h i List.mem_cons_self i List.mem_cons_self
      exact ⟨le_min (le_max_right _ _) this, min_le_right _ _⟩
    · obtain ⟨b1, b2⟩ := ha i hm
      have c1 := h i (List.mem_cons_of_mem _ hm) k List.mem_cons_self
      have c2 := h k List.mem_cons_self i (List.mem_cons_of_mem _ hm)
      exact ⟨le_min (b1.trans (le_max_left _ _)) c1, (min_le_left _ _).trans (max_le b2 c2)⟩

theorem le_pairLimits (limit first second : Fin n → ℝ) (i : Fin n) (m b : WithTop ℝ) :
    b ≤ pairLimits limit first second i m ↔ b ≤ m ∧ ∀ j, i < j → first j ≠ 0 →
      second i / first i - second j / first j ≠ 0 →
      b ≤ ((Real.sqrt ((limit i / |first i| + limit j / |first j|) /
        |second i / first i - second j / first j|) : ℝ) : WithTop ℝ) := by
  have e : pairLimits limit first second i m =
      ((List.finRange n).filter fun j => decide (i < j)).foldl (fun m j =>
        if first j ≠ 0 ∧ second i / first i - second j / first j ≠ 0 then
          min m ((Real.sqrt ((limit i / |first i| + limit j / |first j|) /
            |second i / first i - second j / first j|) : ℝ) : WithTop ℝ) else m) m := by
    unfold pairLimits
    congr 1
    funext m j
    by_cases h1 : first j ≠ 0
    · by_cases h2 : second i / first i - second j / first j ≠ 0
      · simp only [if_pos h1, if_pos h2, if_pos (And.intro h1 h2)]
      · simp only [if_pos h1, if_neg h2, if_neg (fun h : _ ∧ _ => h2 h.2)]
    · simp only [if_neg h1, if_neg (fun h : _ ∧ _ => h1 h.1)]
  rw [e, le_foldl_min]
  refine and_congr_right fun _ => ⟨fun h j hj h1 h2 => ?_, fun h j hj h1 => ?_⟩
  · exact h j (List.mem_filter.2 ⟨List.mem_finRange j, decide_eq_true hj⟩) ⟨h1, h2⟩
  · exact h j (of_decide_eq_true (List.mem_filter.1 hj).2) h1.1 h1.2

theorem le_accelerationMaxVelocity (limit first second : Fin n → ℝ) (b : WithTop ℝ) :
    b ≤ accelerationMaxVelocity limit first second ↔
      (∀ i j, i < j → first i ≠ 0 → first j ≠ 0 → second i / first i - second j / first j ≠ 0 →
        b ≤ ((Real.sqrt ((limit i / |first i| + limit j / |first j|) /
          |second i / first i - second j / first j|) : ℝ) : WithTop ℝ)) ∧
      ∀ i, first i = 0 → second i ≠ 0 → b ≤ ((Real.sqrt (limit i / |second i|) : ℝ) : WithTop ℝ) := by
  unfold accelerationMaxVelocity
  have key : ∀ (l : List (Fin n)) (m : WithTop ℝ), b ≤ l.foldl (fun m i =>
      if first i ≠ 0 then pairLimits limit first second i m
      else if second i ≠ 0 then min m ((Real.sqrt (limit i / |second i|) : ℝ) : WithTop ℝ) else m) m ↔
      b ≤ m ∧ ∀ i ∈ l, (first i ≠ 0 → ∀ j, i < j → first j ≠ 0 → second i / first i - second j / first j ≠ 0 →
        b ≤ ((Real.sqrt ((limit i / |first i| + limit j / |first j|) /
          |second i / first i - second j / first j|) : ℝ) : WithTop ℝ)) ∧
        (first i = 0 → second i ≠ 0 → b ≤ ((Real.sqrt (limit i / |second i|) : ℝ) : WithTop ℝ)) := by
    intro l
    induction l with
    | nil => intro m; simp
    | cons k l ih =>
      intro m
      rw [List.foldl_cons, ih]
      simp only [List.mem_cons, forall_eq_or_imp]
      by_cases h : first k ≠ 0
      · rw [if_pos h, le_pairLimits]
        have h' : ¬ first k = 0 := h
        simp only [h', ne_eq, not_false_eq_true, true_implies, false_implies, and_true, and_assoc]
      · rw [if_neg h]
        have h' : first k = 0 := not_not.1 h
        by_cases h2 : second k ≠ 0
        · rw [if_pos h2, le_min_iff]
          simp only [h', ne_eq, not_true_eq_false, false_implies, true_implies, true_and, and_assoc, h2,
            not_false_eq_true]
        · rw [if_neg h2]
          simp only [h', ne_eq, not_true_eq_false, false_implies, true_implies, true_and, h2]
  rw [key]
  simp only [le_top, true_and]
  constructor
  · intro h
    exact ⟨fun i j hij hi hj ha => (h i (List.mem_finRange i)).1 hi j hij hj ha,
      fun i hi hs => (h i (List.mem_finRange i)).2 hi hs⟩
  · rintro ⟨h1, h2⟩ i _
    exact ⟨fun hi j hij hj ha => h1 i j hij hi hj ha, fun hi hs => h2 i hi hs⟩

theorem le_sqrt_div {v x y : ℝ} (hv : 0 ≤ v) (hx : 0 ≤ x) (hy : 0 < y) :
    v ≤ Real.sqrt (x / y) ↔ v ^ 2 * y ≤ x := by
  rw [Real.le_sqrt hv (div_nonneg hx hy.le), le_div_iff₀ hy]

/-- A velocity is within the limit that the accelerations impose if and only if there is an acceleration with
which every joint is within its acceleration limit. -/
theorem C109_feasible (limit first second : Fin n → ℝ) (v : ℝ) (hv : 0 ≤ v) (hl : ∀ i, 0 ≤ limit i) :
    (v : WithTop ℝ) ≤ accelerationMaxVelocity limit first second ↔
      ∃ a, AccelerationOk limit first second v a := by
  rw [le_accelerationMaxVelocity]
  have width : ∀ i, 0 ≤ limit i / |first i| := fun i => div_nonneg (hl i) (abs_nonneg _)
  have joint : ∀ i a, first i ≠ 0 → (|first i * a + second i * v ^ 2| ≤ limit i ↔
      -(v ^ 2 * (second i / first i)) - limit i / |first i| ≤ a ∧
        a ≤ -(v ^ 2 * (second i / first i)) + limit i / |first i|) := by
    intro i a hi
    have hp : 0 < |first i| := abs_pos.2 hi
    have e : |first i * a + second i * v ^ 2| = |first i| * |a + v ^ 2 * (second i / first i)| := by
      rw [← abs_mul]
      congr 1
      field_simp
    rw [e, ← le_div_iff₀' hp, abs_le]
    constructor
    · rintro ⟨h1, h2⟩; exact ⟨by linarith, by linarith⟩
    · rintro ⟨h1, h2⟩; exact ⟨by linarith, by linarith⟩
  have pair : ∀ i j, second i / first i - second j / first j ≠ 0 →
      ((v : WithTop ℝ) ≤ ((Real.sqrt ((limit i / |first i| + limit j / |first j|) /
          |second i / first i - second j / first j|) : ℝ) : WithTop ℝ) ↔
        |v ^ 2 * (second i / first i) - v ^ 2 * (second j / first j)| ≤ limit i / |first i| + limit j / |first j|) := by
    intro i j ha
    rw [WithTop.coe_le_coe, le_sqrt_div hv (add_nonneg (width i) (width j)) (abs_pos.2 ha), ← mul_sub, abs_mul,
      abs_of_nonneg (sq_nonneg v)]
  have still : ∀ i, second i ≠ 0 → ((v : WithTop ℝ) ≤ ((Real.sqrt (limit i / |second i|) : ℝ) : WithTop ℝ) ↔
      |second i * v ^ 2| ≤ limit i) := by
    intro i hi
    rw [WithTop.coe_le_coe, le_sqrt_div hv (hl i) (abs_pos.2 hi), abs_mul, abs_of_nonneg (sq_nonneg v), mul_comm]
  constructor
  · rintro ⟨h1, h2⟩
    have sym : ∀ i j, first i ≠ 0 → first j ≠ 0 →
        |v ^ 2 * (second i / first i) - v ^ 2 * (second j / first j)| ≤
          limit i / |first i| + limit j / |first j| := by
      intro i j hi hj
      by_cases ha : second i / first i - second j / first j = 0
      · rw [← mul_sub, ha, mul_zero, abs_zero]
        exact add_nonneg (width i) (width j)
      · rcases lt_trichotomy i j with h | h | h
        · exact (pair i j ha).1 (h1 i j h hi hj ha)
        · subst h; exact absurd (sub_self _) ha
        · have ha' : second j / first j - second i / first i ≠ 0 := fun h0 => ha (by linarith)
          have := (pair j i ha').1 (h1 j i h hj hi ha')
          rw [abs_sub_comm, add_comm (limit i / _)]
          exact this
    obtain ⟨a, ha⟩ := helly ((List.finRange n).filter fun i => decide (first i ≠ 0))
      (fun i => -(v ^ 2 * (second i / first i)) - limit i / |first i|)
      (fun i => -(v ^ 2 * (second i / first i)) + limit i / |first i|) (by
        intro i hi j hj
        have hi' := of_decide_eq_true (List.mem_filter.1 hi).2
        have hj' := of_decide_eq_true (List.mem_filter.1 hj).2
        have := (abs_le.1 (sym i j hi' hj')).1
        linarith)
    refine ⟨a, fun i => ?_⟩
    by_cases hi : first i = 0
    · rw [hi, zero_mul, zero_add]
      by_cases hs : second i = 0
      · rw [hs, zero_mul, abs_zero]; exact hl i
      · exact (still i hs).1 (h2 i hi hs)
    · exact (joint i a hi).2 (ha i (List.mem_filter.2 ⟨List.mem_finRange i, decide_eq_true hi⟩))
  · rintro ⟨a, ha⟩
    refine ⟨fun i j _ hi hj hne => ?_, fun i hi hs => ?_⟩
    · rw [pair i j hne, abs_le]
      obtain ⟨a1, a2⟩ := (joint i a hi).1 (ha i)
      obtain ⟨b1, b2⟩ := (joint j a hj).1 (ha j)
      constructor <;> linarith
    · rw [still i hs]
      have := ha i
      rwa [hi, zero_mul, zero_add] at this

/-- Within both limits, and with an acceleration between the minimum and the maximum, every joint is within
its limits. -/
theorem C109_safe (largest : ℝ) (maxVelocity maxAcceleration first second : Fin n → ℝ) (v a : ℝ) (hv : 0 ≤ v)
    (h1 : ∀ i, 0 ≤ maxVelocity i) (h2 : ∀ i, 0 ≤ maxAcceleration i)
    (hvel : v ≤ velocityMaxVelocity largest maxVelocity first)
    (hacc : (v : WithTop ℝ) ≤ accelerationMaxVelocity maxAcceleration first second)
    (hmin : minMaxAcceleration largest maxAcceleration first second v false ≤ a)
    (hmax : a ≤ minMaxAcceleration largest maxAcceleration first second v true) :
    VelocityOk maxVelocity first v ∧ AccelerationOk maxAcceleration first second v a := by
  refine ⟨((C109_velocity largest maxVelocity first v hv h1).1 hvel).2, fun i => ?_⟩
  have moving := ((C109_acceleration largest maxAcceleration first second v a).1 ⟨hmin, hmax⟩).2
  by_cases hi : first i = 0
  · obtain ⟨b, hb⟩ := (C109_feasible maxAcceleration first second v hv h2).1 hacc
    have := hb i
    rwa [hi, zero_mul] at this ⊢
  · exact moving i hi

/-- A tightest joint is the one whose limit is the velocity limit. -/
theorem active_spec (largest : ℝ) (limit first : Fin (n + 1) → ℝ)
    (h : velocityMaxVelocity largest limit first < largest) :
    let i := activeConstraint largest limit first
    first i ≠ 0 ∧ velocityMaxVelocity largest limit first = limit i / |first i| := by
  have key : ∀ (l : List (Fin (n + 1))) (m : ℝ) (k : Fin (n + 1)),
      let r := l.foldl (fun (m : ℝ × Fin (n + 1)) i =>
        if first i ≠ 0 ∧ limit i / |first i| < m.1 then (limit i / |first i|, i) else m) (m, k)
      r.1 = l.foldl (fun m i => if first i = 0 then m else min m (limit i / |first i|)) m ∧
        (r = (m, k) ∨ (first r.2 ≠ 0 ∧ r.1 = limit r.2 / |first r.2|)) := by
    intro l
    induction l with
    | nil => intro m k; exact ⟨rfl, Or.inl rfl⟩
    | cons j l ih =>
      intro m k
      simp only [List.foldl_cons]
      by_cases hj : first j = 0
      · simp only [hj, ne_eq, not_true_eq_false, false_and, if_false, if_true]
        exact ih m k
      · simp only [ne_eq, hj, not_false_eq_true, true_and, if_false]
        by_cases hlt : limit j / |first j| < m
        · rw [if_pos hlt, min_eq_right hlt.le]
          obtain ⟨a, b⟩ := ih (limit j / |first j|) j
          refine ⟨a, Or.inr ?_⟩
          rcases b with b | b
          · simp only [ne_eq] at b
            rw [b]
            exact ⟨hj, rfl⟩
          · exact b
        · rw [if_neg hlt, min_eq_left (not_lt.1 hlt)]
          exact ih m k
  obtain ⟨a, b⟩ := key (List.finRange (n + 1)) largest 0
  intro i
  have a' : (velocityMaxVelocity largest limit first) = _ := a.symm
  rcases b with b | b
  · rw [b] at a'
    exact absurd a' h.ne
  · exact ⟨b.1, a'.trans b.2⟩

/-- The slope of the velocity limit is the derivative, along the path, of the limit of a tightest joint. -/
theorem C109_slope (largest : ℝ) (limit : Fin (n + 1) → ℝ) (tangent : ℝ → Fin (n + 1) → ℝ)
    (curvature : Fin (n + 1) → ℝ) (s : ℝ) (hd : HasDerivAt tangent curvature s)
    (h : velocityMaxVelocity largest limit (tangent s) < largest) :
    ∃ i, velocityMaxVelocity largest limit (tangent s) = limit i / |tangent s i| ∧
      HasDerivAt (fun t => limit i / |tangent t i|)
        (velocityMaxVelocityDeriv largest limit (tangent s) curvature) s := by
  obtain ⟨h1, h2⟩ := active_spec largest limit (tangent s) h
  refine ⟨activeConstraint largest limit (tangent s), h2, ?_⟩
  unfold velocityMaxVelocityDeriv
  simp only
  generalize activeConstraint largest limit (tangent s) = i at *
  have hi : HasDerivAt (fun t => tangent t i) (curvature i) s := (hasDerivAt_pi.1 hd) i
  rcases lt_or_gt_of_ne h1 with hneg | hpos
  · have habs : HasDerivAt (fun t => |tangent t i|) (-curvature i) s := by
      refine HasDerivAt.congr_of_eventuallyEq (f := fun t => -tangent t i) (HasDerivAt.neg hi) ?_
      filter_upwards [hi.continuousAt.eventually_lt continuousAt_const hneg] with t ht
      exact abs_of_neg ht
    have := (habs.inv (abs_pos.2 h1).ne').const_mul (limit i)
    refine this.congr_deriv ?_
    rw [abs_of_neg hneg]
    field_simp
  · have habs : HasDerivAt (fun t => |tangent t i|) (curvature i) s := by
      refine HasDerivAt.congr_of_eventuallyEq (f := fun t => tangent t i) hi ?_
      filter_upwards [continuousAt_const.eventually_lt hi.continuousAt hpos] with t ht
      exact abs_of_pos ht
    have := (habs.inv (abs_pos.2 h1).ne').const_mul (limit i)
    refine this.congr_deriv ?_
    rw [abs_of_pos hpos]
    field_simp

/-- two joints, one of which stands still while the path bends -/
example : ∃ (maxVelocity maxAcceleration first second : Fin 2 → ℝ) (v a : ℝ), 0 < v ∧
    (∀ i, 0 ≤ maxVelocity i) ∧ (∀ i, 0 ≤ maxAcceleration i) ∧
    VelocityOk maxVelocity first v ∧ AccelerationOk maxAcceleration first second v a ∧
    ¬ (2 : WithTop ℝ) ≤ accelerationMaxVelocity maxAcceleration first second := by
  refine ⟨![1, 1], ![1, 1], ![1, 0], ![0, 1], 1, 0, one_pos, ?_, ?_, ?_, ?_, ?_⟩
  · intro i; fin_cases i <;> simp
  · intro i; fin_cases i <;> simp
  · intro i; fin_cases i <;> simp
  · intro i; fin_cases i <;> simp
  · intro h
    obtain ⟨a, ha⟩ := (C109_feasible ![1, 1] ![1, 0] ![0, 1] 2 (by norm_num)
      (by intro i; fin_cases i <;> simp)).1 h
    have := ha 1
    norm_num at this

end Verif.Totg
