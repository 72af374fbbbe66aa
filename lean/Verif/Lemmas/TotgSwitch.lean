import Verif.Spec.TotgSwitch
import Verif.Lemmas.TotgIntegrate
import Mathlib.Tactic.NormNum

/-! # Slopes and switching points: what the model computes is what the specification says -/
namespace Verif.Totg
open Verif

theorem eps_near : eps = near := by unfold eps near; norm_num

/-- A computed slope, which may not be a number, against a specified one -/
def Denotes (x : Slope) (rel : EReal → Prop) : Prop := ∀ q, rel q ↔ x = some q

theorem quot_denotes (a b : ℝ) : Denotes (quot a b) (IsQuotient a b) := by
  intro q
  unfold quot IsQuotient
  by_cases hb : b = 0
  · rw [if_pos hb]
    by_cases ha : a = 0
    · rw [if_pos ha]
      subst ha hb
      simp
    · rw [if_neg ha]
      by_cases hp : 0 < a
      · rw [if_pos hp]
        have : ¬ a < 0 := not_lt.2 hp.le
        simp only [hb, ne_eq, not_true_eq_false, false_and, false_or, true_and, hp, this, or_false, Option.some.injEq]
        exact eq_comm
      · rw [if_neg hp]
        have : a < 0 := lt_of_le_of_ne (not_lt.1 hp) ha
        simp only [hb, ne_eq, not_true_eq_false, false_and, false_or, true_and, hp, this, Option.some.injEq]
        exact eq_comm
  · rw [if_neg hb]
    simp only [hb, ne_eq, not_false_eq_true, true_and, false_and, or_false, Option.some.injEq]
    exact eq_comm

theorem gt_greater {x y : Slope} {a b : EReal → Prop} (hx : Denotes x a) (hy : Denotes y b) :
    x.gt y = true ↔ Problem.Greater a b := by
  unfold Problem.Greater
  constructor
  · intro h
    cases x with
    | none => simp [Slope.gt] at h
    | some q =>
      cases y with
      | none => simp [Slope.gt] at h
      | some r => exact ⟨q, r, (hx q).2 rfl, (hy r).2 rfl, by simpa [Slope.gt] using h⟩
  · rintro ⟨q, r, h1, h2, h3⟩
    rw [(hx q).1 h1, (hy r).1 h2]
    simpa [Slope.gt] using h3

theorem ge_iff {x y : Slope} {a b : EReal → Prop} (hx : Denotes x a) (hy : Denotes y b) :
    x.ge y = true ↔ ∃ q r, a q ∧ b r ∧ r ≤ q := by
  constructor
  · intro h
    cases x with
    | none => simp [Slope.ge] at h
    | some q =>
      cases y with
      | none => simp [Slope.ge] at h
      | some r => exact ⟨q, r, (hx q).2 rfl, (hy r).2 rfl, by simpa [Slope.ge] using h⟩
  · rintro ⟨q, r, h1, h2, h3⟩
    rw [(hx q).1 h1, (hy r).1 h2]
    simpa [Slope.ge] using h3

theorem some_denotes (c : EReal) : Denotes (some c) (· = c) := by
  intro q
  rw [Option.some.injEq]
  exact eq_comm

namespace Problem
variable {n : Nat} (P : Problem n)

theorem slopeAt_denotes (s : ℝ) (v : WithTop ℝ) (m : Bool) :
    Denotes (P.slopeAt s v m) (P.TrajectorySlope s v m) := by
  intro q
  unfold slopeAt TrajectorySlope
  cases v with
  | top =>
    show _ ↔ some (0 : EReal) = some q
    simp only [WithTop.top_ne_coe, false_and, exists_false, false_or, true_and, Option.some.injEq]
    exact eq_comm
  | coe w =>
    show _ ↔ P.slope s w m = some q
    unfold slope
    rw [← quot_denotes]
    constructor
    · rintro (⟨w', h1, h2⟩ | ⟨h, -⟩)
      · rw [WithTop.coe_inj.1 h1]; exact h2
      · cases h
    · intro h; exact Or.inl ⟨w, rfl, h⟩

theorem slope_denotes (s w : ℝ) (m : Bool) : Denotes (P.slope s w m) (P.TrajectorySlope s (w : ℝ) m) :=
  P.slopeAt_denotes s (w : ℝ) m

theorem accelerationLimitDeriv_denotes (s : ℝ) :
    Denotes (P.accelerationLimitDeriv s) (P.AccelerationLimitSlope s) := by
  intro q
  unfold accelerationLimitDeriv AccelerationLimitSlope
  rw [eps_near]
  generalize P.accelerationLimit (s + near) = a
  generalize P.accelerationLimit (s - near) = b
  cases a with
  | top =>
    cases b with
    | top => show _ ↔ none = some q; simp
    | coe b =>
      show _ ↔ some (⊤ : EReal) = some q
      simp [eq_comm]
  | coe a =>
    cases b with
    | top =>
      show _ ↔ some (⊥ : EReal) = some q
      simp [eq_comm]
    | coe b =>
      show _ ↔ some (((a - b) / (2 * near) : ℝ) : EReal) = some q
      rw [Option.some.injEq]
      constructor
      · rintro (⟨x, y, h1, h2, h3⟩ | ⟨-, h, -⟩ | ⟨h, -⟩)
        · rw [WithTop.coe_inj.1 h1, WithTop.coe_inj.1 h2, h3]
        · cases h
        · cases h
      · intro h
        exact Or.inl ⟨b, a, rfl, rfl, h.symm⟩

theorem active_tightest (s : ℝ) : P.Tightest s (activeConstraint P.largest P.maxVelocity (P.first s)) := by
  set first := P.first s with hf
  set limit := P.maxVelocity
  have key : ∀ (l done : List (Fin (n + 1))) (m : ℝ) (k : Fin (n + 1)),
      (done ++ l).Pairwise (· < ·) →
      ((k ∈ done ∧ first k ≠ 0 ∧ m = limit k / |first k| ∧ m < P.largest ∧ ∀ j ∈ done, first j ≠ 0 →
        m ≤ limit j / |first j| ∧ (j < k → m < limit j / |first j|)) ∨
        (k = 0 ∧ m = P.largest ∧ ∀ j ∈ done, first j ≠ 0 → m ≤ limit j / |first j|)) →
      let r := l.foldl (fun (m : ℝ × Fin (n + 1)) i =>
        if first i ≠ 0 ∧ limit i / |first i| < m.1 then (limit i / |first i|, i) else m) (m, k)
      ((r.2 ∈ done ++ l ∧ first r.2 ≠ 0 ∧ r.1 = limit r.2 / |first r.2| ∧ r.1 < P.largest ∧ ∀ j ∈ done ++ l, first j ≠ 0 →
        r.1 ≤ limit j / |first j| ∧ (j < r.2 → r.1 < limit j / |first j|)) ∨
        (r.2 = 0 ∧ r.1 = P.largest ∧ ∀ j ∈ done ++ l, first j ≠ 0 → r.1 ≤ limit j / |first j|)) := by
    intro l
    induction l with
    | nil => intro done m k _ h; simpa using h
    | cons i l ih =>
      intro done m k hp h
      rw [List.foldl_cons, show done ++ i :: l = (done ++ [i]) ++ l by simp]
      have hp' : ((done ++ [i]) ++ l).Pairwise (· < ·) := by simpa using hp
      have hlt : ∀ j ∈ done, j < i := by
        intro j hj
        exact (List.pairwise_append.1 hp).2.2 j hj i (by simp)
      by_cases hi : first i ≠ 0 ∧ limit i / |first i| < m
      · rw [if_pos hi]
        refine ih (done ++ [i]) _ i hp' (Or.inl ⟨by simp, hi.1, rfl, ?_, ?_⟩)
        · rcases h with ⟨-, -, -, h, -⟩ | ⟨-, h, -⟩
          · exact hi.2.trans h
          · rw [← h]; exact hi.2
        · intro j hj hj0
          rcases List.mem_append.1 hj with hj | hj
          · have hm : m ≤ limit j / |first j| := by
              rcases h with ⟨-, -, -, -, h⟩ | ⟨-, -, h⟩
              · exact (h j hj hj0).1
              · exact h j hj hj0
            exact ⟨(hi.2.trans_le hm).le, fun _ => hi.2.trans_le hm⟩
          · rw [List.mem_singleton] at hj
            subst hj
            exact ⟨le_rfl, fun h => absurd h (lt_irrefl _)⟩
      · rw [if_neg hi]
        refine ih (done ++ [i]) m k hp' ?_
        have hi' : first i ≠ 0 → m ≤ limit i / |first i| := fun h0 => not_lt.1 fun h1 => hi ⟨h0, h1⟩
        rcases h with ⟨hk, h1, h2, h3, h4⟩ | ⟨h1, h2, h3⟩
        · refine Or.inl ⟨by simp [hk], h1, h2, h3, ?_⟩
          intro j hj hj0
          rcases List.mem_append.1 hj with hj | hj
          · exact h4 j hj hj0
          · rw [List.mem_singleton] at hj
            subst hj
            refine ⟨hi' hj0, fun hjk => ?_⟩
            exact absurd (hlt k hk) (not_lt.2 hjk.le)
        · refine Or.inr ⟨h1, h2, ?_⟩
          intro j hj hj0
          rcases List.mem_append.1 hj with hj | hj
          · exact h3 j hj hj0
          · rw [List.mem_singleton] at hj
            subst hj
            exact hi' hj0
  have := key (List.finRange (n + 1)) [] P.largest 0 (by simpa using List.pairwise_lt_finRange (n + 1))
    (Or.inr ⟨rfl, rfl, by simp⟩)
  simp only [List.nil_append, List.mem_finRange, true_and, true_implies] at this
  unfold Tightest
  change (first (activeConstraint P.largest limit first) ≠ 0 ∧ _) ∨ _
  rcases this with ⟨h1, h2, h3, h4⟩ | ⟨h1, h2, h3⟩
  · refine Or.inl ⟨h1, ?_, ?_⟩
    · rw [h2] at h3; exact h3
    · intro j hj
      rw [h2] at h4
      exact h4 j hj
  · refine Or.inr ⟨h1, ?_⟩
    intro j hj
    rw [h2] at h3
    exact h3 j hj

theorem tightest_unique {s : ℝ} {i j : Fin (n + 1)} (hi : P.Tightest s i) (hj : P.Tightest s j) : i = j := by
  rcases hi with ⟨i1, i2, i3⟩ | ⟨i1, i2⟩ <;> rcases hj with ⟨j1, j2, j3⟩ | ⟨j1, j2⟩
  · rcases lt_trichotomy i j with h | h | h
    · exact absurd ((j3 i i1).2 h) (not_lt.2 (i3 j j1).1)
    · exact h
    · exact absurd ((i3 j j1).2 h) (not_lt.2 (j3 i i1).1)
  · exact absurd i2 (not_lt.2 (j2 i i1))
  · exact absurd j2 (not_lt.2 (i2 j j1))
  · rw [i1, j1]

theorem velocityLimitDeriv_denotes (s : ℝ) : Denotes (P.velocityLimitDeriv s) (P.VelocityLimitSlope s) := by
  intro q
  unfold velocityLimitDeriv VelocityLimitSlope
  simp only
  rw [← quot_denotes]
  constructor
  · rintro ⟨i, h1, h2⟩
    rw [P.tightest_unique (P.active_tightest s) h1]
    exact h2
  · intro h
    exact ⟨_, P.active_tightest s, h⟩

theorem leaves_iff (s : ℝ) : (P.limitSlope s).gt (P.velocityLimitDeriv s) = true ↔ P.Leaves s :=
  gt_greater (P.slope_denotes _ _ _) (P.velocityLimitDeriv_denotes s)

theorem leavesOrStays_iff (s : ℝ) : (P.limitSlope s).ge (P.velocityLimitDeriv s) = true ↔ P.LeavesOrStays s :=
  ge_iff (P.slope_denotes _ _ _) (P.velocityLimitDeriv_denotes s)

theorem extreme_eq (s : ℝ) (v : WithTop ℝ) (m : Bool) : P.accelerationAt s v m = P.extreme s v m := by
  cases v with
  | top => cases m
           · show (if false = true then (1 : ℝ) else -1) * P.largest = -P.largest; simp
           · show (if true = true then (1 : ℝ) else -1) * P.largest = P.largest; simp
  | coe w => rfl

/-! ## Switching points of the acceleration limits -/

theorem nextOnPath_spec (pos : ℝ) :
    ((∀ q ∈ P.switching, q.1 ≤ pos) ∧ P.nextOnPath pos = (P.length, true)) ∨
    ∃ l r, P.switching = l ++ P.nextOnPath pos :: r ∧ (∀ q ∈ l, q.1 ≤ pos) ∧ pos < (P.nextOnPath pos).1 := by
  unfold nextOnPath
  generalize P.switching = l
  induction l with
  | nil => exact Or.inl ⟨by simp, rfl⟩
  | cons a l ih =>
    rw [List.dropWhile_cons]
    by_cases h : a.1 ≤ pos
    · rw [if_pos (by simpa using h)]
      rcases ih with ⟨h1, h2⟩ | ⟨l', r, h1, h2, h3⟩
      · refine Or.inl ⟨?_, h2⟩
        intro q hq
        rcases List.mem_cons.1 hq with rfl | hq
        · exact h
        · exact h1 q hq
      · refine Or.inr ⟨a :: l', r, ?_, ?_, h3⟩
        · rw [List.cons_append, ← h1]
        · intro q hq
          rcases List.mem_cons.1 hq with rfl | hq
          · exact h
          · exact h2 q hq
    · rw [if_neg (by simpa using h)]
      exact Or.inr ⟨[], l, rfl, by simp, not_le.1 h⟩

variable {P}

/-- The candidates after `pos` are the next switching point, unless it is at the end, and those after it. -/
theorem candidate_next (hs : P.switching.Pairwise fun a b => a.1 ≤ b.1) (pos : ℝ) :
    (P.length - near < (P.nextOnPath pos).1 → ∀ q, ¬ P.Candidate pos q) ∧
    ((P.nextOnPath pos).1 ≤ P.length - near → P.Candidate pos (P.nextOnPath pos) ∧ pos < (P.nextOnPath pos).1 ∧
      ∀ q, P.Candidate pos q ↔ q = P.nextOnPath pos ∨ P.Candidate (P.nextOnPath pos).1 q) := by
  have hnear : 0 < near := by rw [← eps_near]; exact eps_pos
  rcases P.nextOnPath_spec pos with ⟨h1, h2⟩ | ⟨l, r, h1, h2, h3⟩
  · have none : ∀ q, ¬ P.Candidate pos q := by
      rintro q ⟨c1, c2, l, r, c3, c4⟩
      have := h1 q (by rw [c3]; simp)
      linarith
    refine ⟨fun _ => none, fun h => ?_⟩
    rw [h2] at h
    simp only at h
    linarith
  · set q := P.nextOnPath pos with hq
    have least : ∀ p ∈ P.switching, pos < p.1 → q.1 ≤ p.1 := by
      intro p hp hlt
      rw [h1] at hp hs
      rcases List.mem_append.1 hp with hp | hp
      · exact absurd (h2 p hp) (not_le.2 hlt)
      · rcases List.mem_cons.1 hp with rfl | hp
        · exact le_rfl
        · exact (List.pairwise_cons.1 (List.pairwise_append.1 hs).2.1).1 p hp
    constructor
    · rintro hlt p ⟨c1, c2, l', r', c3, -⟩
      have := least p (by rw [c3]; simp) c1
      linarith
    · intro hle
      have hc : P.Candidate pos q := ⟨h3, hle, l, r, h1, fun p hp => ne_of_lt ((h2 p hp).trans_lt h3)⟩
      refine ⟨hc, h3, fun p => ⟨?_, ?_⟩⟩
      · rintro ⟨c1, c2, l', r', c3, c4⟩
        have hle' := least p (by rw [c3]; simp) c1
        rcases eq_or_lt_of_le hle' with he | hlt
        · left
          have hqn : q ∉ l' := fun h => c4 q h he
          have hpn : p ∉ l := fun h => absurd (h2 p h) (not_le.2 c1)
          rw [h1] at c3
          rcases List.append_eq_append_iff.1 c3 with ⟨t, e1, e2⟩ | ⟨t, e1, e2⟩
          · cases t with
            | nil => simp only [List.nil_append, List.cons.injEq] at e2; exact e2.1.symm
            | cons x t =>
              simp only [List.cons_append, List.cons.injEq] at e2
              exact absurd (by rw [e1, ← e2.1]; simp) hqn
          · cases t with
            | nil => simp only [List.nil_append, List.cons.injEq] at e2; exact e2.1
            | cons x t =>
              simp only [List.cons_append, List.cons.injEq] at e2
              exact absurd (by rw [e1, ← e2.1]; simp) hpn
        · exact Or.inr ⟨hlt, c2, l', r', c3, c4⟩
      · rintro (rfl | ⟨c1, c2⟩)
        · exact hc
        · exact ⟨h3.trans c1, c2⟩

open Classical in
/-- One round of the search -/
theorem nextAcceleration_succ (fuel : Nat) (pos : ℝ) :
    P.nextAcceleration (fuel + 1) pos =
      if P.length - near < (P.nextOnPath pos).1 then some none
      else if P.Touches (P.nextOnPath pos) then some (some (P.switchAt (P.nextOnPath pos)))
      else P.nextAcceleration fuel (P.nextOnPath pos).1 := by
  rw [nextAcceleration]
  simp only
  rw [← eps_near]
  generalize P.nextOnPath pos = q
  by_cases h : q.1 > P.length - eps
  · rw [if_pos h, if_pos h]
  · rw [if_neg h, if_neg h]
    unfold Touches switchAt
    by_cases hq : q.2 = true
    · simp only [if_pos hq]
      rw [← eps_near]
      simp only [gt_greater (P.slopeAt_denotes _ _ _) (P.accelerationLimitDeriv_denotes _),
        gt_greater (P.accelerationLimitDeriv_denotes _) (P.slopeAt_denotes _ _ _), gt_iff_lt, extreme_eq]
    · simp only [if_neg hq]
      rw [← eps_near]
      simp only [gt_greater (some_denotes _) (P.accelerationLimitDeriv_denotes _),
        gt_greater (P.accelerationLimitDeriv_denotes _) (some_denotes _)]

theorem nextAcceleration_first (hs : P.switching.Pairwise fun a b => a.1 ≤ b.1) (fuel : Nat) : ∀ pos,
    (P.nextAcceleration fuel pos = some none → ∀ q, P.Candidate pos q → ¬ P.Touches q) ∧
    (∀ s, P.nextAcceleration fuel pos = some (some s) → ∃ q, P.IsFirst P.Touches pos q ∧ s = P.switchAt q) := by
  induction fuel with
  | zero => intro pos; exact ⟨fun h => (by cases h), fun s h => (by cases h)⟩
  | succ fuel ih =>
    intro pos
    rw [nextAcceleration_succ]
    obtain ⟨c1, c2⟩ := candidate_next hs pos
    by_cases h : P.length - near < (P.nextOnPath pos).1
    · rw [if_pos h]
      exact ⟨fun _ q hq => absurd hq (c1 h q), fun s h => by cases h⟩
    · rw [if_neg h]
      obtain ⟨k1, k2, k3⟩ := c2 (not_lt.1 h)
      by_cases ht : P.Touches (P.nextOnPath pos)
      · rw [if_pos ht]
        refine ⟨fun h => (by cases h), fun s hs' => ⟨P.nextOnPath pos, ⟨k1, ht, ?_⟩, ?_⟩⟩
        · intro p hp hlt
          rcases (k3 p).1 hp with rfl | hp
          · exact absurd hlt (lt_irrefl _)
          · exact absurd hlt (not_lt.2 hp.1.le)
        · simp only [Option.some.injEq] at hs'; exact hs'.symm
      · rw [if_neg ht]
        obtain ⟨i1, i2⟩ := ih (P.nextOnPath pos).1
        constructor
        · intro hn q hq
          rcases (k3 q).1 hq with rfl | hq
          · exact ht
          · exact i1 hn q hq
        · intro s hs'
          obtain ⟨q, ⟨q1, q2, q3⟩, q4⟩ := i2 s hs'
          refine ⟨q, ⟨(k3 q).2 (Or.inr q1), q2, ?_⟩, q4⟩
          intro p hp hlt
          rcases (k3 p).1 hp with rfl | hp
          · exact ht
          · exact q3 p hp hlt

theorem nextAcceleration_total (hs : P.switching.Pairwise fun a b => a.1 ≤ b.1) (fuel : Nat) : ∀ pos,
    (P.switching.filter fun q => decide (pos < q.1)).length < fuel → ∃ r, P.nextAcceleration fuel pos = some r := by
  induction fuel with
  | zero => intro pos h; omega
  | succ fuel ih =>
    intro pos h
    rw [nextAcceleration_succ]
    split
    · exact ⟨_, rfl⟩
    · rename_i hle
      split
      · exact ⟨_, rfl⟩
      · obtain ⟨⟨k1, k2, l, r, k3, k4⟩, k5, -⟩ := (candidate_next hs pos).2 (not_lt.1 hle)
        refine ih _ (lt_of_lt_of_le ?_ (Nat.lt_succ_iff.1 h))
        rw [← List.countP_eq_length_filter, ← List.countP_eq_length_filter]
        generalize P.nextOnPath pos = q at *
        rw [k3, List.countP_append, List.countP_append, List.countP_cons, List.countP_cons]
        have m1 : l.countP (fun p => decide (q.1 < p.1)) ≤ l.countP (fun p => decide (pos < p.1)) :=
          List.countP_mono_left fun p _ hp => by simp at hp ⊢; exact k5.trans hp
        have m2 : r.countP (fun p => decide (q.1 < p.1)) ≤ r.countP (fun p => decide (pos < p.1)) :=
          List.countP_mono_left fun p _ hp => by simp at hp ⊢; exact k5.trans hp
        simp only [lt_irrefl, decide_false, k5, decide_true, if_true]
        simp
        omega

/-! ## Switching points of the velocity limits -/

theorem scan_spec (pos : ℝ) (fuel : Nat) : ∀ (start : Bool) (k : Nat) (found : ℝ),
    (start = true ↔ ∃ j < k, P.LeavesOrStays (pos + j / 1000)) → (∀ j < k, ¬ P.Ends pos j) →
    P.scan fuel start (pos + k / 1000 - 1 / 1000) = some found →
    ∃ m : Nat, found = pos + m / 1000 ∧ P.Ends pos m ∧ ∀ j < m, ¬ P.Ends pos j := by
  induction fuel with
  | zero => intro _ _ _ _ _ h; cases h
  | succ fuel ih =>
    intro start k found hstart hk h
    rw [scan] at h
    simp only [sub_add_cancel] at h
    have hstart' : (start || (P.limitSlope (pos + k / 1000)).ge (P.velocityLimitDeriv (pos + k / 1000))) = true ↔
        ∃ j < k + 1, P.LeavesOrStays (pos + j / 1000) := by
      rw [Bool.or_eq_true, hstart, leavesOrStays_iff]
      constructor
      · rintro (⟨j, h1, h2⟩ | h)
        · exact ⟨j, by omega, h2⟩
        · exact ⟨k, by omega, h⟩
      · rintro ⟨j, h1, h2⟩
        rcases Nat.lt_succ_iff_lt_or_eq.1 h1 with h1 | rfl
        · exact Or.inl ⟨j, h1, h2⟩
        · exact Or.inr h2
    generalize (start || (P.limitSlope (pos + k / 1000)).ge (P.velocityLimitDeriv (pos + k / 1000))) = b at h hstart'
    have hends : P.Ends pos k ↔ ¬ ((!b || (P.limitSlope (pos + k / 1000)).gt (P.velocityLimitDeriv (pos + k / 1000))) &&
        decide (pos + k / 1000 < P.length)) = true := by
      unfold Ends
      rw [Bool.and_eq_true, Bool.or_eq_true, leaves_iff, decide_eq_true_eq, not_and_or, not_or, not_lt,
        Bool.not_eq_true', Bool.not_eq_false, hstart']
      simp only [Nat.lt_succ_iff]
      rw [or_comm, and_comm]
    split at h
    · rename_i hc
      have hnot : ¬ P.Ends pos k := fun he => hends.1 he hc
      refine ih b (k + 1) found hstart' ?_ ?_
      · intro j hj
        rcases Nat.lt_succ_iff_lt_or_eq.1 hj with hj | rfl
        · exact hk j hj
        · exact hnot
      · rw [← h]
        congr 1
        push_cast
        ring
    · rename_i hc
      simp only [Option.some.injEq] at h
      exact ⟨k, h.symm, hends.2 hc, hk⟩

theorem refine_leaves (fuel : Nat) : ∀ (before after b a : ℝ), before ≤ after → ¬ P.Leaves after →
    P.refine fuel before after = some (b, a) →
    before ≤ b ∧ b ≤ a ∧ a ≤ after ∧ a - b ≤ 1 / 1000000 ∧ (b = before ∨ P.Leaves b) ∧ ¬ P.Leaves a := by
  induction fuel with
  | zero => intro _ _ _ _ _ _ h; cases h
  | succ fuel ih =>
    intro before after b a hle hn h
    rw [refine] at h
    split at h
    · simp only at h
      split at h
      · rename_i hl
        rw [leaves_iff] at hl
        obtain ⟨h1, h2, h3, h4, h5, h6⟩ := ih _ _ b a (by linarith) hn h
        refine ⟨by linarith, h2, h3, h4, Or.inr ?_, h6⟩
        rcases h5 with rfl | h5
        · exact hl
        · exact h5
      · rename_i hl
        rw [leaves_iff] at hl
        obtain ⟨h1, h2, h3, h4, h5, h6⟩ := ih _ _ b a (by linarith) hl h
        exact ⟨h1, h2, by linarith, h4, h5, h6⟩
    · rename_i hc
      cases h
      exact ⟨le_rfl, hle, le_rfl, by norm_num at hc ⊢; linarith, Or.inl rfl, hn⟩

theorem scan_total (fuel : Nat) : ∀ (start : Bool) (pos : ℝ), P.length ≤ pos + fuel / 1000 → 0 < fuel →
    P.scan fuel start pos ≠ none := by
  induction fuel with
  | zero => intro _ _ _ h; omega
  | succ fuel ih =>
    intro start pos h _
    rw [scan]
    split
    · rename_i hc
      rw [Bool.and_eq_true, decide_eq_true_eq] at hc
      push_cast at h
      have h' : P.length ≤ pos + 1 / 1000 + fuel / 1000 := by linarith
      refine ih _ _ h' (Nat.pos_of_ne_zero ?_)
      rintro rfl
      simp only [Nat.cast_zero, zero_div, add_zero] at h'
      linarith [hc.2]
    · simp

theorem refine_total (k : Nat) : ∀ (before after : ℝ), after - before ≤ 2 ^ k / 1000000 →
    P.refine (k + 1) before after ≠ none := by
  induction k with
  | zero =>
    intro before after h
    rw [refine, if_neg]
    · simp
    · norm_num at h ⊢; linarith
  | succ k ih =>
    intro before after h
    rw [refine]
    rw [pow_succ] at h
    split
    · simp only
      split
      · exact ih _ _ (by linarith)
      · exact ih _ _ (by linarith)
    · simp

theorem refine_more (fuel : Nat) : ∀ (before after : ℝ), P.refine fuel before after ≠ none →
    P.refine (fuel + 1) before after ≠ none := by
  induction fuel with
  | zero => intro _ _ h; exact absurd rfl h
  | succ fuel ih =>
    intro before after h
    rw [refine] at h ⊢
    split
    · rename_i hc
      rw [if_pos hc] at h
      simp only at h ⊢
      split
      · rename_i hl
        rw [if_pos hl] at h
        exact ih _ _ h
      · rename_i hl
        rw [if_neg hl] at h
        exact ih _ _ h
    · simp

theorem nextVelocity_total (fuel : Nat) (pos : ℝ) (h1 : 11 ≤ fuel) (h2 : P.length ≤ pos + (fuel - 1) / 1000) :
    P.nextVelocity fuel pos ≠ none := by
  unfold nextVelocity
  cases hs : P.scan fuel false (pos - 1 / 1000) with
  | none => exact absurd hs (scan_total fuel _ _ (by linarith) (by omega))
  | some found =>
    simp only [Option.bind_eq_bind, Option.bind_some]
    split
    · simp
    · have hr : P.refine fuel (found - 1 / 1000) found ≠ none := by
        induction fuel, h1 using Nat.le_induction with
        | base => exact refine_total 10 _ _ (by norm_num)
        | succ m hm ih =>
          refine refine_more m _ _ ?_
          have : ∀ k, 11 ≤ k → P.refine k (found - 1 / 1000) found ≠ none := by
            intro k hk
            induction k, hk using Nat.le_induction with
            | base => exact refine_total 10 _ _ (by norm_num)
            | succ m hm ih => exact refine_more m _ _ ih
          exact this m hm
      cases hr' : P.refine fuel (found - 1 / 1000) found with
      | none => exact absurd hr' hr
      | some x => simp

theorem nextVelocity_found (fuel : Nat) (pos : ℝ) (r : Option Switch) (h : P.nextVelocity fuel pos = some r) :
    P.NextVelocity pos r := by
  unfold nextVelocity at h
  cases hscan : P.scan fuel false (pos - 1 / 1000) with
  | none => rw [hscan] at h; simp at h
  | some found =>
    rw [hscan] at h
    simp only [Option.bind_eq_bind, Option.bind_some] at h
    obtain ⟨k, rfl, k1, k2⟩ := scan_spec pos fuel false 0 found (by simp) (by simp) (by simpa using hscan)
    refine ⟨k, k1, k2, ?_⟩
    split at h
    · rename_i hle
      simp only [Option.some.injEq] at h
      exact Or.inl ⟨hle, h.symm⟩
    · rename_i hlt
      rw [not_le] at hlt
      have hn : ¬ P.Leaves (pos + k / 1000) := by
        rcases k1 with k1 | ⟨k1, -⟩
        · exact absurd hlt (not_lt.2 k1)
        · exact k1
      cases hr : P.refine fuel (pos + k / 1000 - 1 / 1000) (pos + k / 1000) with
      | none => rw [hr] at h; simp at h
      | some x =>
        obtain ⟨b, a⟩ := x
        rw [hr] at h
        simp only [Option.bind_some, Option.some.injEq] at h
        have e : pos + (k : ℝ) / 1000 - 1 / 1000 = pos + ((k : ℝ) - 1) / 1000 := by ring
        obtain ⟨h1, h2, h3, h4, h5, h6⟩ := refine_leaves fuel _ _ b a (by linarith) hn hr
        rw [e] at h1 h5
        exact Or.inr ⟨hlt, b, a, h1, h2, h3, h4, h5, h6, h.symm⟩

theorem usableVelocity_first (limit : ℝ) (fuel : Nat) : ∀ (pos : ℝ) (r : Option Switch),
    P.usableVelocity limit fuel pos = some r → P.FirstVelocity limit pos r := by
  induction fuel with
  | zero => intro pos r h; cases h
  | succ fuel ih =>
    intro pos r h
    rw [usableVelocity] at h
    cases hn : P.nextVelocity fuel pos with
    | none => rw [hn] at h; simp at h
    | some x =>
      rw [hn] at h
      simp only [Option.bind_eq_bind, Option.bind_some] at h
      have hv := nextVelocity_found fuel pos x hn
      cases x with
      | none =>
        simp only [Option.some.injEq] at h
        subst h
        exact .none hv
      | some s =>
        simp only at h
        have hu : (s.pos ≤ limit ∧ (s.vel > P.accelerationLimit (s.pos - eps) ∨
            s.vel > P.accelerationLimit (s.pos + eps))) ↔ ¬ P.Usable limit s := by
          unfold Usable
          rw [eps_near, not_or, not_and_or, not_lt, not_le, not_le]
        split at h
        · rename_i hc
          exact .next hv (hu.1 hc) (ih _ _ h)
        · rename_i hc
          simp only [Option.some.injEq] at h
          subst h
          exact .found hv (by by_contra hx; exact hc (hu.2 hx))

/-! ## The next switching point -/

theorem usableAcceleration_first (hs : P.switching.Pairwise fun a b => a.1 ≤ b.1) (fuel : Nat) : ∀ (pos : ℝ)
    (r : Option Switch) (x : ℝ), P.usableAcceleration fuel pos = some (r, x) →
    (r = none → (∀ q, P.Candidate pos q → P.Touches q → ¬ P.Slow q) ∧
      (x = pos ∧ (∀ q, P.Candidate pos q → ¬ P.Touches q) ∨
        ∃ q, P.Candidate pos q ∧ P.Touches q ∧ x = q.1 ∧ ∀ p, P.Candidate pos p → P.Touches p → p.1 ≤ q.1)) ∧
    (∀ s, r = some s → ∃ q, P.IsFirst (fun q => P.Touches q ∧ P.Slow q) pos q ∧ s = P.switchAt q ∧ x = q.1) := by
  have hpos : ∀ q, (P.switchAt q).pos = q.1 := by
    intro q; unfold switchAt; split <;> rfl
  induction fuel with
  | zero => intro pos r x h; cases h
  | succ fuel ih =>
    intro pos r x h
    rw [usableAcceleration] at h
    cases hn : P.nextAcceleration fuel pos with
    | none => rw [hn] at h; simp at h
    | some y =>
      rw [hn] at h
      simp only [Option.bind_eq_bind, Option.bind_some] at h
      obtain ⟨n1, n2⟩ := nextAcceleration_first hs fuel pos
      cases y with
      | none =>
        simp only [Option.some.injEq, Prod.mk.injEq] at h
        obtain ⟨rfl, rfl⟩ := h
        have := n1 hn
        exact ⟨fun _ => ⟨fun q hq ht => absurd ht (this q hq), Or.inl ⟨rfl, this⟩⟩, fun s h => by cases h⟩
      | some s =>
        obtain ⟨q, ⟨q1, q2, q3⟩, rfl⟩ := n2 s hn
        simp only at h
        have after : ∀ p, P.Candidate pos p → P.Touches p → p = q ∨ P.Candidate q.1 p := by
          intro p hp ht
          have hge : q.1 ≤ p.1 := not_lt.1 fun hlt => q3 p hp hlt ht
          rcases eq_or_lt_of_le hge with he | hlt
          · left
            obtain ⟨-, -, l1, r1, e1, f1⟩ := q1
            obtain ⟨-, -, l2, r2, e2, f2⟩ := hp
            rw [e1] at e2
            rcases List.append_eq_append_iff.1 e2 with ⟨t, g1, g2⟩ | ⟨t, g1, g2⟩
            · cases t with
              | nil => simp only [List.nil_append, List.cons.injEq] at g2; exact g2.1.symm
              | cons x t =>
                simp only [List.cons_append, List.cons.injEq] at g2
                exact absurd he (f2 q (by rw [g1, ← g2.1]; simp))
            · cases t with
              | nil => simp only [List.nil_append, List.cons.injEq] at g2; exact g2.1
              | cons x t =>
                simp only [List.cons_append, List.cons.injEq] at g2
                exact absurd he.symm (f1 p (by rw [g1, ← g2.1]; simp))
          · exact Or.inr ⟨hlt, hp.2⟩
        have before : ∀ p, P.Candidate q.1 p → P.Candidate pos p := fun p hp => ⟨q1.1.trans hp.1, hp.2⟩
        split at h
        · rename_i hv
          rw [hpos] at hv h
          have hfast : ¬ P.Slow q := not_le.2 hv
          obtain ⟨i1, i2⟩ := ih _ _ _ h
          refine ⟨fun hr => ?_, fun s hs' => ?_⟩
          · obtain ⟨j1, j2⟩ := i1 hr
            refine ⟨?_, Or.inr ?_⟩
            · intro p hp ht
              rcases after p hp ht with rfl | hp'
              · exact hfast
              · exact j1 p hp' ht
            · rcases j2 with ⟨rfl, j2⟩ | ⟨p, p1, p2, p3, p4⟩
              · refine ⟨q, q1, q2, rfl, fun p hp ht => ?_⟩
                rcases after p hp ht with rfl | hp'
                · exact le_rfl
                · exact absurd ht (j2 p hp')
              · refine ⟨p, before p p1, p2, p3, fun p' hp ht => ?_⟩
                rcases after p' hp ht with rfl | hp'
                · exact p1.1.le
                · exact p4 p' hp' ht
          · obtain ⟨p, ⟨p1, p2, p3⟩, p4, p5⟩ := i2 s hs'
            refine ⟨p, ⟨before p p1, p2, ?_⟩, p4, p5⟩
            rintro p' hp hlt ⟨ht, hsl⟩
            rcases after p' hp ht with rfl | hp'
            · exact hfast hsl
            · exact p3 p' hp' hlt ⟨ht, hsl⟩
        · rename_i hv
          rw [hpos] at hv h
          simp only [Option.some.injEq, Prod.mk.injEq] at h
          obtain ⟨rfl, rfl⟩ := h
          refine ⟨fun h => (by cases h), fun s hs' => ⟨q, ⟨q1, ⟨q2, not_lt.1 hv⟩, ?_⟩, ?_, rfl⟩⟩
          · rintro p hp hlt ⟨ht, -⟩
            exact q3 p hp hlt ht
          · simp only [Option.some.injEq] at hs'; exact hs'.symm

end Problem
end Verif.Totg
