import Verif.Spec.JointSpecial

/-!
# C187: joints with special doubles
-/
namespace Verif.JointSpecial
open Verif Verif.LinkedRobot

variable (wrap : ℝ → ℝ)

theorem lt_irrefl (a : Dbl) : ¬ Ieee.lt a a := by
  cases a with
  | nan => exact id
  | inf s => rintro ⟨h1, h2⟩; rw [h1] at h2; cases h2
  | num x => exact _root_.lt_irrefl x

/-- **C187.** `InLimits` answers yes exactly for the values that the limits admit; every joint "admits" what is not a
number, although no joint can be set to it. -/
theorem C187_in_limits (j : Joint) (v : Dbl) :
    (inLimits j v = true ↔ Admits j v) ∧ inLimits j .nan = true ∧
      setValue wrap j .nan = .throws .invalidArgument := by
  have h : ∀ v, inLimits j v = true ↔ Admits j v := by
    intro v
    unfold inLimits Admits
    by_cases hc : j.type = CONTINUOUS
    · rw [if_pos hc]; simp [hc]
    · rw [if_neg hc]
      by_cases hl : Ieee.lt v j.lower ∨ Ieee.lt j.upper v
      · rw [if_pos hl]
        simp only [Bool.false_eq_true, false_iff]
        rintro (h | ⟨h1, h2⟩)
        · exact hc h
        · exact hl.elim h1 h2
      · rw [if_neg hl]
        simp only [true_iff]
        exact .inr (not_or.1 hl)
  refine ⟨h v, (h .nan).2 (.inr ⟨?_, ?_⟩), rfl⟩
  · exact id
  · cases j.upper <;> exact id

/-- **C187.** Setting a value: what is infinite or not a number is rejected; a number becomes its wrapped value for a
continuous joint; otherwise it is kept if the limits admit it and replaced by the limit that it violates, the lower
one first. Nothing else changes. -/
theorem C187_set (j : Joint) (v : Dbl) :
    (¬ v.Finite → setValue wrap j v = .throws .invalidArgument) ∧
    ∀ x, v = .num x → ∃ w, setValue wrap j v = .ok { j with value := w } ∧
      (j.type = CONTINUOUS → w = .num (wrap x)) ∧
      (j.type ≠ CONTINUOUS → (Admits j v → w = v) ∧ (Ieee.lt v j.lower → w = j.lower) ∧
        (¬ Ieee.lt v j.lower → Ieee.lt j.upper v → w = j.upper)) := by
  constructor
  · intro h
    cases v with
    | nan => rfl
    | inf s => rfl
    | num x => exact absurd ⟨x, rfl⟩ h
  · rintro x rfl
    unfold setValue enforceLimits
    simp only
    by_cases hc : j.type = CONTINUOUS
    · rw [if_pos hc, Out.bind_ok]
      exact ⟨_, rfl, fun _ => rfl, fun h => absurd hc h⟩
    · rw [if_neg hc]
      by_cases h1 : Ieee.lt (.num x) j.lower
      · rw [if_pos h1, Out.bind_ok]
        refine ⟨_, rfl, fun h => absurd h hc, fun _ => ⟨?_, fun _ => rfl, fun h => absurd h1 h⟩⟩
        rintro (h | ⟨h, _⟩)
        · exact absurd h hc
        · exact absurd h1 h
      · rw [if_neg h1]
        by_cases h2 : Ieee.lt j.upper (.num x)
        · rw [if_pos h2, Out.bind_ok]
          refine ⟨_, rfl, fun h => absurd h hc, fun _ => ⟨?_, fun h => absurd h h1, fun _ _ => rfl⟩⟩
          rintro (h | ⟨_, h⟩)
          · exact absurd h hc
          · exact absurd h2 h
        · rw [if_neg h2, Out.bind_ok]
          exact ⟨_, rfl, fun h => absurd h hc, fun _ => ⟨fun _ => rfl, fun h => absurd h h1, fun _ h => absurd h h2⟩⟩

/-- What the constructor makes sure of: the limits are not crossed, and are infinite for a continuous joint. -/
structure Made (j : Joint) : Prop where
  order : j.type ≠ CONTINUOUS → ¬ Ieee.lt j.upper j.lower
  turn : j.type = CONTINUOUS → j.lower = .inf true ∧ j.upper = .inf false

theorem set_admits {j j' : Joint} {v : Dbl} (hm : Made j) (h : setValue wrap j v = .ok j') :
    Made j' ∧ j'.lower = j.lower ∧ j'.upper = j.upper ∧ j'.type = j.type ∧ Admits j' j'.value ∧ j'.value ≠ .nan ∧
      (j'.value.Finite ↔ j.type = CONTINUOUS ∨ ¬ Unreachable j) := by
  obtain ⟨h1, h2⟩ := C187_set wrap j v
  have hv : v.Finite := Classical.byContradiction fun hf => by rw [h1 hf] at h; cases h
  obtain ⟨x, rfl⟩ := hv
  obtain ⟨w, e, k1, k2⟩ := h2 x rfl
  rw [e] at h
  injection h with h
  subst h
  refine ⟨⟨hm.order, hm.turn⟩, rfl, rfl, rfl, ?_⟩
  by_cases hc : j.type = CONTINUOUS
  · rw [show ({ j with value := w } : Joint).value = w from rfl, k1 hc]
    exact ⟨.inl hc, by simp, by simp [Dbl.Finite, hc]⟩
  · obtain ⟨a1, a2, a3⟩ := k2 hc
    have ho := hm.order hc
    show Admits _ w ∧ w ≠ .nan ∧ (w.Finite ↔ _)
    by_cases c1 : Ieee.lt (.num x) j.lower
    · rw [a2 c1]
      have hl : j.lower ≠ .inf true ∧ j.lower ≠ .nan := by
        constructor
        · intro hl; rw [hl] at c1; cases c1
        · intro hl; rw [hl] at c1; exact c1
      refine ⟨.inr ⟨lt_irrefl _, ho⟩, hl.2, ?_⟩
      unfold Unreachable
      constructor
      · rintro ⟨y, hy⟩
        rw [hy]
        refine .inr ?_
        rintro (h | h)
        · cases h
        · rw [h, hy] at ho; exact ho rfl
      · rintro (h | h)
        · exact absurd h hc
        · cases hlow : j.lower with
          | nan => exact absurd hlow hl.2
          | inf s =>
            cases s with
            | true => exact absurd hlow hl.1
            | false => exact absurd (.inl hlow) h
          | num y => exact ⟨y, rfl⟩
    · by_cases c2 : Ieee.lt j.upper (.num x)
      · rw [a3 c1 c2]
        have hu : j.upper ≠ .inf false ∧ j.upper ≠ .nan := by
          constructor
          · intro hl; rw [hl] at c2; cases c2
          · intro hl; rw [hl] at c2; exact c2
        refine ⟨.inr ⟨ho, lt_irrefl _⟩, hu.2, ?_⟩
        unfold Unreachable
        constructor
        · rintro ⟨y, hy⟩
          rw [hy]
          refine .inr ?_
          rintro (h | h)
          · rw [h] at c1; exact c1 rfl
          · cases h
        · rintro (h | h)
          · exact absurd h hc
          · cases hup : j.upper with
            | nan => exact absurd hup hu.2
            | inf s =>
              cases s with
              | true => exact absurd (.inr hup) h
              | false => exact absurd hup hu.1
            | num y => exact ⟨y, rfl⟩
      · rw [a1 (.inr ⟨c1, c2⟩)]
        refine ⟨.inr ⟨c1, c2⟩, by simp, ⟨fun _ => .inr ?_, fun _ => ⟨x, rfl⟩⟩⟩
        rintro (h | h)
        · rw [h] at c1; exact c1 rfl
        · rw [h] at c2; exact c2 rfl

theorem try_admits {j : Joint} (v : Dbl) (hm : Made j)
    (h : Admits j j.value ∧ j.value ≠ .nan ∧ (j.value.Finite ↔ j.type = CONTINUOUS ∨ ¬ Unreachable j)) :
    Made (trySet wrap j v) ∧ (trySet wrap j v).lower = j.lower ∧ (trySet wrap j v).upper = j.upper ∧
      (trySet wrap j v).type = j.type ∧ Admits (trySet wrap j v) (trySet wrap j v).value ∧
      (trySet wrap j v).value ≠ .nan ∧ ((trySet wrap j v).value.Finite ↔ j.type = CONTINUOUS ∨ ¬ Unreachable j) := by
  unfold trySet
  cases hs : setValue wrap j v with
  | ok j' => exact set_admits wrap hm hs
  | throws e => exact ⟨hm, rfl, rfl, rfl, h⟩
  | abort => exact ⟨hm, rfl, rfl, rfl, h⟩
  | ub => exact ⟨hm, rfl, rfl, rfl, h⟩

/-- **C187.** What the constructor rejects: values that are infinite or not a number, and for joints that are not
continuous, limits in the wrong order. Everything else is accepted, also limits that are not a number. -/
theorem C187_make (lower upper value : Dbl) (type : JointType) :
    (¬ value.Finite ∨ type ≠ CONTINUOUS ∧ Ieee.lt upper lower →
      make wrap lower upper value type = .throws .invalidArgument) ∧
    (value.Finite → (type ≠ CONTINUOUS → ¬ Ieee.lt upper lower) →
      ∃ j, make wrap lower upper value type = .ok j ∧ j.type = type ∧
        (type = CONTINUOUS → j.lower = .inf true ∧ j.upper = .inf false) ∧
        (type ≠ CONTINUOUS → j.lower = lower ∧ j.upper = upper)) := by
  constructor
  · rintro (h | ⟨h1, h2⟩)
    · unfold make
      split
      · exact (C187_set wrap _ _).1 h
      · split
        · rfl
        · exact (C187_set wrap _ _).1 h
    · unfold make
      rw [if_neg h1, if_pos h2]
  · rintro ⟨x, rfl⟩ h
    unfold make
    by_cases hc : type = CONTINUOUS
    · rw [if_pos hc]
      obtain ⟨w, e, _⟩ := (C187_set wrap ⟨.inf true, .inf false, .num 0, type⟩ (.num x)).2 x rfl
      exact ⟨_, e, rfl, fun _ => ⟨rfl, rfl⟩, fun hn => absurd hc hn⟩
    · rw [if_neg hc, if_neg (h hc)]
      obtain ⟨w, e, _⟩ := (C187_set wrap ⟨lower, upper, .num 0, type⟩ (.num x)).2 x rfl
      exact ⟨_, e, rfl, fun hn => absurd hn hc, fun _ => ⟨rfl, rfl⟩⟩

/-- **C187.** After any history of setting values, accepted or rejected, a constructed joint has the limits and the type
it was made with, its value is admitted by them and is never not a number. It is a number, unless the limits are such
that no number is admitted; then it is infinite. -/
theorem C187_history (lower upper value : Dbl) (type : JointType) (j : Joint)
    (h : make wrap lower upper value type = .ok j) (vs : List Dbl) :
    let j' := vs.foldl (trySet wrap) j
    j'.lower = j.lower ∧ j'.upper = j.upper ∧ j'.type = j.type ∧ inLimits j' j'.value = true ∧ j'.value ≠ .nan ∧
      (j'.value.Finite ↔ type = CONTINUOUS ∨ ¬ Unreachable j) := by
  have start : Made j ∧ j.type = type ∧ Admits j j.value ∧ j.value ≠ .nan ∧
      (j.value.Finite ↔ j.type = CONTINUOUS ∨ ¬ Unreachable j) := by
    unfold make at h
    split at h
    · next hc =>
      have hm : Made ⟨.inf true, .inf false, .num 0, type⟩ := ⟨fun hn => absurd hc hn, fun _ => ⟨rfl, rfl⟩⟩
      obtain ⟨a, b, c, d, e, f, k⟩ := set_admits wrap hm h
      refine ⟨a, d, e, f, ?_⟩
      rw [k, d]
      simp [hc]
    · next hc =>
      split at h
      · cases h
      · next ho =>
        have hm : Made ⟨lower, upper, .num 0, type⟩ := ⟨fun _ => ho, fun hn => absurd hn hc⟩
        obtain ⟨a, b, c, d, e, f, k⟩ := set_admits wrap hm h
        refine ⟨a, d, e, f, ?_⟩
        rw [k, d]
        unfold Unreachable
        rw [b, c]
  obtain ⟨hm, ht, h1, h2, h3⟩ := start
  have key : ∀ (vs : List Dbl) (j0 : Joint), Made j0 →
      (Admits j0 j0.value ∧ j0.value ≠ .nan ∧ (j0.value.Finite ↔ j0.type = CONTINUOUS ∨ ¬ Unreachable j0)) →
      let j' := vs.foldl (trySet wrap) j0
      j'.lower = j0.lower ∧ j'.upper = j0.upper ∧ j'.type = j0.type ∧ Admits j' j'.value ∧ j'.value ≠ .nan ∧
        (j'.value.Finite ↔ j0.type = CONTINUOUS ∨ ¬ Unreachable j0) := by
    intro vs
    induction vs with
    | nil => intro j0 _ hj; exact ⟨rfl, rfl, rfl, hj⟩
    | cons v vs ih =>
      intro j0 hm0 hj
      obtain ⟨a, b, c, d, e, f, k⟩ := try_admits wrap v hm0 hj
      have hun : Unreachable (trySet wrap j0 v) ↔ Unreachable j0 := by unfold Unreachable; rw [b, c]
      have := ih (trySet wrap j0 v) a ⟨e, f, by rw [k, d, hun]⟩
      simp only [List.foldl_cons]
      obtain ⟨q1, q2, q3, q4, q5, q6⟩ := this
      exact ⟨q1.trans b, q2.trans c, q3.trans d, q4, q5, by rw [q6, d, hun]⟩
  obtain ⟨q1, q2, q3, q4, q5, q6⟩ := key vs j hm ⟨h1, h2, h3⟩
  refine ⟨q1, q2, q3, ((C187_in_limits wrap _ _).1).2 q4, q5, ?_⟩
  rw [q6, ht]

/-- **C187.** A joint whose limits are both plus infinity can be made. Its value is infinite from the start, so it
cannot be copied with its own value: that throws. -/
theorem C187_infinite_value (x : ℝ) : ∃ j, make wrap (.inf false) (.inf false) (.num x) PRISMATIC = .ok j ∧
    j.value = .inf false ∧ copyWithNewValue wrap j j.value = .throws .invalidArgument := by
  have hp : PRISMATIC ≠ CONTINUOUS := by decide
  unfold make
  rw [if_neg hp, if_neg (lt_irrefl _)]
  obtain ⟨w, e, _, k⟩ := (C187_set wrap ⟨.inf false, .inf false, .num 0, PRISMATIC⟩ (.num x)).2 x rfl
  have hw := (k hp).2.1 rfl
  refine ⟨_, e, hw, ?_⟩
  show copyWithNewValue wrap _ w = _
  rw [hw]
  exact ((C187_make wrap _ _ _ _).1 (.inl (by rintro ⟨y, hy⟩; cases hy)))

/-! ## Cases that meet the hypotheses -/

/-- A joint between -1 and 2. -/
example : ∃ j, make id (.num (-1)) (.num 2) (.num 5) REVOLUTE = .ok j ∧ j.value = .num 2 := by
  have hp : REVOLUTE ≠ CONTINUOUS := by decide
  have ho : ¬ Ieee.lt (.num 2) (.num (-1)) := by show ¬ (2 : ℝ) < -1; norm_num
  unfold make
  rw [if_neg hp, if_neg ho]
  obtain ⟨w, e, _, k⟩ := (C187_set id ⟨.num (-1), .num 2, .num 0, REVOLUTE⟩ (.num 5)).2 5 rfl
  exact ⟨_, e, (k hp).2.2 (by show ¬ (5 : ℝ) < -1; norm_num) (by show (2 : ℝ) < 5; norm_num)⟩

example : ¬ Unreachable ⟨.num (-1), .num 2, .num 0, REVOLUTE⟩ := by
  rintro (h | h) <;> cases h

end Verif.JointSpecial
