import Verif.Model.VectorAverageSpecial
import Verif.Props.AveragesSpecial

/-!
# Properties of interpolation and averages of vectors with special doubles: C205
-/
namespace Verif.VectorAverageSpecial
open Verif

variable (A : Ieee)

/-! ## Interpolation -/

/-- **C205, interpolation.** Vectors of different sizes throw, whatever they contain. Otherwise every entry is what
`Interpolate` of numbers gives for the two entries, and a message is printed exactly for ratios below 0 or above 1. -/
theorem C205_interpolate (v1 v2 : List Dbl) (ratio : Dbl) :
    (v1.length ≠ v2.length → interpolate A v1 v2 ratio = .throws .invalidArgument) ∧
    (v1.length = v2.length → ∃ m, interpolate A v1 v2 ratio =
      .ok (List.zipWith (fun x y => MathSpecial.interpolate A x y ratio) v1 v2, m) ∧
      (m = true ↔ Ieee.lt ratio (.num 0) ∨ Ieee.lt (.num 1) ratio)) := by
  classical
  constructor
  · intro h
    unfold interpolate
    rw [if_pos h]
  · intro h
    refine ⟨(MathSpecial.safetyCheckUnitInterval ratio).2, ?_, ?_⟩
    · unfold interpolate
      rw [if_neg (not_not.2 h)]
      simp only [List.zipWith_map_left, List.zipWith_map_right]
      rfl
    · unfold MathSpecial.safetyCheckUnitInterval
      by_cases h0 : Ieee.lt ratio (.num 0)
      · rw [if_pos h0]; simp [h0]
      · by_cases h1 : Ieee.lt (.num 1) ratio
        · rw [if_neg h0, if_pos h1]; simp [h1]
        · rw [if_neg h0, if_neg h1]; simp [h0, h1]

theorem round_fp {x : ℝ} (h : MathSpecial.IsDouble A (.num x)) : A.round x = .num x := by
  obtain ⟨h1, h2⟩ := h x rfl
  have e : A.R.rd x = x := h1
  rw [A.round_eq (by rw [e]; exact h2), e]

/-- one end of the interpolation of an entry -/
theorem one_zero (x y : Dbl) (hx : MathSpecial.IsDouble A x) :
    (y.Finite → A.add (A.mul x (.num 1)) (A.mul y (.num 0)) = x ∧ A.add (A.mul y (.num 0)) (A.mul x (.num 1)) = x) ∧
    (¬ y.Finite → A.add (A.mul x (.num 1)) (A.mul y (.num 0)) = .nan ∧
      A.add (A.mul y (.num 0)) (A.mul x (.num 1)) = .nan) := by
  have z : A.round 0 = .num 0 := by rw [A.round_small (by norm_num), A.R.zero]
  constructor
  · rintro ⟨y, rfl⟩
    have hy : A.mul (.num y) (.num 0) = .num 0 := by show A.round (y * 0) = _; rw [mul_zero, z]
    rw [hy]
    cases x with
    | nan => exact ⟨rfl, rfl⟩
    | inf s => simp [Ieee.mul, Ieee.add, not_lt.2 (zero_le_one (α := ℝ))]
    | num x =>
      have e : A.mul (.num x) (.num 1) = .num x := by
        show A.round (x * 1) = _
        rw [mul_one, round_fp A hx]
      rw [e]
      constructor
      · show A.round (x + 0) = _
        rw [add_zero, round_fp A hx]
      · show A.round (0 + x) = _
        rw [zero_add, round_fp A hx]
  · intro hy
    have e : A.mul y (.num 0) = .nan := by
      cases y with
      | nan => rfl
      | inf s => simp [Ieee.mul]
      | num y => exact absurd ⟨y, rfl⟩ hy
    rw [e]
    constructor
    · cases A.mul x (.num 1) <;> rfl
    · rfl

open Classical in
/-- **C205, the ends.** At ratios of 0 and below, and of 1 and above, infinite ones too, an entry is that of the first or
the second vector, if the entry of the other one is a number; otherwise it is NaN, although the other vector does not
count. A ratio that is NaN makes every entry NaN, without a message. -/
theorem C205_ends (v1 v2 : List Dbl) (hl : v1.length = v2.length) (ratio : Dbl)
    (d1 : ∀ x ∈ v1, MathSpecial.IsDouble A x) (d2 : ∀ x ∈ v2, MathSpecial.IsDouble A x) :
    (Ieee.le ratio (.num 0) → ∃ m, interpolate A v1 v2 ratio =
      .ok (List.zipWith (fun x y => if y.Finite then x else .nan) v1 v2, m)) ∧
    (Ieee.le (.num 1) ratio → ∃ m, interpolate A v1 v2 ratio =
      .ok (List.zipWith (fun x y => if x.Finite then y else .nan) v1 v2, m)) ∧
    interpolate A v1 v2 .nan = .ok (v1.map (fun _ => .nan), false) := by
  have congr : ∀ (f g : Dbl → Dbl → Dbl) (l m : List Dbl), (∀ x ∈ l, ∀ y ∈ m, f x y = g x y) →
      List.zipWith f l m = List.zipWith g l m := by
    intro f g l
    induction l with
    | nil => intro m _; simp
    | cons a l ih =>
      intro m h
      cases m with
      | nil => simp
      | cons b m =>
        rw [List.zipWith_cons_cons, List.zipWith_cons_cons, h a (by simp) b (by simp),
          ih m fun x hx y hy => h x (List.mem_cons_of_mem _ hx) y (List.mem_cons_of_mem _ hy)]
  have s1 : A.sub (.num 1) (.num 0) = .num 1 := by
    show A.round (1 - 0) = _
    rw [sub_zero, A.round_small (by norm_num), A.R.fp_one]
  have s0 : A.sub (.num 1) (.num 1) = .num 0 := by
    show A.round (1 - 1) = _
    rw [sub_self, A.round_small (by norm_num), A.R.zero]
  refine ⟨fun h => ?_, fun h => ?_, ?_⟩
  · have hr : (MathSpecial.safetyCheckUnitInterval ratio).1 = .num 0 := by
      unfold MathSpecial.safetyCheckUnitInterval
      by_cases h0 : Ieee.lt ratio (.num 0)
      · rw [if_pos h0]
      · have e : ratio = .num 0 := by
          cases ratio with
          | nan => cases h
          | inf s => exact absurd h h0
          | num x => rw [le_antisymm h (not_lt.1 h0)]
        subst e
        rw [if_neg h0, if_neg (show ¬ Ieee.lt (.num 1) (.num 0) from not_lt.2 zero_le_one)]
    obtain ⟨m, e, _⟩ := (C205_interpolate A v1 v2 ratio).2 hl
    refine ⟨m, e.trans ?_⟩
    rw [congr _ (fun x y => if y.Finite then x else .nan) v1 v2]
    intro x hx y _
    unfold MathSpecial.interpolate
    rw [hr]
    dsimp only
    rw [s1]
    by_cases hy : y.Finite
    · rw [if_pos hy]; exact ((one_zero A x y (d1 x hx)).1 hy).1
    · rw [if_neg hy]; exact ((one_zero A x y (d1 x hx)).2 hy).1
  · have hr : (MathSpecial.safetyCheckUnitInterval ratio).1 = .num 1 := by
      unfold MathSpecial.safetyCheckUnitInterval
      have h0 : ¬ Ieee.lt ratio (.num 0) := by
        cases ratio with
        | nan => exact id
        | inf s => have : s = false := h; subst this; simp [Ieee.lt]
        | num x =>
          have : (1 : ℝ) ≤ x := h
          exact not_lt.2 (le_trans zero_le_one this)
      rw [if_neg h0]
      by_cases h1 : Ieee.lt (.num 1) ratio
      · rw [if_pos h1]
      · rw [if_neg h1]
        cases ratio with
        | nan => cases h
        | inf s => exact absurd h h1
        | num x => rw [le_antisymm (not_lt.1 h1) h]
    obtain ⟨m, e, _⟩ := (C205_interpolate A v1 v2 ratio).2 hl
    refine ⟨m, e.trans ?_⟩
    rw [congr _ (fun x y => if x.Finite then y else .nan) v1 v2]
    intro x _ y hy
    unfold MathSpecial.interpolate
    rw [hr]
    dsimp only
    rw [s0]
    by_cases hx : x.Finite
    · rw [if_pos hx]; exact ((one_zero A y x (d2 y hy)).1 hx).2
    · rw [if_neg hx]; exact ((one_zero A y x (d2 y hy)).2 hx).2
  · obtain ⟨m, e, hm⟩ := (C205_interpolate A v1 v2 .nan).2 hl
    have mf : m = false := by
      cases m with
      | false => rfl
      | true => rcases hm.1 rfl with h | h <;> exact absurd h id
    subst mf
    refine e.trans ?_
    have r : (MathSpecial.safetyCheckUnitInterval .nan).1 = .nan := by
      unfold MathSpecial.safetyCheckUnitInterval
      rw [if_neg (show ¬ Ieee.lt .nan (.num 0) from id), if_neg (show ¬ Ieee.lt (.num 1) .nan from id)]
    rw [congr _ (fun _ _ => .nan) v1 v2]
    · have : ∀ (l m : List Dbl), l.length = m.length →
          List.zipWith (fun _ _ => Dbl.nan) l m = l.map (fun _ => .nan) := by
        intro l
        induction l with
        | nil => intro m _; simp
        | cons a l ih =>
          intro m h
          cases m with
          | nil => cases h
          | cons b m => simp [ih m (by simpa using h)]
      rw [this v1 v2 hl]
    · intro x _ y _
      unfold MathSpecial.interpolate
      rw [r]
      show A.add (A.mul x .nan) (A.mul y .nan) = _
      cases x <;> rfl

/-! ## Averages -/

theorem loop_coordinate {n : Nat} (k : Fin n) (weights : List Dbl) (vectors : List (Fin n → Dbl)) (i : Nat)
    (a : Fin n → Dbl) (s : Dbl) :
    MathSpecial.averageLoop A weights (vectors.map (fun v => v k)) i (a k) s =
      (averageLoop A weights vectors i a s >>= fun r => .ok (r k)) := by
  induction vectors generalizing i a s with
  | nil => rfl
  | cons v vs ih =>
    rw [List.map_cons]
    unfold MathSpecial.averageLoop averageLoop
    cases MathSpecial.weightAt weights i with
    | ok w =>
      rw [Out.bind_ok, Out.bind_ok]
      exact ih (i + 1) (fun k => A.add (a k) (A.mul (A.div w (A.add s w)) (A.sub (v k) (a k)))) (A.add s w)
    | throws e => rfl
    | abort => rfl
    | ub => rfl

/-- **C205, averages.** Every coordinate of an average is the average of the numbers in that coordinate, as
`AverageStdVectorDouble` forms it, and is refused together with it. So a coordinate does not depend on the others. -/
theorem C205_coordinate {n : Nat} (k : Fin n) (vectors : List (Fin n → Dbl)) (weights : List Dbl) :
    MathSpecial.average A (vectors.map (fun v => v k)) weights =
      (average A vectors weights >>= fun r => .ok (r k)) := by
  classical
  unfold MathSpecial.average average
  rw [List.length_map]
  by_cases h1 : 0 < vectors.length
  · rw [Out.assert_true h1, Out.bind_ok, Out.bind_ok]
    by_cases h2 : weights.length = vectors.length ∨ weights.length = 0
    · rw [Out.assert_true h2, Out.bind_ok, Out.bind_ok]
      dsimp only
      by_cases h3 : MathSpecial.firstNonzero 0 weights < vectors.length
      · rw [Out.assert_true h3, Out.bind_ok, Out.bind_ok, List.getElem?_map]
        cases vectors[MathSpecial.firstNonzero 0 weights]? with
        | none => rfl
        | some first =>
          simp only [Option.map_some]
          cases MathSpecial.weightAt weights (MathSpecial.firstNonzero 0 weights) with
          | ok w =>
            rw [Out.bind_ok, Out.bind_ok]
            by_cases h4 : Ieee.lt (.num 0) w
            · rw [Out.assert_true h4, Out.bind_ok, Out.bind_ok, ← List.map_drop]
              exact loop_coordinate A k weights _ _ _ _
            · rw [Out.assert_false h4]; rfl
          | throws e => rfl
          | abort => rfl
          | ub => rfl
      · rw [Out.assert_false h3]; rfl
    · rw [Out.assert_false h2]; rfl
  · rw [Out.assert_false h1]; rfl

/-- **C205, when an average is refused.** As for numbers: no vectors, a wrong number of weights, only weights that are zero, or
a first weight other than zero that is NaN. Otherwise there is a result, whatever the vectors are. -/
theorem C205_refused {n : Nat} (hn : 0 < n) (vectors : List (Fin n → Dbl)) (weights : List Dbl) :
    (vectors = [] ∨ weights ≠ [] ∧ (weights.length ≠ vectors.length ∨
      ∃ k, (∀ w ∈ weights.take k, w = .num 0) ∧ (weights.length ≤ k ∨ weights[k]? = some .nan)) →
      average A vectors weights = .abort) ∧
    (vectors ≠ [] → (weights ≠ [] → weights.length = vectors.length ∧
      ∃ k w, (∀ u ∈ weights.take k, u = .num 0) ∧ weights[k]? = some w ∧ w ≠ .num 0 ∧ w ≠ .nan) →
      ∃ r, average A vectors weights = .ok r) := by
  have e := C205_coordinate A ⟨0, hn⟩ vectors weights
  obtain ⟨h1, h2⟩ := MathSpecial.C190_refused A (vectors.map (fun v => v ⟨0, hn⟩)) weights
  rw [List.length_map] at h1 h2
  constructor
  · intro h
    have := h1 (by simpa using h)
    rw [this] at e
    cases hr : average A vectors weights with
    | ok r => rw [hr] at e; cases e
    | throws x => rw [hr] at e; cases e
    | abort => rfl
    | ub => rw [hr] at e; cases e
  · intro h h'
    obtain ⟨r, hr⟩ := h2 (by simpa using h) h'
    rw [hr] at e
    cases hr : average A vectors weights with
    | ok r => exact ⟨r, rfl⟩
    | throws x => rw [hr] at e; cases e
    | abort => rw [hr] at e; cases e
    | ub => rw [hr] at e; cases e

/-- **C205, coordinates that are numbers.** If a coordinate of an average is a number, it is one in every vector from the
first on whose weight is not zero, even in those whose own weight is zero. -/
theorem C205_finite {n : Nat} (k : Fin n) (vectors : List (Fin n → Dbl)) (weights : List Dbl) (r : Fin n → Dbl)
    (h : average A vectors weights = .ok r) (hf : (r k).Finite) :
    (weights = [] → ∀ v ∈ vectors, (v k).Finite) ∧
    (∀ j w, (∀ u ∈ weights.take j, u = .num 0) → weights[j]? = some w → w ≠ .num 0 →
      ∀ v ∈ vectors.drop j, (v k).Finite) := by
  obtain ⟨x, hx⟩ := hf
  have e := C205_coordinate A k vectors weights
  rw [h, Out.bind_ok, hx] at e
  obtain ⟨h1, h2⟩ := MathSpecial.C190_finite A _ weights x e
  constructor
  · intro hw v hv
    exact h1 hw _ (List.mem_map.2 ⟨v, hv, rfl⟩)
  · intro j w hj hw h0 v hv
    refine (h2 j w hj hw h0).1 _ ?_
    rw [← List.map_drop]
    exact List.mem_map.2 ⟨v, hv, rfl⟩

/-- **C205, independence.** Vectors that agree in a coordinate have averages that agree in it. -/
theorem C205_independent {n : Nat} (k : Fin n) (us vs : List (Fin n → Dbl)) (weights : List Dbl) (a b : Fin n → Dbl)
    (h : us.map (fun v => v k) = vs.map (fun v => v k)) (ha : average A us weights = .ok a)
    (hb : average A vs weights = .ok b) : a k = b k := by
  have e1 := C205_coordinate A k us weights
  have e2 := C205_coordinate A k vs weights
  rw [ha, Out.bind_ok] at e1
  rw [hb, Out.bind_ok] at e2
  rw [h, e2] at e1
  injection e1 with e1
  exact e1.symm

/-! ## The hypotheses are met -/

/-- An average of two vectors, one with an infinite entry: the other coordinate is still there. -/
example : ∃ r, average A [![.num 1, .inf false], ![.num 3, .num 0]] [] = .ok r :=
  (C205_refused A (by norm_num) _ _).2 (by simp) (by simp)

/-- The first end of an interpolation: the infinite entry of the other vector shows. -/
example : ∃ m, interpolate A [.num 1, .num 0] [.num 0, .inf false] (.num 0) = .ok ([.num 1, .nan], m) := by
  classical
  have d0 : MathSpecial.IsDouble A (.num 0) := by
    intro x hx
    injection hx with hx
    subst hx
    exact ⟨A.R.fp_zero, by rw [abs_zero]; exact le_trans (by norm_num) A.large⟩
  have d1 : MathSpecial.IsDouble A (.num 1) := by
    intro x hx
    injection hx with hx
    subst hx
    exact ⟨A.R.fp_one, by rw [abs_one]; exact le_trans (by norm_num) A.large⟩
  have di : MathSpecial.IsDouble A (.inf false) := by intro x hx; cases hx
  obtain ⟨m, h⟩ := (C205_ends A [.num 1, .num 0] [.num 0, .inf false] rfl (.num 0)
    (by intro x hx; simp at hx; rcases hx with rfl | rfl <;> assumption)
    (by intro x hx; simp at hx; rcases hx with rfl | rfl <;> assumption)).1 (le_refl (0 : ℝ))
  refine ⟨m, h.trans ?_⟩
  simp [Dbl.Finite]

end Verif.VectorAverageSpecial
