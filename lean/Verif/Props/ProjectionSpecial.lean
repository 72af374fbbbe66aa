import Verif.Model.ProjectionSpecial
import Verif.Spec.ProjectionSpecial
import Verif.Props.AngleSpecial
import Verif.Props.MathSpecial

/-!
# Properties of projections, lines and the choice of eigenvalues with special doubles: C204
-/
namespace Verif.ProjectionSpecial
open Verif Verif.VectorSpecial Verif.AngleSpecial

variable (A : Ieee)

/-! ## Projections -/

theorem map_const_of {f : Dbl → Dbl} {l : List Dbl} {c : Dbl} (h : ∀ x ∈ l, f x = c) : l.map f = l.map (fun _ => c) :=
  List.map_congr_left h

theorem dot_not_finite {v1 v2 : List Dbl} {d : Dbl} (hl : v1.length = v2.length) (hd : IsDot A v1 v2 d)
    (h : ¬ Numbers v1 ∨ ¬ Numbers v2) : ¬ d.Finite := by
  intro hf
  obtain ⟨k1, k2⟩ := zip_finite (f := A.mul) (fun h => A.mul_finite h) hl (total_finite A hd hf)
  rcases h with h | h
  · exact h k1
  · exact h k2

/-- **C204, bases that are not a number.** The projection onto a base with a NaN entry is the zero vector, whatever is
projected, and the rejection is the vector less zero. -/
theorem C204_nan_base (base v : List Dbl) (z d : Dbl) (h : Sums A base v z d) (hn : .nan ∈ base) :
    projection A base z d = base.map (fun _ => .num 0) ∧
    rejection A base v z d = List.zipWith A.sub v (base.map (fun _ => .num 0)) := by
  classical
  have e : projection A base z d = base.map (fun _ => .num 0) := by
    unfold projection
    rw [(sum_cases A h.1).1 hn, if_neg (show ¬ Ieee.lt (.num 0) .nan from id)]
  exact ⟨e, by unfold rejection; rw [e]⟩

/-- **C204, infinite bases.** Every entry of the projection onto a base with an infinite entry and without NaN is NaN. -/
theorem C204_infinite_base (base v : List Dbl) (hl : base.length = v.length) (z d : Dbl) (h : Sums A base v z d)
    (hi : Infinite base) : projection A base z d = base.map (fun _ => .nan) := by
  classical
  have nf : ¬ d.Finite := dot_not_finite A hl h.2 (.inl (by
    intro hn
    obtain ⟨_, s, hs⟩ := hi
    obtain ⟨q, hq⟩ := hn _ hs
    cases hq))
  unfold projection
  rw [(sum_cases A h.1).2.2 (.inl hi), if_pos (show Ieee.lt (.num 0) (.inf false) from rfl), div_inf A nf]
  exact map_const_of fun x _ => mul_nan_left A x

/-- **C204, long bases.** If the square of an entry of the base is too large for a `double`, the projection is zero when
the dot product is a number and has only NaN entries when it is not. -/
theorem C204_long_base (base v : List Dbl) (z d : Dbl) (h : Sums A base v z d) (ht : TooLong A base) :
    (d.Finite → projection A base z d = base.map (fun _ => .num 0)) ∧
    (¬ d.Finite → projection A base z d = base.map (fun _ => .nan)) := by
  classical
  unfold projection
  rw [(sum_cases A h.1).2.2 (.inr ht), if_pos (show Ieee.lt (.num 0) (.inf false) from rfl)]
  constructor
  · rintro ⟨x, rfl⟩
    apply map_const_of
    intro y hy
    obtain ⟨q, rfl⟩ := ht.1 y hy
    show A.round (0 * q) = _
    rw [zero_mul, A.round_small (by norm_num), A.R.zero]
  · intro nf
    rw [div_inf A nf]
    exact map_const_of fun x _ => mul_nan_left A x

/-- **C204, a long vector onto itself.** The projection of such a vector onto itself has only NaN entries. -/
theorem C204_onto_itself (v : List Dbl) (z d : Dbl) (h : Sums A v v z d) (ht : TooLong A v) :
    projection A v z d = v.map (fun _ => .nan) := by
  refine (C204_long_base A v v z d h ht).2 ?_
  have e : List.zipWith A.mul v v = v.map (fun x => A.mul x x) := by simp [List.zipWith_self]
  have hd := h.2
  unfold IsDot at hd
  rw [e] at hd
  rw [(sum_cases A hd).2.2 (.inr ht)]
  rintro ⟨x, hx⟩
  cases hx

/-- **C204, vectors that are not finite.** If the vector that is projected has an entry that is infinite or NaN and the
base is made of numbers and its squared norm is not zero, no entry of the projection is a number, and so none of the
rejection. -/
theorem C204_vector (base v : List Dbl) (hl : base.length = v.length) (z d : Dbl) (h : Sums A base v z d)
    (hb : Numbers base) (hz : z ≠ .num 0) (hv : ¬ Numbers v) :
    (∀ x ∈ projection A base z d, ¬ x.Finite) ∧ ∀ x ∈ rejection A base v z d, ¬ x.Finite := by
  classical
  have nf := dot_not_finite A hl h.2 (.inr hv)
  have hn : .nan ∉ base := fun h => by obtain ⟨q, hq⟩ := hb _ h; cases hq
  have lz := (sum_cases A h.1).2.1 hn
  have key : ∀ x ∈ projection A base z d, ¬ x.Finite := by
    unfold projection
    rw [if_pos ((positive_long lz).2 hz)]
    intro x hx hf
    obtain ⟨y, _, rfl⟩ := List.mem_map.1 hx
    obtain ⟨⟨q, hq⟩, -⟩ := A.mul_finite hf
    cases d with
    | nan => cases hq
    | num x => exact nf ⟨x, rfl⟩
    | inf s => rcases lz with rfl | ⟨w, rfl, _⟩ <;> cases hq
  refine ⟨key, ?_⟩
  intro x hx hf
  obtain ⟨p, _, q, hq, rfl⟩ := zip_mem hx
  exact key q hq (A.sub_finite hf).2

/-- **C204, numbers.** Otherwise the projection is the base times the rounded quotient, and zero for the zero vector. -/
theorem C204_numbers (base : List ℝ) (z d : ℝ) :
    (z ≤ 0 → projection A (base.map .num) (.num z) (.num d) = base.map (fun _ => .num 0)) ∧
    (0 < z → |A.R.rd (d / z)| ≤ A.top →
      projection A (base.map .num) (.num z) (.num d) = base.map (fun x => A.round (A.R.rd (d / z) * x))) := by
  classical
  constructor
  · intro h
    unfold projection
    rw [if_neg (show ¬ Ieee.lt (.num 0) (.num z) from not_lt.2 h), List.map_map]
    rfl
  · intro h ht
    unfold projection
    rw [if_pos (show Ieee.lt (.num 0) (.num z) from h), List.map_map]
    apply List.map_congr_left
    intro x _
    simp only [Function.comp, Ieee.div]
    rw [if_neg (ne_of_gt h), A.round_eq ht]
    rfl

/-! ## Distances to lines -/

theorem precision : A.R.rd (1 / 10 ^ 10) ≠ 0 ∧ |A.R.rd (1 / 10 ^ 10)| ≤ 1 := by
  have h0 : (0 : ℝ) ≤ 1 / 10 ^ 10 := by norm_num
  have l := A.R.lower h0
  have n := A.R.nonneg h0
  have m := A.R.mono (show (1 : ℝ) / 10 ^ 10 ≤ 1 by norm_num)
  have o : A.R.rd 1 = 1 := A.R.fp_one
  rw [o] at m
  refine ⟨?_, by rw [abs_of_nonneg n]; exact m⟩
  intro e
  rw [e] at l
  have hu : unit ≤ 1 / 2 := by unfold unit; norm_num
  have : (0 : ℝ) < 1 / 10 ^ 10 * (1 - unit) := mul_pos (by norm_num) (by linarith)
  linarith

theorem round_double (x : ℝ) : MathSpecial.IsDouble A (A.round x) := by
  intro y hy
  have e := A.round_num hy
  subst e
  refine ⟨A.R.fp_rd x, ?_⟩
  rcases A.round_cases x with ⟨_, h⟩ | ⟨⟨s, h⟩, _⟩
  · exact h
  · rw [h] at hy; cases hy

theorem add_double {a b : Dbl} : MathSpecial.IsDouble A (A.add a b) := by
  intro z hz
  obtain ⟨⟨p, rfl⟩, ⟨q, rfl⟩⟩ := A.add_finite ⟨z, hz⟩
  exact round_double A (p + q) z hz

theorem mul_double {a b : Dbl} : MathSpecial.IsDouble A (A.mul a b) := by
  intro z hz
  obtain ⟨⟨p, rfl⟩, ⟨q, rfl⟩⟩ := A.mul_finite ⟨z, hz⟩
  exact round_double A (p * q) z hz

theorem total_double {l : List Dbl} {t : Dbl} (h : Total A l t) (hl : ∀ x ∈ l, MathSpecial.IsDouble A x) :
    MathSpecial.IsDouble A t := by
  cases h with
  | zero =>
    intro x hx
    injection hx with hx
    subst hx
    refine ⟨A.R.fp_zero, ?_⟩
    rw [abs_zero]
    exact le_trans (by norm_num) A.large
  | one => exact hl _ (by simp)
  | two => exact add_double A

/-- nothing that is not negative is approximately infinite -/
theorem not_approx (n a s : Dbl) (hs : s = .nan ∨ s = .inf false ∨ a = .nan) :
    MathSpecial.isApprox A (A.add (A.mul n n) (A.mul a a)) s (.num (A.R.rd (1 / 10 ^ 10))) = false := by
  obtain ⟨p0, p1⟩ := precision A
  obtain ⟨h1, h2, h3, _, _⟩ := MathSpecial.C189_approx A _ p0 p1
  have left_nan : A.add (A.mul n n) (A.mul a a) = .nan →
      MathSpecial.isApprox A (A.add (A.mul n n) (A.mul a a)) s (.num (A.R.rd (1 / 10 ^ 10))) = false := by
    intro e; rw [e]; exact (h3 s).2
  have add_nan : ∀ x, A.add x .nan = .nan := by intro x; cases x <;> rfl
  rcases hs with rfl | rfl | rfl
  · exact (h3 _).1
  · by_cases hn : n = .nan
    · subst hn; exact left_nan rfl
    · by_cases ha : a = .nan
      · subst ha; exact left_nan (add_nan _)
      · have hl := long_add A (long_square A hn) (long_square A ha)
        have hd := add_double A (a := A.mul n n) (b := A.mul a a)
        rcases hl with e | ⟨x, e, _⟩
        · rw [e, h1]; rfl
        · rw [e] at hd ⊢; exact (h2 x false hd).1
  · exact left_nan (add_nan _)

/-- **C204, lines.** `DistanceToLine` fails its assertion if any coordinate of the point on the line, the direction or
the point is infinite or NaN, and if the square of a difference between the points is too large for a `double`. -/
theorem C204_line (point unit x : List Dbl) (h1 : x.length = point.length) (h2 : unit.length = point.length)
    (out : Out (Dbl × Dbl)) (h : IsDistanceToLine A point unit x out)
    (hb : ¬ Numbers point ∨ ¬ Numbers unit ∨ ¬ Numbers x ∨ TooLong A (List.zipWith A.sub x point)) :
    out = .abort := by
  obtain ⟨z, a, n, s, hz, ha, -, hs, rfl⟩ := h
  have key : s = .nan ∨ s = .inf false ∨ a = .nan := by
    obtain ⟨s1, s2, s3⟩ := sum_cases A hs
    by_cases hd : Numbers (List.zipWith A.sub x point)
    · obtain ⟨k1, k2⟩ := zip_finite (f := A.sub) (fun h => A.sub_finite h) h1 hd
      rcases hb with hb | hb | hb | hb
      · exact absurd k2 hb
      · right; right
        have hl : (normalized A unit z).length = (List.zipWith A.sub x point).length := by
          rw [normalized_length]; simp [h1, h2]
        obtain ⟨y, _, hm⟩ := zip_left (f := A.mul) hl (normalized_nan A hz hb)
        rw [mul_nan_left] at hm
        exact (total_cases A ha).1 hm
      · exact absurd k1 hb
      · exact .inr (.inl (s3 (.inr hb)))
    · by_cases hn : .nan ∈ List.zipWith A.sub x point
      · exact .inl (s1 hn)
      · right; left
        apply s3
        left
        refine ⟨hn, ?_⟩
        unfold Numbers at hd
        push Not at hd
        obtain ⟨y, hy, hf⟩ := hd
        cases y with
        | nan => exact absurd hy hn
        | num y => exact absurd ⟨y, rfl⟩ hf
        | inf t => exact ⟨t, hy⟩
  unfold checkedDistance
  rw [Out.assert_false (by rw [not_approx A n a s key]; simp)]
  rfl

/-- **C204, what passes.** A result of `DistanceToLine` is made of numbers, so nothing infinite or NaN is ever returned,
and the squares of its two parts add up, as rounded, to about the squared distance of the points. -/
theorem C204_line_result (point unit x : List Dbl) (r : Dbl × Dbl)
    (h : IsDistanceToLine A point unit x (.ok r)) :
    r.1.Finite ∧ r.2.Finite ∧ ∃ s, IsSquaredNorm A (List.zipWith A.sub x point) s ∧ s.Finite ∧
      MathSpecial.isApprox A (A.add (A.mul r.1 r.1) (A.mul r.2 r.2)) s (.num (A.R.rd (1 / 10 ^ 10))) = true := by
  obtain ⟨z, a, n, s, hz, ha, hn, hs, e⟩ := h
  obtain ⟨p0, p1⟩ := precision A
  obtain ⟨q1, q2, q3, _, _⟩ := MathSpecial.C189_approx A _ p0 p1
  unfold checkedDistance at e
  by_cases hc : MathSpecial.isApprox A (A.add (A.mul n n) (A.mul a a)) s (.num (A.R.rd (1 / 10 ^ 10))) = true
  · rw [Out.assert_true hc, Out.bind_ok] at e
    injection e with e
    subst e
    have k : s ≠ .nan ∧ s ≠ .inf false := by
      constructor <;> intro k <;>
        rw [not_approx A n a s (by tauto)] at hc <;> cases hc
    have sf : s.Finite := by
      obtain ⟨s1, s2, s3⟩ := sum_cases A hs
      by_cases hd : .nan ∈ List.zipWith A.sub x point
      · exact absurd (s1 hd) k.1
      · rcases s2 hd with h | ⟨y, h, _⟩
        · exact absurd h k.2
        · exact ⟨y, h⟩
    have lf : (A.add (A.mul n n) (A.mul a a)).Finite := by
      obtain ⟨w, rfl⟩ := sf
      have sd : MathSpecial.IsDouble A (.num w) := by
        refine total_double A hs ?_
        intro y hy
        obtain ⟨q, _, rfl⟩ := List.mem_map.1 hy
        exact mul_double A
      generalize A.add (A.mul n n) (A.mul a a) = L at hc
      cases L with
      | nan => rw [(q3 _).2] at hc; cases hc
      | inf t => rw [(q2 w t sd).2] at hc; cases hc
      | num y => exact ⟨y, rfl⟩
    obtain ⟨f1, f2⟩ := A.add_finite lf
    exact ⟨(A.mul_finite f1).1, (A.mul_finite f2).1, s, hs, sf, hc⟩
  · rw [Out.assert_false hc] at e
    cases e

/-! ## The choice of eigenvalues -/

theorem le_of_not_lt {x y : Dbl} (hx : x ≠ .nan) (hy : y ≠ .nan) (h : ¬ Ieee.lt x y) : Ieee.le y x := by
  cases x with
  | nan => exact absurd rfl hx
  | inf s =>
    cases y with
    | nan => exact absurd rfl hy
    | inf t => cases s <;> cases t <;> simp_all [Ieee.lt, Ieee.le]
    | num y => cases s <;> simp_all [Ieee.lt, Ieee.le]
  | num x =>
    cases y with
    | nan => exact absurd rfl hy
    | inf t => cases t <;> simp_all [Ieee.lt, Ieee.le]
    | num y => exact not_lt.1 h

theorem le_lt {x y z : Dbl} (h : Ieee.le x y) (k : Ieee.lt y z) : Ieee.lt x z := by
  cases x with
  | nan => cases h
  | inf s =>
    cases y with
    | nan => cases h
    | inf t =>
      cases z with
      | nan => cases k
      | inf u => cases s <;> cases t <;> simp_all [Ieee.lt, Ieee.le]
      | num z => cases s <;> cases t <;> simp_all [Ieee.lt, Ieee.le]
    | num y =>
      cases z with
      | nan => cases k
      | inf u => cases s <;> simp_all [Ieee.lt, Ieee.le]
      | num z => exact h
  | num x =>
    cases y with
    | nan => cases h
    | inf t =>
      have : t = false := h
      subst this
      cases z with
      | nan => cases k
      | inf u => simp [Ieee.lt] at k
      | num z => simp [Ieee.lt] at k
    | num y =>
      cases z with
      | nan => cases k
      | inf u => exact k
      | num z => exact lt_of_le_of_lt h k

theorem lt_le {x y z : Dbl} (h : Ieee.lt x y) (k : Ieee.le y z) : Ieee.lt x z := by
  cases x with
  | nan => cases h
  | inf s =>
    cases y with
    | nan => cases h
    | inf t =>
      cases z with
      | nan => cases k
      | inf u => cases s <;> cases t <;> simp_all [Ieee.lt, Ieee.le]
      | num z => cases s <;> cases t <;> simp_all [Ieee.lt, Ieee.le]
    | num y =>
      cases z with
      | nan => cases k
      | inf u => cases s <;> simp_all [Ieee.lt, Ieee.le]
      | num z => exact h
  | num x =>
    cases y with
    | nan => cases h
    | inf t =>
      have : t = false := h
      subst this
      cases z with
      | nan => cases k
      | inf u => simpa [Ieee.lt, Ieee.le] using k
      | num z => simp [Ieee.le] at k
    | num y =>
      cases z with
      | nan => cases k
      | inf u => exact k
      | num z => exact lt_of_lt_of_le h k

theorem lt_imp_le {x y : Dbl} (h : Ieee.lt x y) : Ieee.le x y := by
  cases x with
  | nan => cases h
  | inf s => cases y with
    | nan => cases h
    | inf t => exact .inl h.1
    | num y => exact h
  | num x => cases y with
    | nan => cases h
    | inf t => exact h
    | num y => exact le_of_lt h

theorem lt_ne_nan {x y : Dbl} (h : Ieee.lt x y) : x ≠ .nan ∧ y ≠ .nan := by
  constructor
  · rintro rfl; exact h
  · rintro rfl; cases x <;> exact h

theorem le_self {x : Dbl} (h : x ≠ .nan) : Ieee.le x x := by
  cases x with
  | nan => exact absurd rfl h
  | inf s => cases s <;> simp [Ieee.le]
  | num x => exact le_refl x

/-- what the loop has found after the values `done` -/
def FoundLargest (done : List Dbl) (best : Dbl) : Option Nat → Prop
  | none => best = .inf true ∧ ∀ y ∈ done, ¬ Ieee.lt (.inf true) y
  | some i => done[i]? = some best ∧ Ieee.lt (.inf true) best ∧
      ∀ j y, done[j]? = some y → y ≠ .nan → Ieee.le y best ∧ (j < i → Ieee.lt y best)

theorem largest_step (values done : List Dbl) (best : Dbl) (index : Option Nat) (h : FoundLargest done best index) :
    ∃ best', FoundLargest (done ++ values) best' (largestFrom best index done.length values) := by
  classical
  induction values generalizing done best index with
  | nil => exact ⟨best, by simpa [largestFrom] using h⟩
  | cons x xs ih =>
    have e : done ++ x :: xs = (done ++ [x]) ++ xs := by simp
    have l : done.length + 1 = (done ++ [x]).length := by simp
    unfold largestFrom
    by_cases hx : Ieee.lt best x
    · rw [if_pos hx, e, l]
      refine ih _ _ _ ⟨by simp, ?_, ?_⟩
      · cases index with
        | none => rw [h.1] at hx; exact hx
        | some i => exact lt_le h.2.1 (lt_imp_le hx)
      · intro j y hj hn
        have small : j < done.length → Ieee.lt y x := by
          intro hjl
          rw [List.getElem?_append_left hjl] at hj
          cases index with
          | none =>
            have := h.2 y (List.mem_of_getElem? hj)
            have k := le_of_not_lt (by simp) hn this
            rw [h.1] at hx
            exact le_lt k hx
          | some i => exact le_lt (h.2.2 j y hj hn).1 hx
        refine ⟨?_, small⟩
        by_cases hjl : j < done.length
        · exact lt_imp_le (small hjl)
        · have : j = done.length := by
            have := (List.getElem?_eq_some_iff.1 hj).1
            simp at this
            omega
          subst this
          rw [List.getElem?_append_right (le_refl _)] at hj
          simp at hj
          subst hj
          exact le_self hn
    · rw [if_neg hx, e, l]
      refine ih _ _ _ ?_
      cases index with
      | none =>
        refine ⟨h.1, ?_⟩
        intro y hy
        rcases List.mem_append.1 hy with hy | hy
        · exact h.2 y hy
        · rw [List.mem_singleton] at hy
          subst hy
          rw [h.1] at hx
          exact hx
      | some i =>
        have hi : i < done.length := (List.getElem?_eq_some_iff.1 h.1).1
        refine ⟨by rw [List.getElem?_append_left hi]; exact h.1, h.2.1, ?_⟩
        intro j y hj hn
        by_cases hjl : j < done.length
        · rw [List.getElem?_append_left hjl] at hj
          exact h.2.2 j y hj hn
        · refine ⟨?_, fun hji => absurd (lt_trans hji hi) hjl⟩
          have : j = done.length := by
            have := (List.getElem?_eq_some_iff.1 hj).1
            simp at this
            omega
          subst this
          rw [List.getElem?_append_right (le_refl _)] at hj
          simp at hj
          subst hj
          exact le_of_not_lt (lt_ne_nan h.2.1).2 hn hx

/-- **C204, eigenvalues.** The eigenvector that the average of quaternions takes is that of the first largest eigenvalue
that is not NaN; the assertion fails if every eigenvalue is NaN or minus infinity. -/
theorem C204_largest (values : List Dbl) :
    (largestIndex values = .abort ∧ ∀ y ∈ values, y = .nan ∨ y = .inf true) ∨
    ∃ i, largestIndex values = .ok i ∧ FirstLargest values i := by
  obtain ⟨b, h⟩ := largest_step values [] (.inf true) none ⟨rfl, by simp⟩
  unfold largestIndex
  simp only [List.length_nil, List.nil_append] at h
  cases e : largestFrom (.inf true) none 0 values with
  | none =>
    left
    rw [e] at h
    refine ⟨rfl, fun y hy => ?_⟩
    have := h.2 y hy
    cases y with
    | nan => exact .inl rfl
    | inf s => cases s with
      | true => exact .inr rfl
      | false => exact absurd ⟨rfl, rfl⟩ this
    | num y => exact absurd rfl this
  | some i =>
    right
    rw [e] at h
    exact ⟨i, rfl, b, h⟩

theorem lt_neg {x y : Dbl} : Ieee.lt (Ieee.neg x) (Ieee.neg y) ↔ Ieee.lt y x := by
  cases x with
  | nan => cases y <;> simp [Ieee.neg, Ieee.lt]
  | inf s => cases y with
    | nan => simp [Ieee.neg, Ieee.lt]
    | inf t => cases s <;> cases t <;> simp [Ieee.neg, Ieee.lt]
    | num y => cases s <;> simp [Ieee.neg, Ieee.lt]
  | num x => cases y with
    | nan => simp [Ieee.neg, Ieee.lt]
    | inf t => cases t <;> simp [Ieee.neg, Ieee.lt]
    | num y => exact neg_lt_neg_iff

theorem le_neg {x y : Dbl} : Ieee.le (Ieee.neg x) (Ieee.neg y) ↔ Ieee.le y x := by
  cases x with
  | nan => cases y <;> simp [Ieee.neg, Ieee.le]
  | inf s => cases y with
    | nan => simp [Ieee.neg, Ieee.le]
    | inf t => cases s <;> cases t <;> simp [Ieee.neg, Ieee.le]
    | num y => cases s <;> simp [Ieee.neg, Ieee.le]
  | num x => cases y with
    | nan => simp [Ieee.neg, Ieee.le]
    | inf t => cases t <;> simp [Ieee.neg, Ieee.le]
    | num y => exact neg_le_neg_iff

theorem neg_nan {x : Dbl} : Ieee.neg x = .nan ↔ x = .nan := by cases x <;> simp [Ieee.neg]

theorem smallest_eq (values : List Dbl) (best : Dbl) (index : Option Nat) (i : Nat) :
    smallestFrom best index i values = largestFrom (Ieee.neg best) index i (values.map Ieee.neg) := by
  classical
  induction values generalizing best index i with
  | nil => rfl
  | cons x xs ih =>
    rw [List.map_cons]
    unfold smallestFrom largestFrom
    by_cases h : Ieee.lt x best
    · rw [if_pos h, if_pos (lt_neg.2 h), ih]
    · rw [if_neg h, if_neg (fun k => h (lt_neg.1 k)), ih]

/-- **C204, singular values.** The singular vector that `FitPlaneToPoints` takes is that of the first smallest singular
value that is not NaN; the assertion fails if every one is NaN or infinite, also if there are none. -/
theorem C204_smallest (values : List Dbl) :
    (smallestIndex values = .abort ∧ ∀ y ∈ values, y = .nan ∨ y = .inf false) ∨
    ∃ i, smallestIndex values = .ok i ∧ FirstSmallest values i := by
  have e : smallestIndex values = largestIndex (values.map Ieee.neg) := by
    unfold smallestIndex largestIndex
    rw [smallest_eq]
    rfl
  rw [e]
  rcases C204_largest (values.map Ieee.neg) with ⟨h1, h2⟩ | ⟨i, h1, x, hx, hl, h2⟩
  · left
    refine ⟨h1, fun y hy => ?_⟩
    have := h2 _ (List.mem_map.2 ⟨y, hy, rfl⟩)
    cases y with
    | nan => exact .inl rfl
    | inf s => cases s <;> simp_all [Ieee.neg]
    | num y => simp [Ieee.neg] at this
  · right
    rw [List.getElem?_map] at hx
    cases hv : values[i]? with
    | none => rw [hv] at hx; cases hx
    | some w =>
      rw [hv] at hx
      have hx : Ieee.neg w = x := by simpa using hx
      subst hx
      refine ⟨i, h1, w, hv, lt_neg.1 hl, ?_⟩
      intro j y hj hn
      obtain ⟨k1, k2⟩ := h2 j (Ieee.neg y) (by rw [List.getElem?_map, hj]; rfl) (fun k => hn (neg_nan.1 k))
      exact ⟨le_neg.1 k1, fun hji => lt_neg.1 (k2 hji)⟩

/-! ## The hypotheses are met -/

/-- Every base and vector have the two sums. -/
example (base v : List Dbl) : ∃ z d, Sums A base v z d := by
  obtain ⟨z, hz⟩ := total_exists A (base.map (fun x => A.mul x x))
  obtain ⟨d, hd⟩ := total_exists A (List.zipWith A.mul base v)
  exact ⟨z, d, hz, hd⟩

/-- `DistanceToLine` does something for every line and point. -/
theorem line_exists (point unit x : List Dbl) : ∃ out, IsDistanceToLine A point unit x out := by
  obtain ⟨z, hz⟩ := total_exists A (unit.map (fun x => A.mul x x))
  obtain ⟨a, ha⟩ := total_exists A (List.zipWith A.mul (normalized A unit z) (List.zipWith A.sub x point))
  obtain ⟨t, ht⟩ := total_exists A
    ((List.zipWith A.sub (onLine A point (normalized A unit z) a) x).map (fun x => A.mul x x))
  obtain ⟨s, hs⟩ := total_exists A ((List.zipWith A.sub x point).map (fun x => A.mul x x))
  exact ⟨_, z, a, _, s, hz, ha, ⟨t, ht, rfl⟩, hs, rfl⟩

/-- A point at infinity. -/
example (out : Out (Dbl × Dbl)) (h : IsDistanceToLine A [.num 0, .num 0, .num 0] [.num 1, .num 0, .num 0]
    [.inf false, .num 0, .num 0] out) : out = .abort :=
  C204_line A [.num 0, .num 0, .num 0] [.num 1, .num 0, .num 0] [.inf false, .num 0, .num 0] rfl rfl out h
    (.inr (.inr (.inl (by
      intro hn
      obtain ⟨q, hq⟩ := hn (.inf false) (by simp)
      cases hq))))

/-- A point on a line, at a distance of two along it. -/
example : IsDistanceToLine A [.num 0] [.num 1] [.num 2] (.ok (.num 0, .num 2)) := by
  classical
  have r : ∀ k : ℤ, |k| ≤ 4 → A.round (k : ℝ) = .num k := by
    intro k hk
    have hk' : |(k : ℝ)| ≤ 4 := by exact_mod_cast hk
    rw [A.round_small (le_trans hk' (by norm_num)), A.R.fp_int k (le_trans hk (by norm_num))]
  have r0 : A.round 0 = .num 0 := by simpa using r 0 (by norm_num)
  have r1 : A.round 1 = .num 1 := by simpa using r 1 (by norm_num)
  have r2 : A.round 2 = .num 2 := by simpa using r 2 (by norm_num)
  have r4 : A.round 4 = .num 4 := by simpa using r 4 (by norm_num)
  have n1 : normalized A [.num 1] (.num 1) = [.num 1] := by
    unfold normalized
    rw [if_pos (show Ieee.lt (.num 0) (.num 1) from zero_lt_one)]
    simp [Ieee.sqrt, Ieee.div, r1, not_lt.2 (zero_le_one (α := ℝ))]
  have d : List.zipWith A.sub [.num 2] [.num 0] = [.num 2] := by simp [Ieee.sub, r2]
  have q4 : A.mul (.num 2) (.num 2) = .num 4 := by
    show A.round (2 * 2) = _
    rw [show (2 : ℝ) * 2 = 4 by norm_num, r4]
  refine ⟨.num 1, .num 2, .num 0, .num 4, ?_, ?_, ⟨.num 0, ?_, ?_⟩, ?_, ?_⟩
  · have : (.num 1 : Dbl) = A.mul (.num 1) (.num 1) := by simp [Ieee.mul, r1]
    unfold IsSquaredNorm
    rw [List.map_singleton, ← this]
    exact .one _
  · rw [n1, d]
    have : (.num 2 : Dbl) = A.mul (.num 1) (.num 2) := by simp [Ieee.mul, r2]
    unfold IsDot
    rw [List.zipWith_cons_cons, List.zipWith_nil_left, ← this]
    exact .one _
  · rw [n1]
    simp only [onLine, List.map_cons, List.map_nil, List.zipWith_cons_cons, List.zipWith_nil_left, Ieee.mul, Ieee.add,
      Ieee.sub, one_mul, r2, zero_add, sub_self, r0, mul_zero]
    exact .one _
  · simp [Ieee.sqrt, r0]
  · rw [d]
    unfold IsSquaredNorm
    rw [List.map_singleton, q4]
    exact .one _
  · have e : A.add (A.mul (.num 0) (.num 0)) (A.mul (.num 2) (.num 2)) = .num 4 := by
      rw [q4]; simp [Ieee.mul, Ieee.add, r0, r4]
    obtain ⟨p0, p1⟩ := precision A
    have hd : MathSpecial.IsDouble A (.num 4) := by rw [← r4]; exact round_double A 4
    unfold checkedDistance
    rw [e, Out.assert_true, Out.bind_ok]
    rw [(MathSpecial.C189_approx A _ p0 p1).2.2.2.2 4 4 hd hd, sub_self, A.R.zero, abs_zero]
    exact abs_nonneg _

/-- The second of these eigenvalues is taken. -/
example : largestIndex [.nan, .num 2, .inf true, .num 2] = .ok 1 := by
  classical
  have h1 : ¬ Ieee.lt (.inf true) .nan := id
  have h2 : Ieee.lt (.inf true) (.num 2) := rfl
  have h3 : ¬ Ieee.lt (.num 2) (.inf true) := by simp [Ieee.lt]
  have h4 : ¬ Ieee.lt (.num 2) (.num 2) := lt_irrefl (2 : ℝ)
  unfold largestIndex
  simp only [largestFrom]
  rw [if_neg h1, if_pos h2, if_neg h3, if_neg h4]

/-- No eigenvalue can be taken. -/
example : largestIndex [.nan, .nan, .nan, .nan] = .abort := by
  rcases C204_largest [.nan, .nan, .nan, .nan] with ⟨h, _⟩ | ⟨i, _, x, hx, hl, _⟩
  · exact h
  · have : x = .nan := by simpa using List.mem_of_getElem? hx
    subst this
    exact absurd hl id

end Verif.ProjectionSpecial
