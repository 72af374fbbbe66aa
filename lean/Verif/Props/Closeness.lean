import Verif.Model.Closeness
import Mathlib.Tactic.Linarith
/-!
# C149: comparisons of vectors
-/
namespace Verif.Closeness
open Double

/-- For finite numbers a value is close enough exactly if the difference is at most the size of the threshold. -/
theorem C149_number (x y t : ℝ) : closeEnough (finite x) (finite y) (finite t) ↔ |x - y| ≤ |t| := by
  show |y + -x| ≤ |t| ↔ _
  rw [← sub_eq_add_neg, abs_sub_comm]

/-- C149: for finite vectors both overloads do the same: each coordinate differs by at most the size of the threshold; the
sign of the threshold has no effect. -/
theorem C149_finite (v w : Fin 2 → ℝ) (x y : Fin 3 → ℝ) (t : ℝ) :
    (closeEnough2 (fun i => finite (v i)) (fun i => finite (w i)) (finite t) ↔ ∀ i, |v i - w i| ≤ |t|) ∧
    (closeEnough3 (fun i => finite (x i)) (fun i => finite (y i)) (finite t) = true ↔ ∀ i, |x i - y i| ≤ |t|) := by
  constructor
  · unfold closeEnough2
    rw [C149_number, C149_number, Fin.forall_fin_two]
  · have key : ∀ a b : ℝ, ((finite a).sub (finite b)).abs.gt (finite t).abs ↔ |t| < |a - b| := by
      intro a b
      show |t| < |a + -b| ↔ _
      rw [← sub_eq_add_neg]
    unfold closeEnough3
    simp only [key]
    constructor
    · intro h i
      by_cases h0 : |t| < |x 0 - y 0|
      · rw [if_pos h0] at h; cases h
      · rw [if_neg h0] at h
        by_cases h1 : |t| < |x 1 - y 1|
        · rw [if_pos h1] at h; cases h
        · rw [if_neg h1] at h
          by_cases h2 : |t| < |x 2 - y 2|
          · rw [if_pos h2] at h; cases h
          · match i with
            | 0 => exact not_lt.mp h0
            | 1 => exact not_lt.mp h1
            | 2 => exact not_lt.mp h2
    · intro h
      rw [if_neg (not_lt.mpr (h 0)), if_neg (not_lt.mpr (h 1)), if_neg (not_lt.mpr (h 2))]

/-- The order of doubles is total except for those that are not a number. -/
theorem gt_iff (a b : Double) : a.gt b ↔ ¬ (a.le b) ∧ a ≠ nan ∧ b ≠ nan := by
  cases a <;> cases b <;> simp [gt, le]

theorem abs_nan (a : Double) : a.abs = nan ↔ a = nan := by
  cases a <;> simp [Double.abs]

theorem sub_abs_comm (a b : Double) : (a.sub b).abs = (b.sub a).abs := by
  cases a with
  | nan => cases b <;> rfl
  | finite x =>
    cases b with
    | nan => rfl
    | finite y =>
      show finite |x + -y| = finite |y + -x|
      rw [← sub_eq_add_neg, ← sub_eq_add_neg, abs_sub_comm]
    | infinite c => rfl
  | infinite c =>
    cases b with
    | nan => rfl
    | finite y => rfl
    | infinite d => cases c <;> cases d <;> rfl

theorem sub_nan (a b : Double) : a.sub b = nan ↔ a = nan ∨ b = nan ∨ ∃ c, a = infinite c ∧ b = infinite c := by
  cases a with
  | nan => cases b <;> simp [sub, add]
  | finite x => cases b <;> simp [sub, add, neg]
  | infinite c =>
    cases b with
    | nan => simp [sub, add, neg]
    | finite y => simp [sub, add, neg]
    | infinite d => cases c <;> cases d <;> simp [sub, add, neg]

/-- C149: exactly which doubles are close enough: finite ones as stated, and with an infinite threshold all that are not the
same infinity, if none is not a number. -/
theorem C149_all (a b t : Double) : closeEnough a b t ↔
    (∃ x y z, a = finite x ∧ b = finite y ∧ t = finite z ∧ |x - y| ≤ |z|) ∨
    ((∃ c, t = infinite c) ∧ a ≠ nan ∧ b ≠ nan ∧ ¬ ∃ c, a = infinite c ∧ b = infinite c) := by
  cases t with
  | nan => unfold closeEnough; cases b.sub a <;> simp [Double.abs, le]
  | finite z =>
    cases a with
    | nan => cases b <;> simp [closeEnough, Double.abs, le, sub, add, neg]
    | finite x =>
      cases b with
      | nan => simp [closeEnough, Double.abs, le, sub, add]
      | finite y => simp [C149_number]
      | infinite d => simp [closeEnough, Double.abs, le, sub, add, neg]
    | infinite c =>
      cases b with
      | nan => simp [closeEnough, Double.abs, le, sub, add]
      | finite y => simp [closeEnough, Double.abs, le, sub, add, neg]
      | infinite d => cases c <;> cases d <;> simp [closeEnough, Double.abs, le, sub, add, neg]
  | infinite e =>
    cases a with
    | nan => cases b <;> simp [closeEnough, Double.abs, le, sub, add, neg]
    | finite x => cases b <;> simp [closeEnough, Double.abs, le, sub, add, neg]
    | infinite c =>
      cases b with
      | nan => simp [closeEnough, Double.abs, le, sub, add]
      | finite y => simp [closeEnough, Double.abs, le, sub, add, neg]
      | infinite d => cases c <;> cases d <;> simp [closeEnough, Double.abs, le, sub, add, neg]

/-- C149: with two coordinates, nothing is close enough to a value that is not a number, nor with a threshold that is not a
number, and no infinite value is close enough to itself. -/
theorem C149_two_nan (v w : Fin 2 → Double) (t : Double)
    (h : t = nan ∨ ∃ i, v i = nan ∨ w i = nan ∨ ∃ c, v i = infinite c ∧ w i = infinite c) : ¬ closeEnough2 v w t := by
  have key : ∀ a b : Double, (t = nan ∨ a = nan ∨ b = nan ∨ ∃ c, a = infinite c ∧ b = infinite c) →
      ¬ closeEnough a b t := by
    intro a b hab hc
    unfold closeEnough at hc
    rcases hab with rfl | hab
    · cases h : (b.sub a).abs <;> rw [h] at hc <;> exact hc
    · have : (b.sub a) = nan := by
        rw [sub_nan]
        rcases hab with h | h | ⟨c, h1, h2⟩
        · exact .inr (.inl h)
        · exact .inl h
        · exact .inr (.inr ⟨c, h2, h1⟩)
      rw [this] at hc
      exact hc
  rintro ⟨h0, h1⟩
  rcases h with h | ⟨i, h⟩
  · exact key _ _ (.inl h) h0
  · match i with
    | 0 => exact key _ _ (.inr h) h0
    | 1 => exact key _ _ (.inr h) h1

/-- C149: with three coordinates the test is the other way round: a coordinate counts as close enough if it cannot be
compared, that is, if it is not a number in one of the vectors, if it is the same infinity in both, or if the threshold is not
a number. -/
theorem C149_three (v w : Fin 3 → Double) (t : Double) :
    closeEnough3 v w t = true ↔ ∀ i, closeEnough (v i) (w i) t ∨ t = nan ∨ v i = nan ∨ w i = nan ∨
      ∃ c, v i = infinite c ∧ w i = infinite c := by
  have key : ∀ a b : Double, ¬ (a.sub b).abs.gt t.abs ↔ (closeEnough a b t ∨ t = nan ∨ a = nan ∨ b = nan ∨
      ∃ c, a = infinite c ∧ b = infinite c) := by
    intro a b
    rw [gt_iff, ne_eq, ne_eq, abs_nan, abs_nan, sub_nan]
    unfold closeEnough
    rw [sub_abs_comm b a]
    generalize (a = nan ∨ b = nan ∨ ∃ c, a = infinite c ∧ b = infinite c) = q
    by_cases h1 : (a.sub b).abs.le t.abs <;> by_cases h2 : t = nan <;> by_cases h3 : q <;> simp [h1, h2, h3]
  unfold closeEnough3
  constructor
  · intro h i
    by_cases h0 : ((v 0).sub (w 0)).abs.gt t.abs
    · rw [if_pos h0] at h; cases h
    · rw [if_neg h0] at h
      by_cases h1 : ((v 1).sub (w 1)).abs.gt t.abs
      · rw [if_pos h1] at h; cases h
      · rw [if_neg h1] at h
        by_cases h2 : ((v 2).sub (w 2)).abs.gt t.abs
        · rw [if_pos h2] at h; cases h
        · match i with
          | 0 => exact (key _ _).mp h0
          | 1 => exact (key _ _).mp h1
          | 2 => exact (key _ _).mp h2
  · intro h
    rw [if_neg ((key _ _).mpr (h 0)), if_neg ((key _ _).mpr (h 1)), if_neg ((key _ _).mpr (h 2))]

/-- C149: so a vector without any number in it is close enough to every vector of three coordinates, for every threshold,
while the same comparison with two coordinates fails. -/
theorem C149_three_wrong (w : Fin 3 → Double) (w' : Fin 2 → Double) (t : Double) :
    closeEnough3 (fun _ => nan) w t = true ∧ ¬ closeEnough2 (fun _ => nan) w' t :=
  ⟨(C149_three _ _ _).mpr fun _ => .inr (.inr (.inl rfl)), C149_two_nan _ _ _ (.inr ⟨0, .inl rfl⟩)⟩

/-- C149: exact comparison is equality of all coordinates, none of which may be not a number. -/
theorem C149_equal (v w : Fin 3 → Double) (x y : Fin 4 → Double) :
    (equal3d v w ↔ v = w ∧ ∀ i, v i ≠ nan) ∧ (equal4d x y ↔ x = y ∧ ∀ i, x i ≠ nan) := by
  have key : ∀ a b : Double, a.eq b ↔ a = b ∧ a ≠ nan := by
    intro a b
    cases a <;> cases b <;> simp [eq]
  constructor
  · unfold equal3d
    rw [key, key, key]
    constructor
    · rintro ⟨⟨a, a'⟩, ⟨b, b'⟩, c, c'⟩
      refine ⟨funext fun i => ?_, fun i => ?_⟩ <;> match i with
        | 0 => assumption
        | 1 => assumption
        | 2 => assumption
    · rintro ⟨rfl, h⟩
      exact ⟨⟨rfl, h 0⟩, ⟨rfl, h 1⟩, rfl, h 2⟩
  · unfold equal4d
    rw [key, key, key, key]
    constructor
    · rintro ⟨⟨a, a'⟩, ⟨b, b'⟩, ⟨c, c'⟩, d, d'⟩
      refine ⟨funext fun i => ?_, fun i => ?_⟩ <;> match i with
        | 0 => assumption
        | 1 => assumption
        | 2 => assumption
        | 3 => assumption
    · rintro ⟨rfl, h⟩
      exact ⟨⟨rfl, h 0⟩, ⟨rfl, h 1⟩, ⟨rfl, h 2⟩, rfl, h 3⟩

/-- C149: vectors of vectors are compared element by element, and must be equally long. -/
theorem C149_vectors {α : Type} (close : α → α → Bool) (a b : List α) :
    allClose close a b = true ↔ a.length = b.length ∧
      ∀ (i : Nat) (x y : α), a[i]? = some x → b[i]? = some y → close x y = true := by
  unfold allClose
  have loop : ∀ a b : List α, a.length = b.length → (allClose.loop close a b = true ↔
      ∀ (i : Nat) (x y : α), a[i]? = some x → b[i]? = some y → close x y = true) := by
    intro a
    induction a with
    | nil =>
      intro b _
      simp [allClose.loop]
    | cons x a ih =>
      intro b h
      cases b with
      | nil => simp at h
      | cons y b =>
        simp only [List.length_cons, Nat.add_right_cancel_iff] at h
        simp only [allClose.loop]
        cases hc : close x y with
        | false =>
          simp only [Bool.not_false, if_true, Bool.false_eq_true, false_iff]
          intro h'
          have := h' 0 x y rfl rfl
          rw [hc] at this
          cases this
        | true =>
          simp only [Bool.not_true, Bool.false_eq_true, if_false]
          rw [ih b h]
          constructor
          · intro h' i u v hu hv
            cases i with
            | zero =>
              simp only [List.getElem?_cons_zero, Option.some.injEq] at hu hv
              rw [← hu, ← hv, hc]
            | succ i => exact h' i u v hu hv
          · intro h' i u v hu hv
            exact h' (i + 1) u v hu hv
  by_cases h : a.length = b.length
  · rw [if_neg (by simpa using h), loop a b h]
    simp [h]
  · rw [if_pos h]
    simp [h]

/-- A case that meets the hypothesis of `C149_two_nan`. -/
example : ∃ (v w : Fin 2 → Double) (t : Double), (∃ i, v i = infinite true ∧ w i = infinite true) ∧
    ¬ closeEnough2 v w t :=
  ⟨fun i => if i = 0 then finite 1 else infinite true, fun i => if i = 0 then finite 1 else infinite true, finite 1, ⟨1, rfl, rfl⟩,
    C149_two_nan _ _ _ (.inr ⟨1, .inr (.inr ⟨true, rfl, rfl⟩)⟩)⟩

end Verif.Closeness
