import Mathlib.Order.WithBot
import Verif.Base.Cost
import Verif.Base.Rounding

/-!
# Costs that are doubles

Not a model of a particular file: the non-negative `double`s with infinity, as costs. Sums are rounded and become
infinite beyond the largest `double`. Sums of `double`s do not underflow, so that the unlimited exponents of
`Rounding` make no difference for small numbers.
-/
namespace Verif

/-- A format of numbers: the rounding and the largest number. -/
structure Format extends Rounding where
  big : ℝ
  big_nonneg : 0 ≤ big

/-- A number of the format that is not negative, or infinity. -/
inductive Double (F : Format) where
  | fin (x : ℝ) (fp : F.Fp x) (nonneg : 0 ≤ x) (le : x ≤ F.big)
  | inf

namespace Double
variable {F : Format}

/-- The number. -/
noncomputable def value : Double F → WithTop ℝ
  | fin x _ _ _ => (x : WithTop ℝ)
  | inf => ⊤

theorem value_injective : Function.Injective (value : Double F → WithTop ℝ) := by
  intro a b h
  cases a <;> cases b <;> simp [value] at h
  · subst h; rfl
  · rfl

noncomputable instance : LinearOrder (Double F) := LinearOrder.lift' value value_injective

theorem le_def (a b : Double F) : a ≤ b ↔ value a ≤ value b := Iff.rfl

theorem fin_le_fin {x y : ℝ} {a b c d e f} :
    ((fin x a b c : Double F) ≤ fin y d e f) ↔ x ≤ y := by
  rw [le_def]; exact WithTop.coe_le_coe

theorem le_inf (a : Double F) : a ≤ inf := by rw [le_def]; exact le_top

/-- The rounded sum; infinite beyond the largest number. -/
noncomputable def add : Double F → Double F → Double F
  | fin x _ a _, fin y _ b _ =>
    if h : F.rd (x + y) ≤ F.big then fin (F.rd (x + y)) (F.fp_rd _) (F.nonneg (add_nonneg a b)) h else inf
  | _, _ => inf

noncomputable instance : Cost (Double F) where
  add := add
  zero := fin 0 F.fp_zero (le_refl _) F.big_nonneg
  inf := inf
  le_inf := le_inf
  add_mono {a b} c h := by
    change add a c ≤ add b c
    cases c with
    | inf => cases a <;> cases b <;> exact le_inf _
    | fin z f3 n3 l3 =>
      cases b with
      | inf => exact le_inf _
      | fin y f2 n2 l2 =>
        cases a with
        | inf => rw [le_def] at h; simp [value] at h
        | fin x f1 n1 l1 =>
          rw [fin_le_fin] at h
          have hm : F.rd (x + z) ≤ F.rd (y + z) := F.mono (by linarith)
          unfold add
          dsimp only
          by_cases hy : F.rd (y + z) ≤ F.big
          · rw [dif_pos hy, dif_pos (le_trans hm hy), fin_le_fin]
            exact hm
          · rw [dif_neg hy]; exact le_inf _
  le_add a c _ := by
    change a ≤ add a c
    cases a with
    | inf => exact le_inf _
    | fin x f1 n1 l1 =>
      cases c with
      | inf => exact le_inf _
      | fin z f3 n3 l3 =>
        unfold add
        dsimp only
        by_cases hy : F.rd (x + z) ≤ F.big
        · rw [dif_pos hy, fin_le_fin]
          have := F.mono (show x ≤ x + z by linarith)
          rwa [show F.rd x = x from f1] at this
        · rw [dif_neg hy]; exact le_inf _

theorem zero_def : (0 : Double F) = fin 0 F.fp_zero (le_refl _) F.big_nonneg := rfl

theorem inf_def : (Cost.inf : Double F) = inf := rfl

theorem add_def (a b : Double F) : a + b = add a b := rfl

theorem zero_le (a : Double F) : 0 ≤ a := by
  cases a with
  | inf => exact le_inf _
  | fin x f n l => rw [zero_def, fin_le_fin]; exact n

theorem add_fin {x y : ℝ} {a b c d e f} (h : F.rd (x + y) ≤ F.big) :
    (fin x a b c : Double F) + fin y d e f = fin (F.rd (x + y)) (F.fp_rd _) (F.nonneg (add_nonneg b e)) h := by
  rw [add_def]; unfold add; dsimp only; rw [dif_pos h]

/-- A finite sum is the rounded sum of finite numbers. -/
theorem add_eq_fin {p q : Double F} {z : ℝ} {f n l} (h : p + q = fin z f n l) :
    ∃ x y a b c d e g, p = fin x a b c ∧ q = fin y d e g ∧ z = F.rd (x + y) := by
  rw [add_def] at h
  cases p with
  | inf => cases q <;> cases h
  | fin x a b c =>
    cases q with
    | inf => cases h
    | fin y d e g =>
      unfold add at h
      dsimp only at h
      split at h
      · injection h with h
        exact ⟨x, y, a, b, c, d, e, g, rfl, rfl, h.symm⟩
      · cases h

/-- The format of `double`, with the largest number `(2 ^ 53 - 1) * 2 ^ 971`. -/
noncomputable def binary64 : Format where
  toRounding := Nearest.nearest
  big := (2 ^ 53 - 1) * 2 ^ 971
  big_nonneg := by positivity

end Double
end Verif
