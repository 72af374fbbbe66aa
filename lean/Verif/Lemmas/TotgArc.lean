import Mathlib.Analysis.SpecialFunctions.Trigonometric.Deriv
import Mathlib.Analysis.Calculus.Deriv.Pi
import Verif.Model.TotgPath
import Verif.Spec.Totg
import Verif.Props.Projection

/-! # Geometry of a blend -/
namespace Verif.Totg
open Verif Matrix
open Verif.Projection (normalized length distance length_eq distance_eq norm_sq normalized_of_ne
  normalized_dot_self dot_self_pos)

variable {n : Nat}

theorem direction_eq {a b : Fin n → ℝ} (h : b - a ≠ 0) : direction a b = normalized (b - a) := by
  rw [normalized_of_ne h, direction, length_eq]

theorem unit_norm {v : Fin n → ℝ} (h : v ⬝ᵥ v = 1) : Projection.norm v = 1 := by
  unfold Projection.norm Projection.squaredNorm
  rw [h, Real.sqrt_one]

theorem norm_ne {v : Fin n → ℝ} (h : 0 < Projection.norm v) : v ≠ 0 := by
  rintro rfl
  simp [Projection.norm, Projection.squaredNorm] at h

/-- A corner with unit directions `u`, `w` and half angle `h`, cut at the distance `d`: centre and normal of
the arc. -/
theorem corner {u w inter : Fin n → ℝ} {h d : ℝ} (hu : u ⬝ᵥ u = 1) (hw : w ⬝ᵥ w = 1)
    (hc : u ⬝ᵥ w = Real.cos (2 * h)) (hS : 0 < Real.sin h) (hC : 0 < Real.cos h) (hd : 0 < d) :
    let r := d / Real.tan h
    let center := inter + (r / Real.cos h) • normalized (w - u)
    let x := normalized (inter - d • u - center)
    0 < r ∧ x ⬝ᵥ x = 1 ∧ x ⬝ᵥ u = 0 ∧ center + r • x = inter - d • u ∧
      center + r • (Real.cos (2 * h) • x + Real.sin (2 * h) • u) = inter + d • w ∧
      -Real.sin (2 * h) • x + Real.cos (2 * h) • u = w ∧
      center = inter + (d / (2 * Real.sin h ^ 2)) • (w - u) ∧ r = d * Real.cos h / Real.sin h := by
  intro r center x
  set S := Real.sin h with hSd
  set C := Real.cos h with hCd
  have hSC : S ^ 2 + C ^ 2 = 1 := Real.sin_sq_add_cos_sq h
  have hcos : Real.cos (2 * h) = 1 - 2 * S ^ 2 := by rw [Real.cos_two_mul, ← hCd]; linarith
  have hsin : Real.sin (2 * h) = 2 * S * C := by rw [Real.sin_two_mul]
  rw [hcos] at hc ⊢
  rw [hsin]
  have hwu : (w - u) ⬝ᵥ (w - u) = (2 * S) ^ 2 := by
    rw [sub_dotProduct, dotProduct_sub, dotProduct_sub, hw, hu, dotProduct_comm w u, hc]; ring
  have hwu0 : w - u ≠ 0 := by
    intro h0
    rw [h0, zero_dotProduct] at hwu
    have : 0 < (2 * S) ^ 2 := by positivity
    linarith
  have hnorm : Projection.norm (w - u) = 2 * S := by
    unfold Projection.norm Projection.squaredNorm
    rw [hwu, Real.sqrt_sq (by positivity)]
  have hr : r = d * C / S := by
    show d / Real.tan h = _
    rw [Real.tan_eq_sin_div_cos, ← hSd, ← hCd]
    field_simp
  have hr0 : 0 < r := by rw [hr]; positivity
  have hcenter : center = inter + (d / (2 * S ^ 2)) • (w - u) := by
    show inter + (r / C) • normalized (w - u) = _
    rw [normalized_of_ne hwu0, hnorm, smul_smul, hr]
    congr 2
    field_simp
  set raw := inter - d • u - center with hraw
  have hraw' : raw = -(d • u) - (d / (2 * S ^ 2)) • (w - u) := by
    rw [hraw, hcenter]; abel
  have huwu : u ⬝ᵥ (w - u) = -(2 * S ^ 2) := by
    rw [dotProduct_sub, hc, hu]; ring
  have hrr : raw ⬝ᵥ raw = r ^ 2 := by
    rw [hraw', sub_dotProduct, dotProduct_sub, dotProduct_sub, neg_dotProduct, dotProduct_neg,
      neg_dotProduct, dotProduct_neg, smul_dotProduct, dotProduct_smul, smul_dotProduct, dotProduct_smul,
      smul_dotProduct, dotProduct_smul, smul_dotProduct, dotProduct_smul, hu, huwu, hwu,
      dotProduct_comm (w - u) u, huwu, hr]
    simp only [smul_eq_mul]
    have : C ^ 2 = 1 - S ^ 2 := by linarith
    field_simp
    rw [this]
    ring
  have hraw0 : raw ≠ 0 := by
    intro h0
    rw [h0, zero_dotProduct] at hrr
    have : 0 < r ^ 2 := by positivity
    linarith
  have hrn : Projection.norm raw = r := by
    unfold Projection.norm Projection.squaredNorm
    rw [hrr, Real.sqrt_sq hr0.le]
  have hx : x = (1 / r) • raw := by
    show normalized raw = _
    rw [normalized_of_ne hraw0, hrn]
  have hrx : r • x = raw := by
    rw [hx, smul_smul, mul_one_div, div_self hr0.ne', one_smul]
  have hxx : x ⬝ᵥ x = 1 := normalized_dot_self hraw0
  have hxu : x ⬝ᵥ u = 0 := by
    rw [hx, smul_dotProduct, hraw', sub_dotProduct, neg_dotProduct, smul_dotProduct, smul_dotProduct, hu,
      dotProduct_comm (w - u) u, huwu]
    simp only [smul_eq_mul]
    field_simp
    ring
  refine ⟨hr0, hxx, hxu, ?_, ?_, ?_, hcenter, hr⟩
  · rw [hrx, hraw]; abel
  · rw [smul_add, smul_comm r (1 - 2 * S ^ 2) x, hrx, hraw', hcenter, smul_smul, hr]
    funext i
    simp only [Pi.add_apply, Pi.sub_apply, Pi.neg_apply, Pi.smul_apply, smul_eq_mul]
    field_simp
    linear_combination (4 * S ^ 2 * d * u i) * hSC
  · rw [hx, smul_smul, hraw', hr]
    funext i
    simp only [Pi.add_apply, Pi.sub_apply, Pi.neg_apply, Pi.smul_apply, smul_eq_mul]
    field_simp
    ring

end Verif.Totg
