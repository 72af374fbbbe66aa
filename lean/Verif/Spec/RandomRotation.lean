import Mathlib.Probability.ProductMeasure
import Mathlib.MeasureTheory.Measure.Haar.InnerProductSpace
import Verif.Spec.Kinematics
import Verif.Spec.Draws

/-!
# Specification: uniform directions and uniform rotations
-/
namespace Verif.RandomRotation
open MeasureTheory Set Verif.Kinematics

/-- A number drawn uniformly from [0, 1) -/
noncomputable def unitInterval : Measure ℝ := volume.restrict (Ico 0 1)

instance : IsProbabilityMeasure unitInterval := ⟨by simp [unitInterval]⟩

/-- Independent uniform draws -/
noncomputable def unitDraws : Measure (ℕ → ℝ) := Measure.infinitePi fun _ => unitInterval

/-- The uniform distribution on the unit sphere in four dimensions: no direction is special. -/
structure IsUniformDirection (law : Measure (EuclideanSpace ℝ (Fin 4))) : Prop where
  probability : IsProbabilityMeasure law
  unit : ∀ᵐ q ∂law, ‖q‖ = 1
  symmetric : ∀ e : EuclideanSpace ℝ (Fin 4) ≃ₗᵢ[ℝ] EuclideanSpace ℝ (Fin 4), law.map e = law

/-- The measurable sets of matrices -/
instance : MeasurableSpace (Matrix (Fin 3) (Fin 3) ℝ) := inferInstanceAs (MeasurableSpace (Fin 3 → Fin 3 → ℝ))

/-- The uniform distribution on rotations: it looks the same from every orientation, inside and outside. -/
structure IsUniformRotation (law : Measure (Matrix (Fin 3) (Fin 3) ℝ)) : Prop where
  probability : IsProbabilityMeasure law
  rotation : ∀ᵐ R ∂law, IsRotationMatrix R
  outside : ∀ S, IsRotationMatrix S → law.map (fun R => S * R) = law
  inside : ∀ S, IsRotationMatrix S → law.map (fun R => R * S) = law

end Verif.RandomRotation
