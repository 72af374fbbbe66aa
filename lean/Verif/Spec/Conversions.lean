import Verif.Model.Conversions
import Verif.Spec.Kinematics

/-!
# Specification of the conversions: when a decomposition of a matrix into singular values is right
-/
namespace Verif.Conversions
open Matrix

/-- `U Σ Vᵀ = m` with orthogonal `U` and `V` and nonnegative singular values -/
structure IsSvd (m : Matrix (Fin 3) (Fin 3) ℝ) (d : Svd) : Prop where
  u : d.uᵀ * d.u = 1
  v : d.vᵀ * d.v = 1
  s : ∀ i, 0 ≤ d.s i
  product : d.u * diagonal d.s * d.vᵀ = m

end Verif.Conversions
