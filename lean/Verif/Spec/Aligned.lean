import Mathlib.LinearAlgebra.CrossProduct
import Verif.Model.Aligned

/-!
# What is expected of three-dimensional vectors (C156)

In terms of Mathlib's vectors, dot product and cross product.
-/
namespace Verif.Aligned
open Matrix

/-- The vector a user sees. -/
def point (a : Vec) : Fin 3 → ℝ := ![a.x, a.y, a.z]

/-- The length of a vector. -/
noncomputable def length (p : Fin 3 → ℝ) : ℝ := Real.sqrt (p ⬝ᵥ p)

open Classical in
/-- The value of an expression; none if it divides by zero or normalizes the zero vector. -/
noncomputable def ideal : Expr → Option (Fin 3 → ℝ)
  | .xyz x y z => some ![x, y, z]
  | .default => some 0
  | .add a b => (ideal a).bind fun p => (ideal b).map fun q => p + q
  | .sub a b => (ideal a).bind fun p => (ideal b).map fun q => p - q
  | .mul a s => (ideal a).map fun p => s • p
  | .div a s => (ideal a).bind fun p => if s = 0 then none else some (s⁻¹ • p)
  | .cross a b => (ideal a).bind fun p => (ideal b).map fun q => crossProduct p q
  | .normalized a => (ideal a).bind fun p => if p = 0 then none else some ((length p)⁻¹ • p)

/-- The vector after operations in place; none if one divides by zero. -/
noncomputable def idealRun (p : Fin 3 → ℝ) : List Op → Option (Fin 3 → ℝ)
  | [] => some p
  | .add b :: rest => idealRun (p + point b) rest
  | .sub b :: rest => idealRun (p - point b) rest
  | .mul s :: rest => idealRun (s • p) rest
  | .div s :: rest => open Classical in if s = 0 then none else idealRun (s⁻¹ • p) rest

/-- What happens to the hidden coefficient in operations in place with vectors whose own hidden coefficient is one. -/
noncomputable def hidden (w : ℝ) : List Op → ℝ
  | [] => w
  | .add _ :: rest => hidden (w + 1) rest
  | .sub _ :: rest => hidden (w - 1) rest
  | .mul s :: rest => hidden (w * s) rest
  | .div s :: rest => hidden (w / s) rest

end Verif.Aligned
