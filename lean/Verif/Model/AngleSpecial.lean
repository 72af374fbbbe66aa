import Verif.Model.VectorSpecial
import Verif.Model.ColorSpecial

/-!
# Model of angles between vectors with special doubles

include/arc_utilities/eigen_helpers.hpp:943-987. As in Model/Projection.lean, but entries can be infinite or not a number,
results are rounded and can overflow. The order in which Eigen adds up is open: what its sums return are
arguments. `acos` is a parameter.
-/
namespace Verif.AngleSpecial
open Verif Verif.VectorSpecial

variable (A : Ieee)

/-- `std::max(-1.0, std::min(raw, 1.0))`. Used for eigen_helpers.hpp:957, 980. -/
noncomputable def limit (raw : Dbl) : Dbl := ColorSpecial.stdMax (.num (-1)) (MathSpecial.stdMin raw (.num 1))

/-- `d` can be what Eigen's `dot` returns. Used for eigen_helpers.hpp:956, 963. -/
def IsDot (v1 v2 : List Dbl) (d : Dbl) : Prop := Total A (List.zipWith A.mul v1 v2) d

/-- eigen_helpers.hpp:961-964: `d` can be what `WeightedDotProduct` returns -/
def IsWeightedDot (v1 v2 weights : List Dbl) (d : Dbl) : Prop := IsDot A (List.zipWith A.mul v1 weights) v2 d

/-- eigen_helpers.hpp:966-972: `n` can be what `WeightedNorm` returns -/
def IsWeightedNorm (v weights : List Dbl) (n : Dbl) : Prop := ∃ d, IsWeightedDot A v v weights d ∧ n = A.sqrt d

open Classical in
/-- eigen_helpers.hpp:974-981 `WeightedCosineAngleBetweenVectors`, from the two norms and the dot product -/
noncomputable def weightedCosine (norm1 norm2 dot : Dbl) : Out Dbl := do
  Out.assert (Ieee.lt (.num 0) norm1 ∧ Ieee.lt (.num 0) norm2)
  .ok (limit (A.div dot (A.mul norm1 norm2)))

/-- `acos`. Used for eigen_helpers.hpp:958, 985. -/
noncomputable def arc (acos : ℝ → ℝ) : Dbl → Dbl
  | .num x => if |x| ≤ 1 then .num (acos x) else .nan
  | _ => .nan

/-- eigen_helpers.hpp:983-986 `WeightedAngleBetweenVectors`, from the two norms and the dot product -/
noncomputable def weightedAngle (acos : ℝ → ℝ) (norm1 norm2 dot : Dbl) : Out Dbl := do
  let c ← weightedCosine A norm1 norm2 dot
  .ok (arc acos c)

open Classical in
/-- Eigen's `normalized`, from the squared norm. Used for eigen_helpers.hpp:954-955. -/
noncomputable def normalized (v : List Dbl) (squared : Dbl) : List Dbl :=
  if Ieee.lt (.num 0) squared then v.map (fun x => A.div x (A.sqrt squared)) else v

/-- `z` can be what Eigen's `squaredNorm` returns. Used for eigen_helpers.hpp:954-955. -/
def IsSquaredNorm (v : List Dbl) (z : Dbl) : Prop := Total A (v.map (fun x => A.mul x x)) z

/-- eigen_helpers.hpp:954-956: `raw` can be the value of `cosine_raw` -/
def IsRawCosine (a b c : List Dbl) (raw : Dbl) : Prop :=
  ∃ z1 z2, IsSquaredNorm A (List.zipWith A.sub a b) z1 ∧ IsSquaredNorm A (List.zipWith A.sub c b) z2 ∧
    IsDot A (normalized A (List.zipWith A.sub a b) z1) (normalized A (List.zipWith A.sub c b) z2) raw

/-- eigen_helpers.hpp:957-958: the end of `AngleDefinedByPoints`; the message of lines 949-951 is left out -/
noncomputable def angleFromRaw (acos : ℝ → ℝ) (raw : Dbl) : Dbl := arc acos (limit raw)

end Verif.AngleSpecial
