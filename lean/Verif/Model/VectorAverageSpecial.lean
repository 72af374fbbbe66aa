import Verif.Model.MathSpecial

/-!
# Model of interpolation and averages of vectors with special doubles

include/arc_utilities/eigen_helpers.hpp:270-282, 699-739. As in Model/Averages.lean and Model/Pose.lean, but entries, weights
and ratios can be infinite or not a number, results are rounded and can overflow.
-/
namespace Verif.VectorAverageSpecial
open Verif

variable (A : Ieee)

/-- eigen_helpers.hpp:270-282 `Interpolate` for vectors; the flag tells whether a message is printed -/
noncomputable def interpolate (v1 v2 : List Dbl) (ratio : Dbl) : Out (List Dbl × Bool) :=
  if v1.length ≠ v2.length then .throws .invalidArgument
  else
    let r := MathSpecial.safetyCheckUnitInterval ratio
    .ok (List.zipWith A.add (v1.map (fun x => A.mul x (A.sub (.num 1) r.1))) (v2.map (fun x => A.mul x r.1)), r.2)

/-- eigen_helpers.hpp:720-727: the loop of `AverageEigenVector` over the remaining vectors -/
noncomputable def averageLoop {n : Nat} (weights : List Dbl) : List (Fin n → Dbl) → Nat → (Fin n → Dbl) → Dbl →
    Out (Fin n → Dbl)
  | [], _, average, _ => .ok average
  | current :: rest, i, average, sum => do
    let weight ← MathSpecial.weightAt weights i
    let sum := A.add sum weight
    let effective := A.div weight sum
    averageLoop weights rest (i + 1)
      (fun k => A.add (average k) (A.mul effective (A.sub (current k) (average k)))) sum

open Classical in
/-- eigen_helpers.hpp:699-739 `AverageEigenVector`, `AverageEigenVector3d`, `AverageEigenVectorXd`, for vectors of one
size -/
noncomputable def average {n : Nat} (vectors : List (Fin n → Dbl)) (weights : List Dbl) : Out (Fin n → Dbl) := do
  Out.assert (0 < vectors.length)
  Out.assert (weights.length = vectors.length ∨ weights.length = 0)
  let start := MathSpecial.firstNonzero 0 weights
  Out.assert (start < vectors.length)
  match vectors[start]? with
  | none => .ub
  | some first => do
    let w ← MathSpecial.weightAt weights start
    Out.assert (Ieee.lt (.num 0) w)
    averageLoop A weights (vectors.drop (start + 1)) (start + 1) first w

end Verif.VectorAverageSpecial
