import Verif.Model.AngleSpecial

/-!
# Model of projections, lines and the choice of eigenvalues with special doubles

include/arc_utilities/eigen_helpers.hpp:766-776, 817-840, 882-901, 1070-1079. As in Model/Projection.lean, but entries can
be infinite or not a number, results are rounded and can overflow. The order in which Eigen adds up is open: what its
sums return are arguments.
-/
namespace Verif.ProjectionSpecial
open Verif Verif.VectorSpecial Verif.AngleSpecial

variable (A : Ieee)

open Classical in
/-- eigen_helpers.hpp:826-831: `VectorProjection` from the squared norm of the base and the dot product -/
noncomputable def projection (base : List Dbl) (squared dot : Dbl) : List Dbl :=
  if Ieee.lt (.num 0) squared then base.map (fun x => A.mul (A.div dot squared) x)
  else base.map (fun _ => .num 0)

/-- eigen_helpers.hpp:835-840 `VectorRejection` from the squared norm of the base and the dot product -/
noncomputable def rejection (base v : List Dbl) (squared dot : Dbl) : List Dbl :=
  List.zipWith A.sub v (projection A base squared dot)

/-- eigen_helpers.hpp:826, 828: the two sums that `VectorProjection` forms -/
def Sums (base v : List Dbl) (squared dot : Dbl) : Prop := IsSquaredNorm A base squared ∧ IsDot A base v dot

/-- eigen_helpers.hpp:898-900: the check and the result of `DistanceToLine` -/
noncomputable def checkedDistance (distance along squared : Dbl) : Out (Dbl × Dbl) := do
  Out.assert (MathSpecial.isApprox A (A.add (A.mul distance distance) (A.mul along along)) squared
    (.num (A.R.rd (1 / 10 ^ 10))) = true)
  .ok (distance, along)

/-- eigen_helpers.hpp:894: `point_on_line + real_unit_vector * displacement_along_line` -/
noncomputable def onLine (point unit : List Dbl) (along : Dbl) : List Dbl :=
  List.zipWith A.add point (unit.map (fun x => A.mul x along))

/-- eigen_helpers.hpp:882-901: `out` can be what `DistanceToLine` does; the message of lines 886-889 is left out -/
def IsDistanceToLine (point unit x : List Dbl) (out : Out (Dbl × Dbl)) : Prop :=
  ∃ z along distance squared,
    IsSquaredNorm A unit z ∧
    IsDot A (normalized A unit z) (List.zipWith A.sub x point) along ∧
    IsNorm A (List.zipWith A.sub (onLine A point (normalized A unit z) along) x) distance ∧
    IsSquaredNorm A (List.zipWith A.sub x point) squared ∧
    out = checkedDistance A distance along squared

open Classical in
/-- eigen_helpers.hpp:768-774: the loop over the eigenvalues; `i` is the index of the head of the list, and no index
stands for -1 -/
noncomputable def largestFrom (best : Dbl) (index : Option Nat) (i : Nat) : List Dbl → Option Nat
  | [] => index
  | x :: xs => if Ieee.lt best x then largestFrom x (some i) (i + 1) xs else largestFrom best index (i + 1) xs

/-- eigen_helpers.hpp:766-776: the index of the eigenvector that is taken -/
noncomputable def largestIndex (values : List Dbl) : Out Nat :=
  match largestFrom (.inf true) none 0 values with
  | some i => .ok i
  | none => .abort

open Classical in
/-- eigen_helpers.hpp:1072-1078: the loop over the singular values -/
noncomputable def smallestFrom (best : Dbl) (index : Option Nat) (i : Nat) : List Dbl → Option Nat
  | [] => index
  | x :: xs => if Ieee.lt x best then smallestFrom x (some i) (i + 1) xs else smallestFrom best index (i + 1) xs

/-- eigen_helpers.hpp:1070-1079: the index of the singular vector that is taken -/
noncomputable def smallestIndex (values : List Dbl) : Out Nat :=
  match smallestFrom (.inf false) none 0 values with
  | some i => .ok i
  | none => .abort

end Verif.ProjectionSpecial
