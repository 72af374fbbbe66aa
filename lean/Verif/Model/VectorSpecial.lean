import Verif.Base.Ieee
import Verif.Base.Outcome

/-!
# Model of norms of vectors with special doubles

include/arc_utilities/eigen_helpers.hpp:96-104, 137-155. As in Model/Projection.lean, but entries can be infinite or not
a number, results are rounded and can overflow. The order in which Eigen adds up is open.
-/
namespace Verif.VectorSpecial
open Verif

variable (A : Ieee)

/-- A sum of these values in some order, with any brackets. Used for eigen_helpers.hpp:99, 138. -/
inductive Total : List Dbl → Dbl → Prop
  | zero : Total [] (.num 0)
  | one (a : Dbl) : Total [a] a
  | two {l m n : List Dbl} {a b : Dbl} : Total l a → Total m b → n.Perm (l ++ m) → Total n (A.add a b)

/-- `n` can be what Eigen's `norm()` returns. Used for eigen_helpers.hpp:99, 138. -/
def IsNorm (v : List Dbl) (n : Dbl) : Prop := ∃ t, Total A (v.map (fun x => A.mul x x)) t ∧ n = A.sqrt t

open Classical in
/-- eigen_helpers.hpp:96-104 `ClampNorm`, where `norm` is what `norm()` returns -/
noncomputable def clampNorm (v : List Dbl) (norm maxNorm : Dbl) : Out (List Dbl) := do
  Out.assert (Ieee.lt (.num 0) maxNorm)
  if Ieee.lt maxNorm norm then .ok (v.map (fun x => A.mul x (A.div maxNorm norm)))
  else .ok v

open Classical in
/-- eigen_helpers.hpp:137-144 `SafeNormal`, where `norm` is what `norm()` returns -/
noncomputable def safeNormal (v : List Dbl) (norm : Dbl) : List Dbl :=
  if Ieee.lt (.num (1 / 2 ^ 52)) norm then v.map (fun x => A.div x norm) else v

/-- eigen_helpers.hpp:148-151: the loop of `SquaredNorm` -/
noncomputable def squaredNormLoop (sum : Dbl) : List Dbl → Dbl
  | [] => sum
  | x :: xs => squaredNormLoop (A.add sum (A.mul x x)) xs

/-- eigen_helpers.hpp:146-153 `SquaredNorm` -/
noncomputable def squaredNorm (v : List Dbl) : Dbl := squaredNormLoop A (.num 0) v

/-- eigen_helpers.hpp:155 `Norm` -/
noncomputable def norm (v : List Dbl) : Dbl := A.sqrt (squaredNorm A v)

end Verif.VectorSpecial
