import Verif.Spec.PathUtils
import Verif.Base.Ieee

/-!
# Specification of operations on paths with special doubles
-/
namespace Verif.PathSpecial
open Verif

/-- The lengths of the segments of a path. -/
def lengths (dist : C → C → Dbl) : List C → List Dbl
  | a :: b :: rest => dist a b :: lengths dist (b :: rest)
  | _ => []

/-- A number of pieces that can be converted to `uint32_t`: above minus one and at most the largest value. -/
def Convertible (d : Dbl) : Prop := ∃ q : ℝ, d = .num q ∧ -1 < q ∧ q ≤ 2 ^ 32 - 1

end Verif.PathSpecial
