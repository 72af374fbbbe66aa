import Verif.Model.PathOwnership
/-!
# Specification: paths as values

What the operations mean to a user: each path has its segments, and no path knows of another.
-/
namespace Verif.PathOwnership

variable {S : Type}

/-- One operation on values -/
def meaning (v : Nat → Option (List S)) : Op S → Option (Nat → Option (List S))
  | .make p segments => if v p = none then some fun r => if r = p then some segments else v r else none
  | .copy p q => if v p = none ∧ v q ≠ none then some fun r => if r = p then v q else v r else none
  | .assign p q => if v p ≠ none ∧ v q ≠ none then some fun r => if r = p then v q else v r else none
  | .destroy p => if v p ≠ none then some fun r => if r = p then none else v r else none

/-- A sequence of operations on values -/
def meanings (v : Nat → Option (List S)) : List (Op S) → Option (Nat → Option (List S))
  | [] => some v
  | op :: rest => (meaning v op).bind fun v' => meanings v' rest

/-- No path is assigned to another -/
def NoAssign (ops : List (Op S)) : Prop := ∀ p q, .assign p q ∈ ops → p = q

end Verif.PathOwnership
