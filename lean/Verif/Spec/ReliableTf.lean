import Verif.Model.ReliableTf
/-!
# Specification of the senders of transforms
-/
namespace Verif.ReliableTf
open Verif

variable {K V : Type} [DecidableEq K]

/-- What is to be sent for a key after a history of calls: the value of the last start, if no stop or close came after -/
def wanted (calls : List (Call K V)) (k : K) : Option (V × Bool) :=
  calls.foldl (fun w c => match c with
    | .start k' v st => if k' = k then some (v, st) else w
    | .stop k' => if k' = k then none else w
    | .close => none) none

end Verif.ReliableTf
