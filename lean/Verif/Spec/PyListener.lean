import Verif.Model.PyListener
/-!
# Specification of the listener
-/
namespace Verif.PyListener

variable {μ : Type}

/-- The messages kept, in order -/
def receivedOf : List (Event μ) → List μ
  | [] => []
  | .received m :: h => m :: receivedOf h
  | _ :: h => receivedOf h

/-- The messages the user's callback was called with, in order -/
def handedOf : List (Event μ) → List μ
  | [] => []
  | .handed m :: h => m :: handedOf h
  | _ :: h => handedOf h

/-- The messages for which `callback` raised, in order -/
def failedOf : List (Event μ) → List μ
  | [] => []
  | .failed m :: h => m :: failedOf h
  | _ :: h => failedOf h

end Verif.PyListener
