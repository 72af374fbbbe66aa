import Verif.Spec.SerializationRos
import Verif.Model.SerializationEigen

/-! # Specification of the Eigen layouts -/
namespace Verif.SerializationEigen
open Verif Verif.Serialization Verif.SerializationRos

/-- Number of rows if it is dynamic, number of columns if it is dynamic, each in 8 bytes, then the
coefficients in column-major order. -/
def layout {α : Type} (e : Endian) (P : Pod α) (R C : Dim) (m : Mat α) : List Byte :=
  (if R = .dynamic then field e 8 m.rows else []) ++
  ((if C = .dynamic then field e 8 m.cols else []) ++ m.data.flatMap P.toBytes)

/-- The dimensions are representable as `Eigen::Index` and the coefficients fit in memory. -/
def Mat.Fits {α : Type} (P : Pod α) (m : Mat α) : Prop :=
  m.rows < 2 ^ 63 ∧ m.cols < 2 ^ 63 ∧ m.rows * m.cols * P.size < 2 ^ 63

/-- The only outcomes besides a value are a failed assertion and `std::bad_alloc`. -/
def EigenFailsCleanly {α : Type} (des : Des α) : Prop :=
  ∀ buf cur, des buf cur = .abort ∨ des buf cur = .throws .badAlloc ∨ ∃ r, des buf cur = .ok r

/-- What every Eigen deserializer guarantees on arbitrary bytes. -/
def EigenRobust {α : Type} (des : Des α) : Prop :=
  InBounds des ∧ EigenFailsCleanly des ∧ RejectsTruncation des

end Verif.SerializationEigen
