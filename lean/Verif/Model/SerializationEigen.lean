import Verif.Model.Serialization

/-!
# Model of include/arc_utilities/serialization_eigen.hpp

A matrix is its dimensions and its coefficients in storage (column-major) order. The scalar is a
fixed-size type given by its object representation. `Eigen::Index` is 64-bit signed.
-/
namespace Verif.SerializationEigen
open Verif Verif.Serialization

/-- `Eigen::Matrix<Scalar, ...>`: dimensions and coefficients in storage order. Used for serialization_eigen.hpp:12-28,
32-52. -/
structure Mat (α : Type) where
  rows : Nat
  cols : Nat
  data : List α
  deriving DecidableEq, Repr

/-- A compile-time dimension: a number or `Eigen::Dynamic`. Used for serialization_eigen.hpp:12-28, 32-52. -/
inductive Dim | dynamic | fixed (n : Nat)
  deriving DecidableEq, Repr

/-- The value has the dimensions its type prescribes and as many coefficients as its shape says. Used for
serialization_eigen.hpp:12-52. -/
def Mat.HasShape {α : Type} (R C : Dim) (m : Mat α) : Prop :=
  (∀ n, R = .fixed n → m.rows = n) ∧ (∀ n, C = .fixed n → m.cols = n) ∧
    m.data.length = m.rows * m.cols

/-- serialization_eigen.hpp:12-28 `SerializedSizeEigen` -/
def serializedSizeEigen {α : Type} (P : Pod α) (R C : Dim) (value : Mat α) : Nat :=
  let size := 0
  let size := if R = .dynamic then size + 8 else size
  let size := if C = .dynamic then size + 8 else size
  size + value.data.length * P.size

/-- The bytes at `value.data()`. Used for serialization_eigen.hpp:32-52, 199-212. -/
def rawData {α : Type} (P : Pod α) (data : List α) : List Byte := data.flatMap P.toBytes

/-- serialization_eigen.hpp:32-52 `SerializeEigen`. The header bytes go to the front of
`temp_buffer`, then `serialized_size - current` bytes are copied from the coefficients; copying more
than there are would be undefined. -/
def serializeEigen {α : Type} (e : Endian) (P : Pod α) (R C : Dim) : Ser (Mat α) :=
  fun value buffer =>
    let serializedSize := serializedSizeEigen P R C value
    let temp : List Byte := []
    let temp := if R = .dynamic then temp ++ hostBytes e 8 (BitVec.ofNat 64 value.rows) else temp
    let temp := if C = .dynamic then temp ++ hostBytes e 8 (BitVec.ofNat 64 value.cols) else temp
    let current := temp.length
    let n := serializedSize - current
    if n ≤ (rawData P value.data).length then
      .ok (serializedSize, buffer ++ (temp ++ (rawData P value.data).take n))
    else .ub

/-- `memcpy(value.data(), &buffer[pos], n * sizeof(Scalar))`: the `n` coefficients whose object
representations stand at `pos`. Used for serialization_eigen.hpp:69-103, 105-121. -/
def readScalars {α : Type} (P : Pod α) (buffer : Buf) : Nat → Nat → List α
  | 0, _ => []
  | n + 1, pos =>
    P.ofBytes ((buffer.drop pos).take P.size) :: readScalars P buffer n (pos + P.size)

/-- `Matrix::Zero(rows, cols)` with dimensions read from headers: a header of 2^63 or more is a
negative index and fails Eigen's assertion; a size whose byte count cannot be addressed throws
`std::bad_alloc`. Smaller allocations are assumed to succeed. Used for serialization_eigen.hpp:105-121, 123-141. -/
def allocate {α : Type} (P : Pod α) (rows cols : Nat) : Out Unit := do
  Out.assert (rows < 2 ^ 63 ∧ cols < 2 ^ 63)
  if rows * cols * P.size < 2 ^ 63 then .ok () else .throws .badAlloc

/-- serialization_eigen.hpp:69-103 `DeserializeEigen` for the fixed-size vectors `Vector3d`
(69-79), `Vector6d` (81-91), `Vector7d` (93-103): `n` rows, one column. -/
def deserializeFixedVector {α : Type} (P : Pod α) (n : Nat) : Des (Mat α) :=
  fun buffer current => do
    let serializedSize := n * 1 * P.size
    Out.assert (current < buffer.length)
    Out.assert (current + serializedSize ≤ buffer.length)
    .ok (⟨n, 1, readScalars P buffer (n * 1) current⟩, serializedSize)

/-- Load a `uint64_t` header: `memcpy(&header, &buffer[pos], 8)`. Used for serialization_eigen.hpp:105-121, 123-141. -/
def header (e : Endian) (buffer : Buf) (pos : Nat) : Nat :=
  (hostOfBytes e 8 ((buffer.drop pos).take 8)).toNat

/-- serialization_eigen.hpp:105-121 `DeserializeEigen<VectorXd>` -/
def deserializeVectorX {α : Type} (e : Endian) (P : Pod α) : Des (Mat α) :=
  fun buffer current => do
    Out.assert (current < buffer.length)
    Out.assert (current + 8 ≤ buffer.length)
    let sizeHeader := header e buffer current
    allocate P sizeHeader 1
    let serializedSize := 8 + sizeHeader * 1 * P.size
    Out.assert (current + serializedSize ≤ buffer.length)
    .ok (⟨sizeHeader, 1, readScalars P buffer (sizeHeader * 1) (current + 8)⟩, serializedSize)

/-- serialization_eigen.hpp:123-141 `DeserializeEigen<MatrixXd>` and 179-197 `<MatrixXf>` -/
def deserializeMatrixX {α : Type} (e : Endian) (P : Pod α) : Des (Mat α) :=
  fun buffer current => do
    Out.assert (current < buffer.length)
    Out.assert (current + 2 * 8 ≤ buffer.length)
    let rowsHeader := header e buffer current
    let colsHeader := header e buffer (current + 8)
    allocate P rowsHeader colsHeader
    let serializedSize := 8 + 8 + rowsHeader * colsHeader * P.size
    Out.assert (current + serializedSize ≤ buffer.length)
    .ok (⟨rowsHeader, colsHeader,
      readScalars P buffer (rowsHeader * colsHeader) (current + 2 * 8)⟩, serializedSize)

/-- serialization_eigen.hpp:143-159 `DeserializeEigen<Matrix3Xd>` and 161-177 `<Matrix3Xf>` -/
def deserializeMatrix3X {α : Type} (e : Endian) (P : Pod α) : Des (Mat α) :=
  fun buffer current => do
    Out.assert (current < buffer.length)
    Out.assert (current + 8 ≤ buffer.length)
    let colsHeader := header e buffer current
    allocate P 3 colsHeader
    let serializedSize := 8 + 3 * colsHeader * P.size
    Out.assert (current + serializedSize ≤ buffer.length)
    .ok (⟨3, colsHeader, readScalars P buffer (3 * colsHeader) (current + 8)⟩, serializedSize)

/-- serialization_eigen.hpp:199-212 `SerializeEigen(Isometry3d)`: the 16 coefficients of the 4x4
matrix of the transform. -/
def serializeIsometry3 {α : Type} (P : Pod α) : Ser (List α) := fun value buffer =>
  let serializedSize := 16 * P.size
  if serializedSize ≤ (rawData P value).length then
    .ok (serializedSize, buffer ++ (rawData P value).take serializedSize)
  else .ub

/-- serialization_eigen.hpp:214-223 `DeserializeEigen<Isometry3d>` -/
def deserializeIsometry3 {α : Type} (P : Pod α) : Des (List α) := fun buffer current => do
  let serializedSize := 16 * P.size
  Out.assert (current < buffer.length)
  Out.assert (current + serializedSize ≤ buffer.length)
  .ok (readScalars P buffer 16 current, serializedSize)

end Verif.SerializationEigen
