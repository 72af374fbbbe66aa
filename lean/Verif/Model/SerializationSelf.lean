import Verif.Model.Serialization

/-!
# Model of serializing a byte buffer into itself (include/arc_utilities/serialization.hpp)

`SerializeVector<uint8_t>(buffer, buffer, SerializeFixedSizePOD<uint8_t>)` passes one `std::vector<uint8_t>` as the
vector to serialize and as the buffer to append to, so each item is read from the buffer as it has grown by then.
-/
namespace Verif.Serialization
open Verif

/-- serialization.hpp:118-130 `SerializeFixedSizePOD<uint8_t>(buffer[idx], buffer)`: the item is copied to the temporary
buffer (123) before the buffer grows (125); no such element is undefined behaviour. -/
def serializeOwnByte (e : Endian) (idx : Nat) (buffer : Buf) : Out (Nat × Buf) :=
  match buffer[idx]? with
  | none => .ub
  | some item => serializeFixedSizePOD (podBits e 1 (by decide)) item buffer

/-- serialization.hpp:349-384 `SerializeNetworkFixedSizePOD<uint8_t>(buffer[idx], buffer)`: the item is copied to the
temporary buffer before the buffer grows -/
def serializeNetworkOwnByte (e : Endian) (idx : Nat) (buffer : Buf) : Out (Nat × Buf) :=
  match buffer[idx]? with
  | none => .ub
  | some item => serializeNetworkFixedSizePOD e .s1 item buffer

/-- The item loop of serialization.hpp:190-193 and 472-475 when the vector is the buffer: `n` rounds left, the next
index -/
def ownItems (item : Nat → Buf → Out (Nat × Buf)) : Nat → Nat → Buf → Out Buf
  | 0, _, buffer => .ok buffer
  | n + 1, idx, buffer => do
    let r ← item idx buffer
    ownItems item n (idx + 1) r.2

/-- serialization.hpp:182-198 `SerializeVector<uint8_t>(buffer, buffer, SerializeFixedSizePOD<uint8_t>)`: the size is
read (187) before the header is appended (188) -/
def serializeSelf (e : Endian) (buffer : Buf) : Out (Nat × Buf) := do
  let startBufferSize := buffer.length
  let size : BitVec 64 := BitVec.ofNat 64 buffer.length
  let r ← serializeFixedSizePOD (podU64 e) size buffer
  let buffer ← ownItems (serializeOwnByte e) size.toNat 0 r.2
  .ok (buffer.length - startBufferSize, buffer)

/-- serialization.hpp:462-479 `SerializeNetworkVector<uint8_t>(buffer, buffer, SerializeNetworkFixedSizePOD<uint8_t>)` -/
def serializeNetworkSelf (e : Endian) (buffer : Buf) : Out (Nat × Buf) := do
  let startBufferSize := buffer.length
  let size : BitVec 64 := BitVec.ofNat 64 buffer.length
  let r ← serializeNetworkU64 e size buffer
  let buffer ← ownItems (serializeNetworkOwnByte e) size.toNat 0 r.2
  .ok (buffer.length - startBufferSize, buffer)

end Verif.Serialization
