import Verif.Base.Outcome

/-!
# Model of include/arc_utilities/serialization.hpp

`size_t`/`uint64_t` offsets are `Nat`: every deserializer first asserts that the offset does not
exceed the buffer size, and buffers hold fewer than 2^63 bytes, so no addition wraps.
-/
namespace Verif.Serialization
open Verif

/-- `uint8_t`. Used for serialization.hpp:359-377, 397-414. -/
abbrev Byte := BitVec 8
/-- `std::vector<uint8_t>`. Used for serialization.hpp:12-111, 190-193. -/
abbrev Buf := List Byte

/-- A serializer `std::function<uint64_t(const T&, std::vector<uint8_t>&)>`: the returned byte
count and the new buffer (serialization.hpp:12-111, the prototypes). -/
abbrev Ser (α : Type) := α → Buf → Out (Nat × Buf)
/-- A deserializer `std::function<std::pair<T, uint64_t>(const std::vector<uint8_t>&, uint64_t)>`:
the value and the number of bytes read. Used for serialization.hpp:132-139, 214-218. -/
abbrev Des (α : Type) := Buf → Nat → Out (α × Nat)

/-- A fixed-size trivially copyable type: its `sizeof` and its object representation, the bytes
`memcpy` copies. The two laws are the C++ guarantee that copying the object representation into
another object of the type reproduces the value. Used for serialization.hpp:118-130, 132-139. -/
structure Pod (α : Type) where
  size : Nat
  size_pos : 0 < size
  toBytes : α → List Byte
  ofBytes : List Byte → α
  length_toBytes : ∀ a, (toBytes a).length = size
  ofBytes_toBytes : ∀ a, ofBytes (toBytes a) = a

/-! ## Integers in memory -/

/-- Host byte order. Used for serialization.hpp:182-198, 200-223. -/
inductive Endian | little | big
  deriving DecidableEq, Repr

/-- The `n` low bytes of a number, least significant first. Used for serialization.hpp:359-377, 397-414. -/
def natToBytes : Nat → Nat → List Byte
  | 0, _ => []
  | n + 1, x => BitVec.ofNat 8 x :: natToBytes n (x / 256)

/-- Inverse of `natToBytes`. Used for serialization.hpp:397-414, 359-377. -/
def bytesToNat : List Byte → Nat
  | [] => 0
  | b :: bs => b.toNat + 256 * bytesToNat bs

/-- Object representation of an `n`-byte integer (or of the bit pattern of a float/double) on a
host of the given byte order. Used for serialization.hpp:359-377. -/
def hostBytes (e : Endian) (n : Nat) (x : BitVec (8 * n)) : List Byte :=
  match e with
  | .little => natToBytes n x.toNat
  | .big => (natToBytes n x.toNat).reverse

/-- The integer with the given object representation. Used for serialization.hpp:397-414. -/
def hostOfBytes (e : Endian) (n : Nat) (bs : List Byte) : BitVec (8 * n) :=
  match e with
  | .little => BitVec.ofNat _ (bytesToNat bs)
  | .big => BitVec.ofNat _ (bytesToNat bs.reverse)

theorem natToBytes_length (n x : Nat) : (natToBytes n x).length = n := by
  induction n generalizing x with
  | zero => rfl
  | succ n ih => simp [natToBytes, ih]

theorem bytesToNat_natToBytes (n x : Nat) (h : x < 2 ^ (8 * n)) :
    bytesToNat (natToBytes n x) = x := by
  induction n generalizing x with
  | zero => simp [natToBytes, bytesToNat] at *; omega
  | succ n ih =>
    have h2 : 2 ^ (8 * (n + 1)) = 256 * 2 ^ (8 * n) := by
      rw [show 8 * (n + 1) = 8 * n + 8 by omega, Nat.pow_add]; omega
    have : x / 256 < 2 ^ (8 * n) := by
      apply Nat.div_lt_of_lt_mul; omega
    simp only [natToBytes, bytesToNat, ih _ this, BitVec.toNat_ofNat]
    omega

theorem hostBytes_length (e : Endian) (n : Nat) (x : BitVec (8 * n)) :
    (hostBytes e n x).length = n := by
  cases e <;> simp [hostBytes, natToBytes_length]

theorem hostOfBytes_hostBytes (e : Endian) (n : Nat) (x : BitVec (8 * n)) :
    hostOfBytes e n (hostBytes e n x) = x := by
  cases e <;> simp [hostBytes, hostOfBytes, bytesToNat_natToBytes _ _ x.isLt]

/-- An `n`-byte integer type (or float/double bit pattern) as a fixed-size type. Used for serialization.hpp:182-198,
200-223. -/
def podBits (e : Endian) (n : Nat) (h : 0 < n) : Pod (BitVec (8 * n)) where
  size := n
  size_pos := h
  toBytes := hostBytes e n
  ofBytes := hostOfBytes e n
  length_toBytes := hostBytes_length e n
  ofBytes_toBytes := hostOfBytes_hostBytes e n

/-- `uint64_t` on the given host. Used for serialization.hpp:182-198, 200-223. -/
def podU64 (e : Endian) : Pod (BitVec 64) := podBits e 8 (by decide)

/-! ## Fixed-size values -/

/-- serialization.hpp:118-130 `SerializeFixedSizePOD` -/
def serializeFixedSizePOD {α : Type} (P : Pod α) : Ser α := fun item buffer =>
  let startBufferSize := buffer.length
  let tempBuffer := P.toBytes item
  let buffer := buffer ++ tempBuffer
  let endBufferSize := buffer.length
  .ok (endBufferSize - startBufferSize, buffer)

/-- serialization.hpp:132-139 `DeserializeFixedSizePOD` -/
def deserializeFixedSizePOD {α : Type} (P : Pod α) : Des α := fun buffer current => do
  Out.assert (current ≤ buffer.length)
  Out.assert (current + P.size ≤ buffer.length)
  .ok (P.ofBytes ((buffer.drop current).take P.size), P.size)

/-! ## Containers -/

/-- The item loop of serialization.hpp:190-193 (and 148-151, 233-236). -/
def serializeItems {α : Type} (item : Ser α) : List α → Buf → Out Buf
  | [], buffer => .ok buffer
  | x :: xs, buffer => do
    let r ← item x buffer
    serializeItems item xs r.2

/-- The item loop of serialization.hpp:214-218 (and 171-175, 257-261): `n` rounds left, the next
position and the items read so far. -/
def deserializeItems {α : Type} (item : Des α) (buffer : Buf) :
    Nat → Nat → List α → Out (List α × Nat)
  | 0, pos, acc => .ok (acc, pos)
  | n + 1, pos, acc => do
    let r ← item buffer pos
    deserializeItems item buffer n (pos + r.2) (acc ++ [r.1])

/-- `std::vector::reserve(size)` / `std::basic_string::reserve(size)`: throws `length_error` when
the size exceeds `max_size()`. Simplification: `max_size()` is taken to be 2^63-1 whatever the
element size (it is smaller for larger elements), and `bad_alloc` is not modelled. Used for serialization.hpp:200-223,
481-505. -/
def reserve (size : Nat) : Out Unit := if size < 2 ^ 63 then .ok () else .throws .lengthError

/-- serialization.hpp:182-198 `SerializeVector`; serialization.hpp:225-241 `SerializeVectorLike`
has the same body. The parameter `e` is the host byte order. -/
def serializeVector (e : Endian) {α : Type} (item : Ser α) : Ser (List α) := fun xs buffer => do
  let startBufferSize := buffer.length
  let size : BitVec 64 := BitVec.ofNat 64 xs.length
  let r ← serializeFixedSizePOD (podU64 e) size buffer
  let buffer ← serializeItems item xs r.2
  .ok (buffer.length - startBufferSize, buffer)

/-- serialization.hpp:200-223 `DeserializeVector`; serialization.hpp:243-266
`DeserializeVectorLike` has the same body. -/
def deserializeVector (e : Endian) {α : Type} (item : Des α) : Des (List α) :=
  fun buffer current => do
    Out.assert (current < buffer.length)
    let hdr ← deserializeFixedSizePOD (podU64 e) buffer current
    let size := hdr.1.toNat
    reserve size
    let r ← deserializeItems item buffer size (current + hdr.2) []
    .ok (r.1, r.2 - current)

/-- serialization.hpp:141-156 `SerializeString`: the body of `SerializeVector` with
`SerializeFixedSizePOD<CharType>` as item serializer; a string is its list of characters. -/
def serializeString (e : Endian) {χ : Type} (P : Pod χ) : Ser (List χ) :=
  serializeVector e (serializeFixedSizePOD P)

/-- serialization.hpp:158-180 `DeserializeString` -/
def deserializeString (e : Endian) {χ : Type} (P : Pod χ) : Des (List χ) :=
  deserializeVector e (deserializeFixedSizePOD P)

/-- serialization.hpp:312-326 `SerializePair` -/
def serializePair {α β : Type} (first : Ser α) (second : Ser β) : Ser (α × β) :=
  fun p buffer => do
    let startBufferSize := buffer.length
    let r1 ← first p.1 buffer
    let r2 ← second p.2 r1.2
    let runningTotal := r1.1 + r2.1
    let bytesWritten := r2.2.length - startBufferSize
    Out.assert (bytesWritten = runningTotal)
    .ok (bytesWritten, r2.2)

/-- serialization.hpp:328-347 `DeserializePair` -/
def deserializePair {α β : Type} (first : Des α) (second : Des β) : Des (α × β) :=
  fun buffer current => do
    Out.assert (current < buffer.length)
    let r1 ← first buffer current
    let r2 ← second buffer (current + r1.2)
    let currentPosition := current + r1.2 + r2.2
    .ok ((r1.1, r2.1), currentPosition - current)

/-- `std::map::insert`: the map is the list of its entries in key order under `Compare`; an entry
whose key is equivalent to a stored key is not inserted. Used for serialization.hpp:301-306. -/
def mapInsert {κ ν : Type} (lt : κ → κ → Bool) (k : κ) (v : ν) : List (κ × ν) → List (κ × ν)
  | [] => [(k, v)]
  | (k', v') :: m =>
    if lt k k' then (k, v) :: (k', v') :: m
    else if lt k' k then (k', v') :: mapInsert lt k v m
    else (k', v') :: m

/-- serialization.hpp:268-285 `SerializeMap` (a map is the list of its entries in key order) -/
def serializeMap (e : Endian) {κ ν : Type} (key : Ser κ) (value : Ser ν) : Ser (List (κ × ν)) :=
  fun m buffer => do
    let startBufferSize := buffer.length
    let size : BitVec 64 := BitVec.ofNat 64 m.length
    let r ← serializeFixedSizePOD (podU64 e) size buffer
    let buffer ← serializeItems (serializePair key value) m r.2
    .ok (buffer.length - startBufferSize, buffer)

/-- The loop of serialization.hpp:301-306. -/
def deserializeMapItems {κ ν : Type} (lt : κ → κ → Bool) (item : Des (κ × ν)) (buffer : Buf) :
    Nat → Nat → List (κ × ν) → Out (List (κ × ν) × Nat)
  | 0, pos, m => .ok (m, pos)
  | n + 1, pos, m => do
    let r ← item buffer pos
    deserializeMapItems lt item buffer n (pos + r.2) (mapInsert lt r.1.1 r.1.2 m)

/-- serialization.hpp:287-310 `DeserializeMap` -/
def deserializeMap (e : Endian) {κ ν : Type} (lt : κ → κ → Bool) (key : Des κ) (value : Des ν) :
    Des (List (κ × ν)) := fun buffer current => do
  Out.assert (current < buffer.length)
  let hdr ← deserializeFixedSizePOD (podU64 e) buffer current
  let size := hdr.1.toNat
  let r ← deserializeMapItems lt (deserializePair key value) buffer size (current + hdr.2) []
  .ok (r.1, r.2 - current)

/-! ## Network byte order -/

/-- `bswap`: reverse the bytes of an integer. Used for serialization.hpp:359-377, 397-414. -/
def byteSwap (n : Nat) (x : BitVec (8 * n)) : BitVec (8 * n) :=
  BitVec.ofNat _ (bytesToNat (natToBytes n x.toNat).reverse)

/-- `htobe16/32/64` of <endian.h>: the identity on a big-endian host, a byte swap otherwise. -/
def htobe (e : Endian) (n : Nat) (x : BitVec (8 * n)) : BitVec (8 * n) :=
  match e with
  | .big => x
  | .little => byteSwap n x

/-- `be16toh`, `be32toh`, `be64toh`. Used for serialization.hpp:397-414. -/
def betoh (e : Endian) (n : Nat) (x : BitVec (8 * n)) : BitVec (8 * n) :=
  match e with
  | .big => x
  | .little => byteSwap n x

/-- The types accepted by the static_assert of serialization.hpp:351-356 have these sizes. -/
inductive NetSize | s1 | s2 | s4 | s8
  deriving DecidableEq, Repr

/-- `sizeof` of the type. Used for serialization.hpp:359-377, 397-414. -/
def NetSize.bytes : NetSize → Nat
  | .s1 => 1
  | .s2 => 2
  | .s4 => 4
  | .s8 => 8

/-- serialization.hpp:359-377: the bytes put into `temp_buffer`. A one-byte value is copied without
a swap (lines 360-361). The value is its bit pattern. -/
def networkBytes (e : Endian) : (s : NetSize) → BitVec (8 * s.bytes) → List Byte
  | .s1, item => hostBytes e 1 item
  | .s2, item => hostBytes e 2 (htobe e 2 item)
  | .s4, item => hostBytes e 4 (htobe e 4 item)
  | .s8, item => hostBytes e 8 (htobe e 8 item)

/-- serialization.hpp:397-414: the value assembled from the bytes at the read position. -/
def networkValue (e : Endian) : (s : NetSize) → List Byte → BitVec (8 * s.bytes)
  | .s1, raw => hostOfBytes e 1 raw
  | .s2, raw => betoh e 2 (hostOfBytes e 2 raw)
  | .s4, raw => betoh e 4 (hostOfBytes e 4 raw)
  | .s8, raw => betoh e 8 (hostOfBytes e 8 raw)

/-- serialization.hpp:349-384 `SerializeNetworkFixedSizePOD` -/
def serializeNetworkFixedSizePOD (e : Endian) (s : NetSize) : Ser (BitVec (8 * s.bytes)) :=
  fun item buffer =>
    let startBufferSize := buffer.length
    let tempBuffer := networkBytes e s item
    let buffer := buffer ++ tempBuffer
    .ok (buffer.length - startBufferSize, buffer)

/-- serialization.hpp:386-416 `DeserializeNetworkFixedSizePOD` -/
def deserializeNetworkFixedSizePOD (e : Endian) (s : NetSize) : Des (BitVec (8 * s.bytes)) :=
  fun buffer current => do
    Out.assert (current ≤ buffer.length)
    Out.assert (current + s.bytes ≤ buffer.length)
    .ok (networkValue e s ((buffer.drop current).take s.bytes), s.bytes)

/-- `SerializeNetworkFixedSizePOD<uint64_t>` (serialization.hpp:349-384), used for size headers -/
def serializeNetworkU64 (e : Endian) : Ser (BitVec 64) := serializeNetworkFixedSizePOD e .s8

/-- `DeserializeNetworkFixedSizePOD<uint64_t>` (serialization.hpp:386-416) -/
def deserializeNetworkU64 (e : Endian) : Des (BitVec 64) := deserializeNetworkFixedSizePOD e .s8

/-- serialization.hpp:462-479 `SerializeNetworkVector` -/
def serializeNetworkVector (e : Endian) {α : Type} (item : Ser α) : Ser (List α) :=
  fun xs buffer => do
    let startBufferSize := buffer.length
    let size : BitVec 64 := BitVec.ofNat 64 xs.length
    let r ← serializeNetworkU64 e size buffer
    let buffer ← serializeItems item xs r.2
    .ok (buffer.length - startBufferSize, buffer)

/-- serialization.hpp:481-505 `DeserializeNetworkVector` -/
def deserializeNetworkVector (e : Endian) {α : Type} (item : Des α) : Des (List α) :=
  fun buffer current => do
    Out.assert (current < buffer.length)
    let hdr ← deserializeNetworkU64 e buffer current
    let size := hdr.1.toNat
    reserve size
    let r ← deserializeItems item buffer size (current + hdr.2) []
    .ok (r.1, r.2 - current)

/-- serialization.hpp:418-434 `SerializeNetworkString` -/
def serializeNetworkString (e : Endian) (s : NetSize) : Ser (List (BitVec (8 * s.bytes))) :=
  serializeNetworkVector e (serializeNetworkFixedSizePOD e s)

/-- serialization.hpp:436-460 `DeserializeNetworkString` -/
def deserializeNetworkString (e : Endian) (s : NetSize) : Des (List (BitVec (8 * s.bytes))) :=
  deserializeNetworkVector e (deserializeNetworkFixedSizePOD e s)

/-- serialization.hpp:553-568 `SerializeNetworkPair` has the body of `SerializePair`. -/
def serializeNetworkPair {α β : Type} (first : Ser α) (second : Ser β) : Ser (α × β) :=
  serializePair first second

/-- serialization.hpp:570-589 `DeserializeNetworkPair` has the body of `DeserializePair`. -/
def deserializeNetworkPair {α β : Type} (first : Des α) (second : Des β) : Des (α × β) :=
  deserializePair first second

/-- serialization.hpp:507-525 `SerializeNetworkMap` -/
def serializeNetworkMap (e : Endian) {κ ν : Type} (key : Ser κ) (value : Ser ν) :
    Ser (List (κ × ν)) := fun m buffer => do
  let startBufferSize := buffer.length
  let size : BitVec 64 := BitVec.ofNat 64 m.length
  let r ← serializeNetworkU64 e size buffer
  let buffer ← serializeItems (serializeNetworkPair key value) m r.2
  .ok (buffer.length - startBufferSize, buffer)

/-- serialization.hpp:527-551 `DeserializeNetworkMap` -/
def deserializeNetworkMap (e : Endian) {κ ν : Type} (lt : κ → κ → Bool) (key : Des κ)
    (value : Des ν) : Des (List (κ × ν)) := fun buffer current => do
  Out.assert (current < buffer.length)
  let hdr ← deserializeNetworkU64 e buffer current
  let size := hdr.1.toNat
  let r ← deserializeMapItems lt (deserializeNetworkPair key value) buffer size (current + hdr.2) []
  .ok (r.1, r.2 - current)

end Verif.Serialization
