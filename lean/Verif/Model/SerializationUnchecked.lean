import Verif.Model.Serialization

/-!
# Model of the deserializers of include/arc_utilities/serialization.hpp in a build with `NDEBUG`

The assertions are not compiled. Reading bytes that the buffer does not have is undefined behaviour. The loops over the
items have no assertions of their own and are those of `Model/Serialization`.
-/
namespace Verif.Serialization.Unchecked
open Verif Verif.Serialization

/-- serialization.hpp:132-139 `DeserializeFixedSizePOD` without 135-136: `memcpy` from `&buffer[current]` -/
def fixedSizePOD {α : Type} (P : Pod α) : Des α := fun buffer current =>
  if current + P.size ≤ buffer.length then .ok (P.ofBytes ((buffer.drop current).take P.size), P.size) else .ub

/-- serialization.hpp:200-223 `DeserializeVector` without 205; 158-180 `DeserializeString` without 162 and 243-266
`DeserializeVectorLike` without 248 have the same body -/
def vector (e : Endian) {α : Type} (item : Des α) : Des (List α) := fun buffer current => do
  let hdr ← fixedSizePOD (podU64 e) buffer current
  let size := hdr.1.toNat
  reserve size
  let r ← deserializeItems item buffer size (current + hdr.2) []
  .ok (r.1, r.2 - current)

/-- serialization.hpp:328-347 `DeserializePair` without 334; 570-589 `DeserializeNetworkPair` without 576 has the same
body -/
def pair {α β : Type} (first : Des α) (second : Des β) : Des (α × β) := fun buffer current => do
  let r1 ← first buffer current
  let r2 ← second buffer (current + r1.2)
  let currentPosition := current + r1.2 + r2.2
  .ok ((r1.1, r2.1), currentPosition - current)

/-- serialization.hpp:287-310 `DeserializeMap` without 293 -/
def map (e : Endian) {κ ν : Type} (lt : κ → κ → Bool) (key : Des κ) (value : Des ν) : Des (List (κ × ν)) :=
  fun buffer current => do
    let hdr ← fixedSizePOD (podU64 e) buffer current
    let size := hdr.1.toNat
    let r ← deserializeMapItems lt (pair key value) buffer size (current + hdr.2) []
    .ok (r.1, r.2 - current)

/-- serialization.hpp:386-416 `DeserializeNetworkFixedSizePOD` without its assertions -/
def networkFixedSizePOD (e : Endian) (s : NetSize) : Des (BitVec (8 * s.bytes)) := fun buffer current =>
  if current + s.bytes ≤ buffer.length then .ok (networkValue e s ((buffer.drop current).take s.bytes), s.bytes) else .ub

/-- serialization.hpp:481-505 `DeserializeNetworkVector` and 436-460 `DeserializeNetworkString` without their
assertions -/
def networkVector (e : Endian) {α : Type} (item : Des α) : Des (List α) := fun buffer current => do
  let hdr ← networkFixedSizePOD e .s8 buffer current
  let size := BitVec.toNat hdr.1
  reserve size
  let r ← deserializeItems item buffer size (current + hdr.2) []
  .ok (r.1, r.2 - current)

/-- serialization.hpp:527-551 `DeserializeNetworkMap` without its assertion -/
def networkMap (e : Endian) {κ ν : Type} (lt : κ → κ → Bool) (key : Des κ) (value : Des ν) : Des (List (κ × ν)) :=
  fun buffer current => do
    let hdr ← networkFixedSizePOD e .s8 buffer current
    let size := BitVec.toNat hdr.1
    let r ← deserializeMapItems lt (pair key value) buffer size (current + hdr.2) []
    .ok (r.1, r.2 - current)

end Verif.Serialization.Unchecked
