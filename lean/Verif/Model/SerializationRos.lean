import Verif.Model.Serialization

/-!
# Model of include/arc_utilities/serialization_ros.hpp

Doubles are their 64-bit patterns, `uint32_t` fields 32-bit vectors, strings lists of 8-bit
characters. `e` is the host byte order.
-/
namespace Verif.SerializationRos
open Verif Verif.Serialization

/-- `std_msgs::Header`. Used for serialization_ros.hpp:12-19, 21-38. -/
structure Header where
  seq : BitVec 32
  sec : BitVec 32
  nsec : BitVec 32
  frameId : List Byte
  deriving DecidableEq, Repr

/-- `geometry_msgs::Point`. Used for serialization_ros.hpp:40-46, 48-62. -/
structure Point where
  x : BitVec 64
  y : BitVec 64
  z : BitVec 64
  deriving DecidableEq, Repr

/-- `geometry_msgs::Vector3`. Used for serialization_ros.hpp:64-70, 72-86. -/
structure Vector3 where
  x : BitVec 64
  y : BitVec 64
  z : BitVec 64
  deriving DecidableEq, Repr

/-- `geometry_msgs::Quaternion`. Used for serialization_ros.hpp:88-95, 97-114. -/
structure Quaternion where
  x : BitVec 64
  y : BitVec 64
  z : BitVec 64
  w : BitVec 64
  deriving DecidableEq, Repr

/-- `geometry_msgs::Pose`. Used for serialization_ros.hpp:116-121, 123-134. -/
structure Pose where
  position : Point
  orientation : Quaternion
  deriving DecidableEq, Repr

/-- `geometry_msgs::PoseStamped`. Used for serialization_ros.hpp:136-141, 143-154. -/
structure PoseStamped where
  header : Header
  pose : Pose
  deriving DecidableEq, Repr

/-- `geometry_msgs::Transform`. Used for serialization_ros.hpp:156-161, 163-174. -/
structure Transform where
  translation : Vector3
  rotation : Quaternion
  deriving DecidableEq, Repr

/-- `geometry_msgs::TransformStamped`. Used for serialization_ros.hpp:176-183, 185-199. -/
structure TransformStamped where
  header : Header
  childFrameId : List Byte
  transform : Transform
  deriving DecidableEq, Repr

/-- `uint32_t`. Used for serialization_ros.hpp:12-19, 21-38. -/
def podU32 (e : Endian) : Pod (BitVec 32) := podBits e 4 (by decide)
/-- `double`, as its bit pattern. Used for serialization_ros.hpp:40-46, 48-62. -/
def podF64 (e : Endian) : Pod (BitVec 64) := podBits e 8 (by decide)
/-- `char`. Used for serialization_ros.hpp:12-19, 21-38. -/
def podChar (e : Endian) : Pod (BitVec 8) := podBits e 1 (by decide)

/-- serialization_ros.hpp:12-19 `SerializeHeader` -/
def serializeHeader (e : Endian) : Ser Header := fun h buffer => do
  let r1 ← serializeFixedSizePOD (podU32 e) h.seq buffer
  let r2 ← serializeFixedSizePOD (podU32 e) h.sec r1.2
  let r3 ← serializeFixedSizePOD (podU32 e) h.nsec r2.2
  let r4 ← serializeString e (podChar e) h.frameId r3.2
  .ok (r1.1 + r2.1 + r3.1 + r4.1, r4.2)

/-- serialization_ros.hpp:21-38 `DeserializeHeader` -/
def deserializeHeader (e : Endian) : Des Header := fun buffer current => do
  let bytesRead := 0
  let seq ← deserializeFixedSizePOD (podU32 e) buffer (current + bytesRead)
  let bytesRead := bytesRead + seq.2
  let sec ← deserializeFixedSizePOD (podU32 e) buffer (current + bytesRead)
  let bytesRead := bytesRead + sec.2
  let nsec ← deserializeFixedSizePOD (podU32 e) buffer (current + bytesRead)
  let bytesRead := bytesRead + nsec.2
  let frameId ← deserializeString e (podChar e) buffer (current + bytesRead)
  let bytesRead := bytesRead + frameId.2
  .ok (⟨seq.1, sec.1, nsec.1, frameId.1⟩, bytesRead)

/-- serialization_ros.hpp:40-46 `SerializePoint` -/
def serializePoint (e : Endian) : Ser Point := fun p buffer => do
  let r1 ← serializeFixedSizePOD (podF64 e) p.x buffer
  let r2 ← serializeFixedSizePOD (podF64 e) p.y r1.2
  let r3 ← serializeFixedSizePOD (podF64 e) p.z r2.2
  .ok (r1.1 + r2.1 + r3.1, r3.2)

/-- serialization_ros.hpp:48-62 `DeserializePoint` -/
def deserializePoint (e : Endian) : Des Point := fun buffer current => do
  let bytesRead := 0
  let x ← deserializeFixedSizePOD (podF64 e) buffer (current + bytesRead)
  let bytesRead := bytesRead + x.2
  let y ← deserializeFixedSizePOD (podF64 e) buffer (current + bytesRead)
  let bytesRead := bytesRead + y.2
  let z ← deserializeFixedSizePOD (podF64 e) buffer (current + bytesRead)
  let bytesRead := bytesRead + z.2
  .ok (⟨x.1, y.1, z.1⟩, bytesRead)

/-- serialization_ros.hpp:64-70 `SerializeVector3` -/
def serializeVector3 (e : Endian) : Ser Vector3 := fun p buffer => do
  let r1 ← serializeFixedSizePOD (podF64 e) p.x buffer
  let r2 ← serializeFixedSizePOD (podF64 e) p.y r1.2
  let r3 ← serializeFixedSizePOD (podF64 e) p.z r2.2
  .ok (r1.1 + r2.1 + r3.1, r3.2)

/-- serialization_ros.hpp:72-86 `DeserializeVector3` -/
def deserializeVector3 (e : Endian) : Des Vector3 := fun buffer current => do
  let bytesRead := 0
  let x ← deserializeFixedSizePOD (podF64 e) buffer (current + bytesRead)
  let bytesRead := bytesRead + x.2
  let y ← deserializeFixedSizePOD (podF64 e) buffer (current + bytesRead)
  let bytesRead := bytesRead + y.2
  let z ← deserializeFixedSizePOD (podF64 e) buffer (current + bytesRead)
  let bytesRead := bytesRead + z.2
  .ok (⟨x.1, y.1, z.1⟩, bytesRead)

/-- serialization_ros.hpp:88-95 `SerializeQuaternion` -/
def serializeQuaternion (e : Endian) : Ser Quaternion := fun q buffer => do
  let r1 ← serializeFixedSizePOD (podF64 e) q.x buffer
  let r2 ← serializeFixedSizePOD (podF64 e) q.y r1.2
  let r3 ← serializeFixedSizePOD (podF64 e) q.z r2.2
  let r4 ← serializeFixedSizePOD (podF64 e) q.w r3.2
  .ok (r1.1 + r2.1 + r3.1 + r4.1, r4.2)

/-- serialization_ros.hpp:97-114 `DeserializeQuaternion` -/
def deserializeQuaternion (e : Endian) : Des Quaternion := fun buffer current => do
  let bytesRead := 0
  let x ← deserializeFixedSizePOD (podF64 e) buffer (current + bytesRead)
  let bytesRead := bytesRead + x.2
  let y ← deserializeFixedSizePOD (podF64 e) buffer (current + bytesRead)
  let bytesRead := bytesRead + y.2
  let z ← deserializeFixedSizePOD (podF64 e) buffer (current + bytesRead)
  let bytesRead := bytesRead + z.2
  let w ← deserializeFixedSizePOD (podF64 e) buffer (current + bytesRead)
  let bytesRead := bytesRead + w.2
  .ok (⟨x.1, y.1, z.1, w.1⟩, bytesRead)

/-- serialization_ros.hpp:116-121 `SerializePose` -/
def serializePose (e : Endian) : Ser Pose := fun p buffer => do
  let r1 ← serializePoint e p.position buffer
  let r2 ← serializeQuaternion e p.orientation r1.2
  .ok (r1.1 + r2.1, r2.2)

/-- serialization_ros.hpp:123-134 `DeserializePose` -/
def deserializePose (e : Endian) : Des Pose := fun buffer current => do
  let bytesRead := 0
  let position ← deserializePoint e buffer (current + bytesRead)
  let bytesRead := bytesRead + position.2
  let quat ← deserializeQuaternion e buffer (current + bytesRead)
  let bytesRead := bytesRead + quat.2
  .ok (⟨position.1, quat.1⟩, bytesRead)

/-- serialization_ros.hpp:136-141 `SerializePoseStamped` -/
def serializePoseStamped (e : Endian) : Ser PoseStamped := fun p buffer => do
  let r1 ← serializeHeader e p.header buffer
  let r2 ← serializePose e p.pose r1.2
  .ok (r1.1 + r2.1, r2.2)

/-- serialization_ros.hpp:143-154 `DeserializePoseStamped` -/
def deserializePoseStamped (e : Endian) : Des PoseStamped := fun buffer current => do
  let bytesRead := 0
  let header ← deserializeHeader e buffer (current + bytesRead)
  let bytesRead := bytesRead + header.2
  let pose ← deserializePose e buffer (current + bytesRead)
  let bytesRead := bytesRead + pose.2
  .ok (⟨header.1, pose.1⟩, bytesRead)

/-- serialization_ros.hpp:156-161 `SerializeTransform` -/
def serializeTransform (e : Endian) : Ser Transform := fun t buffer => do
  let r1 ← serializeVector3 e t.translation buffer
  let r2 ← serializeQuaternion e t.rotation r1.2
  .ok (r1.1 + r2.1, r2.2)

/-- serialization_ros.hpp:163-174 `DeserializeTransform` -/
def deserializeTransform (e : Endian) : Des Transform := fun buffer current => do
  let bytesRead := 0
  let translation ← deserializeVector3 e buffer (current + bytesRead)
  let bytesRead := bytesRead + translation.2
  let quat ← deserializeQuaternion e buffer (current + bytesRead)
  let bytesRead := bytesRead + quat.2
  .ok (⟨translation.1, quat.1⟩, bytesRead)

/-- serialization_ros.hpp:176-183 `SerializeTransformStamped` -/
def serializeTransformStamped (e : Endian) : Ser TransformStamped := fun t buffer => do
  let r1 ← serializeHeader e t.header buffer
  let r2 ← serializeTransform e t.transform r1.2
  let r3 ← serializeString e (podChar e) t.childFrameId r2.2
  .ok (r1.1 + r2.1 + r3.1, r3.2)

/-- serialization_ros.hpp:185-199 `DeserializeTransformStamped` -/
def deserializeTransformStamped (e : Endian) : Des TransformStamped := fun buffer current => do
  let bytesRead := 0
  let header ← deserializeHeader e buffer (current + bytesRead)
  let bytesRead := bytesRead + header.2
  let transform ← deserializeTransform e buffer (current + bytesRead)
  let bytesRead := bytesRead + transform.2
  let childFrameId ← deserializeString e (podChar e) buffer (current + bytesRead)
  let bytesRead := bytesRead + childFrameId.2
  .ok (⟨header.1, childFrameId.1, transform.1⟩, bytesRead)

/-! ## The wrapper around roscpp's own serialization

`body m` is the wire format roscpp writes for a message (`ros::serialization::serialize`), not
part of this repository. -/

/-- `ros::SerializedMessage`: the allocated array, the offset of `message_start` in it, and
`num_bytes`. Used for serialization_ros.hpp:201-207. -/
structure SerializedMessage where
  buf : List Byte
  messageStart : Nat
  numBytes : Nat

/-- roscpp's `serializeMessage` (not in this repository; its documented behaviour): allocates
`length + 4` bytes, writes the length in the first four, sets `message_start` behind them and
`num_bytes` to `length + 4`. Used for serialization_ros.hpp:201-207. -/
def rosSerializeMessage (e : Endian) (body : List Byte) : SerializedMessage :=
  { buf := hostBytes e 4 (BitVec.ofNat 32 body.length) ++ body
    messageStart := 4
    numBytes := body.length + 4 }

/-- serialization_ros.hpp:201-207 `RosMessageSerializationWrapper`: copies the range
`[message_start, message_start + num_bytes)`; reading beyond the allocation is undefined. -/
def rosMessageSerializationWrapper {μ : Type} (e : Endian) (body : μ → List Byte) : Ser μ :=
  fun message buffer =>
    let m := rosSerializeMessage e (body message)
    if m.messageStart + m.numBytes ≤ m.buf.length then
      .ok (m.numBytes, buffer ++ ((m.buf.drop m.messageStart).take m.numBytes))
    else .ub

/-- The same copy on a machine where the four bytes behind the allocation happen to be readable and
hold `beyond`: what the undefined read of `RosMessageSerializationWrapper`
(serialization_ros.hpp:201-207) does in practice. -/
def rosMessageSerializationWrapperReadable {μ : Type} (e : Endian) (body : μ → List Byte)
    (beyond : List Byte) : Ser μ :=
  fun message buffer =>
    let m := rosSerializeMessage e (body message)
    let memory := m.buf ++ beyond
    if m.messageStart + m.numBytes ≤ memory.length then
      .ok (m.numBytes, buffer ++ ((memory.drop m.messageStart).take m.numBytes))
    else .ub

/-- serialization_ros.hpp:209-226 `RosMessageDeserializationWrapper`. `dec` is roscpp's
`deserializeMessage` on a stream over the given bytes and `body` its serializer, whose length is
`serializationLength`. An offset beyond the buffer makes `size_left` wrap, and the allocation of
nearly 2^64 bytes fails. -/
def rosMessageDeserializationWrapper {μ : Type} (body : μ → List Byte)
    (dec : List Byte → Out μ) : Des μ := fun buffer current =>
  if buffer.length < current then .throws .badAlloc
  else do
    let message ← dec (buffer.drop current)
    .ok (message, (body message).length + 4)

end Verif.SerializationRos
