import Verif.Model.SerializationRos

/-!
# Model of the serialization of joints and robot configurations

include/arc_utilities/simple_linked_robot_model.hpp:28-37, 59-92, 222-234. A `double` is its bit pattern.
-/
namespace Verif.JointSerialization
open Verif Verif.Serialization Verif.SerializationRos

/-- The fields of `SimpleJointModel` as bit patterns (simple_linked_robot_model.hpp:23-25) -/
structure Joint where
  first : BitVec 64
  second : BitVec 64
  value : BitVec 64
  type : BitVec 32
  deriving DecidableEq

/-- simple_linked_robot_model.hpp:28-30, 59-69 `Serialize`, `SerializeSelf` -/
def serialize (e : Endian) : Ser Joint := fun model buffer => do
  let startBufferSize := buffer.length
  let r1 ← serializeFixedSizePOD (podF64 e) model.first buffer
  let r2 ← serializeFixedSizePOD (podF64 e) model.second r1.2
  let r3 ← serializeFixedSizePOD (podF64 e) model.value r2.2
  let r4 ← serializeFixedSizePOD (podU32 e) model.type r3.2
  let endBufferSize := r4.2.length
  .ok (endBufferSize - startBufferSize, r4.2)

/-- simple_linked_robot_model.hpp:32-37, 71-92 `Deserialize`, `DeserializeSelf`. The type is converted to the enumeration
without a check; as its underlying type is fixed to `uint32_t`, every value is representable. -/
def deserialize (e : Endian) : Des Joint := fun buffer current => do
  let currentPosition := current
  let first ← deserializeFixedSizePOD (podF64 e) buffer currentPosition
  let currentPosition := currentPosition + first.2
  let second ← deserializeFixedSizePOD (podF64 e) buffer currentPosition
  let currentPosition := currentPosition + second.2
  let value ← deserializeFixedSizePOD (podF64 e) buffer currentPosition
  let currentPosition := currentPosition + value.2
  let type ← deserializeFixedSizePOD (podU32 e) buffer currentPosition
  let currentPosition := currentPosition + type.2
  .ok (⟨first.1, second.1, value.1, type.1⟩, currentPosition - current)

/-- simple_linked_robot_model.hpp:226-228 `SimpleLinkedConfigSerializer::Serialize` -/
def serializeConfiguration (e : Endian) : Ser (List Joint) := serializeVector e (serialize e)

/-- simple_linked_robot_model.hpp:230-233 `SimpleLinkedConfigSerializer::Deserialize` -/
def deserializeConfiguration (e : Endian) : Des (List Joint) := deserializeVector e (deserialize e)

end Verif.JointSerialization
