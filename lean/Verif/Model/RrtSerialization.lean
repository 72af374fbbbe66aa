import Verif.Model.Rrt
import Verif.Model.Graph

/-!
# Model of the serialization of RRT states

include/arc_utilities/simple_rrt_planner.hpp:28-41, 59-99.
-/
namespace Verif.Rrt
open Verif Verif.Serialization Verif.Graph

variable {T : Type}

/-- `uint8_t` on the given host, as 1 byte (serialization.hpp:118-130). -/
def pod8 (e : Endian) : Pod (BitVec 8) := podBits e 1 (by decide)

/-- simple_rrt_planner.hpp:28-31, 59-74 `Serialize`, `SerializeSelf` -/
def serializeState (e : Endian) (value : Ser T) : Ser (State T) := fun s buffer => do
  let startBufferSize := buffer.length
  let r1 ← serializeFixedSizePOD (pod8 e) (if s.initialized then 1#8 else 0#8) buffer
  let r2 ← serializeFixedSizePOD (pod64 e) (BitVec.ofInt 64 s.parent) r1.2
  let r3 ← serializeVector e (serializeFixedSizePOD (pod64 e)) (s.children.map (BitVec.ofInt 64)) r2.2
  let r4 ← value s.value r3.2
  .ok (r4.2.length - startBufferSize, r4.2)

/-- simple_rrt_planner.hpp:33-39, 76-99 `Deserialize`, `DeserializeSelf` -/
def deserializeState (e : Endian) (value : Des T) : Des (State T) := fun buffer current => do
  let currentPosition := current
  let i ← deserializeFixedSizePOD (pod8 e) buffer currentPosition
  let currentPosition := currentPosition + i.2
  let p ← deserializeFixedSizePOD (pod64 e) buffer currentPosition
  let currentPosition := currentPosition + p.2
  let c ← deserializeVector e (deserializeFixedSizePOD (pod64 e)) buffer currentPosition
  let currentPosition := currentPosition + c.2
  let v ← value buffer currentPosition
  let currentPosition := currentPosition + v.2
  .ok (⟨v.1, c.1.map BitVec.toInt, BitVec.toInt p.1, decide (i.1 ≠ 0#8)⟩, currentPosition - current)

end Verif.Rrt
