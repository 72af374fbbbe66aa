import Verif.Lemmas.SerializationRos

/-! # C07, C59: ROS messages -/
namespace Verif.SerializationRos
open Verif Verif.Serialization

/-- C07: every message is written field by field in the documented order and read back exactly,
with the same byte count, from any place in any buffer. Strings of fewer than 2^63 characters. -/
theorem C07_messages_roundtrip (e : Endian) :
    (∀ p, HasLayout (serializePoint e) (deserializePoint e) (pointLayout e) p) ∧
    (∀ v, HasLayout (serializeVector3 e) (deserializeVector3 e) (vector3Layout e) v) ∧
    (∀ q, HasLayout (serializeQuaternion e) (deserializeQuaternion e) (quaternionLayout e) q) ∧
    (∀ p, HasLayout (serializePose e) (deserializePose e) (poseLayout e) p) ∧
    (∀ t, HasLayout (serializeTransform e) (deserializeTransform e) (transformLayout e) t) ∧
    (∀ h : Header, h.frameId.length < 2 ^ 63 →
      HasLayout (serializeHeader e) (deserializeHeader e) (headerLayout e) h) ∧
    (∀ p : PoseStamped, p.header.frameId.length < 2 ^ 63 →
      HasLayout (serializePoseStamped e) (deserializePoseStamped e) (poseStampedLayout e) p) ∧
    (∀ t : TransformStamped, t.header.frameId.length < 2 ^ 63 → t.childFrameId.length < 2 ^ 63 →
      HasLayout (serializeTransformStamped e) (deserializeTransformStamped e)
        (transformStampedLayout e) t) :=
  ⟨point_layout e, vector3_layout e, quaternion_layout e, pose_layout e, transform_layout e,
    header_layout e, poseStamped_layout e, transformStamped_layout e⟩

/-- C07: on arbitrary bytes every message deserializer stays in bounds, fails only by assertion or
`length_error`, and rejects truncated messages. -/
theorem C07_arbitrary_buffers (e : Endian) :
    Robust (deserializePoint e) ∧ Robust (deserializeVector3 e) ∧
    Robust (deserializeQuaternion e) ∧ Robust (deserializePose e) ∧
    Robust (deserializeTransform e) ∧ Robust (deserializeHeader e) ∧
    Robust (deserializePoseStamped e) ∧ Robust (deserializeTransformStamped e) :=
  ⟨(good_point e).robust, (good_vector3 e).robust, (good_quaternion e).robust,
    (good_pose e).robust, (good_transform e).robust, (good_header e).robust,
    (good_poseStamped e).robust, (good_transformStamped e).robust⟩

/-- C07: the size of each message on the wire. -/
theorem C07_sizes (e : Endian) :
    (∀ p, (poseLayout e p).length = 56) ∧ (∀ t, (transformLayout e t).length = 56) ∧
    (∀ h, (headerLayout e h).length = 20 + h.frameId.length) ∧
    (∀ p, (poseStampedLayout e p).length = 76 + p.header.frameId.length) ∧
    (∀ t, (transformStampedLayout e t).length =
      84 + t.header.frameId.length + t.childFrameId.length) := by
  have hf : ∀ n x, (field e n x).length = n := by
    intro n x; cases e <;> simp [field, littleEndian_length, bigEndian_length]
  refine ⟨?_, ?_, ?_, ?_, ?_⟩ <;> intro p <;>
    simp only [poseLayout, transformLayout, headerLayout, poseStampedLayout, pointLayout,
      vector3Layout, quaternionLayout, transformStampedLayout, f64, u32, str, hf,
      List.length_append] <;> omega

example : serializeHeader .little ⟨1#32, 2#32, 3#32, [0x61#8]⟩ [9#8] = .ok (21,
    [9#8, 1#8, 0#8, 0#8, 0#8, 2#8, 0#8, 0#8, 0#8, 3#8, 0#8, 0#8, 0#8,
      1#8, 0#8, 0#8, 0#8, 0#8, 0#8, 0#8, 0#8, 0x61#8]) := by decide
example : deserializeHeader .little
    [9#8, 1#8, 0#8, 0#8, 0#8, 2#8, 0#8, 0#8, 0#8, 3#8, 0#8, 0#8, 0#8,
      1#8, 0#8, 0#8, 0#8, 0#8, 0#8, 0#8, 0#8, 0x61#8] 1 =
    .ok (⟨1#32, 2#32, 3#32, [0x61#8]⟩, 21) := by decide

/-! ## The generic message wrapper -/

/-- C59: copying a message through the generic wrapper reads beyond the end of the buffer roscpp
allocated, whatever the message: the behaviour is undefined. -/
theorem C59_wrapper_out_of_bounds {μ : Type} (e : Endian) (body : μ → List Byte) (m : μ)
    (buf : Buf) : rosMessageSerializationWrapper e body m buf = .ub := by
  unfold rosMessageSerializationWrapper
  dsimp only
  rw [if_neg]
  simp only [rosSerializeMessage, List.length_append, hostBytes_length]
  omega

/-- C59, what is left: if the four bytes behind the allocation happen to be readable, the wrapper
appends the message followed by those four bytes and reports their number, and the message is read
back with the same byte count. -/
theorem C59_wrapper_roundtrip_partial {μ : Type} (e : Endian) (body : μ → List Byte)
    (dec : List Byte → Out μ) (hdec : ∀ m suf, dec (body m ++ suf) = .ok m)
    (beyond : List Byte) (hb : beyond.length = 4) (m : μ) :
    Appends (rosMessageSerializationWrapperReadable e body beyond) m (body m ++ beyond) ∧
    ReadsBack (rosMessageDeserializationWrapper body dec) m (body m ++ beyond) := by
  have h4 : (hostBytes e 4 (BitVec.ofNat 32 (body m).length)).length = 4 := hostBytes_length _ _ _
  constructor
  · intro buf
    unfold rosMessageSerializationWrapperReadable
    dsimp only
    rw [if_pos (by simp only [rosSerializeMessage, List.length_append]; omega)]
    simp only [rosSerializeMessage]
    rw [List.append_assoc, List.drop_append_of_le_length (by omega),
      List.drop_eq_nil_of_le (by omega), List.nil_append,
      List.take_of_length_le (by simp; omega)]
    simp [hb]
  · intro pre suf
    simp only [rosMessageDeserializationWrapper]
    rw [if_neg (by simp)]
    rw [List.append_assoc, List.drop_left, List.append_assoc, hdec]
    simp [hb]

/-- The library contract is satisfiable: a one-byte message. -/
example : rosMessageSerializationWrapperReadable .little (fun m : Byte => [m]) [1#8, 2#8, 3#8, 4#8]
    7#8 [] = .ok (5, [7#8, 1#8, 2#8, 3#8, 4#8]) := by decide

end Verif.SerializationRos
