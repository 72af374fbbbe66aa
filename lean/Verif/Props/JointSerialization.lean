import Verif.Model.JointSerialization
import Verif.Lemmas.GraphSerialization

/-!
# C96: joints and robot configurations survive serialization
-/
namespace Verif.JointSerialization
open Verif Verif.Serialization Verif.SerializationRos

/-- The bytes of a number in the byte order of the host -/
def ordered (e : Endian) (n x : Nat) : List Byte :=
  match e with
  | .little => littleEndian n x
  | .big => bigEndian n x

/-- The bytes of a joint: lower limit, upper limit, value, type -/
def layout (e : Endian) (j : Joint) : List Byte :=
  ordered e 8 j.first.toNat ++ ordered e 8 j.second.toNat ++ ordered e 8 j.value.toNat ++ ordered e 4 j.type.toNat

theorem ordered_bits (e : Endian) (n : Nat) (h : 0 < n) (x : BitVec (8 * n)) :
    (podBits e n h).toBytes x = ordered e n x.toNat := by
  cases e
  · exact natToBytes_eq n x.toNat
  · exact (congrArg List.reverse (natToBytes_eq n x.toNat)).trans (reverse_littleEndian n x.toNat)

theorem layout_eq (e : Endian) (j : Joint) : layout e j =
    (podF64 e).toBytes j.first ++ (podF64 e).toBytes j.second ++ (podF64 e).toBytes j.value ++ (podU32 e).toBytes j.type := by
  unfold layout podF64 podU32
  rw [ordered_bits e 8 _ j.first, ordered_bits e 8 _ j.second, ordered_bits e 8 _ j.value, ordered_bits e 4 _ j.type]

theorem layout_length (e : Endian) (j : Joint) : (layout e j).length = 28 := by
  unfold layout ordered
  cases e <;> simp [littleEndian_length, bigEndian_length]

/-- C96: a joint is written as 28 bytes, its limits, value and type in the byte order of the host, and read back from them
wherever they stand. -/
theorem C96_joint (e : Endian) (j : Joint) :
    (layout e j).length = 28 ∧ Appends (serialize e) j (layout e j) ∧ ReadsBack (deserialize e) j (layout e j) := by
  refine ⟨layout_length e j, ?_, ?_⟩
  · intro buf
    rw [layout_eq]
    simp only [serialize, serializeFixedSizePOD_appends (podF64 e) _ _, serializeFixedSizePOD_appends (podU32 e) _ _,
      Out.bind_ok]
    simp
  · intro pre suf
    rw [layout_eq]
    have hat := At.intro pre ((podF64 e).toBytes j.first ++ (podF64 e).toBytes j.second ++ (podF64 e).toBytes j.value ++
      (podU32 e).toBytes j.type) suf
    generalize pre ++ ((podF64 e).toBytes j.first ++ (podF64 e).toBytes j.second ++ (podF64 e).toBytes j.value ++
      (podU32 e).toBytes j.type) ++ suf = buf at hat ⊢
    generalize pre.length = pos at hat ⊢
    have h4 := hat.right
    have h3 := hat.left.right
    have h2 := hat.left.left.right
    have h1 := hat.left.left.left
    simp only [List.length_append, ← Nat.add_assoc] at h2 h3 h4
    simp only [deserialize]
    simp only [(deserializeFixedSizePOD_reads (podF64 e) _).at h1, Out.bind_ok,
      (deserializeFixedSizePOD_reads (podF64 e) _).at h2, (deserializeFixedSizePOD_reads (podF64 e) _).at h3,
      (deserializeFixedSizePOD_reads (podU32 e) _).at h4, List.length_append]
    congr 2
    omega

/-- C96: configurations are read back as they were written, joint by joint in order. -/
theorem C96_configuration (e : Endian) (c : List Joint) (h : c.length < 2 ^ 63) :
    let bytes := ordered e 8 c.length ++ (c.map (layout e)).flatten
    Appends (serializeConfiguration e) c bytes ∧ ReadsBack (deserializeConfiguration e) c bytes := by
  have hb : (podU64 e).toBytes (BitVec.ofNat 64 c.length) = ordered e 8 c.length := by
    refine (ordered_bits e 8 (by decide) (BitVec.ofNat 64 c.length)).trans ?_
    exact congrArg (ordered e 8) (ofNat64_toNat h)
  intro bytes
  have e1 := serializeVector_appends e (serialize e) (layout e) c fun j _ => (C96_joint e j).2.1
  have e2 := deserializeVector_reads e (deserialize e) (layout e) c (fun j _ => (C96_joint e j).2.2) h
  simp only [List.flatMap_def, hb] at e1 e2
  exact ⟨e1, e2⟩

/-- C96: a joint is read from any 28 bytes, whatever they are; with fewer left, reading aborts. Nothing else is read and
bytes that were not written by a joint are not noticed. -/
theorem C96_any_bytes (e : Endian) (buf : Buf) (cur : Nat) :
    (cur + 28 ≤ buf.length → ∃ j, deserialize e buf cur = .ok (j, 28)) ∧
    (buf.length < cur + 28 → deserialize e buf cur = .abort) ∧
    SerializationRos.Robust (deserialize e) ∧ SerializationRos.Robust (deserializeConfiguration e) := by
  have pod : ∀ {n : Nat} (h : 0 < n) (cur : Nat), deserializeFixedSizePOD (podBits e n h) buf cur =
      if cur + n ≤ buf.length then .ok (hostOfBytes e n ((buf.drop cur).take n), n) else .abort := by
    intro n h cur
    unfold deserializeFixedSizePOD
    by_cases h1 : cur + n ≤ buf.length
    · rw [if_pos h1, Out.assert_true (by omega), Out.bind_ok, Out.assert_true (show cur + (podBits e n h).size ≤ buf.length from h1)]
      rfl
    · rw [if_neg h1]
      by_cases h2 : cur ≤ buf.length
      · rw [Out.assert_true h2, Out.bind_ok, Out.assert_false (show ¬ cur + (podBits e n h).size ≤ buf.length from h1)]
        rfl
      · rw [Out.assert_false h2]
        rfl
  have good : Good (deserialize e) := by
    have h' := seq2_props (mk := fun (p : (BitVec 64 × BitVec 64) × BitVec 64) w => Joint.mk p.1.1 p.1.2 p.2 w)
      (seq2_props (mk := Prod.mk) (seq2_props (mk := Prod.mk) (good_pod (podF64 e)) (good_pod (podF64 e)))
        (good_pod (podF64 e))) (good_pod (podU32 e))
    refine good_congr h' fun buf cur => ?_
    simp only [seq2, deserialize, out_bind_assoc, Out.bind_ok, ← Nat.add_assoc]
    congr 1; funext a; congr 1; funext b; congr 1; funext c; congr 1; funext d
    congr 2
    omega
  refine ⟨fun h => ?_, fun h => ?_, good.robust, (Graph.good_vector e good).robust⟩
  · unfold deserialize podF64 podU32
    simp only
    rw [pod, if_pos (by omega), Out.bind_ok, pod, if_pos (by simp only; omega), Out.bind_ok, pod,
      if_pos (by simp only; omega), Out.bind_ok, pod, if_pos (by simp only; omega), Out.bind_ok]
    refine ⟨_, congrArg Out.ok (Prod.ext rfl ?_)⟩
    simp only; omega
  · unfold deserialize podF64 podU32
    simp only
    rw [pod]
    split
    · rw [Out.bind_ok, pod]
      split
      · rw [Out.bind_ok, pod]
        split
        · rw [Out.bind_ok, pod, if_neg (by simp only; omega)]
          rfl
        · rfl
      · rfl
    · rfl

/-- The default joint, and one with limits the wrong way round and a type that does not exist, which is read as well -/
example : serialize .little ⟨0, 0, 0, 4⟩ [7] =
    .ok (28, [7] ++ List.replicate 24 0 ++ [4, 0, 0, 0]) := by decide
example : ∃ j, deserialize .little (List.replicate 28 255) 0 = .ok (j, 28) ∧ j.type = 0xFFFFFFFF#32 := by
  exact ⟨⟨_, _, _, _⟩, rfl, rfl⟩

end Verif.JointSerialization
