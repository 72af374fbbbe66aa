import Verif.Model.SerializationSelf
import Verif.Props.Serialization

/-! # Property C169: a byte buffer serialized into itself -/
namespace Verif.Serialization
open Verif

theorem ownItems_drop {own : Nat → Buf → Out (Nat × Buf)} {item : Ser Byte} (enc : Byte → List Byte)
    (ho : ∀ idx b x, b[idx]? = some x → own idx b = item x b) (hi : ∀ x, Appends item x (enc x)) :
    ∀ (n idx : Nat) (b : Buf) (xs : List Byte), xs.length = n → (b.drop idx).take n = xs →
      ownItems own n idx b = .ok (b ++ xs.flatMap enc)
  | 0, idx, b, xs, hl, _ => by
    have : xs = [] := List.eq_nil_of_length_eq_zero hl
    subst this
    simp [ownItems]
  | n + 1, idx, b, [], hl, _ => by simp at hl
  | n + 1, idx, b, x :: xs, hl, hx => by
    have h0 : b[idx]? = some x := by
      have := congrArg (fun l => l[0]?) hx
      simpa [List.getElem?_take, List.getElem?_drop] using this
    have hlen : idx + (n + 1) ≤ b.length := by
      have := congrArg List.length hx
      simp at this hl
      omega
    have h1 : ((b ++ enc x).drop (idx + 1)).take n = xs := by
      rw [List.drop_append_of_le_length (by omega), List.take_append_of_le_length (by simp; omega)]
      have := congrArg (fun l => l.drop 1) hx
      simpa [List.drop_take, List.drop_drop] using this
    unfold ownItems
    rw [ho idx b x h0, hi x b]
    show ownItems own n (idx + 1) (b ++ enc x) = _
    rw [ownItems_drop enc ho hi n (idx + 1) (b ++ enc x) xs (by simpa using hl) h1]
    simp

theorem hostBytes_single (e : Endian) (x : Byte) : hostBytes e 1 x = [x] := by
  cases e <;> simp [hostBytes, natToBytes]

theorem bigEndian_one (x : Byte) : bigEndian 1 x.toNat = [x] := by
  simp [bigEndian]

/-- C169: serializing a buffer into itself appends what serializing a separate copy of it would: its old length and its
old bytes. What was in it stays in front, and reading back at the old end returns the old contents. -/
theorem C169_self (e : Endian) (b : Buf) (hl : b.length < 2 ^ 63) :
    serializeSelf e b = .ok (8 + b.length, b ++ hostBytes e 8 (BitVec.ofNat 64 b.length) ++ b) ∧
    serializeSelf e b = serializeVector e (serializeFixedSizePOD (podBits e 1 (by decide))) b b ∧
    ∀ n b', serializeSelf e b = .ok (n, b') →
      deserializeVector e (deserializeFixedSizePOD (podBits e 1 (by decide))) b' b.length = .ok (b, n) := by
  have hn : (BitVec.ofNat 64 b.length).toNat = b.length := ofNat64_toNat hl
  have hb : ∀ x : Byte, Appends (serializeFixedSizePOD (podBits e 1 (by decide))) x [x] := by
    intro x
    have := serializeFixedSizePOD_appends (podBits e 1 (by decide)) x
    rwa [show (podBits e 1 (by decide)).toBytes x = [x] from hostBytes_single e x] at this
  have hv := C02_vector_layout e (serializeFixedSizePOD (podBits e 1 (by decide))) (fun x => [x]) hb b b
  have h1 : serializeSelf e b = .ok (8 + b.length, b ++ hostBytes e 8 (BitVec.ofNat 64 b.length) ++ b) := by
    unfold serializeSelf
    dsimp only
    rw [serializeFixedSizePOD_appends (podU64 e) _ b]
    have := ownItems_drop (own := serializeOwnByte e) (fun x => [x])
      (fun idx b x h => by simp only [serializeOwnByte, h]) hb b.length 0
      (b ++ (podU64 e).toBytes (BitVec.ofNat 64 b.length)) b rfl (by simp)
    simp only [Out.bind_ok, hn, this]
    simp [podU64, podBits, hostBytes_length]
  refine ⟨h1, ?_, ?_⟩
  · rw [h1, hv]
    simp [hostBytes_length]
  · intro n b' h
    obtain ⟨bytes, _, ha, hr⟩ := C02_vector_roundtrip e _ _ (fun _ => True)
      (C02_nested_roundtrip e (.pod (podBits e 1 (by decide)))) b ⟨hl, fun _ _ => trivial⟩
    have h2 := ha b
    rw [hv] at h2
    rw [h1] at h
    injection h with h
    injection h with hx hy
    injection h2 with h2
    injection h2 with h3 h4
    have h5 : hostBytes e 8 (BitVec.ofNat 64 b.length) ++ b = bytes := by
      simpa using h4
    have := hr b []
    rw [List.append_nil, ← h5, ← List.append_assoc, hy] at this
    rw [this]
    simp [hostBytes_length, ← hx]

/-- C169, the network byte order: the length in 8 bytes, most significant first, then the old bytes. -/
theorem C169_network_self (e : Endian) (b : Buf) (hl : b.length < 2 ^ 63) :
    serializeNetworkSelf e b = .ok (8 + b.length, b ++ bigEndian 8 b.length ++ b) ∧
    serializeNetworkSelf e b = serializeNetworkVector e (serializeNetworkFixedSizePOD e .s1) b b := by
  have hn : (BitVec.ofNat 64 b.length).toNat = b.length := ofNat64_toNat hl
  have hb : ∀ x : Byte, Appends (serializeNetworkFixedSizePOD e .s1) x [x] := by
    intro x
    have := C05_big_endian e .s1 x
    have h1 : bigEndian NetSize.s1.bytes (BitVec.toNat x) = [x] := bigEndian_one x
    intro b
    exact (this b).trans (by rw [← h1]; rfl)
  have hv := C05_vector_layout e (serializeNetworkFixedSizePOD e .s1) (fun x => [x]) hb b hl b
  have h1 : serializeNetworkSelf e b = .ok (8 + b.length, b ++ bigEndian 8 b.length ++ b) := by
    unfold serializeNetworkSelf
    dsimp only
    have h8 : serializeNetworkU64 e (BitVec.ofNat 64 b.length) b =
        .ok ((bigEndian 8 b.length).length, b ++ bigEndian 8 b.length) := by
      refine (C05_big_endian e .s8 (BitVec.ofNat 64 b.length) b).trans ?_
      show Out.ok ((bigEndian 8 (BitVec.ofNat 64 b.length).toNat).length, b ++ bigEndian 8 (BitVec.ofNat 64 b.length).toNat) = _
      rw [hn]
    rw [h8]
    have := ownItems_drop (own := serializeNetworkOwnByte e) (fun x => [x])
      (fun idx b x h => by simp only [serializeNetworkOwnByte, h]) hb b.length 0 (b ++ bigEndian 8 b.length) b rfl (by simp)
    simp only [Out.bind_ok, hn, this]
    simp [bigEndian_length]
  refine ⟨h1, ?_⟩
  rw [h1, hv]
  have hf : ∀ l : List Byte, l.flatMap (fun x => [x]) = l := by
    intro l
    induction l with
    | nil => rfl
    | cons x l ih => rw [List.flatMap_cons, ih]; rfl
  have hf' := hf b
  refine congrArg Out.ok ?_
  show _ = ((bigEndian 8 b.length ++ b.flatMap (fun x : Byte => [x])).length,
    b ++ (bigEndian 8 b.length ++ b.flatMap (fun x : Byte => [x])))
  rw [hf']
  simp [bigEndian_length]

example : serializeSelf .little [7#8, 9#8] =
    .ok (10, [7#8, 9#8, 2#8, 0#8, 0#8, 0#8, 0#8, 0#8, 0#8, 0#8, 7#8, 9#8]) := by decide

end Verif.Serialization
