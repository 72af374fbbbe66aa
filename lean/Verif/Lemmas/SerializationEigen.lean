import Verif.Spec.SerializationEigen
import Verif.Lemmas.SerializationRos

/-! # Helper lemmas for Eigen serialization -/
namespace Verif.SerializationEigen
open Verif Verif.Serialization Verif.SerializationRos

theorem flatMap_length {α : Type} (P : Pod α) (l : List α) :
    (l.flatMap P.toBytes).length = l.length * P.size := by
  induction l with
  | nil => simp
  | cons x l ih => simp [List.flatMap_cons, P.length_toBytes, ih, Nat.succ_mul, Nat.add_comm]

theorem field_length (e : Endian) (n x : Nat) : (field e n x).length = n := by
  cases e <;> simp [field, littleEndian_length, bigEndian_length]

theorem hostBytes_nat (e : Endian) (x : Nat) (h : x < 2 ^ 63) :
    hostBytes e 8 (BitVec.ofNat 64 x) = field e 8 x := by
  have := hostBytes_field e 8 (BitVec.ofNat 64 x)
  rw [ofNat64_toNat h] at this
  exact this

theorem serializeEigen_appends {α : Type} (e : Endian) (P : Pod α) (R C : Dim) (m : Mat α)
    (hr : R = .dynamic → m.rows < 2 ^ 63) (hc : C = .dynamic → m.cols < 2 ^ 63) :
    Appends (serializeEigen e P R C) m (layout e P R C m) := by
  intro buf
  have hd := flatMap_length P m.data
  by_cases h1 : R = .dynamic <;> by_cases h2 : C = .dynamic <;>
    simp only [serializeEigen, serializedSizeEigen, layout, rawData, h1, h2, if_true, if_false,
      List.nil_append, List.length_append, List.length_nil, hd, Nat.add_sub_cancel_left,
      Nat.zero_add, Nat.sub_zero, Nat.le_refl, hostBytes_nat e _ (hr _), hostBytes_nat e _ (hc _),
      field_length] <;>
    (try rw [List.take_of_length_le (by omega)]) <;>
    (try simp only [hostBytes_nat e _ (hr h1)]) <;> (try simp only [hostBytes_nat e _ (hc h2)]) <;>
    simp [Nat.add_comm] <;> omega

theorem readScalars_at {α : Type} (P : Pod α) (l : List α) {buf : Buf} {pos : Nat}
    (h : At buf pos (l.flatMap P.toBytes)) : readScalars P buf l.length pos = l := by
  induction l generalizing pos with
  | nil => rfl
  | cons x l ih =>
    rw [List.flatMap_cons] at h
    have h1 := h.left
    have h2 := h.right
    rw [P.length_toBytes] at h2
    simp only [List.length_cons, readScalars, ih h2]
    obtain ⟨pre, suf, rfl, rfl⟩ := h1
    rw [List.append_assoc, List.drop_left]
    have := P.length_toBytes x
    rw [← this, List.take_left, P.ofBytes_toBytes]

theorem At.bound {buf : Buf} {pos : Nat} {b : List Byte} (h : At buf pos b) :
    pos + b.length ≤ buf.length := by
  obtain ⟨pre, suf, rfl, rfl⟩ := h
  simp <;> omega

theorem header_at (e : Endian) (x : Nat) (hx : x < 2 ^ 63) {buf : Buf} {pos : Nat}
    (h : At buf pos (field e 8 x)) : header e buf pos = x := by
  obtain ⟨pre, suf, rfl, rfl⟩ := h
  have h8 := field_length e 8 x
  rw [header, List.append_assoc, List.drop_left]
  have : List.take 8 (field e 8 x ++ suf) = field e 8 x := by
    conv => lhs; rw [← h8]
    rw [h8, List.take_append_of_le_length (by omega), List.take_of_length_le (by omega)]
  rw [this, ← hostBytes_nat e x hx]
  rw [hostOfBytes_hostBytes e 8 (BitVec.ofNat 64 x)]
  exact ofNat64_toNat hx

theorem readScalars_suffix {α : Type} (P : Pod α) (buf suf : Buf) (n pos : Nat)
    (h : pos + n * P.size ≤ buf.length) :
    readScalars P (buf ++ suf) n pos = readScalars P buf n pos := by
  induction n generalizing pos with
  | zero => rfl
  | succ n ih =>
    rw [Nat.succ_mul] at h
    simp only [readScalars]
    rw [ih _ (by omega), List.drop_append_of_le_length (by omega),
      List.take_append_of_le_length (by simp; omega)]

theorem header_suffix (e : Endian) (buf suf : Buf) (pos : Nat) (h : pos + 8 ≤ buf.length) :
    header e (buf ++ suf) pos = header e buf pos := by
  rw [header, header, List.drop_append_of_le_length (by omega),
      List.take_append_of_le_length (by simp; omega)]

theorem allocate_eq_ok {α : Type} (P : Pod α) (r c : Nat) :
    allocate P r c = .ok () ↔ (r < 2 ^ 63 ∧ c < 2 ^ 63) ∧ r * c * P.size < 2 ^ 63 := by
  simp only [allocate, Out.bind_eq_ok, Out.assert_eq_ok]
  constructor
  · rintro ⟨_, h1, h2⟩
    refine ⟨h1, ?_⟩
    split at h2
    · assumption
    · cases h2
  · rintro ⟨h1, h2⟩
    exact ⟨(), h1, if_pos h2⟩

theorem eigenFails_bind {α β : Type} {x : Out α} {f : α → Out β}
    (hx : x = .abort ∨ x = .throws .badAlloc ∨ ∃ r, x = .ok r)
    (h : ∀ a, f a = .abort ∨ f a = .throws .badAlloc ∨ ∃ r, f a = .ok r) :
    (x >>= f) = .abort ∨ (x >>= f) = .throws .badAlloc ∨ ∃ r, (x >>= f) = .ok r := by
  rcases hx with hx | hx | ⟨r, hx⟩ <;> rw [hx]
  · exact Or.inl rfl
  · exact Or.inr (Or.inl rfl)
  · exact h r

theorem eigenFails_assert (c : Prop) [Decidable c] :
    Out.assert c = .abort ∨ Out.assert c = .throws .badAlloc ∨ ∃ r, Out.assert c = .ok r := by
  by_cases h : c
  · rw [Out.assert_true h]; exact Or.inr (Or.inr ⟨_, rfl⟩)
  · rw [Out.assert_false h]; exact Or.inl rfl

theorem eigenFails_allocate {α : Type} (P : Pod α) (r c : Nat) :
    allocate P r c = .abort ∨ allocate P r c = .throws .badAlloc ∨ ∃ x, allocate P r c = .ok x := by
  refine eigenFails_bind (eigenFails_assert _) (fun _ => ?_)
  split <;> simp

theorem unit_eq {x : Out Unit} {r : Unit} (h : x = .ok r) : x = .ok () := h

end Verif.SerializationEigen
