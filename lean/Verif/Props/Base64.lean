import Verif.Lemmas.Base64

/-! # C08-C10: base64 -/
namespace Verif.Base64
open Verif

/-- C08: decoding what was encoded gives the original bytes; neither call has undefined
behaviour. -/
theorem C08_roundtrip (x : List Byte) : ∃ s, encode x = .ok s ∧ decode s = .ok x := by
  refine ⟨Spec.encode x, encode_eq x, ?_⟩
  have hc : ∀ c ∈ Spec.encode x, c.toNat < 128 := by
    obtain ⟨body, h1, h2⟩ := specEncode_chars x
    intro c hcm
    rw [h1] at hcm
    rcases List.mem_append.1 hcm with h | h
    · obtain ⟨i, hi, rfl⟩ := h2 c h
      exact (symbol_props i hi).2.2
    · rw [List.eq_of_mem_replicate h]; decide
  rw [decode_eq _ hc, specDecode_encode]

/-- C09: the encoder computes the RFC 4648 encoding of every byte sequence. -/
theorem C09_rfc4648 (x : List Byte) : encode x = .ok (Spec.encode x) := encode_eq x

/-- C09: the output has 4 characters per started group of 3 bytes, consists of alphabet characters
followed by 0, 1 or 2 `=` according to the length mod 3, and no `=` stands anywhere else. -/
theorem C09_shape (x : List Byte) :
    ∃ body, encode x = .ok (body ++ List.replicate (Spec.padding x.length) Spec.eqSign) ∧
      (body ++ List.replicate (Spec.padding x.length) Spec.eqSign).length
        = 4 * ((x.length + 2) / 3) ∧
      ∀ c ∈ body, (∃ i, i < 64 ∧ c = Spec.symbol i) ∧ c ≠ Spec.eqSign := by
  obtain ⟨body, h1, h2⟩ := specEncode_chars x
  refine ⟨body, by rw [encode_eq, h1], by rw [← h1, specEncode_length], ?_⟩
  intro c hc
  obtain ⟨i, hi, rfl⟩ := h2 c hc
  exact ⟨⟨i, hi, rfl⟩, (symbol_props i hi).2.1⟩

/-- C09: distinct inputs have distinct encodings. -/
theorem C09_injective (x y : List Byte) (h : encode x = encode y) : x = y := by
  obtain ⟨s, hs, hx⟩ := C08_roundtrip x
  obtain ⟨t, ht, hy⟩ := C08_roundtrip y
  rw [hs, ht] at h
  injection h with h
  subst h
  rw [hx] at hy
  injection hy

/-- C10: on every text of 7-bit characters, well formed or not, decoding stays inside the string,
the table and the buffer, and its result is the one the specification gives. -/
theorem C10_decode_ascii (s : List Byte) (h : ∀ c ∈ s, c.toNat < 128) :
    decode s = .ok (Spec.decode s) := decode_eq s h

/-- C10: decoding has undefined behaviour exactly for the texts that contain a character of 128
or above. -/
theorem C10_decode_ub_iff (s : List Byte) : decode s = .ub ↔ ∃ c ∈ s, 128 ≤ c.toNat := by
  constructor
  · intro h
    by_cases hc : ∃ c ∈ s, 128 ≤ c.toNat
    · exact hc
    · have : ∀ c ∈ s, c.toNat < 128 := by
        intro c hcm
        by_cases h : c.toNat < 128
        · exact h
        · exact absurd ⟨c, hcm, by omega⟩ hc
      rw [decode_eq s this] at h
      cases h
  · exact decode_ub s

/-- C10: the length of the decoded data: three bytes per group of four characters, except one or
two bytes for a last group that is short or ends in `=`. -/
theorem C10_decode_length (s : List Byte) :
    (Spec.decode s).length ≤ 3 * ((s.length + 3) / 4) ∧
    3 * ((s.length + 3) / 4) ≤ (Spec.decode s).length + 2 := by
  fun_induction Spec.decode s with
  | case1 => simp
  | case2 => simp
  | case3 => simp
  | case4 => simp
  | case5 => simp
  | case6 => simp
  | case7 => simp
  | case8 => simp
  | case9 a b c d e rest ih => simp at ih ⊢; omega

example : encode [77#8, 97#8] = .ok [84#8, 87#8, 69#8, 61#8] := by
  rw [C09_rfc4648]; decide
example : decode [84#8, 87#8, 69#8, 61#8] = .ok [77#8, 97#8] := by
  rw [C10_decode_ascii _ (by decide)]; decide
/-- A malformed text: one stray character. -/
example : decode [65#8] = .ok [0#8] := by rw [C10_decode_ascii _ (by decide)]; decide
example : decode [65#8, 0xC3#8, 65#8, 65#8] = .ub := by
  rw [C10_decode_ub_iff]; exact ⟨0xC3#8, by decide, by decide⟩

end Verif.Base64
