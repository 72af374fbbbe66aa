import Verif.Spec.Serialization

/-! # Helper lemmas for serialization -/
namespace Verif.Serialization
open Verif

theorem natToBytes_eq (n x : Nat) : natToBytes n x = littleEndian n x := by
  induction n generalizing x with
  | zero => rfl
  | succ n ih =>
    simp only [natToBytes, ih, littleEndian, List.range_succ_eq_map, List.map_cons, List.map_map]
    congr 1
    · simp
    · apply List.map_congr_left
      intro i _
      simp [Nat.div_div_eq_div_mul, Nat.pow_succ, Nat.mul_comm]

theorem reverse_littleEndian (n x : Nat) : (littleEndian n x).reverse = bigEndian n x := by
  apply List.ext_getElem
  · simp [littleEndian, bigEndian]
  · intro i h1 h2
    simp [littleEndian, bigEndian]

theorem littleEndian_length (n x : Nat) : (littleEndian n x).length = n := by simp [littleEndian]
theorem bigEndian_length (n x : Nat) : (bigEndian n x).length = n := by simp [bigEndian]

/-! ## generic -/

/-- Encoding with a fixed serialized form. -/
structure Codec {α : Type} (ser : Ser α) (des : Des α) (a : α) (bytes : List Byte) : Prop where
  app : Appends ser a bytes
  rd : ReadsBack des a bytes
  ne : bytes ≠ []

theorem serializeFixedSizePOD_appends {α : Type} (P : Pod α) (a : α) :
    Appends (serializeFixedSizePOD P) a (P.toBytes a) := by
  intro buf
  simp [serializeFixedSizePOD]

theorem deserializeFixedSizePOD_reads {α : Type} (P : Pod α) (a : α) :
    ReadsBack (deserializeFixedSizePOD P) a (P.toBytes a) := by
  intro pre suf
  have h := P.length_toBytes a
  simp only [deserializeFixedSizePOD]
  rw [Out.assert_true (by simp), Out.assert_true (by simp [h])]
  simp [h, P.ofBytes_toBytes]

theorem serializeItems_append {α : Type} (ser : Ser α) (enc : α → List Byte) (xs : List α)
    (h : ∀ x ∈ xs, Appends ser x (enc x)) (buf : Buf) :
    serializeItems ser xs buf = .ok (buf ++ xs.flatMap enc) := by
  induction xs generalizing buf with
  | nil => simp [serializeItems]
  | cons x xs ih =>
    simp only [serializeItems, h x (by simp) buf, Out.bind_ok]
    rw [ih (fun y hy => h y (by simp [hy]))]
    simp

theorem deserializeItems_reads {α : Type} (des : Des α) (enc : α → List Byte) (xs : List α)
    (h : ∀ x ∈ xs, ReadsBack des x (enc x)) (pre suf : Buf) (acc : List α) :
    deserializeItems des (pre ++ xs.flatMap enc ++ suf) xs.length pre.length acc =
      .ok (acc ++ xs, (pre ++ xs.flatMap enc).length) := by
  induction xs generalizing pre acc with
  | nil => simp [deserializeItems]
  | cons x xs ih =>
    have h1 := h x (by simp) pre (xs.flatMap enc ++ suf)
    simp only [List.length_cons, deserializeItems, List.flatMap_cons]
    have e1 : pre ++ (enc x ++ xs.flatMap enc) ++ suf = pre ++ enc x ++ (xs.flatMap enc ++ suf) := by
      simp
    rw [e1, h1]
    have h2 := ih (fun y hy => h y (by simp [hy])) (pre ++ enc x) (acc ++ [x])
    have e2 : pre ++ enc x ++ (xs.flatMap enc ++ suf) = pre ++ enc x ++ xs.flatMap enc ++ suf := by
      simp
    simp only [Out.bind_ok]
    rw [e2, ← List.length_append, h2]
    simp

/-- Reading items after any prefix, with the total buffer given up to associativity. -/
theorem deserializeItems_reads' {α : Type} (des : Des α) (enc : α → List Byte) (xs : List α)
    (h : ∀ x ∈ xs, ReadsBack des x (enc x)) (pre suf total : Buf) (acc : List α) (n pos : Nat)
    (ht : total = pre ++ xs.flatMap enc ++ suf) (hn : n = xs.length) (hp : pos = pre.length) :
    deserializeItems des total n pos acc =
      .ok (acc ++ xs, (pre ++ xs.flatMap enc).length) := by
  subst ht hn hp; exact deserializeItems_reads des enc xs h pre suf acc

/-- Header written before a container: host or network order. -/
def vecBytes {α : Type} (hdr : Nat → List Byte) (enc : α → List Byte) (xs : List α) : List Byte :=
  hdr xs.length ++ xs.flatMap enc

theorem ofNat64_toNat {n : Nat} (h : n < 2 ^ 63) : (BitVec.ofNat 64 n).toNat = n := by
  simp <;> omega

theorem serializeVector_appends {α : Type} (e : Endian) (ser : Ser α) (enc : α → List Byte)
    (xs : List α) (h : ∀ x ∈ xs, Appends ser x (enc x)) :
    Appends (serializeVector e ser) xs
      ((podU64 e).toBytes (BitVec.ofNat 64 xs.length) ++ xs.flatMap enc) := by
  intro buf
  simp only [serializeVector]
  rw [serializeFixedSizePOD_appends (podU64 e)]
  simp only [Out.bind_ok, serializeItems_append ser enc xs h]
  simp

theorem deserializeVector_reads {α : Type} (e : Endian) (des : Des α) (enc : α → List Byte)
    (xs : List α) (h : ∀ x ∈ xs, ReadsBack des x (enc x)) (hl : xs.length < 2 ^ 63) :
    ReadsBack (deserializeVector e des) xs
      ((podU64 e).toBytes (BitVec.ofNat 64 xs.length) ++ xs.flatMap enc) := by
  intro pre suf
  have hh := (podU64 e).length_toBytes (BitVec.ofNat 64 xs.length)
  have hs : (podU64 e).size = 8 := rfl
  simp only [deserializeVector]
  rw [Out.assert_true (by simp <;> omega)]
  have e1 : pre ++ ((podU64 e).toBytes (BitVec.ofNat 64 xs.length) ++ xs.flatMap enc) ++ suf
      = pre ++ (podU64 e).toBytes (BitVec.ofNat 64 xs.length) ++ (xs.flatMap enc ++ suf) := by simp
  rw [e1, deserializeFixedSizePOD_reads (podU64 e)]
  simp only [Out.bind_ok, ofNat64_toNat hl, reserve, if_pos hl]
  rw [deserializeItems_reads' des enc xs h (pre ++ (podU64 e).toBytes (BitVec.ofNat 64 xs.length)) suf
    _ _ _ _ (by simp) rfl (by simp)]
  simp <;> omega

theorem serializePair_appends {α β : Type} (s1 : Ser α) (s2 : Ser β) (p : α × β)
    (b1 b2 : List Byte) (h1 : Appends s1 p.1 b1) (h2 : Appends s2 p.2 b2) :
    Appends (serializePair s1 s2) p (b1 ++ b2) := by
  intro buf
  simp only [serializePair, h1 buf, Out.bind_ok, h2 (buf ++ b1)]
  rw [Out.assert_true (by simp <;> omega)]
  simp <;> omega

theorem deserializePair_reads {α β : Type} (d1 : Des α) (d2 : Des β) (p : α × β)
    (b1 b2 : List Byte) (h1 : ReadsBack d1 p.1 b1) (h2 : ReadsBack d2 p.2 b2)
    (hne : b1 ++ b2 ≠ []) :
    ReadsBack (deserializePair d1 d2) p (b1 ++ b2) := by
  intro pre suf
  have hl : 0 < (b1 ++ b2).length := List.length_pos_iff.2 hne
  simp only [deserializePair]
  rw [Out.assert_true (by simp at *; omega)]
  have e1 : pre ++ (b1 ++ b2) ++ suf = pre ++ b1 ++ (b2 ++ suf) := by simp
  have e2 : pre ++ b1 ++ (b2 ++ suf) = (pre ++ b1) ++ b2 ++ suf := by simp
  rw [e1, h1]
  simp only [Out.bind_ok]
  rw [e2, ← List.length_append, h2]
  simp <;> omega

/-! ## maps -/

theorem mapInsert_last {κ ν : Type} (lt : κ → κ → Bool) (k : κ) (v : ν) (m : List (κ × ν))
    (hasym : ∀ a b, lt a b = true → lt b a = false) (h : ∀ p ∈ m, lt p.1 k = true) :
    mapInsert lt k v m = m ++ [(k, v)] := by
  induction m with
  | nil => rfl
  | cons p m ih =>
    obtain ⟨k', v'⟩ := p
    have h1 : lt k' k = true := h (k', v') (by simp)
    have h2 : lt k k' = false := hasym _ _ h1
    simp [mapInsert, h1, h2, ih (fun q hq => h q (by simp [hq]))]

theorem deserializeMapItems_reads {κ ν : Type} (lt : κ → κ → Bool) (des : Des (κ × ν))
    (enc : κ × ν → List Byte) (hasym : ∀ a b, lt a b = true → lt b a = false)
    (xs acc : List (κ × ν)) (h : ∀ x ∈ xs, ReadsBack des x (enc x))
    (hs : KeySorted lt (acc ++ xs)) (pre suf : Buf) :
    deserializeMapItems lt des (pre ++ xs.flatMap enc ++ suf) xs.length pre.length acc =
      .ok (acc ++ xs, (pre ++ xs.flatMap enc).length) := by
  induction xs generalizing pre acc with
  | nil => simp [deserializeMapItems]
  | cons x xs ih =>
    have h1 := h x (by simp) pre (xs.flatMap enc ++ suf)
    simp only [List.length_cons, deserializeMapItems, List.flatMap_cons]
    have e1 : pre ++ (enc x ++ xs.flatMap enc) ++ suf = pre ++ enc x ++ (xs.flatMap enc ++ suf) := by
      simp
    rw [e1, h1]
    have hlast : mapInsert lt x.1 x.2 acc = acc ++ [x] := by
      apply mapInsert_last lt x.1 x.2 acc hasym
      intro p hp
      have := List.pairwise_append.1 hs
      exact this.2.2 p hp x (by simp)
    have h2 := ih (acc ++ [x]) (fun y hy => h y (by simp [hy])) (by simpa using hs) (pre ++ enc x)
    have e2 : pre ++ enc x ++ (xs.flatMap enc ++ suf) = pre ++ enc x ++ xs.flatMap enc ++ suf := by
      simp
    simp only [Out.bind_ok, hlast]
    rw [e2, ← List.length_append, h2]
    simp

theorem deserializeMapItems_reads' {κ ν : Type} (lt : κ → κ → Bool) (des : Des (κ × ν))
    (enc : κ × ν → List Byte) (hasym : ∀ a b, lt a b = true → lt b a = false)
    (xs : List (κ × ν)) (h : ∀ x ∈ xs, ReadsBack des x (enc x))
    (hs : KeySorted lt xs) (pre suf total : Buf) (n pos : Nat)
    (ht : total = pre ++ xs.flatMap enc ++ suf) (hn : n = xs.length) (hp : pos = pre.length) :
    deserializeMapItems lt des total n pos [] =
      .ok (xs, (pre ++ xs.flatMap enc).length) := by
  subst ht hn hp
  have := deserializeMapItems_reads lt des enc hasym xs [] h (by simpa using hs) pre suf
  simpa using this

theorem serializeMap_appends {κ ν : Type} (e : Endian) (sk : Ser κ) (sv : Ser ν)
    (ek : κ → List Byte) (ev : ν → List Byte) (m : List (κ × ν))
    (hk : ∀ p ∈ m, Appends sk p.1 (ek p.1)) (hv : ∀ p ∈ m, Appends sv p.2 (ev p.2)) :
    Appends (serializeMap e sk sv) m
      ((podU64 e).toBytes (BitVec.ofNat 64 m.length) ++ m.flatMap (fun p => ek p.1 ++ ev p.2)) := by
  intro buf
  simp only [serializeMap]
  rw [serializeFixedSizePOD_appends (podU64 e)]
  simp only [Out.bind_ok]
  rw [serializeItems_append (serializePair sk sv) (fun p => ek p.1 ++ ev p.2) m
    (fun p hp => serializePair_appends sk sv p _ _ (hk p hp) (hv p hp))]
  simp

theorem deserializeMap_reads {κ ν : Type} (e : Endian) (lt : κ → κ → Bool) (dk : Des κ) (dv : Des ν)
    (ek : κ → List Byte) (ev : ν → List Byte) (hasym : ∀ a b, lt a b = true → lt b a = false)
    (m : List (κ × ν)) (hs : KeySorted lt m) (hl : m.length < 2 ^ 64)
    (hk : ∀ p ∈ m, ReadsBack dk p.1 (ek p.1)) (hv : ∀ p ∈ m, ReadsBack dv p.2 (ev p.2))
    (hne : ∀ p ∈ m, ek p.1 ++ ev p.2 ≠ []) :
    ReadsBack (deserializeMap e lt dk dv) m
      ((podU64 e).toBytes (BitVec.ofNat 64 m.length) ++ m.flatMap (fun p => ek p.1 ++ ev p.2)) := by
  intro pre suf
  have hh := (podU64 e).length_toBytes (BitVec.ofNat 64 m.length)
  have hs8 : (podU64 e).size = 8 := rfl
  simp only [deserializeMap]
  rw [Out.assert_true (by simp <;> omega)]
  have e1 : pre ++ ((podU64 e).toBytes (BitVec.ofNat 64 m.length) ++
        m.flatMap (fun p => ek p.1 ++ ev p.2)) ++ suf
      = pre ++ (podU64 e).toBytes (BitVec.ofNat 64 m.length) ++
        (m.flatMap (fun p => ek p.1 ++ ev p.2) ++ suf) := by simp
  rw [e1, deserializeFixedSizePOD_reads (podU64 e)]
  have hn : (BitVec.ofNat 64 m.length).toNat = m.length := by simp <;> omega
  simp only [Out.bind_ok, hn]
  rw [deserializeMapItems_reads' lt (deserializePair dk dv) (fun p => ek p.1 ++ ev p.2) hasym m
    (fun p hp => deserializePair_reads dk dv p _ _ (hk p hp) (hv p hp) (hne p hp)) hs
    (pre ++ (podU64 e).toBytes (BitVec.ofNat 64 m.length)) suf _ _ _ (by simp) rfl (by simp)]
  simp <;> omega

theorem mapInsert_sorted {κ ν : Type} {lt : κ → κ → Bool} (ht : StrictTotal lt) (k : κ) (v : ν)
    (m : List (κ × ν)) (hs : KeySorted lt m) :
    KeySorted lt (mapInsert lt k v m) ∧
      ∀ q ∈ mapInsert lt k v m, q ∈ m ∨ q = (k, v) := by
  induction m with
  | nil => simp [mapInsert, KeySorted]
  | cons p m ih =>
    obtain ⟨k', v'⟩ := p
    have hs' := List.pairwise_cons.1 hs
    obtain ⟨ih1, ih2⟩ := ih hs'.2
    simp only [mapInsert]
    split
    · rename_i h1
      refine ⟨List.pairwise_cons.2 ⟨?_, hs⟩, by simp; grind⟩
      intro q hq
      rcases List.mem_cons.1 hq with rfl | hq
      · exact h1
      · exact ht.trans _ _ _ h1 (hs'.1 q hq)
    · rename_i h1
      split
      · rename_i h2
        refine ⟨List.pairwise_cons.2 ⟨?_, ih1⟩, ?_⟩
        · intro q hq
          rcases ih2 q hq with hq | rfl
          · exact hs'.1 q hq
          · exact h2
        · intro q hq
          rcases List.mem_cons.1 hq with rfl | hq
          · simp
          · rcases ih2 q hq with hq | rfl <;> simp [*]
      · exact ⟨hs, fun q hq => Or.inl hq⟩

theorem findKey_mapInsert {κ ν : Type} {lt : κ → κ → Bool} (ht : StrictTotal lt) (k k0 : κ) (v : ν)
    (m : List (κ × ν)) (hs : KeySorted lt m) :
    findKey lt k0 (mapInsert lt k v m) =
      (findKey lt k0 m).or (if (!lt k k0 && !lt k0 k) = true then some v else none) := by
  have irr : ∀ a, lt a a = false := by
    intro a
    cases h : lt a a
    · rfl
    · exact absurd (ht.asymm _ _ h) (by simp [h])
  induction m with
  | nil =>
    simp only [findKey, mapInsert, List.find?_cons, List.find?_nil]
    split <;> simp_all
  | cons p m ih =>
    obtain ⟨k', v'⟩ := p
    have hs' := List.pairwise_cons.1 hs
    have ih := ih hs'.2
    simp only [mapInsert]
    simp only [findKey] at ih ⊢
    split
    · rename_i h1
      simp only [List.find?_cons]
      by_cases hk : (!lt k k0 && !lt k0 k) = true
      · have : k = k0 := by simp at hk; exact ht.total _ _ hk.1 hk.2
        subst this
        have hnone : List.find? (fun p => !lt p.1 k && !lt k p.1) m = none := by
          rw [List.find?_eq_none]
          intro q hq
          have := ht.trans _ _ _ h1 (hs'.1 q hq)
          simp [this]
        simp [h1, irr, hnone]
      · have hf : (!lt k k0 && !lt k0 k) = false := by simpa using hk
        simp [hf]
    · rename_i h1
      split
      · rename_i h2
        simp only [List.find?_cons]
        split
        · simp
        · exact ih
      · rename_i h2
        have : k = k' := ht.total _ _ (by simpa using h1) (by simpa using h2)
        subst this
        simp only [List.find?_cons]
        split
        · simp
        · rename_i h3
          simp [h3]

/-! ## network -/

theorem byteSwap_toBytes (n : Nat) (x : BitVec (8 * n)) :
    natToBytes n (byteSwap n x).toNat = (natToBytes n x.toNat).reverse := by
  have key : ∀ (l : List Byte), natToBytes l.length (bytesToNat l) = l ∧
      bytesToNat l < 2 ^ (8 * l.length) := by
    intro l
    induction l with
    | nil => simp [natToBytes, bytesToNat]
    | cons b l ih =>
      have hb := b.isLt
      have h2 : 2 ^ (8 * (l.length + 1)) = 256 * 2 ^ (8 * l.length) := by
        rw [show 8 * (l.length + 1) = 8 * l.length + 8 by omega, Nat.pow_add]; omega
      refine ⟨?_, ?_⟩
      · simp only [List.length_cons, natToBytes, bytesToNat]
        have e1 : (b.toNat + 256 * bytesToNat l) / 256 = bytesToNat l := by omega
        rw [e1, ih.1]
        congr 1
        apply BitVec.eq_of_toNat_eq
        simp <;> omega
      · simp only [List.length_cons, bytesToNat, h2]
        omega
  have hl : (natToBytes n x.toNat).reverse.length = n := by simp [natToBytes_length]
  have k := key (natToBytes n x.toNat).reverse
  rw [hl] at k
  rw [byteSwap, BitVec.toNat_ofNat, Nat.mod_eq_of_lt k.2, k.1]

theorem bytesToNat_reverse_hostBytes (n : Nat) (x : BitVec (8 * n)) :
    bytesToNat (natToBytes n x.toNat) = x.toNat := bytesToNat_natToBytes _ _ x.isLt

theorem hostBytes_htobe (e : Endian) (n : Nat) (x : BitVec (8 * n)) :
    hostBytes e n (htobe e n x) = bigEndian n x.toNat := by
  cases e
  · simp only [hostBytes, htobe, byteSwap_toBytes]
    rw [natToBytes_eq, reverse_littleEndian]
  · simp [hostBytes, htobe, natToBytes_eq, reverse_littleEndian]

theorem betoh_hostOfBytes (e : Endian) (n : Nat) (x : BitVec (8 * n)) :
    betoh e n (hostOfBytes e n (bigEndian n x.toNat)) = x := by
  rw [← hostBytes_htobe e, hostOfBytes_hostBytes]
  cases e
  · simp only [betoh, htobe]
    apply BitVec.eq_of_toNat_eq
    have h1 := byteSwap_toBytes n (byteSwap n x)
    rw [byteSwap_toBytes n x, List.reverse_reverse] at h1
    rw [← bytesToNat_natToBytes n _ (byteSwap n (byteSwap n x)).isLt, h1,
      bytesToNat_natToBytes n _ x.isLt]
  · rfl

theorem hostBytes_one (e : Endian) (x : BitVec (8 * 1)) :
    hostBytes e 1 x = bigEndian 1 x.toNat := by
  cases e <;> simp [hostBytes, natToBytes, bigEndian]

theorem networkBytes_eq (e : Endian) (s : NetSize) (x : BitVec (8 * s.bytes)) :
    networkBytes e s x = bigEndian s.bytes x.toNat := by
  cases s
  · exact hostBytes_one e x
  · exact hostBytes_htobe e 2 x
  · exact hostBytes_htobe e 4 x
  · exact hostBytes_htobe e 8 x

theorem hostOfBytes_one (e : Endian) (x : BitVec (8 * 1)) :
    hostOfBytes e 1 (bigEndian 1 x.toNat) = x := by
  rw [← hostBytes_one e, hostOfBytes_hostBytes]

theorem networkValue_eq (e : Endian) (s : NetSize) (x : BitVec (8 * s.bytes)) :
    networkValue e s (bigEndian s.bytes x.toNat) = x := by
  cases s
  · exact hostOfBytes_one e x
  · exact betoh_hostOfBytes e 2 x
  · exact betoh_hostOfBytes e 4 x
  · exact betoh_hostOfBytes e 8 x

theorem serializeNetwork_appends (e : Endian) (s : NetSize) (x : BitVec (8 * s.bytes)) :
    Appends (serializeNetworkFixedSizePOD e s) x (bigEndian s.bytes x.toNat) := by
  intro buf
  simp [serializeNetworkFixedSizePOD, networkBytes_eq]

theorem deserializeNetwork_reads (e : Endian) (s : NetSize) (x : BitVec (8 * s.bytes)) :
    ReadsBack (deserializeNetworkFixedSizePOD e s) x (bigEndian s.bytes x.toNat) := by
  intro pre suf
  simp only [deserializeNetworkFixedSizePOD]
  rw [Out.assert_true (by simp), Out.assert_true (by simp [bigEndian_length])]
  have hraw : ((pre ++ bigEndian s.bytes x.toNat ++ suf).drop pre.length).take s.bytes
      = bigEndian s.bytes x.toNat := by
    simp [bigEndian_length]
  rw [hraw, networkValue_eq]
  simp [bigEndian_length]

theorem serializeNetworkU64_appends (e : Endian) (x : BitVec 64) :
    Appends (serializeNetworkU64 e) x (bigEndian 8 x.toNat) := serializeNetwork_appends e .s8 x

theorem deserializeNetworkU64_reads (e : Endian) (x : BitVec 64) :
    ReadsBack (deserializeNetworkU64 e) x (bigEndian 8 x.toNat) := deserializeNetwork_reads e .s8 x

theorem serializeNetworkVector_appends {α : Type} (e : Endian) (ser : Ser α) (enc : α → List Byte)
    (xs : List α) (h : ∀ x ∈ xs, Appends ser x (enc x)) :
    Appends (serializeNetworkVector e ser) xs
      (bigEndian 8 (BitVec.ofNat 64 xs.length).toNat ++ xs.flatMap enc) := by
  intro buf
  simp only [serializeNetworkVector]
  rw [serializeNetworkU64_appends e]
  simp only [Out.bind_ok, serializeItems_append ser enc xs h]
  simp

theorem deserializeNetworkVector_reads {α : Type} (e : Endian) (des : Des α) (enc : α → List Byte)
    (xs : List α) (h : ∀ x ∈ xs, ReadsBack des x (enc x)) (hl : xs.length < 2 ^ 63) :
    ReadsBack (deserializeNetworkVector e des) xs
      (bigEndian 8 (BitVec.ofNat 64 xs.length).toNat ++ xs.flatMap enc) := by
  intro pre suf
  have hh : (bigEndian 8 (BitVec.ofNat 64 xs.length).toNat).length = 8 := bigEndian_length _ _
  simp only [deserializeNetworkVector]
  rw [Out.assert_true (by simp only [List.length_append]; omega)]
  have e1 : pre ++ (bigEndian 8 (BitVec.ofNat 64 xs.length).toNat ++ xs.flatMap enc) ++ suf
      = pre ++ bigEndian 8 (BitVec.ofNat 64 xs.length).toNat ++ (xs.flatMap enc ++ suf) := by simp
  have hr := deserializeNetworkU64_reads e (BitVec.ofNat 64 xs.length) pre (xs.flatMap enc ++ suf)
  rw [e1, hr]
  generalize bigEndian 8 (BitVec.ofNat 64 xs.length).toNat = H at *
  have hn : (BitVec.ofNat 64 xs.length).toNat = xs.length := ofNat64_toNat hl
  simp only [Out.bind_ok, reserve, hn, if_pos hl]
  rw [deserializeItems_reads' des enc xs h
    (pre ++ H) suf _ _ _ _ (by simp) rfl (by simp)]
  simp only [List.length_append, List.nil_append]; congr 2; simp <;> omega

theorem serializeNetworkMap_appends {κ ν : Type} (e : Endian) (sk : Ser κ) (sv : Ser ν)
    (ek : κ → List Byte) (ev : ν → List Byte) (m : List (κ × ν))
    (hk : ∀ p ∈ m, Appends sk p.1 (ek p.1)) (hv : ∀ p ∈ m, Appends sv p.2 (ev p.2)) :
    Appends (serializeNetworkMap e sk sv) m
      (bigEndian 8 (BitVec.ofNat 64 m.length).toNat ++ m.flatMap (fun p => ek p.1 ++ ev p.2)) := by
  intro buf
  simp only [serializeNetworkMap]
  rw [serializeNetworkU64_appends e]
  simp only [Out.bind_ok]
  rw [serializeItems_append (serializeNetworkPair sk sv) (fun p => ek p.1 ++ ev p.2) m
    (fun p hp => serializePair_appends sk sv p _ _ (hk p hp) (hv p hp))]
  simp

theorem deserializeNetworkMap_reads {κ ν : Type} (e : Endian) (lt : κ → κ → Bool) (dk : Des κ)
    (dv : Des ν) (ek : κ → List Byte) (ev : ν → List Byte)
    (hasym : ∀ a b, lt a b = true → lt b a = false)
    (m : List (κ × ν)) (hs : KeySorted lt m) (hl : m.length < 2 ^ 64)
    (hk : ∀ p ∈ m, ReadsBack dk p.1 (ek p.1)) (hv : ∀ p ∈ m, ReadsBack dv p.2 (ev p.2))
    (hne : ∀ p ∈ m, ek p.1 ++ ev p.2 ≠ []) :
    ReadsBack (deserializeNetworkMap e lt dk dv) m
      (bigEndian 8 (BitVec.ofNat 64 m.length).toNat ++ m.flatMap (fun p => ek p.1 ++ ev p.2)) := by
  intro pre suf
  have hh : (bigEndian 8 (BitVec.ofNat 64 m.length).toNat).length = 8 := bigEndian_length _ _
  simp only [deserializeNetworkMap]
  rw [Out.assert_true (by simp only [List.length_append]; omega)]
  have e1 : pre ++ (bigEndian 8 (BitVec.ofNat 64 m.length).toNat ++
        m.flatMap (fun p => ek p.1 ++ ev p.2)) ++ suf
      = pre ++ bigEndian 8 (BitVec.ofNat 64 m.length).toNat ++
        (m.flatMap (fun p => ek p.1 ++ ev p.2) ++ suf) := by simp
  have hr := deserializeNetworkU64_reads e (BitVec.ofNat 64 m.length) pre
    (m.flatMap (fun p => ek p.1 ++ ev p.2) ++ suf)
  rw [e1, hr]
  generalize bigEndian 8 (BitVec.ofNat 64 m.length).toNat = H at *
  have hn : (BitVec.ofNat 64 m.length).toNat = m.length := by simp <;> omega
  simp only [Out.bind_ok, hn]
  rw [deserializeMapItems_reads' lt (deserializeNetworkPair dk dv) (fun p => ek p.1 ++ ev p.2) hasym m
    (fun p hp => deserializePair_reads dk dv p _ _ (hk p hp) (hv p hp) (hne p hp)) hs
    (pre ++ H) suf _ _ _ (by simp) rfl (by simp)]
  simp only [List.length_append]; congr 2; simp <;> omega

/-! ## arbitrary buffers -/

theorem inBounds_pod {α : Type} (P : Pod α) : InBounds (deserializeFixedSizePOD P) := by
  intro buf cur a n h
  simp only [deserializeFixedSizePOD, Out.bind_eq_ok, Out.assert_eq_ok] at h
  obtain ⟨_, h1, _, h2, h3⟩ := h
  injection h3 with h3; injection h3 with _ h3
  omega

theorem ignoresSuffix_pod {α : Type} (P : Pod α) : IgnoresSuffix (deserializeFixedSizePOD P) := by
  intro buf cur r suf h
  simp only [deserializeFixedSizePOD, Out.bind_eq_ok, Out.assert_eq_ok] at h ⊢
  obtain ⟨_, h1, _, h2, h3⟩ := h
  refine ⟨(), by simp <;> omega, (), by simp <;> omega, ?_⟩
  rw [← h3, List.drop_append_of_le_length h1, List.take_append_of_le_length (by simp <;> omega)]

theorem fails_assert_bind {α : Type} {c : Prop} [Decidable c] {f : Unit → Out α}
    (h : f () = .abort ∨ f () = .throws .lengthError ∨ ∃ r, f () = .ok r) :
    (Out.assert c >>= f) = .abort ∨ (Out.assert c >>= f) = .throws .lengthError ∨
      ∃ r, (Out.assert c >>= f) = .ok r := by
  by_cases hc : c
  · rw [Out.assert_true hc]; exact h
  · rw [Out.assert_false hc]; exact Or.inl rfl

theorem fails_bind {α β : Type} {x : Out α} {f : α → Out β}
    (hx : x = .abort ∨ x = .throws .lengthError ∨ ∃ r, x = .ok r)
    (h : ∀ a, f a = .abort ∨ f a = .throws .lengthError ∨ ∃ r, f a = .ok r) :
    (x >>= f) = .abort ∨ (x >>= f) = .throws .lengthError ∨ ∃ r, (x >>= f) = .ok r := by
  rcases hx with hx | hx | ⟨r, hx⟩ <;> rw [hx]
  · exact Or.inl rfl
  · exact Or.inr (Or.inl rfl)
  · exact h r

theorem failsCleanly_pod {α : Type} (P : Pod α) : FailsCleanly (deserializeFixedSizePOD P) := by
  intro buf cur
  exact fails_assert_bind (fails_assert_bind (Or.inr (Or.inr ⟨_, rfl⟩)))

theorem deserializeItems_inBounds {α : Type} {des : Des α} (h : InBounds des) (buf : Buf)
    (n pos : Nat) (acc : List α) (hp : pos ≤ buf.length) (r : List α × Nat)
    (hr : deserializeItems des buf n pos acc = .ok r) : pos ≤ r.2 ∧ r.2 ≤ buf.length := by
  induction n generalizing pos acc with
  | zero => simp [deserializeItems] at hr; subst hr; simp [hp]
  | succ n ih =>
    simp only [deserializeItems, Out.bind_eq_ok] at hr
    obtain ⟨⟨x, k⟩, h1, h2⟩ := hr
    have hb := h _ _ _ _ h1
    have := ih _ _ hb h2
    omega

theorem deserializeItems_suffix {α : Type} {des : Des α} (h : IgnoresSuffix des) (buf suf : Buf)
    (n pos : Nat) (acc : List α) (r : List α × Nat)
    (hr : deserializeItems des buf n pos acc = .ok r) :
    deserializeItems des (buf ++ suf) n pos acc = .ok r := by
  induction n generalizing pos acc with
  | zero => simpa [deserializeItems] using hr
  | succ n ih =>
    simp only [deserializeItems, Out.bind_eq_ok] at hr ⊢
    obtain ⟨x, h1, h2⟩ := hr
    exact ⟨x, h _ _ _ _ h1, ih _ _ h2⟩

theorem deserializeItems_fails {α : Type} {des : Des α} (h : FailsCleanly des) (buf : Buf)
    (n pos : Nat) (acc : List α) :
    deserializeItems des buf n pos acc = .abort ∨
    deserializeItems des buf n pos acc = .throws .lengthError ∨
    ∃ r, deserializeItems des buf n pos acc = .ok r := by
  induction n generalizing pos acc with
  | zero => simp [deserializeItems]
  | succ n ih => exact fails_bind (h buf pos) (fun a => ih _ _)

theorem reserve_fails (n : Nat) :
    reserve n = .abort ∨ reserve n = .throws .lengthError ∨ ∃ r, reserve n = .ok r := by
  unfold reserve; split <;> simp

/-- What vector-like reads have in common, for a header reader `hd` of any kind. -/
theorem vectorLike_props {α : Type} {hd : Des (BitVec 64)} {des : Des α}
    (h1 : InBounds hd) (h2 : IgnoresSuffix hd) (h3 : FailsCleanly hd)
    (d1 : InBounds des) (d2 : IgnoresSuffix des) (d3 : FailsCleanly des)
    {f : Des (List α)}
    (hf : f = fun buffer current => (do
      Out.assert (current < buffer.length)
      let hdr ← hd buffer current
      let size := hdr.1.toNat
      reserve size
      let r ← deserializeItems des buffer size (current + hdr.2) []
      .ok (r.1, r.2 - current))) :
    InBounds f ∧ IgnoresSuffix f ∧ FailsCleanly f := by
  subst hf
  refine ⟨?_, ?_, ?_⟩
  · intro buf cur a n h
    simp only [Out.bind_eq_ok, Out.assert_eq_ok] at h
    obtain ⟨_, hc, ⟨x, k⟩, hx, _, _, r, hr, he⟩ := h
    have hb := h1 _ _ _ _ hx
    have := deserializeItems_inBounds d1 _ _ _ _ hb _ hr
    injection he with he; injection he with _ he
    omega
  · intro buf cur r suf h
    simp only [Out.bind_eq_ok, Out.assert_eq_ok] at h ⊢
    obtain ⟨_, hc, x, hx, _, hres, r', hr, he⟩ := h
    exact ⟨(), by simp <;> omega, x, h2 _ _ _ _ hx, (), hres, r', deserializeItems_suffix d2 _ _ _ _ _ _ hr, he⟩
  · intro buf cur
    exact fails_assert_bind (fails_bind (h3 _ _) (fun a => fails_bind (reserve_fails _) (fun _ =>
      fails_bind (deserializeItems_fails d3 _ _ _ _) (fun _ => Or.inr (Or.inr ⟨_, rfl⟩)))))

theorem pair_props {α β : Type} {d1 : Des α} {d2 : Des β}
    (a1 : InBounds d1) (a2 : IgnoresSuffix d1) (a3 : FailsCleanly d1)
    (b1 : InBounds d2) (b2 : IgnoresSuffix d2) (b3 : FailsCleanly d2) :
    InBounds (deserializePair d1 d2) ∧ IgnoresSuffix (deserializePair d1 d2) ∧
      FailsCleanly (deserializePair d1 d2) := by
  refine ⟨?_, ?_, ?_⟩
  · intro buf cur a n h
    simp only [deserializePair, Out.bind_eq_ok, Out.assert_eq_ok] at h
    obtain ⟨_, hc, ⟨x, k⟩, hx, ⟨y, l⟩, hy, he⟩ := h
    have := a1 _ _ _ _ hx
    have := b1 _ _ _ _ hy
    injection he with he; injection he with _ he
    omega
  · intro buf cur r suf h
    simp only [deserializePair, Out.bind_eq_ok, Out.assert_eq_ok] at h ⊢
    obtain ⟨_, hc, x, hx, y, hy, he⟩ := h
    exact ⟨(), by simp <;> omega, x, a2 _ _ _ _ hx, y, b2 _ _ _ _ hy, he⟩
  · intro buf cur
    exact fails_assert_bind (fails_bind (a3 _ _) (fun a => fails_bind (b3 _ _) (fun _ =>
      Or.inr (Or.inr ⟨_, rfl⟩))))

theorem deserializeMapItems_inBounds {κ ν : Type} (lt : κ → κ → Bool) {des : Des (κ × ν)}
    (h : InBounds des) (buf : Buf)
    (n pos : Nat) (acc : List (κ × ν)) (hp : pos ≤ buf.length) (r : List (κ × ν) × Nat)
    (hr : deserializeMapItems lt des buf n pos acc = .ok r) : pos ≤ r.2 ∧ r.2 ≤ buf.length := by
  induction n generalizing pos acc with
  | zero => simp [deserializeMapItems] at hr; subst hr; simp [hp]
  | succ n ih =>
    simp only [deserializeMapItems, Out.bind_eq_ok] at hr
    obtain ⟨⟨x, k⟩, h1, h2⟩ := hr
    have hb := h _ _ _ _ h1
    have := ih _ _ hb h2
    omega

theorem deserializeMapItems_suffix {κ ν : Type} (lt : κ → κ → Bool) {des : Des (κ × ν)}
    (h : IgnoresSuffix des) (buf suf : Buf)
    (n pos : Nat) (acc : List (κ × ν)) (r : List (κ × ν) × Nat)
    (hr : deserializeMapItems lt des buf n pos acc = .ok r) :
    deserializeMapItems lt des (buf ++ suf) n pos acc = .ok r := by
  induction n generalizing pos acc with
  | zero => simpa [deserializeMapItems] using hr
  | succ n ih =>
    simp only [deserializeMapItems, Out.bind_eq_ok] at hr ⊢
    obtain ⟨x, h1, h2⟩ := hr
    exact ⟨x, h _ _ _ _ h1, ih _ _ h2⟩

theorem deserializeMapItems_fails {κ ν : Type} (lt : κ → κ → Bool) {des : Des (κ × ν)}
    (h : FailsCleanly des) (buf : Buf) (n pos : Nat) (acc : List (κ × ν)) :
    deserializeMapItems lt des buf n pos acc = .abort ∨
    deserializeMapItems lt des buf n pos acc = .throws .lengthError ∨
    ∃ r, deserializeMapItems lt des buf n pos acc = .ok r := by
  induction n generalizing pos acc with
  | zero => simp [deserializeMapItems]
  | succ n ih => exact fails_bind (h buf pos) (fun a => ih _ _)

theorem mapLike_props {κ ν : Type} (lt : κ → κ → Bool) {hd : Des (BitVec 64)} {des : Des (κ × ν)}
    (h1 : InBounds hd) (h2 : IgnoresSuffix hd) (h3 : FailsCleanly hd)
    (d1 : InBounds des) (d2 : IgnoresSuffix des) (d3 : FailsCleanly des)
    {f : Des (List (κ × ν))}
    (hf : f = fun buffer current => (do
      Out.assert (current < buffer.length)
      let hdr ← hd buffer current
      let size := hdr.1.toNat
      let r ← deserializeMapItems lt des buffer size (current + hdr.2) []
      .ok (r.1, r.2 - current))) :
    InBounds f ∧ IgnoresSuffix f ∧ FailsCleanly f := by
  subst hf
  refine ⟨?_, ?_, ?_⟩
  · intro buf cur a n h
    simp only [Out.bind_eq_ok, Out.assert_eq_ok] at h
    obtain ⟨_, hc, ⟨x, k⟩, hx, r, hr, he⟩ := h
    have hb := h1 _ _ _ _ hx
    have := deserializeMapItems_inBounds lt d1 _ _ _ _ hb _ hr
    injection he with he; injection he with _ he
    omega
  · intro buf cur r suf h
    simp only [Out.bind_eq_ok, Out.assert_eq_ok] at h ⊢
    obtain ⟨_, hc, x, hx, r', hr, he⟩ := h
    exact ⟨(), by simp <;> omega, x, h2 _ _ _ _ hx, r',
      deserializeMapItems_suffix lt d2 _ _ _ _ _ _ hr, he⟩
  · intro buf cur
    exact fails_assert_bind (fails_bind (h3 _ _) (fun a =>
      fails_bind (deserializeMapItems_fails lt d3 _ _ _ _) (fun _ => Or.inr (Or.inr ⟨_, rfl⟩))))

theorem net_props (e : Endian) (s : NetSize) :
    InBounds (deserializeNetworkFixedSizePOD e s) ∧
    IgnoresSuffix (deserializeNetworkFixedSizePOD e s) ∧
    FailsCleanly (deserializeNetworkFixedSizePOD e s) := by
  refine ⟨?_, ?_, ?_⟩
  · intro buf cur a n h
    simp only [deserializeNetworkFixedSizePOD, Out.bind_eq_ok, Out.assert_eq_ok] at h
    obtain ⟨_, h1, _, h2, h3⟩ := h
    injection h3 with h3; injection h3 with _ h3
    omega
  · intro buf cur r suf h
    simp only [deserializeNetworkFixedSizePOD, Out.bind_eq_ok, Out.assert_eq_ok] at h ⊢
    obtain ⟨_, h1, _, h2, h3⟩ := h
    refine ⟨(), by simp <;> omega, (), by simp <;> omega, ?_⟩
    rw [← h3, List.drop_append_of_le_length h1, List.take_append_of_le_length (by simp <;> omega)]
  · intro buf cur
    exact fails_assert_bind (fails_assert_bind (Or.inr (Or.inr ⟨_, rfl⟩)))

/-- Truncation is rejected as soon as reads stay in bounds and ignore what follows. -/
theorem rejects_of {α : Type} {des : Des α} (h1 : InBounds des) (h2 : IgnoresSuffix des) :
    RejectsTruncation des := by
  intro buf cur a n h k hk r hr
  have h3 := h2 _ _ _ (buf.drop (cur + k)) hr
  rw [List.take_append_drop, h] at h3
  injection h3 with h3
  subst h3
  have h4 := h1 _ _ _ _ hr
  simp at h4
  omega

end Verif.Serialization
