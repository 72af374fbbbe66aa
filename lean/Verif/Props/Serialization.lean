import Verif.Lemmas.Serialization

/-! # C01-C05: serialization -/
namespace Verif.Serialization
open Verif

/-! ## C01 -/

/-- C01: a fixed-size value is appended as exactly `sizeof` bytes, the count is returned, and it is
read back wherever it stands. -/
theorem C01_pod_roundtrip {α : Type} (P : Pod α) (a : α) :
    ∃ bytes, bytes.length = P.size ∧ Appends (serializeFixedSizePOD P) a bytes ∧
      ReadsBack (deserializeFixedSizePOD P) a bytes :=
  ⟨P.toBytes a, P.length_toBytes a, serializeFixedSizePOD_appends P a,
    deserializeFixedSizePOD_reads P a⟩

/-- C01, layout: on a little-endian host an `n`-byte integer is written least significant byte
first, on a big-endian host most significant byte first. -/
theorem C01_int_layout (n : Nat) (h : 0 < n) (x : BitVec (8 * n)) :
    Appends (serializeFixedSizePOD (podBits .little n h)) x (littleEndian n x.toNat) ∧
    Appends (serializeFixedSizePOD (podBits .big n h)) x (bigEndian n x.toNat) := by
  constructor
  · have := serializeFixedSizePOD_appends (podBits .little n h) x
    rwa [show (podBits .little n h).toBytes x = littleEndian n x.toNat from natToBytes_eq _ _] at this
  · have := serializeFixedSizePOD_appends (podBits .big n h) x
    rwa [show (podBits .big n h).toBytes x = bigEndian n x.toNat by
      simp only [podBits, hostBytes]; rw [natToBytes_eq, reverse_littleEndian]] at this

example : serializeFixedSizePOD (podBits .little 4 (by decide)) (0x01020304#32) [0xaa#8]
    = .ok (4, [0xaa#8, 4#8, 3#8, 2#8, 1#8]) := by decide
example : deserializeFixedSizePOD (podBits .little 4 (by decide)) [0xaa#8, 4#8, 3#8, 2#8, 1#8, 9#8] 1
    = .ok (0x01020304#32, 4) := by decide

/-! ## C02 -/

theorem roundTrips_enc {α : Type} {s : Ser α} {d : Des α} {v : α → Prop}
    (h : RoundTrips s d v) : ∃ enc : α → List Byte, ∀ a, v a →
      enc a ≠ [] ∧ Appends s a (enc a) ∧ ReadsBack d a (enc a) := by
  classical
  refine ⟨fun a => if ha : v a then Classical.choose (h a ha) else [], ?_⟩
  intro a ha
  simp only [dif_pos ha]
  exact Classical.choose_spec (h a ha)

theorem ne_nil_of_length_pos {α : Type} {l m : List α} (h : 0 < l.length) : l ++ m ≠ [] := by
  cases l <;> simp_all

theorem podU64_ne {e : Endian} {x : BitVec 64} {l : List Byte} : (podU64 e).toBytes x ++ l ≠ [] :=
  ne_nil_of_length_pos (by rw [(podU64 e).length_toBytes]; exact (podU64 e).size_pos)

/-- C02, vectors: if items round-trip, vectors of fewer than 2^63 items do. -/
theorem C02_vector_roundtrip (e : Endian) {α : Type} (s : Ser α) (d : Des α) (v : α → Prop)
    (h : RoundTrips s d v) :
    RoundTrips (serializeVector e s) (deserializeVector e d)
      (fun xs => xs.length < 2 ^ 63 ∧ ∀ x ∈ xs, v x) := by
  obtain ⟨enc, henc⟩ := roundTrips_enc h
  intro xs ⟨hl, hv⟩
  exact ⟨_, podU64_ne,
    serializeVector_appends e s enc xs (fun x hx => (henc x (hv x hx)).2.1),
    deserializeVector_reads e d enc xs (fun x hx => (henc x (hv x hx)).2.2) hl⟩

/-- C02, pairs. -/
theorem C02_pair_roundtrip {α β : Type} (s : Ser α) (d : Des α) (v : α → Prop)
    (s' : Ser β) (d' : Des β) (v' : β → Prop) (h : RoundTrips s d v) (h' : RoundTrips s' d' v') :
    RoundTrips (serializePair s s') (deserializePair d d') (fun p => v p.1 ∧ v' p.2) := by
  intro p ⟨h1, h2⟩
  obtain ⟨b1, n1, a1, r1⟩ := h p.1 h1
  obtain ⟨b2, _, a2, r2⟩ := h' p.2 h2
  have hne : b1 ++ b2 ≠ [] := by simp [n1]
  exact ⟨b1 ++ b2, hne, serializePair_appends s s' p b1 b2 a1 a2,
    deserializePair_reads d d' p b1 b2 r1 r2 hne⟩

/-- C02, maps. -/
theorem C02_map_roundtrip (e : Endian) {κ ν : Type} (lt : κ → κ → Bool)
    (asymm : ∀ a b, lt a b = true → lt b a = false)
    (s : Ser κ) (d : Des κ) (v : κ → Prop) (s' : Ser ν) (d' : Des ν) (v' : ν → Prop)
    (h : RoundTrips s d v) (h' : RoundTrips s' d' v') :
    RoundTrips (serializeMap e s s') (deserializeMap e lt d d')
      (fun m => m.length < 2 ^ 63 ∧ KeySorted lt m ∧ ∀ p ∈ m, v p.1 ∧ v' p.2) := by
  obtain ⟨ek, hk⟩ := roundTrips_enc h
  obtain ⟨ev, hv⟩ := roundTrips_enc h'
  intro m ⟨hl, hs, hm⟩
  refine ⟨_, podU64_ne,
    serializeMap_appends e s s' ek ev m (fun p hp => (hk _ (hm p hp).1).2.1)
      (fun p hp => (hv _ (hm p hp).2).2.1),
    deserializeMap_reads e lt d d' ek ev asymm m hs (by omega)
      (fun p hp => (hk _ (hm p hp).1).2.2) (fun p hp => (hv _ (hm p hp).2).2.2) ?_⟩
  intro p hp
  simp [(hk _ (hm p hp).1).1]

/-- C02: every nesting of fixed-size values, strings, vectors, pairs and maps round-trips. -/
theorem C02_nested_roundtrip (e : Endian) {α : Type} {s : Ser α} {d : Des α} {v : α → Prop}
    (h : Supported e s d v) : RoundTrips s d v := by
  have hpod : ∀ {β : Type} (P : Pod β),
      RoundTrips (serializeFixedSizePOD P) (deserializeFixedSizePOD P) (fun _ => True) := by
    intro β P a _
    exact ⟨P.toBytes a, by
      have h1 := P.length_toBytes a
      have h2 := P.size_pos
      intro h0; rw [h0] at h1; simp at h1; omega,
      serializeFixedSizePOD_appends P a, deserializeFixedSizePOD_reads P a⟩
  induction h with
  | pod P => exact hpod P
  | string P =>
    intro xs hl
    exact C02_vector_roundtrip e _ _ _ (hpod P) xs ⟨hl, fun _ _ => trivial⟩
  | vector _ ih => exact C02_vector_roundtrip e _ _ _ ih
  | pair _ _ ih1 ih2 => exact C02_pair_roundtrip _ _ _ _ _ _ ih1 ih2
  | map lt asymm _ _ ih1 ih2 => exact C02_map_roundtrip e lt asymm _ _ _ _ _ _ ih1 ih2

/-- A map from strings to vectors of pairs of a 4-byte and a 2-byte integer. -/
example : ∃ s d v, Supported (α := List (List (BitVec 8) × List (BitVec 32 × BitVec 16)))
    .little s d v :=
  ⟨_, _, _, .map (α := List (BitVec 8)) (fun a b => decide (a.length < b.length))
    (by intro a b h; simp at *; omega)
    (.string (podBits .little 1 (by decide)))
    (.vector (.pair (.pod (podBits .little 4 (by decide))) (.pod (podBits .little 2 (by decide)))))⟩

example : serializeVector .little (serializeFixedSizePOD (podBits .little 2 (by decide)))
    [0x0102#16, 0x0304#16] [7#8] =
    .ok (12, [7#8, 2#8, 0#8, 0#8, 0#8, 0#8, 0#8, 0#8, 0#8, 2#8, 1#8, 4#8, 3#8]) := by decide

/-- C02/C03, layout: a vector is written as its size in 8 bytes followed by its items in order. -/
theorem C02_vector_layout (e : Endian) {α : Type} (s : Ser α) (enc : α → List Byte)
    (h : ∀ x, Appends s x (enc x)) (xs : List α) :
    Appends (serializeVector e s) xs
      (hostBytes e 8 (BitVec.ofNat 64 xs.length) ++ xs.flatMap enc) :=
  serializeVector_appends e s enc xs (fun x _ => h x)

/-- C02/C03, layout: a map is written as its size in 8 bytes followed by key, value, key, value. -/
theorem C02_map_layout (e : Endian) {κ ν : Type} (s : Ser κ) (s' : Ser ν) (ek : κ → List Byte)
    (ev : ν → List Byte) (h : ∀ x, Appends s x (ek x)) (h' : ∀ x, Appends s' x (ev x))
    (m : List (κ × ν)) :
    Appends (serializeMap e s s') m
      (hostBytes e 8 (BitVec.ofNat 64 m.length) ++ m.flatMap (fun p => ek p.1 ++ ev p.2)) :=
  serializeMap_appends e s s' ek ev m (fun p _ => h p.1) (fun p _ => h' p.2)

/-- The bytes of a zero-length pair cannot be read back at the end of a buffer: the code asserts
that at least one byte is left even if neither member needs one. This is why `RoundTrips` asks
for a nonempty encoding. -/
theorem C02_empty_pair_fails (pre : Buf) :
    let d : Des Unit := fun _ _ => .ok ((), 0)
    let s : Ser Unit := fun _ buf => .ok (0, buf)
    Appends (serializePair s s) ((), ()) [] ∧ deserializePair d d pre pre.length = .abort := by
  constructor
  · intro buf
    simp [serializePair, Out.assert]
  · simp [deserializePair, Out.assert]

/-! ### Duplicate keys in a map buffer -/

/-- C02, malformed maps: whatever the buffer holds, a successful map read yields entries in strict
key order, and a key that occurs several times in the buffer gets the value of its first
occurrence. (`ps` are the pairs as they stand in the buffer.) -/
theorem C02_map_duplicates (e : Endian) {κ ν : Type} (lt : κ → κ → Bool) (ht : StrictTotal lt)
    (dk : Des κ) (dv : Des ν) (buf : Buf) (cur n : Nat) (m : List (κ × ν))
    (h : deserializeMap e lt dk dv buf cur = .ok (m, n)) :
    KeySorted lt m ∧ ∃ (cnt : Nat) (ps : List (κ × ν)),
      deserializeItems (deserializePair dk dv) buf cnt (cur + 8) [] = .ok (ps, cur + n) ∧
      ps.length = cnt ∧ ∀ k, findKey lt k m = findKey lt k ps := by
  have key : ∀ (cnt pos : Nat) (acc acc' : List (κ × ν)) (r : List (κ × ν) × Nat),
      KeySorted lt acc' → (∀ k, findKey lt k acc' = findKey lt k acc) →
      deserializeMapItems lt (deserializePair dk dv) buf cnt pos acc' = .ok r →
      pos ≤ r.2 ∧
      KeySorted lt r.1 ∧ ∃ ps, deserializeItems (deserializePair dk dv) buf cnt pos acc
          = .ok (ps, r.2) ∧ ps.length = acc.length + cnt ∧
        ∀ k, findKey lt k r.1 = findKey lt k ps := by
    intro cnt
    induction cnt with
    | zero =>
      intro pos acc acc' r hs hf hr
      simp only [deserializeMapItems, Out.ok.injEq] at hr
      subst hr
      exact ⟨Nat.le_refl _, hs, acc, rfl, rfl, hf⟩
    | succ cnt ih =>
      intro pos acc acc' r hs hf hr
      simp only [deserializeMapItems, Out.bind_eq_ok] at hr
      obtain ⟨x, hx, hr⟩ := hr
      have := ih (pos + x.2) (acc ++ [x.1]) (mapInsert lt x.1.1 x.1.2 acc') r
        (mapInsert_sorted ht _ _ _ hs).1 (by
          intro k
          rw [findKey_mapInsert ht _ _ _ _ hs, hf]
          simp only [findKey, List.find?_append, Option.map_or]
          congr 1
          simp only [List.find?_cons, List.find?_nil]
          cases (!lt x.1.1 k && !lt k x.1.1) <;> simp) hr
      obtain ⟨h1, h2, ps, h3, h4, h5⟩ := this
      refine ⟨by omega, h2, ps, ?_, ?_, h5⟩
      · simp only [deserializeItems, hx, Out.bind_ok, h3]
      · simp at h4; omega
  simp only [deserializeMap, Out.bind_eq_ok, Out.assert_eq_ok] at h
  obtain ⟨_, _, hdr, hh, r, hr, he⟩ := h
  injection he with he; injection he with he1 he2
  have h8 : hdr.2 = 8 := by
    simp only [deserializeFixedSizePOD, Out.bind_eq_ok, Out.assert_eq_ok] at hh
    obtain ⟨_, _, _, _, h3⟩ := hh
    injection h3 with h3; rw [← h3]; rfl
  obtain ⟨h0, h1, ps, h2, h3, h4⟩ := key _ _ [] [] r List.Pairwise.nil (fun _ => rfl) hr
  subst he1
  rw [h8] at h2 h0
  refine ⟨h1, _, ps, ?_, by simpa using h3, h4⟩
  rw [h2]; congr 2; omega

example : deserializeMap .little (fun a b : BitVec 8 => decide (a < b))
    (deserializeFixedSizePOD (podBits .little 1 (by decide)))
    (deserializeFixedSizePOD (podBits .little 1 (by decide)))
    [2#8, 0#8, 0#8, 0#8, 0#8, 0#8, 0#8, 0#8, 5#8, 1#8, 5#8, 2#8] 0
    = .ok ([(5#8, 1#8)], 12) := by decide

/-! ## C03 -/

/-- C03: values written one after the other with any mix of supported serializers append exactly
the sum of the reported counts, and are read back one after the other, each read starting where
the previous one stopped. -/
theorem C03_sequence (e : Endian) (its : List Item)
    (h : ∀ it ∈ its, ∃ v, Supported e it.ser it.des v ∧ v it.val) :
    ∃ bytes : List Byte, ∀ pre : Buf,
      writeAll its pre = .ok (bytes.length, pre ++ bytes) ∧
      ∀ suf, ReadsAll its (pre ++ bytes ++ suf) pre.length bytes.length := by
  induction its with
  | nil => exact ⟨[], fun pre => ⟨by simp [writeAll], fun suf => rfl⟩⟩
  | cons it its ih =>
    obtain ⟨bytes, hb⟩ := ih (fun i hi => h i (by simp [hi]))
    obtain ⟨v, hs, hv⟩ := h it (by simp)
    obtain ⟨b, _, ha, hr⟩ := C02_nested_roundtrip e hs it.val hv
    refine ⟨b ++ bytes, fun pre => ⟨?_, fun suf => ?_⟩⟩
    · simp [writeAll, ha pre, (hb (pre ++ b)).1]
    · refine ⟨b.length, bytes.length, ?_, ?_, by simp⟩
      · have := hr pre (bytes ++ suf)
        simpa using this
      · have := (hb (pre ++ b)).2 suf
        simpa using this

example : ∀ it ∈ ([⟨BitVec 32, serializeFixedSizePOD (podBits .little 4 (by decide)),
      deserializeFixedSizePOD (podBits .little 4 (by decide)), 77#32⟩,
      ⟨List (BitVec 8), serializeString .little (podBits .little 1 (by decide)),
      deserializeString .little (podBits .little 1 (by decide)), [65#8, 66#8]⟩] : List Item),
    ∃ v, Supported .little it.ser it.des v ∧ v it.val := by
  intro it hit
  simp only [List.mem_cons, List.not_mem_nil, or_false] at hit
  rcases hit with rfl | rfl
  · exact ⟨_, .pod _, trivial⟩
  · exact ⟨_, .string _, by decide⟩

/-! ## C04 -/

/-- C04: for every buffer and offset, every supported deserializer stays inside the buffer when it
succeeds, fails only by assertion or `length_error`, and rejects a value cut off at any byte. -/
theorem C04_arbitrary_buffers (e : Endian) {α : Type} {s : Ser α} {d : Des α} {v : α → Prop}
    (h : Supported e s d v) : InBounds d ∧ FailsCleanly d ∧ RejectsTruncation d := by
  have main : InBounds d ∧ IgnoresSuffix d ∧ FailsCleanly d := by
    have hp : ∀ {β : Type} (P : Pod β), InBounds (deserializeFixedSizePOD P) ∧
        IgnoresSuffix (deserializeFixedSizePOD P) ∧ FailsCleanly (deserializeFixedSizePOD P) :=
      fun P => ⟨inBounds_pod P, ignoresSuffix_pod P, failsCleanly_pod P⟩
    have hu := hp (podU64 e)
    induction h with
    | pod P => exact hp P
    | string P =>
      have h1 := hp P
      exact vectorLike_props hu.1 hu.2.1 hu.2.2 h1.1 h1.2.1 h1.2.2 rfl
    | vector _ ih =>
      exact vectorLike_props hu.1 hu.2.1 hu.2.2 ih.1 ih.2.1 ih.2.2 rfl
    | pair _ _ ih1 ih2 => exact pair_props ih1.1 ih1.2.1 ih1.2.2 ih2.1 ih2.2.1 ih2.2.2
    | map lt asymm _ _ ih1 ih2 =>
      have h1 := pair_props ih1.1 ih1.2.1 ih1.2.2 ih2.1 ih2.2.1 ih2.2.2
      exact mapLike_props lt hu.1 hu.2.1 hu.2.2 h1.1 h1.2.1 h1.2.2 rfl
  exact ⟨main.1, main.2.2, rejects_of main.1 main.2.1⟩

/-- C04, fixed-size reads exactly: the read succeeds iff all its bytes are in the buffer, and the
assertion fails otherwise. -/
theorem C04_pod_exact {α : Type} (P : Pod α) (buf : Buf) (cur : Nat) :
    (cur + P.size ≤ buf.length → ∃ a, deserializeFixedSizePOD P buf cur = .ok (a, P.size)) ∧
    (buf.length < cur + P.size → deserializeFixedSizePOD P buf cur = .abort) := by
  constructor
  · intro h
    refine ⟨P.ofBytes ((buf.drop cur).take P.size), ?_⟩
    simp only [deserializeFixedSizePOD]
    rw [Out.assert_true (by omega), Out.assert_true h]; rfl
  · intro h
    simp only [deserializeFixedSizePOD]
    by_cases h1 : cur ≤ buf.length
    · rw [Out.assert_true h1, Out.assert_false (by omega)]; rfl
    · rw [Out.assert_false h1]; rfl

/-- C04: a vector of fixed-size items is accepted only if the buffer holds the header and every
item the header announces; the announced and the returned counts agree. -/
theorem C04_vector_count (e : Endian) {α : Type} (P : Pod α) (buf : Buf) (cur n : Nat)
    (xs : List α)
    (h : deserializeVector e (deserializeFixedSizePOD P) buf cur = .ok (xs, n)) :
    n = 8 + P.size * xs.length ∧ cur + n ≤ buf.length ∧
    xs.length = (hostOfBytes e 8 ((buf.drop cur).take 8)).toNat := by
  have hb := (C04_arbitrary_buffers e (.vector (.pod P))).1 _ _ _ _ h
  have key : ∀ (cnt pos : Nat) (acc : List α) (r : List α × Nat),
      deserializeItems (deserializeFixedSizePOD P) buf cnt pos acc = .ok r →
      r.1.length = acc.length + cnt ∧ r.2 = pos + P.size * cnt := by
    intro cnt
    induction cnt with
    | zero =>
      intro pos acc r hr
      simp only [deserializeItems, Out.ok.injEq] at hr
      subst hr; simp
    | succ cnt ih =>
      intro pos acc r hr
      simp only [deserializeItems, Out.bind_eq_ok] at hr
      obtain ⟨x, hx, hr⟩ := hr
      have h2 : x.2 = P.size := by
        simp only [deserializeFixedSizePOD, Out.bind_eq_ok, Out.assert_eq_ok] at hx
        obtain ⟨_, _, _, _, h3⟩ := hx
        injection h3 with h3; rw [← h3]
      have := ih _ _ _ hr
      simp only [List.length_append, List.length_singleton, h2] at this
      rw [Nat.mul_succ]
      omega
  simp only [deserializeVector, Out.bind_eq_ok, Out.assert_eq_ok] at h
  obtain ⟨_, _, hdr, hh, _, _, r, hr, he⟩ := h
  injection he with he; injection he with he1 he2
  have h8 : hdr = (hostOfBytes e 8 ((buf.drop cur).take 8), 8) := by
    simp only [deserializeFixedSizePOD, Out.bind_eq_ok, Out.assert_eq_ok] at hh
    obtain ⟨_, _, _, _, h3⟩ := hh
    injection h3 with h3; rw [← h3]; rfl
  have hk := key _ _ _ _ hr
  subst he1
  rw [h8] at hk
  simp only [List.length_nil, Nat.zero_add] at hk
  rw [hk.1]
  refine ⟨by omega, hb, rfl⟩

/-- C04: a vector or string header announcing 2^63 or more elements is refused with
`length_error`. -/
theorem C04_vector_absurd_count (e : Endian) {α : Type} (d : Des α) (buf : Buf) (cur : Nat)
    (hb : cur + 8 ≤ buf.length)
    (h : 2 ^ 63 ≤ (hostOfBytes e 8 ((buf.drop cur).take 8)).toNat) :
    deserializeVector e d buf cur = .throws .lengthError := by
  simp only [deserializeVector]
  rw [Out.assert_true (by omega)]
  have h1 : deserializeFixedSizePOD (podU64 e) buf cur =
      .ok (hostOfBytes e 8 ((buf.drop cur).take 8), 8) := by
    simp only [deserializeFixedSizePOD]
    rw [Out.assert_true (by omega), Out.assert_true (by exact hb)]; rfl
  rw [h1]
  simp only [Out.bind_ok, reserve]
  rw [if_neg (by exact Nat.not_lt.2 h)]
  rfl

example : deserializeVector .little (deserializeFixedSizePOD (podBits .little 1 (by decide)))
    [1#8, 0#8, 0#8, 0#8, 0#8, 0#8, 0#8, 0#8] 0 = .abort := by decide
example : deserializeVector .little (deserializeFixedSizePOD (podBits .little 1 (by decide)))
    [1#8, 0#8, 0#8, 0#8, 0#8, 0#8, 0#8, 0x80#8] 0 = .throws .lengthError := by decide
example : deserializeVector .little (deserializeFixedSizePOD (podBits .little 1 (by decide)))
    [1#8, 0#8, 0#8, 0#8, 0#8, 0#8, 0#8, 0#8, 9#8] 0 = .ok ([9#8], 9) := by decide

/-! ## C05 -/

/-- C05: network integers are written most significant byte first on every host. -/
theorem C05_big_endian (e : Endian) (s : NetSize) (x : BitVec (8 * s.bytes)) :
    Appends (serializeNetworkFixedSizePOD e s) x (bigEndian s.bytes x.toNat) :=
  serializeNetwork_appends e s x

/-- C05: the size header of a network vector is big-endian on every host. -/
theorem C05_vector_layout (e : Endian) {α : Type} (s : Ser α) (enc : α → List Byte)
    (h : ∀ x, Appends s x (enc x)) (xs : List α) (hl : xs.length < 2 ^ 63) :
    Appends (serializeNetworkVector e s) xs (bigEndian 8 xs.length ++ xs.flatMap enc) := by
  have := serializeNetworkVector_appends e s enc xs (fun x _ => h x)
  rwa [ofNat64_toNat hl] at this

/-- C05: what is written on a host of either byte order is read back on a host of either byte
order, for every nesting of network integers, strings, vectors, pairs and maps. -/
theorem C05_portable (e e' : Endian) {α : Type} {s : Ser α} {d : Des α} {v : α → Prop}
    (h : NetSupported e e' s d v) : RoundTrips s d v := by
  have hpod : ∀ (s : NetSize), RoundTrips (serializeNetworkFixedSizePOD e s)
      (deserializeNetworkFixedSizePOD e' s) (fun _ => True) := by
    intro s a _
    refine ⟨bigEndian s.bytes a.toNat, ?_, serializeNetwork_appends e s a,
      deserializeNetwork_reads e' s a⟩
    intro h0
    have := bigEndian_length s.bytes a.toNat
    rw [h0] at this
    cases s <;> simp [NetSize.bytes] at this
  have hne : ∀ (x : Nat) (l : List Byte), bigEndian 8 x ++ l ≠ [] := fun x l =>
    ne_nil_of_length_pos (by simp [bigEndian_length])
  have hvec : ∀ {β : Type} (s : Ser β) (d : Des β) (v : β → Prop), RoundTrips s d v →
      RoundTrips (serializeNetworkVector e s) (deserializeNetworkVector e' d)
        (fun xs => xs.length < 2 ^ 63 ∧ ∀ x ∈ xs, v x) := by
    intro β s d v h xs ⟨hl, hv⟩
    obtain ⟨enc, henc⟩ := roundTrips_enc h
    exact ⟨_, hne _ _,
      serializeNetworkVector_appends e s enc xs (fun x hx => (henc x (hv x hx)).2.1),
      deserializeNetworkVector_reads e' d enc xs (fun x hx => (henc x (hv x hx)).2.2) hl⟩
  induction h with
  | pod s => exact hpod s
  | string s =>
    intro xs hl
    exact hvec _ _ _ (hpod s) xs ⟨hl, fun _ _ => trivial⟩
  | vector _ ih => exact hvec _ _ _ ih
  | pair _ _ ih1 ih2 => exact C02_pair_roundtrip _ _ _ _ _ _ ih1 ih2
  | @map κ ν s d v s' d' v' lt asymm _ _ ih1 ih2 =>
    obtain ⟨ek, hk⟩ := roundTrips_enc ih1
    obtain ⟨ev, hv⟩ := roundTrips_enc ih2
    intro m ⟨hl, hs, hm⟩
    refine ⟨_, hne _ _,
      serializeNetworkMap_appends e s s' ek ev m (fun p hp => (hk _ (hm p hp).1).2.1)
        (fun p hp => (hv _ (hm p hp).2).2.1),
      deserializeNetworkMap_reads e' lt d d' ek ev asymm m hs (by omega)
        (fun p hp => (hk _ (hm p hp).1).2.2) (fun p hp => (hv _ (hm p hp).2).2.2) ?_⟩
    intro p hp
    simp [(hk _ (hm p hp).1).1]

/-- C05/C04: the network deserializers treat arbitrary buffers like the host-order ones. -/
theorem C05_arbitrary_buffers (e e' : Endian) {α : Type} {s : Ser α} {d : Des α} {v : α → Prop}
    (h : NetSupported e e' s d v) : InBounds d ∧ FailsCleanly d ∧ RejectsTruncation d := by
  have main : InBounds d ∧ IgnoresSuffix d ∧ FailsCleanly d := by
    have hu : InBounds (deserializeNetworkU64 e') ∧ IgnoresSuffix (deserializeNetworkU64 e') ∧
        FailsCleanly (deserializeNetworkU64 e') := net_props e' .s8
    induction h with
    | pod s => exact net_props e' s
    | string s =>
      have h1 := net_props e' s
      exact vectorLike_props hu.1 hu.2.1 hu.2.2 h1.1 h1.2.1 h1.2.2 rfl
    | vector _ ih =>
      exact vectorLike_props hu.1 hu.2.1 hu.2.2 ih.1 ih.2.1 ih.2.2 rfl
    | pair _ _ ih1 ih2 => exact pair_props ih1.1 ih1.2.1 ih1.2.2 ih2.1 ih2.2.1 ih2.2.2
    | map lt asymm _ _ ih1 ih2 =>
      have h1 := pair_props ih1.1 ih1.2.1 ih1.2.2 ih2.1 ih2.2.1 ih2.2.2
      exact mapLike_props lt hu.1 hu.2.1 hu.2.2 h1.1 h1.2.1 h1.2.2 rfl
  exact ⟨main.1, main.2.2, rejects_of main.1 main.2.1⟩

example : serializeNetworkFixedSizePOD .little .s4 (0x01020304#32) [9#8] =
    .ok (4, [9#8, 1#8, 2#8, 3#8, 4#8]) := by decide
example : deserializeNetworkFixedSizePOD .big .s4 [9#8, 1#8, 2#8, 3#8, 4#8] 1 =
    .ok (0x01020304#32, 4) := by decide
example : ∃ s d v, NetSupported .little .big (α := List (List (BitVec 16) × BitVec 64)) s d v :=
  ⟨_, _, _, .vector (.pair (.string .s2) (.pod .s8))⟩

end Verif.Serialization
