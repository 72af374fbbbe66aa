import Verif.Model.Serialization

/-!
# Specification of serialization

Written against the types of serializers and deserializers only.
-/
namespace Verif.Serialization
open Verif

/-- Serializing `a` onto any buffer appends exactly `bytes`, keeps the earlier contents, and
reports the number of bytes appended. -/
def Appends {α : Type} (ser : Ser α) (a : α) (bytes : List Byte) : Prop :=
  ∀ buf, ser a buf = .ok (bytes.length, buf ++ bytes)

/-- Deserializing at the place where `bytes` stand, whatever precedes and follows, gives `a` and
the length of `bytes`. -/
def ReadsBack {α : Type} (des : Des α) (a : α) (bytes : List Byte) : Prop :=
  ∀ pre suf, des (pre ++ bytes ++ suf) pre.length = .ok (a, bytes.length)

/-- Every valid value is written as a nonempty byte sequence from which it is read back. -/
def RoundTrips {α : Type} (ser : Ser α) (des : Des α) (valid : α → Prop) : Prop :=
  ∀ a, valid a → ∃ bytes, bytes ≠ [] ∧ Appends ser a bytes ∧ ReadsBack des a bytes

/-- A successful read consumes only bytes that exist. -/
def InBounds {α : Type} (des : Des α) : Prop :=
  ∀ buf cur a n, des buf cur = .ok (a, n) → cur + n ≤ buf.length

/-- Cutting the buffer anywhere before the end of the value read makes the read fail. -/
def RejectsTruncation {α : Type} (des : Des α) : Prop :=
  ∀ buf cur a n, des buf cur = .ok (a, n) →
    ∀ k, k < n → ∀ r, des (buf.take (cur + k)) cur ≠ .ok r

/-- A successful read does not depend on what follows in the buffer. -/
def IgnoresSuffix {α : Type} (des : Des α) : Prop :=
  ∀ buf cur r suf, des buf cur = .ok r → des (buf ++ suf) cur = .ok r

/-- The only outcomes besides a value are a failed assertion and `std::length_error`. -/
def FailsCleanly {α : Type} (des : Des α) : Prop :=
  ∀ buf cur, des buf cur = .abort ∨ des buf cur = .throws .lengthError ∨
    ∃ r, des buf cur = .ok r

/-- Strictly increasing keys: the order in which `std::map` stores and iterates its entries. -/
def KeySorted {κ ν : Type} (lt : κ → κ → Bool) (m : List (κ × ν)) : Prop :=
  m.Pairwise (fun p q => lt p.1 q.1 = true)

/-- `std::map::find` as a linear search. -/
def findKey {κ ν : Type} (lt : κ → κ → Bool) (k : κ) (m : List (κ × ν)) : Option ν :=
  (m.find? (fun p => !lt p.1 k && !lt k p.1)).map (·.2)

/-- `Compare` is a strict total order. -/
structure StrictTotal {κ : Type} (lt : κ → κ → Bool) : Prop where
  asymm : ∀ a b, lt a b = true → lt b a = false
  trans : ∀ a b c, lt a b = true → lt b c = true → lt a c = true
  total : ∀ a b, lt a b = false → lt b a = false → a = b

/-- The most-significant-first byte sequence of a number: byte `i` of `n` has weight
`256 ^ (n - 1 - i)`. -/
def bigEndian (n : Nat) (x : Nat) : List Byte :=
  (List.range n).map fun i => BitVec.ofNat 8 (x / 256 ^ (n - 1 - i))

/-- The least-significant-first byte sequence of a number. -/
def littleEndian (n : Nat) (x : Nat) : List Byte :=
  (List.range n).map fun i => BitVec.ofNat 8 (x / 256 ^ i)

/-- One value together with the way it is written and read. -/
structure Item where
  α : Type
  ser : Ser α
  des : Des α
  val : α

/-- Serialize the values one after the other into the same buffer; the sum of the returned
counts. -/
def writeAll : List Item → Buf → Out (Nat × Buf)
  | [], buf => .ok (0, buf)
  | it :: its, buf => do
    let r ← it.ser it.val buf
    let s ← writeAll its r.2
    .ok (r.1 + s.1, s.2)

/-- Reading one value after the other, each at the position where the previous read stopped,
yields the listed values; `n` bytes are read in total. -/
def ReadsAll : List Item → Buf → Nat → Nat → Prop
  | [], _, _, n => n = 0
  | it :: its, buf, pos, n =>
    ∃ k m, it.des buf pos = .ok (it.val, k) ∧ ReadsAll its buf (pos + k) m ∧ n = k + m

end Verif.Serialization

namespace Verif.Serialization
open Verif

/-- The serializer/deserializer pairs a user can build from the library by nesting: fixed-size
values, strings, vectors, pairs and maps. The last index says which values are covered: containers
of fewer than 2^63 elements, maps whose entries are in strict key order. -/
inductive Supported (e : Endian) :
    {α : Type} → Ser α → Des α → (α → Prop) → Prop
  | pod {α : Type} (P : Pod α) :
      Supported e (serializeFixedSizePOD P) (deserializeFixedSizePOD P) (fun _ => True)
  | string {χ : Type} (P : Pod χ) :
      Supported e (serializeString e P) (deserializeString e P) (fun s => s.length < 2 ^ 63)
  | vector {α : Type} {s : Ser α} {d : Des α} {v : α → Prop} : Supported e s d v →
      Supported e (serializeVector e s) (deserializeVector e d)
        (fun xs => xs.length < 2 ^ 63 ∧ ∀ x ∈ xs, v x)
  | pair {α β : Type} {s : Ser α} {d : Des α} {v : α → Prop} {s' : Ser β} {d' : Des β}
      {v' : β → Prop} : Supported e s d v → Supported e s' d' v' →
      Supported e (serializePair s s') (deserializePair d d') (fun p => v p.1 ∧ v' p.2)
  | map {α β : Type} {s : Ser α} {d : Des α} {v : α → Prop} {s' : Ser β} {d' : Des β}
      {v' : β → Prop} (lt : α → α → Bool) (asymm : ∀ a b, lt a b = true → lt b a = false) :
      Supported e s d v → Supported e s' d' v' →
      Supported e (serializeMap e s s') (deserializeMap e lt d d')
        (fun m => m.length < 2 ^ 63 ∧ KeySorted lt m ∧ ∀ p ∈ m, v p.1 ∧ v' p.2)

/-- The same for the network-order functions, written on a host of byte order `e` and read on a
host of byte order `e'`. -/
inductive NetSupported (e e' : Endian) :
    {α : Type} → Ser α → Des α → (α → Prop) → Prop
  | pod (s : NetSize) :
      NetSupported e e' (serializeNetworkFixedSizePOD e s) (deserializeNetworkFixedSizePOD e' s)
        (fun _ => True)
  | string (s : NetSize) :
      NetSupported e e' (serializeNetworkString e s) (deserializeNetworkString e' s)
        (fun s => s.length < 2 ^ 63)
  | vector {α : Type} {s : Ser α} {d : Des α} {v : α → Prop} : NetSupported e e' s d v →
      NetSupported e e' (serializeNetworkVector e s) (deserializeNetworkVector e' d)
        (fun xs => xs.length < 2 ^ 63 ∧ ∀ x ∈ xs, v x)
  | pair {α β : Type} {s : Ser α} {d : Des α} {v : α → Prop} {s' : Ser β} {d' : Des β}
      {v' : β → Prop} : NetSupported e e' s d v → NetSupported e e' s' d' v' →
      NetSupported e e' (serializeNetworkPair s s') (deserializeNetworkPair d d')
        (fun p => v p.1 ∧ v' p.2)
  | map {α β : Type} {s : Ser α} {d : Des α} {v : α → Prop} {s' : Ser β} {d' : Des β}
      {v' : β → Prop} (lt : α → α → Bool) (asymm : ∀ a b, lt a b = true → lt b a = false) :
      NetSupported e e' s d v → NetSupported e e' s' d' v' →
      NetSupported e e' (serializeNetworkMap e s s') (deserializeNetworkMap e' lt d d')
        (fun m => m.length < 2 ^ 63 ∧ KeySorted lt m ∧ ∀ p ∈ m, v p.1 ∧ v' p.2)

end Verif.Serialization
