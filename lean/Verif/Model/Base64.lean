import Verif.Base.Outcome

/-!
# Model of src/arc_utilities/base64_helpers.cpp

`char` is a signed 8-bit type on the supported platforms; a string is the list of the 8-bit patterns
of its characters. Intermediate `int32_t` values are 32-bit vectors; they are never negative (table
entries are below 64), so `>>` is a logical shift.
-/
namespace Verif.Base64
open Verif

/-- `uint8_t`. Used for base64_helpers.cpp:50-53, 32-38. -/
abbrev Byte := BitVec 8

/-- `'='`. Used for base64_helpers.cpp:29, 42. -/
def padChar : Byte := 61#8

/-- base64_helpers.cpp:20-25 `B64IndexTable`: the 123 entries listed; the other 133 of the 256
are value-initialised to 0. -/
def indexTable : List (BitVec 32) := [
    0,  0,  0,  0,  0,  0,  0,  0,  0,  0,  0,  0,  0,  0,  0,  0,  0,  0,  0,  0,  0,  0,  0,  0,  0,
    0,  0,  0,  0,  0,  0,  0,  0,  0,  0,  0,  0,  0,  0,  0,  0,  0,  0,  62, 63, 62, 62, 63, 52, 53,
    54, 55, 56, 57, 58, 59, 60, 61, 0,  0,  0,  0,  0,  0,  0,  0,  1,  2,  3,  4,  5,  6,  7,  8,  9,
    10, 11, 12, 13, 14, 15, 16, 17, 18, 19, 20, 21, 22, 23, 24, 25, 0,  0,  0,  0,  63, 0,  26, 27, 28,
    29, 30, 31, 32, 33, 34, 35, 36, 37, 38, 39, 40, 41, 42, 43, 44, 45, 46, 47, 48, 49, 50, 51] ++
  List.replicate 133 0

/-- base64_helpers.cpp:50-53 `B64ValueTable`: 'A'-'Z', 'a'-'z', '0'-'9', '+', '/' by character code. -/
def valueTable : List Byte := [
    65, 66, 67, 68, 69, 70, 71, 72, 73, 74, 75, 76, 77, 78, 79, 80, 81, 82, 83, 84, 85, 86,
    87, 88, 89, 90, 97, 98, 99, 100, 101, 102, 103, 104, 105, 106, 107, 108, 109, 110, 111, 112, 113, 114,
    115, 116, 117, 118, 119, 120, 121, 122, 48, 49, 50, 51, 52, 53, 54, 55, 56, 57, 43, 47]

/-- `operator[]` on a vector or array: out of range is undefined. Used for base64_helpers.cpp:29, 42. -/
def at_ {α : Type} (l : List α) (i : Nat) : Out α :=
  match l[i]? with
  | some x => .ok x
  | none => .ub

/-- Writing through `operator[]`: out of range is undefined. Used for base64_helpers.cpp:32-38, 27-48. -/
def put {α : Type} (l : List α) (i : Nat) (x : α) : Out (List α) :=
  if i < l.length then .ok (l.set i x) else .ub

/-- `operator[]` on a const `std::string`: position `size()` reads the terminating null
character, later positions are undefined. Used for base64_helpers.cpp:29, 42. -/
def charAt (s : List Byte) (i : Nat) : Out Byte :=
  if i = s.length then .ok 0#8 else at_ s i

/-- `B64IndexTable[c]` for a `char c`: a character of 128 or above is a negative `char`, which
converts to a huge index. Used for base64_helpers.cpp:32-38, 27-48. -/
def tableIndex (c : Byte) : Out (BitVec 32) :=
  if c.toNat < 128 then at_ indexTable c.toNat else .ub

/-- `B64IndexTable[encoded[i]]`. Used for base64_helpers.cpp:32-38, 27-48. -/
def lookup (s : List Byte) (i : Nat) : Out (BitVec 32) := do
  let c ← charAt s i
  tableIndex c

/-- base64_helpers.cpp:32-38: the main loop of `Decode` from position `i`, output position `j`. -/
def decodeLoop (s : List Byte) (L : Nat) (i j : Nat) (buffer : List Byte) : Out (List Byte) :=
  if i < L then do
    let a ← lookup s i
    let b ← lookup s (i + 1)
    let c ← lookup s (i + 2)
    let d ← lookup s (i + 3)
    let n : BitVec 32 := a <<< 18 ||| b <<< 12 ||| c <<< 6 ||| d
    let buffer ← put buffer j ((n >>> 16).setWidth 8)
    let buffer ← put buffer (j + 1) ((n >>> 8 &&& 0xFF#32).setWidth 8)
    let buffer ← put buffer (j + 2) ((n &&& 0xFF#32).setWidth 8)
    decodeLoop s L (i + 4) (j + 3) buffer
  else .ok buffer
termination_by L - i

/-- base64_helpers.cpp:29: the value of `pad` as a condition (short-circuit evaluation). -/
def padFlag (s : List Byte) : Out Bool :=
  if 0 < s.length then
    if s.length % 4 ≠ 0 then .ok true
    else do
      let c ← charAt s (s.length - 1)
      .ok (decide (c = padChar))
  else .ok false

/-- base64_helpers.cpp:42: is there a third character in the last group that is not `=`? -/
def thirdFlag (s : List Byte) (L : Nat) : Out Bool :=
  if L + 2 < s.length then do
    let c ← charAt s (L + 2)
    .ok (decide (c ≠ padChar))
  else .ok false

/-- base64_helpers.cpp:27-48 `Decode` -/
def decode (s : List Byte) : Out (List Byte) := do
  let padBool ← padFlag s
  let pad := if padBool then 1 else 0
  let L := ((s.length + 3) / 4 - pad) * 4
  let buffer : List Byte := List.replicate (L / 4 * 3 + pad) 0#8
  let buffer ← decodeLoop s L 0 0 buffer
  if 0 < pad then do
    let a ← lookup s L
    let b ← lookup s (L + 1)
    let n : BitVec 32 := a <<< 18 ||| b <<< 12
    let buffer ← put buffer (buffer.length - 1) ((n >>> 16).setWidth 8)
    let more ← thirdFlag s L
    if more then do
      let c ← lookup s (L + 2)
      let n := n ||| c <<< 6
      .ok (buffer ++ [(n >>> 8 &&& 0xFF#32).setWidth 8])
    else .ok buffer
  else .ok buffer

/-- `binary[i]` promoted to `int`. Used for base64_helpers.cpp:65-73, 55-87. -/
def byteAt (l : List Byte) (i : Nat) : Out (BitVec 32) := do
  let b ← at_ l i
  .ok (b.setWidth 32)

/-- `B64ValueTable[x]`. Used for base64_helpers.cpp:65-73, 55-87. -/
def value (x : BitVec 32) : Out Byte := at_ valueTable x.toNat

/-- base64_helpers.cpp:65-73: the main loop of `Encode`; returns the string and both positions. -/
def encodeLoop (bin : List Byte) (i o : Nat) (enc : List Byte) : Out (List Byte × Nat × Nat) :=
  if 3 ≤ bin.length - i then do
    let b0 ← byteAt bin i
    let b1 ← byteAt bin (i + 1)
    let b2 ← byteAt bin (i + 2)
    let v0 ← value (b0 >>> 2)
    let enc ← put enc o v0
    let v1 ← value ((b0 &&& 0x03#32) <<< 4 ||| b1 >>> 4)
    let enc ← put enc (o + 1) v1
    let v2 ← value ((b1 &&& 0x0f#32) <<< 2 ||| b2 >>> 6)
    let enc ← put enc (o + 2) v2
    let v3 ← value (b2 &&& 0x3f#32)
    let enc ← put enc (o + 3) v3
    encodeLoop bin (i + 3) (o + 4) enc
  else .ok (enc, i, o)
termination_by bin.length - i

/-- base64_helpers.cpp:55-87 `Encode`. The test at line 58 (`encoded_length < binary_length`)
detects wrap-around of `size_t`; with exact lengths it never fires, and a vector of 2^63 bytes
cannot exist, so it is kept but never true. -/
def encode (bin : List Byte) : Out (List Byte) := do
  let len := bin.length
  let encodedLength := 4 * ((len + 2) / 3)
  if encodedLength < len then .ok []
  else do
    let enc : List Byte := List.replicate encodedLength 0#8
    let (enc, i, o) ← encodeLoop bin 0 0 enc
    if i < len then do
      let b0 ← byteAt bin i
      let v0 ← value (b0 >>> 2)
      let enc ← put enc o v0
      let (enc, o) ←
        if len - i = 1 then do
          let v1 ← value ((b0 &&& 0x03#32) <<< 4)
          let enc ← put enc (o + 1) v1
          let enc ← put enc (o + 2) padChar
          Out.ok (enc, o + 3)
        else do
          let b1 ← byteAt bin (i + 1)
          let v1 ← value ((b0 &&& 0x03#32) <<< 4 ||| b1 >>> 4)
          let enc ← put enc (o + 1) v1
          let v2 ← value ((b1 &&& 0x0f#32) <<< 2)
          let enc ← put enc (o + 2) v2
          Out.ok (enc, o + 3)
      put enc o padChar
    else .ok enc

end Verif.Base64
