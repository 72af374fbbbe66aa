/-!
# Specification of base64 (RFC 4648, section 4), independent of the code

Encoding is by groups of three bytes; decoding of arbitrary text treats a character outside
the alphabet as the digit 0 (`-`, `.` and `,`, `_` as the digits 62 and 63, like `+` and `/`).
-/
namespace Verif.Base64.Spec

abbrev Byte := BitVec 8

/-- `'='` -/
def eqSign : Byte := 61#8

/-- The base64 digit `i`: A-Z, a-z, 0-9, +, /. -/
def symbol (i : Nat) : Byte :=
  if i < 26 then BitVec.ofNat 8 (65 + i)
  else if i < 52 then BitVec.ofNat 8 (97 + (i - 26))
  else if i < 62 then BitVec.ofNat 8 (48 + (i - 52))
  else if i = 62 then 43#8 else 47#8

/-- The number of a digit; 0 for characters that are no digit. -/
def digit (c : Byte) : Nat :=
  let n := c.toNat
  if 65 ≤ n ∧ n ≤ 90 then n - 65
  else if 97 ≤ n ∧ n ≤ 122 then n - 97 + 26
  else if 48 ≤ n ∧ n ≤ 57 then n - 48 + 52
  else if n = 43 ∨ n = 45 ∨ n = 46 then 62
  else if n = 44 ∨ n = 47 ∨ n = 95 then 63
  else 0

/-- RFC 4648 encoding with padding. -/
def encode : List Byte → List Byte
  | a :: b :: c :: rest =>
    symbol (a.toNat / 4) :: symbol (a.toNat % 4 * 16 + b.toNat / 16) ::
      symbol (b.toNat % 16 * 4 + c.toNat / 64) :: symbol (c.toNat % 64) :: encode rest
  | [a, b] =>
    [symbol (a.toNat / 4), symbol (a.toNat % 4 * 16 + b.toNat / 16), symbol (b.toNat % 16 * 4),
      eqSign]
  | [a] => [symbol (a.toNat / 4), symbol (a.toNat % 4 * 16), eqSign, eqSign]
  | [] => []

/-- First byte of a group. -/
def byte1 (a b : Byte) : Byte := BitVec.ofNat 8 (digit a * 4 + digit b / 16)
/-- Second byte of a group. -/
def byte2 (b c : Byte) : Byte := BitVec.ofNat 8 (digit b % 16 * 16 + digit c / 4)
/-- Third byte of a group. -/
def byte3 (c d : Byte) : Byte := BitVec.ofNat 8 (digit c % 4 * 64 + digit d)

/-- What decoding gives on arbitrary text: whole groups of four characters give three bytes; a last
group that is short or ends in `=` gives one byte, and a second one if its third character is
there and is not `=`. -/
def decode : List Byte → List Byte
  | [] => []
  | [a] => [BitVec.ofNat 8 (digit a * 4)]
  | [a, b] => [byte1 a b]
  | [a, b, c] => if c = eqSign then [byte1 a b] else [byte1 a b, byte2 b c]
  | [a, b, c, d] =>
    if d = eqSign then (if c = eqSign then [byte1 a b] else [byte1 a b, byte2 b c])
    else [byte1 a b, byte2 b c, byte3 c d]
  | a :: b :: c :: d :: e :: rest =>
    byte1 a b :: byte2 b c :: byte3 c d :: decode (e :: rest)

/-- Number of `=` at the end of the encoding of `n` bytes. -/
def padding (n : Nat) : Nat := (3 - n % 3) % 3

end Verif.Base64.Spec
