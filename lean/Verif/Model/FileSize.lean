import Verif.Base.Python
/-!
# Model of `parse_file_size` of `src/arc_utilities/conversions.py`

Strings are lists of characters. Digits are those of ASCII, though Python takes the digits of other scripts too.
Arithmetic is exact: the quantity is a decimal fraction, not the float next to it.
-/
namespace Verif.FileSize
open Verif

/-- What the regular expression finds (src/arc_utilities/conversions.py:12): the digits before and after the dot, whether
there is a dot, the letter of the unit. The classes of characters do not overlap, so each part takes all it can. -/
structure Match where
  whole : List Char
  dot : Bool
  fraction : List Char
  unit : Option Char

/-- `re.fullmatch(r"(\d*\.?\d*)?([kKmMgG])?([bB])?", s)` (src/arc_utilities/conversions.py:12) -/
def fullmatch (s : List Char) : Option Match :=
  let whole := s.takeWhile Char.isDigit
  let s1 := s.dropWhile Char.isDigit
  let dot := s1.head? = some '.'
  let s2 := if dot then s1.drop 1 else s1
  let fraction := s2.takeWhile Char.isDigit
  let s3 := s2.dropWhile Char.isDigit
  let unit := if s3.headD ' ' ∈ ['k', 'K', 'm', 'M', 'g', 'G'] then s3.head? else none
  let s4 := if s3.headD ' ' ∈ ['k', 'K', 'm', 'M', 'g', 'G'] then s3.drop 1 else s3
  let s5 := if s4.headD ' ' ∈ ['b', 'B'] then s4.drop 1 else s4
  if s5 = [] then some ⟨whole, dot, fraction, unit⟩ else none

/-- The number of a list of digits. Used for conversions.py:11-29. -/
def digitsValue (l : List Char) : Nat := l.foldl (fun n c => 10 * n + (c.toNat - '0'.toNat)) 0

/-- `np.round` of a fraction: to the nearest whole number, and to the even one of two. Used for conversions.py:11-29. -/
def roundHalfEven (num den : Nat) : Nat :=
  let q := num / den
  let r := num % den
  if 2 * r < den then q
  else if den < 2 * r then q + 1
  else if q % 2 = 0 then q else q + 1

/-- The factor of a unit (src/arc_utilities/conversions.py:16-25) -/
def multiplier : Option Char → Except PyExc Nat
  | none => .ok 1
  | some u =>
    if u ∈ ['k', 'K'] then .ok 1000
    else if u ∈ ['m', 'M'] then .ok 1000000
    else if u ∈ ['g', 'G'] then .ok 1000000000
    else .error .valueError

/-- `parse_file_size` (src/arc_utilities/conversions.py:11-29). `float` refuses a text without a digit. -/
def parseFileSize (s : List Char) : Except PyExc Nat :=
  match fullmatch s with
  | some m =>
    if m.whole = [] ∧ m.fraction = [] then .error .valueError
    else do
      let unit ← multiplier m.unit
      return roundHalfEven (digitsValue (m.whole ++ m.fraction) * unit) (10 ^ m.fraction.length)
  | none => .error .valueError

end Verif.FileSize
