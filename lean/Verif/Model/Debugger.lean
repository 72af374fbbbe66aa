/-!
# Model of `IsDebuggerPresent`, include/arc_utilities/arc_helpers.hpp:63-82

The file is a list of characters; one `read` gives as much as fits into the buffer.
-/
namespace Verif.Debugger

/-- arc_helpers.hpp:71 -/
def tracerPid : List Char := "TracerPid:".toList

/-- `strstr`: the text from the first place where the words looked for are found. Used for arc_helpers.hpp:63-82. -/
def strstr (needle : List Char) : List Char → Option (List Char)
  | [] => none
  | c :: s => if needle.isPrefixOf (c :: s) then some (c :: s) else strstr needle s

/-- What a C string is: the characters before the first zero. Used for arc_helpers.hpp:63-82. -/
def cString (s : List Char) : List Char := s.takeWhile (· ≠ '\x00')

/-- The white space that `atoi` skips. Used for arc_helpers.hpp:63-82. -/
def space (c : Char) : Bool := c = ' ' ∨ c = '\t' ∨ c = '\n' ∨ c = '\x0b' ∨ c = '\x0c' ∨ c = '\r'

/-- A decimal digit. Used for arc_helpers.hpp:63-82. -/
def isDigit (c : Char) : Bool := '0' ≤ c ∧ c ≤ '9'

/-- The number that the digits at the start of a text are. Used for arc_helpers.hpp:63-82. -/
def number (s : List Char) : Nat := (s.takeWhile isDigit).foldl (fun n c => 10 * n + (c.toNat - 48)) 0

/-- `atoi`; numbers that are too large for an `int` are not modelled. Used for arc_helpers.hpp:63-82. -/
def atoi (s : List Char) : Int :=
  match s.dropWhile space with
  | '-' :: rest => -(number rest : Int)
  | '+' :: rest => number rest
  | rest => number rest

/-- arc_helpers.hpp:63-82: `none` is a file that cannot be opened, `some` are its contents; the buffer has 1024 characters,
one of them for the zero. -/
def isDebuggerPresent : Option (List Char) → Bool
  | none => false
  | some contents =>
    let buf := contents.take 1023
    if buf.length > 0 then
      match strstr tracerPid (cString buf) with
      | some found => atoi (found.drop 10) ≠ 0
      | none => false
    else false

end Verif.Debugger
