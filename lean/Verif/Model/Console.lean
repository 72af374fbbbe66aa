import Verif.Base.State
import Verif.Model.Debugger
import Verif.Model.Timestamps

/-!
# Model of the console functions of include/arc_utilities/arc_helpers.hpp

Lines 84-137, 1266-1280. Text is a list of characters. The input is everything that will ever be typed, followed by
the end of the input; waiting for it takes no time. Flushing is left out.
-/
namespace Verif.Console
open Verif Verif.Timestamps

/-- What the functions work on: `std::cin` with its flags, what was written to `std::cout` and `std::cerr`, and the
local flags of the terminal, if the standard input is one. Used for arc_helpers.hpp:84-91, 98-117. -/
structure Console where
  input : List Char
  eof : Bool
  fail : Bool
  out : List Char
  err : List Char
  terminal : Option (BitVec 32)
  /-- the flags of the terminal each time `GetChar` waited for a character; not part of the code -/
  waited : List (BitVec 32)
  deriving DecidableEq

/-- `std::ios::good`. Used for arc_helpers.hpp:84-91, 98-117. -/
def Console.good (s : Console) : Bool := !s.eof && !s.fail

/-- `std::cin.get()`. Used for arc_helpers.hpp:84-91. -/
def get (s : Console) : Option Char × Console :=
  if s.good then
    match s.input with
    | [] => (none, { s with eof := true, fail := true })
    | c :: rest => (some c, { s with input := rest })
  else (none, { s with fail := true })

/-- `std::cin.peek()`. Used for arc_helpers.hpp:98-117. -/
def peek (s : Console) : Option Char × Console :=
  if s.good then
    match s.input with
    | [] => (none, { s with eof := true })
    | c :: _ => (some c, s)
  else (none, { s with fail := true })

/-- `std::cin.ignore(1)`. Used for arc_helpers.hpp:98-117. -/
def ignoreOne (s : Console) : Console :=
  if s.good then
    match s.input with
    | [] => { s with eof := true }
    | _ :: rest => { s with input := rest }
  else { s with fail := true }

/-- `std::cin.clear()`. Used for arc_helpers.hpp:98-117. -/
def clear (s : Console) : Console := { s with eof := false, fail := false }

/-- `std::getline(std::cin, line)` with an empty `line`. Used for arc_helpers.hpp:123-128. -/
def getline (s : Console) : List Char × Console :=
  if s.good then
    let line := s.input.takeWhile (· ≠ '\n')
    match s.input.dropWhile (· ≠ '\n') with
    | [] => (line, { s with input := [], eof := true, fail := line.isEmpty })
    | _ :: rest => (line, { s with input := rest })
  else ([], { s with fail := true })

/-- `ICANON` of Linux. Used for arc_helpers.hpp:98-117. -/
def ICANON : BitVec 32 := 2#32

/-- arc_helpers.hpp:84-91 `InteractiveWaitToContinue`; `status` is /proc/self/status as in `Debugger` -/
def interactiveWaitToContinue (status : Option (List Char)) (s : Console) : Console :=
  if Debugger.isDebuggerPresent status = false then
    (get { s with out := s.out ++ "Press ENTER to continue...\n".toList }).2
  else
    { s with out := s.out ++
        "Process is under debugger, use breakpoints for interactive flow control instead\n".toList }

/-- arc_helpers.hpp:98-117 `GetChar`. Without a terminal `tcgetattr` leaves the flags unset, and reading them is
undefined. -/
def getChar : M Console (Option Char) := fun s =>
  match s.terminal with
  | none => (.ub, s)
  | some flags =>
    let s := { s with terminal := some (flags &&& ~~~ICANON) }
    let s := { s with waited := s.waited ++ [flags &&& ~~~ICANON] }
    let (c, s) := peek s
    let s := clear (ignoreOne s)
    (.ok c, { s with terminal := some flags })

/-- arc_helpers.hpp:123-128 `WaitForInput` -/
def waitForInput (message : List Char) (s : Console) : List Char × Console :=
  getline { s with out := s.out ++ message }

/-- `std::to_string` of an integer. Used for arc_helpers.hpp:1268-1269. -/
def integerText (i : Int) : List Char :=
  if i < 0 then '-' :: decimal i.natAbs else decimal i.natAbs

/-- arc_helpers.hpp:1268-1269: the text printed -/
def printStr (msg : List Char) (msgLevel printLevel : Int) : List Char :=
  '[' :: (integerText msgLevel ++ '/' :: (integerText printLevel ++ ']' :: ' ' :: (msg ++ ['\n'])))

/-- arc_helpers.hpp:1266-1272 `ConditionalPrint` -/
def conditionalPrint (msg : List Char) (msgLevel printLevel : Int) (s : Console) : Console :=
  if msgLevel ≤ printLevel then { s with out := s.out ++ printStr msg msgLevel printLevel } else s

/-- arc_helpers.hpp:1274-1280 `ConditionalError` -/
def conditionalError (msg : List Char) (msgLevel printLevel : Int) (s : Console) : Console :=
  if msgLevel ≤ printLevel then { s with err := s.err ++ printStr msg msgLevel printLevel } else s

/-- arc_helpers.hpp:130-138 `ConditionalPrintWaitForInteractiveInput` -/
def conditionalPrintWait (status : Option (List Char)) (msg : List Char) (msgLevel printLevel : Int) (s : Console) :
    Console :=
  if msgLevel ≤ printLevel then
    interactiveWaitToContinue status { s with out := s.out ++ printStr msg msgLevel printLevel }
  else s

end Verif.Console
