import Verif.Base.Outcome

/-!
# Model of the exceptions with a place

include/arc_utilities/arc_exceptions.hpp. Texts are lists of characters. A line number is written in decimal, as in the "C"
locale.
-/
namespace Verif.ArcExceptions
open Verif

/-- What leaves a call by an exception: its type and its text. Used for arc_exceptions.hpp:12-16. -/
structure Thrown where
  type : Exc
  what : List Char
  deriving DecidableEq

/-- arc_exceptions.hpp:13-14: what is written to the stream -/
def place (file : List Char) (line : Nat) (message : List Char) : List Char :=
  message ++ [':', ' '] ++ file ++ [':', ' '] ++ Nat.toDigits 10 line

/-- arc_exceptions.hpp:12-16 `ArcException` -/
def arcException (type : Exc) (file : List Char) (line : Nat) (message : List Char) : Except Thrown Unit := do
  let what := place file line message
  throw ⟨type, what⟩

/-- Where an expression is in the source. Used for arc_exceptions.hpp:8. -/
structure Position where
  file : List Char
  line : Nat
  deriving DecidableEq

/-- arc_exceptions.hpp:8 `throw_arc_exception`, at a position in the source -/
def throwArcException (at' : Position) (type : Exc) (message : List Char) : Except Thrown Unit :=
  arcException type at'.file at'.line message

end Verif.ArcExceptions
