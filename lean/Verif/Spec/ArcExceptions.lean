/-! # What the text of an exception with a place tells a reader -/
namespace Verif.ArcExceptions

/-- The number that a text ends with, after its last space. -/
def lineOf (text : List Char) : Nat := Nat.ofDigitChars 10 (text.reverse.takeWhile (fun c => c != ' ')).reverse 0

end Verif.ArcExceptions
