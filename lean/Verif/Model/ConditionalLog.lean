/-!
# Model of the conditional logging macros

include/arc_utilities/log.hpp:14-26. The macros are replaced by tokens before the compiler sees them; the statements of the
language are parsed from the tokens, an `else` belonging to the nearest `if` that can have one. Conditions and calls are
numbered; a message is logged by a call. Expressions have no effects.
-/
namespace Verif.ConditionalLog

/-- Tokens, as far as statements go; a call includes its semicolon. Used for log.hpp:14-26. -/
inductive Token where
  | cond (c : Nat)
  | else'
  | call (n : Nat)
  | log (m : Nat)
  | semicolon
  | «open»
  | close
  deriving DecidableEq, Repr

/-- Statements. Used for log.hpp:14-26. -/
inductive Stmt where
  | call (n : Nat)
  | log (m : Nat)
  | ite (c : Nat) (yes : Stmt) (no : Option Stmt)
  | block (body : List Stmt)
  deriving Repr

/-- log.hpp:14-20 `ARC_LOG` and `ARC_LOG_STREAM`: an expression, without its semicolon -/
def arcLog (m : Nat) : List Token := [.log m]

/-- log.hpp:22-26 `ARC_LOG_COND` and `ARC_LOG_COND_STREAM`: an `if` without braces and without the semicolon -/
def arcLogCond (c m : Nat) : List Token := .cond c :: arcLog m

mutual
/-- One statement of the language; the fuel bounds the depth. Used for log.hpp:22-26. -/
def parse : Nat → List Token → Option (Stmt × List Token)
  | 0, _ => none
  | fuel + 1, .cond c :: rest =>
    match parse fuel rest with
    | some (yes, .else' :: rest') =>
      match parse fuel rest' with
      | some (no, rest'') => some (.ite c yes (some no), rest'')
      | none => none
    | some (yes, rest') => some (.ite c yes none, rest')
    | none => none
  | _ + 1, .call n :: .semicolon :: rest => some (.call n, rest)
  | _ + 1, .log m :: .semicolon :: rest => some (.log m, rest)
  | fuel + 1, .open :: rest =>
    match parseBody fuel rest with
    | some (body, rest') => some (.block body, rest')
    | none => none
  | _ + 1, _ => none
/-- Statements up to a closing brace. Used for log.hpp:22-26. -/
def parseBody : Nat → List Token → Option (List Stmt × List Token)
  | 0, _ => none
  | _ + 1, .close :: rest => some ([], rest)
  | fuel + 1, tokens =>
    match parse fuel tokens with
    | some (s, rest) =>
      match parseBody fuel rest with
      | some (body, rest') => some (s :: body, rest')
      | none => none
    | none => none
end

/-- What a program does. Used for log.hpp:14-26. -/
inductive Effect where
  | called (n : Nat)
  | logged (m : Nat)
  deriving DecidableEq

mutual
/-- What a statement does, when the conditions have these values. Used for log.hpp:14-26. -/
def run (holds : Nat → Bool) : Stmt → List Effect
  | .call n => [.called n]
  | .log m => [.logged m]
  | .ite c yes no => if holds c then run holds yes else runElse holds no
  | .block body => runBody holds body
/-- The other branch, if there is one. Used for log.hpp:14-26. -/
def runElse (holds : Nat → Bool) : Option Stmt → List Effect
  | none => []
  | some s => run holds s
/-- Statements one after another. Used for log.hpp:14-26. -/
def runBody (holds : Nat → Bool) : List Stmt → List Effect
  | [] => []
  | s :: body => run holds s ++ runBody holds body
end

/-- A text that is one statement, and what it does. Used for log.hpp:14-26. -/
def execute (tokens : List Token) (holds : Nat → Bool) : Option (List Effect) :=
  match parse (tokens.length + 1) tokens with
  | some (s, []) => some (run holds s)
  | _ => none

end Verif.ConditionalLog
