import Verif.Model.Log

/-!
# Specification: what a program's log files should hold

Every file is the list of the lines logged to it, in the order of the calls. Only the type of
operations is shared with the model.
-/
namespace Verif.Log

/-- What a logger is to its file. -/
inductive Status
  /-- constructed from a file name, and never copied since -/
  | original
  /-- constructed from a file name, and copied since -/
  | copied
  /-- attached by a copy, a move or an assignment -/
  | attached
  /-- moved from: it writes nothing -/
  | detached
  deriving DecidableEq

/-- The lines of every log file, and the loggers: for each the file it is named after. -/
structure Ref where
  lines : Path → Option (List String)
  loggers : Nat → Option (Path × Status)

/-- The text of a list of lines. -/
def text (ls : List String) : List Char := ls.flatMap fun l => l.toList ++ ['\n']

/-- Change one entry. -/
def Ref.put (r : Ref) (i : Nat) (x : Option (Path × Status)) : Ref :=
  { r with loggers := fun j => if j = i then x else r.loggers j }

/-- A logger of which a copy is made. -/
def Status.afterCopy : Status → Status
  | .original => .copied
  | s => s

/-- What an operation should do. -/
def Ref.next (r : Ref) : Op → Ref
  | .create n p header =>
    { r.put n (some (p, .original)) with
        lines := fun q => if q = p then some header.toList else r.lines q }
  | .copy n i =>
    match r.loggers i with
    | some (p, s) => (r.put i (some (p, s.afterCopy))).put n (some (p, .attached))
    | none => r
  | .move n i =>
    match r.loggers i with
    | some (p, _) => (r.put i (some (p, .detached))).put n (some (p, .attached))
    | none => r
  | .copyAssign t i =>
    match r.loggers i with
    | some (p, s) => (r.put i (some (p, s.afterCopy))).put t (some (p, .attached))
    | none => r
  | .moveAssign t i =>
    match r.loggers t, r.loggers i with
    | some (q, _), some (p, _) => (r.put i (some (q, .detached))).put t (some (p, .attached))
    | _, _ => r
  | .destroy t => r.put t none
  | .log t s =>
    match r.loggers t with
    | some (_, .detached) => r
    | some (p, _) =>
      { r with lines := fun q => if q = p then (r.lines q).map (· ++ [s]) else r.lines q }
    | none => r

/-- What a program may do next: use loggers that exist, construct under a free name, open no file a
living logger is named after, and not write through a logger that was constructed from a file name
and then copied. -/
def Ref.allows (r : Ref) : Op → Prop
  | .create n p _ => r.loggers n = none ∧ ∀ i q s, r.loggers i = some (q, s) → q ≠ p
  | .copy n i => r.loggers n = none ∧ r.loggers i ≠ none
  | .move n i => r.loggers n = none ∧ r.loggers i ≠ none
  | .copyAssign t i => r.loggers t ≠ none ∧ r.loggers i ≠ none
  | .moveAssign t i => r.loggers t ≠ none ∧ r.loggers i ≠ none
  | .destroy t => r.loggers t ≠ none
  | .log t _ => ∃ p s, r.loggers t = some (p, s) ∧ s ≠ .copied

/-- A whole program. -/
def Ref.after (r : Ref) : List Op → Ref
  | [] => r
  | op :: ops => (r.next op).after ops

/-- Every operation of a program is allowed when it comes. -/
def Ref.allowsAll (r : Ref) : List Op → Prop
  | [] => True
  | op :: ops => r.allows op ∧ (r.next op).allowsAll ops

/-- No loggers yet. -/
def Ref.start : Ref := ⟨fun _ => none, fun _ => none⟩

/-- A folder that exists or can be made, with every folder above it that is missing. -/
inductive Creatable (fs : Fs) : Path → Prop
  | present (c : String) (parent : Path) : fs.dir (c :: parent) = true → Creatable fs (c :: parent)
  | top (c : String) : fs.denied [c] = false → fs.file [c] = none → Creatable fs [c]
  | inside (c : String) (parent : Path) : Creatable fs parent → fs.denied (c :: parent) = false →
      fs.file (c :: parent) = none → Creatable fs (c :: parent)

end Verif.Log
