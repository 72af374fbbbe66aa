import Verif.Base.State

/-!
# Model: the log file writer (`log.hpp`, `filesystem.hpp`)
-/
namespace Verif.Log
open Verif

/-- A path as its components, innermost first: `/tmp/run/a.txt` is `["a.txt", "run", "tmp", "/"]`,
`a.txt` is `["a.txt"]` and the empty path is `[]`.
Simplified: no `.`, `..`, symbolic links or trailing slashes. Used for filesystem.hpp:11,19, 18. -/
abbrev Path := List String

/-- What the file system holds: its directories, the contents of its files, and the paths the
operating system refuses to create or open for writing. Used for filesystem.hpp:11,19, 18. -/
structure Fs where
  dir : Path → Bool
  file : Path → Option (List Char)
  denied : Path → Bool

/-- `boost::filesystem::is_directory` as `CreateDirectory` uses it
(include/arc_utilities/filesystem.hpp:11,19). The empty path is no directory. -/
def isDirectory (fs : Fs) (p : Path) : Bool := p != [] && fs.dir p

/-- Whether an entry can be made in the folder of a path: a path of one component is relative to the
working directory. Used for filesystem.hpp:18. -/
def folderReady (fs : Fs) (p : Path) : Bool := p.tail == [] || fs.dir p.tail

/-- `boost::filesystem::create_directory`: the last step of `create_directories`
(include/arc_utilities/filesystem.hpp:18). A `filesystem_error` is a `std::runtime_error`. -/
def mkdir (p : Path) : M Fs Unit := fun fs =>
  if fs.denied p || (fs.file p).isSome || !folderReady fs p then (.throws .runtimeError, fs)
  else (.ok (), { fs with dir := fun q => if q = p then true else fs.dir q })

/-- `boost::filesystem::create_directories` (include/arc_utilities/filesystem.hpp:18): it makes the
missing parents first, and throws for the empty path. -/
def createDirectories : Path → M Fs Unit
  | [] => M.throw .runtimeError
  | c :: parent => fun fs =>
    if fs.dir (c :: parent) then (.ok (), fs)
    else if parent = [] ∨ fs.dir parent ∨ (fs.file parent).isSome then mkdir (c :: parent) fs
    else (do createDirectories parent; mkdir (c :: parent)) fs

/-- `arc_utilities::CreateDirectory` (include/arc_utilities/filesystem.hpp:10-30), without its
console output. -/
def createDirectory (p : Path) : M Fs Unit := fun fs =>
  if isDirectory fs p then (.ok (), fs)
  else (do
    createDirectories p
    let fs' ← M.get
    if isDirectory fs' p then pure () else M.throw .runtimeError) fs

/-- Whether `std::ofstream::open` for writing succeeds on a path. Used for log.hpp:39, 62,65,93. -/
def openable (fs : Fs) (p : Path) : Bool :=
  p != [] && !fs.dir p && !fs.denied p && folderReady fs p

/-- An `std::ofstream`: closed, writing at its own position, or appending. Used for log.hpp:39, 62,65,93. -/
inductive Stream
  | closed
  | at (p : Path) (pos : Nat)
  | app (p : Path)
  deriving DecidableEq

/-- Replace the contents of a file. Used for log.hpp:39, 62,65,93. -/
def Fs.put (fs : Fs) (p : Path) (s : List Char) : Fs :=
  { fs with file := fun q => if q = p then some s else fs.file q }

/-- `open(filename, out | trunc)` (include/arc_utilities/log.hpp:39) -/
def openTrunc (fs : Fs) (p : Path) : Fs × Stream :=
  if openable fs p then (fs.put p [], .at p 0) else (fs, .closed)

/-- `open(filename, out | app)` (include/arc_utilities/log.hpp:62,65,93) -/
def openApp (fs : Fs) (p : Path) : Fs × Stream :=
  if openable fs p then (fs.put p ((fs.file p).getD []), .app p) else (fs, .closed)

/-- What a write of `s` at position `pos` makes of a file: a gap is filled with zero bytes. Used for log.hpp:56,100. -/
def splice (content : List Char) (pos : Nat) (s : List Char) : List Char :=
  content.take pos ++ List.replicate (pos - content.length) '\x00' ++ s ++
    content.drop (pos + s.length)

/-- `out_file_ << s << std::endl`: the write and the flush (include/arc_utilities/log.hpp:56,100).
Nothing is written through a closed stream. Simplified: the disk never fills up. -/
def Stream.line (fs : Fs) (st : Stream) (s : String) : Fs × Stream :=
  let text := s.toList ++ ['\n']
  match st with
  | .closed => (fs, .closed)
  | .at p pos => (fs.put p (splice ((fs.file p).getD []) pos text), .at p (pos + text.length))
  | .app p => (fs.put p ((fs.file p).getD [] ++ text), .app p)

/-- The data members of `Log` (include/arc_utilities/log.hpp:104-107), without the mutex, which
`LogThreads` models. -/
structure Obj where
  filename : Path
  stream : Stream
  deriving DecidableEq

/-- The part of `Log(filename, add_header)` after the folder exists
(include/arc_utilities/log.hpp:39-57). `header` is the text of the clock when a header is wanted. -/
def openNew (p : Path) (header : Option String) : M Fs Obj := fun fs =>
  match openTrunc fs p with
  | (fs', .closed) => (.throws .invalidArgument, fs')
  | (fs', st) =>
    match header with
    | none => (.ok ⟨p, st⟩, fs')
    | some h => (.ok ⟨p, (st.line fs' h).2⟩, (st.line fs' h).1)

/-- `Log(filename, add_header)` (include/arc_utilities/log.hpp:34-58) -/
def construct (p : Path) (header : Option String) : M Fs Obj := do
  createDirectory p.tail
  openNew p header

/-- `Log(const Log&)` (include/arc_utilities/log.hpp:61) -/
def copyConstruct (fs : Fs) (other : Obj) : Fs × Obj :=
  ((openApp fs other.filename).1, ⟨other.filename, (openApp fs other.filename).2⟩)

/-- `Log(Log&&)` (include/arc_utilities/log.hpp:64-66): the new object, then the object moved from. -/
def moveConstruct (fs : Fs) (other : Obj) : Fs × Obj × Obj :=
  ((openApp fs other.filename).1, ⟨other.filename, (openApp fs other.filename).2⟩,
    ⟨other.filename, .closed⟩)

/-- `operator=(Log&&)` for two objects (include/arc_utilities/log.hpp:83-94): the object assigned
to, then the object moved from. -/
def moveAssign (fs : Fs) (this other : Obj) : Fs × Obj × Obj :=
  ((openApp fs other.filename).1, ⟨other.filename, (openApp fs other.filename).2⟩,
    ⟨this.filename, .closed⟩)

/-- `operator=(Log&&)` of an object to itself: the swap does nothing and the stream is reopened
(include/arc_utilities/log.hpp:83-94). -/
def moveAssignSelf (fs : Fs) (this : Obj) : Fs × Obj :=
  ((openApp fs this.filename).1, ⟨this.filename, (openApp fs this.filename).2⟩)

/-- `operator=(const Log&)` (include/arc_utilities/log.hpp:76-80) -/
def copyAssign (fs : Fs) (this other : Obj) : Fs × Obj :=
  let tmp := copyConstruct fs other
  let moved := moveAssign tmp.1 this tmp.2
  (moved.1, moved.2.1)

/-- What a program does with its loggers. A logger is named by a number. Used for log.hpp:34-94. -/
inductive Op
  | create (new : Nat) (p : Path) (header : Option String)
  | copy (new other : Nat)
  | move (new other : Nat)
  | copyAssign (this other : Nat)
  | moveAssign (this other : Nat)
  | destroy (this : Nat)
  | log (this : Nat) (message : String)

/-- The file system and the loggers alive. Used for log.hpp:34-107. -/
structure World where
  fs : Fs
  objs : Nat → Option Obj

/-- A map with one entry replaced. Used for log.hpp:34-94. -/
def setAt {α : Type} (f : Nat → α) (i : Nat) (a : α) : Nat → α := fun j => if j = i then a else f j

/-- One operation. A program that uses a logger that does not exist, or constructs one under the name
of another, is not well formed: `ub`. Used for log.hpp:34-94. -/
def step : Op → M World Unit
  | .create n p header => fun w =>
    match w.objs n with
    | some _ => (.ub, w)
    | none =>
      match construct p header w.fs with
      | (.ok o, fs) => (.ok (), ⟨fs, setAt w.objs n (some o)⟩)
      | (.throws e, fs) => (.throws e, ⟨fs, w.objs⟩)
      | (.abort, fs) => (.abort, ⟨fs, w.objs⟩)
      | (.ub, fs) => (.ub, ⟨fs, w.objs⟩)
  | .copy n i => fun w =>
    match w.objs n, w.objs i with
    | none, some o =>
      (.ok (), ⟨(copyConstruct w.fs o).1, setAt w.objs n (some (copyConstruct w.fs o).2)⟩)
    | _, _ => (.ub, w)
  | .move n i => fun w =>
    match w.objs n, w.objs i with
    | none, some o =>
      (.ok (), ⟨(moveConstruct w.fs o).1,
        setAt (setAt w.objs i (some (moveConstruct w.fs o).2.2)) n
          (some (moveConstruct w.fs o).2.1)⟩)
    | _, _ => (.ub, w)
  | .copyAssign t i => fun w =>
    match w.objs t, w.objs i with
    | some this, some o =>
      (.ok (), ⟨(copyAssign w.fs this o).1, setAt w.objs t (some (copyAssign w.fs this o).2)⟩)
    | _, _ => (.ub, w)
  | .moveAssign t i => fun w =>
    match w.objs t, w.objs i with
    | some this, some o =>
      if t = i then
        (.ok (), ⟨(moveAssignSelf w.fs this).1, setAt w.objs t (some (moveAssignSelf w.fs this).2)⟩)
      else
        (.ok (), ⟨(moveAssign w.fs this o).1,
          setAt (setAt w.objs i (some (moveAssign w.fs this o).2.2)) t
            (some (moveAssign w.fs this o).2.1)⟩)
    | _, _ => (.ub, w)
  | .destroy t => fun w =>
    match w.objs t with
    | some _ => (.ok (), ⟨w.fs, setAt w.objs t none⟩)
    | none => (.ub, w)
  | .log t s => fun w =>
    match w.objs t with
    | some o =>
      (.ok (), ⟨(o.stream.line w.fs s).1,
        setAt w.objs t (some ⟨o.filename, (o.stream.line w.fs s).2⟩)⟩)
    | none => (.ub, w)

/-- A program: its operations in order, up to the first that does not return. Used for log.hpp:34-94. -/
def run : List Op → M World Unit
  | [] => pure ()
  | op :: ops => do step op; run ops

end Verif.Log
