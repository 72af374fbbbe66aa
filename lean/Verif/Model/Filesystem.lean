import Verif.Base.Python
/-!
# Model of `src/arc_utilities/filesystem_utils.py`

A file system is the list of its entries: the path of each with what is there. A path is the list of its names from the
root. Simplifications: a symbolic link holds the path of what it finally points to, permissions and other processes are
left out, an entry is a file, a directory or a link, and only the last name of a path that is asked for may be a link.
-/
namespace Verif.Filesystem
open Verif

/-- A name in a directory. Used for filesystem_utils.py:100-102, 96-103. -/
abbrev Name := List Char

/-- A path from the root. Used for filesystem_utils.py:75-82, 64-72. -/
abbrev Path := List Name

/-- What is found at a path. Used for filesystem_utils.py:75-82, 64-72. -/
inductive Node where
  | file (size : Nat)
  | dir
  | link (target : Path)
  deriving DecidableEq, Repr

/-- A file system. Used for filesystem_utils.py:75-82, 64-72. -/
abbrev FS := List (Path × Node)

/-- What is at a path (`lstat`). Used for filesystem_utils.py:75-82, 40-41. -/
def FS.get (fs : FS) (p : Path) : Option Node := (fs.find? fun e => e.1 = p).map Prod.snd

/-- What is at a path when links are followed (`stat`), with the path where it is. Used for filesystem_utils.py:75-82,
40-41. -/
def FS.follow (fs : FS) (p : Path) : Option (Path × Node) :=
  match fs.get p with
  | some (.link t) => (fs.get t).map fun n => (t, n)
  | some n => some (p, n)
  | none => none

/-- `Path.is_file`, which follows links. Used for filesystem_utils.py:75-82, 40-41. -/
def FS.isFile (fs : FS) (p : Path) : Bool :=
  match fs.follow p with
  | some (_, .file _) => true
  | _ => false

/-- `Path.is_dir`, which follows links. Used for filesystem_utils.py:64-72, 24-37. -/
def FS.isDir (fs : FS) (p : Path) : Bool :=
  match fs.follow p with
  | some (_, .dir) => true
  | _ => false

/-- `Path.exists`, which follows links. Used for filesystem_utils.py:7-21, 96-103. -/
def FS.exists' (fs : FS) (p : Path) : Bool := (fs.follow p).isSome

/-- The paths in a directory, in the order of the directory. Used for filesystem_utils.py:75-82, 64-72. -/
def FS.children (fs : FS) (p : Path) : List Path :=
  (fs.map Prod.fst).filter fun k => k ≠ [] ∧ k.dropLast = p

/-- The paths in the directory that a path leads to: `Path.glob('*')`, empty when there is none. Used for
filesystem_utils.py:75-82. -/
def FS.glob (fs : FS) (p : Path) : List Path :=
  match fs.follow p with
  | some (q, .dir) => fs.children q
  | _ => []

/-- The paths in the directory that a path leads to: `Path.iterdir()`, which raises when there is none. Used for
filesystem_utils.py:64-72, 24-37. -/
def FS.iterdir (fs : FS) (p : Path) : Except PyExc (List Path) :=
  match fs.follow p with
  | some (q, .dir) => .ok (fs.children q)
  | _ => .error .osError

/-- Takes an entry away. Used for filesystem_utils.py:75-82. -/
def FS.erase (fs : FS) (p : Path) : FS := fs.filter fun e => e.1 ≠ p

/-- `Path.rmdir`: only an empty directory that is not a link. Used for filesystem_utils.py:75-82. -/
def FS.rmdir (fs : FS) (p : Path) : FS × Option PyExc :=
  match fs.get p with
  | some .dir => if fs.children p = [] then (fs.erase p, none) else (fs, some .osError)
  | _ => (fs, some .osError)

/-- A loop over paths that ends with the first exception. Used for filesystem_utils.py:75-82, 48-61. -/
def each (f : FS → Path → FS × Option PyExc) : List Path → FS → FS × Option PyExc
  | [], fs => (fs, none)
  | c :: cs, fs =>
    match f fs c with
    | (fs', none) => each f cs fs'
    | (fs', some e) => (fs', some e)

/-- `rm_tree` (src/arc_utilities/filesystem_utils.py:75-82): the file system after it, and the exception if it raises.
The number is Python's limit of nested calls. -/
def rmTree : Nat → FS → Path → FS × Option PyExc
  | 0, fs, _ => (fs, some .runtimeError)
  | limit + 1, fs, path =>
    match each (fun fs child => if fs.isFile child then (fs.erase child, none) else rmTree limit fs child)
        (fs.glob path) fs with
    | (fs', none) => fs'.rmdir path
    | (fs', some e) => (fs', some e)

/-- `count_files_recursive` (src/arc_utilities/filesystem_utils.py:64-72) -/
def countFiles : Nat → FS → Path → Except PyExc Nat
  | 0, _, _ => .error .runtimeError
  | limit + 1, fs, path => do
    let cs ← fs.iterdir path
    cs.foldlM (fun count child => do
      if fs.isDir child then return count + (← countFiles limit fs child) else return count + 1) 0

/-- `Path.glob('**/*')`: what is in the directory and its directories; links to directories are not gone into. Used for
filesystem_utils.py:40-41. -/
def walk : Nat → FS → Path → List Path
  | 0, _, _ => []
  | depth + 1, fs, path => (fs.glob path).flatMap fun c =>
      c :: (if fs.get c = some .dir then walk depth fs c else [])

/-- `f.stat().st_size`, which follows links. Used for filesystem_utils.py:40-41. -/
def FS.size (fs : FS) (p : Path) : Nat :=
  match fs.follow p with
  | some (_, .file n) => n
  | _ => 0

/-- `directory_size` (src/arc_utilities/filesystem_utils.py:40-41). `depth` is that of the tree or more: the search of
pathlib has no limit but that of nested calls. -/
def directorySize (depth : Nat) (fs : FS) (dir : Path) : Nat :=
  (((walk depth fs dir).filter fs.isFile).map fs.size).sum

/-- `get_all_subdirs` (src/arc_utilities/filesystem_utils.py:24-37) -/
def getAllSubdirs (fs : FS) (directories : List Path) : Except PyExc (List Path) :=
  directories.foldlM (fun all d => do return all ++ (← fs.iterdir d).filter fs.isDir) []

/-- `Path.mkdir(parents=…, exist_ok=False)` for a path at which nothing is found. A link that leads nowhere is something
in the way. The directories missing above it are made if `parents` is set. Used for filesystem_utils.py:7-21. -/
def FS.mkdir : Nat → FS → Path → Bool → FS × Option PyExc
  | 0, fs, _, _ => (fs, some .runtimeError)
  | limit + 1, fs, p, parents =>
    if (fs.get p).isSome then (fs, some .osError)
    else if fs.get p.dropLast = some .dir then (fs ++ [(p, .dir)], none)
    else if parents ∧ (fs.get p.dropLast) = none ∧ p ≠ [] then
      match FS.mkdir limit fs p.dropLast true with
      | (fs', none) => (fs' ++ [(p, .dir)], none)
      | (fs', some e) => (fs', some e)
    else (fs, some .osError)

/-- `mkdir_and_ask` (src/arc_utilities/filesystem_utils.py:7-21): the result or the exception. `response` is what the
user answers. -/
def mkdirAndAsk (limit : Nat) (fs : FS) (path : Path) (parents yes : Bool) (response : String) : FS × Except PyExc Bool :=
  if fs.exists' path then
    if yes then (fs, .ok true)
    else if response = "y" ∨ response = "Y" ∨ response = "" then (fs, .ok true)
    else (fs, .ok false)
  else
    match fs.mkdir limit path parents with
    | (fs', none) => (fs', .ok true)
    | (fs', some e) => (fs', .error e)

/-- `ask_to_remove_directories` (src/arc_utilities/filesystem_utils.py:48-61). The argument is gone through twice; an
iterator or generator (`once`) has nothing left the second time. -/
def askToRemove (limit : Nat) (fs : FS) (directories : List Path) (once : Bool) (k : String) : FS × Option PyExc :=
  let second := if once then [] else directories
  if k = "" ∨ k = "y" ∨ k = "Y" then each (rmTree limit) second fs
  else (fs, none)

/-! ### Names -/

/-- `s.split('.')`. Used for filesystem_utils.py:100-102. -/
def split : List Char → List (List Char)
  | [] => [[]]
  | c :: cs =>
    if c = '.' then [] :: split cs
    else match split cs with
      | [] => [[c]]
      | w :: ws => (c :: w) :: ws

/-- `PurePath.stem`: the name without what begins with its last dot, unless that is the first or the last character.
Used for filesystem_utils.py:100-102. -/
def stem (name : Name) : Name :=
  if '.' ∈ name then
    let before := name.take (name.length - 1 - (name.reverse.takeWhile (· ≠ '.')).length)
    if 0 < before.length ∧ before.length < name.length - 1 then before else name
  else name

/-- `PurePath.suffixes`. Used for filesystem_utils.py:100-102. -/
def suffixes (name : Name) : List Name :=
  if name.getLast? = some '.' then []
  else ((split (name.dropWhile (· = '.'))).drop 1).map fun s => '.' :: s

/-- The name tried next (src/arc_utilities/filesystem_utils.py:100-102) -/
def candidate (name : Name) (n : Nat) : Name :=
  let noExtensions := (split (stem name)).headD []
  let extensions := (suffixes name).flatten
  noExtensions ++ ['_', 'v'] ++ Nat.toDigits 10 n ++ extensions

/-- The loop of `no_overwrite_path` (src/arc_utilities/filesystem_utils.py:96-103), for at most so many rounds -/
def searchPath : Nat → FS → Path → Name → Path → Nat → Option Path
  | 0, _, _, _, _, _ => none
  | rounds + 1, fs, parent, name, newPath, n =>
    if ¬ fs.exists' newPath then some newPath
    else searchPath rounds fs parent name (parent ++ [candidate name n]) (n + 1)

/-- `no_overwrite_path` (src/arc_utilities/filesystem_utils.py:85-103) -/
def noOverwritePath (rounds : Nat) (fs : FS) (parent : Path) (name : Name) : Option Path :=
  searchPath rounds fs parent name (parent ++ [name]) 1

end Verif.Filesystem
