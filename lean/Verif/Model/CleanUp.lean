import Verif.Model.Filesystem
import Verif.Model.FileSize
/-!
# Model of `scripts/remove_small_directories.py` and `scripts/remove_directories_with_few_files.py`

The arguments are given as they are parsed; printing is left out.
-/
namespace Verif.CleanUp
open Verif Verif.Filesystem Verif.FileSize

/-- The loops over the roots and what is in them (scripts/remove_small_directories.py:21-27,
scripts/remove_directories_with_few_files.py:18-24) -/
def select (fs : FS) (few : Path → Except PyExc Bool) (roots : List Path) : Except PyExc (List Path) :=
  roots.foldlM (fun acc root => do
    (← fs.iterdir root).foldlM (fun acc d => do
      if fs.isDir d then
        if ← few d then return acc ++ [d] else return acc
      else return acc) acc) []

/-- `main` of scripts/remove_small_directories.py:11-29: the file system after it and the exception if it raises. `limit`
is that of nested calls, `k` the answer of the user. -/
def removeSmallDirectories (limit : Nat) (fs : FS) (roots : List Path) (size : List Char) (k : String) :
    FS × Option PyExc :=
  match parseFileSize size with
  | .error e => (fs, some e)
  | .ok n =>
    match select fs (fun d => .ok (decide (directorySize limit fs d < n))) roots with
    | .error e => (fs, some e)
    | .ok ds => askToRemove limit fs ds false k

/-- `main` of scripts/remove_directories_with_few_files.py:10-26 -/
def removeDirectoriesWithFewFiles (limit : Nat) (fs : FS) (roots : List Path) (count : Int) (k : String) :
    FS × Option PyExc :=
  match select fs (fun d => do let n ← countFiles limit fs d; return decide ((n : Int) < count)) roots with
  | .error e => (fs, some e)
  | .ok ds => askToRemove limit fs ds false k

end Verif.CleanUp
