/-!
# Model of `append_str_to_path` (`src/arc_utilities/filesystem_utils.py:44-45`)

The function works on the text of a path only and asks nothing of the file system. The parts of `pathlib` it calls are
modelled for POSIX systems. A text is a list of characters.
-/
namespace Verif.AppendToPath

/-- A path: the number of slashes it begins with (0, 1 or 2) and its names. This is what `pathlib.PurePosixPath` keeps.
Used for src/arc_utilities/filesystem_utils.py:44-45. -/
structure PurePath where
  slashes : Nat
  names : List (List Char)
  deriving DecidableEq, Repr

/-- `s.split('/')`. Used for src/arc_utilities/filesystem_utils.py:44-45. -/
def splitSlash : List Char → List (List Char)
  | [] => [[]]
  | c :: cs =>
    if c = '/' then [] :: splitSlash cs
    else match splitSlash cs with
      | [] => [[c]]
      | w :: ws => (c :: w) :: ws

/-- The names in a text: empty ones and single dots are left out. Used for
src/arc_utilities/filesystem_utils.py:44-45. -/
def namesOf (s : List Char) : List (List Char) :=
  (splitSlash s).filter fun w => w ≠ [] ∧ w ≠ ['.']

/-- `pathlib.Path(s)`: exactly two slashes at the beginning are kept, three or more are one. Used for
src/arc_utilities/filesystem_utils.py:44-45. -/
def path (s : List Char) : PurePath :=
  let n := (s.takeWhile (· = '/')).length
  { slashes := if n ≤ 2 then n else 1, names := namesOf s }

/-- The names with slashes between them. Used for src/arc_utilities/filesystem_utils.py:44-45. -/
def between : List (List Char) → List Char
  | [] => []
  | [w] => w
  | w :: ws => w ++ '/' :: between ws

/-- `str(p)`. Used for src/arc_utilities/filesystem_utils.py:44-45. -/
def PurePath.str (p : PurePath) : List Char :=
  if p.slashes = 0 ∧ p.names = [] then ['.'] else List.replicate p.slashes '/' ++ between p.names

/-- `p.name`. Used for src/arc_utilities/filesystem_utils.py:44-45. -/
def PurePath.name (p : PurePath) : List Char := p.names.getLast?.getD []

/-- `p.parent`. Used for src/arc_utilities/filesystem_utils.py:44-45. -/
def PurePath.parent (p : PurePath) : PurePath := { p with names := p.names.dropLast }

/-- `p / s`: a text that begins with a slash replaces the path. Used for
src/arc_utilities/filesystem_utils.py:44-45. -/
def PurePath.div (p : PurePath) (s : List Char) : PurePath :=
  if s.head? = some '/' then path s else { p with names := p.names ++ namesOf s }

/-- `append_str_to_path` (src/arc_utilities/filesystem_utils.py:44-45) -/
def appendStrToPath (p : PurePath) (s : List Char) : PurePath :=
  p.parent.div (p.name ++ s)

end Verif.AppendToPath
