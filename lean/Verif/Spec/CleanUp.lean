import Verif.Spec.Filesystem
/-!
# Specification of the scripts that remove directories
-/
namespace Verif.CleanUp
open Verif Verif.Filesystem

/-- The path of a directory directly in one of the roots -/
def Direct (fs : FS) (roots : List Path) (d : Path) : Prop :=
  fs.get d = some .dir ∧ ∃ root ∈ roots, ∃ name, d = root ++ [name]

/-- The bytes in the files below a path -/
def bytes (fs : FS) (d : Path) : Nat :=
  ((fs.below d).map fun e => match e.2 with | .file n => n | _ => 0).sum

/-- The number of files below a path -/
def files (fs : FS) (d : Path) : Nat := (fs.below d).countP fun e => e.2 ≠ .dir

/-- The file system after all that is in the directories for which `P` holds is gone, and they are too -/
def Removed (fs : FS) (P : Path → Prop) (after : FS) : Prop :=
  List.Sublist after fs ∧ ∀ e ∈ fs, e ∈ after ↔ ¬ ∃ d, P d ∧ d <+: e.1

end Verif.CleanUp
