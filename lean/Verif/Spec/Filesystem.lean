import Verif.Model.Filesystem
/-!
# Specification of the file system functions
-/
namespace Verif.Filesystem
open Verif

/-- A file system as it can be: every path is there once, and everything but the root is in a directory -/
structure Tree (fs : FS) : Prop where
  once : (fs.map Prod.fst).Nodup
  inDir : ∀ k ∈ fs.map Prod.fst, k ≠ [] → fs.get k.dropLast = some .dir

/-- The entry is the path itself or below it -/
def Under (p : Path) (e : Path × Node) : Prop := p <+: e.1

instance (p : Path) (e : Path × Node) : Decidable (Under p e) := by unfold Under; infer_instance

/-- What is left without a path and all below it -/
def FS.without (fs : FS) (p : Path) : FS := fs.filter fun e => ¬ Under p e

/-- The entries below a path, without itself -/
def FS.below (fs : FS) (p : Path) : FS := fs.filter fun e => Under p e ∧ e.1 ≠ p

end Verif.Filesystem
