import Verif.Base.State

/-!
# Model of the file functions of src/arc_utilities/zlib_helpers.cpp (lines 119-192)

The file system maps paths to the contents of regular files. Compressing and decompressing bytes are parameters
(their loops are modelled in Model/ZlibStream). The limit `max` is the largest `avail_in`, 2^32 - 1 in the code.
The numbers of slices are exact (`int` in the code).
-/
namespace Verif.ZlibFiles
open Verif

/-- `std::vector<uint8_t>`. Used for zlib_helpers.cpp:183-191, 182-191. -/
abbrev Bytes := List UInt8

/-- regular files. Used for zlib_helpers.cpp:183-191, 182-191. -/
abbrev Files := String → Option Bytes

/-- What can happen to a write: nothing, the file cannot be opened, the write fails after some bytes, or only the
last flush when the file is closed does. Used for zlib_helpers.cpp:183-191, 182-191. -/
inductive Fault
  | none
  | open
  | write (stored : Nat)
  | close (stored : Nat)
  deriving DecidableEq

/-- zlib_helpers.cpp:127, 136, 172: the path of a slice -/
def slicePath (path : String) (i : Nat) : String := path ++ "." ++ toString i

/-- the file system with one file changed. Used for zlib_helpers.cpp:183-191. -/
def Files.set (f : Files) (path : String) (b : Bytes) : Files := fun p => if p = path then some b else f p

/-- zlib_helpers.cpp:183-191: opening truncates; a failed write sets the bad bit, a failed close only the fail bit,
and only the bad bit is looked at. -/
def writeFile (fault : Fault) (b : Bytes) (path : String) : M Files Unit :=
  match fault with
  | .none => M.modify fun f => f.set path b
  | .open => M.throw .runtimeError
  | .write k => do
    M.modify fun f => f.set path (b.take k)
    M.throw .runtimeError
  | .close k => M.modify fun f => f.set path (b.take k)

/-- zlib_helpers.cpp:182-191: a buffer that fits; also the recursive call in line 175, whose slice always fits -/
def writeWhole (compress : Bytes → Out Bytes) (fault : Fault) (data : Bytes) (path : String) : M Files Unit := do
  let b ← M.lift (compress data)
  writeFile fault b path

/-- zlib_helpers.cpp:165-178: the loop over the slices; the `fault` of a write depends on the slice -/
def writeSlices (compress : Bytes → Out Bytes) (fault : Nat → Fault) (max : Nat) (data : Bytes) (path : String) :
    Nat → Nat → Option (M Files Unit)
  | 0, _ => none
  | fuel + 1, i =>
    let start := i * max
    let stop := min ((i + 1) * max) data.length
    let slice := (data.take stop).drop start
    let write := writeWhole compress (fault i) slice (slicePath path i)
    if (i + 1) * max < data.length then
      (writeSlices compress fault max data path fuel (i + 1)).map fun rest => write >>= fun _ => rest
    else some write

/-- zlib_helpers.cpp:158-192 `CompressAndWriteToFile` -/
def save (compress : Bytes → Out Bytes) (fault : Nat → Fault) (max : Nat) (data : Bytes) (path : String)
    (fuel : Nat) : Option (M Files Unit) :=
  if max < data.length then writeSlices compress fault max data path fuel 0
  else some (writeWhole compress (fault 0) data path)

/-- zlib_helpers.cpp:144-155: a regular file; `readable` tells whether it can be opened and read; also the
recursive call in line 129, whose path is a regular file -/
def loadWhole (decompress : Bytes → Out Bytes) (readable : String → Bool) (f : Files) (path : String) : Out Bytes :=
  match f path with
  | none => .throws .runtimeError
  | some b => if readable path then decompress b else .throws .runtimeError

/-- zlib_helpers.cpp:128-137: the loop over the slices from number `i` on -/
def loadSlices (decompress : Bytes → Out Bytes) (readable : String → Bool) (f : Files) (path : String) :
    Nat → Nat → Option (Out Bytes)
  | 0, _ => none
  | fuel + 1, i =>
    match loadWhole decompress readable f (slicePath path i) with
    | .ok slice =>
      if (f (slicePath path (i + 1))).isSome then
        (loadSlices decompress readable f path fuel (i + 1)).map fun rest => rest >>= fun r => .ok (slice ++ r)
      else some (.ok slice)
    | .throws e => some (.throws e)
    | .abort => some .abort
    | .ub => some .ub

/-- zlib_helpers.cpp:119-156 `LoadFromFileAndDecompress` -/
def load (decompress : Bytes → Out Bytes) (readable : String → Bool) (f : Files) (path : String) (fuel : Nat) :
    Option (Out Bytes) :=
  if (f path).isSome then some (loadWhole decompress readable f path)
  else if (f (slicePath path 0)).isSome then loadSlices decompress readable f path fuel 0
  else some (.throws .runtimeError)

end Verif.ZlibFiles
