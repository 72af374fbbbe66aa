import Verif.Model.Voxel

/-!
# Model of references into a voxel grid

include/arc_utilities/voxel_grid.hpp. `GetImmutable` and `GetMutable` return references, and the functions that change
the grid take their values by `const T&`, so a caller can keep a reference into the grid and pass it back. A reference
to an element of the storage (a `std::vector`) is valid until the storage is cleared or assigned; `epoch` counts those
events. Using a reference that is no longer valid is undefined.
-/
namespace Verif.Voxel
open Verif

variable {K T : Type}

/-- A reference that a caller keeps, with the epoch of the storage when it was made. Used for voxel_grid.hpp:590-605,
630-644, 669-685, 710-726. -/
structure Held where
  ref : Ref
  epoch : Nat
  deriving DecidableEq, Repr

/-- A grid, the epoch of its storage, and the references that callers keep, oldest first. Used for
voxel_grid.hpp:590-605, 630-644, 669-685, 710-726. -/
structure Live (K T : Type) where
  grid : Grid (Iso3 K) K T
  epoch : Nat
  held : List Held

/-- What an argument of type `const T&` refers to: a value outside the grid, or what the `k`-th kept reference refers
to. Used for voxel_grid.hpp:669-685, 710-726, 527. -/
inductive Arg (T : Type) where
  | value (v : T)
  | held (k : Nat)
  deriving DecidableEq, Repr

/-- Reading through the `k`-th kept reference. Used for voxel_grid.hpp:669-685, 710-726, 527. -/
def readHeld (m : Live K T) (k : Nat) : Out T :=
  match m.held[k]? with
  | none => .ub
  | some h =>
    match h.ref with
    | .oob => readRef m.grid .oob
    | .cell n => if h.epoch = m.epoch then readRef m.grid (.cell n) else .ub

/-- Assigning through the `k`-th kept reference. Used for voxel_grid.hpp:630-644. -/
def writeHeld (m : Live K T) (k : Nat) (v : T) : Out (Live K T) :=
  match m.held[k]? with
  | none => .ub
  | some h =>
    match h.ref with
    | .oob => do
      let g ← writeRef m.grid v .oob
      .ok { m with grid := g }
    | .cell n =>
      if h.epoch = m.epoch then do
        let g ← writeRef m.grid v (.cell n)
        .ok { m with grid := g }
      else .ub

/-- Reading an argument. Used for voxel_grid.hpp:669-685, 710-726, 527. -/
def readArg (m : Live K T) : Arg T → Out T
  | .value v => .ok v
  | .held k => readHeld m k

/-- voxel_grid.hpp:590-605, 630-644 `GetImmutable` and `GetMutable`, when the caller keeps the reference -/
def hold (m : Live K T) (i : Index) : Out (Bool × Live K T) := do
  let r ← getRef m.grid i
  .ok (r.2, { m with held := m.held ++ [⟨r.1, m.epoch⟩] })

/-- voxel_grid.hpp:669-685, 710-726 `SetValue` for an index -/
def setValueArg (m : Live K T) (i : Index) (value : Arg T) : Out (Bool × Live K T) :=
  if indexInBounds m.grid i then do
    let n ← accessIndex m.grid (getDataIndex m.grid i)
    let v ← readArg m value
    let g ← writeRef m.grid v (.cell n)
    .ok (true, { m with grid := g })
  else .ok (false, m)

/-- voxel_grid.hpp:80 `data_.clear()` -/
def clearData (m : Live K T) : Live K T := { m with grid := { m.grid with data := [] }, epoch := m.epoch + 1 }

/-- voxel_grid.hpp:81 `data_.resize(n, value)` after `clear`: with `n` positive the value is read -/
def resizeData (m : Live K T) (value : Live K T → Out T) : Out (Live K T) :=
  if (m.grid.numX * m.grid.numY * m.grid.numZ).toNat = 0 then .ok m
  else do
    let v ← value m
    .ok { m with grid := { m.grid with
      data := List.replicate (m.grid.numX * m.grid.numY * m.grid.numZ).toNat v } }

/-- voxel_grid.hpp:79-82 `SetContents`; `value` is how the argument is read in a given state -/
def setContentsFrom (m : Live K T) (value : Live K T → Out T) : Out (Live K T) := resizeData (clearData m) value

/-- voxel_grid.hpp:525 `ResetWithDefault`: the argument of `SetContents` is the member `default_value_` -/
def resetWithDefaultLive (m : Live K T) : Out (Live K T) := setContentsFrom m (fun m => .ok m.grid.default)

/-- voxel_grid.hpp:527 `ResetWithNewValue`: the argument is passed on -/
def resetWithNewValueArg (m : Live K T) (value : Arg T) : Out (Live K T) := setContentsFrom m (fun m => readArg m value)

/-- voxel_grid.hpp:740 `SetDefaultValue` -/
def setDefaultArg (m : Live K T) (value : Arg T) : Out (Live K T) := do
  let v ← readArg m value
  .ok { m with grid := { m.grid with default := v } }

/-- voxel_grid.hpp:529-532 `ResetWithNewDefault`: the default value is assigned first, and the member is the argument of
`SetContents` -/
def resetWithNewDefaultArg (m : Live K T) (value : Arg T) : Out (Live K T) := do
  let m' ← setDefaultArg m value
  setContentsFrom m' (fun m => .ok m.grid.default)

/-- voxel_grid.hpp:742 `SetOOBValue` -/
def setOobArg (m : Live K T) (value : Arg T) : Out (Live K T) := do
  let v ← readArg m value
  .ok { m with grid := { m.grid with oob := v } }

/-- voxel_grid.hpp:831-840 `SetRawData`: an assignment to the vector -/
def setRawLive (m : Live K T) (data : List T) : Bool × Live K T :=
  let r := setRawData m.grid data
  if r.1 then (true, { m with grid := r.2, epoch := m.epoch + 1 }) else (false, m)

/-- voxel_grid.hpp:352-363, 182-203 `Initialize` with an origin and numbers of cells, on a grid that may be in use. The
sizes are checked before anything is assigned; the two values are read before the storage is cleared. -/
def reinitialize [Field K] [LinearOrder K] (m : Live K T) (origin : Iso3 K) (cx cy cz : K) (nx ny nz : Int)
    (default oob : Arg T) : Out (Live K T) := do
  safetyCheckCells cx cy cz nx ny nz
  let m1 ← setDefaultArg m default
  let m2 ← setOobArg m1 oob
  let g ← initializeCells origin cx cy cz nx ny nz m2.grid.default m2.grid.oob
  .ok { m with grid := g, epoch := m.epoch + 1 }

end Verif.Voxel
