import Verif.Model.HashedGrid

/-!
# Model of references into a hashed voxel grid

include/arc_utilities/dynamic_spatial_hashed_voxel_grid.hpp. `GetImmutable` and `GetMutable` return references, and the
functions that change the grid take their values by `const T&`, so a caller can keep a reference into the grid and pass it
back. The elements of a chunk are in a `std::vector`; a reference to one is valid until a new chunk is assigned to the place
of the chunk in the map (`chunks_[region] = new_chunk`, which assigns the vector). The map does not move its elements.
`serial` counts those assignments for each region. Using a reference that is no longer valid is undefined.
-/
namespace Verif.HashedGridReferences
open Verif Verif.Voxel Verif.HashedGrid

/-- A reference that a caller keeps, with the number of assignments to the chunk before it was made. Used for
dynamic_spatial_hashed_voxel_grid.hpp:565-613. -/
structure Held (K : Type) where
  ref : Ref K
  serial : Nat

/-- A grid, the numbers of assignments to its chunks, and the references that callers keep, oldest first. Used for
dynamic_spatial_hashed_voxel_grid.hpp:565-785. -/
structure Live (K T : Type) where
  grid : Grid K T
  serial : Vec3 K → Nat
  held : List (Held K)

/-- What an argument of type `const T&` refers to: a value outside the grid, or what the `k`-th kept reference refers
to. Used for dynamic_spatial_hashed_voxel_grid.hpp:615, 717, 802. -/
inductive Arg (T : Type) where
  | value (v : T)
  | held (k : Nat)
  deriving DecidableEq, Repr

section
variable {K T : Type} [Field K] [LinearOrder K]

/-- The reference refers to something that still exists. Used for dynamic_spatial_hashed_voxel_grid.hpp:565-613. -/
def valid (m : Live K T) (h : Held K) : Bool :=
  match h.ref with
  | .default => true
  | .elem region _ => h.serial == m.serial region

/-- Reading through the `k`-th kept reference. Used for dynamic_spatial_hashed_voxel_grid.hpp:565-613. -/
def readHeld (m : Live K T) (k : Nat) : Out T :=
  match m.held[k]? with
  | none => .ub
  | some h => if valid m h = true then readRef m.grid h.ref else .ub

/-- Assigning through the `k`-th kept reference. Used for dynamic_spatial_hashed_voxel_grid.hpp:590-613. -/
def writeHeld (m : Live K T) (k : Nat) (v : T) : Out (Live K T) :=
  match m.held[k]? with
  | none => .ub
  | some h =>
    if valid m h = true then do
      let g ← writeRef m.grid v h.ref
      .ok { m with grid := g }
    else .ub

/-- Reading an argument. Used for dynamic_spatial_hashed_voxel_grid.hpp:615, 717, 802. -/
def readArg (m : Live K T) : Arg T → Out T
  | .value v => .ok v
  | .held k => readHeld m k

/-- `chunks_[region] = new_chunk`. Used for dynamic_spatial_hashed_voxel_grid.hpp:634-635, 644-645, 657-658, 728, 740,
749. -/
def assignChunk (m : Live K T) (region : Vec3 K) (chunk : Chunk K T) : Live K T :=
  { m with
    grid := putChunk m.grid region chunk
    serial := fun r => if r = region then m.serial r + 1 else m.serial r }

/-- dynamic_spatial_hashed_voxel_grid.hpp:802 `SetDefaultValue` -/
def setDefaultArg (m : Live K T) (value : Arg T) : Out (Live K T) := do
  let v ← readArg m value
  .ok { m with grid := setDefaultValue m.grid v }

variable [FloorRing K]

/-- dynamic_spatial_hashed_voxel_grid.hpp:565-613 `GetImmutable` and `GetMutable`, when the caller keeps the reference -/
def hold (m : Live K T) (location : Vec3 K) : Out (Found × Live K T) := do
  let r ← getRef m.grid location
  let serial := match r.1 with
    | .default => 0
    | .elem region _ => m.serial region
  .ok (r.2, { m with held := m.held ++ [⟨r.1, serial⟩] })

/-- dynamic_spatial_hashed_voxel_grid.hpp:289-311 `SetCellValue` of a chunk: the value is read when it is assigned -/
def chunkSetCellArg (m : Live K T) (c : Chunk K T) (location : Vec3 K) (value : Arg T) : Out (Bool × Chunk K T) := do
  let r ← getCellPosition c location
  match r with
  | some n => do
    let v ← readArg m value
    .ok (true, { c with data := c.data.set n v })
  | none => .ok (false, c)

/-- dynamic_spatial_hashed_voxel_grid.hpp:630-639, 641-649, 653-661: a new chunk of cells with one of them set, which takes
the place of the one in the map afterwards -/
def setInNewChunkArg (m : Live K T) (region p : Vec3 K) (initial : T) (value : Arg T) :
    Out (SetStatus × Live K T) := do
  let chunk ← newCellChunk region m.grid.cellX m.grid.cellY m.grid.cellZ m.grid.numX m.grid.numY m.grid.numZ initial
  let r ← chunkSetCellArg m chunk p value
  if r.1 then .ok (.setCell, assignChunk m region r.2) else .ok (.notSet, m)

/-- dynamic_spatial_hashed_voxel_grid.hpp:615-715 `SetCellValue` -/
def setCellArg (m : Live K T) (location : Vec3 K) (value : Arg T) : Out (SetStatus × Live K T) := do
  Out.assert (m.grid.initialized = true)
  let p := m.grid.inverseOrigin.apply location
  let region ← getContainingChunkRegion m.grid p
  match m.grid.chunks region with
  | some chunk =>
    if chunk.cellInit then do
      let r ← chunkSetCellArg m chunk p value
      if r.1 then .ok (.setCell, { m with grid := putChunk m.grid region r.2 }) else .ok (.notSet, m)
    else if chunk.chunkInit then do
      let v ← getChunkValue chunk
      setInNewChunkArg m region p v value
    else setInNewChunkArg m region p m.grid.default value
  | none => setInNewChunkArg m region p m.grid.default value

/-- dynamic_spatial_hashed_voxel_grid.hpp:724-729, 737-741, 745-750: a new chunk with one value, read by its constructor,
which takes the place of the one in the map afterwards -/
def newWholeArg (m : Live K T) (region : Vec3 K) (value : Arg T) : Out (SetStatus × Live K T) := do
  let v ← readArg m value
  let c ← newWholeChunk region m.grid.chunkX m.grid.chunkY m.grid.chunkZ v
  .ok (.setChunk, assignChunk m region c)

/-- dynamic_spatial_hashed_voxel_grid.hpp:717-785 `SetChunkValue` -/
def setChunkArg (m : Live K T) (location : Vec3 K) (value : Arg T) : Out (SetStatus × Live K T) := do
  Out.assert (m.grid.initialized = true)
  let p := m.grid.inverseOrigin.apply location
  let region ← getContainingChunkRegion m.grid p
  match m.grid.chunks region with
  | some chunk =>
    if chunk.cellInit then newWholeArg m region value
    else if chunk.chunkInit then do
      let v ← readArg m value
      let r ← chunkSetValue chunk v
      if r.1 then .ok (.setChunk, { m with grid := putChunk m.grid region r.2 }) else .ok (.notSet, m)
    else newWholeArg m region value
  | none => newWholeArg m region value

end

end Verif.HashedGridReferences
