import Verif.Model.Voxel

/-!
# Model of include/arc_utilities/dynamic_spatial_hashed_voxel_grid.hpp

`double` is an ordered field with floors (exact arithmetic); `std::unordered_map` is a partial function
from regions, compared by exact equality of their bases (eigen_helpers.hpp:33-47 `Equal3d`).
-/
namespace Verif.HashedGrid
open Verif Verif.Voxel

/-- dynamic_spatial_hashed_voxel_grid.hpp:40-58: the members of a chunk (`region_` is its base, 19-38) -/
structure Chunk (K T : Type) where
  base : Vec3 K
  initial : T
  data : List T
  cellX : K
  cellY : K
  cellZ : K
  chunkX : K
  chunkY : K
  chunkZ : K
  numX : Int
  numY : Int
  numZ : Int
  stride1 : Int
  stride2 : Int
  chunkInit : Bool
  cellInit : Bool

/-- dynamic_spatial_hashed_voxel_grid.hpp:363: `FOUND_STATUS` -/
inductive Found where
  | notFound
  | inChunk
  | inCell
  deriving DecidableEq, Repr

/-- dynamic_spatial_hashed_voxel_grid.hpp:365: `SET_STATUS` -/
inductive SetStatus where
  | notSet
  | setChunk
  | setCell
  deriving DecidableEq, Repr

section Chunks
variable {K T : Type} [Field K] [LinearOrder K]

/-- dynamic_spatial_hashed_voxel_grid.hpp:90-128, 160-180: the constructor for a chunk of cells -/
def newCellChunk (base : Vec3 K) (cx cy cz : K) (nx ny nz : Int) (initial : T) : Out (Chunk K T) := do
  safetyCheckCells cx cy cz nx ny nz
  let stride1 ← int64 (ny * nz)
  let total ← int64 (nx * ny * nz)
  .ok {
    base := base, initial := initial, data := List.replicate total.toNat initial
    cellX := |cx|, cellY := |cy|, cellZ := |cz|
    chunkX := |cx| * (nx : K), chunkY := |cy| * (ny : K), chunkZ := |cz| * (nz : K)
    numX := nx, numY := ny, numZ := nz
    stride1 := stride1, stride2 := nz
    chunkInit := false, cellInit := true }

/-- dynamic_spatial_hashed_voxel_grid.hpp:60-88, 182-201: the constructor for a chunk with a single value -/
def newWholeChunk (base : Vec3 K) (sx sy sz : K) (initial : T) : Out (Chunk K T) :=
  if sx ≤ 0 ∨ sy ≤ 0 ∨ sz ≤ 0 then .throws .invalidArgument
  else .ok {
    base := base, initial := initial, data := [initial]
    cellX := 0, cellY := 0, cellZ := 0
    chunkX := |sx|, chunkY := |sy|, chunkZ := |sz|
    numX := 1, numY := 1, numZ := 1
    stride1 := 1 * 1, stride2 := 1
    chunkInit := true, cellInit := false }

variable [FloorRing K]

/-- dynamic_spatial_hashed_voxel_grid.hpp:130-155 `GetDataIndex` and `GetLocationDataIndex` -/
def getLocationDataIndex (c : Chunk K T) (location : Vec3 K) : Out Int :=
  let p : Vec3 K := ⟨location.x - c.base.x, location.y - c.base.y, location.z - c.base.z⟩
  if p.x < 0 ∨ p.y < 0 ∨ p.z < 0 then .ok (-1)
  else if c.chunkX < p.x ∨ c.chunkY < p.y ∨ c.chunkZ < p.z then .ok (-1)
  else do
    let x ← truncate (p.x / c.cellX)
    let y ← truncate (p.y / c.cellY)
    let z ← truncate (p.z / c.cellZ)
    if x < 0 ∨ y < 0 ∨ z < 0 ∨ x ≥ c.numX ∨ y ≥ c.numY ∨ z ≥ c.numZ then .ok (-1)
    else .ok (x * c.stride1 + y * c.stride2 + z)

/-- dynamic_spatial_hashed_voxel_grid.hpp:255-275 `GetCellMutable` / `GetCellImmutable`: the position of the element,
or nothing for the
reference to `initial_value_` -/
def getCellPosition (c : Chunk K T) (location : Vec3 K) : Out (Option Nat) := do
  Out.assert (c.cellInit = true)
  let i ← getLocationDataIndex c location
  if i ≥ 0 then do
    Out.assert (i < (c.data.length : Int))
    .ok (some i.toNat)
  else .ok none

/-- dynamic_spatial_hashed_voxel_grid.hpp:289-311 `SetCellValue` -/
def chunkSetCell (c : Chunk K T) (location : Vec3 K) (value : T) : Out (Bool × Chunk K T) := do
  let r ← getCellPosition c location
  match r with
  | some n => .ok (true, { c with data := c.data.set n value })
  | none => .ok (false, c)

/-- dynamic_spatial_hashed_voxel_grid.hpp:277-287 `GetChunkMutable` / `GetChunkImmutable`: the value of a whole chunk -/
def getChunkValue (c : Chunk K T) : Out T := do
  Out.assert (c.chunkInit = true)
  Out.assert (c.data.length = 1)
  match c.data[0]? with
  | some v => .ok v
  | none => .ub

/-- dynamic_spatial_hashed_voxel_grid.hpp:313-325 `SetChunkValue` -/
def chunkSetValue (c : Chunk K T) (value : T) : Out (Bool × Chunk K T) := do
  Out.assert (c.chunkInit = true)
  Out.assert (c.data.length = 1)
  .ok (true, { c with data := c.data.set 0 value })

/-- dynamic_spatial_hashed_voxel_grid.hpp:223-230 `IndexInBounds` -/
def indexInBounds (c : Chunk K T) (i : Index) : Bool :=
  i.x ≥ 0 && i.y ≥ 0 && i.z ≥ 0 && i.x < c.numX && i.y < c.numY && i.z < c.numZ

/-- dynamic_spatial_hashed_voxel_grid.hpp:232-253 `GetImmutableByIndex` / `GetMutableByIndex`, with the value read at
once; 130-132 `GetDataIndex` -/
def getByIndex (c : Chunk K T) (i : Index) : Out (T × Bool) := do
  Out.assert (c.chunkInit = true ∨ c.cellInit = true)
  if indexInBounds c i then do
    let n := i.x * c.stride1 + i.y * c.stride2 + i.z
    Out.assert (n ≥ 0 ∧ n < (c.data.length : Int))
    match c.data[n.toNat]? with
    | some v => .ok (v, true)
    | none => .ub
  else .ok (c.initial, false)

/-- dynamic_spatial_hashed_voxel_grid.hpp:327-345 `GetIndexLocationInGrid`: nothing is the empty vector -/
def getIndexLocationInGrid (c : Chunk K T) (i : Index) : Out (Option (Vec3 K)) := do
  Out.assert (c.chunkInit = true ∨ c.cellInit = true)
  if indexInBounds c i then
    if c.chunkInit then
      .ok (some ⟨c.base.x + c.chunkX * (1 / 2), c.base.y + c.chunkY * (1 / 2), c.base.z + c.chunkZ * (1 / 2)⟩)
    else
      .ok (some ⟨c.base.x + c.cellX * ((i.x : K) + 1 / 2), c.base.y + c.cellY * ((i.y : K) + 1 / 2),
        c.base.z + c.cellZ * ((i.z : K) + 1 / 2)⟩)
  else .ok none

/-- dynamic_spatial_hashed_voxel_grid.hpp:347-354 `GetElementSize` -/
def getElementSize (c : Chunk K T) : Out (Vec3 K) := do
  Out.assert (c.chunkInit = true ∨ c.cellInit = true)
  if c.chunkInit then .ok ⟨c.chunkX, c.chunkY, c.chunkZ⟩ else .ok ⟨c.cellX, c.cellY, c.cellZ⟩

end Chunks

/-- dynamic_spatial_hashed_voxel_grid.hpp:367-385: the members of a grid -/
structure Grid (K T : Type) where
  origin : Iso3 K
  inverseOrigin : Iso3 K
  default : T
  chunks : Vec3 K → Option (Chunk K T)
  chunkX : K
  chunkY : K
  chunkZ : K
  cellX : K
  cellY : K
  cellZ : K
  numX : Int
  numY : Int
  numZ : Int
  stride1 : Int
  stride2 : Int
  initialized : Bool

/-- What a reference handed out by a read refers to: the default value of the grid or an element of the
chunk stored for a region. Used for dynamic_spatial_hashed_voxel_grid.hpp:565-588. -/
inductive Ref (K : Type) where
  | default
  | elem (region : Vec3 K) (n : Nat)

section Grids
variable {K T : Type} [Field K] [LinearOrder K]

/-- dynamic_spatial_hashed_voxel_grid.hpp:387-445, 495-504 `SafetyCheckSizes`, `CoreInitialize` and `Initialize` with
an origin; 506-515 is the
same with the identity as the origin -/
def initializeGrid (origin : Iso3 K) (cx cy cz : K) (nx ny nz : Int) (default : T) : Out (Grid K T) := do
  safetyCheckCells cx cy cz nx ny nz
  let stride1 ← int64 (ny * nz)
  .ok {
    origin := origin, inverseOrigin := origin.inverse, default := default, chunks := fun _ => none
    chunkX := |cx| * (nx : K), chunkY := |cy| * (ny : K), chunkZ := |cz| * (nz : K)
    cellX := |cx|, cellY := |cy|, cellZ := |cz|
    numX := nx, numY := ny, numZ := nz
    stride1 := stride1, stride2 := nz, initialized := true }


/-- dynamic_spatial_hashed_voxel_grid.hpp:478-493: the constructor without arguments; `default` is what the default
constructor of `T` gives (for numbers an
indeterminate value) -/
def emptyGrid (default : T) : Grid K T :=
  let identity : Iso3 K := Iso3.translation ⟨0, 0, 0⟩
  { origin := identity, inverseOrigin := identity.inverse, default := default, chunks := fun _ => none
    chunkX := 0 * ((0 : Int) : K), chunkY := 0 * ((0 : Int) : K), chunkZ := 0 * ((0 : Int) : K)
    cellX := 0, cellY := 0, cellZ := 0
    numX := 0, numY := 0, numZ := 0
    stride1 := 0 * 0, stride2 := 0, initialized := true }

/-- `chunks_[region] = chunk`. Used for dynamic_spatial_hashed_voxel_grid.hpp:637-646, 654-663, 615-715. -/
def putChunk (g : Grid K T) (region : Vec3 K) (chunk : Chunk K T) : Grid K T :=
  { g with chunks := fun r => if r = region then some chunk else g.chunks r }

variable [FloorRing K]

/-- dynamic_spatial_hashed_voxel_grid.hpp:552-557: the number of the chunk along one axis. A chunk of size zero
(476-493, a grid made without arguments)
gives an infinity or NaN, whose conversion to `int64_t` is undefined. -/
def chunkNumber (location size : K) : Out Int := if size = 0 then .ub else int64 ⌊location / size⌋

/-- dynamic_spatial_hashed_voxel_grid.hpp:549-563 `GetContainingChunkRegion` -/
def getContainingChunkRegion (g : Grid K T) (location : Vec3 K) : Out (Vec3 K) := do
  Out.assert (g.initialized = true)
  let x ← chunkNumber location.x g.chunkX
  let y ← chunkNumber location.y g.chunkY
  let z ← chunkNumber location.z g.chunkZ
  .ok ⟨(x : K) * g.chunkX, (y : K) * g.chunkY, (z : K) * g.chunkZ⟩

/-- dynamic_spatial_hashed_voxel_grid.hpp:565-588 `GetImmutable` and 590-613 `GetMutable` -/
def getRef (g : Grid K T) (location : Vec3 K) : Out (Ref K × Found) := do
  Out.assert (g.initialized = true)
  let p := g.inverseOrigin.apply location
  let region ← getContainingChunkRegion g p
  match g.chunks region with
  | some chunk =>
    if chunk.cellInit then do
      let r ← getCellPosition chunk p
      match r with
      | some n => .ok (.elem region n, .inCell)
      | none => .ok (.default, .notFound)
    else if chunk.chunkInit then do
      let _ ← getChunkValue chunk
      .ok (.elem region 0, .inChunk)
    else .ok (.default, .notFound)
  | none => .ok (.default, .notFound)

/-- Reading through a reference. Used for dynamic_spatial_hashed_voxel_grid.hpp:565-588. -/
def readRef (g : Grid K T) : Ref K → Out T
  | .default => .ok g.default
  | .elem region n => match g.chunks region with
    | some chunk => match chunk.data[n]? with
      | some v => .ok v
      | none => .ub
    | none => .ub

/-- Writing through a reference. Used for dynamic_spatial_hashed_voxel_grid.hpp:590-613. -/
def writeRef (g : Grid K T) (v : T) : Ref K → Out (Grid K T)
  | .default => .ok { g with default := v }
  | .elem region n => match g.chunks region with
    | some chunk =>
      if n < chunk.data.length then .ok (putChunk g region { chunk with data := chunk.data.set n v })
      else .ub
    | none => .ub

/-- `GetImmutable`, with the value read at once. Used for dynamic_spatial_hashed_voxel_grid.hpp:565-588. -/
def getImmutable (g : Grid K T) (location : Vec3 K) : Out (T × Found) := do
  let r ← getRef g location
  let v ← readRef g r.1
  .ok (v, r.2)

/-- dynamic_spatial_hashed_voxel_grid.hpp:637-646, 654-663: a new chunk of cells with one of them set -/
def setInNewChunk (g : Grid K T) (region p : Vec3 K) (initial value : T) :
    Out (SetStatus × Grid K T) := do
  let chunk ← newCellChunk region g.cellX g.cellY g.cellZ g.numX g.numY g.numZ initial
  let r ← chunkSetCell chunk p value
  if r.1 then .ok (.setCell, putChunk g region r.2) else .ok (.notSet, g)

/-- dynamic_spatial_hashed_voxel_grid.hpp:615-715 `SetCellValue` -/
def setCellValue (g : Grid K T) (location : Vec3 K) (value : T) : Out (SetStatus × Grid K T) := do
  Out.assert (g.initialized = true)
  let p := g.inverseOrigin.apply location
  let region ← getContainingChunkRegion g p
  match g.chunks region with
  | some chunk =>
    if chunk.cellInit then do
      let r ← chunkSetCell chunk p value
      if r.1 then .ok (.setCell, putChunk g region r.2) else .ok (.notSet, g)
    else if chunk.chunkInit then do
      let v ← getChunkValue chunk
      setInNewChunk g region p v value
    else setInNewChunk g region p g.default value
  | none => setInNewChunk g region p g.default value

/-- dynamic_spatial_hashed_voxel_grid.hpp:717-785 `SetChunkValue` -/
def setChunkValue (g : Grid K T) (location : Vec3 K) (value : T) : Out (SetStatus × Grid K T) := do
  Out.assert (g.initialized = true)
  let p := g.inverseOrigin.apply location
  let region ← getContainingChunkRegion g p
  match g.chunks region with
  | some chunk =>
    if chunk.cellInit then do
      let c ← newWholeChunk region g.chunkX g.chunkY g.chunkZ value
      .ok (.setChunk, putChunk g region c)
    else if chunk.chunkInit then do
      let r ← chunkSetValue chunk value
      if r.1 then .ok (.setChunk, putChunk g region r.2) else .ok (.notSet, g)
    else do
      let c ← newWholeChunk region g.chunkX g.chunkY g.chunkZ value
      .ok (.setChunk, putChunk g region c)
  | none => do
    let c ← newWholeChunk region g.chunkX g.chunkY g.chunkZ value
    .ok (.setChunk, putChunk g region c)

/-- dynamic_spatial_hashed_voxel_grid.hpp:539-547 `SetChunkValue` with three coordinates: it calls `SetCellValue` -/
def setChunkValueXyz (g : Grid K T) (x y z : K) (value : T) : Out (SetStatus × Grid K T) :=
  setCellValue g ⟨x, y, z⟩ value

/-- dynamic_spatial_hashed_voxel_grid.hpp:787-789 `GetCellSizes` -/
def getCellSizes (g : Grid K T) : List K := [g.cellX, g.cellY, g.cellZ]

/-- dynamic_spatial_hashed_voxel_grid.hpp:791-794 `GetChunkSizes` -/
def getChunkSizes (g : Grid K T) : List K :=
  [g.cellX * (g.numX : K), g.cellY * (g.numY : K), g.cellZ * (g.numZ : K)]

/-- dynamic_spatial_hashed_voxel_grid.hpp:796-798 `GetChunkNumCells` -/
def getChunkNumCells (g : Grid K T) : List Int := [g.numX, g.numY, g.numZ]

/-- dynamic_spatial_hashed_voxel_grid.hpp:802 `SetDefaultValue` -/
def setDefaultValue (g : Grid K T) (v : T) : Grid K T := { g with default := v }

end Grids

end Verif.HashedGrid
