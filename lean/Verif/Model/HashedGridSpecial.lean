import Verif.Model.HashedGrid
import Verif.Model.VoxelSpecial

/-!
# Model of hashed voxel grids with special doubles

include/arc_utilities/dynamic_spatial_hashed_voxel_grid.hpp again, for all doubles: infinities, values that are not a
number and results that overflow (`Model/HashedGridRounded` has rounding only). Converting a double to `int64_t` is
undefined if it is not a number or outside of the range.
-/
namespace Verif.HashedGridSpecial
open Verif Verif.HashedGrid
open Verif.Voxel (Vec3 Iso3 int64)
open Verif.VoxelSpecial (badSize safetyCheckCells toInt64)

variable {T : Type} (A : Ieee)

/-- `a - b`. Used for dynamic_spatial_hashed_voxel_grid.hpp:135. -/
noncomputable def sub (a b : Dbl) : Dbl := A.add a (Ieee.neg b)

/-- `floor(a)`. Used for dynamic_spatial_hashed_voxel_grid.hpp:555-557. -/
noncomputable def floor : Dbl → Dbl
  | .num x => .num ⌊x⌋
  | a => a

/-- dynamic_spatial_hashed_voxel_grid.hpp:90-128, 160-180: the constructor for a chunk of cells -/
noncomputable def newCellChunk (base : Vec3 Dbl) (cx cy cz : Dbl) (nx ny nz : Int) (initial : T) :
    Out (Chunk Dbl T) := do
  safetyCheckCells cx cy cz nx ny nz
  let stride1 ← int64 (ny * nz)
  let total ← int64 (nx * ny * nz)
  .ok {
    base := base, initial := initial, data := List.replicate total.toNat initial
    cellX := Ieee.abs cx, cellY := Ieee.abs cy, cellZ := Ieee.abs cz
    chunkX := A.mul (Ieee.abs cx) (A.round nx), chunkY := A.mul (Ieee.abs cy) (A.round ny)
    chunkZ := A.mul (Ieee.abs cz) (A.round nz)
    numX := nx, numY := ny, numZ := nz
    stride1 := stride1, stride2 := nz
    chunkInit := false, cellInit := true }

/-- dynamic_spatial_hashed_voxel_grid.hpp:60-88, 182-201: the constructor for a chunk with a single value -/
noncomputable def newWholeChunk (base : Vec3 Dbl) (sx sy sz : Dbl) (initial : T) : Out (Chunk Dbl T) :=
  if badSize sx ∨ badSize sy ∨ badSize sz then .throws .invalidArgument
  else .ok {
    base := base, initial := initial, data := [initial]
    cellX := .num 0, cellY := .num 0, cellZ := .num 0
    chunkX := Ieee.abs sx, chunkY := Ieee.abs sy, chunkZ := Ieee.abs sz
    numX := 1, numY := 1, numZ := 1
    stride1 := 1 * 1, stride2 := 1
    chunkInit := true, cellInit := false }

open Classical in
/-- dynamic_spatial_hashed_voxel_grid.hpp:130-155 `GetDataIndex` and `GetLocationDataIndex` -/
noncomputable def getLocationDataIndex (c : Chunk Dbl T) (location : Vec3 Dbl) : Out Int :=
  let p : Vec3 Dbl := ⟨sub A location.x c.base.x, sub A location.y c.base.y, sub A location.z c.base.z⟩
  if Ieee.lt p.x (.num 0) ∨ Ieee.lt p.y (.num 0) ∨ Ieee.lt p.z (.num 0) then .ok (-1)
  else if Ieee.lt c.chunkX p.x ∨ Ieee.lt c.chunkY p.y ∨ Ieee.lt c.chunkZ p.z then .ok (-1)
  else do
    let x ← toInt64 (A.div p.x c.cellX)
    let y ← toInt64 (A.div p.y c.cellY)
    let z ← toInt64 (A.div p.z c.cellZ)
    if x < 0 ∨ y < 0 ∨ z < 0 ∨ x ≥ c.numX ∨ y ≥ c.numY ∨ z ≥ c.numZ then .ok (-1)
    else .ok (x * c.stride1 + y * c.stride2 + z)

/-- dynamic_spatial_hashed_voxel_grid.hpp:255-275 `GetCellMutable` / `GetCellImmutable`: the position of the element,
or nothing for the reference to `initial_value_` -/
noncomputable def getCellPosition (c : Chunk Dbl T) (location : Vec3 Dbl) : Out (Option Nat) := do
  Out.assert (c.cellInit = true)
  let i ← getLocationDataIndex A c location
  if i ≥ 0 then do
    Out.assert (i < (c.data.length : Int))
    .ok (some i.toNat)
  else .ok none

/-- dynamic_spatial_hashed_voxel_grid.hpp:289-311 `SetCellValue` of a chunk -/
noncomputable def chunkSetCell (c : Chunk Dbl T) (location : Vec3 Dbl) (value : T) : Out (Bool × Chunk Dbl T) := do
  let r ← getCellPosition A c location
  match r with
  | some n => .ok (true, { c with data := c.data.set n value })
  | none => .ok (false, c)

/-- dynamic_spatial_hashed_voxel_grid.hpp:277-287 `GetChunkMutable` / `GetChunkImmutable`: the value of a whole chunk -/
def getChunkValue (c : Chunk Dbl T) : Out T := do
  Out.assert (c.chunkInit = true)
  Out.assert (c.data.length = 1)
  match c.data[0]? with
  | some v => .ok v
  | none => .ub

/-- dynamic_spatial_hashed_voxel_grid.hpp:313-325 `SetChunkValue` of a chunk -/
def chunkSetValue (c : Chunk Dbl T) (value : T) : Out (Bool × Chunk Dbl T) := do
  Out.assert (c.chunkInit = true)
  Out.assert (c.data.length = 1)
  .ok (true, { c with data := c.data.set 0 value })

/-- dynamic_spatial_hashed_voxel_grid.hpp:387-445, 495-504 `SafetyCheckSizes`, `CoreInitialize` and `Initialize` with
an origin; 506-515 is the same with the identity as the origin -/
noncomputable def initializeGrid (origin : Iso3 Dbl) (cx cy cz : Dbl) (nx ny nz : Int) (default : T) :
    Out (Grid Dbl T) := do
  safetyCheckCells cx cy cz nx ny nz
  let stride1 ← int64 (ny * nz)
  .ok {
    origin := origin, inverseOrigin := VoxelSpecial.inverse A origin, default := default, chunks := fun _ => none
    chunkX := A.mul (Ieee.abs cx) (A.round nx), chunkY := A.mul (Ieee.abs cy) (A.round ny)
    chunkZ := A.mul (Ieee.abs cz) (A.round nz)
    cellX := Ieee.abs cx, cellY := Ieee.abs cy, cellZ := Ieee.abs cz
    numX := nx, numY := ny, numZ := nz
    stride1 := stride1, stride2 := nz, initialized := true }

/-- dynamic_spatial_hashed_voxel_grid.hpp:478-493: the constructor without arguments -/
noncomputable def emptyGrid (default : T) : Grid Dbl T :=
  let identity := VoxelSpecial.translation ⟨.num 0, .num 0, .num 0⟩
  { origin := identity, inverseOrigin := VoxelSpecial.inverse A identity, default := default, chunks := fun _ => none
    chunkX := A.mul (.num 0) (A.round 0), chunkY := A.mul (.num 0) (A.round 0), chunkZ := A.mul (.num 0) (A.round 0)
    cellX := .num 0, cellY := .num 0, cellZ := .num 0
    numX := 0, numY := 0, numZ := 0
    stride1 := 0 * 0, stride2 := 0, initialized := true }

/-- dynamic_spatial_hashed_voxel_grid.hpp:549-563 `GetContainingChunkRegion` -/
noncomputable def getContainingChunkRegion (g : Grid Dbl T) (location : Vec3 Dbl) : Out (Vec3 Dbl) := do
  Out.assert (g.initialized = true)
  let x ← toInt64 (floor (A.div location.x g.chunkX))
  let y ← toInt64 (floor (A.div location.y g.chunkY))
  let z ← toInt64 (floor (A.div location.z g.chunkZ))
  .ok ⟨A.mul (A.round x) g.chunkX, A.mul (A.round y) g.chunkY, A.mul (A.round z) g.chunkZ⟩

/-- `chunks_.find(region)`: regions are compared with `==` (eigen_helpers.hpp:33-39 `Equal3d`), so that a region with a
coordinate that is not a number is not found. Used for dynamic_spatial_hashed_voxel_grid.hpp:569, 594, 619, 721. -/
def find (g : Grid Dbl T) (region : Vec3 Dbl) : Option (Chunk Dbl T) :=
  if Ieee.isNan region.x || Ieee.isNan region.y || Ieee.isNan region.z then none else g.chunks region

open Classical in
/-- `chunks_[region] = chunk`; what is stored for a region that is not a number is not found again. Used for
dynamic_spatial_hashed_voxel_grid.hpp:637-646, 654-663, 615-715. -/
noncomputable def putChunk (g : Grid Dbl T) (region : Vec3 Dbl) (chunk : Chunk Dbl T) : Grid Dbl T :=
  { g with chunks := fun r => if r = region then some chunk else g.chunks r }

/-- dynamic_spatial_hashed_voxel_grid.hpp:565-588 `GetImmutable` and 590-613 `GetMutable`, with the value read at once -/
noncomputable def getImmutable (g : Grid Dbl T) (location : Vec3 Dbl) : Out (T × Found) := do
  Out.assert (g.initialized = true)
  let p := VoxelSpecial.apply A g.inverseOrigin location
  let region ← getContainingChunkRegion A g p
  match find g region with
  | some chunk =>
    if chunk.cellInit then do
      let r ← getCellPosition A chunk p
      match r with
      | some n => match chunk.data[n]? with
        | some v => .ok (v, .inCell)
        | none => .ub
      | none => .ok (g.default, .notFound)
    else if chunk.chunkInit then do
      let v ← getChunkValue chunk
      .ok (v, .inChunk)
    else .ok (g.default, .notFound)
  | none => .ok (g.default, .notFound)

/-- dynamic_spatial_hashed_voxel_grid.hpp:637-646, 654-663: a new chunk of cells with one of them set -/
noncomputable def setInNewChunk (g : Grid Dbl T) (region p : Vec3 Dbl) (initial value : T) :
    Out (SetStatus × Grid Dbl T) := do
  let chunk ← newCellChunk A region g.cellX g.cellY g.cellZ g.numX g.numY g.numZ initial
  let r ← chunkSetCell A chunk p value
  if r.1 then .ok (.setCell, putChunk g region r.2) else .ok (.notSet, g)

/-- dynamic_spatial_hashed_voxel_grid.hpp:615-715 `SetCellValue` -/
noncomputable def setCellValue (g : Grid Dbl T) (location : Vec3 Dbl) (value : T) : Out (SetStatus × Grid Dbl T) := do
  Out.assert (g.initialized = true)
  let p := VoxelSpecial.apply A g.inverseOrigin location
  let region ← getContainingChunkRegion A g p
  match find g region with
  | some chunk =>
    if chunk.cellInit then do
      let r ← chunkSetCell A chunk p value
      if r.1 then .ok (.setCell, putChunk g region r.2) else .ok (.notSet, g)
    else if chunk.chunkInit then do
      let v ← getChunkValue chunk
      setInNewChunk A g region p v value
    else setInNewChunk A g region p g.default value
  | none => setInNewChunk A g region p g.default value

/-- dynamic_spatial_hashed_voxel_grid.hpp:717-785 `SetChunkValue` -/
noncomputable def setChunkValue (g : Grid Dbl T) (location : Vec3 Dbl) (value : T) : Out (SetStatus × Grid Dbl T) := do
  Out.assert (g.initialized = true)
  let p := VoxelSpecial.apply A g.inverseOrigin location
  let region ← getContainingChunkRegion A g p
  match find g region with
  | some chunk =>
    if chunk.cellInit then do
      let c ← newWholeChunk region g.chunkX g.chunkY g.chunkZ value
      .ok (.setChunk, putChunk g region c)
    else if chunk.chunkInit then do
      let r ← chunkSetValue chunk value
      if r.1 then .ok (.setChunk, putChunk g region r.2) else .ok (.notSet, g)
    else do
      let c ← newWholeChunk region g.chunkX g.chunkY g.chunkZ value
      .ok (.setChunk, putChunk g region c)
  | none => do
    let c ← newWholeChunk region g.chunkX g.chunkY g.chunkZ value
    .ok (.setChunk, putChunk g region c)

end Verif.HashedGridSpecial
