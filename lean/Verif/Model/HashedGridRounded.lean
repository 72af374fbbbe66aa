import Verif.Model.HashedGrid
import Verif.Model.VoxelRounded

/-!
# Model of hashed voxel grids with rounding

include/arc_utilities/dynamic_spatial_hashed_voxel_grid.hpp again, with the result of every operation on `double`
rounded (`Model/HashedGrid` has exact arithmetic). What does not calculate (`newWholeChunk`, `getChunkValue`,
`chunkSetValue`, `putChunk`, `readRef`, `writeRef`, `setDefaultValue`) is used from there.
-/
namespace Verif.HashedGridRounded
open Verif Verif.HashedGrid
open Verif.Voxel (Vec3 Iso3 Index safetyCheckCells truncate int64)

variable {T : Type}

/-- dynamic_spatial_hashed_voxel_grid.hpp:90-128, 160-180: the constructor for a chunk of cells -/
noncomputable def newCellChunk (R : Rounding) (base : Vec3 ℝ) (cx cy cz : ℝ) (nx ny nz : Int) (initial : T) :
    Out (Chunk ℝ T) := do
  safetyCheckCells cx cy cz nx ny nz
  let stride1 ← int64 (ny * nz)
  let total ← int64 (nx * ny * nz)
  .ok {
    base := base, initial := initial, data := List.replicate total.toNat initial
    cellX := |cx|, cellY := |cy|, cellZ := |cz|
    chunkX := R.rd (|cx| * R.rd nx), chunkY := R.rd (|cy| * R.rd ny), chunkZ := R.rd (|cz| * R.rd nz)
    numX := nx, numY := ny, numZ := nz
    stride1 := stride1, stride2 := nz
    chunkInit := false, cellInit := true }

/-- dynamic_spatial_hashed_voxel_grid.hpp:130-155 `GetDataIndex` and `GetLocationDataIndex` -/
noncomputable def getLocationDataIndex (R : Rounding) (c : Chunk ℝ T) (location : Vec3 ℝ) : Out Int :=
  let p : Vec3 ℝ := ⟨R.rd (location.x - c.base.x), R.rd (location.y - c.base.y), R.rd (location.z - c.base.z)⟩
  if p.x < 0 ∨ p.y < 0 ∨ p.z < 0 then .ok (-1)
  else if c.chunkX < p.x ∨ c.chunkY < p.y ∨ c.chunkZ < p.z then .ok (-1)
  else do
    let x ← truncate (R.rd (p.x / c.cellX))
    let y ← truncate (R.rd (p.y / c.cellY))
    let z ← truncate (R.rd (p.z / c.cellZ))
    if x < 0 ∨ y < 0 ∨ z < 0 ∨ x ≥ c.numX ∨ y ≥ c.numY ∨ z ≥ c.numZ then .ok (-1)
    else .ok (x * c.stride1 + y * c.stride2 + z)

/-- dynamic_spatial_hashed_voxel_grid.hpp:255-275 `GetCellMutable` / `GetCellImmutable`: the position of the element,
or nothing for the reference to
`initial_value_` -/
noncomputable def getCellPosition (R : Rounding) (c : Chunk ℝ T) (location : Vec3 ℝ) : Out (Option Nat) := do
  Out.assert (c.cellInit = true)
  let i ← getLocationDataIndex R c location
  if i ≥ 0 then do
    Out.assert (i < (c.data.length : Int))
    .ok (some i.toNat)
  else .ok none

/-- dynamic_spatial_hashed_voxel_grid.hpp:289-311 `SetCellValue` of a chunk -/
noncomputable def chunkSetCell (R : Rounding) (c : Chunk ℝ T) (location : Vec3 ℝ) (value : T) :
    Out (Bool × Chunk ℝ T) := do
  let r ← getCellPosition R c location
  match r with
  | some n => .ok (true, { c with data := c.data.set n value })
  | none => .ok (false, c)

/-- dynamic_spatial_hashed_voxel_grid.hpp:387-445, 495-504 `SafetyCheckSizes`, `CoreInitialize` and `Initialize` with
an origin; 506-515 is the same with
the identity as the origin -/
noncomputable def initializeGrid (R : Rounding) (origin : Iso3 ℝ) (cx cy cz : ℝ) (nx ny nz : Int) (default : T) :
    Out (Grid ℝ T) := do
  safetyCheckCells cx cy cz nx ny nz
  let stride1 ← int64 (ny * nz)
  .ok {
    origin := origin, inverseOrigin := VoxelRounded.inverse R origin, default := default, chunks := fun _ => none
    chunkX := R.rd (|cx| * R.rd nx), chunkY := R.rd (|cy| * R.rd ny), chunkZ := R.rd (|cz| * R.rd nz)
    cellX := |cx|, cellY := |cy|, cellZ := |cz|
    numX := nx, numY := ny, numZ := nz
    stride1 := stride1, stride2 := nz, initialized := true }

/-- dynamic_spatial_hashed_voxel_grid.hpp:549-563 `GetContainingChunkRegion` -/
noncomputable def getContainingChunkRegion (R : Rounding) (g : Grid ℝ T) (location : Vec3 ℝ) : Out (Vec3 ℝ) := do
  Out.assert (g.initialized = true)
  let x ← int64 ⌊R.rd (location.x / g.chunkX)⌋
  let y ← int64 ⌊R.rd (location.y / g.chunkY)⌋
  let z ← int64 ⌊R.rd (location.z / g.chunkZ)⌋
  .ok ⟨R.rd (R.rd x * g.chunkX), R.rd (R.rd y * g.chunkY), R.rd (R.rd z * g.chunkZ)⟩

/-- dynamic_spatial_hashed_voxel_grid.hpp:565-588 `GetImmutable` and 590-613 `GetMutable` -/
noncomputable def getRef (R : Rounding) (g : Grid ℝ T) (location : Vec3 ℝ) : Out (Ref ℝ × Found) := do
  Out.assert (g.initialized = true)
  let p := VoxelRounded.apply R g.inverseOrigin location
  let region ← getContainingChunkRegion R g p
  match g.chunks region with
  | some chunk =>
    if chunk.cellInit then do
      let r ← getCellPosition R chunk p
      match r with
      | some n => .ok (.elem region n, .inCell)
      | none => .ok (.default, .notFound)
    else if chunk.chunkInit then do
      let _ ← getChunkValue chunk
      .ok (.elem region 0, .inChunk)
    else .ok (.default, .notFound)
  | none => .ok (.default, .notFound)

/-- dynamic_spatial_hashed_voxel_grid.hpp:565-588 `GetImmutable`, with the value read at once -/
noncomputable def getImmutable (R : Rounding) (g : Grid ℝ T) (location : Vec3 ℝ) : Out (T × Found) := do
  let r ← getRef R g location
  let v ← readRef g r.1
  .ok (v, r.2)

/-- dynamic_spatial_hashed_voxel_grid.hpp:637-646, 654-663: a new chunk of cells with one of them set -/
noncomputable def setInNewChunk (R : Rounding) (g : Grid ℝ T) (region p : Vec3 ℝ) (initial value : T) :
    Out (SetStatus × Grid ℝ T) := do
  let chunk ← newCellChunk R region g.cellX g.cellY g.cellZ g.numX g.numY g.numZ initial
  let r ← chunkSetCell R chunk p value
  if r.1 then .ok (.setCell, putChunk g region r.2) else .ok (.notSet, g)

/-- dynamic_spatial_hashed_voxel_grid.hpp:615-715 `SetCellValue` -/
noncomputable def setCellValue (R : Rounding) (g : Grid ℝ T) (location : Vec3 ℝ) (value : T) :
    Out (SetStatus × Grid ℝ T) := do
  Out.assert (g.initialized = true)
  let p := VoxelRounded.apply R g.inverseOrigin location
  let region ← getContainingChunkRegion R g p
  match g.chunks region with
  | some chunk =>
    if chunk.cellInit then do
      let r ← chunkSetCell R chunk p value
      if r.1 then .ok (.setCell, putChunk g region r.2) else .ok (.notSet, g)
    else if chunk.chunkInit then do
      let v ← getChunkValue chunk
      setInNewChunk R g region p v value
    else setInNewChunk R g region p g.default value
  | none => setInNewChunk R g region p g.default value

/-- dynamic_spatial_hashed_voxel_grid.hpp:717-785 `SetChunkValue` -/
noncomputable def setChunkValue (R : Rounding) (g : Grid ℝ T) (location : Vec3 ℝ) (value : T) :
    Out (SetStatus × Grid ℝ T) := do
  Out.assert (g.initialized = true)
  let p := VoxelRounded.apply R g.inverseOrigin location
  let region ← getContainingChunkRegion R g p
  match g.chunks region with
  | some chunk =>
    if chunk.cellInit then do
      let c ← newWholeChunk region g.chunkX g.chunkY g.chunkZ value
      .ok (.setChunk, putChunk g region c)
    else if chunk.chunkInit then do
      let r ← chunkSetValue chunk value
      if r.1 then .ok (.setChunk, putChunk g region r.2) else .ok (.notSet, g)
    else do
      let c ← newWholeChunk region g.chunkX g.chunkY g.chunkZ value
      .ok (.setChunk, putChunk g region c)
  | none => do
    let c ← newWholeChunk region g.chunkX g.chunkY g.chunkZ value
    .ok (.setChunk, putChunk g region c)

end Verif.HashedGridRounded
