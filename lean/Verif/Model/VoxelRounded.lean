import Verif.Base.Rounding
import Verif.Model.Voxel

/-!
# Model of the geometry of voxel grids with rounding

include/arc_utilities/voxel_grid.hpp:182-203, 341-388, 759-825 again, with the result of every operation on `double`
rounded (`Model/Voxel` has exact arithmetic). The products of Eigen add up from the left.
-/
namespace Verif.VoxelRounded
open Verif Verif.Voxel

variable {T : Type}

/-- A row of a matrix times a vector of three coordinates (Eigen). Used for voxel_grid.hpp:785-788, 780-783, 790-793. -/
noncomputable def dot3 (R : Rounding) (row p : Vec3 ℝ) : ℝ :=
  R.rd (R.rd (R.rd (row.x * p.x) + R.rd (row.y * p.y)) + R.rd (row.z * p.z))

/-- `transform * Vector3d(p)` (Eigen). Used for voxel_grid.hpp:785-788. -/
noncomputable def apply (R : Rounding) (T : Iso3 ℝ) (p : Vec3 ℝ) : Vec3 ℝ :=
  ⟨R.rd (dot3 R T.r1 p + T.t.x), R.rd (dot3 R T.r2 p + T.t.y), R.rd (dot3 R T.r3 p + T.t.z)⟩

/-- `transform * Vector4d(p, w)`, first three coordinates (Eigen). Used for voxel_grid.hpp:780-783, 790-793, 795-810. -/
noncomputable def apply4 (R : Rounding) (T : Iso3 ℝ) (p : Vec3 ℝ) (w : ℝ) : Vec3 ℝ :=
  ⟨R.rd (dot3 R T.r1 p + R.rd (T.t.x * w)), R.rd (dot3 R T.r2 p + R.rd (T.t.y * w)),
    R.rd (dot3 R T.r3 p + R.rd (T.t.z * w))⟩

/-- `Isometry3d::inverse()` (Eigen): the rotation is transposed, the translation transformed; changing a sign is
exact. Used for voxel_grid.hpp:182-203, 352-363, 375-388. -/
noncomputable def inverse (R : Rounding) (T : Iso3 ℝ) : Iso3 ℝ :=
  let c1 : Vec3 ℝ := ⟨T.r1.x, T.r2.x, T.r3.x⟩
  let c2 : Vec3 ℝ := ⟨T.r1.y, T.r2.y, T.r3.y⟩
  let c3 : Vec3 ℝ := ⟨T.r1.z, T.r2.z, T.r3.z⟩
  ⟨c1, c2, c3, ⟨-(dot3 R c1 T.t), -(dot3 R c2 T.t), -(dot3 R c3 T.t)⟩⟩

/-- voxel_grid.hpp:182-203, 352-363 `Initialize` with an origin and numbers of cells -/
noncomputable def initializeCells (R : Rounding) (origin : Iso3 ℝ) (cx cy cz : ℝ) (nx ny nz : Int) (default oob : T) :
    Out (Grid (Iso3 ℝ) ℝ T) := do
  safetyCheckCells cx cy cz nx ny nz
  let stride1 ← int64 (ny * nz)
  let total ← int64 (nx * ny * nz)
  .ok {
    origin := origin
    inverseOrigin := inverse R origin
    default := default
    oob := oob
    data := List.replicate total.toNat default
    cellX := |cx|, cellY := |cy|, cellZ := |cz|
    invCellX := R.rd (1 / |cx|), invCellY := R.rd (1 / |cy|), invCellZ := R.rd (1 / |cz|)
    sizeX := R.rd (R.rd nx * |cx|), sizeY := R.rd (R.rd ny * |cy|), sizeZ := R.rd (R.rd nz * |cz|)
    stride1 := stride1
    stride2 := nz
    numX := nx, numY := ny, numZ := nz
    initialized := true }

/-- voxel_grid.hpp:375-388 `Initialize` with numbers of cells and no origin -/
noncomputable def initializeCellsCentred (R : Rounding) (cx cy cz : ℝ) (nx ny nz : Int) (default oob : T) :
    Out (Grid (Iso3 ℝ) ℝ T) := do
  let g ← initializeCells R (Iso3.translation ⟨0, 0, 0⟩) cx cy cz nx ny nz default oob
  let origin := Iso3.translation
    ⟨R.rd (-g.sizeX * (1 / 2)), R.rd (-g.sizeY * (1 / 2)), R.rd (-g.sizeZ * (1 / 2))⟩
  .ok { g with origin := origin, inverseOrigin := inverse R origin }

/-- voxel_grid.hpp:759-778 `PointInFrameToGridIndex` -/
noncomputable def pointInFrameToGridIndex (R : Rounding) (g : Grid (Iso3 ℝ) ℝ T) (p : Vec3 ℝ) : Out Index := do
  let x ← truncate (R.rd (p.x * g.invCellX))
  let y ← truncate (R.rd (p.y * g.invCellY))
  let z ← truncate (R.rd (p.z * g.invCellZ))
  .ok ⟨x, y, z⟩

/-- voxel_grid.hpp:785-788 `LocationToGridIndex3d` -/
noncomputable def locationToGridIndex3d (R : Rounding) (g : Grid (Iso3 ℝ) ℝ T) (location : Vec3 ℝ) : Out Index :=
  pointInFrameToGridIndex R g (apply R g.inverseOrigin location)

/-- voxel_grid.hpp:780-783, 790-793 `LocationToGridIndex` and `LocationToGridIndex4d` with last coordinate one -/
noncomputable def locationToGridIndex (R : Rounding) (g : Grid (Iso3 ℝ) ℝ T) (location : Vec3 ℝ) : Out Index :=
  pointInFrameToGridIndex R g (apply4 R g.inverseOrigin location 1)

/-- voxel_grid.hpp:812-825 `GridIndexToLocationGridFrame` (the last coordinate is 1) -/
noncomputable def gridIndexToLocationGridFrame (R : Rounding) (g : Grid (Iso3 ℝ) ℝ T) (i : Index) : Vec3 ℝ :=
  ⟨R.rd (g.cellX * R.rd (R.rd i.x + 1 / 2)), R.rd (g.cellY * R.rd (R.rd i.y + 1 / 2)),
    R.rd (g.cellZ * R.rd (R.rd i.z + 1 / 2))⟩

/-- voxel_grid.hpp:795-810 `GridIndexToLocation` (the last coordinate is 1) -/
noncomputable def gridIndexToLocation (R : Rounding) (g : Grid (Iso3 ℝ) ℝ T) (i : Index) : Vec3 ℝ :=
  apply4 R g.origin (gridIndexToLocationGridFrame R g i) 1

end Verif.VoxelRounded
