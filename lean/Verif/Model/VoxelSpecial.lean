import Verif.Base.Ieee
import Verif.Model.Voxel

/-!
# Model of the geometry of voxel grids with special doubles

include/arc_utilities/voxel_grid.hpp:84-203, 341-388, 552-588, 646-653, 754-810 again, for all doubles: infinities,
values that are not a number and results that overflow (`Model/VoxelRounded` has rounding only). Converting a double to
`int64_t` is undefined if it is not a number or outside of the range. The products of Eigen add up from the left.
-/
namespace Verif.VoxelSpecial
open Verif Verif.Voxel

variable {T : Type} (A : Ieee)

open Classical in
/-- voxel_grid.hpp:86-94, 144-152: the checks of one size; `true` if one of them throws -/
noncomputable def badSize (s : Dbl) : Bool := decide (Ieee.le s (.num 0)) || Ieee.isNan s || Ieee.isInf s

/-- voxel_grid.hpp:142-180 `SafetyCheckSizes` for numbers of cells -/
noncomputable def safetyCheckCells (cx cy cz : Dbl) (nx ny nz : Int) : Out Unit :=
  if badSize cx then .throws .invalidArgument
  else if badSize cy then .throws .invalidArgument
  else if badSize cz then .throws .invalidArgument
  else if nx ≤ 0 then .throws .invalidArgument
  else if ny ≤ 0 then .throws .invalidArgument
  else if nz ≤ 0 then .throws .invalidArgument
  else .ok ()

/-- voxel_grid.hpp:84-140 `SafetyCheckSizes` for sizes (in another order, with the same exception) -/
noncomputable def safetyCheckSizes (cx cy cz sx sy sz : Dbl) : Out Unit :=
  if badSize cx then .throws .invalidArgument
  else if badSize cy then .throws .invalidArgument
  else if badSize cz then .throws .invalidArgument
  else if badSize sx then .throws .invalidArgument
  else if badSize sy then .throws .invalidArgument
  else if badSize sz then .throws .invalidArgument
  else .ok ()

/-- `(int64_t)a`. Used for voxel_grid.hpp:345-347, 759-778. -/
noncomputable def toInt64 : Dbl → Out Int
  | .num x => truncate x
  | _ => .ub

/-- `ceil(a)`. Used for voxel_grid.hpp:345-347. -/
noncomputable def ceil : Dbl → Dbl
  | .num x => .num ⌈x⌉
  | a => a

/-- A row of a matrix times a vector of three coordinates (Eigen). Used for voxel_grid.hpp:785-788, 790-793. -/
noncomputable def dot3 (row p : Vec3 Dbl) : Dbl :=
  A.add (A.add (A.mul row.x p.x) (A.mul row.y p.y)) (A.mul row.z p.z)

/-- `transform * Vector3d(p)` (Eigen). Used for voxel_grid.hpp:785-788. -/
noncomputable def apply (T : Iso3 Dbl) (p : Vec3 Dbl) : Vec3 Dbl :=
  ⟨A.add (dot3 A T.r1 p) T.t.x, A.add (dot3 A T.r2 p) T.t.y, A.add (dot3 A T.r3 p) T.t.z⟩

/-- `transform * Vector4d(p, w)`, first three coordinates (Eigen). Used for voxel_grid.hpp:780-783, 790-793. -/
noncomputable def apply4 (T : Iso3 Dbl) (p : Vec3 Dbl) (w : Dbl) : Vec3 Dbl :=
  ⟨A.add (dot3 A T.r1 p) (A.mul T.t.x w), A.add (dot3 A T.r2 p) (A.mul T.t.y w),
    A.add (dot3 A T.r3 p) (A.mul T.t.z w)⟩

/-- `Isometry3d::inverse()` (Eigen): the rotation is transposed, the translation transformed. Used for
voxel_grid.hpp:352-363, 375-388, 754-757. -/
noncomputable def inverse (T : Iso3 Dbl) : Iso3 Dbl :=
  let c1 : Vec3 Dbl := ⟨T.r1.x, T.r2.x, T.r3.x⟩
  let c2 : Vec3 Dbl := ⟨T.r1.y, T.r2.y, T.r3.y⟩
  let c3 : Vec3 Dbl := ⟨T.r1.z, T.r2.z, T.r3.z⟩
  ⟨c1, c2, c3, ⟨Ieee.neg (dot3 A c1 T.t), Ieee.neg (dot3 A c2 T.t), Ieee.neg (dot3 A c3 T.t)⟩⟩

/-- `Translation3d(t) * Quaterniond::Identity()` (Eigen). Used for voxel_grid.hpp:375-388. -/
noncomputable def translation (t : Vec3 Dbl) : Iso3 Dbl :=
  ⟨⟨.num 1, .num 0, .num 0⟩, ⟨.num 0, .num 1, .num 0⟩, ⟨.num 0, .num 0, .num 1⟩, t⟩

/-- voxel_grid.hpp:182-203, 352-363 `Initialize` with an origin and numbers of cells; resizing the storage is assumed
to succeed -/
noncomputable def initializeCells (origin : Iso3 Dbl) (cx cy cz : Dbl) (nx ny nz : Int) (default oob : T) :
    Out (Grid (Iso3 Dbl) Dbl T) := do
  safetyCheckCells cx cy cz nx ny nz
  let stride1 ← int64 (ny * nz)
  let total ← int64 (nx * ny * nz)
  .ok {
    origin := origin
    inverseOrigin := inverse A origin
    default := default
    oob := oob
    data := List.replicate total.toNat default
    cellX := Ieee.abs cx, cellY := Ieee.abs cy, cellZ := Ieee.abs cz
    invCellX := A.div (.num 1) (Ieee.abs cx), invCellY := A.div (.num 1) (Ieee.abs cy)
    invCellZ := A.div (.num 1) (Ieee.abs cz)
    sizeX := A.mul (A.round nx) (Ieee.abs cx), sizeY := A.mul (A.round ny) (Ieee.abs cy)
    sizeZ := A.mul (A.round nz) (Ieee.abs cz)
    stride1 := stride1
    stride2 := nz
    numX := nx, numY := ny, numZ := nz
    initialized := true }

/-- voxel_grid.hpp:375-388 `Initialize` with numbers of cells and no origin -/
noncomputable def initializeCellsCentred (cx cy cz : Dbl) (nx ny nz : Int) (default oob : T) :
    Out (Grid (Iso3 Dbl) Dbl T) := do
  let g ← initializeCells A (translation ⟨.num 0, .num 0, .num 0⟩) cx cy cz nx ny nz default oob
  let origin := translation ⟨A.mul (Ieee.neg g.sizeX) (.num (1 / 2)), A.mul (Ieee.neg g.sizeY) (.num (1 / 2)),
    A.mul (Ieee.neg g.sizeZ) (.num (1 / 2))⟩
  .ok { g with origin := origin, inverseOrigin := inverse A origin }

/-- voxel_grid.hpp:345-347, 369-371: the number of cells along one axis -/
noncomputable def cellsFor (size cell : Dbl) : Out Int := toInt64 (ceil (A.div (Ieee.abs size) (Ieee.abs cell)))

/-- voxel_grid.hpp:341-350 `Initialize` with an origin and sizes -/
noncomputable def initializeSizes (origin : Iso3 Dbl) (cx cy cz sx sy sz : Dbl) (default oob : T) :
    Out (Grid (Iso3 Dbl) Dbl T) := do
  safetyCheckSizes cx cy cz sx sy sz
  let nx ← cellsFor A sx cx
  let ny ← cellsFor A sy cy
  let nz ← cellsFor A sz cz
  initializeCells A origin cx cy cz nx ny nz default oob

/-- voxel_grid.hpp:365-373 `Initialize` with sizes and no origin -/
noncomputable def initializeSizesCentred (cx cy cz sx sy sz : Dbl) (default oob : T) :
    Out (Grid (Iso3 Dbl) Dbl T) := do
  safetyCheckSizes cx cy cz sx sy sz
  let nx ← cellsFor A sx cx
  let ny ← cellsFor A sy cy
  let nz ← cellsFor A sz cz
  initializeCellsCentred A cx cy cz nx ny nz default oob

/-- voxel_grid.hpp:754-757 `UpdateOriginTransform` -/
noncomputable def updateOriginTransform (g : Grid (Iso3 Dbl) Dbl T) (origin : Iso3 Dbl) : Grid (Iso3 Dbl) Dbl T :=
  { g with origin := origin, inverseOrigin := inverse A origin }

/-- voxel_grid.hpp:759-778 `PointInFrameToGridIndex` -/
noncomputable def pointInFrameToGridIndex (g : Grid (Iso3 Dbl) Dbl T) (p : Vec3 Dbl) : Out Index := do
  let x ← toInt64 (A.mul p.x g.invCellX)
  let y ← toInt64 (A.mul p.y g.invCellY)
  let z ← toInt64 (A.mul p.z g.invCellZ)
  .ok ⟨x, y, z⟩

/-- voxel_grid.hpp:785-788 `LocationToGridIndex3d` -/
noncomputable def locationToGridIndex3d (g : Grid (Iso3 Dbl) Dbl T) (location : Vec3 Dbl) : Out Index :=
  pointInFrameToGridIndex A g (apply A g.inverseOrigin location)

/-- voxel_grid.hpp:790-793 `LocationToGridIndex4d`; the vector is `(location, w)` -/
noncomputable def locationToGridIndex4d (g : Grid (Iso3 Dbl) Dbl T) (location : Vec3 Dbl) (w : Dbl) : Out Index :=
  pointInFrameToGridIndex A g (apply4 A g.inverseOrigin location w)

/-- voxel_grid.hpp:780-783 `LocationToGridIndex` -/
noncomputable def locationToGridIndex (g : Grid (Iso3 Dbl) Dbl T) (location : Vec3 Dbl) : Out Index :=
  locationToGridIndex4d A g location (.num 1)

/-- voxel_grid.hpp:557-560 `LocationInBounds3d` -/
noncomputable def locationInBounds3d (g : Grid (Iso3 Dbl) Dbl T) (location : Vec3 Dbl) : Out Bool := do
  let i ← locationToGridIndex3d A g location
  .ok (indexInBounds g i)

/-- voxel_grid.hpp:552-555, 562-565 `LocationInBounds` (`w` is 1) and `LocationInBounds4d` -/
noncomputable def locationInBounds4d (g : Grid (Iso3 Dbl) Dbl T) (location : Vec3 Dbl) (w : Dbl) : Out Bool := do
  let i ← locationToGridIndex4d A g location w
  .ok (indexInBounds g i)

/-- voxel_grid.hpp:567-574 `GetImmutable3d` -/
noncomputable def getImmutable3d (g : Grid (Iso3 Dbl) Dbl T) (location : Vec3 Dbl) : Out (T × Bool) := do
  let i ← locationToGridIndex3d A g location
  if indexInBounds g i then getImmutable g i else .ok (g.oob, false)

/-- voxel_grid.hpp:576-588 `GetImmutable4d`, and by three numbers (`w` is 1) -/
noncomputable def getImmutable4d (g : Grid (Iso3 Dbl) Dbl T) (location : Vec3 Dbl) (w : Dbl) : Out (T × Bool) := do
  let i ← locationToGridIndex4d A g location w
  if indexInBounds g i then getImmutable g i else .ok (g.oob, false)

/-- voxel_grid.hpp:646-653 and 687-694 `SetValue3d` -/
noncomputable def setValue3d (g : Grid (Iso3 Dbl) Dbl T) (location : Vec3 Dbl) (value : T) :
    Out (Bool × Grid (Iso3 Dbl) Dbl T) := do
  let i ← locationToGridIndex3d A g location
  if indexInBounds g i then setValue g i value else .ok (false, g)

/-- voxel_grid.hpp:655-667 and 696-708 `SetValue4d`, and by three numbers (`w` is 1) -/
noncomputable def setValue4d (g : Grid (Iso3 Dbl) Dbl T) (location : Vec3 Dbl) (w : Dbl) (value : T) :
    Out (Bool × Grid (Iso3 Dbl) Dbl T) := do
  let i ← locationToGridIndex4d A g location w
  if indexInBounds g i then setValue g i value else .ok (false, g)

end Verif.VoxelSpecial
