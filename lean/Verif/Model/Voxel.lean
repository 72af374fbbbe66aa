import Mathlib.Algebra.Order.Floor.Ring
import Mathlib.Algebra.Order.Field.Basic
import Verif.Base.Outcome

/-!
# Model of include/arc_utilities/voxel_grid.hpp

`K` stands for `double`: an ordered field with floors, that is, exact arithmetic without infinities
and NaN (so the checks for those in `SafetyCheckSizes` never fire). `int64_t` values are integers;
conversions and products that leave the range of `int64_t` are undefined behaviour.
-/
namespace Verif.Voxel
open Verif

/-- voxel_grid.hpp:19-29 `GRID_INDEX` -/
structure Index where
  x : Int
  y : Int
  z : Int
  deriving DecidableEq, Repr

/-- A value that has to fit into `int64_t`. Used for voxel_grid.hpp:182-203, 352-363, 345-347. -/
def int64 (v : Int) : Out Int := if -2 ^ 63 ≤ v ∧ v < 2 ^ 63 then .ok v else .ub

/-! ## Geometry -/

/-- `Eigen::Vector3d`. Used for voxel_grid.hpp:759-778, 785-788. -/
structure Vec3 (K : Type) where
  x : K
  y : K
  z : K
  deriving DecidableEq, Repr

/-- `Eigen::Isometry3d`: the rows of the rotation and the translation. Used for voxel_grid.hpp:182-203, 352-363,
375-388. -/
structure Iso3 (K : Type) where
  r1 : Vec3 K
  r2 : Vec3 K
  r3 : Vec3 K
  t : Vec3 K
  deriving DecidableEq, Repr

section Geometry
variable {K : Type} [Field K]

/-- the dot product. Used for voxel_grid.hpp:790-793, 795-810. -/
def Vec3.dot (a b : Vec3 K) : K := a.x * b.x + a.y * b.y + a.z * b.z

/-- `transform * Vector4d(p, w)`, first three coordinates. Used for voxel_grid.hpp:790-793, 795-810. -/
def Iso3.apply4 (T : Iso3 K) (p : Vec3 K) (w : K) : Vec3 K :=
  ⟨T.r1.dot p + T.t.x * w, T.r2.dot p + T.t.y * w, T.r3.dot p + T.t.z * w⟩

/-- `transform * Vector3d(p)`. Used for voxel_grid.hpp:785-788. -/
def Iso3.apply (T : Iso3 K) (p : Vec3 K) : Vec3 K :=
  ⟨T.r1.dot p + T.t.x, T.r2.dot p + T.t.y, T.r3.dot p + T.t.z⟩

/-- `Isometry3d::inverse()`: in the `Isometry` mode Eigen transposes the rotation and transforms the
translation. Used for voxel_grid.hpp:182-203, 352-363, 375-388. -/
def Iso3.inverse (T : Iso3 K) : Iso3 K :=
  let c1 : Vec3 K := ⟨T.r1.x, T.r2.x, T.r3.x⟩
  let c2 : Vec3 K := ⟨T.r1.y, T.r2.y, T.r3.y⟩
  let c3 : Vec3 K := ⟨T.r1.z, T.r2.z, T.r3.z⟩
  ⟨c1, c2, c3, ⟨-(c1.dot T.t), -(c2.dot T.t), -(c3.dot T.t)⟩⟩

/-- `Translation3d(t) * Quaterniond::Identity()`. Used for voxel_grid.hpp:375-388. -/
def Iso3.translation (t : Vec3 K) : Iso3 K := ⟨⟨1, 0, 0⟩, ⟨0, 1, 0⟩, ⟨0, 0, 1⟩, t⟩

end Geometry

/-! ## The grid -/

/-- voxel_grid.hpp:34-53: the members. `Iso` is the type of transforms, `K` of `double`. -/
structure Grid (Iso K T : Type) where
  origin : Iso
  inverseOrigin : Iso
  default : T
  oob : T
  data : List T
  cellX : K
  cellY : K
  cellZ : K
  invCellX : K
  invCellY : K
  invCellZ : K
  sizeX : K
  sizeY : K
  sizeZ : K
  stride1 : Int
  stride2 : Int
  numX : Int
  numY : Int
  numZ : Int
  initialized : Bool
  deriving DecidableEq

section Storage
variable {Iso K T : Type}

/-- voxel_grid.hpp:55-61 `GetDataIndex` -/
def getDataIndex (g : Grid Iso K T) (i : Index) : Int := i.x * g.stride1 + i.y * g.stride2 + i.z

/-- voxel_grid.hpp:63-77 `AccessIndex`: the position in the storage that the reference refers to -/
def accessIndex (g : Grid Iso K T) (dataIndex : Int) : Out Nat :=
  if dataIndex ≥ 0 ∧ dataIndex < (g.data.length : Int) then .ok dataIndex.toNat
  else .throws .outOfRange

/-- voxel_grid.hpp:79-82 `SetContents` -/
def setContents (g : Grid Iso K T) (value : T) : Grid Iso K T :=
  { g with data := List.replicate (g.numX * g.numY * g.numZ).toNat value }

/-- voxel_grid.hpp:534-550 `IndexInBounds` -/
def indexInBounds (g : Grid Iso K T) (i : Index) : Bool :=
  decide (i.x ≥ 0 ∧ i.y ≥ 0 ∧ i.z ≥ 0 ∧ i.x < g.numX ∧ i.y < g.numY ∧ i.z < g.numZ)

/-- What a reference handed out by `GetImmutable` or `GetMutable` refers to. Used for voxel_grid.hpp:590-605. -/
inductive Ref where
  | cell (n : Nat)
  | oob
  deriving DecidableEq, Repr

/-- Reading through a reference. Used for voxel_grid.hpp:590-605. -/
def readRef (g : Grid Iso K T) : Ref → Out T
  | .cell n => match g.data[n]? with
    | some v => .ok v
    | none => .ub
  | .oob => .ok g.oob

/-- Writing through a reference. Used for voxel_grid.hpp:669-685. -/
def writeRef (g : Grid Iso K T) (v : T) : Ref → Out (Grid Iso K T)
  | .cell n => if n < g.data.length then .ok { g with data := g.data.set n v } else .ub
  | .oob => .ok { g with oob := v }

/-- voxel_grid.hpp:590-605 `GetImmutable` and 630-644 `GetMutable` for an index: a reference and
whether it is a cell -/
def getRef (g : Grid Iso K T) (i : Index) : Out (Ref × Bool) :=
  if indexInBounds g i then do
    let n ← accessIndex g (getDataIndex g i)
    .ok (.cell n, true)
  else .ok (.oob, false)

/-- voxel_grid.hpp:590-605 `GetImmutable`, with the value read at once -/
def getImmutable (g : Grid Iso K T) (i : Index) : Out (T × Bool) := do
  let r ← getRef g i
  let v ← readRef g r.1
  .ok (v, r.2)

/-- voxel_grid.hpp:669-685 and 710-726 `SetValue` for an index -/
def setValue (g : Grid Iso K T) (i : Index) (value : T) : Out (Bool × Grid Iso K T) :=
  if indexInBounds g i then do
    let n ← accessIndex g (getDataIndex g i)
    let g' ← writeRef g value (.cell n)
    .ok (true, g')
  else .ok (false, g)

/-- voxel_grid.hpp:525 `ResetWithDefault` -/
def resetWithDefault (g : Grid Iso K T) : Grid Iso K T := setContents g g.default

/-- voxel_grid.hpp:527 `ResetWithNewValue` -/
def resetWithNewValue (g : Grid Iso K T) (v : T) : Grid Iso K T := setContents g v

/-- voxel_grid.hpp:529-532 `ResetWithNewDefault` -/
def resetWithNewDefault (g : Grid Iso K T) (v : T) : Grid Iso K T :=
  setContents { g with default := v } v

/-- voxel_grid.hpp:740 `SetDefaultValue` -/
def setDefaultValue (g : Grid Iso K T) (v : T) : Grid Iso K T := { g with default := v }

/-- voxel_grid.hpp:742 `SetOOBValue` -/
def setOobValue (g : Grid Iso K T) (v : T) : Grid Iso K T := { g with oob := v }

/-- voxel_grid.hpp:831-840 `SetRawData` -/
def setRawData (g : Grid Iso K T) (data : List T) : Bool × Grid Iso K T :=
  if (data.length : Int) = g.numX * g.numY * g.numZ then (true, { g with data := data })
  else (false, g)

/-- voxel_grid.hpp:842-844 `HashDataIndex` (for results that fit into `int64_t`) -/
def hashDataIndex (g : Grid Iso K T) (i : Index) : Int :=
  i.x * g.stride1 + i.y * g.stride2 + i.z

end Storage

/-! ## Initialization -/

section Init
variable {K T : Type} [Field K] [LinearOrder K]

/-- voxel_grid.hpp:142-180 `SafetyCheckSizes` for numbers of cells -/
def safetyCheckCells (cx cy cz : K) (nx ny nz : Int) : Out Unit :=
  if cx ≤ 0 ∨ cy ≤ 0 ∨ cz ≤ 0 ∨ nx ≤ 0 ∨ ny ≤ 0 ∨ nz ≤ 0 then .throws .invalidArgument else .ok ()

/-- voxel_grid.hpp:84-140 `SafetyCheckSizes` for sizes -/
def safetyCheckSizes (cx cy cz sx sy sz : K) : Out Unit :=
  if cx ≤ 0 ∨ cy ≤ 0 ∨ cz ≤ 0 ∨ sx ≤ 0 ∨ sy ≤ 0 ∨ sz ≤ 0 then .throws .invalidArgument else .ok ()

/-- voxel_grid.hpp:182-203, 352-363 `CoreInitialize` and `Initialize` with an origin and numbers of
cells, on a new grid. Resizing the storage is assumed to succeed. -/
def initializeCells (origin : Iso3 K) (cx cy cz : K) (nx ny nz : Int) (default oob : T) :
    Out (Grid (Iso3 K) K T) := do
  safetyCheckCells cx cy cz nx ny nz
  let stride1 ← int64 (ny * nz)
  let total ← int64 (nx * ny * nz)
  .ok {
    origin := origin
    inverseOrigin := origin.inverse
    default := default
    oob := oob
    data := List.replicate total.toNat default
    cellX := |cx|, cellY := |cy|, cellZ := |cz|
    invCellX := 1 / |cx|, invCellY := 1 / |cy|, invCellZ := 1 / |cz|
    sizeX := (nx : K) * |cx|, sizeY := (ny : K) * |cy|, sizeZ := (nz : K) * |cz|
    stride1 := stride1
    stride2 := nz
    numX := nx, numY := ny, numZ := nz
    initialized := true }

/-- voxel_grid.hpp:375-388 `Initialize` with numbers of cells and no origin: the origin is moved by half
the size of the grid -/
def initializeCellsCentred (cx cy cz : K) (nx ny nz : Int) (default oob : T) :
    Out (Grid (Iso3 K) K T) := do
  let g ← initializeCells (Iso3.translation ⟨0, 0, 0⟩) cx cy cz nx ny nz default oob
  let origin := Iso3.translation ⟨-g.sizeX * (1 / 2), -g.sizeY * (1 / 2), -g.sizeZ * (1 / 2)⟩
  .ok { g with origin := origin, inverseOrigin := origin.inverse }

variable [FloorRing K]

/-- voxel_grid.hpp:345-347: the number of cells along one axis -/
def cellsFor (size cell : K) : Out Int := int64 ⌈|size| / |cell|⌉

/-- voxel_grid.hpp:341-350 `Initialize` with an origin and sizes -/
def initializeSizes (origin : Iso3 K) (cx cy cz sx sy sz : K) (default oob : T) :
    Out (Grid (Iso3 K) K T) := do
  safetyCheckSizes cx cy cz sx sy sz
  let nx ← cellsFor sx cx
  let ny ← cellsFor sy cy
  let nz ← cellsFor sz cz
  initializeCells origin cx cy cz nx ny nz default oob

/-- voxel_grid.hpp:365-373 `Initialize` with sizes and no origin -/
def initializeSizesCentred (cx cy cz sx sy sz : K) (default oob : T) : Out (Grid (Iso3 K) K T) := do
  safetyCheckSizes cx cy cz sx sy sz
  let nx ← cellsFor sx cx
  let ny ← cellsFor sy cy
  let nz ← cellsFor sz cz
  initializeCellsCentred cx cy cz nx ny nz default oob

/-! ## Locations -/

/-- `(int64_t)x` for a `double`: truncation toward zero. Used for voxel_grid.hpp:759-778. -/
def truncate (x : K) : Out Int := int64 (if 0 ≤ x then ⌊x⌋ else ⌈x⌉)

/-- voxel_grid.hpp:759-778 `PointInFrameToGridIndex` -/
def pointInFrameToGridIndex (g : Grid (Iso3 K) K T) (p : Vec3 K) : Out Index := do
  let x ← truncate (p.x * g.invCellX)
  let y ← truncate (p.y * g.invCellY)
  let z ← truncate (p.z * g.invCellZ)
  .ok ⟨x, y, z⟩

/-- voxel_grid.hpp:785-788 `LocationToGridIndex3d` -/
def locationToGridIndex3d (g : Grid (Iso3 K) K T) (location : Vec3 K) : Out Index :=
  pointInFrameToGridIndex g (g.inverseOrigin.apply location)

/-- voxel_grid.hpp:790-793 `LocationToGridIndex4d`; the vector is `(location, w)` -/
def locationToGridIndex4d (g : Grid (Iso3 K) K T) (location : Vec3 K) (w : K) : Out Index :=
  pointInFrameToGridIndex g (g.inverseOrigin.apply4 location w)

/-- voxel_grid.hpp:780-783 `LocationToGridIndex` -/
def locationToGridIndex (g : Grid (Iso3 K) K T) (location : Vec3 K) : Out Index :=
  locationToGridIndex4d g location 1

/-- voxel_grid.hpp:552-565 `LocationInBounds` -/
def locationInBounds (g : Grid (Iso3 K) K T) (location : Vec3 K) : Out Bool := do
  let i ← locationToGridIndex g location
  .ok (indexInBounds g i)

/-- voxel_grid.hpp:567-588 `GetImmutable3d` (`4d` with last coordinate 1, and by three numbers, are
the same up to how the location is multiplied) -/
def getImmutable3d (g : Grid (Iso3 K) K T) (location : Vec3 K) : Out (T × Bool) := do
  let i ← locationToGridIndex3d g location
  if indexInBounds g i then getImmutable g i else .ok (g.oob, false)

/-- voxel_grid.hpp:646-653 and 687-694 `SetValue3d` -/
def setValue3d (g : Grid (Iso3 K) K T) (location : Vec3 K) (value : T) :
    Out (Bool × Grid (Iso3 K) K T) := do
  let i ← locationToGridIndex3d g location
  if indexInBounds g i then setValue g i value else .ok (false, g)

/-- voxel_grid.hpp:812-825 `GridIndexToLocationGridFrame` (the last coordinate is 1) -/
def gridIndexToLocationGridFrame (g : Grid (Iso3 K) K T) (i : Index) : Vec3 K :=
  ⟨g.cellX * ((i.x : K) + 1 / 2), g.cellY * ((i.y : K) + 1 / 2), g.cellZ * ((i.z : K) + 1 / 2)⟩

/-- voxel_grid.hpp:795-810 `GridIndexToLocation` (the last coordinate is 1) -/
def gridIndexToLocation (g : Grid (Iso3 K) K T) (i : Index) : Vec3 K :=
  g.origin.apply4 (gridIndexToLocationGridFrame g i) 1

/-- voxel_grid.hpp:754-757 `UpdateOriginTransform` -/
def updateOriginTransform (g : Grid (Iso3 K) K T) (origin : Iso3 K) : Grid (Iso3 K) K T :=
  { g with origin := origin, inverseOrigin := origin.inverse }

end Init

end Verif.Voxel
