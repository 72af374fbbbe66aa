import Verif.Model.Voxel

/-!
# What a voxel grid is expected to do
-/
namespace Verif.Voxel
open Verif

/-- The index addresses a cell of a grid of `nx` by `ny` by `nz` cells. -/
def InGrid (nx ny nz : Int) (i : Index) : Prop :=
  (0 ≤ i.x ∧ i.x < nx) ∧ (0 ≤ i.y ∧ i.y < ny) ∧ (0 ≤ i.z ∧ i.z < nz)

instance (nx ny nz : Int) (i : Index) : Decidable (InGrid nx ny nz i) := by
  unfold InGrid; infer_instance

/-- The position of a cell in the usual row-major order (the last coordinate runs fastest). -/
def rowMajor (ny nz : Int) (i : Index) : Int := (i.x * ny + i.y) * nz + i.z

/-- Grids made by one of the four `Initialize` overloads that all constructors (voxel_grid.hpp:221-309) use: those with
one cell size pass it three times, those without a value for indices out of bounds pass the default value. -/
inductive Created {K T : Type} [Field K] [LinearOrder K] [FloorRing K] (default oob : T)
    (g : Grid (Iso3 K) K T) : Prop
  | cells (origin : Iso3 K) (cx cy cz : K) (nx ny nz : Int)
      (h : initializeCells origin cx cy cz nx ny nz default oob = .ok g)
  | cellsCentred (cx cy cz : K) (nx ny nz : Int)
      (h : initializeCellsCentred cx cy cz nx ny nz default oob = .ok g)
  | sizes (origin : Iso3 K) (cx cy cz sx sy sz : K)
      (h : initializeSizes origin cx cy cz sx sy sz default oob = .ok g)
  | sizesCentred (cx cy cz sx sy sz : K)
      (h : initializeSizesCentred cx cy cz sx sy sz default oob = .ok g)

/-! ## Histories -/

/-- The operations on a grid addressed by index. `mutate i v` is `GetMutable(i)` followed by an
assignment of `v` through the reference it returns. -/
inductive Op (K T : Type) where
  | get (i : Index)
  | set (i : Index) (v : T)
  | mutate (i : Index) (v : T)
  | resetDefault
  | resetValue (v : T)
  | resetNewDefault (v : T)
  | setDefault (v : T)
  | setOob (v : T)
  | getDefault
  | getOob
  | setRaw (data : List T)
  | updateOrigin (origin : Iso3 K)

/-- What an operation reports. -/
inductive Res (T : Type) where
  | nothing
  | flag (b : Bool)
  | val (v : T)
  | read (v : T) (b : Bool)
  deriving DecidableEq

section
variable {K T : Type} [Field K]

/-- An operation on the modelled grid. -/
def step (g : Grid (Iso3 K) K T) : Op K T → Out (Res T × Grid (Iso3 K) K T)
  | .get i => do
    let r ← getImmutable g i
    .ok (.read r.1 r.2, g)
  | .set i v => do
    let r ← setValue g i v
    .ok (.flag r.1, r.2)
  | .mutate i v => do
    let r ← getRef g i
    let old ← readRef g r.1
    let g' ← writeRef g v r.1
    .ok (.read old r.2, g')
  | .resetDefault => .ok (.nothing, resetWithDefault g)
  | .resetValue v => .ok (.nothing, resetWithNewValue g v)
  | .resetNewDefault v => .ok (.nothing, resetWithNewDefault g v)
  | .setDefault v => .ok (.nothing, setDefaultValue g v)
  | .setOob v => .ok (.nothing, setOobValue g v)
  | .getDefault => .ok (.val g.default, g)
  | .getOob => .ok (.val g.oob, g)
  | .setRaw data => let r := setRawData g data; .ok (.flag r.1, r.2)
  | .updateOrigin o => .ok (.nothing, updateOriginTransform g o)

/-- A history of operations on the modelled grid. -/
def run (g : Grid (Iso3 K) K T) : List (Op K T) → Out (List (Res T) × Grid (Iso3 K) K T)
  | [] => .ok ([], g)
  | op :: ops => do
    let r ← step g op
    let rs ← run r.2 ops
    .ok (r.1 :: rs.1, rs.2)

end

/-- The abstract grid: a value for each index, the default value and the out-of-bounds value. -/
structure Contents (T : Type) where
  cells : Index → T
  default : T
  oob : T

/-- What an operation should report and do, for a grid of `nx` by `ny` by `nz` cells. -/
def specStep {K T : Type} (nx ny nz : Int) (c : Contents T) : Op K T → Res T × Contents T
  | .get i => (if InGrid nx ny nz i then .read (c.cells i) true else .read c.oob false, c)
  | .set i v =>
    if InGrid nx ny nz i then
      (.flag true, { c with cells := fun j => if j = i then v else c.cells j })
    else (.flag false, c)
  | .mutate i v =>
    if InGrid nx ny nz i then
      (.read (c.cells i) true, { c with cells := fun j => if j = i then v else c.cells j })
    else (.read c.oob false, { c with oob := v })
  | .resetDefault => (.nothing, { c with cells := fun _ => c.default })
  | .resetValue v => (.nothing, { c with cells := fun _ => v })
  | .resetNewDefault v => (.nothing, { c with cells := fun _ => v, default := v })
  | .setDefault v => (.nothing, { c with default := v })
  | .setOob v => (.nothing, { c with oob := v })
  | .getDefault => (.val c.default, c)
  | .getOob => (.val c.oob, c)
  | .setRaw data =>
    if (data.length : Int) = nx * ny * nz then
      (.flag true, { c with cells := fun i => data.getD (rowMajor ny nz i).toNat c.default })
    else (.flag false, c)
  | .updateOrigin _ => (.nothing, c)

/-- What a history should report and do. -/
def specRun {K T : Type} (nx ny nz : Int) (c : Contents T) : List (Op K T) → List (Res T) × Contents T
  | [] => ([], c)
  | op :: ops =>
    let r := specStep nx ny nz c op
    let rs := specRun nx ny nz r.2 ops
    (r.1 :: rs.1, rs.2)

/-! ## Geometry -/

/-- The rotation part is a rotation or reflection: its columns and its rows are orthonormal. -/
structure IsIsometry {K : Type} [Field K] (T : Iso3 K) : Prop where
  xx : T.r1.x * T.r1.x + T.r2.x * T.r2.x + T.r3.x * T.r3.x = 1
  yy : T.r1.y * T.r1.y + T.r2.y * T.r2.y + T.r3.y * T.r3.y = 1
  zz : T.r1.z * T.r1.z + T.r2.z * T.r2.z + T.r3.z * T.r3.z = 1
  xy : T.r1.x * T.r1.y + T.r2.x * T.r2.y + T.r3.x * T.r3.y = 0
  xz : T.r1.x * T.r1.z + T.r2.x * T.r2.z + T.r3.x * T.r3.z = 0
  yz : T.r1.y * T.r1.z + T.r2.y * T.r2.z + T.r3.y * T.r3.z = 0
  rows11 : T.r1.x * T.r1.x + T.r1.y * T.r1.y + T.r1.z * T.r1.z = 1
  rows22 : T.r2.x * T.r2.x + T.r2.y * T.r2.y + T.r2.z * T.r2.z = 1
  rows33 : T.r3.x * T.r3.x + T.r3.y * T.r3.y + T.r3.z * T.r3.z = 1
  rows12 : T.r1.x * T.r2.x + T.r1.y * T.r2.y + T.r1.z * T.r2.z = 0
  rows13 : T.r1.x * T.r3.x + T.r1.y * T.r3.y + T.r1.z * T.r3.z = 0
  rows23 : T.r2.x * T.r3.x + T.r2.y * T.r3.y + T.r2.z * T.r3.z = 0

/-- The world location of the point with coordinates `p` in the frame of the grid. -/
def atFrame {K : Type} [Field K] (origin : Iso3 K) (p : Vec3 K) : Vec3 K :=
  ⟨origin.r1.x * p.x + origin.r1.y * p.y + origin.r1.z * p.z + origin.t.x,
   origin.r2.x * p.x + origin.r2.y * p.y + origin.r2.z * p.z + origin.t.y,
   origin.r3.x * p.x + origin.r3.y * p.y + origin.r3.z * p.z + origin.t.z⟩

section
variable {K T : Type} [Field K] [LinearOrder K]

/-- The point (in the frame of the grid) lies in the half-open box covered by the cells. -/
def InBox (g : Grid (Iso3 K) K T) (p : Vec3 K) : Prop :=
  (0 ≤ p.x ∧ p.x < g.numX * g.cellX) ∧ (0 ≤ p.y ∧ p.y < g.numY * g.cellY) ∧
    (0 ≤ p.z ∧ p.z < g.numZ * g.cellZ)

/-- The point lies in the box enlarged by one open cell below each of the three lower faces. -/
def InEnlargedBox (g : Grid (Iso3 K) K T) (p : Vec3 K) : Prop :=
  (-g.cellX < p.x ∧ p.x < g.numX * g.cellX) ∧ (-g.cellY < p.y ∧ p.y < g.numY * g.cellY) ∧
    (-g.cellZ < p.z ∧ p.z < g.numZ * g.cellZ)

/-- The number of cells between the origin and the point fits into `int64_t` along every axis. -/
def Reachable (g : Grid (Iso3 K) K T) (p : Vec3 K) : Prop :=
  (-(2 ^ 63 + 1) * g.cellX < p.x ∧ p.x < 2 ^ 63 * g.cellX) ∧
  (-(2 ^ 63 + 1) * g.cellY < p.y ∧ p.y < 2 ^ 63 * g.cellY) ∧
  (-(2 ^ 63 + 1) * g.cellZ < p.z ∧ p.z < 2 ^ 63 * g.cellZ)

/-- The point lies in the half-open cell with index `i`. -/
def InCell (g : Grid (Iso3 K) K T) (i : Index) (p : Vec3 K) : Prop :=
  (i.x * g.cellX ≤ p.x ∧ p.x < (i.x + 1) * g.cellX) ∧
  (i.y * g.cellY ≤ p.y ∧ p.y < (i.y + 1) * g.cellY) ∧
  (i.z * g.cellZ ≤ p.z ∧ p.z < (i.z + 1) * g.cellZ)

end

end Verif.Voxel
