import Verif.Model.HashedGrid
import Verif.Spec.Voxel

/-!
# What a hashed voxel grid is expected to do

Space is cut into cells with integer indices; `nx` by `ny` by `nz` cells make a chunk.
-/
namespace Verif.HashedGrid
open Verif Verif.Voxel

/-- The cell that contains a point of the grid frame. -/
def cellOf {K : Type} [Field K] [LinearOrder K] [FloorRing K] (cx cy cz : K) (p : Vec3 K) : Index :=
  ⟨⌊p.x / cx⌋, ⌊p.y / cy⌋, ⌊p.z / cz⌋⟩

/-- The chunk that contains a cell (division rounding down). -/
def chunkOf (nx ny nz : Int) (c : Index) : Index := ⟨c.x / nx, c.y / ny, c.z / nz⟩

/-- The chunk numbers fit into `int64_t`. -/
def Representable (k : Index) : Prop :=
  (-2 ^ 63 ≤ k.x ∧ k.x < 2 ^ 63) ∧ (-2 ^ 63 ≤ k.y ∧ k.y < 2 ^ 63) ∧ (-2 ^ 63 ≤ k.z ∧ k.z < 2 ^ 63)

/-- Operations; locations are given by their coordinates in the frame of the grid. `mutate` is
`GetMutable` followed by an assignment through the reference. -/
inductive Op (K T : Type) where
  | get (p : Vec3 K)
  | mutate (p : Vec3 K) (v : T)
  | setCell (p : Vec3 K) (v : T)
  | setChunk (p : Vec3 K) (v : T)
  | setDefault (v : T)

/-- The location of an operation. -/
def Op.location {K T : Type} : Op K T → Option (Vec3 K)
  | .get p | .mutate p _ | .setCell p _ | .setChunk p _ => some p
  | .setDefault _ => none

/-- What an operation reports. -/
inductive Res (T : Type) where
  | nothing
  | read (v : T) (f : Found)
  | wrote (s : SetStatus)
  deriving DecidableEq

section
variable {K T : Type} [Field K] [LinearOrder K] [FloorRing K]

/-- An operation on the modelled grid. -/
def step (g : Grid K T) : Op K T → Out (Res T × Grid K T)
  | .get p => do
    let r ← getImmutable g (atFrame g.origin p)
    .ok (.read r.1 r.2, g)
  | .mutate p v => do
    let r ← getRef g (atFrame g.origin p)
    let old ← readRef g r.1
    let g' ← writeRef g v r.1
    .ok (.read old r.2, g')
  | .setCell p v => do
    let r ← setCellValue g (atFrame g.origin p) v
    .ok (.wrote r.1, r.2)
  | .setChunk p v => do
    let r ← setChunkValue g (atFrame g.origin p) v
    .ok (.wrote r.1, r.2)
  | .setDefault v => .ok (.nothing, setDefaultValue g v)

/-- A history on the modelled grid. -/
def run (g : Grid K T) : List (Op K T) → Out (List (Res T) × Grid K T)
  | [] => .ok ([], g)
  | op :: ops => do
    let r ← step g op
    let rs ← run r.2 ops
    .ok (r.1 :: rs.1, rs.2)

end

/-- What is known about a chunk: nothing was written to it; it has one value; or a value for each cell. -/
inductive ChunkState (T : Type) where
  | unset
  | whole (v : T)
  | cells (f : Index → T)

/-- The abstract grid. -/
structure Contents (T : Type) where
  default : T
  chunks : Index → ChunkState T

/-- The value of a cell. -/
def Contents.value {T : Type} (s : Contents T) (k c : Index) : T :=
  match s.chunks k with
  | .unset => s.default
  | .whole v => v
  | .cells f => f c

/-- Where the value of a cell is found. -/
def Contents.found {T : Type} (s : Contents T) (k : Index) : Found :=
  match s.chunks k with
  | .unset => .notFound
  | .whole _ => .inChunk
  | .cells _ => .inCell

/-- Give a chunk a new state. -/
def Contents.put {T : Type} (s : Contents T) (k : Index) (c : ChunkState T) : Contents T :=
  { s with chunks := fun j => if j = k then c else s.chunks j }

/-- What an operation should report and do, on a grid with the given cell sizes and numbers of cells in a
chunk. Writing to a cell gives all cells of its chunk a value of their own: the one they had. -/
def specStep {K T : Type} [Field K] [LinearOrder K] [FloorRing K] (cx cy cz : K) (nx ny nz : Int)
    (s : Contents T) : Op K T → Res T × Contents T
  | .get p =>
    let c := cellOf cx cy cz p
    let k := chunkOf nx ny nz c
    (.read (s.value k c) (s.found k), s)
  | .mutate p v =>
    let c := cellOf cx cy cz p
    let k := chunkOf nx ny nz c
    (.read (s.value k c) (s.found k),
      match s.chunks k with
      | .unset => { s with default := v }
      | .whole _ => s.put k (.whole v)
      | .cells f => s.put k (.cells fun d => if d = c then v else f d))
  | .setCell p v =>
    let c := cellOf cx cy cz p
    let k := chunkOf nx ny nz c
    (.wrote .setCell, s.put k (.cells fun d => if d = c then v else s.value k d))
  | .setChunk p v =>
    let k := chunkOf nx ny nz (cellOf cx cy cz p)
    (.wrote .setChunk, s.put k (.whole v))
  | .setDefault v => (.nothing, { s with default := v })

/-- What a history should report and do. -/
def specRun {K T : Type} [Field K] [LinearOrder K] [FloorRing K] (cx cy cz : K) (nx ny nz : Int)
    (s : Contents T) : List (Op K T) → List (Res T) × Contents T
  | [] => ([], s)
  | op :: ops =>
    let r := specStep cx cy cz nx ny nz s op
    let rs := specRun cx cy cz nx ny nz r.2 ops
    (r.1 :: rs.1, rs.2)

/-- The latest value written to the cell `c` by a history (oldest operation first) of `setCell` and
`setChunk`: `setCell` writes one cell, `setChunk` all cells of the chunk. -/
def lastWrite {K T : Type} [Field K] [LinearOrder K] [FloorRing K] (cx cy cz : K) (nx ny nz : Int)
    (c : Index) (sofar : Option T) : List (Op K T) → Option T
  | [] => sofar
  | .setCell p v :: ops =>
    lastWrite cx cy cz nx ny nz c (if cellOf cx cy cz p = c then some v else sofar) ops
  | .setChunk p v :: ops =>
    lastWrite cx cy cz nx ny nz c
      (if chunkOf nx ny nz (cellOf cx cy cz p) = chunkOf nx ny nz c then some v else sofar) ops
  | _ :: ops => lastWrite cx cy cz nx ny nz c sofar ops

end Verif.HashedGrid
