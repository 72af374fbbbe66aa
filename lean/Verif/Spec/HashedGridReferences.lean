import Verif.Model.HashedGridReferences
import Verif.Spec.HashedGrid

/-!
# What references into a hashed voxel grid are expected to do
-/
namespace Verif.HashedGridReferences
open Verif Verif.Voxel Verif.HashedGrid

/-- The operations, with kept references; locations are given by their coordinates in the frame of the grid. References are
numbered in the order in which they were made. -/
inductive RefOp (K T : Type) where
  /-- `GetMutable` or `GetImmutable`, keeping the reference -/
  | hold (p : Vec3 K)
  /-- read through a kept reference -/
  | read (k : Nat)
  /-- assign through a kept reference -/
  | write (k : Nat) (v : T)
  | get (p : Vec3 K)
  | setCell (p : Vec3 K) (a : Arg T)
  | setChunk (p : Vec3 K) (a : Arg T)
  | setDefault (a : Arg T)
  | getDefault

/-- What an operation reports. -/
inductive RefRes (T : Type) where
  | nothing
  | held (f : Found)
  | val (v : T)
  | read (v : T) (f : Found)
  | wrote (s : SetStatus)
  deriving DecidableEq

section
variable {K T : Type} [Field K] [LinearOrder K] [FloorRing K]

/-- An operation on the modelled grid. -/
def refStep (m : Live K T) : RefOp K T → Out (RefRes T × Live K T)
  | .hold p => do
    let r ← hold m (atFrame m.grid.origin p)
    .ok (.held r.1, r.2)
  | .read k => do
    let v ← readHeld m k
    .ok (.val v, m)
  | .write k v => do
    let m' ← writeHeld m k v
    .ok (.nothing, m')
  | .get p => do
    let r ← getImmutable m.grid (atFrame m.grid.origin p)
    .ok (.read r.1 r.2, m)
  | .setCell p a => do
    let r ← setCellArg m (atFrame m.grid.origin p) a
    .ok (.wrote r.1, r.2)
  | .setChunk p a => do
    let r ← setChunkArg m (atFrame m.grid.origin p) a
    .ok (.wrote r.1, r.2)
  | .setDefault a => do
    let m' ← setDefaultArg m a
    .ok (.nothing, m')
  | .getDefault => .ok (.val m.grid.default, m)

/-- A history on the modelled grid. -/
def refRun (m : Live K T) : List (RefOp K T) → Out (List (RefRes T) × Live K T)
  | [] => .ok ([], m)
  | op :: ops => do
    let r ← refStep m op
    let rs ← refRun r.2 ops
    .ok (r.1 :: rs.1, rs.2)

end

/-- What a reference refers to: the value for locations without one, the value of a whole chunk, or a cell. -/
inductive Target where
  | default
  | whole (k : Index)
  | cell (c : Index)
  deriving DecidableEq, Repr

/-- The sizes of the cells and the numbers of cells in a chunk. -/
structure Shape (K : Type) where
  cx : K
  cy : K
  cz : K
  nx : Int
  ny : Int
  nz : Int

/-- The chunk of a cell. -/
def Shape.chunk {K : Type} (sh : Shape K) (c : Index) : Index := chunkOf sh.nx sh.ny sh.nz c

/-- The cell of a location. -/
def Shape.cell {K : Type} [Field K] [LinearOrder K] [FloorRing K] (sh : Shape K) (p : Vec3 K) : Index :=
  cellOf sh.cx sh.cy sh.cz p

/-- The abstract grid: its values, and what the kept references refer to (`none` when it is gone). -/
structure RefState (T : Type) where
  contents : HashedGrid.Contents T
  held : List (Option Target)

section
variable {K T : Type}

/-- The value of what is referred to. -/
def RefState.target (sh : Shape K) (s : RefState T) : Option Target → Option T
  | some .default => some s.contents.default
  | some (.whole k) => match s.contents.chunks k with
    | .whole v => some v
    | _ => none
  | some (.cell c) => match s.contents.chunks (sh.chunk c) with
    | .cells f => some (f c)
    | _ => none
  | none => none

/-- The value that a reference refers to, if it refers to one. -/
def RefState.value (sh : Shape K) (s : RefState T) (k : Nat) : Option T :=
  match s.held[k]? with
  | some t => s.target sh t
  | none => none

/-- The value of an argument. -/
def RefState.arg (sh : Shape K) (s : RefState T) : Arg T → Option T
  | .value v => some v
  | .held k => s.value sh k

/-- What the references refer to when the elements of a chunk have been replaced: those to it end. -/
def RefState.expire (sh : Shape K) (s : RefState T) (k : Index) : List (Option Target) :=
  s.held.map fun t => match t with
    | some (.whole j) => if j = k then none else some (.whole j)
    | some (.cell c) => if sh.chunk c = k then none else some (.cell c)
    | t => t

instance (k : Index) : Decidable (Representable k) := by unfold Representable; infer_instance

/-- What an operation should report and do; `ub` when it uses a reference to something that is gone, or a location whose
chunk cannot be numbered. Writing a cell of a chunk that has cells, or the value of a chunk that has one, changes the
value in place; otherwise the elements of the chunk are new ones. -/
def refSpecStep [Field K] [LinearOrder K] [FloorRing K] (sh : Shape K) (s : RefState T) :
    RefOp K T → Out (RefRes T × RefState T)
  | .hold p =>
    let c := sh.cell p
    let k := sh.chunk c
    if Representable k then
      .ok (.held (s.contents.found k), { s with held := s.held ++ [some (match s.contents.chunks k with
        | .unset => .default
        | .whole _ => .whole k
        | .cells _ => .cell c)] })
    else .ub
  | .read k =>
    match s.value sh k with
    | some v => .ok (.val v, s)
    | none => .ub
  | .write i v =>
    match s.held[i]? with
    | some (some .default) => .ok (.nothing, { s with contents := { s.contents with default := v } })
    | some (some (.whole k)) => .ok (.nothing, { s with contents := s.contents.put k (.whole v) })
    | some (some (.cell c)) => .ok (.nothing,
        ⟨s.contents.put (sh.chunk c) (.cells fun d => if d = c then v else s.contents.value (sh.chunk c) d), s.held⟩)
    | _ => .ub
  | .get p =>
    let c := sh.cell p
    let k := sh.chunk c
    if Representable k then .ok (.read (s.contents.value k c) (s.contents.found k), s) else .ub
  | .setCell p a =>
    let c := sh.cell p
    let k := sh.chunk c
    if Representable k then
      match s.arg sh a with
      | some v => .ok (.wrote .setCell,
          ⟨s.contents.put k (.cells fun d => if d = c then v else s.contents.value k d),
            if s.contents.found k = .inCell then s.held else s.expire sh k⟩)
      | none => .ub
    else .ub
  | .setChunk p a =>
    let k := sh.chunk (sh.cell p)
    if Representable k then
      match s.arg sh a with
      | some v => .ok (.wrote .setChunk, ⟨s.contents.put k (.whole v),
          if s.contents.found k = .inChunk then s.held else s.expire sh k⟩)
      | none => .ub
    else .ub
  | .setDefault a =>
    match s.arg sh a with
    | some v => .ok (.nothing, { s with contents := { s.contents with default := v } })
    | none => .ub
  | .getDefault => .ok (.val s.contents.default, s)

/-- What a history should report and do. -/
def refSpecRun [Field K] [LinearOrder K] [FloorRing K] (sh : Shape K) (s : RefState T) :
    List (RefOp K T) → Out (List (RefRes T) × RefState T)
  | [] => .ok ([], s)
  | op :: ops => do
    let r ← refSpecStep sh s op
    let rs ← refSpecRun sh r.2 ops
    .ok (r.1 :: rs.1, rs.2)

end

/-- The results of a history, without the state. -/
def results {α β : Type} : Out (α × β) → Out α
  | .ok r => .ok r.1
  | .throws e => .throws e
  | .abort => .abort
  | .ub => .ub

/-- The operation gives the chunk `k` new elements, when a value there is found in a `f`: it sets a single cell of a chunk
that has one value, or the one value of a chunk that has cells. -/
def Replaces {K T : Type} [Field K] [LinearOrder K] [FloorRing K] (sh : Shape K) (k : Index) (f : Found) :
    RefOp K T → Prop
  | .setCell p _ => sh.chunk (sh.cell p) = k ∧ f ≠ .inCell
  | .setChunk p _ => sh.chunk (sh.cell p) = k ∧ f ≠ .inChunk
  | _ => False

/-- The grid and its references can be in this state, after the grid was made. -/
def Reached {K T : Type} [Field K] [LinearOrder K] [FloorRing K] (g : HashedGrid.Grid K T) (m : Live K T) : Prop :=
  ∃ ops r, refRun ⟨g, fun _ => 0, []⟩ ops = .ok (r, m)

end Verif.HashedGridReferences
