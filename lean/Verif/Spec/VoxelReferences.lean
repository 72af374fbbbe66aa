import Verif.Model.VoxelReferences
import Verif.Spec.Voxel

/-!
# What references into a voxel grid are expected to do
-/
namespace Verif.Voxel
open Verif

/-- The operations, with kept references. References are numbered in the order in which they were made. -/
inductive RefOp (K T : Type) where
  /-- `GetMutable` or `GetImmutable`, keeping the reference -/
  | hold (i : Index)
  /-- read through a kept reference -/
  | read (k : Nat)
  /-- assign through a kept reference -/
  | write (k : Nat) (v : T)
  | get (i : Index)
  | set (i : Index) (a : Arg T)
  | resetDefault
  | resetValue (a : Arg T)
  | resetNewDefault (a : Arg T)
  | setDefault (a : Arg T)
  | setOob (a : Arg T)
  | getDefault
  | setRaw (data : List T)
  /-- `Initialize`; reports `false` for `std::invalid_argument` -/
  | init (origin : Iso3 K) (cx cy cz : K) (nx ny nz : Int) (default oob : Arg T)

section
variable {K T : Type} [Field K] [LinearOrder K]

/-- An operation on the modelled grid. -/
def refStep (m : Live K T) : RefOp K T → Out (Res T × Live K T)
  | .hold i => do
    let r ← hold m i
    .ok (.flag r.1, r.2)
  | .read k => do
    let v ← readHeld m k
    .ok (.val v, m)
  | .write k v => do
    let m' ← writeHeld m k v
    .ok (.nothing, m')
  | .get i => do
    let r ← getImmutable m.grid i
    .ok (.read r.1 r.2, m)
  | .set i a => do
    let r ← setValueArg m i a
    .ok (.flag r.1, r.2)
  | .resetDefault => do
    let m' ← resetWithDefaultLive m
    .ok (.nothing, m')
  | .resetValue a => do
    let m' ← resetWithNewValueArg m a
    .ok (.nothing, m')
  | .resetNewDefault a => do
    let m' ← resetWithNewDefaultArg m a
    .ok (.nothing, m')
  | .setDefault a => do
    let m' ← setDefaultArg m a
    .ok (.nothing, m')
  | .setOob a => do
    let m' ← setOobArg m a
    .ok (.nothing, m')
  | .getDefault => .ok (.val m.grid.default, m)
  | .setRaw data => .ok (.flag (setRawLive m data).1, (setRawLive m data).2)
  | .init origin cx cy cz nx ny nz a b =>
    match reinitialize m origin cx cy cz nx ny nz a b with
    | .ok m' => .ok (.flag true, m')
    | .throws _ => .ok (.flag false, m)
    | .abort => .abort
    | .ub => .ub

/-- The results of a history on the modelled grid. -/
def refRun (m : Live K T) : List (RefOp K T) → Out (List (Res T) × Live K T)
  | [] => .ok ([], m)
  | op :: ops => do
    let r ← refStep m op
    let rs ← refRun r.2 ops
    .ok (r.1 :: rs.1, rs.2)

end

/-- What a reference refers to. -/
inductive Target where
  | cell (i : Index)
  | oob
  deriving DecidableEq, Repr

/-- The abstract grid: its shape, its values, and what the kept references refer to (`none` when the element that it
referred to is gone). -/
structure RefState (T : Type) where
  nx : Int
  ny : Int
  nz : Int
  contents : Contents T
  held : List (Option Target)

/-- The value that a reference refers to, if it refers to one. -/
def RefState.value {T : Type} (s : RefState T) (k : Nat) : Option T :=
  match s.held[k]? with
  | some (some (.cell i)) => some (s.contents.cells i)
  | some (some .oob) => some s.contents.oob
  | _ => none

/-- The value of an argument. -/
def RefState.arg {T : Type} (s : RefState T) : Arg T → Option T
  | .value v => some v
  | .held k => s.value k

/-- The elements of the storage are replaced: references to cells end, those to the value for indices out of bounds do
not. -/
def RefState.expire {T : Type} (s : RefState T) : List (Option Target) :=
  s.held.map fun t => if t = some .oob then some .oob else none

/-- Every cell gets the value `v`, the cells being new ones. -/
def RefState.fill {T : Type} (s : RefState T) (v : T) : RefState T :=
  { s with contents := { s.contents with cells := fun _ => v }, held := s.expire }

/-- What an operation should report and do; `ub` when it uses a reference to an element that is gone. -/
def refSpecStep {K T : Type} [Field K] [LinearOrder K] (s : RefState T) : RefOp K T → Out (Res T × RefState T)
  | .hold i =>
    if InGrid s.nx s.ny s.nz i then .ok (.flag true, { s with held := s.held ++ [some (.cell i)] })
    else .ok (.flag false, { s with held := s.held ++ [some .oob] })
  | .read k =>
    match s.value k with
    | some v => .ok (.val v, s)
    | none => .ub
  | .write k v =>
    match s.held[k]? with
    | some (some (.cell i)) => .ok (.nothing,
        { s with contents := { s.contents with cells := fun j => if j = i then v else s.contents.cells j } })
    | some (some .oob) => .ok (.nothing, { s with contents := { s.contents with oob := v } })
    | _ => .ub
  | .get i =>
    .ok (if InGrid s.nx s.ny s.nz i then .read (s.contents.cells i) true else .read s.contents.oob false, s)
  | .set i a =>
    if InGrid s.nx s.ny s.nz i then
      match s.arg a with
      | some v => .ok (.flag true,
          { s with contents := { s.contents with cells := fun j => if j = i then v else s.contents.cells j } })
      | none => .ub
    else .ok (.flag false, s)
  | .resetDefault => .ok (.nothing, s.fill s.contents.default)
  | .resetValue (.value v) => .ok (.nothing, s.fill v)
  | .resetValue (.held k) =>
    -- the storage is cleared before the value is read: only the value for indices out of bounds is still there
    if s.held[k]? = some (some .oob) then .ok (.nothing, s.fill s.contents.oob) else .ub
  | .resetNewDefault a =>
    match s.arg a with
    | some v => .ok (.nothing, { s with contents := { s.contents with default := v } }.fill v)
    | none => .ub
  | .setDefault a =>
    match s.arg a with
    | some v => .ok (.nothing, { s with contents := { s.contents with default := v } })
    | none => .ub
  | .setOob a =>
    match s.arg a with
    | some v => .ok (.nothing, { s with contents := { s.contents with oob := v } })
    | none => .ub
  | .getDefault => .ok (.val s.contents.default, s)
  | .setRaw data =>
    if (data.length : Int) = s.nx * s.ny * s.nz then
      .ok (.flag true, { s with
        contents := { s.contents with cells := fun i => data.getD (rowMajor s.ny s.nz i).toNat s.contents.default }
        held := s.expire })
    else .ok (.flag false, s)
  | .init _ cx cy cz nx ny nz a b =>
    if cx ≤ 0 ∨ cy ≤ 0 ∨ cz ≤ 0 ∨ nx ≤ 0 ∨ ny ≤ 0 ∨ nz ≤ 0 then .ok (.flag false, s)
    else
      match s.arg a, s.arg b with
      | some d, some o =>
        if nx * ny * nz < 2 ^ 63 then
          .ok (.flag true, ⟨nx, ny, nz, ⟨fun _ => d, d, o⟩, s.expire⟩)
        else .ub
      | _, _ => .ub

/-- What a history should report and do. -/
def refSpecRun {K T : Type} [Field K] [LinearOrder K] (s : RefState T) :
    List (RefOp K T) → Out (List (Res T) × RefState T)
  | [] => .ok ([], s)
  | op :: ops => do
    let r ← refSpecStep s op
    let rs ← refSpecRun r.2 ops
    .ok (r.1 :: rs.1, rs.2)

/-- The results of a history, without the state. -/
def results {α β : Type} : Out (α × β) → Out α
  | .ok r => .ok r.1
  | .throws e => .throws e
  | .abort => .abort
  | .ub => .ub

end Verif.Voxel
