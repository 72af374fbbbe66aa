import Verif.Model.HashedGridRounded
import Verif.Model.HashedGridSpecial
import Verif.Spec.VoxelSpecial

/-!
# Specification of hashed voxel grids with special doubles
-/
namespace Verif.HashedGridSpecial
open Verif Verif.HashedGrid
open Verif.Voxel (Vec3 Iso3)
open Verif.VoxelSpecial (doubles3 doublesIso Within Turned)

variable {T : Type}

/-- Every access to the grid at this location is undefined. -/
def Undefined (A : Ieee) (g : Grid Dbl T) (l : Vec3 Dbl) : Prop :=
  getImmutable A g l = .ub ∧ ∀ v, setCellValue A g l v = .ub ∧ setChunkValue A g l v = .ub

/-- A chunk of numbers as a chunk of doubles. -/
def doublesChunk (c : Chunk ℝ T) : Chunk Dbl T :=
  { base := doubles3 c.base, initial := c.initial, data := c.data
    cellX := .num c.cellX, cellY := .num c.cellY, cellZ := .num c.cellZ
    chunkX := .num c.chunkX, chunkY := .num c.chunkY, chunkZ := .num c.chunkZ
    numX := c.numX, numY := c.numY, numZ := c.numZ
    stride1 := c.stride1, stride2 := c.stride2
    chunkInit := c.chunkInit, cellInit := c.cellInit }

/-- A grid of numbers as a grid of doubles: the same chunks, for the same regions. -/
def doublesGrid (g : Grid ℝ T) : Grid Dbl T :=
  { origin := doublesIso g.origin, inverseOrigin := doublesIso g.inverseOrigin, default := g.default
    chunks := fun r => match r with
      | ⟨.num x, .num y, .num z⟩ => (g.chunks ⟨x, y, z⟩).map doublesChunk
      | _ => none
    chunkX := .num g.chunkX, chunkY := .num g.chunkY, chunkZ := .num g.chunkZ
    cellX := .num g.cellX, cellY := .num g.cellY, cellZ := .num g.cellZ
    numX := g.numX, numY := g.numY, numZ := g.numZ
    stride1 := g.stride1, stride2 := g.stride2, initialized := g.initialized }

/-- What a chunk of a grid meets whose values are not close to overflow. -/
structure NearChunk (B : ℝ) (c : Chunk ℝ T) : Prop where
  base : Within (16 * B) c.base
  cells : c.cellInit = true → c.cellX ≠ 0 ∧ c.cellY ≠ 0 ∧ c.cellZ ≠ 0

/-- A grid whose values are not close to overflow: translations are at most `4 * B`, chunks at most `B` wide. -/
structure Near (B : ℝ) (g : Grid ℝ T) : Prop where
  initialized : g.initialized = true
  turned : Turned g.inverseOrigin
  translation : Within (4 * B) g.inverseOrigin.t
  positive : 0 < g.chunkX ∧ 0 < g.chunkY ∧ 0 < g.chunkZ
  chunk : g.chunkX ≤ 2 * B ∧ g.chunkY ≤ 2 * B ∧ g.chunkZ ≤ 2 * B
  cells : g.cellX * g.numX ≤ B ∧ g.cellY * g.numY ≤ B ∧ g.cellZ * g.numZ ≤ B
  chunks : ∀ r c, g.chunks r = some c → NearChunk B c

/-- An operation of a client on a grid. -/
inductive Op (T : Type) where
  | read (l : Vec3 ℝ)
  | setCell (l : Vec3 ℝ) (v : T)
  | setChunk (l : Vec3 ℝ) (v : T)

/-- Where an operation works. -/
def Op.location : Op T → Vec3 ℝ
  | .read l => l
  | .setCell l _ => l
  | .setChunk l _ => l

/-- What an operation reports. -/
inductive Report (T : Type) where
  | read (v : T) (f : Found)
  | set (s : SetStatus)

/-- The reports of a history of operations on a grid of doubles, until one of them fails. -/
noncomputable def run (A : Ieee) : Grid Dbl T → List (Op T) → Out (List (Report T))
  | _, [] => .ok []
  | g, .read l :: ops => do
    let r ← getImmutable A g (doubles3 l)
    let rs ← run A g ops
    .ok (.read r.1 r.2 :: rs)
  | g, .setCell l v :: ops => do
    let r ← setCellValue A g (doubles3 l) v
    let rs ← run A r.2 ops
    .ok (.set r.1 :: rs)
  | g, .setChunk l v :: ops => do
    let r ← setChunkValue A g (doubles3 l) v
    let rs ← run A r.2 ops
    .ok (.set r.1 :: rs)

/-- The reports with rounding and without overflow. -/
noncomputable def runRounded (R : Rounding) : Grid ℝ T → List (Op T) → Out (List (Report T))
  | _, [] => .ok []
  | g, .read l :: ops => do
    let r ← HashedGridRounded.getImmutable R g l
    let rs ← runRounded R g ops
    .ok (.read r.1 r.2 :: rs)
  | g, .setCell l v :: ops => do
    let r ← HashedGridRounded.setCellValue R g l v
    let rs ← runRounded R r.2 ops
    .ok (.set r.1 :: rs)
  | g, .setChunk l v :: ops => do
    let r ← HashedGridRounded.setChunkValue R g l v
    let rs ← runRounded R r.2 ops
    .ok (.set r.1 :: rs)

end Verif.HashedGridSpecial
