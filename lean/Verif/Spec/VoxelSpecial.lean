import Verif.Base.Ieee
import Verif.Model.VoxelRounded
import Verif.Model.VoxelSpecial

/-!
# Specification of voxel grids with special doubles
-/
namespace Verif.VoxelSpecial
open Verif Verif.Voxel

variable {T : Type}

/-- All coordinates are numbers. -/
def Finite3 (p : Vec3 Dbl) : Prop := p.x.Finite ∧ p.y.Finite ∧ p.z.Finite

/-- A vector of numbers as doubles. -/
def doubles3 (p : Vec3 ℝ) : Vec3 Dbl := ⟨.num p.x, .num p.y, .num p.z⟩

/-- A transform of numbers as doubles. -/
def doublesIso (t : Iso3 ℝ) : Iso3 Dbl := ⟨doubles3 t.r1, doubles3 t.r2, doubles3 t.r3, doubles3 t.t⟩

/-- A grid of numbers as a grid of doubles. -/
def doublesGrid (g : Grid (Iso3 ℝ) ℝ T) : Grid (Iso3 Dbl) Dbl T :=
  { origin := doublesIso g.origin
    inverseOrigin := doublesIso g.inverseOrigin
    default := g.default
    oob := g.oob
    data := g.data
    cellX := .num g.cellX, cellY := .num g.cellY, cellZ := .num g.cellZ
    invCellX := .num g.invCellX, invCellY := .num g.invCellY, invCellZ := .num g.invCellZ
    sizeX := .num g.sizeX, sizeY := .num g.sizeY, sizeZ := .num g.sizeZ
    stride1 := g.stride1
    stride2 := g.stride2
    numX := g.numX, numY := g.numY, numZ := g.numZ
    initialized := g.initialized }

/-- All coordinates are at most `B` in absolute value. -/
def Within (B : ℝ) (p : Vec3 ℝ) : Prop := |p.x| ≤ B ∧ |p.y| ≤ B ∧ |p.z| ≤ B

/-- All entries of the rotation are at most one. -/
def Turned (t : Iso3 ℝ) : Prop := Within 1 t.r1 ∧ Within 1 t.r2 ∧ Within 1 t.r3

/-- Every query by location is undefined. -/
def Undefined (A : Ieee) (g : Grid (Iso3 Dbl) Dbl T) (l : Vec3 Dbl) (w : Dbl) : Prop :=
  locationToGridIndex3d A g l = .ub ∧ locationToGridIndex4d A g l w = .ub ∧
    locationInBounds3d A g l = .ub ∧ locationInBounds4d A g l w = .ub ∧
    getImmutable3d A g l = .ub ∧ getImmutable4d A g l w = .ub ∧
    ∀ v, setValue3d A g l v = .ub ∧ setValue4d A g l w v = .ub

end Verif.VoxelSpecial
