import Verif.Model.Voxel

/-!
# Model of voxel grids without cells and of changes of the storage behind a grid's back

include/arc_utilities/voxel_grid.hpp:311-333, 827-829. A value of the element type is an `Option`: `none` is the value
of a member that was never given one.
-/
namespace Verif.Voxel
open Verif

variable {Iso K T : Type}

/-- voxel_grid.hpp:311-333 `VoxelGrid()`; neither the default value nor the value for indices out of bounds is set -/
def emptyGrid [Field K] : Grid (Iso3 K) K (Option T) where
  origin := Iso3.translation ⟨0, 0, 0⟩
  inverseOrigin := (Iso3.translation ⟨0, 0, 0⟩).inverse
  default := none
  oob := none
  data := []
  cellX := 0
  cellY := 0
  cellZ := 0
  invCellX := 0
  invCellY := 0
  invCellZ := 0
  sizeX := 0
  sizeY := 0
  sizeZ := 0
  stride1 := 0 * 0
  stride2 := 0
  numX := 0
  numY := 0
  numZ := 0
  initialized := false

/-- voxel_grid.hpp:827 `GetMutableRawData`, and an assignment to what it refers to -/
def assignRawData (g : Grid Iso K T) (data : List T) : Grid Iso K T := { g with data := data }

end Verif.Voxel
