import Verif.Model.VoxelRounded

/-!
# Model of voxel grids made from sizes, with rounding

include/arc_utilities/voxel_grid.hpp:341-350, 365-373 again, with the result of the division rounded (`Model/Voxel` has
exact arithmetic). `ceil` and the absolute value are exact.
-/
namespace Verif.VoxelRounded
open Verif Verif.Voxel

variable {T : Type}

/-- voxel_grid.hpp:345-347, 369-371: the number of cells along one axis -/
noncomputable def cellsFor (R : Rounding) (size cell : ℝ) : Out Int := int64 ⌈R.rd (|size| / |cell|)⌉

/-- voxel_grid.hpp:341-350 `Initialize` with an origin and sizes -/
noncomputable def initializeSizes (R : Rounding) (origin : Iso3 ℝ) (cx cy cz sx sy sz : ℝ) (default oob : T) :
    Out (Grid (Iso3 ℝ) ℝ T) := do
  safetyCheckSizes cx cy cz sx sy sz
  let nx ← cellsFor R sx cx
  let ny ← cellsFor R sy cy
  let nz ← cellsFor R sz cz
  initializeCells R origin cx cy cz nx ny nz default oob

/-- voxel_grid.hpp:365-373 `Initialize` with sizes and no origin -/
noncomputable def initializeSizesCentred (R : Rounding) (cx cy cz sx sy sz : ℝ) (default oob : T) :
    Out (Grid (Iso3 ℝ) ℝ T) := do
  safetyCheckSizes cx cy cz sx sy sz
  let nx ← cellsFor R sx cx
  let ny ← cellsFor R sy cy
  let nz ← cellsFor R sz cz
  initializeCellsCentred R cx cy cz nx ny nz default oob

end Verif.VoxelRounded
