import Verif.Model.VoxelRoundedSizes

/-!
# Specification of the number of cells for a size
-/
namespace Verif.VoxelRounded
open Verif

/-- `n` cells of size `c` for a total size `s`: at least one, none of them wholly outside, all of the size covered but a
share of one rounding unit, and as many as needed or one fewer. -/
structure CellsFor (s c : ℝ) (n : Int) : Prop where
  one : 1 ≤ n
  inside : ((n : ℝ) - 1) * c < s
  covers : s * (1 - unit) ≤ n * c
  count : n = ⌈s / c⌉ ∨ n = ⌈s / c⌉ - 1

end Verif.VoxelRounded
