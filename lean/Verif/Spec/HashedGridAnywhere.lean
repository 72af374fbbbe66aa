import Verif.Spec.HashedGridRounded

/-!
# Which cell a location belongs to when arithmetic is rounded
-/
namespace Verif.HashedGridRounded
open Verif Verif.HashedGrid
open Verif.Voxel (Vec3 Iso3 Index InGrid)

section
variable {T : Type} (R : Rounding)

/-- The rounded coordinates of the point `p` relative to a region. -/
noncomputable def offset (region p : Vec3 ℝ) : Vec3 ℝ :=
  ⟨R.rd (p.x - region.x), R.rd (p.y - region.y), R.rd (p.z - region.z)⟩

/-- The number of the cell of the point `p` in a region, by rounded divisions. -/
noncomputable def cellAt (g : Grid ℝ T) (region p : Vec3 ℝ) : Index :=
  ⟨⌊R.rd ((offset R region p).x / g.cellX)⌋, ⌊R.rd ((offset R region p).y / g.cellY)⌋,
    ⌊R.rd ((offset R region p).z / g.cellZ)⌋⟩

/-- The point `p` is found in the region: its offsets are between zero and the size of a chunk, and the number of its
cell is that of a cell of the chunk. -/
def Held (g : Grid ℝ T) (region p : Vec3 ℝ) : Prop :=
  (0 ≤ (offset R region p).x ∧ (offset R region p).x ≤ g.chunkX) ∧
  (0 ≤ (offset R region p).y ∧ (offset R region p).y ≤ g.chunkY) ∧
  (0 ≤ (offset R region p).z ∧ (offset R region p).z ≤ g.chunkZ) ∧
  InGrid g.numX g.numY g.numZ (cellAt R g region p)

end

end Verif.HashedGridRounded
