import Verif.Model.HashedGridRounded
import Verif.Spec.HashedGrid

/-!
# What a hashed voxel grid with rounded arithmetic is expected to do

The abstract grid is the one of `Spec/HashedGrid`, with exact arithmetic.
-/
namespace Verif.HashedGridRounded
open Verif Verif.HashedGrid
open Verif.Voxel (Vec3 Iso3 Index safetyCheckCells truncate int64)

/-- The number `s` lies between `⌊s⌋` and `⌊s⌋ + 1`, but not within `16 (|⌊s⌋| + n)` rounding units of either. -/
def WellInside (n : Int) (s : ℝ) : Prop :=
  (⌊s⌋ : ℝ) + 16 * unit * (|(⌊s⌋ : ℝ)| + n) ≤ s ∧ s ≤ (⌊s⌋ : ℝ) + 1 - 16 * unit * (|(⌊s⌋ : ℝ)| + n)

/-- The point with the coordinates `p` in the frame of the grid is well inside its cell. -/
def CellInterior (cx cy cz : ℝ) (nx ny nz : Int) (p : Vec3 ℝ) : Prop :=
  WellInside nx (p.x / cx) ∧ WellInside ny (p.y / cy) ∧ WellInside nz (p.z / cz)

/-- The coordinates of a location in a frame that is translated by `t`. -/
noncomputable def relative (t p : Vec3 ℝ) : Vec3 ℝ := ⟨p.x - t.x, p.y - t.y, p.z - t.z⟩

/-- The operation with its location in coordinates of a frame that is translated by `t`. -/
noncomputable def inFrame {T : Type} (t : Vec3 ℝ) : Op ℝ T → Op ℝ T
  | .get p => .get (relative t p)
  | .mutate p v => .mutate (relative t p) v
  | .setCell p v => .setCell (relative t p) v
  | .setChunk p v => .setChunk (relative t p) v
  | .setDefault v => .setDefault v

section
variable {T : Type} (R : Rounding)

/-- An operation on the modelled grid; locations are given as they are passed to the calls. -/
noncomputable def step (g : Grid ℝ T) : Op ℝ T → Out (Res T × Grid ℝ T)
  | .get p => do
    let r ← getImmutable R g p
    .ok (.read r.1 r.2, g)
  | .mutate p v => do
    let r ← getRef R g p
    let old ← readRef g r.1
    let g' ← writeRef g v r.1
    .ok (.read old r.2, g')
  | .setCell p v => do
    let r ← setCellValue R g p v
    .ok (.wrote r.1, r.2)
  | .setChunk p v => do
    let r ← setChunkValue R g p v
    .ok (.wrote r.1, r.2)
  | .setDefault v => .ok (.nothing, setDefaultValue g v)

/-- A history on the modelled grid. -/
noncomputable def run (g : Grid ℝ T) : List (Op ℝ T) → Out (List (Res T) × Grid ℝ T)
  | [] => .ok ([], g)
  | op :: ops => do
    let r ← step R g op
    let rs ← run r.2 ops
    .ok (r.1 :: rs.1, rs.2)

end

end Verif.HashedGridRounded
