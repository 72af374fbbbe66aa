import Verif.Model.Voxel
import Verif.Model.SerializationEigen
import Verif.Model.RrtSerialization

/-!
# Model of the serialization of voxel grids

include/arc_utilities/voxel_grid.hpp:207-219, 390-521. A `double` is its 8 bytes (`BitVec 64`) and an
`Isometry3d` the 16 coefficients of its matrix.
-/
namespace Verif.Voxel
open Verif Verif.Serialization Verif.SerializationEigen Verif.Graph Verif.Rrt

variable {T : Type}

/-- A grid as the serializer sees it. Used for voxel_grid.hpp:390-426, 428-521. -/
abbrev RawGrid (T : Type) := Grid (List (BitVec 64)) (BitVec 64) T

/-- voxel_grid.hpp:402-418: calls of `SerializeFixedSizePOD` one after the other, for the given values -/
def serializeEach {α : Type} (P : Pod α) : List α → Buf → Out Buf
  | [], buffer => .ok buffer
  | a :: rest, buffer => do
    let b ← serializeFixedSizePOD P a buffer
    serializeEach P rest b.2

/-- voxel_grid.hpp:451-509: calls of `DeserializeFixedSizePOD` one after the other, each followed by an
advance of `current_position`; the values and the new position -/
def deserializeEach {α : Type} (P : Pod α) : Nat → Buf → Nat → Out (List α × Nat)
  | 0, _, position => .ok ([], position)
  | n + 1, buffer, position => do
    let a ← deserializeFixedSizePOD P buffer position
    let r ← deserializeEach P n buffer (position + a.2)
    .ok (a.1 :: r.1, r.2)

/-- voxel_grid.hpp:390-426 `SerializeSelf` (and 207-210 `Serialize`) -/
def serializeGrid (e : Endian) (value : Ser T) : Ser (RawGrid T) := fun g buffer => do
  let startBufferSize := buffer.length
  let b ← serializeFixedSizePOD (pod8 e) (if g.initialized then 1#8 else 0#8) buffer
  let b ← serializeIsometry3 (pod64 e) g.origin b.2
  let b ← serializeIsometry3 (pod64 e) g.inverseOrigin b.2
  let b ← serializeVector e value g.data b.2
  let b ← serializeEach (pod64 e) [g.cellX, g.cellY, g.cellZ, g.invCellX, g.invCellY, g.invCellZ,
    g.sizeX, g.sizeY, g.sizeZ] b.2
  let b ← serializeEach (pod64 e) [BitVec.ofInt 64 g.stride1, BitVec.ofInt 64 g.stride2,
    BitVec.ofInt 64 g.numX, BitVec.ofInt 64 g.numY, BitVec.ofInt 64 g.numZ] b
  let b ← value g.default b
  let b ← value g.oob b.2
  .ok (b.2.length - startBufferSize, b.2)

/-- The assignments to the members in `DeserializeSelf` (428-521), from the values read; the lists have
nine and five elements. Used for voxel_grid.hpp:428-521. -/
def assemble (ini : BitVec 8) (origin inverse : List (BitVec 64)) (data : List T)
    (doubles ints : List (BitVec 64)) (dv ov : T) : RawGrid T :=
  { origin := origin, inverseOrigin := inverse, default := dv, oob := ov, data := data
    cellX := doubles[0]!, cellY := doubles[1]!, cellZ := doubles[2]!
    invCellX := doubles[3]!, invCellY := doubles[4]!, invCellZ := doubles[5]!
    sizeX := doubles[6]!, sizeY := doubles[7]!, sizeZ := doubles[8]!
    stride1 := ints[0]!.toInt, stride2 := ints[1]!.toInt
    numX := ints[2]!.toInt, numY := ints[3]!.toInt, numZ := ints[4]!.toInt
    initialized := decide (ini ≠ 0#8) }

/-- voxel_grid.hpp:428-521 `DeserializeSelf` (and 212-219 `Deserialize`) -/
def deserializeGrid (e : Endian) (value : Des T) : Des (RawGrid T) := fun buffer current => do
  let p := current
  let initialized ← deserializeFixedSizePOD (pod8 e) buffer p
  let p := p + initialized.2
  let origin ← deserializeIsometry3 (pod64 e) buffer p
  let p := p + origin.2
  let inverse ← deserializeIsometry3 (pod64 e) buffer p
  let p := p + inverse.2
  let data ← deserializeVector e value buffer p
  let p := p + data.2
  let doubles ← deserializeEach (pod64 e) 9 buffer p
  let ints ← deserializeEach (pod64 e) 5 buffer doubles.2
  let dv ← value buffer ints.2
  let p := ints.2 + dv.2
  let ov ← value buffer p
  let p := p + ov.2
  .ok (assemble initialized.1 origin.1 inverse.1 data.1 doubles.1 ints.1 dv.1 ov.1, p - current)

end Verif.Voxel
