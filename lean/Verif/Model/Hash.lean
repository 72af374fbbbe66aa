/-!
# Model of `include/arc_utilities/hash.hpp`

`std::size_t` has 64 bits. `std::hash` of the parts is a parameter.
-/
namespace Verif.Hash

/-- `hash_combine` (hash.hpp:5-9); `h` is the hash of the value -/
def hashCombine (seed h : BitVec 64) : BitVec 64 := seed ^^^ (h + 0x9e3779b9#64 + (seed <<< 6) + (seed >>> 2))

/-- `std::hash` of a complex number (hash.hpp:13-18) -/
def hashComplex {T : Type} (hash : T → BitVec 64) (re im : T) : BitVec 64 := hash re ^^^ ((hash im <<< 1) >>> 1)

/-- `std::hash` of a vector of three numbers (hash.hpp:20-26), and of a chunk region with that base
(dynamic_spatial_hashed_voxel_grid.hpp:813-819) -/
def hashVector3 {T : Type} (hash : T → BitVec 64) (x y z : T) : BitVec 64 :=
  hash x ^^^ ((hash y <<< 1) >>> 1) ^^^ (hash z <<< 1)

/-- `std::hash` of other vectors (hash.hpp:30-39) -/
def hashVector {T : Type} (hash : T → BitVec 64) (v : List T) : BitVec 64 :=
  v.foldl (fun seed x => hashCombine seed (hash x)) 0

/-- `std::hash` of a pair (hash.hpp:41-49) -/
def hashPair {A B : Type} (hashA : A → BitVec 64) (hashB : B → BitVec 64) (a : A) (b : B) : BitVec 64 :=
  hashCombine (hashCombine 0 (hashA a)) (hashB b)

/-- voxel_grid.hpp:19-29 `GRID_INDEX` -/
structure GridIndex where
  x : BitVec 64
  y : BitVec 64
  z : BitVec 64

/-- voxel_grid.hpp:28 `operator==` -/
def GridIndex.equal (a b : GridIndex) : Bool := a.x == b.x && a.y == b.y && a.z == b.z

/-- voxel_grid.hpp:850-857 `std::hash<VoxelGrid::GRID_INDEX>`. Shifts bind more tightly than `^`. `std::hash` of an
integer is the integer (libstdc++). -/
def hashGridIndex (i : GridIndex) : BitVec 64 := (i.x ^^^ ((i.y <<< 1) >>> 1)) ^^^ (i.z <<< 1)

end Verif.Hash
