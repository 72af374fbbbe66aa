import Verif.Model.Hash

/-! # Cells of a grid -/
namespace Verif.Hash

/-- The index with these coordinates. -/
def cell (x y z : Nat) : GridIndex := ⟨BitVec.ofNat 64 x, BitVec.ofNat 64 y, BitVec.ofNat 64 z⟩

end Verif.Hash
