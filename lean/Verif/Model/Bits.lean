import Verif.Base.Outcome

/-!
# Model of SetBit and GetBit (include/arc_utilities/arc_helpers.hpp:155-177)

`w` is the width of the unsigned type `T` (8, 16, 32 or 64). Types narrower than `int` are promoted to
32 bits before a shift.
-/
namespace Verif.Bits
open Verif

/-- The width in which arithmetic on a `w`-bit unsigned type is done. Used for arc_helpers.hpp:162-163, 172-177. -/
def promoted (w : Nat) : Nat := max w 32

/-- arc_helpers.hpp:162-163: `T update_mask = 1; update_mask = update_mask << bit_position;` -/
def updateMask (w k : Nat) : Out (BitVec w) :=
  if k < promoted w then .ok ((BitVec.ofNat (promoted w) 1 <<< k).setWidth w) else .ub

/-- arc_helpers.hpp:155-170 `SetBit` -/
def setBit {w : Nat} (current : BitVec w) (k : Nat) (value : Bool) : Out (BitVec w) := do
  let mask ← updateMask w k
  if value then .ok (current ||| mask) else .ok (current &&& ~~~ mask)

/-- arc_helpers.hpp:172-177 `GetBit`: the mask is converted to `uint32_t` -/
def getBit {w : Nat} (current : BitVec w) (k : Nat) : Out Bool := do
  let r ← setBit (0 : BitVec w) k true
  let mask : BitVec 32 := r.setWidth 32
  .ok (decide ((mask.setWidth (promoted w) &&& current.setWidth (promoted w)).toNat > 0))

end Verif.Bits
