import Mathlib.Algebra.Order.Floor.Ring
import Verif.Model.Clamp

/-!
# Model of the color helpers (include/arc_utilities/arc_helpers.hpp:256-469)

`float` is an ordered field `K` with floors. Where a rounding of a result matters for a property it is the
parameter `rnd`; elsewhere arithmetic is exact. Not-a-number values are left out here (see `Clamp`).
-/
namespace Verif.Colors
open Verif Verif.Clamp

/-- arc_helpers.hpp:264-269 `RGBAColor`, and any other `ColorType` with members r, g, b, a -/
structure Color (K : Type) where
  r : K
  g : K
  b : K
  a : K
  deriving DecidableEq

section
variable {K : Type} [Field K] [LinearOrder K]

/-- arc_helpers.hpp:258 `ColorChannelFromHex`; `rnd` rounds the quotient -/
def channelFromHex (rnd : K → K) (h : BitVec 8) : K := rnd ((h.toNat : K) / 255)

/-- arc_helpers.hpp:260 `TrimColorValue` -/
def trim (v : K) : Out K := clampValue v 0 1

section
variable [FloorRing K]

/-- `round`: to the nearest integer, halfway cases away from zero. Used for arc_helpers.hpp:262. -/
def roundAway (x : K) : Int := if 0 ≤ x then ⌊x + 1 / 2⌋ else ⌈x - 1 / 2⌉

/-- conversion to `uint8_t`: undefined outside the range. Used for arc_helpers.hpp:262. -/
def toUint8 (v : Int) : Out (BitVec 8) := if 0 ≤ v ∧ v < 256 then .ok (BitVec.ofInt 8 v) else .ub

/-- arc_helpers.hpp:262 `ColorChannelToHex`; `rnd` rounds the product -/
def channelToHex (rnd : K → K) (v : K) : Out (BitVec 8) := do
  let t ← trim v
  toUint8 (roundAway (rnd (t * 255)))

end

/-- arc_helpers.hpp:333-340 `MakeFromFloatColors`; 271-275 the float constructors of `RGBAColor` do the same -/
def makeFromFloatColors (r g b a : K) : Out (Color K) := do
  let r ← trim r
  let g ← trim g
  let b ← trim b
  let a ← trim a
  .ok ⟨r, g, b, a⟩

/-- arc_helpers.hpp:277-281 the constructor of `RGBAColor` from four bytes (283-290 differ in alpha) -/
def rgbaFromHex (rnd : K → K) (r g b a : BitVec 8) : Color K :=
  ⟨channelFromHex rnd r, channelFromHex rnd g, channelFromHex rnd b, channelFromHex rnd a⟩

/-- arc_helpers.hpp:283-287 the constructor of `RGBAColor` from three bytes and alpha -/
def rgbaFromMixed (rnd : K → K) (r g b : BitVec 8) (a : K) : Out (Color K) := do
  let a ← trim a
  .ok ⟨channelFromHex rnd r, channelFromHex rnd g, channelFromHex rnd b, a⟩

/-- arc_helpers.hpp:302-308, 318-324: the setters of `RGBAColor` -/
inductive SetOp (K : Type) where
  | r (v : K)
  | g (v : K)
  | b (v : K)
  | a (v : K)
  | rHex (h : BitVec 8)
  | gHex (h : BitVec 8)
  | bHex (h : BitVec 8)
  | aHex (h : BitVec 8)

/-- arc_helpers.hpp:302-308, 318-324 `SetR` … `SetA`, `SetRHex` … `SetAHex` -/
def applySet (rnd : K → K) (c : Color K) : SetOp K → Out (Color K)
  | .r v => do let v ← trim v; .ok { c with r := v }
  | .g v => do let v ← trim v; .ok { c with g := v }
  | .b v => do let v ← trim v; .ok { c with b := v }
  | .a v => do let v ← trim v; .ok { c with a := v }
  | .rHex h => .ok { c with r := channelFromHex rnd h }
  | .gHex h => .ok { c with g := channelFromHex rnd h }
  | .bHex h => .ok { c with b := channelFromHex rnd h }
  | .aHex h => .ok { c with a := channelFromHex rnd h }

/-- A history of setters. Used for arc_helpers.hpp:264-324. -/
def applySets (rnd : K → K) (c : Color K) : List (SetOp K) → Out (Color K)
  | [] => .ok c
  | op :: ops => do
    let c ← applySet rnd c op
    applySets rnd c ops

/-- arc_helpers.hpp:342-345 `MakeFromHexColors` -/
def makeFromHexColors (rnd : K → K) (r g b a : BitVec 8) : Out (Color K) :=
  makeFromFloatColors (channelFromHex rnd r) (channelFromHex rnd g) (channelFromHex rnd b)
    (channelFromHex rnd a)

/-- arc_helpers.hpp:347-350 `MakeFromMixedColors` -/
def makeFromMixedColors (rnd : K → K) (r g b : BitVec 8) (a : K) : Out (Color K) := do
  let a ← trim a
  makeFromFloatColors (channelFromHex rnd r) (channelFromHex rnd g) (channelFromHex rnd b) a

/-- arc_helpers.hpp:352-376 `InterpolateHotToCold` -/
def interpolateHotToCold (value min max : K) : Out (Color K) := do
  Out.assert (min < max)
  let v ← clampValue value min max
  let range := max - min
  if v < min + 1 / 4 * range then makeFromFloatColors 0 (4 * (v - min) / range) 1 1
  else if v < min + 1 / 2 * range then
    makeFromFloatColors 0 1 (1 + 4 * (min + 1 / 4 * range - v) / range) 1
  else if v < min + 3 / 4 * range then
    makeFromFloatColors (4 * (v - min - 1 / 2 * range) / range) 1 0 1
  else makeFromFloatColors 1 (1 + 4 * (min + 3 / 4 * range - v) / range) 0 1

/-- arc_helpers.hpp:379-387 `ConvertColor` -/
def convertColor (c : Color K) : Out (Color K) := makeFromFloatColors c.r c.g c.b c.a

/-- arc_helpers.hpp:396-401: the table of `GenerateUniqueColor`, in key order from 1 -/
def colorTable : List (BitVec 8 × BitVec 8 × BitVec 8) := [
  (0xff, 0x00, 0xb3), (0x80, 0x75, 0x3e), (0xff, 0x00, 0x68), (0xa6, 0xd7, 0xbd),
  (0xc1, 0x20, 0x00), (0xce, 0x62, 0xa2), (0x81, 0x66, 0x70), (0x00, 0x34, 0x7d),
  (0xf6, 0x8e, 0x76), (0x00, 0x8a, 0x53), (0xff, 0x5c, 0x7a), (0x53, 0x7a, 0x37),
  (0xff, 0x00, 0x8e), (0xb3, 0x51, 0x28), (0xf4, 0x00, 0xc8), (0x7f, 0x0d, 0x18),
  (0x93, 0x00, 0xaa), (0x59, 0x15, 0x33), (0xf1, 0x13, 0x3a), (0x23, 0x16, 0x2c)]

/-- arc_helpers.hpp:389-409 `GenerateUniqueColor` -/
def generateUniqueColor (rnd : K → K) (code : BitVec 32) (alpha : K) : Out (Color K) :=
  if code = 0 then makeFromFloatColors 1 1 1 0
  else match colorTable[code.toNat - 1]? with
    | none => makeFromFloatColors 0 0 0 alpha
    | some c => makeFromMixedColors rnd c.1 c.2.1 c.2.2 alpha

/-- arc_helpers.hpp:415-424 `UniqueColorGenerator` -/
structure Generator (K : Type) where
  i : BitVec 32
  alpha : K

/-- arc_helpers.hpp:417, 421: a new generator -/
def Generator.construct (alpha : K) : Generator K := ⟨1, alpha⟩

/-- arc_helpers.hpp:423 `next`; the counter wraps around -/
def Generator.next (rnd : K → K) (g : Generator K) : Out (Color K × Generator K) := do
  let c ← generateUniqueColor rnd g.i g.alpha
  .ok (c, { g with i := g.i + 1 })

/-- arc_helpers.hpp:430-438 `Multiply`: alpha is copied -/
def multiply (c : Color K) (factor : K) : Out (Color K) := do
  let r ← trim (factor * c.r)
  let g ← trim (factor * c.g)
  let b ← trim (factor * c.b)
  .ok ⟨r, g, b, c.a⟩

/-- arc_helpers.hpp:453-460: the ratio used -/
def realRatio (ratio : K) : K := if ratio < 0 then 0 else if 1 < ratio then 1 else ratio

/-- arc_helpers.hpp:449-469 `InterpolateColor` -/
def interpolateColor (c1 c2 : Color K) (ratio : K) : Out (Color K) := do
  let t := realRatio ratio
  let r ← trim (c1.r * (1 - t) + c2.r * t)
  let g ← trim (c1.g * (1 - t) + c2.g * t)
  let b ← trim (c1.b * (1 - t) + c2.b * t)
  let a ← trim (c1.a * (1 - t) + c2.a * t)
  .ok ⟨r, g, b, a⟩

end

end Verif.Colors
