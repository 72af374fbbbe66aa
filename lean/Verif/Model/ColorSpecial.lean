import Verif.Model.Color
import Verif.Model.MathSpecial

/-!
# Model of the color helpers (include/arc_utilities/arc_helpers.hpp:260-469) with special values

As in Model/Color.lean, but channels, ratios and bounds can be infinite or not a number, and results are rounded and
can overflow. A `float` is a `double` here; `Single` tells how results become a `float`.
-/
namespace Verif.ColorSpecial
open Verif Verif.Colors

/-- The format `float`. Not a model of a particular line: used for arc_helpers.hpp:262, 375, 430-469. -/
structure Single where
  rd : ℝ → ℝ
  mono : ∀ {x y}, x ≤ y → rd x ≤ rd y
  whole : ∀ n : ℕ, n ≤ 2 ^ 24 → rd n = n
  /-- small numbers change by at most half the distance of one to the next `float` -/
  err : ∀ x, |x| ≤ 2 → |rd x - x| ≤ 1 / 2 ^ 24
  /-- the largest `float` -/
  top : ℝ
  large : 2 ^ 64 ≤ top

open Classical in
/-- The `float` for the exact result `x`. Used for arc_helpers.hpp:262, 375, 430-469. -/
noncomputable def Single.round (F : Single) (x : ℝ) : Dbl :=
  if |F.rd x| ≤ F.top then .num (F.rd x) else .inf (decide (x < 0))

/-- `(float)a`. Used for arc_helpers.hpp:375, 449-469. -/
noncomputable def Single.conv (F : Single) : Dbl → Dbl
  | .nan => .nan
  | .inf s => .inf s
  | .num x => F.round x

open Classical in
/-- `a * b` for `float`. Used for arc_helpers.hpp:262, 430-438. -/
noncomputable def Single.mul (F : Single) : Dbl → Dbl → Dbl
  | .nan, _ => .nan
  | _, .nan => .nan
  | .inf s, .inf t => .inf (s != t)
  | .inf s, .num y => if y = 0 then .nan else .inf (s != decide (y < 0))
  | .num x, .inf t => if x = 0 then .nan else .inf (decide (x < 0) != t)
  | .num x, .num y => F.round (x * y)

open Classical in
/-- `std::max(a, b)`. Used for arc_helpers.hpp:201-205. -/
noncomputable def stdMax (a b : Dbl) : Dbl := if Ieee.lt a b then b else a

open Classical in
/-- arc_helpers.hpp:201-205 `ClampValue` -/
noncomputable def clampValue (val min max : Dbl) : Out Dbl := do
  Out.assert (Ieee.le min max)
  .ok (MathSpecial.stdMin max (stdMax min val))

/-- arc_helpers.hpp:260 `TrimColorValue` -/
noncomputable def trim (v : Dbl) : Out Dbl := clampValue v (.num 0) (.num 1)

/-- arc_helpers.hpp:262 `ColorChannelToHex`; the conversion of what is no number is undefined -/
noncomputable def channelToHex (F : Single) (v : Dbl) : Out (BitVec 8) := do
  let t ← trim v
  match F.mul t (.num 255) with
  | .num x => toUint8 (roundAway x)
  | _ => .ub

/-- arc_helpers.hpp:333-340 `MakeFromFloatColors`; 271-275 the float constructors of `RGBAColor`, 379-387 `ConvertColor`
and 302-308 the setters do the same -/
noncomputable def makeFromFloatColors (r g b a : Dbl) : Out (Color Dbl) := do
  let r ← trim r
  let g ← trim g
  let b ← trim b
  let a ← trim a
  .ok ⟨r, g, b, a⟩

variable (A : Ieee) (F : Single)

open Classical in
/-- arc_helpers.hpp:352-376 `InterpolateHotToCold` -/
noncomputable def interpolateHotToCold (value min max : Dbl) : Out (Color Dbl) := do
  Out.assert (Ieee.lt min max)
  let v ← clampValue value min max
  let range := A.sub max min
  if Ieee.lt v (A.add min (A.mul (.num (1 / 4)) range)) then
    makeFromFloatColors (F.conv (.num 0)) (F.conv (A.div (A.mul (.num 4) (A.sub v min)) range)) (F.conv (.num 1))
      (.num 1)
  else if Ieee.lt v (A.add min (A.mul (.num (1 / 2)) range)) then
    makeFromFloatColors (F.conv (.num 0)) (F.conv (.num 1)) (F.conv (A.add (.num 1) (A.div
      (A.mul (.num 4) (A.sub (A.add min (A.mul (.num (1 / 4)) range)) v)) range))) (.num 1)
  else if Ieee.lt v (A.add min (A.mul (.num (3 / 4)) range)) then
    makeFromFloatColors (F.conv (A.div (A.mul (.num 4) (A.sub (A.sub v min) (A.mul (.num (1 / 2)) range))) range))
      (F.conv (.num 1)) (F.conv (.num 0)) (.num 1)
  else
    makeFromFloatColors (F.conv (.num 1)) (F.conv (A.add (.num 1) (A.div
      (A.mul (.num 4) (A.sub (A.add min (A.mul (.num (3 / 4)) range)) v)) range))) (F.conv (.num 0)) (.num 1)

/-- arc_helpers.hpp:430-438 `Multiply`: alpha is copied -/
noncomputable def multiply (c : Color Dbl) (factor : Dbl) : Out (Color Dbl) := do
  let r ← trim (F.mul factor c.r)
  let g ← trim (F.mul factor c.g)
  let b ← trim (F.mul factor c.b)
  .ok ⟨r, g, b, c.a⟩

open Classical in
/-- arc_helpers.hpp:453-460: the ratio used, and whether a message is printed -/
noncomputable def realRatio (ratio : Dbl) : Dbl × Bool :=
  if Ieee.lt ratio (.num 0) then (.num 0, true)
  else if Ieee.lt (.num 1) ratio then (.num 1, true)
  else (ratio, false)

/-- arc_helpers.hpp:464-467: one channel before it is trimmed -/
noncomputable def mix (x y t : Dbl) : Dbl :=
  F.conv (A.add (A.mul x (A.sub (.num 1) t)) (A.mul y t))

/-- arc_helpers.hpp:449-469 `InterpolateColor`, and whether a message is printed -/
noncomputable def interpolateColor (c1 c2 : Color Dbl) (ratio : Dbl) : Out (Color Dbl × Bool) := do
  let t := realRatio ratio
  let r ← trim (mix A F c1.r c2.r t.1)
  let g ← trim (mix A F c1.g c2.g t.1)
  let b ← trim (mix A F c1.b c2.b t.1)
  let a ← trim (mix A F c1.a c2.a t.1)
  .ok (⟨r, g, b, a⟩, t.2)

end Verif.ColorSpecial
