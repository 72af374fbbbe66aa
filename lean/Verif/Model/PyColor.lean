import Verif.Base.Python
import Mathlib.Analysis.SpecialFunctions.Trigonometric.Arctan
import Mathlib.Analysis.SpecialFunctions.Trigonometric.Inverse
import Mathlib.Analysis.SpecialFunctions.Pow.Real
import Mathlib.LinearAlgebra.Matrix.NonsingularInverse
import Mathlib.Data.Matrix.Mul

/-!
# Model of `src/arc_utilities/color.py`

Exact arithmetic: `numpy.linalg.inv` is the inverse matrix, `math.pow`, `math.acos` and the other functions are the
real ones. Dividing by zero raises. Colours are triples.
-/
namespace Verif.PyColor
open Verif

/-- Three numbers. Used for color.py:11-15, 18-23. -/
abbrev Triple := ℝ × ℝ × ℝ

/-- `x / y` of Python numbers. Used for color.py:63-68, 100-111. -/
noncomputable def pyDiv (x y : ℝ) : Except PyExc ℝ :=
  open Classical in if y = 0 then .error .zeroDivisionError else .ok (x / y)

/-- The matrix (src/arc_utilities/color.py:13,20) -/
noncomputable def rgbXyz : Matrix (Fin 3) (Fin 3) ℝ :=
  !![0.4124, 0.2126, 0.0193; 0.3576, 0.7152, 0.1192; 0.1805, 0.0722, 0.9505]

/-- `numpy.dot` of a row and a matrix. Used for color.py:11-15, 18-23. -/
noncomputable def rowDot (v : Triple) (m : Matrix (Fin 3) (Fin 3) ℝ) : Triple :=
  let r := Matrix.vecMul ![v.1, v.2.1, v.2.2] m
  (r 0, r 1, r 2)

/-- `convert_rgb_to_xyz` (src/arc_utilities/color.py:11-15) -/
noncomputable def convertRgbToXyz (c : Triple) : Triple := rowDot c rgbXyz

/-- `convert_xyz_to_rgb` (src/arc_utilities/color.py:18-23) -/
noncomputable def convertXyzToRgb (c : Triple) : Triple := rowDot c rgbXyz⁻¹

open Classical in
/-- `cielab_f` (src/arc_utilities/color.py:26-30) -/
noncomputable def cielabF (val : ℝ) : ℝ :=
  if val > 216 / 24389 then val ^ ((1 : ℝ) / 3) else 841 / 108 * val + 16 / 116

open Classical in
/-- `cielab_finv` (src/arc_utilities/color.py:33-37) -/
noncomputable def cielabFinv (val : ℝ) : ℝ :=
  if val > 6 / 29 then val ^ 3 else 108 / 841 * (val - 16 / 116)

/-- `get_ref_xyz` (src/arc_utilities/color.py:40-44) -/
noncomputable def refXyz : Triple := (95.047, 100, 108.883)

/-- `convert_xyz_to_lab` (src/arc_utilities/color.py:47-52) -/
noncomputable def convertXyzToLab (c : Triple) : Triple :=
  let l := 116 * (cielabF (c.2.1 / refXyz.2.1) - 16 / 116)
  let a := 500 * (cielabF (c.1 / refXyz.1) - cielabF (c.2.1 / refXyz.2.1))
  let b := 200 * (cielabF (c.2.1 / refXyz.2.1) - cielabF (c.2.2 / refXyz.2.2))
  (l, a, b)

/-- `convert_lab_to_xyz` (src/arc_utilities/color.py:55-60) -/
noncomputable def convertLabToXyz (c : Triple) : Triple :=
  let intermediate := (c.1 + 16) * (1 / 116)
  let x := cielabFinv (intermediate + c.2.1 * (1 / 500))
  let y := cielabFinv intermediate
  let z := cielabFinv (intermediate - c.2.2 * (1 / 200))
  (x, y, z)

/-- `convert_lab_to_msh` (src/arc_utilities/color.py:63-68) -/
noncomputable def convertLabToMsh (c : Triple) : Except PyExc Triple := do
  let m := Real.sqrt (c.1 ^ 2 + c.2.1 ^ 2 + c.2.2 ^ 2)
  let q ← pyDiv c.1 m
  let s := Real.arccos q
  let t ← pyDiv c.2.2 c.2.1
  let h := Real.arctan t
  return (m, s, h)

/-- `convert_msh_to_lab` (src/arc_utilities/color.py:71-75) -/
noncomputable def convertMshToLab (c : Triple) : Triple :=
  let l := c.1 * Real.cos c.2.1
  let a := c.1 * Real.sin c.2.1 * Real.cos c.2.2
  let b := c.1 * Real.sin c.2.1 * Real.sin c.2.2
  (l, a, b)

/-- `rgb_to_msh` (src/arc_utilities/color.py:78-82) -/
noncomputable def rgbToMsh (c : Triple) : Except PyExc Triple :=
  convertLabToMsh (convertXyzToLab (convertRgbToXyz c))

/-- `msh_to_rgb` (src/arc_utilities/color.py:85-89) -/
noncomputable def mshToRgb (c : Triple) : Triple :=
  convertXyzToRgb (convertLabToXyz (convertMshToLab c))

open Classical in
/-- `rad_diff` (src/arc_utilities/color.py:92-97) -/
noncomputable def radDiff (x y : ℝ) : ℝ :=
  let diff := |x - y|
  if diff > Real.pi then Real.pi * 2 - diff else diff

open Classical in
/-- `adjust_hue` (src/arc_utilities/color.py:100-111) -/
noncomputable def adjustHue (msh : Triple) (mUnsaturated : ℝ) : Except PyExc ℝ :=
  let mSaturated := msh.1
  let sSaturated := msh.2.1
  let hSaturated := msh.2.2
  if mSaturated ≥ mUnsaturated then .ok hSaturated
  else do
    let hSpin ← pyDiv (sSaturated * Real.sqrt (mUnsaturated ^ 2 - mSaturated ^ 2)) (mSaturated * Real.sin sSaturated)
    if hSaturated > -(Real.pi / 3) then return hSaturated + hSpin else return hSaturated - hSpin

open Classical in
/-- White in the middle (src/arc_utilities/color.py:121-132): the two colours and the interpolation after it -/
noncomputable def placeWhite (c1 c2 : Triple) (interpolation : ℝ) : Triple × Triple × ℝ :=
  if c1.2.1 > 0.05 ∧ c2.2.1 > 0.05 ∧ radDiff c1.2.2 c2.2.2 > Real.pi / 3 then
    let mMid := max (max c1.1 c2.1) 88
    if interpolation < 0.5 then (c1, (mMid, 0, 0), interpolation * 2)
    else ((mMid, 0, 0), c2, 2 * interpolation - 1)
  else (c1, c2, interpolation)

open Classical in
/-- The hues of unsaturated colours (src/arc_utilities/color.py:134-137) -/
noncomputable def adjustHues (c1 c2 : Triple) : Except PyExc (Triple × Triple) :=
  if c1.2.1 < 0.05 ∧ c2.2.1 > 0.05 then do
    let h ← adjustHue c2 c1.1
    return ((c1.1, c1.2.1, h), c2)
  else if c2.2.1 < 0.05 ∧ c1.2.1 > 0.05 then do
    let h ← adjustHue c1 c2.1
    return (c1, (c2.1, c2.2.1, h))
  else .ok (c1, c2)

open Classical in
/-- `interpolate_coolwarm` (src/arc_utilities/color.py:114-142) -/
noncomputable def interpolateCoolwarm (rgb1 rgb2 : Triple) (interpolation : ℝ) : Except PyExc Triple :=
  if ¬ (0 ≤ interpolation ∧ interpolation ≤ 1) then .error .assertionError
  else do
    let c1 ← rgbToMsh rgb1
    let c2 ← rgbToMsh rgb2
    let w := placeWhite c1 c2 interpolation
    let u ← adjustHues w.1 w.2.1
    let i := w.2.2
    let mMid := (1 - i) * u.1.1 + i * u.2.1
    let sMid := (1 - i) * u.1.2.1 + i * u.2.2.1
    let hMid := (1 - i) * u.1.2.2 + i * u.2.2.2
    return mshToRgb (mMid, sMid, hMid)

/-- `jet_interpolate` (src/arc_utilities/color.py:145-146); only called with `x0 ≠ x1` -/
noncomputable def jetInterpolate (value y0 x0 y1 x1 : ℝ) : ℝ := (value - x0) * (y1 - y0) / (x1 - x0) + y0

open Classical in
/-- `jet_base` (src/arc_utilities/color.py:149-159) -/
noncomputable def jetBase (value : ℝ) : ℝ :=
  if value ≤ -0.75 then 0
  else if value ≤ -0.25 then jetInterpolate value 0 (-0.75) 1 (-0.25)
  else if value ≤ 0.25 then 1
  else if value ≤ 0.75 then jetInterpolate value 1 0.25 0 0.75
  else 0

open Classical in
/-- `interpolate_jet` (src/arc_utilities/color.py:162-181) -/
noncomputable def interpolateJet (value : ℝ) (useNegativeRange : Bool) : Except PyExc Triple :=
  if useNegativeRange then
    if ¬ (-1 ≤ value ∧ value ≤ 1) then .error .assertionError
    else .ok (jetBase (value - 0.5), jetBase value, jetBase (value + 0.5))
  else
    if ¬ (0 ≤ value ∧ value ≤ 1) then .error .assertionError
    else
      let value := if value > 0.5 then (value - 0.5) * 2 else if value < 0.5 then -(0.5 - value) * 2 else 0
      .ok (jetBase (value - 0.5), jetBase value, jetBase (value + 0.5))

open Classical in
/-- `interpolate_hot_to_cold` (src/arc_utilities/color.py:184-210) -/
noncomputable def interpolateHotToCold (value minValue maxValue : ℝ) : Except PyExc Triple :=
  if ¬ minValue < maxValue then .error .assertionError
  else
    let value := if value < minValue then minValue else if value > maxValue then maxValue else value
    let range := maxValue - minValue
    if value < minValue + 0.25 * range then .ok (0, 4 * (value - minValue) / range, 1)
    else if value < minValue + 0.5 * range then .ok (0, 1, 1 + 4 * (minValue + 0.25 * range - value) / range)
    else if value < minValue + 0.75 * range then .ok (4 * (value - minValue - 0.5 * range) / range, 1, 0)
    else .ok (1, 1 + 4 * (minValue + 0.75 * range - minValue) / range, 0)

open Classical in
/-- `safe_color_val` (src/arc_utilities/color.py:213-219) -/
noncomputable def safeColorVal (val : ℝ) : ℝ := if val ≥ 1 then 1 else if val ≤ 0 then 0 else val

/-- A `std_msgs/ColorRGBA`; its fields are single precision, which is left out. Used for color.py:222-228, 231-233. -/
structure ColorRGBA where
  r : ℝ
  g : ℝ
  b : ℝ
  a : ℝ

/-- `make_color` (src/arc_utilities/color.py:222-228) -/
noncomputable def makeColor (r g b a : ℝ) : ColorRGBA :=
  ⟨safeColorVal r, safeColorVal g, safeColorVal b, safeColorVal a⟩

/-- `map_color` (src/arc_utilities/color.py:231-233) -/
noncomputable def mapColor (value : ℝ) : Except PyExc ColorRGBA := do
  let c ← interpolateHotToCold value 0 1
  return makeColor c.1 c.2.1 c.2.2 1

end Verif.PyColor
