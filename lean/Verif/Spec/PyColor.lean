import Verif.Model.PyColor

/-!
# Specification of the colour maps
-/
namespace Verif.PyColor

/-- The nearest number between zero and one -/
noncomputable def unit (x : ℝ) : ℝ := max 0 (min 1 x)

/-- The map from blue over cyan, green and yellow to red, for `u` from zero to one -/
noncomputable def blueToRed (u : ℝ) : Triple := (unit (4 * u - 2), unit (min (4 * u) (4 - 4 * u)), unit (2 - 4 * u))

/-- The jet map for `v` from minus one to one: three tents of height 3/2 and slope two, cut off at one -/
noncomputable def jet (v : ℝ) : Triple :=
  (unit (3 / 2 - 2 * |v - 1 / 2|), unit (3 / 2 - 2 * |v|), unit (3 / 2 - 2 * |v + 1 / 2|))

end Verif.PyColor
