import Verif.Model.ColorSpecial

/-!
# Specification of colors with special values
-/
namespace Verif.ColorSpecial
open Verif Verif.Colors

/-- A channel for any value: cut off at 0 and 1, and 0 for a value that is not a number. -/
noncomputable def channel : Dbl → ℝ
  | .nan => 0
  | .inf negative => if negative then 0 else 1
  | .num x => max 0 (min 1 x)

/-- A number from 0 to 1. -/
def Shade (v : Dbl) : Prop := ∃ x : ℝ, v = .num x ∧ 0 ≤ x ∧ x ≤ 1

/-- All channels are numbers from 0 to 1. -/
def Valid (c : Color Dbl) : Prop := Shade c.r ∧ Shade c.g ∧ Shade c.b ∧ Shade c.a

/-- opaque blue, opaque red, transparent black -/
noncomputable def blue : Color Dbl := ⟨.num 0, .num 0, .num 1, .num 1⟩
noncomputable def red : Color Dbl := ⟨.num 1, .num 0, .num 0, .num 1⟩
noncomputable def nothing : Color Dbl := ⟨.num 0, .num 0, .num 0, .num 0⟩

/-- A number that both formats have. -/
def Exact (A : Ieee) (F : Single) (x : ℝ) : Prop := A.R.rd x = x ∧ F.rd x = x

end Verif.ColorSpecial
