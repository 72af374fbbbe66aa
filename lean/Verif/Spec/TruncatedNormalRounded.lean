import Mathlib.Analysis.Real.Sqrt
import Verif.Model.TruncatedNormalRounded

/-! # How far samples may be outside of the bounds -/
namespace Verif.TruncatedNormalRounded
open Verif Verif.TruncatedNormal

/-- A few rounding units of the bound and of its distance from the mean. -/
noncomputable def slack (mean bound : ℝ) : ℝ := unit * (4 * |bound - mean| + |bound|)

/-- `x` lies within the bounds up to the slack. -/
def NearlyWithin (mean : ℝ) (lower upper : Ext ℝ) (x : ℝ) : Prop :=
  lower ≠ .posInf ∧ upper ≠ .negInf ∧ (∀ b, lower = .fin b → b - slack mean b ≤ x) ∧
    ∀ b, upper = .fin b → x ≤ b + slack mean b

/-- What is needed of `sqrt` and `pow`: the square root of the square plus four is not smaller than the number. -/
def GoodRoots (R : Rounding) (L : Library) : Prop := ∀ x, R.Fp x → |x| ≤ L.sqrt (R.rd (L.square x + 4))

/-- `sqrt` and `pow` with correctly rounded results; `exp` may be anything. -/
noncomputable def correctlyRounded (R : Rounding) (exp : ℝ → ℝ) : Library :=
  ⟨fun x => R.rd (Real.sqrt x), exp, fun x => R.rd (x ^ 2)⟩

end Verif.TruncatedNormalRounded
