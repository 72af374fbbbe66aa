import Verif.Model.TruncatedNormal
import Verif.Base.Rounding

/-!
# Model of TruncatedNormalDistribution with rounding

include/arc_utilities/arc_helpers.hpp:1007-1151 again, with the result of every operation on `double` rounded
(`Model/TruncatedNormal` has exact arithmetic). There is no overflow, no underflow and no not-a-number. `sqrt`, `exp` and
`pow(x, 2)` are arbitrary functions. `naive`, `Ext`, `Case`, `Dist` and `Draw` are used from there.
-/
namespace Verif.TruncatedNormalRounded
open Verif Verif.TruncatedNormal

/-- The functions of `<cmath>` that are used; `square` is `pow(x, 2)`. Used for arc_helpers.hpp:1021-1071. -/
structure Library where
  sqrt : ℝ → ℝ
  exp : ℝ → ℝ
  square : ℝ → ℝ

section
variable (R : Rounding) (L : Library)

/-- arc_helpers.hpp:1119-1120: `(bound - mean) / stddev`, for `stddev` other than zero -/
noncomputable def standardize (mean stddev : ℝ) : Ext ℝ → Ext ℝ
  | .fin x => .fin (R.rd (R.rd (x - mean) / stddev))
  | .posInf => if 0 < stddev then .posInf else .negInf
  | .negInf => if 0 < stddev then .negInf else .posInf

/-- arc_helpers.hpp:1023-1024, 1044: `sqrt(pow(lower_bound, 2) + 4)` -/
noncomputable def root (lower : ℝ) : ℝ := L.sqrt (R.rd (L.square lower + 4))

/-- arc_helpers.hpp:1021-1026 `CheckSimple`. Dividing by zero gives an infinity, and then the sum is infinite or not a
number: the comparison is false. -/
noncomputable def checkSimple (lower upper : ℝ) : Bool :=
  if R.rd (lower + root R L lower) = 0 then false
  else
    let val1 := R.rd (R.rd (2 * L.sqrt (L.exp 1)) / R.rd (lower + root R L lower))
    let val2 := L.exp (R.rd (R.rd (L.square lower - R.rd (lower * root R L lower)) / 4))
    decide (R.rd (lower + R.rd (val1 * val2)) < upper)

/-- arc_helpers.hpp:1135-1142: the choice between the last two cases -/
noncomputable def chooseComplex (lower upper : Ext ℝ) : Option Case :=
  if (upper.lt (.fin 0) ∨ (Ext.fin 0).lt lower) ∧ ¬ (upper = .posInf ∨ lower = .negInf) then
    match lower, upper with
    | .fin lo, .fin hi => some (if checkSimple R L lo hi then .type3 else .type4)
    | _, _ => some .type4
  else Option.none

/-- arc_helpers.hpp:1106-1145: the constructor -/
noncomputable def construct (mean stddev : ℝ) (lower upper : Ext ℝ) : Out (Dist ℝ) :=
  if |stddev| = 0 then .ok ⟨mean, stddev, .fin 0, .fin 0, .none⟩
  else
    let lo := standardize R mean stddev lower
    let hi := standardize R mean stddev upper
    let d : Dist ℝ := ⟨mean, stddev, lo, hi, .none⟩
    let d := if (Ext.fin 0).le hi ∧ lo.le (.fin 0) then { d with case := .type1 } else d
    let d := if (Ext.fin 0).lt lo ∧ hi = .posInf then { d with case := .type2 } else d
    let d := if hi.lt (.fin 0) ∧ lo = .negInf then
        { d with stdLower := hi.neg, stdUpper := .posInf, stddev := -1 * stddev, case := .type2 }
      else d
    let d := match chooseComplex R L d.stdLower d.stdUpper with
      | some c => { d with case := c }
      | Option.none => d
    do
      Out.assert (d.case = .type1 ∨ d.case = .type2 ∨ d.case = .type3 ∨ d.case = .type4)
      .ok d

/-- arc_helpers.hpp:1044: `alpha` -/
noncomputable def alpha (lower : ℝ) : ℝ := R.rd (R.rd (lower + root R L lower) / 2)

/-- arc_helpers.hpp:1048: `z`, for `alpha` other than zero -/
noncomputable def candidate (lower : ℝ) (d : Draw ℝ) : ℝ :=
  R.rd (lower + R.rd (d.exponential / alpha R L lower))

/-- arc_helpers.hpp:1049-1052: the test `u <= rho`. If `alpha` is zero then `z` is infinite or not a number, and it is not
returned by this loop or the one around it. -/
def Accepted (lower : ℝ) (d : Draw ℝ) : Prop :=
  alpha R L lower ≠ 0 ∧
    d.unit ≤ L.exp (R.rd (-L.square (R.rd (alpha R L lower - candidate R L lower d)) / 2))

open Classical in
/-- arc_helpers.hpp:1040-1057 `SimpleAcceptReject`, with a finite bound -/
noncomputable def simple (lower : ℝ) : List (Draw ℝ) → Option (ℝ × List (Draw ℝ))
  | [] => Option.none
  | d :: ds => if Accepted R L lower d then some (candidate R L lower d, ds) else simple lower ds

theorem simple_length (lower : ℝ) : ∀ {ds : List (Draw ℝ)} {z rest},
    simple R L lower ds = some (z, rest) → rest.length < ds.length
  | [], _, _, h => by simp [simple] at h
  | d :: ds, z, rest, h => by
    rw [simple] at h
    split at h
    · simp only [Option.some.injEq, Prod.mk.injEq] at h; rw [← h.2]; simp
    · exact Nat.lt_trans (simple_length lower h) (by simp)

/-- arc_helpers.hpp:1064-1071: `rho` -/
noncomputable def rhoComplex (lower upper z : ℝ) : ℝ :=
  if 0 < lower then L.exp (R.rd (R.rd (L.square lower - L.square z) / 2))
  else if upper < 0 then L.exp (R.rd (R.rd (L.square upper - L.square z) / 2))
  else if 0 < upper ∧ lower < 0 then L.exp (R.rd (-L.square z / 2))
  else 0

open Classical in
/-- arc_helpers.hpp:1058-1078 `ComplexAcceptReject`, with finite bounds -/
noncomputable def complex (lower upper : ℝ) : List (Draw ℝ) → Option (ℝ × List (Draw ℝ))
  | [] => Option.none
  | d :: ds =>
    if d.unit ≤ rhoComplex R L lower upper d.range then some (d.range, ds) else complex lower upper ds

/-- arc_helpers.hpp:1088-1095: repeat until the draw is at most the upper bound -/
noncomputable def simpleBelow (lower : ℝ) (upper : Ext ℝ) (ds : List (Draw ℝ)) : Option (ℝ × List (Draw ℝ)) :=
  match _h : simple R L lower ds with
  | Option.none => Option.none
  | some (z, rest) => if (Ext.fin z).le upper then some (z, rest) else simpleBelow lower upper rest
termination_by ds.length
decreasing_by exact simple_length R L lower _h

/-- arc_helpers.hpp:1083, 1086, 1093 and 1098: `mean_ + stddev_ * draw` -/
noncomputable def scale (d : Dist ℝ) (z : ℝ) : ℝ := R.rd (d.mean + R.rd (d.stddev * z))

/-- arc_helpers.hpp:1080-1103, 1147-1150 `Sample`, `operator()`: nothing if the draws are used up. As in
`Model/TruncatedNormal`, an infinite bound in the fourth case gives no sample. -/
noncomputable def sample (d : Dist ℝ) (ds : List (Draw ℝ)) : Option (ℝ × List (Draw ℝ)) :=
  let scaled := fun r : ℝ × List (Draw ℝ) => (scale R d r.1, r.2)
  match d.case with
  | .type1 => (naive d.stdLower d.stdUpper ds).map scaled
  | .type2 => match d.stdLower with
    | .fin lo => (simple R L lo ds).map scaled
    | _ => Option.none
  | .type3 => match d.stdLower with
    | .fin lo => (simpleBelow R L lo d.stdUpper ds).map scaled
    | _ => Option.none
  | .type4 => match d.stdLower, d.stdUpper with
    | .fin lo, .fin hi => (complex R L lo hi ds).map scaled
    | _, _ => Option.none
  | .none => some (d.mean, ds)

end

end Verif.TruncatedNormalRounded
