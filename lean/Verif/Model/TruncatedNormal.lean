import Mathlib.Algebra.Order.Field.Basic
import Verif.Base.Outcome

/-!
# Model of TruncatedNormalDistribution (include/arc_utilities/arc_helpers.hpp:1007-1151)

`double` is an ordered field with two infinities; arithmetic is exact and not-a-number is left out. `sqrt`
and `exp` are parameters. The random distributions are an arbitrary sequence of draws.
-/
namespace Verif.TruncatedNormal
open Verif

/-- A finite number or an infinity. Used for arc_helpers.hpp:1119-1120, 1008-1019. -/
inductive Ext (K : Type) where
  | negInf
  | fin (x : K)
  | posInf
  deriving DecidableEq

section
variable {K : Type} [Field K] [LinearOrder K]

/-- `<=`. Used for arc_helpers.hpp:1106-1145, 1028-1038. -/
def Ext.le : Ext K → Ext K → Bool
  | .negInf, _ => true
  | _, .posInf => true
  | .fin x, .fin y => decide (x ≤ y)
  | _, _ => false

/-- `<`. Used for arc_helpers.hpp:1135-1142, 1106-1145. -/
def Ext.lt (a b : Ext K) : Bool := !b.le a

/-- `-1 * x`. Used for arc_helpers.hpp:1106-1145. -/
def Ext.neg : Ext K → Ext K
  | .negInf => .posInf
  | .fin x => .fin (-x)
  | .posInf => .negInf

/-- arc_helpers.hpp:1119-1120: `(bound - mean) / stddev`, for `stddev` other than zero -/
def standardize (mean stddev : K) : Ext K → Ext K
  | .fin x => .fin ((x - mean) / stddev)
  | .posInf => if 0 < stddev then .posInf else .negInf
  | .negInf => if 0 < stddev then .negInf else .posInf

/-- arc_helpers.hpp:1014 `CASES` -/
inductive Case where
  | type1
  | type2
  | type3
  | type4
  | none
  deriving DecidableEq, Repr

/-- arc_helpers.hpp:1008-1019: the members. With `stddev` zero the bounds are never set nor read: they are
zero here. -/
structure Dist (K : Type) where
  mean : K
  stddev : K
  stdLower : Ext K
  stdUpper : Ext K
  case : Case
  deriving DecidableEq

/-- The functions of `<cmath>` that are used: nothing is assumed of them here. Used for arc_helpers.hpp:1021-1026,
1135-1142. -/
structure Math (K : Type) where
  sqrt : K → K
  exp : K → K

/-- arc_helpers.hpp:1021-1026 `CheckSimple` -/
def checkSimple (m : Math K) (lower upper : K) : Bool :=
  let val1 := (2 * m.sqrt (m.exp 1)) / (lower + m.sqrt (lower ^ 2 + 4))
  let val2 := m.exp ((lower ^ 2 - lower * m.sqrt (lower ^ 2 + 4)) / 4)
  decide (lower + val1 * val2 < upper)

/-- arc_helpers.hpp:1135-1142: the choice between the last two cases. With an infinite bound `CheckSimple`
compares with minus infinity or not-a-number, which is false. -/
def chooseComplex (m : Math K) (lower upper : Ext K) : Option Case :=
  if (upper.lt (.fin 0) ∨ (Ext.fin 0).lt lower) ∧ ¬ (upper = .posInf ∨ lower = .negInf) then
    match lower, upper with
    | .fin lo, .fin hi => some (if checkSimple m lo hi then .type3 else .type4)
    | _, _ => some .type4
  else Option.none

/-- arc_helpers.hpp:1106-1145: the constructor. (The standard does not allow infinite bounds for
`uniform_range_dist_`, line 1109; it is not drawn from in that case and that is left out.) -/
def construct (m : Math K) (mean stddev : K) (lower upper : Ext K) : Out (Dist K) :=
  if |stddev| = 0 then .ok ⟨mean, stddev, .fin 0, .fin 0, .none⟩
  else
    let lo := standardize mean stddev lower
    let hi := standardize mean stddev upper
    let d : Dist K := ⟨mean, stddev, lo, hi, .none⟩
    let d := if (Ext.fin 0).le hi ∧ lo.le (.fin 0) then { d with case := .type1 } else d
    let d := if (Ext.fin 0).lt lo ∧ hi = .posInf then { d with case := .type2 } else d
    let d := if hi.lt (.fin 0) ∧ lo = .negInf then
        { d with stdLower := hi.neg, stdUpper := .posInf, stddev := -1 * stddev, case := .type2 }
      else d
    let d := match chooseComplex m d.stdLower d.stdUpper with
      | some c => { d with case := c }
      | Option.none => d
    do
      Out.assert (d.case = .type1 ∨ d.case = .type2 ∨ d.case = .type3 ∨ d.case = .type4)
      .ok d

/-- What one pass through one of the loops draws: from `normal_dist_`, `exponential_dist_`,
`uniform_unit_dist_` and `uniform_range_dist_`. Each pass uses the ones it needs. Used for arc_helpers.hpp:1028-1038,
1044-1048. -/
structure Draw (K : Type) where
  normal : K
  exponential : K
  unit : K
  range : K

/-- arc_helpers.hpp:1028-1038 `NaiveAcceptReject`; nothing if the draws are used up -/
def naive (lower upper : Ext K) : List (Draw K) → Option (K × List (Draw K))
  | [] => Option.none
  | d :: ds =>
    if (Ext.fin d.normal).le upper ∧ lower.le (.fin d.normal) then some (d.normal, ds)
    else naive lower upper ds

/-- arc_helpers.hpp:1044-1048: the candidate `z` -/
def candidate (m : Math K) (lower : K) (d : Draw K) : K :=
  lower + d.exponential / ((lower + m.sqrt (lower ^ 2 + 4)) / 2)

/-- arc_helpers.hpp:1049-1052: the test `u <= rho` -/
def acceptSimple (m : Math K) (lower : K) (d : Draw K) : Prop :=
  d.unit ≤ m.exp (-((lower + m.sqrt (lower ^ 2 + 4)) / 2 - candidate m lower d) ^ 2 / 2)

instance (m : Math K) (lower : K) (d : Draw K) : Decidable (acceptSimple m lower d) :=
  inferInstanceAs (Decidable (_ ≤ _))

/-- arc_helpers.hpp:1040-1057 `SimpleAcceptReject`, with a finite bound -/
def simple (m : Math K) (lower : K) : List (Draw K) → Option (K × List (Draw K))
  | [] => Option.none
  | d :: ds => if acceptSimple m lower d then some (candidate m lower d, ds) else simple m lower ds

theorem simple_length (m : Math K) (lower : K) : ∀ {ds : List (Draw K)} {z rest},
    simple m lower ds = some (z, rest) → rest.length < ds.length
  | [], _, _, h => by simp [simple] at h
  | d :: ds, z, rest, h => by
    rw [simple] at h
    split at h
    · simp only [Option.some.injEq, Prod.mk.injEq] at h; rw [← h.2]; simp
    · exact Nat.lt_trans (simple_length m lower h) (by simp)

/-- arc_helpers.hpp:1064-1071: `rho` -/
def rhoComplex (m : Math K) (lower upper z : K) : K :=
  if 0 < lower then m.exp ((lower ^ 2 - z ^ 2) / 2)
  else if upper < 0 then m.exp ((upper ^ 2 - z ^ 2) / 2)
  else if 0 < upper ∧ lower < 0 then m.exp (-z ^ 2 / 2)
  else 0

/-- arc_helpers.hpp:1058-1078 `ComplexAcceptReject`, with finite bounds -/
def complex (m : Math K) (lower upper : K) : List (Draw K) → Option (K × List (Draw K))
  | [] => Option.none
  | d :: ds =>
    if d.unit ≤ rhoComplex m lower upper d.range then some (d.range, ds) else complex m lower upper ds

/-- arc_helpers.hpp:1088-1095: repeat until the draw is at most the upper bound -/
def simpleBelow (m : Math K) (lower : K) (upper : Ext K) (ds : List (Draw K)) :
    Option (K × List (Draw K)) :=
  match _h : simple m lower ds with
  | Option.none => Option.none
  | some (z, rest) => if (Ext.fin z).le upper then some (z, rest) else simpleBelow m lower upper rest
termination_by ds.length
decreasing_by exact simple_length m lower _h

/-- arc_helpers.hpp:1080-1103, 1147-1150 `Sample`, `operator()`: nothing if the draws are used up. With an
infinite lower bound the second case computes not-a-number and never accepts. An infinite bound in the fourth
case (only possible with a negative `stddev`) means drawing uniformly from an infinite range, which is not
modelled: no sample. -/
def sample (m : Math K) (d : Dist K) (ds : List (Draw K)) : Option (K × List (Draw K)) :=
  let scale := fun r : K × List (Draw K) => (d.mean + d.stddev * r.1, r.2)
  match d.case with
  | .type1 => (naive d.stdLower d.stdUpper ds).map scale
  | .type2 => match d.stdLower with
    | .fin lo => (simple m lo ds).map scale
    | _ => Option.none
  | .type3 => match d.stdLower with
    | .fin lo => (simpleBelow m lo d.stdUpper ds).map scale
    | _ => Option.none
  | .type4 => match d.stdLower, d.stdUpper with
    | .fin lo, .fin hi => (complex m lo hi ds).map scale
    | _, _ => Option.none
  | .none => some (d.mean, ds)

end

end Verif.TruncatedNormal
