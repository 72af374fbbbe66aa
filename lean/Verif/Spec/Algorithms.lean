import Verif.Model.Algorithms

/-!
# Specification of nested dictionaries: what is found along a path of keys
-/
namespace Verif.Algorithms

variable {K V : Type} [DecidableEq K]

/-- `d[k1][k2]…` -/
def valueAt : List K → Value K V → Option (Value K V)
  | [], v => some v
  | _ :: _, .leaf _ => none
  | k :: p, .dict items =>
    match items.get k with
    | none => none
    | some v => valueAt p v

/-- The value at the end of a path, if it is no dictionary -/
def leafAt (p : List K) (v : Value K V) : Option V :=
  match valueAt p v with
  | some (.leaf x) => some x
  | _ => none

mutual
/-- The keys of every dictionary are distinct. -/
def Value.Distinct : Value K V → Prop
  | .leaf _ => True
  | .dict items => items.Distinct
def Items.Distinct : Items K V → Prop
  | .nil => True
  | .cons k v rest => rest.get k = none ∧ v.Distinct ∧ rest.Distinct
end

end Verif.Algorithms
