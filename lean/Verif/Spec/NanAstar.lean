import Verif.Model.NanAstar
import Verif.Spec.Graph

/-!
# Specification of A* searches with costs that may not be a number
-/
namespace Verif.NanAstar
open Verif Verif.Graph

variable {ν W : Type}

/-- The steps of the graph that the callbacks accept, with the distance they give. -/
def Accepted (g : Graph ν (Option W)) (cb : Callbacks ν W) (u v : Int) (w : Option W) : Prop :=
  ∃ n, NodeAt g u n ∧ ∃ e ∈ n.outEdges, e.toIndex = v ∧
    cb.valid g e = .ok true ∧ cb.distance g e = .ok w

/-- A list of nodes along accepted steps. -/
def Route (step : Int → Int → Prop) : List Int → Prop
  | [] => True
  | [_] => True
  | u :: v :: rest => step u v ∧ Route step (v :: rest)

/-- An edge with a weight that is not a number replaced by infinity. -/
def finiteEdge [Cost W] (e : Edge (Option W)) : Edge W :=
  ⟨e.fromIndex, e.toIndex, e.weight.getD Cost.inf, e.validity⟩

/-- A node with what is not a number replaced by infinity. -/
def finiteNode [Cost W] (n : Node ν (Option W)) : Node ν W :=
  ⟨n.value, n.distance.getD Cost.inf, n.inEdges.map finiteEdge, n.outEdges.map finiteEdge⟩

/-- The graph with everything that is not a number replaced by infinity. -/
def finiteGraph [Cost W] (g : Graph ν (Option W)) : Graph ν W := g.map finiteNode

/-- A result in terms of numbers. -/
def numberResult (r : Option (Out (List Int × W))) : Option (Out (List Int × Option W)) :=
  r.map fun o => o.bind fun x => .ok (x.1, some x.2)

/-- The steps along edges not marked invalid whose weight is a number below infinity. -/
def NumberStep [Cost W] (g : Graph ν (Option W)) (u v : Int) (w : W) : Prop :=
  ∃ n, NodeAt g u n ∧ ∃ e ∈ n.outEdges, e.toIndex = v ∧ e.validity ≠ INVALID ∧ e.weight = some w ∧ w < Cost.inf

/-- The steps along edges between states that the check accepts, whose distance is a number. -/
def ValueStep (g : Graph ν (Option W)) (valid : ν → ν → Bool) (dist : ν → ν → Option W) (u v : Int) (w : W) :
    Prop :=
  ∃ n m, NodeAt g u n ∧ NodeAt g v m ∧ (∃ e ∈ n.outEdges, e.toIndex = v) ∧
    valid n.value m.value = true ∧ dist n.value m.value = some w

end Verif.NanAstar
