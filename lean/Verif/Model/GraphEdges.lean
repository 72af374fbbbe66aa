import Verif.Model.Graph

/-!
# Model of changes through the references `Graph::getEdge` and `Graph::getReverseEdge` return
(include/arc_utilities/graph.hpp)
-/
namespace Verif.Graph
open Verif

variable {ν W : Type}

/-- graph.hpp:97 `GraphEdge::setWeight` -/
def Edge.setWeight (w : W) (e : Edge W) : Edge W := { e with weight := w }

/-- graph.hpp:105 `GraphEdge::setValidity` -/
def Edge.setValidity (v : Validity) (e : Edge W) : Edge W := { e with validity := v }

/-- graph.hpp:371-373 with 233-240: the caller applies the setter `f` to the reference returned by
`getEdge(i, j)`. The reference is to the element of the out list of node `i`. -/
def changeEdge (i j : Int) (f : Edge W → Edge W) : M (Graph ν W) Unit := do
  let g ← M.get
  let n ← M.lift (getNode g i)
  let k ← M.lift (n.getEdgeTo j)
  M.modify (fun g => g.modify i.toNat (fun n => { n with outEdges := n.outEdges.modify k f }))

/-- graph.hpp:379: the caller applies the setter `f` to the reference returned by
`getReverseEdge(e)` -/
def changeReverseEdge (e : Edge W) (f : Edge W → Edge W) : M (Graph ν W) Unit :=
  changeEdge e.toIndex e.fromIndex f

end Verif.Graph
