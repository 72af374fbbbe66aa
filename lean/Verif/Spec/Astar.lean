import Verif.Spec.Graph
import Verif.Model.Astar

/-!
# Specification of paths
-/
namespace Verif.Astar
open Verif Verif.Graph

variable {ν W : Type} [Cost W]

/-- `Path step u c p v C`: `p` lists the nodes of a path from `u` to `v` along the steps `step`
(`step u v w`: one can go from `u` to `v` at cost `w`); starting with cost `c`, the costs of the
steps add up to `C`. -/
inductive Path (step : Int → Int → W → Prop) : Int → W → List Int → Int → W → Prop
  | here (u : Int) (c : W) : Path step u c [u] u c
  | cons {u v t : Int} {w c C : W} {p : List Int} :
      step u v w → Path step v (c + w) p t C → Path step u c (u :: p) t C

/-- Non-negative step costs. -/
def NonNegative (step : Int → Int → W → Prop) : Prop := ∀ u v w, step u v w → 0 ≤ w

/-- The heuristic never overestimates: adding it to the cost so far stays below the cost of every
path to the goal. In exact arithmetic this says that `h u` is at most the cost of every path from
`u` to the goal; in this form it also makes sense for rounded sums. At the goal itself it is not
negative. -/
def Admissible (step : Int → Int → W → Prop) (h : Int → W) (goal : Int) : Prop :=
  (∀ u c p C, Path step u c p goal C → c + h u ≤ C) ∧ 0 ≤ h goal

/-- The steps of the graph that the callbacks accept, with the cost they give. -/
def GraphStep (g : Graph ν W) (cb : Callbacks ν W) (u v : Int) (w : W) : Prop :=
  ∃ n, NodeAt g u n ∧ ∃ e ∈ n.outEdges, e.toIndex = v ∧
    cb.valid g e = .ok true ∧ cb.distance g e = .ok w

/-- The heuristic as a function of the node index (zero where there is no node). -/
def nodeHeuristic (g : Graph ν W) (cb : Callbacks ν W) (goal u : Int) : W :=
  match getNode g u, getNode g goal with
  | .ok n, .ok m => cb.heuristic n.value m.value
  | _, _ => 0

/-- The callbacks do not throw on the edges of the graph. -/
def Callbacks.Answers (cb : Callbacks ν W) (g : Graph ν W) : Prop :=
  ∀ n ∈ g, ∀ e ∈ n.outEdges, (∃ b, cb.valid g e = .ok b) ∧
    (cb.valid g e = .ok true → ∃ w, cb.distance g e = .ok w)

/-- What a caller of an A* search gets when costs are not negative: an answer, which is no path and
infinity if the goal cannot be reached, and otherwise a path to the goal that costs no more than the
number reported. -/
def Complete (step : Int → Int → W → Prop) (start goal : Int) (path : List Int) (cost : W) : Prop :=
  (path = [] ∧ cost = Cost.inf ∧ ∀ p C, ¬ Path step start 0 p goal C) ∨
  (∃ C, Path step start 0 path goal C ∧ C ≤ cost)

/-- What they get in addition when the heuristic is admissible: the path costs exactly the number
reported, and no path costs less. -/
def Optimal (step : Int → Int → W → Prop) (start goal : Int) (path : List Int) (cost : W) : Prop :=
  (path = [] ∧ cost = Cost.inf ∧ ∀ p C, ¬ Path step start 0 p goal C) ∨
  (Path step start 0 path goal cost ∧ ∀ p C, Path step start 0 p goal C → cost ≤ C)

/-- The steps of the generic search. -/
def Generic.Step (G : Generic W) (u v : Int) (w : W) : Prop :=
  v ∈ G.children u ∧ G.valid u v = true ∧ w = G.distance u v

end Verif.Astar
