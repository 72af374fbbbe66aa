import Verif.Model.NanGeneric
import Verif.Model.Astar

/-!
# Specification of generic A* searches with costs that may not be a number
-/
namespace Verif.NanAstar

variable {W : Type}

/-- One can go from `u` to its child `v`; the callbacks give the distance `w`. -/
def Generic.Move (G : Generic W) (u v : Int) (w : Option W) : Prop :=
  v ∈ G.children u ∧ G.valid u v = true ∧ w = G.distance u v

/-- The same where the distance is a number. -/
def Generic.Step (G : Generic W) (u v : Int) (w : W) : Prop := G.Move u v (some w)

/-- The two searches get the same answers from their callbacks. -/
structure SameAnswers {W : Type} (G : Generic W) (G' : Astar.Generic W) : Prop where
  children : ∀ u, G.children u = G'.children u
  valid : ∀ u v, G.valid u v = G'.valid u v
  distance : ∀ u v, v ∈ G.children u → G.valid u v = true → G.distance u v = some (G'.distance u v)
  heuristic : ∀ u v, G.heuristic u v = some (G'.heuristic u v)

end Verif.NanAstar
