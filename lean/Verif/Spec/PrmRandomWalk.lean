import Verif.Spec.Prm
import Verif.Spec.RandomWalk

/-!
# Specification of the random walk query of the roadmap planner
-/
namespace Verif.Prm
open Verif Verif.Graph

variable {ν W : Type} [Cost W]

/-- Every edge of the roadmap has one that leads back. -/
def TwoWay (g : Graph ν W) : Prop := ∀ u v, RandomWalk.HasEdge g u v → RandomWalk.HasEdge g v u

/-- The distances from each state to the next one, added up in the order of the path. -/
def PathLength (distance : ν → ν → W) (path : List ν) (total : W) : Prop :=
  total = (path.zip path.tail).foldl (fun sum p => sum + distance p.1 p.2) 0

/-- An answer of the query: the states of a path in the roadmap without loops, and the length of that path. -/
def WalkAnswer (distance : ν → ν → W) (g : Graph ν W) (start goal : Int) (answer : List ν × W) : Prop :=
  ∃ vs, RandomWalk.SimplePath g start goal vs ∧ StatesAt g (vs.map Int.toNat) answer.1 ∧
    PathLength distance answer.1 answer.2

end Verif.Prm
