import Verif.Model.Prm
import Verif.Model.RandomWalk

/-!
# Model of the random walk query of the roadmap planner

include/arc_utilities/simple_prm_planner.hpp:289-308. The callbacks are functions of their arguments, and the draws of the
generator an arbitrary sequence, as in the models of the parts.
-/
namespace Verif.Prm
open Verif Verif.Graph

variable {ν W : Type} [Cost W]

/-- math_helpers.hpp:239-242: the loop of `CalculateTotalDistance` over the states that are left, `total_dist` so far -/
def addDistances (distance : ν → ν → W) : W → List ν → W
  | total, a :: b :: rest => addDistances distance (total + distance a b) (b :: rest)
  | total, _ => total

/-- simple_prm_planner.hpp:301-307: the states and the length of the walk -/
def walkAnswer (distance : ν → ν → W) (roadmap : Graph ν W) :
    Option (Out (List Int)) → Option (Out (List ν × W))
  | none => none
  | some (.ok walk) => some (do
      let states ← extractSolutionPath roadmap walk
      .ok (states, addDistances distance 0 states))
  | some (.throws e) => some (.throws e)
  | some .abort => some .abort
  | some .ub => some .ub

/-- simple_prm_planner.hpp:289-308 `QueryPathAndAddNodesSingleStartSingleGoalRandomWalk`; `fuel` bounds the steps of the
walk. `add_duplicate_states` is left at its default, `false`. -/
def queryRandomWalk (S : Setup ν W) (fuel : Nat) (draw : Nat → Nat) (start goal : ν × Threads) (roadmap : Graph ν W) :
    Option (Out (List ν × W)) × Graph ν W :=
  match (do
      let i ← addNodeToRoadmap { S with addDuplicates := false } start.2 .newStateToRoadmap start.1
      let j ← addNodeToRoadmap { S with addDuplicates := false } goal.2 .roadmapToNewState goal.1
      pure (i, j) : M (Graph ν W) (Int × Int)) roadmap with
  | (.ok (i, j), roadmap') =>
    (walkAnswer S.distance roadmap' (RandomWalk.performRandomWalk fuel draw roadmap' i j), roadmap')
  | (.throws e, roadmap') => (some (.throws e), roadmap')
  | (.abort, roadmap') => (some .abort, roadmap')
  | (.ub, roadmap') => (some .ub, roadmap')

end Verif.Prm
