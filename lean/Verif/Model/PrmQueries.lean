import Verif.Model.Prm
/-!
# Model of many queries of one roadmap

include/arc_utilities/simple_prm_planner.hpp:234-287 and 352-375. All queries are given the same functions and options.
-/
namespace Verif.Prm
open Verif Verif.Graph

variable {ν W : Type} [Cost W]

/-- A query with one start and one goal: whether it is a lazy one, and whether it is one of those that add the start and
the goal to the roadmap they are given. `fuel` and `pick` are how A* is run. Used for simple_prm_planner.hpp:234-287,
352-375. -/
structure Query (ν : Type) where
  lazy : Bool
  addNodes : Bool
  fuel : Nat
  pick : Nat → Nat
  limit : Bool
  start : ν × Threads
  goal : ν × Threads

/-- simple_prm_planner.hpp:352-375 `QueryPathSingleStartSingleGoal` (`lazy = false`) and
`LazyQueryPathSingleStartSingleGoal` (`lazy = true`): the query is made on a copy, which is dropped -/
def queryOnCopy (S : Setup ν W) (lazy : Bool) (fuel : Nat) (pick : Nat → Nat) (limit : Bool)
    (start goal : ν × Threads) (roadmap : Graph ν W) : Option (Out (List ν × W)) :=
  let workingCopy := roadmap
  (querySingle S lazy fuel pick limit start goal workingCopy).1

/-- One of the four functions: the answer, and the roadmap after it. Used for simple_prm_planner.hpp:234-287, 352-375. -/
def ask (S : Setup ν W) (q : Query ν) (roadmap : Graph ν W) : Option (Out (List ν × W)) × Graph ν W :=
  if q.addNodes then querySingle S q.lazy q.fuel q.pick q.limit q.start q.goal roadmap
  else (queryOnCopy S q.lazy q.fuel q.pick q.limit q.start q.goal roadmap, roadmap)

/-- Queries one after another: the answers, and the roadmap after them. An exception of one does not keep its caller from
making the next. Used for simple_prm_planner.hpp:234-287, 352-375. -/
def askAll (S : Setup ν W) : List (Query ν) → Graph ν W → List (Option (Out (List ν × W))) × Graph ν W
  | [], roadmap => ([], roadmap)
  | q :: qs, roadmap =>
    let (answer, roadmap) := ask S q roadmap
    let (answers, roadmap) := askAll S qs roadmap
    (answer :: answers, roadmap)

end Verif.Prm
