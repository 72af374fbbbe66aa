import Verif.Base.NotANumber
import Verif.Model.Kmeans

/-!
# Model of k-means clustering with distances that may not be a number

include/arc_utilities/simple_kmeans_clustering.hpp:24-146 and 226-251, as in `Verif.Model.Kmeans`, but the
distance function may return NaN (`none`), for instance for the center of an empty cluster, which is what the
averaging callback makes of the empty vector. Everything that does not compare distances is the same.
-/
namespace Verif.NanKmeans
open Verif Verif.NotANumber

variable {α W : Type} [LinearOrder W]

/-- simple_kmeans_clustering.hpp:29-36: the loop over the centers, from number `k` on -/
def closestFrom (distance : α → α → Option W) (p : α) : List α → Nat → Int × Option W → Int × Option W
  | [], _, best => best
  | c :: cs, k, best =>
    if lt (distance c p) best.2 then closestFrom distance p cs (k + 1) ((k : Int), distance c p)
    else closestFrom distance p cs (k + 1) best

/-- simple_kmeans_clustering.hpp:24-39 `GetClosestCluster` -/
def closestCluster (inf : W) (distance : α → α → Option W) (centers : List α) (p : α) : Out Nat :=
  let best := closestFrom distance p centers 0 (-1, some inf)
  if best.1 ≥ 0 then .ok (best.1.toNat % 2 ^ 32) else .abort

/-- simple_kmeans_clustering.hpp:42-53 `PerformSingleClusteringIteration` -/
def singleIteration (inf : W) (distance : α → α → Option W) (centers : List α) : List α → Out (List Nat)
  | [] => .ok []
  | p :: ps => do
    let label ← closestCluster inf distance centers p
    let labels ← singleIteration inf distance centers ps
    .ok (label :: labels)

/-- simple_kmeans_clustering.hpp:135-141: one round of the loop -/
def round (inf : W) (distance : α → α → Option W) (centersOf : List α → List Nat → Out (List α))
    (data : List α) (labels : List Nat) : Out (Bool × List Nat × List α) := do
  let centers ← centersOf data labels
  let new ← singleIteration inf distance centers data
  let converged ← Kmeans.checkForConvergence labels new
  .ok (converged, new, centers)

/-- simple_kmeans_clustering.hpp:132-145: the loop; `none` when the fuel is used up -/
def iterate (inf : W) (distance : α → α → Option W) (centersOf : List α → List Nat → Out (List α))
    (data : List α) : Nat → List Nat → Option (Out (List Nat × List α))
  | 0, _ => none
  | fuel + 1, labels =>
    match round inf distance centersOf data labels with
    | .ok (true, new, centers) => some (.ok (new, centers))
    | .ok (false, new, _) => iterate inf distance centersOf data fuel new
    | .throws e => some (.throws e)
    | .abort => some .abort
    | .ub => some .ub

/-- simple_kmeans_clustering.hpp:120-146 `Cluster` and 226-251 `ClusterWeighted` with given centers.
`num_clusters` is the number of centers converted to 32 bits; `centersOf` gets it as an argument. -/
def cluster (inf : W) (distance : α → α → Option W) (centersOf : Nat → List α → List Nat → Out (List α))
    (fuel : Nat) (data centers : List α) : Option (Out (List Nat × List α)) :=
  let num := centers.length % 2 ^ 32
  if num < 2 ^ 32 - 1 then
    match singleIteration inf distance centers data with
    | .ok labels => iterate inf distance (centersOf num) data fuel labels
    | .throws e => some (.throws e)
    | .abort => some .abort
    | .ub => some .ub
  else some .abort

end Verif.NanKmeans
