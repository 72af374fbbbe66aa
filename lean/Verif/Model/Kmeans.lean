import Mathlib.Order.Defs.LinearOrder
import Verif.Base.Outcome

/-!
# Model of include/arc_utilities/simple_kmeans_clustering.hpp

`α` is the type of the data, `W` the type of distances, `inf` infinity. Callbacks are functions of
their arguments; the averaging callback may fail (it is called with the empty vector when a cluster
loses all its points). `assert` is enabled. The weighted functions differ from the others only in how
centers are computed, so the functions take that step as an argument.
-/
namespace Verif.Kmeans
open Verif

variable {α W : Type} [LinearOrder W]

/-- simple_kmeans_clustering.hpp:29-36: the loop over the centers, from number `k` on -/
def closestFrom (distance : α → α → W) (p : α) : List α → Nat → Int × W → Int × W
  | [], _, best => best
  | c :: cs, k, best =>
    if distance c p < best.2 then closestFrom distance p cs (k + 1) ((k : Int), distance c p)
    else closestFrom distance p cs (k + 1) best

/-- simple_kmeans_clustering.hpp:24-39 `GetClosestCluster` -/
def closestCluster (inf : W) (distance : α → α → W) (centers : List α) (p : α) : Out Nat :=
  let best := closestFrom distance p centers 0 (-1, inf)
  if best.1 ≥ 0 then .ok (best.1.toNat % 2 ^ 32) else .abort

/-- simple_kmeans_clustering.hpp:42-53 `PerformSingleClusteringIteration` -/
def singleIteration (inf : W) (distance : α → α → W) (centers : List α) : List α → Out (List Nat)
  | [] => .ok []
  | p :: ps => do
    let label ← closestCluster inf distance centers p
    let labels ← singleIteration inf distance centers ps
    .ok (label :: labels)

/-- simple_kmeans_clustering.hpp:61-66: the points of each cluster, in the order of the data. A label
that is too large would write outside the vector. -/
def separate (num : Nat) (data : List α) (labels : List Nat) : Out (List (List α)) :=
  if labels.all (· < num) then
    .ok ((List.range num).map (fun j : Nat => ((data.zip labels).filter (·.2 = j)).map (·.1)))
  else .ub

/-- simple_kmeans_clustering.hpp:69-72: the average of each cluster -/
def averages {β : Type} (average : List β → Out α) : List (List β) → Out (List α)
  | [] => .ok []
  | c :: cs => do
    let a ← average c
    let rest ← averages average cs
    .ok (a :: rest)

/-- simple_kmeans_clustering.hpp:56-74 `ComputeClusterCenters` -/
def computeCenters (average : List α → Out α) (num : Nat) (data : List α) (labels : List Nat) :
    Out (List α) := do
  Out.assert (decide (data.length = labels.length))
  let clusters ← separate num data labels
  averages average clusters

/-- simple_kmeans_clustering.hpp:77-104 `ComputeClusterCentersWeighted`. The weight of the point number
`idx` of the given data is `weights[idx]`, without a check of the size of `weights`. -/
def computeCentersWeighted (average : List (α × W) → Out α) (weights : List W) (num : Nat)
    (data : List α) (labels : List Nat) : Out (List α) := do
  Out.assert (decide (data.length = labels.length))
  if weights.length < data.length then .ub
  else do
    let clusters ← separate num (data.zip weights) labels
    averages average clusters

/-- simple_kmeans_clustering.hpp:106-116 `CheckForConvergence` -/
def checkForConvergence (old new : List Nat) : Out Bool := do
  Out.assert (decide (old.length = new.length))
  .ok (decide (old = new))

/-- simple_kmeans_clustering.hpp:135-141: one round of the loop -/
def round (inf : W) (distance : α → α → W) (centersOf : List α → List Nat → Out (List α))
    (data : List α) (labels : List Nat) : Out (Bool × List Nat × List α) := do
  let centers ← centersOf data labels
  let new ← singleIteration inf distance centers data
  let converged ← checkForConvergence labels new
  .ok (converged, new, centers)

/-- simple_kmeans_clustering.hpp:132-145: the loop; `none` when the fuel is used up -/
def iterate (inf : W) (distance : α → α → W) (centersOf : List α → List Nat → Out (List α))
    (data : List α) : Nat → List Nat → Option (Out (List Nat × List α))
  | 0, _ => none
  | fuel + 1, labels =>
    match round inf distance centersOf data labels with
    | .ok (true, new, centers) => some (.ok (new, centers))
    | .ok (false, new, _) => iterate inf distance centersOf data fuel new
    | .throws e => some (.throws e)
    | .abort => some .abort
    | .ub => some .ub

/-- simple_kmeans_clustering.hpp:120-146 `Cluster` and 226-251 `ClusterWeighted` with given centers.
`num_clusters` is the number of centers converted to 32 bits; `centersOf` gets it as an argument. -/
def cluster (inf : W) (distance : α → α → W) (centersOf : Nat → List α → List Nat → Out (List α))
    (fuel : Nat) (data centers : List α) : Option (Out (List Nat × List α)) :=
  let num := centers.length % 2 ^ 32
  if num < 2 ^ 32 - 1 then
    match singleIteration inf distance centers data with
    | .ok labels => iterate inf distance (centersOf num) data fuel labels
    | .throws e => some (.throws e)
    | .abort => some .abort
    | .ub => some .ub
  else some .abort

/-- Insertion into a `std::map` used as a set: the keys in increasing order, without repetition. Used for
simple_kmeans_clustering.hpp:186-190. -/
def insertKey (k : Nat) : List Nat → List Nat
  | [] => [k]
  | x :: xs => if k < x then k :: x :: xs else if k = x then x :: xs else x :: insertKey k xs

/-- simple_kmeans_clustering.hpp:186-190 and 207-211: drawing indices until there are `count`
different ones; `draws` is what the random generator gives from now on. `none` when the fuel is used
up. -/
def drawIndices (count : Nat) : Nat → (Nat → Nat) → List Nat → Option (List Nat)
  | fuel, draws, keys =>
    if keys.length < count then
      match fuel with
      | 0 => none
      | fuel + 1 => drawIndices count fuel (fun i => draws (i + 1)) (insertKey (draws 0) keys)
    else some keys

/-- simple_kmeans_clustering.hpp:193-199 and 213-219: the data at the indices -/
def pickData (data : List α) : List Nat → Out (List α)
  | [] => .ok []
  | i :: is =>
    match data[i]? with
    | none => .ub
    | some p => do
      let rest ← pickData data is
      .ok (p :: rest)

/-- simple_kmeans_clustering.hpp:221-222 and 333-334: clustering from the initial centers -/
def clusterFrom (inf : W) (distance : α → α → W) (centersOf : Nat → List α → List Nat → Out (List α))
    (fuel : Nat) (data : List α) (num : Nat) (centers : List α) : Option (Out (List Nat)) :=
  if centers.length = num then
    match cluster inf distance centersOf fuel data centers with
    | none => none
    | some (.ok (labels, _)) => some (.ok labels)
    | some (.throws e) => some (.throws e)
    | some .abort => some .abort
    | some .ub => some .ub
  else some .abort

/-- simple_kmeans_clustering.hpp:149-223 `Cluster` and 254-335 `ClusterWeighted` for a number of
clusters, without preliminary clustering -/
def clusterPlain (inf : W) (distance : α → α → W)
    (centersOf : Nat → List α → List Nat → Out (List α)) (fuel : Nat) (draws : Nat → Nat)
    (data : List α) (num : Nat) : Option (Out (List Nat)) :=
  if data.length > 0 ∧ num > 0 then
    if num = 1 then some (.ok (List.replicate data.length 0))
    else
      match drawIndices num fuel draws [] with
      | none => none
      | some indices =>
        match pickData data indices with
        | .ok centers => clusterFrom inf distance centersOf fuel data num centers
        | .throws e => some (.throws e)
        | .abort => some .abort
        | .ub => some .ub
  else some .abort

/-- simple_kmeans_clustering.hpp:182-205 and 291-316: the initial centers from a preliminary
clustering of `subset` random points. `draws'` is the random generator of the inner call. -/
def preliminary (inf : W) (distance : α → α → W)
    (centersOf : Nat → List α → List Nat → Out (List α)) (fuel : Nat) (draws draws' : Nat → Nat)
    (data : List α) (num subset : Nat) : Option (Out (List α)) :=
  match drawIndices subset fuel draws [] with
  | none => none
  | some indices =>
    match pickData data indices with
    | .ok points =>
      if points.length = subset then
        match clusterPlain inf distance centersOf fuel draws' points num with
        | none => none
        | some (.ok labels) => some (centersOf num points labels)
        | some (.throws e) => some (.throws e)
        | some .abort => some .abort
        | some .ub => some .ub
      else some .abort
    | .throws e => some (.throws e)
    | .abort => some .abort
    | .ub => some .ub

/-- simple_kmeans_clustering.hpp:149-223 `Cluster` and 254-335 `ClusterWeighted` with
`do_preliminary_clustering`. `subset` is the value of `ceil(0.1 * data.size())`, which is modelled in
`Verif.Model.KmeansSubset`. -/
def clusterPreliminary (inf : W) (distance : α → α → W)
    (centersOf : Nat → List α → List Nat → Out (List α)) (fuel : Nat) (draws draws' : Nat → Nat)
    (data : List α) (num subset : Nat) : Option (Out (List Nat)) :=
  if data.length > 0 ∧ num > 1 ∧ subset ≥ (num * 5) % 2 ^ 32 then
    match preliminary inf distance centersOf fuel draws draws' data num subset with
    | none => none
    | some (.ok centers) => clusterFrom inf distance centersOf fuel data num centers
    | some (.throws e) => some (.throws e)
    | some .abort => some .abort
    | some .ub => some .ub
  else clusterPlain inf distance centersOf fuel draws data num

end Verif.Kmeans
