import Mathlib.Order.Defs.LinearOrder
import Verif.Base.Outcome
import Verif.Model.DistanceMatrix

/-!
# Model of include/arc_utilities/simple_hierarchical_clustering.hpp

`W` is the type of distances with `zero` and `inf` for `0.0` and `INFINITY`; NaN is left out. The
matrix is a function `D` of two indices together with its dimensions. Indices into the matrix are not
checked in the model: every index that is used is the position of a datum, which is a theorem.
`uint8_t` masks are Booleans. Both the serial and the parallel build are modelled.
-/
namespace Verif.Hierarchical
open Verif

variable {W : Type} [LinearOrder W]

/-- simple_hierarchical_clustering.hpp:21 `CLUSTER_STRATEGY` -/
inductive Strategy where
  | single
  | complete
  deriving DecidableEq, Repr

/-- simple_hierarchical_clustering.hpp:38: `std::pair<bool, int64_t>`: a cluster or a datum, and its
index -/
structure Elem where
  isCluster : Bool
  index : Int
  deriving DecidableEq, Repr

/-- The loop `if (candidate < best) best = candidate` over candidates, as in lines 68-71, 91-94, 117-128,
137-140, 180-184, 203-206. Used for simple_hierarchical_clustering.hpp:60-73, 75-96. -/
def scanMin {β : Type} (best : β × W) (candidates : List (β × W)) : β × W :=
  candidates.foldl (fun b c => if c.2 < b.2 then c else b) best

/-- simple_hierarchical_clustering.hpp:60-73: the closest other unclustered point -/
def nearestPoint (inf : W) (D : Nat → Nat → W) (mask : List Bool) (i : Nat) : Int × W :=
  scanMin (-1, inf) (((List.range mask.length).filter (fun j => i ≠ j ∧ mask[j]? = some false)).map
    (fun j : Nat => ((j : Int), D i j)))

/-- simple_hierarchical_clustering.hpp:81-89 and 162-176: the link distance from the distances between
the members -/
def linkOf (zero inf : W) (strategy : Strategy) (distances : List W) : W :=
  match strategy with
  | .complete => distances.foldl max zero
  | .single => distances.foldl min inf

/-- simple_hierarchical_clustering.hpp:75-96: the closest cluster to a point -/
def nearestCluster (zero inf : W) (strategy : Strategy) (D : Nat → Nat → W)
    (clusters : List (List Nat)) (i : Nat) : Int × W :=
  scanMin (-1, inf) (((List.range clusters.length).filter
      (fun c => (clusters.getD c []).length > 0)).map
    (fun c : Nat => ((c : Int), linkOf zero inf strategy ((clusters.getD c []).map (D i)))))

/-- simple_hierarchical_clustering.hpp:55-129: what the iteration for the point `i` offers -/
def pointCandidates (zero inf : W) (strategy : Strategy) (D : Nat → Nat → W) (mask : List Bool)
    (clusters : List (List Nat)) (i : Nat) : List ((Elem × Elem) × W) :=
  if mask[i]? = some false then
    let p := nearestPoint inf D mask i
    let c := nearestCluster zero inf strategy D clusters i
    [((⟨false, i⟩, ⟨false, p.1⟩), p.2), ((⟨false, i⟩, ⟨true, c.1⟩), c.2)]
  else []

/-- simple_hierarchical_clustering.hpp:153-195: what the iteration for the cluster `f` offers -/
def clusterCandidates (zero inf : W) (strategy : Strategy) (D : Nat → Nat → W)
    (clusters : List (List Nat)) (f : Nat) : List ((Elem × Elem) × W) :=
  if (clusters.getD f []).length > 0 then
    ((List.range clusters.length).filter
      (fun s => f ≠ s ∧ (clusters.getD s []).length > 0)).map
      (fun s : Nat => ((⟨true, f⟩, ⟨true, s⟩), linkOf zero inf strategy
        ((clusters.getD f []).flatMap (fun a => (clusters.getD s []).map (D a)))))
  else []

/-- simple_hierarchical_clustering.hpp:52, 133 and 149, 199: nothing found yet -/
def noPair (inf : W) (isCluster : Bool) : (Elem × Elem) × W :=
  ((⟨isCluster, -1⟩, ⟨isCluster, -1⟩), inf)

/-- simple_hierarchical_clustering.hpp:51-52, 55-129 and 148-149, 151-195 in the serial build -/
def scanSerial (inf : W) (isCluster : Bool) (candidates : Nat → List ((Elem × Elem) × W)) (n : Nat) :
    (Elem × Elem) × W :=
  scanMin (noPair inf isCluster) ((List.range n).flatMap candidates)

/-- simple_hierarchical_clustering.hpp:45-49, 55-142 and 144-146, 151-208 in the parallel build: each
thread keeps its best pair, then the best of the threads is taken. The schedule is one list of
iterations for each thread. -/
def scanParallel (inf : W) (isCluster : Bool) (candidates : Nat → List ((Elem × Elem) × W))
    (schedule : List (List Nat)) : (Elem × Elem) × W :=
  scanMin (noPair inf isCluster)
    (schedule.map (fun is => scanMin (noPair inf isCluster) (is.flatMap candidates)))

/-- How the two loops of `GetClosestPair` are executed: serially, or by threads with a schedule for a
given number of iterations. Used for simple_hierarchical_clustering.hpp:38-228, 255-317. -/
inductive Exec where
  | serial
  | parallel (schedule : Nat → List (List Nat))

/-- one of the two loops. Used for simple_hierarchical_clustering.hpp:38-228. -/
def scan (exec : Exec) (inf : W) (isCluster : Bool) (candidates : Nat → List ((Elem × Elem) × W))
    (n : Nat) : (Elem × Elem) × W :=
  match exec with
  | .serial => scanSerial inf isCluster candidates n
  | .parallel schedule => scanParallel inf isCluster candidates (schedule n)

/-- simple_hierarchical_clustering.hpp:38-228 `GetClosestPair` -/
def closestPair (exec : Exec) (zero inf : W) (strategy : Strategy) (D : Nat → Nat → W)
    (mask : List Bool) (clusters : List (List Nat)) : (Elem × Elem) × W :=
  let points := scan exec inf false (pointCandidates zero inf strategy D mask clusters) mask.length
  let pairs := scan exec inf true (clusterCandidates zero inf strategy D clusters) clusters.length
  if points.2 < pairs.2 then points else pairs

/-- simple_hierarchical_clustering.hpp:251-252: the mask and the clusters -/
structure State where
  mask : List Bool
  clusters : List (List Nat)
  deriving DecidableEq, Repr

/-- simple_hierarchical_clustering.hpp:265-313: merging the two elements -/
def mergePair (s : State) (first second : Elem) : Out State :=
  if first.isCluster = false ∧ second.isCluster = false then do
    Out.assert (decide (first.index ≥ 0))
    Out.assert (decide (second.index ≥ 0))
    if first.index.toNat < s.mask.length ∧ second.index.toNat < s.mask.length then
      .ok ⟨(s.mask.set first.index.toNat true).set second.index.toNat true,
        s.clusters ++ [[first.index.toNat, second.index.toNat]]⟩
    else .ub
  else if first.isCluster = true ∧ second.isCluster = true then do
    Out.assert (decide (first.index ≥ 0))
    Out.assert (decide (second.index ≥ 0))
    match s.clusters[first.index.toNat]?, s.clusters[second.index.toNat]? with
    | some a, some b =>
      .ok ⟨s.mask, (s.clusters.set first.index.toNat (a ++ b)).set second.index.toNat []⟩
    | _, _ => .ub
  else do
    let clusterIndex := if first.isCluster then first.index else second.index
    let elementIndex := if first.isCluster then second.index else first.index
    Out.assert (decide (clusterIndex ≥ 0))
    Out.assert (decide (elementIndex ≥ 0))
    match s.clusters[clusterIndex.toNat]? with
    | some c =>
      if elementIndex.toNat < s.mask.length then
        .ok ⟨s.mask.set elementIndex.toNat true,
          s.clusters.set clusterIndex.toNat (c ++ [elementIndex.toNat])⟩
      else .ub
    | none => .ub

/-- simple_hierarchical_clustering.hpp:255-317: the loop; `none` when the fuel is used up. Each round may
be executed in its own way. -/
def loop (exec : Nat → Exec) (zero inf : W) (strategy : Strategy) (D : Nat → Nat → W) (maxDistance : W) :
    Nat → State → Option (Out (State × W))
  | 0, _ => none
  | fuel + 1, s =>
    let r := closestPair (exec fuel) zero inf strategy D s.mask s.clusters
    if r.2 ≤ maxDistance then
      match mergePair s r.1.1 r.1.2 with
      | .ok s' => loop exec zero inf strategy D maxDistance fuel s'
      | .throws e => some (.throws e)
      | .abort => some .abort
      | .ub => some .ub
    else some (.ok (s, r.2))

/-- `data[index]` for each index. Used for simple_hierarchical_clustering.hpp:319-339. -/
def pick {α : Type} (data : List α) : List Nat → Out (List α)
  | [] => .ok []
  | i :: is =>
    match data[i]? with
    | none => .ub
    | some p => do
      let rest ← pick data is
      .ok (p :: rest)

/-- simple_hierarchical_clustering.hpp:318-339: the clusters that are not empty, then the points that are
in no cluster -/
def extract (s : State) : List (List Nat) :=
  s.clusters.filter (fun c => c.length > 0) ++
    (((List.range s.mask.length).filter (fun i => s.mask[i]? = some false)).map (fun i => [i]))

/-- simple_hierarchical_clustering.hpp:319-339: the data of the clusters -/
def pickAll {α : Type} (data : List α) : List (List Nat) → Out (List (List α))
  | [] => .ok []
  | c :: cs => do
    let x ← pick data c
    let xs ← pickAll data cs
    .ok (x :: xs)

/-- simple_hierarchical_clustering.hpp:245-341 `Cluster` -/
def cluster {α : Type} (exec : Nat → Exec) (zero inf : W) (strategy : Strategy) (rows cols : Nat)
    (D : Nat → Nat → W) (maxDistance : W) (fuel : Nat) (data : List α) :
    Option (Out (List (List α) × W)) :=
  if rows = data.length ∧ cols = data.length then
    match loop exec zero inf strategy D maxDistance fuel ⟨List.replicate data.length false, []⟩ with
    | none => none
    | some (.ok (s, d)) =>
      match pickAll data (extract s) with
      | .ok out => some (.ok (out, d))
      | .throws e => some (.throws e)
      | .abort => some .abort
      | .ub => some .ub
    | some (.throws e) => some (.throws e)
    | some .abort => some .abort
    | some .ub => some .ub
  else some .abort

/-- simple_hierarchical_clustering.hpp:231-242 `Cluster` with a distance function. `order` is the order in
which the loops that build the matrix are executed; in the serial build it is the program order. -/
def clusterFn {α : Type} [Zero W] (exec : Nat → Exec) (inf : W) (strategy : Strategy)
    (order : List (Nat × Nat)) (distance : α → α → W) (maxDistance : W) (fuel : Nat) (data : List α) :
    Option (Out (List (List α) × W)) :=
  match DistanceMatrix.parallel order data distance with
  | .ok m => cluster exec 0 inf strategy m.rows m.cols (fun i j => (m.get i j).getD 0) maxDistance
      fuel data
  | .throws e => some (.throws e)
  | .abort => some .abort
  | .ub => some .ub

end Verif.Hierarchical
