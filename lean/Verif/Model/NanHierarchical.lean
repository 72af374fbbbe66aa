import Verif.Model.Hierarchical

/-!
# Model of hierarchical clustering with distances that may not be a number

include/arc_utilities/simple_hierarchical_clustering.hpp:38-341, as in `Verif.Model.Hierarchical`, but the
entries of the distance matrix and the threshold may be NaN (`none`). The smallest and largest distances kept
by the loops are numbers: they begin as zero and infinity and become an entry of the matrix only after a
comparison with it was true. The functions that do not read the matrix are those of
`Verif.Model.Hierarchical`. `Cluster` with a distance function (lines 231-242) is not modelled here.
-/
namespace Verif.NanHierarchical
open Verif Verif.Hierarchical

variable {W : Type} [LinearOrder W]

/-- simple_hierarchical_clustering.hpp:64-71: the loop `if (candidate < best) best = candidate`; a candidate
that is not a number is not smaller than anything. -/
def scanNumbers {β : Type} (best : β × W) (candidates : List (β × Option W)) : β × W :=
  candidates.foldl (fun b c =>
    match c.2 with
    | some d => if d < b.2 then (c.1, d) else b
    | none => b) best

/-- simple_hierarchical_clustering.hpp:60-73: the closest other unclustered point -/
def nearestPoint (inf : W) (D : Nat → Nat → Option W) (mask : List Bool) (i : Nat) : Int × W :=
  scanNumbers (-1, inf) (((List.range mask.length).filter (fun j => i ≠ j ∧ mask[j]? = some false)).map
    (fun j : Nat => ((j : Int), D i j)))

/-- simple_hierarchical_clustering.hpp:86, 173: `std::max(a, b)`, which is `a < b ? b : a` and so the first
argument if the second is not a number -/
def maxOf (a : W) (b : Option W) : W :=
  match b with
  | some b => if a < b then b else a
  | none => a

/-- simple_hierarchical_clustering.hpp:87, 174: `std::min(a, b)`, which is `b < a ? b : a` and so the first
argument if the second is not a number -/
def minOf (a : W) (b : Option W) : W :=
  match b with
  | some b => if b < a then b else a
  | none => a

/-- simple_hierarchical_clustering.hpp:81-89 and 162-176: the link distance from the distances between
the members -/
def linkOf (zero inf : W) (strategy : Strategy) (distances : List (Option W)) : W :=
  match strategy with
  | .complete => distances.foldl maxOf zero
  | .single => distances.foldl minOf inf

/-- simple_hierarchical_clustering.hpp:75-96: the closest cluster to a point -/
def nearestCluster (zero inf : W) (strategy : Strategy) (D : Nat → Nat → Option W)
    (clusters : List (List Nat)) (i : Nat) : Int × W :=
  scanMin (-1, inf) (((List.range clusters.length).filter
      (fun c => (clusters.getD c []).length > 0)).map
    (fun c : Nat => ((c : Int), linkOf zero inf strategy ((clusters.getD c []).map (D i)))))

/-- simple_hierarchical_clustering.hpp:55-129: what the iteration for the point `i` offers -/
def pointCandidates (zero inf : W) (strategy : Strategy) (D : Nat → Nat → Option W) (mask : List Bool)
    (clusters : List (List Nat)) (i : Nat) : List ((Elem × Elem) × W) :=
  if mask[i]? = some false then
    let p := nearestPoint inf D mask i
    let c := nearestCluster zero inf strategy D clusters i
    [((⟨false, i⟩, ⟨false, p.1⟩), p.2), ((⟨false, i⟩, ⟨true, c.1⟩), c.2)]
  else []

/-- simple_hierarchical_clustering.hpp:153-195: what the iteration for the cluster `f` offers -/
def clusterCandidates (zero inf : W) (strategy : Strategy) (D : Nat → Nat → Option W)
    (clusters : List (List Nat)) (f : Nat) : List ((Elem × Elem) × W) :=
  if (clusters.getD f []).length > 0 then
    ((List.range clusters.length).filter
      (fun s => f ≠ s ∧ (clusters.getD s []).length > 0)).map
      (fun s : Nat => ((⟨true, f⟩, ⟨true, s⟩), linkOf zero inf strategy
        ((clusters.getD f []).flatMap (fun a => (clusters.getD s []).map (D a)))))
  else []

/-- simple_hierarchical_clustering.hpp:38-228 `GetClosestPair` -/
def closestPair (exec : Exec) (zero inf : W) (strategy : Strategy) (D : Nat → Nat → Option W)
    (mask : List Bool) (clusters : List (List Nat)) : (Elem × Elem) × W :=
  let points := scan exec inf false (pointCandidates zero inf strategy D mask clusters) mask.length
  let pairs := scan exec inf true (clusterCandidates zero inf strategy D clusters) clusters.length
  if points.2 < pairs.2 then points else pairs

/-- simple_hierarchical_clustering.hpp:262: `closest_distance <= max_cluster_distance`, false for a threshold
that is not a number -/
def within (distance : W) (maxDistance : Option W) : Bool :=
  match maxDistance with
  | some m => decide (distance ≤ m)
  | none => false

/-- simple_hierarchical_clustering.hpp:255-317: the loop; `none` when the fuel is used up. -/
def loop (exec : Nat → Exec) (zero inf : W) (strategy : Strategy) (D : Nat → Nat → Option W)
    (maxDistance : Option W) : Nat → State → Option (Out (State × W))
  | 0, _ => none
  | fuel + 1, s =>
    let r := closestPair (exec fuel) zero inf strategy D s.mask s.clusters
    if within r.2 maxDistance then
      match mergePair s r.1.1 r.1.2 with
      | .ok s' => loop exec zero inf strategy D maxDistance fuel s'
      | .throws e => some (.throws e)
      | .abort => some .abort
      | .ub => some .ub
    else some (.ok (s, r.2))

/-- simple_hierarchical_clustering.hpp:245-341 `Cluster` -/
def cluster {α : Type} (exec : Nat → Exec) (zero inf : W) (strategy : Strategy) (rows cols : Nat)
    (D : Nat → Nat → Option W) (maxDistance : Option W) (fuel : Nat) (data : List α) :
    Option (Out (List (List α) × W)) :=
  if rows = data.length ∧ cols = data.length then
    match loop exec zero inf strategy D maxDistance fuel ⟨List.replicate data.length false, []⟩ with
    | none => none
    | some (.ok (s, d)) =>
      match pickAll data (extract s) with
      | .ok out => some (.ok (out, d))
      | .throws e => some (.throws e)
      | .abort => some .abort
      | .ub => some .ub
    | some (.throws e) => some (.throws e)
    | some .abort => some .abort
    | some .ub => some .ub
  else some .abort

end Verif.NanHierarchical
