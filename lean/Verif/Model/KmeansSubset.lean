import Verif.Base.Rounding
import Verif.Model.Kmeans

/-!
# Model of include/arc_utilities/simple_kmeans_clustering.hpp: the size of the subset, with rounding

`Verif.Model.Kmeans` takes the number of points of the preliminary clustering as an argument. Here it is computed as in
the code.
-/
namespace Verif.Kmeans
open Verif

variable {W α : Type} [LinearOrder W] (R : Rounding)

/-- simple_kmeans_clustering.hpp:170, 184, 278 and 293: `(size_t)ceil((double)data.size() * 0.1)`. The literal is
rounded too. A `size_t` is below 2^64, so the result of `ceil` fits into a `size_t`. -/
noncomputable def subsetSize (n : Nat) : Nat := ⌈R.rd (R.rd (n : ℝ) * R.rd (1 / 10))⌉.toNat

/-- simple_kmeans_clustering.hpp:149-223 `Cluster` and 254-335 `ClusterWeighted` with `do_preliminary_clustering` -/
noncomputable def clusterTenth (inf : W) (distance : α → α → W)
    (centersOf : Nat → List α → List Nat → Out (List α)) (fuel : Nat) (draws draws' : Nat → Nat)
    (data : List α) (num : Nat) : Option (Out (List Nat)) :=
  clusterPreliminary inf distance centersOf fuel draws draws' data num (subsetSize R data.length)

end Verif.Kmeans
