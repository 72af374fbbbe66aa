import Verif.Model.Kmeans

/-!
# Specification of k-means clustering
-/
namespace Verif.Kmeans
open Verif

variable {α W : Type} [LinearOrder W]

/-- `j` is the number of a closest center to `p`, the first one if there are several. -/
def Closest (distance : α → α → W) (centers : List α) (p : α) (j : Nat) : Prop :=
  ∃ c, centers[j]? = some c ∧
    (∀ (j' : Nat) c', centers[j']? = some c' → distance c p ≤ distance c' p) ∧
    (∀ (j' : Nat) c', j' < j → centers[j']? = some c' → distance c p < distance c' p)

/-- Each point carries the number of its closest center. -/
def LabelsClosest (distance : α → α → W) (data centers : List α) (labels : List Nat) : Prop :=
  labels.length = data.length ∧
  ∀ (i : Nat) p label, data[i]? = some p → labels[i]? = some label → Closest distance centers p label

/-- The data with label `j`, in their order. -/
def members {β : Type} (data : List β) (labels : List Nat) (j : Nat) : List β :=
  ((data.zip labels).filter (fun x => decide (x.2 = j))).map (·.1)

/-- Each center is the average of the data with its label. -/
def CentersAverage {β : Type} (average : List β → Out α) (data : List β) (centers : List α)
    (labels : List Nat) : Prop :=
  ∀ (j : Nat) c, centers[j]? = some c → average (members data labels j) = .ok c

/-- Lloyd's iteration: from the labels `l`, take the averages as centers and label by the closest
center, until the labels stay the same. `Lloyd … l final centers` says that it ends with `final` and
`centers`. -/
inductive Lloyd {β : Type} (distance : α → α → W) (average : List β → Out α) (num : Nat)
    (points : List α) (data : List β) : List Nat → List Nat → List α → Prop
  | stop {l centers} (hlen : centers.length = num) (havg : CentersAverage average data centers l)
      (hlab : LabelsClosest distance points centers l) :
      Lloyd distance average num points data l l centers
  | step {l centers new final centers'} (hlen : centers.length = num)
      (havg : CentersAverage average data centers l)
      (hlab : LabelsClosest distance points centers new) (hne : new ≠ l)
      (hrest : Lloyd distance average num points data new final centers') :
      Lloyd distance average num points data l final centers'

/-- The random generator gives indices of the data. -/
def InRange (n : Nat) (draws : Nat → Nat) : Prop := ∀ i, draws i < n

/-- The sum of the distances of the points to the centers given by their labels. -/
def totalDistance {W : Type} [Add W] [Zero W] (distance : α → α → W) (avg : Nat → α) :
    List α → List Nat → W
  | p :: ps, l :: ls => distance (avg l) p + totalDistance distance avg ps ls
  | _, _ => 0

end Verif.Kmeans
