import Verif.Base.Cost
import Verif.Lemmas.KmeansTermination

/-!
# C31 and C32: k-means clustering
-/
namespace Verif.Kmeans
open Verif

section
variable {α W : Type} [LinearOrder W]

theorem cluster_lloyd {β : Type} (inf : W) (distance : α → α → W) (average : List β → Out α)
    (points : List α) (data : List β) (centersOf : Nat → List α → List Nat → Out (List α))
    (fuel : Nat) (centers : List α) (hlen : centers.length < 2 ^ 32 - 1)
    (hav : Averages average centers.length points data (centersOf centers.length))
    (labels : List Nat) (final : List α)
    (h : cluster inf distance centersOf fuel points centers = some (.ok (labels, final))) :
    ∃ first, LabelsClosest distance points centers first ∧
      Lloyd distance average centers.length points data first labels final := by
  have hmod : centers.length % 2 ^ 32 = centers.length := Nat.mod_eq_of_lt (by omega)
  simp only [cluster, hmod, if_pos hlen] at h
  split at h
  · next first heq =>
    have hc := singleIteration_ok inf distance centers (by omega) points first heq
    exact ⟨first, hc, iterate_ok inf distance average centers.length points data _ hav (by omega)
      fuel first hc.1 (labels_lt hc) labels final h⟩
  · cases h
  · cases h
  · cases h

/-- **C31.** When k-means clustering returns, each datum carries the number of a closest returned
center, the first one of several, and each returned center is the average of the data with its
label: the result is a fixed point. There are as many centers as were given. -/
theorem C31_fixed_point (inf : W) (distance : α → α → W) (average : List α → Out α) (fuel : Nat)
    (data centers : List α) (hlen : centers.length < 2 ^ 32 - 1) (labels : List Nat) (final : List α)
    (h : cluster inf distance (computeCenters average) fuel data centers =
      some (.ok (labels, final))) :
    final.length = centers.length ∧ LabelsClosest distance data final labels ∧
      CentersAverage average data final labels := by
  obtain ⟨first, _, hl⟩ := cluster_lloyd inf distance average data data (computeCenters average) fuel
    centers hlen (averages_computeCenters average _ data) labels final h
  exact lloyd_final hl

/-- **C31, how it gets there.** The result is the end of Lloyd's iteration from the labels of the given
centers: nothing else happens in between. -/
theorem C31_lloyd (inf : W) (distance : α → α → W) (average : List α → Out α) (fuel : Nat)
    (data centers : List α) (hlen : centers.length < 2 ^ 32 - 1) (labels : List Nat) (final : List α)
    (h : cluster inf distance (computeCenters average) fuel data centers =
      some (.ok (labels, final))) :
    ∃ first, LabelsClosest distance data centers first ∧
      Lloyd distance average centers.length data data first labels final :=
  cluster_lloyd inf distance average data data (computeCenters average) fuel
    centers hlen (averages_computeCenters average _ data) labels final h

/-- **C31, weighted.** The same for weighted clustering, where a center is the average of the data with
its label together with their weights. -/
theorem C31_weighted (inf : W) (distance : α → α → W) (average : List (α × W) → Out α)
    (weights : List W) (fuel : Nat) (data centers : List α) (hlen : centers.length < 2 ^ 32 - 1)
    (hw : data.length ≤ weights.length) (labels : List Nat) (final : List α)
    (h : cluster inf distance (computeCentersWeighted average weights) fuel data centers =
      some (.ok (labels, final))) :
    (∃ first, LabelsClosest distance data centers first ∧
      Lloyd distance average centers.length data (data.zip weights) first labels final) ∧
    final.length = centers.length ∧ LabelsClosest distance data final labels ∧
      CentersAverage average (data.zip weights) final labels := by
  obtain ⟨first, h1, hl⟩ := cluster_lloyd inf distance average data (data.zip weights)
    (computeCentersWeighted average weights) fuel
    centers hlen (averages_computeCentersWeighted average weights _ data hw) labels final h
  exact ⟨⟨first, h1, hl⟩, lloyd_final hl⟩

/-- **C31, weights missing.** With fewer weights than data, weighted clustering reads outside the
weights as soon as each datum has a closest center. -/
theorem C31_weights_missing (inf : W) (distance : α → α → W) (average : List (α × W) → Out α)
    (weights : List W) (fuel : Nat) (data centers : List α) (hlen : centers.length < 2 ^ 32 - 1)
    (hw : weights.length < data.length) (hfin : ∀ p ∈ data, ∃ c ∈ centers, distance c p < inf) :
    cluster inf distance (computeCentersWeighted average weights) (fuel + 1) data centers =
      some .ub := by
  have hmod : centers.length % 2 ^ 32 = centers.length := Nat.mod_eq_of_lt (by omega)
  obtain ⟨labels, hl⟩ := singleIteration_total inf distance centers (by omega) data hfin
  have hc := singleIteration_ok inf distance centers (by omega) data labels hl
  have : round inf distance (computeCentersWeighted average weights centers.length) data labels =
      .ub := by
    simp only [round, computeCentersWeighted]
    rw [Out.assert_true (by simp [hc.1]), Out.bind_ok, if_pos hw]
    rfl
  simp only [cluster, hmod, if_pos hlen, hl, iterate, this]

/-- **C31, no closest center.** If some datum has no center at a finite distance, for example because
there is no center, clustering aborts. -/
theorem C31_infinite (inf : W) (distance : α → α → W)
    (centersOf : Nat → List α → List Nat → Out (List α)) (fuel : Nat) (data centers : List α)
    (hlen : centers.length < 2 ^ 32 - 1)
    (hinf : ∃ p ∈ data, ∀ c ∈ centers, inf ≤ distance c p) :
    cluster inf distance centersOf fuel data centers = some .abort := by
  have hmod : centers.length % 2 ^ 32 = centers.length := Nat.mod_eq_of_lt (by omega)
  simp only [cluster, hmod, if_pos hlen, singleIteration_abort inf distance centers (by omega) data hinf]

end

/-- **C31, termination.** In exact arithmetic, with finite distances and an average that minimises the
total distance to the points it averages, clustering ends: at most as many rounds as there are ways
to label the data. -/
theorem C31_terminates {α V : Type} [AddCommMonoid V] [LinearOrder V] [IsOrderedCancelAddMonoid V]
    (d : α → α → V) (avg : List α → α) (data centers : List α) (hpos : 0 < centers.length)
    (hlen : centers.length < 2 ^ 32 - 1)
    (hmin : ∀ (group : List α) c, (group.map (d (avg group))).sum ≤ (group.map (d c)).sum) :
    ∃ r, cluster (⊤ : WithTop V) (fun c p => (d c p : WithTop V))
      (computeCenters (fun group => .ok (avg group)))
      (centers.length ^ data.length) data centers = some (.ok r) := by
  have hmod : centers.length % 2 ^ 32 = centers.length := Nat.mod_eq_of_lt (by omega)
  obtain ⟨labels, hl⟩ := singleIteration_total (⊤ : WithTop V) (fin d) centers (by omega) data (by
    intro p _
    exact ⟨centers[0], List.getElem_mem hpos, WithTop.coe_lt_top _⟩)
  have hc := singleIteration_ok (⊤ : WithTop V) (fin d) centers (by omega) data labels hl
  obtain ⟨r, hr⟩ := iterate_total d avg centers.length hpos (by omega) data hmin
    (centers.length ^ data.length) labels [] hc.1 (labels_lt hc) List.nodup_nil
    (fun v hv => by cases hv) (by simp)
  have hl' : singleIteration (⊤ : WithTop V) (fun c p => (d c p : WithTop V)) centers data =
      .ok labels := hl
  refine ⟨r, ?_⟩
  simp only [cluster, hmod, if_pos hlen, hl']
  exact hr

/-- an average for which clustering never ends: the empty cluster moves onto the point, the other
one away from it -/
def badAverage : List Nat → Out Nat
  | [] => .ok 0
  | _ => .ok 5

/-- the distance of two numbers -/
def natDistance (c p : Nat) : Dist := .fin (c - p + (p - c))

/-- **C31, without the condition on the average it need not end.** -/
theorem C31_may_not_terminate : ∀ fuel,
    cluster Dist.inf natDistance (computeCenters badAverage) fuel [0] [0, 1] = none := by
  have h : ∀ fuel,
      iterate Dist.inf natDistance (computeCenters badAverage 2) [0] fuel [0] = none ∧
      iterate Dist.inf natDistance (computeCenters badAverage 2) [0] fuel [1] = none := by
    intro fuel
    induction fuel with
    | zero => exact ⟨rfl, rfl⟩
    | succ fuel ih =>
      have h0 : round Dist.inf natDistance (computeCenters badAverage 2) [0] [0] =
          .ok (false, [1], [5, 0]) := by decide +kernel
      have h1 : round Dist.inf natDistance (computeCenters badAverage 2) [0] [1] =
          .ok (false, [0], [0, 5]) := by decide +kernel
      exact ⟨by simp only [iterate, h0]; exact ih.2, by simp only [iterate, h1]; exact ih.1⟩
  intro fuel
  have : singleIteration Dist.inf natDistance [0, 1] [0] = .ok [0] := by decide +kernel
  simp only [cluster, this]
  exact (h fuel).1

section
variable {α W : Type} [LinearOrder W]

/-- the labels of a clustering -/
def labelsOf : Option (Out (List Nat × List α)) → Option (Out (List Nat))
  | none => none
  | some (.ok (labels, _)) => some (.ok labels)
  | some (.throws e) => some (.throws e)
  | some .abort => some .abort
  | some .ub => some .ub

omit [LinearOrder W] in
theorem labelsOf_ok {r : Option (Out (List Nat × List α))} {labels : List Nat}
    (h : labelsOf r = some (.ok labels)) : ∃ final, r = some (.ok (labels, final)) := by
  unfold labelsOf at h
  split at h
  · cases h
  · next l c => cases h; exact ⟨c, rfl⟩
  · cases h
  · cases h
  · cases h

theorem clusterFrom_eq (inf : W) (distance : α → α → W)
    (centersOf : Nat → List α → List Nat → Out (List α)) (fuel : Nat) (data : List α)
    (centers : List α) :
    clusterFrom inf distance centersOf fuel data centers.length centers =
      labelsOf (cluster inf distance centersOf fuel data centers) := by
  simp only [clusterFrom, if_true, labelsOf]
  rcases cluster inf distance centersOf fuel data centers with _ | (⟨l, c⟩ | e | _ | _) <;> rfl

/-- **C32, distinct initial centers.** For two clusters or more, clustering without a preliminary
round either keeps drawing indices, or is clustering from the data at `num` different indices that
were drawn. -/
theorem C32_initial_centers (inf : W) (distance : α → α → W)
    (centersOf : Nat → List α → List Nat → Out (List α)) (fuel : Nat) (draws : Nat → Nat)
    (data : List α) (num : Nat) (hnum : 2 ≤ num) (hd : InRange data.length draws) :
    clusterPlain inf distance centersOf fuel draws data num = none ∨
    ∃ (indices : List Nat) (centers : List α), indices.Pairwise (· < ·) ∧ indices.length = num ∧
      (∀ i ∈ indices, ∃ t, i = draws t) ∧
      indices.map (fun i => data[i]?) = centers.map some ∧
      clusterPlain inf distance centersOf fuel draws data num =
        labelsOf (cluster inf distance centersOf fuel data centers) := by
  have hpos : data.length > 0 := Nat.lt_of_le_of_lt (Nat.zero_le _) (hd 0)
  simp only [clusterPlain]
  rw [if_pos ⟨hpos, by omega⟩, if_neg (by omega)]
  cases hdr : drawIndices num fuel draws [] with
  | none => exact .inl rfl
  | some indices =>
    right
    obtain ⟨h1, h2, h3⟩ := drawIndices_some num fuel draws [] indices (by simp) (by simp) hdr
    have h3' : ∀ i ∈ indices, ∃ t, i = draws t := by
      intro i hi
      rcases h3 i hi with h | h
      · cases h
      · exact h
    obtain ⟨centers, hc, hmap⟩ := pickData_ok data indices (by
      intro i hi
      obtain ⟨t, rfl⟩ := h3' i hi
      exact hd t)
    have hclen : centers.length = num := by
      have := congrArg List.length hmap
      simp at this
      omega
    refine ⟨indices, centers, h1, h2, h3', hmap, ?_⟩
    simp only [hc]
    rw [← hclen, clusterFrom_eq]

/-- **C32, enough draws.** Once the random generator has given `num` different indices, the drawing of
indices is over. -/
theorem C32_enough_draws (num fuel : Nat) (draws : Nat → Nat) (S : List Nat) (hS : S.Nodup)
    (hlen : S.length = num) (hsub : ∀ x ∈ S, ∃ i, i < fuel ∧ x = draws i) :
    ∃ indices, drawIndices num fuel draws [] = some indices :=
  drawIndices_total num fuel draws [] S hS (by omega) (fun x hx => .inr (hsub x hx))

/-- **C32, more clusters than data.** With more clusters than data, and at least two, the call never
returns, whatever the random generator gives. -/
theorem C32_too_many_clusters (inf : W) (distance : α → α → W)
    (centersOf : Nat → List α → List Nat → Out (List α)) (fuel : Nat) (draws : Nat → Nat)
    (data : List α) (num : Nat) (hnum : 2 ≤ num) (hmany : data.length < num)
    (hd : InRange data.length draws) :
    clusterPlain inf distance centersOf fuel draws data num = none := by
  have hpos : data.length > 0 := Nat.lt_of_le_of_lt (Nat.zero_le _) (hd 0)
  simp only [clusterPlain]
  rw [if_pos ⟨hpos, by omega⟩, if_neg (by omega),
    drawIndices_none num data.length hmany fuel draws hd [] (by simp) (by simp)]

/-- **C32, one cluster.** With one cluster, each datum gets the label 0 and no callback is called. -/
theorem C32_one_cluster (inf : W) (distance : α → α → W)
    (centersOf : Nat → List α → List Nat → Out (List α)) (fuel : Nat) (draws draws' : Nat → Nat)
    (data : List α) (subset : Nat) (hdata : data ≠ []) :
    clusterPlain inf distance centersOf fuel draws data 1 =
      some (.ok (List.replicate data.length 0)) ∧
    clusterPreliminary inf distance centersOf fuel draws draws' data 1 subset =
      some (.ok (List.replicate data.length 0)) := by
  have hpos : data.length > 0 := List.length_pos_iff.2 hdata
  have h1 : clusterPlain inf distance centersOf fuel draws data 1 =
      some (.ok (List.replicate data.length 0)) := by
    simp only [clusterPlain]
    rw [if_pos ⟨hpos, by omega⟩, if_pos trivial]
  refine ⟨h1, ?_⟩
  simp only [clusterPreliminary]
  rw [if_neg (by omega), h1]

/-- **C32, bad arguments.** Without data or with no clusters the call aborts. -/
theorem C32_bad_arguments (inf : W) (distance : α → α → W)
    (centersOf : Nat → List α → List Nat → Out (List α)) (fuel : Nat) (draws draws' : Nat → Nat)
    (data : List α) (num subset : Nat) (h : data = [] ∨ num = 0) :
    clusterPlain inf distance centersOf fuel draws data num = some .abort ∧
    clusterPreliminary inf distance centersOf fuel draws draws' data num subset = some .abort := by
  have hneg : ¬ (data.length > 0 ∧ num > 0) := by
    rcases h with rfl | rfl
    · simp
    · omega
  have h1 : clusterPlain inf distance centersOf fuel draws data num = some .abort := by
    simp only [clusterPlain]
    rw [if_neg hneg]
  refine ⟨h1, ?_⟩
  simp only [clusterPreliminary]
  rw [if_neg (by omega), h1]

theorem clusterPlain_ok (inf : W) (distance : α → α → W)
    (average : List α → Out α) (fuel : Nat) (draws : Nat → Nat)
    (data : List α) (num : Nat) (hnum : 2 ≤ num) (hmax : num < 2 ^ 32 - 1)
    (hd : InRange data.length draws) (labels : List Nat)
    (h : clusterPlain inf distance (computeCenters average) fuel draws data num =
      some (.ok labels)) :
    ∃ final, final.length = num ∧ LabelsClosest distance data final labels ∧
      CentersAverage average data final labels := by
  rcases C32_initial_centers inf distance (computeCenters average) fuel draws data num hnum hd with
    h' | ⟨indices, centers, _, h2, _, h4, h5⟩
  · rw [h'] at h; cases h
  · rw [h5] at h
    obtain ⟨final, hf⟩ := labelsOf_ok h
    have hlen : centers.length = num := by
      have := congrArg List.length h4
      simp at this
      omega
    have := C31_fixed_point inf distance average fuel data centers (by omega) labels final hf
    exact ⟨final, by omega, this.2⟩

/-- **C32, with a preliminary round.** If there are enough data, the initial centers are the averages of
the clusters of `subset` data at different indices; those clusters are themselves a fixed point. The
labels that are returned are those of the clustering from these centers. -/
theorem C32_preliminary (inf : W) (distance : α → α → W)
    (average : List α → Out α) (fuel : Nat) (draws draws' : Nat → Nat)
    (data : List α) (num subset : Nat) (hnum : 2 ≤ num) (hmax : num * 5 < 2 ^ 32)
    (hsub : num * 5 ≤ subset) (hd : InRange data.length draws) (hd' : InRange subset draws')
    (labels : List Nat)
    (h : clusterPreliminary inf distance (computeCenters average) fuel draws draws' data num subset =
      some (.ok labels)) :
    ∃ (indices : List Nat) (points : List α) (labels' : List Nat) (centers : List α),
      indices.Pairwise (· < ·) ∧ indices.length = subset ∧ (∀ i ∈ indices, ∃ t, i = draws t) ∧
      indices.map (fun i => data[i]?) = points.map some ∧
      (∃ final, final.length = num ∧ LabelsClosest distance points final labels' ∧
        CentersAverage average points final labels') ∧
      centers.length = num ∧ CentersAverage average points centers labels' ∧
      ∃ final, cluster inf distance (computeCenters average) fuel data centers =
        some (.ok (labels, final)) := by
  have hpos : data.length > 0 := Nat.lt_of_le_of_lt (Nat.zero_le _) (hd 0)
  have hmod : num * 5 % 2 ^ 32 = num * 5 := Nat.mod_eq_of_lt hmax
  simp only [clusterPreliminary, hmod] at h
  rw [if_pos ⟨hpos, by omega, hsub⟩] at h
  split at h
  · cases h
  · next centers hp =>
    simp only [preliminary] at hp
    cases hdr : drawIndices subset fuel draws [] with
    | none => simp [hdr] at hp
    | some indices =>
      obtain ⟨h1, h2, h3⟩ := drawIndices_some subset fuel draws [] indices (by simp) (by simp) hdr
      have h3' : ∀ i ∈ indices, ∃ t, i = draws t := by
        intro i hi
        rcases h3 i hi with h | h
        · cases h
        · exact h
      obtain ⟨points, hpk, hmap⟩ := pickData_ok data indices (by
        intro i hi
        obtain ⟨t, rfl⟩ := h3' i hi
        exact hd t)
      have hplen : points.length = subset := by
        have := congrArg List.length hmap
        simp at this
        omega
      simp only [hdr, hpk, if_pos hplen] at hp
      split at hp
      · cases hp
      · next labels' hcp =>
        have hc : computeCenters average num points labels' = .ok centers := by simpa using hp
        obtain ⟨final, hf1, hf2, hf3⟩ := clusterPlain_ok inf distance average fuel draws' points num
          hnum (by omega) (by rw [hplen]; exact hd') labels' hcp
        have hlt := labels_lt hf2
        rw [(averages_computeCenters average num points).eq labels' hf2.1 (by rwa [← hf1])] at hc
        obtain ⟨hc1, hc2⟩ := centersAverage_of average num points labels' centers hc
        refine ⟨indices, points, labels', centers, h1, h2, h3', hmap, ⟨final, hf1, hf2, hf3⟩, hc1, hc2,
          ?_⟩
        rw [← hc1, clusterFrom_eq] at h
        exact labelsOf_ok h
      · cases hp
      · cases hp
      · cases hp
  · cases h
  · cases h
  · cases h

/-- **C32, too few data for a preliminary round.** It is left out. -/
theorem C32_no_preliminary (inf : W) (distance : α → α → W)
    (centersOf : Nat → List α → List Nat → Out (List α)) (fuel : Nat) (draws draws' : Nat → Nat)
    (data : List α) (num subset : Nat) (hmax : num * 5 < 2 ^ 32) (hsub : subset < num * 5) :
    clusterPreliminary inf distance centersOf fuel draws draws' data num subset =
      clusterPlain inf distance centersOf fuel draws data num := by
  have hmod : num * 5 % 2 ^ 32 = num * 5 := Nat.mod_eq_of_lt hmax
  simp only [clusterPreliminary, hmod]
  rw [if_neg (by omega)]

end

/-- the weighted sum divided by the sum of the weights, on numbers -/
def weightedAverage (l : List (Nat × Dist)) : Out Nat :=
  let w : Dist → Nat := fun x => match x with | .fin n => n | .inf => 0
  .ok ((l.map (fun x => w x.2 * x.1)).sum / (l.map (fun x => w x.2)).sum)

/-- **C32, weighted preliminary round.** In the preliminary round of weighted clustering the points
do not carry their own weights: the point taken from index `i` of the data gets the weight of its
position in the subset. Here all the weight is on the data with an odd number, and the subset holds
ten points, numbers 0, 2, 4, …, 18, each of weight 0; yet the centers come out as if the second,
fourth, … of them had weight 1. -/
theorem C32_weighted_preliminary_wrong :
    let data := List.range 100
    let weights := (List.range 100).map (fun i : Nat => if i % 2 = 1 then Dist.fin 1 else Dist.fin 0)
    let draws := fun i : Nat => (2 * i) % 20
    (∀ i, data[draws i]? = some (draws i) ∧ weights[draws i]? = some (Dist.fin 0)) ∧
    preliminary Dist.inf natDistance (computeCentersWeighted weightedAverage weights) 30 draws
      (fun i => i % 10) data 2 10 = some (.ok [4, 14]) := by
  refine ⟨?_, by decide +kernel⟩
  intro i
  have h : 2 * i % 20 < 100 := by omega
  have h2 : 2 * i % 20 % 2 = 0 := by omega
  constructor
  · simp [h]
  · simp [h]

/-! ## The hypotheses are met -/

/-- the average of numbers, 0 for none -/
def natAverage (l : List Nat) : Out Nat := .ok (l.sum / l.length)

example : cluster Dist.inf natDistance (computeCenters natAverage) 5 [1, 2, 10, 12] [1, 2] =
    some (.ok ([0, 0, 1, 1], [1, 11])) := by decide +kernel

example : cluster Dist.inf natDistance
    (computeCentersWeighted weightedAverage [.fin 1, .fin 3, .fin 1, .fin 1]) 5 [0, 4, 10, 12] [1, 2] =
    some (.ok ([0, 1, 1, 1], [0, 6])) := by decide +kernel

example : clusterPlain Dist.inf natDistance (computeCenters natAverage) 9 (fun i => [3, 3, 0].getD i 0)
    [1, 2, 10, 12] 2 = some (.ok [0, 0, 1, 1]) := by decide +kernel

example : ∃ labels, clusterPreliminary Dist.inf natDistance (computeCenters natAverage) 30
    (fun i => (7 * i) % 100) (fun i => (3 * i) % 10) (List.range 100) 2 10 = some (.ok labels) := by
  refine ⟨List.replicate 50 0 ++ List.replicate 50 1, ?_⟩
  decide +kernel

/-- distance of labels: 0 if they are the same, 1 if not -/
def boolDistance (c p : Bool) : Nat := if c = p then 0 else 1

/-- the more frequent value -/
def majority (l : List Bool) : Bool := decide (l.count false ≤ l.count true)

/-- The majority minimises the total distance, so clustering of Booleans ends. -/
example : ∀ (group : List Bool) c,
    (group.map (boolDistance (majority group))).sum ≤ (group.map (boolDistance c)).sum := by
  have h : ∀ (c : Bool) (group : List Bool), (group.map (boolDistance c)).sum = group.count (!c) := by
    intro c group
    induction group with
    | nil => rfl
    | cons x xs ih => cases c <;> cases x <;> simp [boolDistance, ih] <;> omega
  intro group c
  rw [h, h]
  unfold majority
  by_cases hle : group.count false ≤ group.count true
  · rw [decide_eq_true hle]; cases c
    · exact hle
    · exact Nat.le_refl _
  · rw [decide_eq_false hle]; cases c
    · exact Nat.le_refl _
    · simp only [Bool.not_false, Bool.not_true]; omega

end Verif.Kmeans
