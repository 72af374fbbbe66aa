import Verif.Model.NanKmeans
import Verif.Props.Kmeans
import Verif.Spec.NanKmeans

/-!
# C183: k-means clustering with distances that are not a number
-/
namespace Verif.NanKmeans
open Verif Verif.NotANumber

variable {α W : Type} [LinearOrder W]

/-- The distance with what is not a number replaced by infinity. -/
def orInf (inf : W) (distance : α → α → Option W) (c p : α) : W := (distance c p).getD inf

theorem lt_number {inf b : W} (h : b ≤ inf) (a : Option W) : lt a (some b) = decide (a.getD inf < b) := by
  cases a with
  | some a => rfl
  | none => simp [lt, h]

theorem closestFrom_number (inf : W) (distance : α → α → Option W) (p : α) :
    ∀ (cs : List α) (k : Nat) (i : Int) (b : W), b ≤ inf →
      closestFrom distance p cs k (i, some b) =
        ((Kmeans.closestFrom (orInf inf distance) p cs k (i, b)).1,
          some (Kmeans.closestFrom (orInf inf distance) p cs k (i, b)).2)
  | [], _, _, _, _ => rfl
  | c :: cs, k, i, b, hb => by
    simp only [closestFrom, Kmeans.closestFrom, lt_number hb, decide_eq_true_eq]
    rw [show (distance c p).getD inf = orInf inf distance c p from rfl]
    split
    · next h =>
      cases hd : distance c p with
      | none =>
        rw [show orInf inf distance c p = inf by simp [orInf, hd]] at h
        exact absurd h (not_lt_of_ge hb)
      | some d =>
        have hd' : orInf inf distance c p = d := by simp [orInf, hd]
        rw [hd'] at h ⊢
        exact closestFrom_number inf distance p cs _ _ d (le_trans (le_of_lt h) hb)
    · exact closestFrom_number inf distance p cs _ _ b hb

theorem singleIteration_number (inf : W) (distance : α → α → Option W) (centers : List α) :
    ∀ data : List α, singleIteration inf distance centers data =
      Kmeans.singleIteration inf (orInf inf distance) centers data
  | [] => rfl
  | p :: ps => by
    simp only [singleIteration, Kmeans.singleIteration, closestCluster, Kmeans.closestCluster,
      closestFrom_number inf distance p centers 0 (-1) inf (le_refl _),
      singleIteration_number inf distance centers ps]

theorem iterate_number (inf : W) (distance : α → α → Option W)
    (centersOf : List α → List Nat → Out (List α)) (data : List α) :
    ∀ (fuel : Nat) (labels : List Nat), iterate inf distance centersOf data fuel labels =
      Kmeans.iterate inf (orInf inf distance) centersOf data fuel labels
  | 0, _ => rfl
  | fuel + 1, labels => by
    unfold iterate Kmeans.iterate
    rw [show round inf distance centersOf data labels =
      Kmeans.round inf (orInf inf distance) centersOf data labels by
        unfold round Kmeans.round
        simp only [singleIteration_number]]
    split <;> simp_all [iterate_number inf distance centersOf data fuel]

/-- **C183.** Clustering with distances that are not a number is clustering with infinite distances instead. -/
theorem C183_infinite (inf : W) (distance : α → α → Option W)
    (centersOf : Nat → List α → List Nat → Out (List α)) (fuel : Nat) (data centers : List α) :
    cluster inf distance centersOf fuel data centers =
      Kmeans.cluster inf (fun c p => (distance c p).getD inf) centersOf fuel data centers := by
  unfold cluster Kmeans.cluster
  simp only [singleIteration_number, iterate_number]
  rfl

theorem iterate_last (inf : W) (d : α → α → W) (centersOf : List α → List Nat → Out (List α))
    (data : List α) (labels : List Nat) (final : List α) : ∀ (fuel : Nat) (first : List Nat),
    Kmeans.iterate inf d centersOf data fuel first = some (.ok (labels, final)) →
      Kmeans.singleIteration inf d final data = .ok labels
  | 0, _, h => by cases h
  | fuel + 1, first, h => by
    unfold Kmeans.iterate at h
    split at h
    · next new centers hr =>
      injection h with h
      injection h with h
      injection h with h1 h2
      subst h1 h2
      unfold Kmeans.round at hr
      simp only [Out.bind_eq_ok] at hr
      obtain ⟨c, _, n, hn, b, _, hr⟩ := hr
      injection hr with hr
      injection hr with _ hr
      injection hr with h1 h2
      subst h1 h2
      exact hn
    · exact iterate_last inf d centersOf data labels final fuel _ h
    · cases h
    · cases h
    · cases h

theorem singleIteration_closest (inf : W) (distance : α → α → Option W)
    (centers data : List α) (hlen : centers.length ≤ 2 ^ 32) (labels : List Nat)
    (h : Kmeans.singleIteration inf (orInf inf distance) centers data = .ok labels) :
    labels.length = data.length ∧ ∀ (i : Nat) p label, data[i]? = some p → labels[i]? = some label →
      ClosestNumber inf distance centers p label := by
  obtain ⟨h1, h2⟩ := Kmeans.singleIteration_ok inf (orInf inf distance) centers hlen data labels h
  refine ⟨h1, ?_⟩
  intro i p label hp hl
  obtain ⟨c, hc, hle, hlt⟩ := h2 i p label hp hl
  have hfin : orInf inf distance c p < inf := by
    by_contra hno
    have := Kmeans.singleIteration_abort inf (orInf inf distance) centers hlen data
      ⟨p, List.mem_of_getElem? hp, fun c' hc' => by
        obtain ⟨j, hj⟩ := List.mem_iff_getElem?.1 hc'
        exact le_trans (le_of_not_gt hno) (hle j c' hj)⟩
    rw [h] at this
    cases this
  cases hd : distance c p with
  | none =>
    rw [show orInf inf distance c p = inf by simp [orInf, hd]] at hfin
    exact absurd hfin (lt_irrefl _)
  | some d =>
    have hor : orInf inf distance c p = d := by simp [orInf, hd]
    rw [hor] at hfin hle hlt
    refine ⟨c, d, hc, hd, hfin, ?_⟩
    intro j' c' d' hc' hd'
    have hor' : orInf inf distance c' p = d' := by simp [orInf, hd']
    refine ⟨?_, ?_⟩
    · have := hle j' c' hc'; rwa [hor'] at this
    · intro hj
      have := hlt j' c' hj hc'
      rwa [hor'] at this

/-- **C183.** When clustering returns, the distance of every point to the center of its label is a number
below infinity, and no other center is at a distance that is a smaller number: a center whose distances are
not a number (such as the average of an empty cluster) has no points. -/
theorem C183_closest (inf : W) (distance : α → α → Option W)
    (average : List α → Out α) (fuel : Nat) (data centers : List α)
    (hlen : centers.length < 2 ^ 32 - 1) (labels : List Nat) (final : List α)
    (h : cluster inf distance (Kmeans.computeCenters average) fuel data centers =
      some (.ok (labels, final))) :
    final.length = centers.length ∧ labels.length = data.length ∧
      (∀ (i : Nat) p label, data[i]? = some p → labels[i]? = some label →
        ClosestNumber inf distance final p label) ∧
      Kmeans.CentersAverage average data final labels := by
  rw [C183_infinite] at h
  obtain ⟨h1, _, h3⟩ := Kmeans.C31_fixed_point inf (fun c p => (distance c p).getD inf) average fuel data
    centers hlen labels final h
  have hs : Kmeans.singleIteration inf (orInf inf distance) final data = .ok labels := by
    unfold Kmeans.cluster at h
    simp only at h
    split at h
    · split at h
      · exact iterate_last _ _ _ _ _ _ _ _ h
      · cases h
      · cases h
      · cases h
    · cases h
  obtain ⟨h4, h5⟩ := singleIteration_closest inf distance final data (by omega) labels hs
  exact ⟨h1, h4, h5, h3⟩

/-- **C183.** A point without any given center at a distance that is a number below infinity is a failed
assertion; otherwise the first labels are found. -/
theorem C183_abort (inf : W) (distance : α → α → Option W)
    (centersOf : Nat → List α → List Nat → Out (List α)) (fuel : Nat) (data centers : List α)
    (hlen : centers.length < 2 ^ 32 - 1) :
    ((∃ p ∈ data, ∀ c ∈ centers, ∀ d, distance c p = some d → inf ≤ d) →
      cluster inf distance centersOf fuel data centers = some .abort) ∧
    ((∀ p ∈ data, ∃ c ∈ centers, ∃ d, distance c p = some d ∧ d < inf) →
      ∃ labels, (labels.length = data.length ∧
        ∀ (i : Nat) p label, data[i]? = some p → labels[i]? = some label →
          ClosestNumber inf distance centers p label) ∧
        cluster inf distance centersOf fuel data centers =
          iterate inf distance (centersOf centers.length) data fuel labels) := by
  have hmod : centers.length % 2 ^ 32 = centers.length := Nat.mod_eq_of_lt (by omega)
  constructor
  · rintro ⟨p, hp, hall⟩
    rw [C183_infinite]
    refine Kmeans.C31_infinite inf _ centersOf fuel data centers hlen ⟨p, hp, ?_⟩
    intro c hc
    cases hd : distance c p with
    | none => exact le_refl _
    | some d => exact hall c hc d hd
  · intro hall
    obtain ⟨labels, hl⟩ := Kmeans.singleIteration_total inf (orInf inf distance) centers (by omega) data (by
      intro p hp
      obtain ⟨c, hc, d, hd, hlt⟩ := hall p hp
      exact ⟨c, hc, by simpa [orInf, hd] using hlt⟩)
    refine ⟨labels, singleIteration_closest inf distance centers data (by omega) labels hl, ?_⟩
    unfold cluster
    simp only [hmod, if_pos hlen, singleIteration_number, hl]

/-! ## Cases that meet the hypotheses -/

/-- the distance of two numbers, if both are given -/
def exDistance : Option Nat → Option Nat → Option Dist
  | some a, some b => some (.fin ((a - b) + (b - a)))
  | _, _ => none

/-- the average of numbers; of none of them it is not a number -/
def exAverage (l : List (Option Nat)) : Out (Option Nat) :=
  .ok (if l = [] then none else some ((l.map fun x => x.getD 0).sum / l.length))

/-- Two of three given centers are equal, so the second gets no points; its average is not a number, and it
stays without points. -/
example : cluster Dist.inf exDistance (Kmeans.computeCenters exAverage) 5
    [some 0, some 2, some 9] [some 0, some 0, some 9] =
      some (.ok ([0, 0, 2], [some 1, none, some 9])) := by decide +kernel

example : cluster Dist.inf exDistance (Kmeans.computeCenters exAverage) 5
    [some 0, some 2, none] [some 0, some 0, some 9] = some .abort := by decide +kernel

end Verif.NanKmeans
