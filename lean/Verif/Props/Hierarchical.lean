import Verif.Base.Cost
import Verif.Lemmas.HierarchicalLoop
import Verif.Props.DistanceMatrix

/-!
# C33 and C34: hierarchical clustering
-/
namespace Verif.Hierarchical
open Verif

variable {α W : Type} [LinearOrder W]

theorem extract_init_length (n : Nat) :
    (extract ⟨List.replicate n false, []⟩).length = n := by
  rw [extract_init]; simp

/-- **C33.** For every distance matrix of the right size, every finite threshold, both strategies, and
serial as well as parallel execution, clustering returns after at most as many rounds as there are
data, plus one. The returned clusters are the data at the positions of a partition: each datum is in
exactly one of them, and none is empty. -/
theorem C33_partition (exec : Nat → Exec) (hv : ∀ t, Valid (exec t)) (zero inf : W)
    (strategy : Strategy) (D : Nat → Nat → W) (m : W) (hm : m < inf) (data : List α) (fuel : Nat)
    (hfuel : data.length < fuel) :
    ∃ parts out d, cluster exec zero inf strategy data.length data.length D m fuel data =
        some (.ok (out, d)) ∧
      Partition data.length parts ∧ DataOf data parts out := by
  obtain ⟨s', r, h1, h2, _, _⟩ := loop_total exec hv zero inf strategy D m hm
    (fun s => Partition data.length (extract s))
    (fun s s' A B d hp hmg _ _ => merged_partition hmg hp) fuel
    ⟨List.replicate data.length false, []⟩ (by rw [extract_init_length]; exact hfuel)
    (partition_init _)
  obtain ⟨out, h3, h4⟩ := pickAll_ok data (extract s') (fun p hp i hi => mem_lt h2 hp hi)
  refine ⟨extract s', out, r.2, ?_, h2, h4⟩
  simp only [cluster, and_self, if_true, h1, h3]

/-- **C33, infinite threshold.** With a threshold of infinity the call always ends in a failed
assertion, because the pair that is returned when nothing is left to merge has the distance infinity
and the indices -1. -/
theorem C33_infinite_threshold (exec : Nat → Exec) (hv : ∀ t, Valid (exec t)) (zero inf : W)
    (strategy : Strategy) (D : Nat → Nat → W) (m : W) (hm : inf ≤ m) (data : List α) (fuel : Nat)
    (hfuel : data.length < fuel) :
    cluster exec zero inf strategy data.length data.length D m fuel data = some .abort := by
  simp only [cluster, and_self, if_true]
  rw [loop_abort exec hv zero inf strategy D m hm fuel _ (by rw [extract_init_length]; exact hfuel)]

/-- **C33, wrong matrix.** A matrix of another size is refused. -/
theorem C33_dimensions (exec : Nat → Exec) (zero inf : W) (strategy : Strategy) (rows cols : Nat)
    (D : Nat → Nat → W) (m : W) (data : List α) (fuel : Nat)
    (h : ¬ (rows = data.length ∧ cols = data.length)) :
    cluster exec zero inf strategy rows cols D m fuel data = some .abort := by
  simp only [cluster, if_neg h]

/-- **C34.** For a symmetric matrix without negative entries, the result is a clustering in the sense of
the specification: with complete link no two data of a cluster are further apart than the threshold;
with single link the data of a cluster are connected by steps of at most the threshold; and the
returned distance, which is above the threshold, is the smallest link distance of two clusters, or
infinity. -/
theorem C34_clustering (exec : Nat → Exec) (hv : ∀ t, Valid (exec t)) (zero inf : W)
    (strategy : Strategy) (D : Nat → Nat → W) (m : W) (hm : m < inf) (data : List α) (fuel : Nat)
    (hfuel : data.length < fuel)
    (hs : ∀ i j, i < data.length → j < data.length → D i j = D j i)
    (hnn : ∀ i j, i < data.length → j < data.length → zero ≤ D i j) :
    ∃ parts out d, cluster exec zero inf strategy data.length data.length D m fuel data =
        some (.ok (out, d)) ∧
      Clustering data.length strategy D m inf parts d ∧ DataOf data parts out := by
  obtain ⟨s', r, h1, h2, h3, h4⟩ := loop_total exec hv zero inf strategy D m hm
    (Inv data.length strategy D m) (inv_step hm hs hnn) fuel
    ⟨List.replicate data.length false, []⟩ (by rw [extract_init_length]; exact hfuel)
    (inv_init _ strategy D m)
  obtain ⟨out, h5, h6⟩ := pickAll_ok data (extract s') (fun p hp i hi => mem_lt h2.part hp hi)
  refine ⟨extract s', out, r.2, ?_, ⟨h2.part, h2.diameter, h2.chain, ?_, h4, ?_⟩, h6⟩
  · simp only [cluster, and_self, if_true, h1, h5]
  · exact closest_le h3 h2.part hs hnn
  · exact closest_attained h3 h2.part hs hnn

/-- **C34, single link.** With single link the parts are exactly the connected components: two data are
in the same part if and only if they are connected by steps of at most the threshold. -/
theorem C34_single_link_components (D : Nat → Nat → W) (m inf d : W) (n : Nat)
    (parts : List (List Nat)) (h : Clustering n .single D m inf parts d) (i j : Nat) :
    (∃ P ∈ parts, i ∈ P ∧ j ∈ P) ↔ Chain D m (List.range n) i j := by
  constructor
  · rintro ⟨P, hP, hiP, hjP⟩
    exact (h.chain rfl P hP i hiP j hjP).mono
      (fun k hk => List.mem_range.2 (mem_lt h.partition hP hk))
  · intro hc
    induction hc with
    | @refl k hk =>
      obtain ⟨P, hP, hkP⟩ := List.mem_flatten.1 (h.partition.1.mem_iff.2 hk)
      exact ⟨P, hP, hkP, hkP⟩
    | @step a b c hb hd ha _ ih =>
      obtain ⟨Q, hQ, hbQ, hcQ⟩ := ih
      obtain ⟨P, hP, haP⟩ := List.mem_flatten.1 (h.partition.1.mem_iff.2 ha)
      by_cases hPQ : P = Q
      · subst hPQ; exact ⟨P, hP, haP, hcQ⟩
      · exfalso
        have htwo : Two parts P Q := by
          obtain ⟨l1, l2, rfl⟩ := List.append_of_mem hP
          have hQ' : Q ∈ l1 ++ l2 := by
            simp only [List.mem_append, List.mem_cons] at hQ ⊢
            rcases hQ with hQ | hQ | hQ
            · exact .inl hQ
            · exact absurd hQ.symm hPQ
            · exact .inr hQ
          obtain ⟨k1, k2, hk⟩ := List.append_of_mem hQ'
          refine ⟨k1 ++ k2, ?_⟩
          refine List.perm_middle.trans (List.Perm.cons P ?_)
          rw [hk]
          exact List.perm_middle
        obtain ⟨e, he⟩ : ∃ e, IsLink .single D P Q e := by
          have hmem : D a b ∈ between D P Q := mem_between.2 ⟨a, haP, b, hbQ, rfl⟩
          obtain ⟨_, h2, h3⟩ := foldl_min_spec (D a b) (between D P Q)
          refine ⟨_, ?_, fun x hx y hy => h2 _ (mem_between.2 ⟨x, hx, y, hy, rfl⟩)⟩
          rcases h3 with h3 | h3
          · rw [h3]; exact ⟨a, haP, b, hbQ, rfl⟩
          · exact mem_between.1 h3
        have h1 := h.separated P Q htwo e he
        have h2 : e ≤ D a b := he.2 a haP b hbQ
        exact absurd (le_trans (le_trans h1 h2) hd) (not_le_of_gt h.above)

/-- **C34, from a distance function.** Called with a distance function that is never negative, the
function clusters with the matrix in which the entry for two data is the distance of the earlier one to
the later one; this matrix is symmetric even if the distance is not. -/
theorem C34_distance_function [Zero W] (exec : Nat → Exec) (hv : ∀ t, Valid (exec t)) (inf : W)
    (strategy : Strategy) (order : List (Nat × Nat)) (distance : α → α → W) (m : W) (hm : m < inf)
    (data : List α) (ho : DistanceMatrix.TriangleOnce data.length order) (fuel : Nat)
    (hfuel : data.length < fuel) (hnn : ∀ x ∈ data, ∀ y ∈ data, 0 ≤ distance x y) :
    ∃ (D : Nat → Nat → W) (parts : List (List Nat)) (out : List (List α)) (d : W),
      (∀ (i j : Nat) x y, data[i]? = some x → data[j]? = some y → i < j →
        D i j = distance x y ∧ D j i = distance x y) ∧
      clusterFn exec inf strategy order distance m fuel data = some (.ok (out, d)) ∧
      Clustering data.length strategy D m inf parts d ∧ DataOf data parts out := by
  obtain ⟨mat, h1, h2, h3, h4, h5⟩ := DistanceMatrix.C28_parallel order data distance ho
  have hD : ∀ (i j : Nat) x y, data[i]? = some x → data[j]? = some y → i < j →
      (mat.get i j).getD 0 = distance x y ∧ (mat.get j i).getD 0 = distance x y := by
    intro i j x y hx hy hij
    obtain ⟨g1, g2⟩ := h5 i j x y hx hy hij
    rw [g1, g2]
    exact ⟨rfl, rfl⟩
  have hs : ∀ i j, i < data.length → j < data.length →
      (mat.get i j).getD 0 = (mat.get j i).getD 0 := by
    intro i j hi hj
    have ei := List.getElem?_eq_getElem hi
    have ej := List.getElem?_eq_getElem hj
    rcases Nat.lt_trichotomy i j with h | h | h
    · obtain ⟨g1, g2⟩ := hD i j _ _ ei ej h
      rw [g1, g2]
    · subst h; rfl
    · obtain ⟨g1, g2⟩ := hD j i _ _ ej ei h
      rw [g1, g2]
  have hn : ∀ i j, i < data.length → j < data.length → 0 ≤ (mat.get i j).getD 0 := by
    intro i j hi hj
    have ei := List.getElem?_eq_getElem hi
    have ej := List.getElem?_eq_getElem hj
    rcases Nat.lt_trichotomy i j with h | h | h
    · rw [(hD i j _ _ ei ej h).1]; exact hnn _ (List.getElem_mem hi) _ (List.getElem_mem hj)
    · subst h
      rw [h4 i hi]
      exact le_refl _
    · rw [(hD j i _ _ ej ei h).2]; exact hnn _ (List.getElem_mem hj) _ (List.getElem_mem hi)
  obtain ⟨parts, out, d, g1, g2, g3⟩ := C34_clustering exec hv 0 inf strategy
    (fun i j => (mat.get i j).getD 0) m hm data fuel hfuel hs hn
  refine ⟨fun i j => (mat.get i j).getD 0, parts, out, d, hD, ?_, g2, g3⟩
  simp only [clusterFn, h1, h2, h3]
  exact g1

/-! ## The hypotheses are met -/

/-- distances of numbers on the line -/
def line (ps : List Nat) (i j : Nat) : Dist :=
  .fin (ps.getD i 0 - ps.getD j 0 + (ps.getD j 0 - ps.getD i 0))

example : cluster (fun _ => .serial) (0 : Dist) Dist.inf .complete 5 5 (line [0, 1, 2, 10, 11]) 1 6
    ["a", "b", "c", "d", "e"] = some (.ok ([["a", "b"], ["d", "e"], ["c"]], 2)) := by decide +kernel

example : cluster (fun _ => .serial) (0 : Dist) Dist.inf .single 5 5 (line [0, 1, 2, 10, 11]) 1 6
    ["a", "b", "c", "d", "e"] = some (.ok ([["a", "b", "c"], ["d", "e"]], 8)) := by decide +kernel

/-- two threads, the second one does the first half of the iterations -/
def halves (n : Nat) : List (List Nat) := [(List.range n).drop (n / 2), (List.range n).take (n / 2)]

example : ∀ t : Nat, Valid ((fun _ => .parallel halves : Nat → Exec) t) := by
  intro _ n
  simp only [halves, List.flatten_cons, List.flatten_nil, List.append_nil]
  exact List.perm_append_comm.trans (by rw [List.take_append_drop])

example : cluster (fun _ => .parallel halves) (0 : Dist) Dist.inf .single 5 5
    (line [0, 1, 2, 10, 11]) 1 6 ["a", "b", "c", "d", "e"] =
    some (.ok ([["c", "b", "a"], ["d", "e"]], 8)) := by decide +kernel

example : cluster (fun _ => .serial) (0 : Dist) Dist.inf .complete 3 3 (line [0, 5, 50]) 100 4
    ["a", "b", "c"] = some (.ok ([["a", "b", "c"]], Dist.inf)) := by decide +kernel

end Verif.Hierarchical
