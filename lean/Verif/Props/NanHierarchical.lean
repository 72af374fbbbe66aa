import Verif.Base.Cost
import Verif.Lemmas.NanHierarchical
import Verif.Props.Hierarchical

/-!
# C194: hierarchical clustering with distances that are not a number
-/
namespace Verif.NanHierarchical
open Verif Verif.Hierarchical

variable {α W : Type} [LinearOrder W]

/-- **C194.** Whatever entries of the matrix are not a number, and for every finite threshold, both
strategies, and serial as well as parallel execution, clustering returns after at most as many rounds as
there are data, plus one. Each datum is in exactly one of the returned clusters, and none is empty. -/
theorem C194_partition (exec : Nat → Exec) (hv : ∀ t, Valid (exec t)) (zero inf : W)
    (strategy : Strategy) (D : Nat → Nat → Option W) (m : W) (hm : m < inf) (data : List α) (fuel : Nat)
    (hfuel : data.length < fuel) :
    ∃ parts out d, cluster exec zero inf strategy data.length data.length D (some m) fuel data =
        some (.ok (out, d)) ∧
      Partition data.length parts ∧ DataOf data parts out := by
  obtain ⟨s', r, h1, h2, _, _⟩ := loop_total exec hv zero inf strategy D m hm
    (fun s => Partition data.length (extract s))
    (fun s s' A B d hp hmg _ _ => merged_partition hmg hp) fuel
    ⟨List.replicate data.length false, []⟩ (by rw [extract_init_length]; exact hfuel)
    (partition_init _)
  obtain ⟨out, h3, h4⟩ := pickAll_ok data (extract s') (fun p hp i hi => mem_lt h2 hp hi)
  refine ⟨extract s', out, r.2, ?_, h2, h4⟩
  simp only [cluster, and_self, if_true, h1, h3]

/-- **C194, single link.** With single link the call does the same as with a matrix in which the entries
that are not a number are replaced by infinity. -/
theorem C194_single_link (exec : Nat → Exec) (zero inf : W) (D : Nat → Nat → Option W) (m : W)
    (rows cols fuel : Nat) (data : List α) :
    cluster exec zero inf .single rows cols D (some m) fuel data =
      Hierarchical.cluster exec zero inf .single rows cols (fun i j => (D i j).getD inf) m fuel data :=
  cluster_congr exec zero inf .single D _ m
    (fun e mask clusters => closestPair_congr e zero inf .single D (linkOf_single zero inf) mask clusters)
    rows cols fuel data

/-- **C194, only numbers.** For a matrix of numbers the call does what is claimed of it without NaN. -/
theorem C194_numbers (exec : Nat → Exec) (zero inf : W) (strategy : Strategy) (D : Nat → Nat → W) (m : W)
    (rows cols fuel : Nat) (data : List α) :
    cluster exec zero inf strategy rows cols (fun i j => some (D i j)) (some m) fuel data =
      Hierarchical.cluster exec zero inf strategy rows cols D m fuel data := by
  refine cluster_congr exec zero inf strategy _ D m (fun e mask clusters => ?_) rows cols fuel data
  have hl : ∀ l : List W, linkOf zero inf strategy (l.map some) =
      Hierarchical.linkOf zero inf strategy l := by
    intro l
    rw [linkOf_numbers, List.filterMap_map]
    exact congrArg _ (List.filterMap_some)
  have hc : ∀ i, nearestCluster zero inf strategy (fun i j => some (D i j)) clusters i =
      Hierarchical.nearestCluster zero inf strategy D clusters i := by
    intro i
    unfold nearestCluster Hierarchical.nearestCluster
    congr 2
    funext c
    rw [← hl, List.map_map]
    rfl
  have hp : pointCandidates zero inf strategy (fun i j => some (D i j)) mask clusters =
      Hierarchical.pointCandidates zero inf strategy D mask clusters := by
    funext i
    unfold pointCandidates Hierarchical.pointCandidates
    rw [nearestPoint_inf, hc]
    rfl
  have hcc : clusterCandidates zero inf strategy (fun i j => some (D i j)) clusters =
      Hierarchical.clusterCandidates zero inf strategy D clusters := by
    funext f
    unfold clusterCandidates Hierarchical.clusterCandidates
    congr 2
    funext s
    rw [← hl, List.map_flatMap]
    simp only [List.map_map]
    rfl
  unfold closestPair Hierarchical.closestPair
  rw [hp, hcc]

/-- **C194, complete link.** For a symmetric matrix, two data of a returned cluster are at most the
threshold apart if their distance is a number. The returned distance is above the threshold. It is at most
the distance of any two clusters of one datum each, if that is a number and not negative. It is at most the largest number
among the distances of any two clusters one of which has several data, and at most zero if none of these
distances is a number. -/
theorem C194_complete_link (exec : Nat → Exec) (hv : ∀ t, Valid (exec t)) (zero inf : W)
    (D : Nat → Nat → Option W) (m : W) (hm : m < inf) (data : List α) (fuel : Nat)
    (hfuel : data.length < fuel)
    (hs : ∀ i j, i < data.length → j < data.length → D i j = D j i) :
    ∃ parts out d, cluster exec zero inf .complete data.length data.length D (some m) fuel data =
        some (.ok (out, d)) ∧
      Partition data.length parts ∧ DataOf data parts out ∧
      (∀ P ∈ parts, ∀ a ∈ P, ∀ b ∈ P, a ≠ b → ∀ e, D a b = some e → e ≤ m) ∧ m < d ∧
      (∀ i j e, Two parts [i] [j] → D i j = some e → zero ≤ e → d ≤ e) ∧
      (∀ A B e, Two parts A B → 2 ≤ A.length ∨ 2 ≤ B.length → zero ≤ e →
        (∀ a ∈ A, ∀ b ∈ B, ∀ x, D a b = some x → x ≤ e) → d ≤ e) := by
  obtain ⟨s', r, h1, h2, hc, h4⟩ := loop_total exec hv zero inf .complete D m hm
    (Inv data.length D m) (inv_step hs) fuel
    ⟨List.replicate data.length false, []⟩ (by rw [extract_init_length]; exact hfuel)
    (inv_init _ D m)
  have hp := h2.part
  obtain ⟨out, h5, h6⟩ := pickAll_ok data (extract s') (fun p hp i hi => mem_lt h2.part hp hi)
  refine ⟨extract s', out, r.2, ?_, hp, h6, h2.diameter, h4, ?_, ?_⟩
  · simp only [cluster, and_self, if_true, h1, h5]
  · intro i j e htwo he h0
    have hne := two_ne hp htwo
    have hij : i ≠ j := fun h => hne (by rw [h])
    have hsym : D j i = some e := by
      obtain ⟨rest, hr⟩ := htwo
      rw [← hs i j (mem_lt hp (hr.mem_iff.2 List.mem_cons_self) List.mem_cons_self)
        (mem_lt hp (hr.mem_iff.2 (List.mem_cons_of_mem _ List.mem_cons_self)) List.mem_cons_self)]
      exact he
    obtain ⟨rest, hr⟩ := htwo
    rcases mem_extract (hr.mem_iff.2 List.mem_cons_self) with ⟨c, hcA⟩ | ⟨i', hi', hi⟩
    · rcases mem_extract (hr.mem_iff.2 (List.mem_cons_of_mem _ List.mem_cons_self)) with
        ⟨c', hcB⟩ | ⟨j', hj', hj⟩
      · have hcc : c ≠ c' := by
          rintro rfl
          exact hne (Option.some.inj (hcA.1.symm.trans hcB.1))
        refine le_trans (hc.pairs c c' _ _ hcA hcB hcc) (link_least h0 ?_)
        intro x hx
        obtain ⟨a, ha, b, hb, hab⟩ := mem_between.1 hx
        simp only [List.mem_singleton] at ha hb
        subst ha; subst hb
        rw [he] at hab; cases hab; exact le_refl _
      · cases hj'
        refine le_trans (hc.pointCluster j c _ hj hcA) (link_least h0 ?_)
        intro x hx
        simp only [List.map_cons, List.map_nil, List.mem_singleton] at hx
        rw [hsym] at hx; cases hx; exact le_refl _
    · cases hi'
      rcases mem_extract (hr.mem_iff.2 (List.mem_cons_of_mem _ List.mem_cons_self)) with
        ⟨c', hcB⟩ | ⟨j', hj', hj⟩
      · refine le_trans (hc.pointCluster i c' _ hi hcB) (link_least h0 ?_)
        intro x hx
        simp only [List.map_cons, List.map_nil, List.mem_singleton] at hx
        rw [he] at hx; cases hx; exact le_refl _
      · cases hj'
        exact hc.points i j e hi hj hij he
  · intro A B e htwo hlen h0 hAB
    have hne := two_ne hp htwo
    obtain ⟨rest, hr⟩ := htwo
    have hmA : A ∈ extract s' := hr.mem_iff.2 List.mem_cons_self
    have hmB : B ∈ extract s' := hr.mem_iff.2 (List.mem_cons_of_mem _ List.mem_cons_self)
    rcases mem_extract hmA with ⟨c, hcA⟩ | ⟨i, rfl, hi⟩
    · rcases mem_extract hmB with ⟨c', hcB⟩ | ⟨j, rfl, hj⟩
      · have hcc : c ≠ c' := by
          rintro rfl
          exact hne (Option.some.inj (hcA.1.symm.trans hcB.1))
        refine le_trans (hc.pairs c c' _ _ hcA hcB hcc) (link_least h0 ?_)
        intro x hx
        obtain ⟨a, ha, b, hb, hab⟩ := mem_between.1 hx
        exact hAB a ha b hb x hab
      · refine le_trans (hc.pointCluster j c _ hj hcA) (link_least h0 ?_)
        intro x hx
        obtain ⟨a, ha, hab⟩ := List.mem_map.1 hx
        refine hAB a ha j List.mem_cons_self x ?_
        rw [hs a j (mem_lt hp hmA ha) (mem_lt hp hmB List.mem_cons_self)]
        exact hab
    · rcases mem_extract hmB with ⟨c', hcB⟩ | ⟨j, rfl, hj⟩
      · refine le_trans (hc.pointCluster i c' _ hi hcB) (link_least h0 ?_)
        intro x hx
        obtain ⟨b, hb, hab⟩ := List.mem_map.1 hx
        exact hAB i List.mem_cons_self b hb x hab
      · simp at hlen

/-- **C194, complete link, zero.** With complete link and a threshold that is not negative, distances that
are not a number keep no cluster of several data apart from another cluster: between two returned clusters,
one of which has several data, there is a distance that is a number above the threshold. -/
theorem C194_kept_apart (exec : Nat → Exec) (hv : ∀ t, Valid (exec t)) (zero inf : W)
    (D : Nat → Nat → Option W) (m : W) (hm : m < inf) (h0 : zero ≤ m) (data : List α) (fuel : Nat)
    (hfuel : data.length < fuel)
    (hs : ∀ i j, i < data.length → j < data.length → D i j = D j i) :
    ∃ parts out d, cluster exec zero inf .complete data.length data.length D (some m) fuel data =
        some (.ok (out, d)) ∧
      Partition data.length parts ∧ DataOf data parts out ∧
      ∀ A B, Two parts A B → 2 ≤ A.length ∨ 2 ≤ B.length →
        ∃ a ∈ A, ∃ b ∈ B, ∃ x, D a b = some x ∧ m < x := by
  obtain ⟨parts, out, d, h1, h2, h3, _, h5, _, h7⟩ :=
    C194_complete_link exec hv zero inf D m hm data fuel hfuel hs
  refine ⟨parts, out, d, h1, h2, h3, ?_⟩
  intro A B htwo hlen
  by_contra hno
  refine absurd (h7 A B m htwo hlen h0 ?_) (not_le.2 h5)
  intro a ha b hb x hx
  by_contra hlt
  exact hno ⟨a, ha, b, hb, x, hx, not_le.1 hlt⟩

/-- **C194, threshold.** With a threshold that is not a number, every datum is a cluster of its own, in the
order of the data, and the returned distance is the smallest number among the distances of two data, or
infinity. -/
theorem C194_threshold (exec : Nat → Exec) (hv : ∀ t, Valid (exec t)) (zero inf : W)
    (strategy : Strategy) (D : Nat → Nat → Option W) (data : List α) (fuel : Nat) (hfuel : 0 < fuel) :
    ∃ d, cluster exec zero inf strategy data.length data.length D none fuel data =
        some (.ok (data.map (fun x => [x]), d)) ∧ d ≤ inf ∧
      (∀ i j e, i < data.length → j < data.length → i ≠ j → D i j = some e → d ≤ e) ∧
      (d < inf → ∃ i j, i < data.length ∧ j < data.length ∧ i ≠ j ∧ D i j = some d) := by
  obtain ⟨fuel, rfl⟩ := Nat.exists_eq_succ_of_ne_zero (Nat.pos_iff_ne_zero.1 hfuel)
  have hc := closestPair_closest (exec fuel) (hv fuel) zero inf strategy D
    (List.replicate data.length false) []
  have hfree : ∀ i, Free (List.replicate data.length false) i ↔ i < data.length := by
    intro i
    unfold Free
    rw [List.getElem?_replicate]
    split
    · next h => exact iff_of_true rfl h
    · next h => exact iff_of_false (by simp) h
  refine ⟨(closestPair (exec fuel) zero inf strategy D (List.replicate data.length false) []).2,
    ?_, hc.le_inf, ?_, ?_⟩
  · obtain ⟨out, h3, h4⟩ := pickAll_ok data (extract ⟨List.replicate data.length false, []⟩)
      (fun p hp i hi => mem_lt (partition_init data.length) hp hi)
    have hout : out = data.map (fun x => [x]) := by
      have h5 : out.map (·.map some) = (data.map (fun x => [x])).map (·.map some) := by
        rw [h4, extract_init, List.map_map, List.map_map]
        refine List.ext_getElem (by simp) ?_
        intro i hi _
        simp at hi
        simp [hi]
      have hinj : Function.Injective (fun l : List α => l.map some) :=
        fun a b h => List.map_injective_iff.2 (fun a b h => Option.some.inj h) h
      exact List.map_injective_iff.2 hinj h5
    subst hout
    simp only [cluster, and_self, if_true, loop, within, Bool.false_eq_true, if_false, h3]
  · intro i j e hi hj hne he
    exact hc.points i j e ((hfree i).2 hi) ((hfree j).2 hj) hne he
  · intro hlt
    have hch := hc.choice hlt
    generalize closestPair (exec fuel) zero inf strategy D (List.replicate data.length false) [] = r at hch
    cases hch with
    | points i j d hi hj hne hd => exact ⟨i, j, (hfree i).1 hi, (hfree j).1 hj, hne, hd⟩
    | pointCluster i c A hi hu => exact absurd hu.1 (by simp)
    | clusters f s A B hf hs hne => exact absurd hf.1 (by simp)

/-- **C194, infinite threshold.** With a threshold of infinity the call ends in a failed assertion. -/
theorem C194_infinite_threshold (exec : Nat → Exec) (hv : ∀ t, Valid (exec t)) (zero inf : W)
    (strategy : Strategy) (D : Nat → Nat → Option W) (m : W) (hm : inf ≤ m) (data : List α) (fuel : Nat)
    (hfuel : data.length < fuel) :
    cluster exec zero inf strategy data.length data.length D (some m) fuel data = some .abort := by
  simp only [cluster, and_self, if_true]
  rw [loop_abort exec hv zero inf strategy D m hm fuel _ (by rw [extract_init_length]; exact hfuel)]

/-- **C194, wrong matrix.** A matrix of another size is refused. -/
theorem C194_dimensions (exec : Nat → Exec) (zero inf : W) (strategy : Strategy) (rows cols : Nat)
    (D : Nat → Nat → Option W) (m : Option W) (data : List α) (fuel : Nat)
    (h : ¬ (rows = data.length ∧ cols = data.length)) :
    cluster exec zero inf strategy rows cols D m fuel data = some .abort := by
  simp only [cluster, if_neg h]

/-! ## Concrete cases -/

/-- A symmetric matrix of three data; the distance of the first two is not a number. -/
def triangle (i j : Nat) : Option Dist :=
  if i = j then some 0 else if i + j = 1 then none else some (.fin 1)

/-- **C194, complete link, far apart.** Two data whose distance is not a number get into the same cluster
with complete link, if each is close to a third one. -/
theorem C194_same_cluster : cluster (fun _ => .serial) (0 : Dist) Dist.inf .complete 3 3 triangle
    (some (.fin 1)) 4 ["a", "b", "c"] = some (.ok ([["a", "c", "b"]], Dist.inf)) := by decide +kernel

example : ∀ i j : Nat, i < 3 → j < 3 → triangle i j = triangle j i := by
  intro i j _ _
  unfold triangle
  rw [Nat.add_comm i j]
  simp only [eq_comm]

/-- Two data alone stay apart if their distance is not a number. -/
example : cluster (fun _ => .serial) (0 : Dist) Dist.inf .complete 2 2 triangle
    (some (.fin 1)) 4 ["a", "b"] = some (.ok ([["a"], ["b"]], Dist.inf)) := by decide +kernel

example : cluster (fun _ => .parallel halves) (0 : Dist) Dist.inf .single 3 3 triangle
    (some (.fin 1)) 4 ["a", "b", "c"] = some (.ok ([["b", "c", "a"]], Dist.inf)) := by decide +kernel

example : cluster (fun _ => .serial) (0 : Dist) Dist.inf .single 3 3 triangle
    none 4 ["a", "b", "c"] = some (.ok ([["a"], ["b"], ["c"]], .fin 1)) := by decide +kernel

end Verif.NanHierarchical
