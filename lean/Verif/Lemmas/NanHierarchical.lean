import Verif.Lemmas.HierarchicalLoop
import Verif.Model.NanHierarchical

/-!
# Lemmas about hierarchical clustering with distances that may not be a number
-/
namespace Verif.NanHierarchical
open Verif Verif.Hierarchical

variable {W : Type} [LinearOrder W]

/-! ## Scans and links -/

theorem scanNumbers_eq {β : Type} (b : β × W) (cs : List (β × Option W)) :
    scanNumbers b cs = scanMin b (cs.filterMap (fun c => c.2.map (fun d => (c.1, d)))) := by
  unfold scanNumbers scanMin
  induction cs generalizing b with
  | nil => rfl
  | cons c cs ih =>
    obtain ⟨x, d⟩ := c
    cases d with
    | none => simpa using ih b
    | some d => simpa using ih _

theorem maxOf_some (a b : W) : maxOf a (some b) = max a b := by
  unfold maxOf
  rcases lt_or_ge a b with h | h
  · simp [h, max_eq_right (le_of_lt h)]
  · simp [not_lt.2 h, max_eq_left h]

theorem minOf_some (a b : W) : minOf a (some b) = min a b := by
  unfold minOf
  rcases lt_or_ge b a with h | h
  · simp [h, min_eq_right (le_of_lt h)]
  · simp [not_lt.2 h, min_eq_left h]

/-- The link distance is the one of the distances that are numbers. -/
theorem linkOf_numbers (zero inf : W) (strategy : Strategy) (l : List (Option W)) :
    linkOf zero inf strategy l = Hierarchical.linkOf zero inf strategy (l.filterMap id) := by
  cases strategy with
  | complete =>
    unfold linkOf Hierarchical.linkOf
    dsimp only
    generalize zero = z
    induction l generalizing z with
    | nil => rfl
    | cons d l ih =>
      cases d with
      | none => simpa [maxOf] using ih z
      | some d => simpa [maxOf_some] using ih (max z d)
  | single =>
    unfold linkOf Hierarchical.linkOf
    dsimp only
    generalize inf = z
    induction l generalizing z with
    | nil => rfl
    | cons d l ih =>
      cases d with
      | none => simpa [minOf] using ih z
      | some d => simpa [minOf_some] using ih (min z d)

/-- With single link, a distance that is not a number is like infinity. -/
theorem linkOf_single (zero inf : W) (l : List (Option W)) :
    linkOf zero inf .single l =
      Hierarchical.linkOf zero inf .single (l.map (fun d => d.getD inf)) := by
  have key : ∀ z : W, z ≤ inf → l.foldl minOf z = (l.map (fun d => d.getD inf)).foldl min z := by
    induction l with
    | nil => intro z _; rfl
    | cons d l ih =>
      intro z hz
      cases d with
      | none =>
        simp only [List.foldl_cons, List.map_cons, Option.getD_none, minOf, min_eq_left hz]
        exact ih z hz
      | some d =>
        simp only [List.foldl_cons, List.map_cons, Option.getD_some, minOf_some]
        exact ih _ (le_trans (min_le_left _ _) hz)
  exact key inf (le_refl _)

theorem scanNumbers_inf {β : Type} (inf : W) (b : β × W) (hb : b.2 ≤ inf)
    (cs : List (β × Option W)) :
    scanNumbers b cs = scanMin b (cs.map (fun c => (c.1, c.2.getD inf))) := by
  unfold scanNumbers scanMin
  induction cs generalizing b with
  | nil => rfl
  | cons c cs ih =>
    obtain ⟨x, d⟩ := c
    cases d with
    | none =>
      simp only [List.foldl_cons, List.map_cons, Option.getD_none, if_neg (not_lt.2 hb)]
      exact ih b hb
    | some d =>
      simp only [List.foldl_cons, List.map_cons, Option.getD_some]
      by_cases h : d < b.2
      · rw [if_pos h]; exact ih _ (le_trans (le_of_lt h) hb)
      · rw [if_neg h]; exact ih _ hb

/-! ## The same as without -/

theorem nearestPoint_inf (inf : W) (D : Nat → Nat → Option W) (mask : List Bool) (i : Nat) :
    nearestPoint inf D mask i = Hierarchical.nearestPoint inf (fun i j => (D i j).getD inf) mask i := by
  unfold nearestPoint Hierarchical.nearestPoint
  rw [scanNumbers_inf inf (-1, inf) (le_refl _), List.map_map]
  rfl

/-- Whatever makes the links agree makes the closest pairs agree. -/
theorem closestPair_congr (exec : Exec) (zero inf : W) (strategy : Strategy)
    (D : Nat → Nat → Option W)
    (h : ∀ l : List (Option W), linkOf zero inf strategy l =
      Hierarchical.linkOf zero inf strategy (l.map (fun d => d.getD inf)))
    (mask : List Bool) (clusters : List (List Nat)) :
    closestPair exec zero inf strategy D mask clusters =
      Hierarchical.closestPair exec zero inf strategy (fun i j => (D i j).getD inf) mask clusters := by
  have hc : ∀ i, nearestCluster zero inf strategy D clusters i =
      Hierarchical.nearestCluster zero inf strategy (fun i j => (D i j).getD inf) clusters i := by
    intro i
    unfold nearestCluster Hierarchical.nearestCluster
    congr 2
    funext c
    rw [h, List.map_map]
    rfl
  have hp : pointCandidates zero inf strategy D mask clusters =
      Hierarchical.pointCandidates zero inf strategy (fun i j => (D i j).getD inf) mask clusters := by
    funext i
    unfold pointCandidates Hierarchical.pointCandidates
    rw [nearestPoint_inf, hc]
  have hcc : clusterCandidates zero inf strategy D clusters =
      Hierarchical.clusterCandidates zero inf strategy (fun i j => (D i j).getD inf) clusters := by
    funext f
    unfold clusterCandidates Hierarchical.clusterCandidates
    congr 2
    funext s
    rw [h, List.map_flatMap]
    simp only [List.map_map]
    rfl
  unfold closestPair Hierarchical.closestPair
  rw [hp, hcc]

theorem loop_congr (exec : Nat → Exec) (zero inf : W) (strategy : Strategy)
    (D : Nat → Nat → Option W) (D' : Nat → Nat → W) (m : W)
    (h : ∀ e mask clusters, closestPair e zero inf strategy D mask clusters =
      Hierarchical.closestPair e zero inf strategy D' mask clusters) (fuel : Nat) (s : State) :
    loop exec zero inf strategy D (some m) fuel s =
      Hierarchical.loop exec zero inf strategy D' m fuel s := by
  induction fuel generalizing s with
  | zero => rfl
  | succ fuel ih =>
    unfold loop Hierarchical.loop
    simp only [within, decide_eq_true_eq, h, ih]
    rfl

theorem cluster_congr {α : Type} (exec : Nat → Exec) (zero inf : W) (strategy : Strategy)
    (D : Nat → Nat → Option W) (D' : Nat → Nat → W) (m : W)
    (h : ∀ e mask clusters, closestPair e zero inf strategy D mask clusters =
      Hierarchical.closestPair e zero inf strategy D' mask clusters) (rows cols fuel : Nat)
    (data : List α) :
    cluster exec zero inf strategy rows cols D (some m) fuel data =
      Hierarchical.cluster exec zero inf strategy rows cols D' m fuel data := by
  unfold cluster Hierarchical.cluster
  rw [loop_congr exec zero inf strategy D D' m h]
  rfl

/-! ## The closest pair -/

/-- the pair that `GetClosestPair` gives when it finds one, with its distance -/
inductive Choice (zero inf : W) (strategy : Strategy) (D : Nat → Nat → Option W) (mask : List Bool)
    (clusters : List (List Nat)) : (Elem × Elem) × W → Prop
  | points (i j : Nat) (d : W) (hi : Free mask i) (hj : Free mask j) (hne : i ≠ j)
      (hd : D i j = some d) :
      Choice zero inf strategy D mask clusters ((⟨false, i⟩, ⟨false, j⟩), d)
  | pointCluster (i c : Nat) (A : List Nat) (hi : Free mask i) (hc : Used clusters c A) :
      Choice zero inf strategy D mask clusters
        ((⟨false, i⟩, ⟨true, c⟩), linkOf zero inf strategy (A.map (D i)))
  | clusters (f s : Nat) (A B : List Nat) (hf : Used clusters f A) (hs : Used clusters s B)
      (hne : f ≠ s) :
      Choice zero inf strategy D mask clusters
        ((⟨true, f⟩, ⟨true, s⟩), linkOf zero inf strategy (between D A B))

/-- what `GetClosestPair` returns -/
structure Closest (zero inf : W) (strategy : Strategy) (D : Nat → Nat → Option W) (mask : List Bool)
    (clusters : List (List Nat)) (r : (Elem × Elem) × W) : Prop where
  points : ∀ i j d, Free mask i → Free mask j → i ≠ j → D i j = some d → r.2 ≤ d
  pointCluster : ∀ i c A, Free mask i → Used clusters c A →
    r.2 ≤ linkOf zero inf strategy (A.map (D i))
  pairs : ∀ f s A B, Used clusters f A → Used clusters s B → f ≠ s →
    r.2 ≤ linkOf zero inf strategy (between D A B)
  le_inf : r.2 ≤ inf
  choice : r.2 < inf → Choice zero inf strategy D mask clusters r
  none : ¬ r.2 < inf → r = noPair inf true

theorem closestPair_closest (exec : Exec) (hv : Valid exec) (zero inf : W) (strategy : Strategy)
    (D : Nat → Nat → Option W) (mask : List Bool) (clusters : List (List Nat)) :
    Closest zero inf strategy D mask clusters
      (closestPair exec zero inf strategy D mask clusters) := by
  have hp := scan_found exec hv inf false (pointCandidates zero inf strategy D mask clusters)
    mask.length
  have hc := scan_found exec hv inf true (clusterCandidates zero inf strategy D clusters)
    clusters.length
  generalize hP : scan exec inf false (pointCandidates zero inf strategy D mask clusters)
    mask.length = P at hp
  generalize hC : scan exec inf true (clusterCandidates zero inf strategy D clusters)
    clusters.length = C at hc
  have hr : closestPair exec zero inf strategy D mask clusters = if P.2 < C.2 then P else C := by
    simp only [closestPair, hP, hC]
  have hle1 : (closestPair exec zero inf strategy D mask clusters).2 ≤ P.2 := by
    rw [hr]; split
    · exact le_refl _
    · next h => exact le_of_not_gt h
  have hle2 : (closestPair exec zero inf strategy D mask clusters).2 ≤ C.2 := by
    rw [hr]; split
    · next h => exact le_of_lt h
    · exact le_refl _
  constructor
  · intro i j d hi hj hne hd
    have h1 := hp.le i hi.lt ((⟨false, i⟩, ⟨false, (nearestPoint inf D mask i).1⟩),
      (nearestPoint inf D mask i).2) (by
        unfold pointCandidates
        rw [if_pos (show mask[i]? = some false from hi)]
        exact List.mem_cons_self)
    have h2 : (nearestPoint inf D mask i).2 ≤ d := by
      unfold nearestPoint
      rw [scanNumbers_eq]
      refine scanMin_le (-1, inf) _ ((j : Int), d) (List.mem_filterMap.2 ⟨((j : Int), D i j), ?_, ?_⟩)
      · refine List.mem_map.2 ⟨j, ?_, rfl⟩
        simp only [List.mem_filter, List.mem_range]
        exact ⟨hj.lt, decide_eq_true ⟨hne, hj⟩⟩
      · simp [hd]
    exact le_trans hle1 (le_trans h1 h2)
  · intro i c A hi hu
    have h1 := hp.le i hi.lt ((⟨false, i⟩, ⟨true, (nearestCluster zero inf strategy D clusters i).1⟩),
      (nearestCluster zero inf strategy D clusters i).2) (by
        unfold pointCandidates
        rw [if_pos (show mask[i]? = some false from hi)]
        exact List.mem_cons_of_mem _ List.mem_cons_self)
    have h2 : (nearestCluster zero inf strategy D clusters i).2 ≤
        linkOf zero inf strategy (A.map (D i)) := by
      have := scanMin_le (-1, inf) (((List.range clusters.length).filter
          (fun c => (clusters.getD c []).length > 0)).map
        (fun c : Nat => ((c : Int), linkOf zero inf strategy ((clusters.getD c []).map (D i)))))
        ((c : Int), linkOf zero inf strategy ((clusters.getD c []).map (D i)))
        (List.mem_map.2 ⟨c, by
          simp only [List.mem_filter, List.mem_range]
          refine ⟨hu.lt, decide_eq_true ?_⟩
          rw [hu.getD]
          exact List.length_pos_iff.2 hu.2, rfl⟩)
      rw [hu.getD] at this
      exact this
    exact le_trans hle1 (le_trans h1 h2)
  · intro f s A B hf hs hne
    have h1 := hc.le f hf.lt ((⟨true, f⟩, ⟨true, s⟩), linkOf zero inf strategy
        ((clusters.getD f []).flatMap (fun a => (clusters.getD s []).map (D a)))) (by
      unfold clusterCandidates
      rw [if_pos (by rw [hf.getD]; exact List.length_pos_iff.2 hf.2)]
      refine List.mem_map.2 ⟨s, ?_, rfl⟩
      simp only [List.mem_filter, List.mem_range]
      refine ⟨hs.lt, decide_eq_true ⟨hne, ?_⟩⟩
      rw [hs.getD]
      exact List.length_pos_iff.2 hs.2)
    rw [hf.getD, hs.getD] at h1
    exact le_trans hle2 h1
  · exact le_trans hle1 hp.le_inf
  · intro hlt
    rw [hr] at hlt ⊢
    split
    · next hPC =>
      rw [if_pos hPC] at hlt
      obtain ⟨i, hi, hm⟩ := hp.mem hlt
      unfold pointCandidates at hm
      split at hm
      · next hfree =>
        simp only [List.mem_cons, List.not_mem_nil, or_false] at hm
        rcases hm with rfl | rfl
        · have hlt' : (nearestPoint inf D mask i).2 < inf := hlt
          have heq : nearestPoint inf D mask i ∈ ((((List.range mask.length).filter
              (fun j => i ≠ j ∧ mask[j]? = some false)).map
              (fun j : Nat => ((j : Int), D i j))).filterMap
              (fun c => c.2.map (fun d => (c.1, d)))) := by
            unfold nearestPoint at hlt' ⊢
            rw [scanNumbers_eq] at hlt' ⊢
            exact scanMin_mem (-1, inf) _ hlt'
          obtain ⟨c, hc', hcd⟩ := List.mem_filterMap.1 heq
          obtain ⟨j, hj, rfl⟩ := List.mem_map.1 hc'
          simp only [List.mem_filter, List.mem_range, decide_eq_true_eq] at hj
          obtain ⟨d, hd, hde⟩ := Option.map_eq_some_iff.1 hcd
          rw [← hde]
          exact .points i j d hfree hj.2.2 hj.2.1 hd
        · have := scanMin_mem (-1, inf) _ hlt
          obtain ⟨c, hc', heq⟩ := List.mem_map.1 this
          simp only [List.mem_filter, List.mem_range, decide_eq_true_eq] at hc'
          have heq' : nearestCluster zero inf strategy D clusters i =
            ((c : Int), linkOf zero inf strategy ((clusters.getD c []).map (D i))) := heq.symm
          rw [heq']
          exact .pointCluster i c _ hfree (used_iff.1 hc')
      · cases hm
    · next hPC =>
      rw [if_neg hPC] at hlt
      obtain ⟨f, hf, hm⟩ := hc.mem hlt
      unfold clusterCandidates at hm
      split at hm
      · next hfpos =>
        obtain ⟨s, hs, heq⟩ := List.mem_map.1 hm
        simp only [List.mem_filter, List.mem_range, decide_eq_true_eq] at hs
        rw [← heq]
        exact .clusters f s _ _ (used_iff.1 ⟨hf, hfpos⟩) (used_iff.1 ⟨hs.1, hs.2.2⟩) hs.2.1
      · cases hm
  · intro hnot
    rw [hr] at hnot ⊢
    split
    · next hPC =>
      rw [if_pos hPC] at hnot
      exact absurd (lt_of_lt_of_le hPC hc.le_inf) hnot
    · next hPC =>
      rw [if_neg hPC] at hnot
      exact hc.none hnot

/-! ## The loop -/

/-- What is known about the distance of the two parts that are merged: with complete link it is at least
every distance between them that is a number. -/
def Bounds (strategy : Strategy) (D : Nat → Nat → Option W) (A B : List Nat) (d : W) : Prop :=
  strategy = .complete → (∀ a ∈ A, ∀ b ∈ B, ∀ e, D a b = some e → e ≤ d) ∨
    (∀ a ∈ A, ∀ b ∈ B, ∀ e, D b a = some e → e ≤ d)

theorem link_upper {zero inf : W} {l : List (Option W)} {e : W} (h : some e ∈ l) :
    e ≤ linkOf zero inf .complete l := by
  rw [linkOf_numbers]
  exact (foldl_max_spec zero (l.filterMap id)).2.1 e (List.mem_filterMap.2 ⟨some e, h, rfl⟩)

theorem link_least {zero inf : W} {l : List (Option W)} {e : W} (h0 : zero ≤ e)
    (h : ∀ x, some x ∈ l → x ≤ e) : linkOf zero inf .complete l ≤ e := by
  rw [linkOf_numbers]
  rcases (foldl_max_spec zero (l.filterMap id)).2.2 with h1 | h1
  · show List.foldl max zero _ ≤ e
    rw [h1]; exact h0
  · obtain ⟨y, hy, hy'⟩ := List.mem_filterMap.1 h1
    have hy'' : y = some (List.foldl max zero (l.filterMap id)) := hy'
    rw [hy''] at hy
    exact h _ hy

theorem step_merged {zero inf : W} {strategy : Strategy} {D : Nat → Nat → Option W} {s : State}
    {r : (Elem × Elem) × W} (h : Choice zero inf strategy D s.mask s.clusters r) :
    ∃ s' A B, mergePair s r.1.1 r.1.2 = .ok s' ∧ Merged s s' A B ∧ Bounds strategy D A B r.2 := by
  cases h with
  | points i j d hi hj hne hd =>
    obtain ⟨s', h1, h2⟩ := merge_points s i j hi hj hne
    refine ⟨s', [i], [j], h1, h2, fun _ => .inl ?_⟩
    intro a ha b hb e he
    simp only [List.mem_singleton] at ha hb
    subst ha; subst hb
    rw [hd] at he
    cases he
    exact le_refl _
  | pointCluster i c A hi hc =>
    obtain ⟨s', h1, h2⟩ := merge_pointCluster s i c A hi hc
    refine ⟨s', A, [i], h1, h2, fun hst => .inr ?_⟩
    subst hst
    intro a ha b hb e he
    simp only [List.mem_singleton] at hb
    subst hb
    exact link_upper (inf := inf) (List.mem_map.2 ⟨a, ha, he⟩)
  | clusters f t A B hf ht hne =>
    obtain ⟨s', h1, h2⟩ := merge_clusters s f t A B hf ht hne
    refine ⟨s', A, B, h1, h2, fun hst => .inl ?_⟩
    subst hst
    intro a ha b hb e he
    exact link_upper (inf := inf) (mem_between.2 ⟨a, ha, b, hb, he⟩)

theorem loop_total (exec : Nat → Exec) (hv : ∀ t, Valid (exec t)) (zero inf : W) (strategy : Strategy)
    (D : Nat → Nat → Option W) (m : W) (hm : m < inf) (P : State → Prop)
    (hP : ∀ s s' A B d, P s → Merged s s' A B → Bounds strategy D A B d → d ≤ m → P s')
    (fuel : Nat) (s : State) (hfuel : (extract s).length < fuel) (hs : P s) :
    ∃ s' r, loop exec zero inf strategy D (some m) fuel s = some (.ok (s', r.2)) ∧ P s' ∧
      Closest zero inf strategy D s'.mask s'.clusters r ∧ m < r.2 := by
  induction fuel generalizing s with
  | zero => omega
  | succ fuel ih =>
    have hc := closestPair_closest (exec fuel) (hv fuel) zero inf strategy D s.mask s.clusters
    simp only [loop, within, decide_eq_true_eq]
    by_cases hle : (closestPair (exec fuel) zero inf strategy D s.mask s.clusters).2 ≤ m
    · rw [if_pos hle]
      obtain ⟨s', A, B, h1, h2, h3⟩ := step_merged (hc.choice (lt_of_le_of_lt hle hm))
      simp only [h1]
      have := h2.length_lt
      exact ih s' (by omega) (hP s s' A B _ hs h2 h3 hle)
    · rw [if_neg hle]
      exact ⟨s, _, rfl, hs, hc, lt_of_not_ge hle⟩

theorem loop_abort (exec : Nat → Exec) (hv : ∀ t, Valid (exec t)) (zero inf : W) (strategy : Strategy)
    (D : Nat → Nat → Option W) (m : W) (hm : inf ≤ m)
    (fuel : Nat) (s : State) (hfuel : (extract s).length < fuel) :
    loop exec zero inf strategy D (some m) fuel s = some .abort := by
  induction fuel generalizing s with
  | zero => omega
  | succ fuel ih =>
    have hc := closestPair_closest (exec fuel) (hv fuel) zero inf strategy D s.mask s.clusters
    simp only [loop, within, decide_eq_true_eq]
    rw [if_pos (le_trans hc.le_inf hm)]
    by_cases hlt : (closestPair (exec fuel) zero inf strategy D s.mask s.clusters).2 < inf
    · obtain ⟨s', A, B, h1, h2, h3⟩ := step_merged (hc.choice hlt)
      simp only [h1]
      have := h2.length_lt
      exact ih s' (by omega)
    · rw [hc.none hlt]
      rfl

/-- the invariant of the loop with complete link -/
structure Inv (n : Nat) (D : Nat → Nat → Option W) (m : W) (s : State) : Prop where
  part : Partition n (extract s)
  diameter : ∀ P ∈ extract s, ∀ a ∈ P, ∀ b ∈ P, a ≠ b → ∀ e, D a b = some e → e ≤ m

theorem inv_step {n : Nat} {D : Nat → Nat → Option W} {m : W}
    (hs : ∀ i j, i < n → j < n → D i j = D j i)
    (s s' : State) (A B : List Nat) (d : W) (hi : Inv n D m s) (hmg : Merged s s' A B)
    (hb : Bounds .complete D A B d) (hd : d ≤ m) : Inv n D m s' := by
  obtain ⟨rest, hr, hr'⟩ := hmg.perm
  have hp := hi.part
  have hmA : A ∈ extract s := hr.mem_iff.2 List.mem_cons_self
  have hmB : B ∈ extract s := hr.mem_iff.2 (List.mem_cons_of_mem _ List.mem_cons_self)
  have hsAB : ∀ a ∈ A, ∀ b ∈ B, D a b = D b a :=
    fun a ha b hb => hs a b (mem_lt hp hmA ha) (mem_lt hp hmB hb)
  have hab : ∀ a ∈ A, ∀ b ∈ B, ∀ e, D a b = some e → e ≤ m := by
    intro a ha b hb' e he
    rcases hb rfl with h | h
    · exact le_trans (h a ha b hb' e he) hd
    · exact le_trans (h a ha b hb' e (by rw [← hsAB a ha b hb']; exact he)) hd
  have hrest : ∀ P ∈ rest, P ∈ extract s :=
    fun P hP => hr.mem_iff.2 (List.mem_cons_of_mem _ (List.mem_cons_of_mem _ hP))
  refine ⟨merged_partition hmg hp, ?_⟩
  intro P hP a ha b hb hne e he
  rcases List.mem_cons.1 (hr'.mem_iff.1 hP) with rfl | hP
  · rcases List.mem_append.1 ha with ha | ha <;> rcases List.mem_append.1 hb with hb | hb
    · exact hi.diameter A hmA a ha b hb hne e he
    · exact hab a ha b hb e he
    · exact hab b hb a ha e (by rw [hsAB b hb a ha]; exact he)
    · exact hi.diameter B hmB a ha b hb hne e he
  · exact hi.diameter P (hrest P hP) a ha b hb hne e he

theorem inv_init (n : Nat) (D : Nat → Nat → Option W) (m : W) :
    Inv n D m ⟨List.replicate n false, []⟩ := by
  refine ⟨partition_init n, ?_⟩
  intro P hP a ha b hb hab
  rw [extract_init] at hP
  obtain ⟨i, _, rfl⟩ := List.mem_map.1 hP
  simp at ha hb
  exact absurd (ha.trans hb.symm) hab

end Verif.NanHierarchical
