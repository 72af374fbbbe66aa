import Verif.Spec.Hierarchical

/-!
# Lemmas about hierarchical clustering
-/
namespace Verif.Hierarchical
open Verif

variable {W : Type} [LinearOrder W]

/-! ## Scans -/

theorem scanMin_cons {β : Type} (b c : β × W) (cs : List (β × W)) :
    scanMin b (c :: cs) = scanMin (if c.2 < b.2 then c else b) cs := rfl

theorem scanMin_spec {β : Type} (b : β × W) (cs : List (β × W)) :
    (scanMin b cs = b ∧ ∀ c ∈ cs, b.2 ≤ c.2) ∨
    (scanMin b cs ∈ cs ∧ (scanMin b cs).2 < b.2 ∧ ∀ c ∈ cs, (scanMin b cs).2 ≤ c.2) := by
  induction cs generalizing b with
  | nil => exact .inl ⟨rfl, by simp⟩
  | cons c cs ih =>
    rw [scanMin_cons]
    by_cases hlt : c.2 < b.2
    · rw [if_pos hlt]
      right
      rcases ih c with ⟨h1, h2⟩ | ⟨h1, h2, h3⟩
      · rw [h1]
        refine ⟨List.mem_cons_self, hlt, ?_⟩
        intro x hx
        rcases List.mem_cons.1 hx with rfl | hx
        · exact le_refl _
        · exact h2 x hx
      · refine ⟨List.mem_cons_of_mem _ h1, lt_trans h2 hlt, ?_⟩
        intro x hx
        rcases List.mem_cons.1 hx with rfl | hx
        · exact le_of_lt h2
        · exact h3 x hx
    · rw [if_neg hlt]
      rcases ih b with ⟨h1, h2⟩ | ⟨h1, h2, h3⟩
      · refine .inl ⟨h1, ?_⟩
        intro x hx
        rcases List.mem_cons.1 hx with rfl | hx
        · exact le_of_not_gt hlt
        · exact h2 x hx
      · refine .inr ⟨List.mem_cons_of_mem _ h1, h2, ?_⟩
        intro x hx
        rcases List.mem_cons.1 hx with rfl | hx
        · exact le_of_lt (lt_of_lt_of_le h2 (le_of_not_gt hlt))
        · exact h3 x hx

theorem scanMin_le {β : Type} (b : β × W) (cs : List (β × W)) (c : β × W) (hc : c ∈ cs) :
    (scanMin b cs).2 ≤ c.2 := by
  rcases scanMin_spec b cs with ⟨h1, h2⟩ | ⟨_, _, h3⟩
  · rw [h1]; exact h2 c hc
  · exact h3 c hc

theorem scanMin_le_init {β : Type} (b : β × W) (cs : List (β × W)) : (scanMin b cs).2 ≤ b.2 := by
  rcases scanMin_spec b cs with ⟨h1, h2⟩ | ⟨_, h2, _⟩
  · rw [h1]
  · exact le_of_lt h2

theorem scanMin_mem {β : Type} (b : β × W) (cs : List (β × W)) (h : (scanMin b cs).2 < b.2) :
    scanMin b cs ∈ cs := by
  rcases scanMin_spec b cs with ⟨h1, _⟩ | ⟨h1, _, _⟩
  · rw [h1] at h; exact absurd h (lt_irrefl _)
  · exact h1

theorem scanMin_init {β : Type} (b : β × W) (cs : List (β × W)) (h : ¬ (scanMin b cs).2 < b.2) :
    scanMin b cs = b := by
  rcases scanMin_spec b cs with ⟨h1, _⟩ | ⟨_, h1, _⟩
  · exact h1
  · exact absurd h1 h

/-- What one of the two loops finds, however it is executed. -/
structure Found (inf : W) (isCluster : Bool) (candidates : Nat → List ((Elem × Elem) × W)) (n : Nat)
    (r : (Elem × Elem) × W) : Prop where
  le : ∀ i, i < n → ∀ c ∈ candidates i, r.2 ≤ c.2
  le_inf : r.2 ≤ inf
  mem : r.2 < inf → ∃ i, i < n ∧ r ∈ candidates i
  none : ¬ r.2 < inf → r = noPair inf isCluster

theorem scan_found (exec : Exec) (hv : Valid exec) (inf : W) (isCluster : Bool)
    (candidates : Nat → List ((Elem × Elem) × W)) (n : Nat) :
    Found inf isCluster candidates n (scan exec inf isCluster candidates n) := by
  cases exec with
  | serial =>
    simp only [scan, scanSerial]
    constructor
    · intro i hi c hc
      exact scanMin_le _ _ c (List.mem_flatMap.2 ⟨i, List.mem_range.2 hi, hc⟩)
    · exact scanMin_le_init (noPair inf isCluster) _
    · intro h
      obtain ⟨i, hi, hm⟩ := List.mem_flatMap.1 (scanMin_mem (noPair inf isCluster) _ h)
      exact ⟨i, List.mem_range.1 hi, hm⟩
    · intro h
      exact scanMin_init (noPair inf isCluster) _ h
  | parallel schedule =>
    have hperm : (schedule n).flatten.Perm (List.range n) := hv n
    simp only [scan, scanParallel]
    constructor
    · intro i hi c hc
      have : i ∈ (schedule n).flatten := hperm.mem_iff.2 (List.mem_range.2 hi)
      obtain ⟨is, his, hi'⟩ := List.mem_flatten.1 this
      exact le_trans (scanMin_le _ _ _ (List.mem_map.2 ⟨is, his, rfl⟩))
        (scanMin_le _ _ c (List.mem_flatMap.2 ⟨i, hi', hc⟩))
    · exact scanMin_le_init (noPair inf isCluster) _
    · intro h
      have hm := scanMin_mem (noPair inf isCluster) _ h
      obtain ⟨is, his, heq⟩ := List.mem_map.1 hm
      rw [← heq] at h ⊢
      obtain ⟨i, hi, hm'⟩ := List.mem_flatMap.1 (scanMin_mem (noPair inf isCluster) _ h)
      exact ⟨i, List.mem_range.1 (hperm.mem_iff.1 (List.mem_flatten.2 ⟨is, his, hi⟩)), hm'⟩
    · intro h
      exact scanMin_init (noPair inf isCluster) _ h

/-! ## The closest pair -/

/-- an unclustered point -/
def Free (mask : List Bool) (i : Nat) : Prop := mask[i]? = some false

/-- a cluster that is in use -/
def Used (clusters : List (List Nat)) (c : Nat) (A : List Nat) : Prop :=
  clusters[c]? = some A ∧ A ≠ []

/-- the distances between two lists of positions -/
def between (D : Nat → Nat → W) (A B : List Nat) : List W := A.flatMap (fun a => B.map (D a))

/-- the pair that `GetClosestPair` gives when it finds one, with its distance -/
inductive Choice (zero inf : W) (strategy : Strategy) (D : Nat → Nat → W) (mask : List Bool)
    (clusters : List (List Nat)) : (Elem × Elem) × W → Prop
  | points (i j : Nat) (hi : Free mask i) (hj : Free mask j) (hne : i ≠ j) :
      Choice zero inf strategy D mask clusters ((⟨false, i⟩, ⟨false, j⟩), D i j)
  | pointCluster (i c : Nat) (A : List Nat) (hi : Free mask i) (hc : Used clusters c A) :
      Choice zero inf strategy D mask clusters
        ((⟨false, i⟩, ⟨true, c⟩), linkOf zero inf strategy (A.map (D i)))
  | clusters (f s : Nat) (A B : List Nat) (hf : Used clusters f A) (hs : Used clusters s B)
      (hne : f ≠ s) :
      Choice zero inf strategy D mask clusters
        ((⟨true, f⟩, ⟨true, s⟩), linkOf zero inf strategy (between D A B))

theorem used_iff {clusters : List (List Nat)} {c : Nat} :
    (c < clusters.length ∧ (clusters.getD c []).length > 0) ↔ Used clusters c (clusters.getD c []) := by
  constructor
  · rintro ⟨h1, h2⟩
    refine ⟨?_, List.length_pos_iff.1 h2⟩
    rw [List.getD_eq_getElem?_getD, List.getElem?_eq_getElem h1]
    rfl
  · rintro ⟨h1, h2⟩
    exact ⟨(List.getElem?_eq_some_iff.1 h1).1, List.length_pos_iff.2 h2⟩

theorem Used.getD {clusters : List (List Nat)} {c : Nat} {A : List Nat} (h : Used clusters c A) :
    clusters.getD c [] = A := by
  rw [List.getD_eq_getElem?_getD, h.1]; rfl

theorem Free.lt {mask : List Bool} {i : Nat} (h : Free mask i) : i < mask.length :=
  (List.getElem?_eq_some_iff.1 h).1

theorem Used.lt {clusters : List (List Nat)} {c : Nat} {A : List Nat} (h : Used clusters c A) :
    c < clusters.length := (List.getElem?_eq_some_iff.1 h.1).1

/-- what `GetClosestPair` returns -/
structure Closest (zero inf : W) (strategy : Strategy) (D : Nat → Nat → W) (mask : List Bool)
    (clusters : List (List Nat)) (r : (Elem × Elem) × W) : Prop where
  points : ∀ i j, Free mask i → Free mask j → i ≠ j → r.2 ≤ D i j
  pointCluster : ∀ i c A, Free mask i → Used clusters c A →
    r.2 ≤ linkOf zero inf strategy (A.map (D i))
  pairs : ∀ f s A B, Used clusters f A → Used clusters s B → f ≠ s →
    r.2 ≤ linkOf zero inf strategy (between D A B)
  le_inf : r.2 ≤ inf
  choice : r.2 < inf → Choice zero inf strategy D mask clusters r
  none : ¬ r.2 < inf → r = noPair inf true

theorem closestPair_closest (exec : Exec) (hv : Valid exec) (zero inf : W) (strategy : Strategy)
    (D : Nat → Nat → W) (mask : List Bool) (clusters : List (List Nat)) :
    Closest zero inf strategy D mask clusters
      (closestPair exec zero inf strategy D mask clusters) := by
  have hp := scan_found exec hv inf false (pointCandidates zero inf strategy D mask clusters)
    mask.length
  have hc := scan_found exec hv inf true (clusterCandidates zero inf strategy D clusters)
    clusters.length
  generalize hP : scan exec inf false (pointCandidates zero inf strategy D mask clusters)
    mask.length = P at hp
  generalize hC : scan exec inf true (clusterCandidates zero inf strategy D clusters)
    clusters.length = C at hc
  have hr : closestPair exec zero inf strategy D mask clusters = if P.2 < C.2 then P else C := by
    simp only [closestPair, hP, hC]
  have hle1 : (closestPair exec zero inf strategy D mask clusters).2 ≤ P.2 := by
    rw [hr]; split
    · exact le_refl _
    · next h => exact le_of_not_gt h
  have hle2 : (closestPair exec zero inf strategy D mask clusters).2 ≤ C.2 := by
    rw [hr]; split
    · next h => exact le_of_lt h
    · exact le_refl _
  constructor
  · intro i j hi hj hne
    have h1 := hp.le i hi.lt ((⟨false, i⟩, ⟨false, (nearestPoint inf D mask i).1⟩),
      (nearestPoint inf D mask i).2) (by
        unfold pointCandidates
        rw [if_pos (show mask[i]? = some false from hi)]
        exact List.mem_cons_self)
    have h2 : (nearestPoint inf D mask i).2 ≤ D i j :=
      scanMin_le (-1, inf) _ ((j : Int), D i j) (List.mem_map.2 ⟨j, by
        simp only [List.mem_filter, List.mem_range]
        exact ⟨hj.lt, decide_eq_true ⟨hne, hj⟩⟩, rfl⟩)
    exact le_trans hle1 (le_trans h1 h2)
  · intro i c A hi hu
    have h1 := hp.le i hi.lt ((⟨false, i⟩, ⟨true, (nearestCluster zero inf strategy D clusters i).1⟩),
      (nearestCluster zero inf strategy D clusters i).2) (by
        unfold pointCandidates
        rw [if_pos (show mask[i]? = some false from hi)]
        exact List.mem_cons_of_mem _ List.mem_cons_self)
    have h2 : (nearestCluster zero inf strategy D clusters i).2 ≤
        linkOf zero inf strategy (A.map (D i)) := by
      have := scanMin_le (-1, inf) (((List.range clusters.length).filter
          (fun c => (clusters.getD c []).length > 0)).map
        (fun c : Nat => ((c : Int), linkOf zero inf strategy ((clusters.getD c []).map (D i)))))
        ((c : Int), linkOf zero inf strategy ((clusters.getD c []).map (D i)))
        (List.mem_map.2 ⟨c, by
          simp only [List.mem_filter, List.mem_range]
          refine ⟨hu.lt, decide_eq_true ?_⟩
          rw [hu.getD]
          exact List.length_pos_iff.2 hu.2, rfl⟩)
      rw [hu.getD] at this
      exact this
    exact le_trans hle1 (le_trans h1 h2)
  · intro f s A B hf hs hne
    have h1 := hc.le f hf.lt ((⟨true, f⟩, ⟨true, s⟩), linkOf zero inf strategy
        ((clusters.getD f []).flatMap (fun a => (clusters.getD s []).map (D a)))) (by
      unfold clusterCandidates
      rw [if_pos (by rw [hf.getD]; exact List.length_pos_iff.2 hf.2)]
      refine List.mem_map.2 ⟨s, ?_, rfl⟩
      simp only [List.mem_filter, List.mem_range]
      refine ⟨hs.lt, decide_eq_true ⟨hne, ?_⟩⟩
      rw [hs.getD]
      exact List.length_pos_iff.2 hs.2)
    rw [hf.getD, hs.getD] at h1
    exact le_trans hle2 h1
  · exact le_trans hle1 hp.le_inf
  · intro hlt
    rw [hr] at hlt ⊢
    split
    · next hPC =>
      rw [if_pos hPC] at hlt
      obtain ⟨i, hi, hm⟩ := hp.mem hlt
      unfold pointCandidates at hm
      split at hm
      · next hfree =>
        simp only [List.mem_cons, List.not_mem_nil, or_false] at hm
        rcases hm with rfl | rfl
        · have := scanMin_mem (-1, inf) _ hlt
          obtain ⟨j, hj, heq⟩ := List.mem_map.1 this
          simp only [List.mem_filter, List.mem_range, decide_eq_true_eq] at hj
          have heq' : nearestPoint inf D mask i = ((j : Int), D i j) := heq.symm
          rw [heq']
          exact .points i j hfree hj.2.2 hj.2.1
        · have := scanMin_mem (-1, inf) _ hlt
          obtain ⟨c, hc', heq⟩ := List.mem_map.1 this
          simp only [List.mem_filter, List.mem_range, decide_eq_true_eq] at hc'
          have heq' : nearestCluster zero inf strategy D clusters i =
            ((c : Int), linkOf zero inf strategy ((clusters.getD c []).map (D i))) := heq.symm
          rw [heq']
          exact .pointCluster i c _ hfree (used_iff.1 hc')
      · cases hm
    · next hPC =>
      rw [if_neg hPC] at hlt
      obtain ⟨f, hf, hm⟩ := hc.mem hlt
      unfold clusterCandidates at hm
      split at hm
      · next hfpos =>
        obtain ⟨s, hs, heq⟩ := List.mem_map.1 hm
        simp only [List.mem_filter, List.mem_range, decide_eq_true_eq] at hs
        rw [← heq]
        exact .clusters f s _ _ (used_iff.1 ⟨hf, hfpos⟩) (used_iff.1 ⟨hs.1, hs.2.2⟩) hs.2.1
      · cases hm
  · intro hnot
    rw [hr] at hnot ⊢
    split
    · next hPC =>
      rw [if_pos hPC] at hnot
      exact absurd (lt_of_lt_of_le hPC hc.le_inf) hnot
    · next hPC =>
      rw [if_neg hPC] at hnot
      exact hc.none hnot

/-! ## Merging -/

theorem perm_set_one {α : Type} (l : List α) (a : Nat) (A : α) (h : l[a]? = some A) :
    ∃ r, l.Perm (A :: r) ∧ ∀ X, (l.set a X).Perm (X :: r) := by
  induction l generalizing a with
  | nil => simp at h
  | cons x xs ih =>
    cases a with
    | zero =>
      simp at h; subst h
      exact ⟨xs, .refl _, fun X => .refl _⟩
    | succ a =>
      obtain ⟨r, h1, h2⟩ := ih a (by simpa using h)
      exact ⟨x :: r, (h1.cons x).trans (List.Perm.swap _ _ _),
        fun X => ((h2 X).cons x).trans (List.Perm.swap _ _ _)⟩

theorem perm_set_two {α : Type} (l : List α) (a b : Nat) (A B : α) (ha : l[a]? = some A)
    (hb : l[b]? = some B) (hne : a ≠ b) :
    ∃ r, l.Perm (A :: B :: r) ∧ ∀ X Y, ((l.set a X).set b Y).Perm (X :: Y :: r) := by
  induction l generalizing a b with
  | nil => simp at ha
  | cons x xs ih =>
    cases a with
    | zero =>
      cases b with
      | zero => exact absurd rfl hne
      | succ b =>
        simp at ha; subst ha
        obtain ⟨r, h1, h2⟩ := perm_set_one xs b B (by simpa using hb)
        exact ⟨r, h1.cons _, fun X Y => by simpa using h2 Y⟩
    | succ a =>
      cases b with
      | zero =>
        simp at hb; subst hb
        obtain ⟨r, h1, h2⟩ := perm_set_one xs a A (by simpa using ha)
        exact ⟨r, (h1.cons _).trans (List.Perm.swap _ _ _),
          fun X Y => ((h2 X).cons Y).trans (List.Perm.swap _ _ _)⟩
      | succ b =>
        obtain ⟨r, h1, h2⟩ := ih a b (by simpa using ha) (by simpa using hb) (by omega)
        refine ⟨x :: r, ?_, fun X Y => ?_⟩
        · exact (h1.cons x).trans ((List.Perm.swap _ _ _).trans ((List.Perm.swap _ _ _).cons A))
        · exact ((h2 X Y).cons x).trans ((List.Perm.swap _ _ _).trans ((List.Perm.swap _ _ _).cons X))

/-- the unclustered points -/
def free (mask : List Bool) : List Nat :=
  (List.range mask.length).filter (fun i => mask[i]? = some false)

theorem mem_free {mask : List Bool} {i : Nat} : i ∈ free mask ↔ Free mask i := by
  simp only [free, List.mem_filter, List.mem_range, decide_eq_true_eq]
  exact ⟨fun h => h.2, fun h => ⟨Free.lt h, h⟩⟩

theorem free_nodup (mask : List Bool) : (free mask).Nodup := List.nodup_range.filter _

theorem free_set {mask : List Bool} {i : Nat} (h : Free mask i) :
    (free mask).Perm (i :: free (mask.set i true)) := by
  have hself : ¬ Free (mask.set i true) i := by
    intro hf
    unfold Free at hf
    rw [List.getElem?_set_self h.lt] at hf
    cases hf
  refine (List.perm_ext_iff_of_nodup (free_nodup mask) (List.nodup_cons.2
    ⟨fun hm => hself (mem_free.1 hm), free_nodup _⟩)).2 ?_
  intro j
  rw [List.mem_cons, mem_free, mem_free]
  by_cases hij : j = i
  · subst hij
    exact ⟨fun _ => .inl rfl, fun _ => h⟩
  · unfold Free
    rw [List.getElem?_set_ne (fun h => hij h.symm)]
    exact ⟨.inr, fun h => h.resolve_left hij⟩

theorem extract_eq (s : State) :
    extract s = s.clusters.filter (fun c => c.length > 0) ++ (free s.mask).map (fun i => [i]) := rfl

/-- The step of the loop, seen on the list of parts: two parts are replaced by their union. -/
structure Merged (s s' : State) (A B : List Nat) : Prop where
  perm : ∃ rest, (extract s).Perm (A :: B :: rest) ∧ (extract s').Perm ((A ++ B) :: rest)
  length : s'.mask.length = s.mask.length

theorem merge_points (s : State) (i j : Nat) (hi : Free s.mask i) (hj : Free s.mask j) (hne : i ≠ j) :
    ∃ s', mergePair s ⟨false, i⟩ ⟨false, j⟩ = .ok s' ∧ Merged s s' [i] [j] := by
  have hj' : Free (s.mask.set i true) j := by
    unfold Free
    rw [List.getElem?_set_ne hne]
    exact hj
  refine ⟨⟨(s.mask.set i true).set j true, s.clusters ++ [[i, j]]⟩, ?_, ?_, by simp⟩
  · simp only [mergePair]
    rw [if_pos ⟨trivial, trivial⟩, Out.assert_true (by simp), Out.bind_ok,
      Out.assert_true (by simp), Out.bind_ok, Int.toNat_natCast, Int.toNat_natCast,
      if_pos ⟨hi.lt, hj.lt⟩]
  · refine ⟨s.clusters.filter (fun c => c.length > 0) ++
      (free ((s.mask.set i true).set j true)).map (fun i => [i]), ?_, ?_⟩
    · rw [extract_eq]
      have h := ((free_set hi).trans ((free_set hj').cons i)).map (fun i => [i])
      refine (List.Perm.append_left _ h).trans ?_
      simp only [List.map_cons]
      exact List.perm_middle.trans (List.perm_middle.cons _)
    · rw [extract_eq]
      simp only [List.filter_append]
      have : List.filter (fun c : List Nat => decide (c.length > 0)) [[i, j]] = [[i, j]] := by simp
      rw [this, List.append_assoc]
      exact List.perm_middle

theorem filter_pos {l : List (List Nat)} {A : List Nat} (r : List (List Nat)) (h : l.Perm (A :: r))
    (hA : A ≠ []) :
    (l.filter (fun c => c.length > 0)).Perm (A :: r.filter (fun c => c.length > 0)) := by
  have := h.filter (fun c => decide (c.length > 0))
  rwa [List.filter_cons_of_pos (by simpa using List.length_pos_iff.2 hA)] at this

theorem merge_pointCluster (s : State) (i c : Nat) (A : List Nat) (hi : Free s.mask i)
    (hc : Used s.clusters c A) :
    ∃ s', mergePair s ⟨false, i⟩ ⟨true, c⟩ = .ok s' ∧ Merged s s' A [i] := by
  refine ⟨⟨s.mask.set i true, s.clusters.set c (A ++ [i])⟩, ?_, ?_, by simp⟩
  · simp only [mergePair]
    rw [if_neg (by simp), if_neg (by simp)]
    simp only [Bool.false_eq_true, if_false]
    rw [Out.assert_true (by simp), Out.bind_ok,
      Out.assert_true (by simp), Out.bind_ok, Int.toNat_natCast, Int.toNat_natCast]
    simp only [hc.1, if_pos hi.lt]
  · obtain ⟨r, h1, h2⟩ := perm_set_one s.clusters c A hc.1
    refine ⟨r.filter (fun c => c.length > 0) ++ (free (s.mask.set i true)).map (fun i => [i]), ?_, ?_⟩
    · rw [extract_eq]
      have h3 := filter_pos r h1 hc.2
      have h4 := (free_set hi).map (fun i => [i])
      refine (h3.append h4).trans ?_
      simp only [List.map_cons, List.cons_append]
      exact List.perm_middle.cons _
    · rw [extract_eq]
      have h3 := filter_pos r (h2 (A ++ [i])) (by simp)
      exact h3.append_right _

theorem merge_clusters (s : State) (f t : Nat) (A B : List Nat) (hf : Used s.clusters f A)
    (ht : Used s.clusters t B) (hne : f ≠ t) :
    ∃ s', mergePair s ⟨true, f⟩ ⟨true, t⟩ = .ok s' ∧ Merged s s' A B := by
  refine ⟨⟨s.mask, (s.clusters.set f (A ++ B)).set t []⟩, ?_, ?_, rfl⟩
  · simp only [mergePair]
    rw [if_neg (by simp), if_pos ⟨trivial, trivial⟩, Out.assert_true (by simp), Out.bind_ok,
      Out.assert_true (by simp), Out.bind_ok, Int.toNat_natCast, Int.toNat_natCast]
    simp only [hf.1, ht.1]
  · obtain ⟨r, h1, h2⟩ := perm_set_two s.clusters f t A B hf.1 ht.1 hne
    refine ⟨r.filter (fun c => c.length > 0) ++ (free s.mask).map (fun i => [i]), ?_, ?_⟩
    · rw [extract_eq]
      have h3 := filter_pos _ h1 hf.2
      rw [List.filter_cons_of_pos (by simpa using List.length_pos_iff.2 ht.2)] at h3
      exact h3.append_right _
    · rw [extract_eq]
      have h3 := filter_pos _ (h2 (A ++ B) []) (by simp [hf.2])
      rw [List.filter_cons_of_neg (by simp)] at h3
      exact h3.append_right _

end Verif.Hierarchical
