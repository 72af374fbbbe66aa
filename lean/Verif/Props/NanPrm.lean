import Verif.Lemmas.NanPrm
import Verif.Props.Prm
import Mathlib.Order.WithBot
import Mathlib.Data.List.Perm.Subperm

/-!
# Properties of building and updating roadmaps with distances that may not be a number: C196
-/
namespace Verif.NanPrm
open Verif Verif.Graph Verif.NotANumber
open Verif.Prm (Direction Threads Setup queryDistance graphDistance_eq allNeighborDistances)

variable {ν W : Type} [Cost W]

theorem add_duplicate {S : Setup ν (Option W)} {threads : Threads} {dir : Direction} {state : ν}
    {g : Graph ν (Option W)} {R : List (Int × Option W)} {i : Int}
    (h : nearestNeighbors S threads dir g state = .ok R) (hd : duplicateOf S R = some i) :
    addNodeToRoadmap S threads dir state g = (.ok i, g) := by
  simp [addNodeToRoadmap, M.bind_apply, h, hd]

theorem add_insert {S : Setup ν (Option W)} {threads : Threads} {dir : Direction} {state : ν}
    {g : Graph ν (Option W)} {R : List (Int × Option W)}
    (h : nearestNeighbors S threads dir g state = .ok R) (hd : duplicateOf S R = none) :
    addNodeToRoadmap S threads dir state g = insertNode S dir state R g := by
  simp [addNodeToRoadmap, M.bind_apply, h, hd]

/-- **C196, few nodes.** If the roadmap has no more than `K` nodes, the state counts as a duplicate of the first
node at distance zero; otherwise one node is added, and joined to exactly those nodes that the edge check accepts
and whose distances are numbers that are not negative. A distance that is not a number leaves two nodes unjoined. -/
theorem C196_few (S : Setup ν (Option W)) (threads : Threads) (ht : threads.Ok) (dir : Direction) (state : ν)
    (g : Graph ν (Option W)) (hd : S.symmetric = true ∨ dir = .roadmapToNewState) (hK : S.K ≠ 0)
    (hg : g.length ≤ S.K) :
    (S.addDuplicates = false → ∀ i n, NodeAt g i n → queryDistance S dir state n.value = some 0 →
      (∀ j m, NodeAt g j m → j < i → queryDistance S dir state m.value ≠ some 0) →
      addNodeToRoadmap S threads dir state g = (.ok i, g)) ∧
    ((S.addDuplicates = false → ∀ n ∈ g, queryDistance S dir state n.value ≠ some 0) →
      ∃ es g', addNodeToRoadmap S threads dir state g = (.ok (g.length : Int), g') ∧
        Inserted state es g g' ∧ (es.map (·.1)).Nodup ∧
        ∀ j there back, (j, there, back) ∈ es ↔
          ∃ n, NodeAt g j n ∧ Joined S dir state n.value there back) := by
  have hR : ∃ R, nearestNeighbors S threads dir g state = .ok R ∧ R.length = g.length ∧
      ∀ (i : Nat) n, g[i]? = some n → R[i]? = some ((i : Int), queryDistance S dir state n.value) := by
    unfold nearestNeighbors
    rw [graphDistance_eq]
    cases h : threads g.length with
    | none =>
      obtain ⟨R, h1, _, h3, h4⟩ := NanKnn.C181_few [List.range g.length] g state
        (fun n q => queryDistance S dir q n.value) S.K (by unfold Knn.Schedule; simp) hK hg
      exact ⟨R, h1, h3, h4⟩
    | some s =>
      obtain ⟨R, _, h2, h3, h4⟩ := NanKnn.C181_few s g state
        (fun n q => queryDistance S dir q n.value) S.K (ht _ s h) hK hg
      exact ⟨R, h2, h3, h4⟩
  obtain ⟨R, h1, h2, h3⟩ := hR
  have hget : ∀ (i : Nat) e, R[i]? = some e → ∃ n, g[i]? = some n ∧ e = ((i : Int), queryDistance S dir state n.value) := by
    intro i e he
    have hlt := (List.getElem?_eq_some_iff.1 he).1
    rw [h2] at hlt
    have hn : g[i]? = some g[i] := List.getElem?_eq_getElem hlt
    have := h3 i _ hn
    rw [he] at this
    exact ⟨_, hn, Option.some.inj this⟩
  have hmem : ∀ j, j ∈ R.map (·.1) ↔ ∃ n, NodeAt g j n := by
    intro j
    rw [List.mem_map]
    constructor
    · rintro ⟨e, he, rfl⟩
      obtain ⟨i, hi⟩ := List.getElem?_of_mem he
      obtain ⟨n, hn, rfl⟩ := hget i e hi
      exact ⟨n, (nodeAt_nat g i n).2 hn⟩
    · rintro ⟨n, hn⟩
      refine ⟨_, List.mem_of_getElem? (h3 j.toNat n hn.2), Int.toNat_of_nonneg hn.1⟩
  have hnd : (R.map (·.1)).Nodup := by
    have : R.map (·.1) = (List.range g.length).map (fun i : Nat => (i : Int)) := by
      apply List.ext_getElem?
      intro i
      rw [List.getElem?_map, List.getElem?_map]
      by_cases hi : i < g.length
      · rw [h3 i _ (List.getElem?_eq_getElem hi)]
        simp [hi]
      · rw [List.getElem?_eq_none (by omega), List.getElem?_eq_none (by simp; omega)]
        rfl
    rw [this]
    exact (List.nodup_range).map (fun a b h => Int.ofNat.inj h)
  constructor
  · intro ha i n hn h0 hfirst
    refine add_duplicate h1 ?_
    unfold duplicateOf
    rw [if_pos ha]
    rcases findDuplicate_spec R with ⟨_, h5⟩ | ⟨L, e, L', h5, h6, h7, h8⟩
    · exact absurd h0 (h5 _ (List.mem_of_getElem? (h3 i.toNat n hn.2)))
    · rw [h8]
      have he : R[L.length]? = some e := by rw [h5]; simp
      obtain ⟨m, hm, hme⟩ := hget _ _ he
      have hq : queryDistance S dir state m.value = some 0 := by rw [hme] at h7; exact h7
      congr 1
      rw [hme]
      show (L.length : Int) = i
      have hle : ¬ (L.length : Int) < i := fun hlt => hfirst _ m ((nodeAt_nat g _ m).2 hm) hlt hq
      have hge : ¬ i < (L.length : Int) := by
        intro hlt
        have hi := hn.1
        have hil : i.toNat < L.length := by omega
        have hx : R[i.toNat]? = L[i.toNat]? := by rw [h5, List.getElem?_append_left hil]
        rw [h3 _ n hn.2] at hx
        exact h6 _ (List.mem_of_getElem? hx.symm) h0
      omega
  · intro hno
    have hdup : duplicateOf S R = none := by
      unfold duplicateOf
      split
      · next ha =>
        rcases findDuplicate_spec R with ⟨h5, _⟩ | ⟨L, e, L', h5, _, h7, _⟩
        · exact h5
        · have he : R[L.length]? = some e := by rw [h5]; simp
          obtain ⟨m, hm, rfl⟩ := hget _ _ he
          exact absurd h7 (hno ha m (List.mem_of_getElem? hm))
      · rfl
    rw [add_insert h1 hdup]
    obtain ⟨es, g', k1, k2, k3, k4⟩ := insertNode_ok S dir state R g hd (by
      intro e he
      obtain ⟨i, hi⟩ := List.getElem?_of_mem he
      obtain ⟨n, hn, rfl⟩ := hget i e hi
      exact ⟨n, (nodeAt_nat g i n).2 hn, rfl⟩) hnd
    refine ⟨es, g', k1, k2, k3, ?_⟩
    intro j there back
    rw [k4, hmem]
    constructor
    · rintro ⟨_, h⟩; exact h
    · rintro ⟨n, hn, h⟩; exact ⟨⟨n, hn⟩, n, hn, h⟩

/-- The answer of the query on a large roadmap, serial or parallel: unset entries occur only in the serial one, if
fewer than `K` distances are numbers below infinity. -/
theorem nearest_many (S : Setup ν (Option W)) (threads : Threads) (ht : threads.Ok) (dir : Direction) (state : ν)
    (g : Graph ν (Option W)) (hg : S.K < g.length) :
    ∃ R, nearestNeighbors S threads dir g state = .ok R ∧
      NearestNumbers g state (fun n q => queryDistance S dir q n.value) S.K
        (R.filter fun e => decide (e.1 ≠ -1)) ∧
      (∀ e ∈ R, e.1 = -1 → e = (-1, some Cost.inf)) ∧
      ((∃ e ∈ R, e.1 = -1) ↔ threads g.length = none ∧
        g.countP (fun n => usable (queryDistance S dir state n.value)) < S.K) := by
  unfold nearestNeighbors
  rw [graphDistance_eq]
  cases h : threads g.length with
  | none =>
    obtain ⟨R, h1, h2, h3, h4⟩ := NanKnn.C181_serial g state (fun n q => queryDistance S dir q n.value) S.K hg
    refine ⟨R, h1, h3, h4, ?_⟩
    have hl := h3.length
    constructor
    · rintro ⟨e, he, he1⟩
      refine ⟨rfl, ?_⟩
      have : (R.filter fun e => decide (e.1 ≠ -1)).length < R.length := by
        have h := List.length_filter_lt_length_iff_exists (p := fun e => decide (e.1 ≠ -1)) (l := R)
        exact h.2 ⟨e, he, by simp [he1]⟩
      rw [hl, h2] at this
      omega
    · rintro ⟨_, hlt⟩
      by_contra hno
      have : (R.filter fun e => decide (e.1 ≠ -1)) = R := by
        rw [List.filter_eq_self]
        intro e he
        simpa using fun h => hno ⟨e, he, h⟩
      rw [this, h2] at hl
      omega
  | some s =>
    obtain ⟨R, h1, h2⟩ := NanKnn.C181_parallel s g state (fun n q => queryDistance S dir q n.value) S.K
      (ht _ s h) hg
    have hne : ∀ e ∈ R, e.1 ≠ -1 := by
      intro e he
      obtain ⟨i, n, d, _, _, _, rfl⟩ := h2.distances e he
      show (i : Int) ≠ -1
      omega
    have hfil : (R.filter fun e => decide (e.1 ≠ -1)) = R := by
      rw [List.filter_eq_self]
      intro e he
      simpa using hne e he
    refine ⟨R, h1, by rw [hfil]; exact h2, fun e he h => absurd h (hne e he), ?_⟩
    constructor
    · rintro ⟨e, he, h⟩; exact absurd h (hne e he)
    · rintro ⟨h, _⟩; cases h

theorem nearest_nodes {S : Setup ν (Option W)} {dir : Direction} {state : ν} {g : Graph ν (Option W)} {K : Nat}
    {R : List (Int × Option W)}
    (h : NearestNumbers g state (fun n q => queryDistance S dir q n.value) K R) :
    ∀ e ∈ R, ∃ n, NodeAt g e.1 n ∧ e.2 = queryDistance S dir state n.value := by
  intro e he
  obtain ⟨i, n, d, h1, h2, _, rfl⟩ := h.distances e he
  exact ⟨n, (nodeAt_nat g i n).2 h1, h2.symm⟩

/-- **C196, many nodes.** If the roadmap has more than `K` nodes, and either the query is parallel or at least `K`
distances are numbers below infinity: the neighbours are the nearest nodes among those whose distance is a number
below infinity. If one of them is at distance zero and duplicates are not wanted, its index is returned and nothing
changes; otherwise one node is added and joined to exactly those neighbours that the edge check accepts and whose
distances, in both directions, are numbers that are not negative. -/
theorem C196_many (S : Setup ν (Option W)) (threads : Threads) (ht : threads.Ok) (dir : Direction) (state : ν)
    (g : Graph ν (Option W)) (hd : S.symmetric = true ∨ dir = .roadmapToNewState) (hg : S.K < g.length)
    (hp : threads g.length ≠ none ∨ S.K ≤ g.countP (fun n => usable (queryDistance S dir state n.value))) :
    ∃ R, NearestNumbers g state (fun n q => queryDistance S dir q n.value) S.K R ∧
      ((S.addDuplicates = false ∧ ∃ e ∈ R, e.2 = some 0 ∧
          addNodeToRoadmap S threads dir state g = (.ok e.1, g)) ∨
       ((S.addDuplicates = false → ∀ e ∈ R, e.2 ≠ some 0) ∧
        ∃ es g', addNodeToRoadmap S threads dir state g = (.ok (g.length : Int), g') ∧
          Inserted state es g g' ∧ (es.map (·.1)).Nodup ∧
          ∀ j there back, (j, there, back) ∈ es ↔
            j ∈ R.map (·.1) ∧ ∃ n, NodeAt g j n ∧ Joined S dir state n.value there back)) := by
  obtain ⟨R, h1, h2, h3, h4⟩ := nearest_many S threads ht dir state g hg
  have hne : ∀ e ∈ R, e.1 ≠ -1 := by
    intro e he h
    obtain ⟨h5, h6⟩ := h4.1 ⟨e, he, h⟩
    rcases hp with hp | hp
    · exact hp h5
    · omega
  have hfil : (R.filter fun e => decide (e.1 ≠ -1)) = R := by
    rw [List.filter_eq_self]
    intro e he
    simpa using hne e he
  rw [hfil] at h2
  refine ⟨R, h2, ?_⟩
  obtain ⟨es, g', k1, k2, k3, k4⟩ := insertNode_ok S dir state R g hd (nearest_nodes h2) h2.distinct
  by_cases ha : S.addDuplicates = false
  · rcases findDuplicate_spec R with ⟨h6, h7⟩ | ⟨L, e, L', h5, _, h7, h8⟩
    · right
      refine ⟨fun _ => h7, es, g', ?_, k2, k3, k4⟩
      rw [add_insert h1 (by unfold duplicateOf; rw [if_pos ha, h6]), k1]
    · left
      refine ⟨ha, e, by rw [h5]; simp, h7, ?_⟩
      exact add_duplicate h1 (by unfold duplicateOf; rw [if_pos ha, h8])
  · right
    refine ⟨fun h => absurd h ha, es, g', ?_, k2, k3, k4⟩
    rw [add_insert h1 (by unfold duplicateOf; rw [if_neg ha]), k1]

/-- If fewer than `K` distances are numbers below infinity, all those nodes are among the neighbours. -/
theorem all_usable {S : Setup ν (Option W)} {dir : Direction} {state : ν} {g : Graph ν (Option W)} {K : Nat}
    {R : List (Int × Option W)}
    (h : NearestNumbers g state (fun n q => queryDistance S dir q n.value) K R)
    (hK : g.countP (fun n => usable (queryDistance S dir state n.value)) < K) {i : Nat} {n : Node ν (Option W)}
    (hi : g[i]? = some n) {d : W} (hd : queryDistance S dir state n.value = some d) (hf : d < Cost.inf) :
    ((i : Int), some d) ∈ R := by
  have hlen : R.length = g.countP (fun n => usable (queryDistance S dir state n.value)) := by
    rw [h.length]; omega
  let U : List Int := ((List.range g.length).filter fun i =>
    (g[i]?).any fun n => usable (queryDistance S dir state n.value)).map (fun i : Nat => (i : Int))
  have hU : U.length = g.countP (fun n => usable (queryDistance S dir state n.value)) := by
    show (List.map _ _).length = _
    rw [List.length_map, Knn.length_filter_range (fun n : Node ν (Option W) => usable (queryDistance S dir state n.value))]
  have hsub : R.map (·.1) ⊆ U := by
    intro j hj
    obtain ⟨e, he, rfl⟩ := List.mem_map.1 hj
    obtain ⟨k, m, d', h1, h2, h3, rfl⟩ := h.distances e he
    refine List.mem_map.2 ⟨k, List.mem_filter.2 ⟨List.mem_range.2 (List.getElem?_eq_some_iff.1 h1).1, ?_⟩, rfl⟩
    rw [h1, Option.any_some]
    have h2' : queryDistance S dir state m.value = some d' := h2
    rw [h2']
    simpa [usable] using h3
  have hperm : (R.map (·.1)).Perm U :=
    (List.Nodup.subperm h.distinct hsub).perm_of_length_le (by rw [hU, List.length_map, hlen])
  have hin : (i : Int) ∈ U := by
    refine List.mem_map.2 ⟨i, List.mem_filter.2 ⟨List.mem_range.2 (List.getElem?_eq_some_iff.1 hi).1, ?_⟩, rfl⟩
    rw [hi, Option.any_some, hd]
    simpa [usable] using hf
  obtain ⟨e, he, hei⟩ := List.mem_map.1 (hperm.mem_iff.2 hin)
  obtain ⟨k, m, d', h1, h2, _, rfl⟩ := h.distances e he
  have hk : k = i := by
    have : (k : Int) = (i : Int) := hei
    omega
  subst hk
  rw [hi] at h1
  cases h1
  have h2' : queryDistance S dir state n.value = some d' := h2
  rw [hd] at h2'
  cases h2'
  exact he

/-- **C196, too few numbers.** If the roadmap has more than `K` nodes, the query is serial, and fewer than `K`
distances are numbers below infinity: unless a node at distance zero is found, the call throws, and the state has
been added without any edge. -/
theorem C196_too_few_numbers (hinf : (0 : W) < Cost.inf) (S : Setup ν (Option W)) (threads : Threads)
    (dir : Direction) (state : ν) (g : Graph ν (Option W)) (hd : S.symmetric = true ∨ dir = .roadmapToNewState)
    (hg : S.K < g.length) (hser : threads g.length = none)
    (hfew : g.countP (fun n => usable (queryDistance S dir state n.value)) < S.K) :
    (S.addDuplicates = false → (∃ n ∈ g, queryDistance S dir state n.value = some 0) →
      ∃ i n, NodeAt g i n ∧ queryDistance S dir state n.value = some 0 ∧
        addNodeToRoadmap S threads dir state g = (.ok i, g)) ∧
    ((S.addDuplicates = false → ∀ n ∈ g, queryDistance S dir state n.value ≠ some 0) →
      addNodeToRoadmap S threads dir state g =
        (.throws .outOfRange, g ++ [⟨state, some Cost.inf, [], []⟩])) := by
  have key : ∃ R, nearestNeighbors S threads dir g state = .ok R ∧
      NearestNumbers g state (fun n q => queryDistance S dir q n.value) S.K
        (R.filter fun e => decide (e.1 ≠ -1)) ∧
      (∀ e ∈ R, e.1 = -1 → e = (-1, some Cost.inf)) ∧ ∃ e ∈ R, e.1 = -1 := by
    obtain ⟨R, h1, h2, h3, h4⟩ := nearest_many S (fun _ => none) (by intro n s h; cases h) dir state g hg
    refine ⟨R, ?_, h2, h3, h4.2 ⟨rfl, hfew⟩⟩
    rw [← h1]
    unfold nearestNeighbors
    rw [hser]
  obtain ⟨R, h1, h2, h3, h4⟩ := key
  have hnode : ∀ e ∈ R, e.1 = -1 ∨ ∃ n, NodeAt g e.1 n ∧ e.2 = queryDistance S dir state n.value := by
    intro e he
    by_cases h : e.1 = -1
    · exact .inl h
    · exact .inr (nearest_nodes h2 e (List.mem_filter.2 ⟨he, by simpa using h⟩))
  have hzero : ∀ e ∈ R, e.2 = some 0 → e.1 ≠ -1 := by
    intro e he h0 h
    rw [h3 e he h] at h0
    exact absurd (Option.some.inj h0) hinf.ne'
  constructor
  · rintro ha ⟨n, hn, h0⟩
    obtain ⟨i, hi⟩ := List.getElem?_of_mem hn
    have hin := (List.mem_filter.1 (all_usable h2 hfew hi h0 hinf)).1
    rcases findDuplicate_spec R with ⟨_, h5⟩ | ⟨L, e, L', h5, _, h7, h8⟩
    · exact absurd rfl (h5 _ hin)
    · have he : e ∈ R := by rw [h5]; simp
      rcases hnode e he with h | ⟨m, hm, hq⟩
      · exact absurd h (hzero e he h7)
      · exact ⟨e.1, m, hm, by rw [← hq, h7], add_duplicate h1 (by unfold duplicateOf; rw [if_pos ha, h8])⟩
  · intro hno
    have hdup : duplicateOf S R = none := by
      unfold duplicateOf
      split
      · next ha =>
        rcases findDuplicate_spec R with ⟨h5, _⟩ | ⟨L, e, L', h5, _, h7, _⟩
        · exact h5
        · have he : e ∈ R := by rw [h5]; simp
          rcases hnode e he with h | ⟨m, hm, hq⟩
          · exact absurd h (hzero e he h7)
          · exact absurd (by rw [← hq, h7]) (hno ha m (List.mem_of_getElem? hm.2))
      · rfl
    rw [add_insert h1 hdup]
    unfold insertNode
    simp only [addNode, addNodeObject, M.bind_apply, M.modify_apply, M.get_apply, M.pure_apply, M.lift_apply,
      allNeighborDistances_unset S dir state g ⟨state, some Cost.inf, [], []⟩ hd R hnode h4]

/-- **C196, `K = 0`.** Then the state is added without any edge. -/
theorem C196_no_neighbours (S : Setup ν (Option W)) (threads : Threads) (dir : Direction) (state : ν)
    (g : Graph ν (Option W)) (hK : S.K = 0) :
    addNodeToRoadmap S threads dir state g =
      (.ok (g.length : Int), g ++ [⟨state, some Cost.inf, [], []⟩]) := by
  have h1 : nearestNeighbors S threads dir g state = .ok [] := by
    unfold nearestNeighbors NanKnn.kNearestSerial NanKnn.kNearestParallel
    rw [if_pos hK]
    cases threads g.length with
    | none => rfl
    | some s => simp only; rw [if_pos hK]
  rw [add_insert h1 (by unfold duplicateOf; split <;> rfl)]
  unfold insertNode
  simp [addNode, addNodeObject, M.bind_apply, M.modify_apply, M.get_apply, M.pure_apply, M.lift_apply,
    allNeighborDistances, addNeighborEdges]

/-! ## What a roadmap keeps -/

theorem Inserted.numbers {state : ν} {es : List (Int × W × W)} {g g' : Graph ν (Option W)}
    (h : Inserted state es g g') (hg : NumberWeights g) (hes : ∀ e ∈ es, 0 ≤ e.2.1 ∧ 0 ≤ e.2.2) :
    NumberWeights g' := by
  intro n' hn' e he
  obtain ⟨i, hi⟩ := List.getElem?_of_mem hn'
  have hlt := (List.getElem?_eq_some_iff.1 hi).1
  rw [h.size] at hlt
  by_cases hig : i < g.length
  · have hold := h.oldNodes i _ (List.getElem?_eq_getElem hig)
    rw [hi] at hold
    injection hold with hold
    rw [hold] at he
    simp only [List.mem_append, List.mem_map, List.mem_filter] at he
    rcases he with (he | ⟨x, ⟨hx, _⟩, rfl⟩) | (he | ⟨x, ⟨hx, _⟩, rfl⟩)
    · exact hg _ (List.getElem_mem hig) e (.inl he)
    · exact ⟨x.2.2, rfl, (hes x hx).2⟩
    · exact hg _ (List.getElem_mem hig) e (.inr he)
    · exact ⟨x.2.1, rfl, (hes x hx).1⟩
  · have hig : i = g.length := by omega
    subst hig
    rw [h.newNode] at hi
    injection hi with hi
    subst hi
    simp only [List.mem_map] at he
    rcases he with ⟨x, hx, rfl⟩ | ⟨x, hx, rfl⟩
    · exact ⟨x.2.1, rfl, (hes x hx).1⟩
    · exact ⟨x.2.2, rfl, (hes x hx).2⟩

theorem numbers_bare {g : Graph ν (Option W)} (hg : NumberWeights g) (state : ν) (d : Option W) :
    NumberWeights (g ++ [⟨state, d, [], []⟩]) := by
  intro n hn e he
  rcases List.mem_append.1 hn with hn | hn
  · exact hg n hn e he
  · rw [List.mem_singleton] at hn
    subst hn
    rcases he with he | he <;> cases he

/-- How adding a state ends: with a node for it, or with an exception after it was added without edges. -/
theorem add_ends (hinf : (0 : W) < Cost.inf) (S : Setup ν (Option W)) (threads : Threads) (ht : threads.Ok)
    (dir : Direction) (state : ν) (g : Graph ν (Option W))
    (hd : S.symmetric = true ∨ dir = .roadmapToNewState) :
    (∃ i n, NodeAt g i n ∧ S.addDuplicates = false ∧ queryDistance S dir state n.value = some 0 ∧
      addNodeToRoadmap S threads dir state g = (.ok i, g)) ∨
    (∃ es g', addNodeToRoadmap S threads dir state g = (.ok (g.length : Int), g') ∧ Inserted state es g g' ∧
      ∀ e ∈ es, 0 ≤ e.2.1 ∧ 0 ≤ e.2.2) ∨
    (threads g.length = none ∧ addNodeToRoadmap S threads dir state g =
      (.throws .outOfRange, g ++ [⟨state, some Cost.inf, [], []⟩])) := by
  by_cases hK : S.K = 0
  · refine .inr (.inl ⟨[], _, C196_no_neighbours S threads dir state g hK, ⟨by simp, by simp, ?_⟩, by simp⟩)
    intro j n hj
    rw [List.getElem?_append_left (List.getElem?_eq_some_iff.1 hj).1, hj]
    simp
  by_cases hg : g.length ≤ S.K
  · obtain ⟨h1, h2⟩ := C196_few S threads ht dir state g hd hK hg
    by_cases hz : S.addDuplicates = false ∧ ∃ i : Nat, ∃ n, g[i]? = some n ∧ queryDistance S dir state n.value = some 0
    · obtain ⟨ha, hex⟩ := hz
      classical
      obtain ⟨n, hn, h0⟩ := Nat.find_spec hex
      refine .inl ⟨_, n, (nodeAt_nat g _ n).2 hn, ha, h0, h1 ha _ n ((nodeAt_nat g _ n).2 hn) h0 ?_⟩
      intro j m hm hlt hz
      exact Nat.find_min hex (m := j.toNat) (by have := hm.1; omega) ⟨m, hm.2, hz⟩
    · obtain ⟨es, g', k1, k2, _, k4⟩ := h2 (by
        intro ha n hn h0
        obtain ⟨i, hi⟩ := List.getElem?_of_mem hn
        exact hz ⟨ha, i, n, hi, h0⟩)
      refine .inr (.inl ⟨es, g', k1, k2, ?_⟩)
      intro e he
      obtain ⟨n, _, _, h3, h4, _⟩ := (k4 e.1 e.2.1 e.2.2).1 he
      exact ⟨h3, h4⟩
  · have hg : S.K < g.length := by omega
    by_cases hp : threads g.length ≠ none ∨ S.K ≤ g.countP (fun n => usable (queryDistance S dir state n.value))
    · obtain ⟨R, hR, h⟩ := C196_many S threads ht dir state g hd hg hp
      rcases h with ⟨ha, e, he, h0, h1⟩ | ⟨_, es, g', k1, k2, _, k4⟩
      · obtain ⟨n, hn, hq⟩ := nearest_nodes hR e he
        exact .inl ⟨e.1, n, hn, ha, by rw [← hq, h0], h1⟩
      · refine .inr (.inl ⟨es, g', k1, k2, ?_⟩)
        intro e he
        obtain ⟨_, n, _, _, h3, h4, _⟩ := (k4 e.1 e.2.1 e.2.2).1 he
        exact ⟨h3, h4⟩
    · have hser : threads g.length = none := by
        by_contra h; exact hp (.inl h)
      obtain ⟨h1, h2⟩ := C196_too_few_numbers hinf S threads dir state g hd hg hser (by
        by_contra h; exact hp (.inr (by omega)))
      by_cases hz : S.addDuplicates = false ∧ ∃ n ∈ g, queryDistance S dir state n.value = some 0
      · obtain ⟨i, n, hn, h0, h⟩ := h1 hz.1 hz.2
        exact .inl ⟨i, n, hn, hz.1, h0, h⟩
      · exact .inr (.inr ⟨hser, h2 fun ha n hn h0 => hz ⟨ha, n, hn, h0⟩⟩)

/-- **C196, a roadmap stays usable.** Sampling more states, with any distances: the roadmap stays consistent, its
weights stay numbers that are not negative, and its states stay where they are. Either all samples were used, or an
exception is thrown, and then only if a query was serial. -/
theorem C196_extend (hinf : (0 : W) < Cost.inf) (S : Setup ν (Option W)) (stateValid : ν → Bool)
    (draws : List (ν × Threads)) (ht : ∀ d ∈ draws, d.2.Ok) (g : Graph ν (Option W)) (hl : Linked g)
    (hm : Mirrored g) (hw : NumberWeights g) :
    ∃ o g', extendRoadMap S stateValid draws g = (o, g') ∧ Linked g' ∧ Mirrored g' ∧ NumberWeights g' ∧
      (∀ (i : Nat) n, g[i]? = some n → ∃ n', g'[i]? = some n' ∧ n'.value = n.value) ∧
      (o = .ok () ∨ (o = .throws .outOfRange ∧ ∃ d ∈ draws, ∃ n, d.2 n = none)) ∧
      (o = .ok () → S.addDuplicates = true →
        g'.map (·.value) = g.map (·.value) ++ (draws.map (·.1)).filter stateValid) := by
  have hi := Prm.inv_of_linked hl hm
  clear hl hm
  suffices h : ∃ o g', extendRoadMap S stateValid draws g = (o, g') ∧ Inv g' ∧ NumberWeights g' ∧
      (∀ (i : Nat) n, g[i]? = some n → ∃ n', g'[i]? = some n' ∧ n'.value = n.value) ∧
      (o = .ok () ∨ (o = .throws .outOfRange ∧ ∃ d ∈ draws, ∃ n, d.2 n = none)) ∧
      (o = .ok () → S.addDuplicates = true →
        g'.map (·.value) = g.map (·.value) ++ (draws.map (·.1)).filter stateValid) by
    obtain ⟨o, g', h1, h2, h3, h4, h5, h6⟩ := h
    exact ⟨o, g', h1, h2.linked, h2.mir, h3, h4, h5, h6⟩
  induction draws generalizing g with
  | nil => exact ⟨_, g, rfl, hi, hw, fun i n h => ⟨n, h, rfl⟩, .inl rfl, by simp⟩
  | cons d draws ih =>
    obtain ⟨state, threads⟩ := d
    have htr : ∀ d ∈ draws, d.2.Ok := fun d hd => ht d (List.mem_cons_of_mem _ hd)
    by_cases hv : stateValid state = true
    · have hstep : ∀ i g1, addNodeToRoadmap S threads .roadmapToNewState state g = (.ok i, g1) → Inv g1 →
          NumberWeights g1 → (∀ (i : Nat) n, g[i]? = some n → ∃ n', g1[i]? = some n' ∧ n'.value = n.value) →
          (S.addDuplicates = true → g1.map (·.value) = g.map (·.value) ++ [state]) →
          ∃ o g', extendRoadMap S stateValid ((state, threads) :: draws) g = (o, g') ∧ Inv g' ∧
            NumberWeights g' ∧
            (∀ (i : Nat) n, g[i]? = some n → ∃ n', g'[i]? = some n' ∧ n'.value = n.value) ∧
            (o = .ok () ∨ (o = .throws .outOfRange ∧ ∃ d ∈ (state, threads) :: draws, ∃ n, d.2 n = none)) ∧
            (o = .ok () → S.addDuplicates = true → g'.map (·.value) =
              g.map (·.value) ++ (((state, threads) :: draws).map (·.1)).filter stateValid) := by
        intro i g1 h1 hi1 hw1 hk1 hs1
        obtain ⟨o, g', k1, k2, k3, k4, k5, k6⟩ := ih htr g1 hw1 hi1
        refine ⟨o, g', ?_, k2, k3, ?_, ?_, ?_⟩
        · simp only [extendRoadMap, if_pos hv, M.bind_apply, h1, k1]
        · intro i n hn
          obtain ⟨n1, a1, a2⟩ := hk1 i n hn
          obtain ⟨n2, b1, b2⟩ := k4 i n1 a1
          exact ⟨n2, b1, b2.trans a2⟩
        · rcases k5 with k5 | ⟨k5, d, hd, hn⟩
          · exact .inl k5
          · exact .inr ⟨k5, d, List.mem_cons_of_mem _ hd, hn⟩
        · intro ho ha
          rw [k6 ho ha, hs1 ha]
          simp [hv]
      have hinv := addNodeToRoadmap_inv S threads .roadmapToNewState state g hi
      rcases add_ends hinf S threads (ht _ (List.mem_cons_self ..)) .roadmapToNewState state g (.inr rfl) with
        ⟨i, n, hn, ha, h0, h1⟩ | ⟨es, g1, h1, h2, h3⟩ | ⟨hser, h1⟩
      · exact hstep i g h1 hi hw (fun i n h => ⟨n, h, rfl⟩) (fun h => by rw [ha] at h; cases h)
      · rw [h1] at hinv
        refine hstep _ g1 h1 hinv (h2.numbers hw h3) (fun i n hn => ⟨_, h2.oldNodes i n hn, rfl⟩) ?_
        intro _
        apply List.ext_getElem?
        intro i
        by_cases hil : i < g.length
        · rw [List.getElem?_append_left (by simpa using hil), List.getElem?_map, List.getElem?_map,
            h2.oldNodes i _ (List.getElem?_eq_getElem hil), List.getElem?_eq_getElem hil]
          rfl
        · by_cases hie : i = g.length
          · subst hie
            rw [List.getElem?_map, h2.newNode, List.getElem?_append_right (by simp)]
            simp
          · have := h2.size
            rw [List.getElem?_eq_none (by simp; omega), List.getElem?_eq_none (by simp; omega)]
      · rw [h1] at hinv
        refine ⟨.throws .outOfRange, g ++ [⟨state, some Cost.inf, [], []⟩], ?_, hinv, numbers_bare hw _ _, ?_,
          .inr ⟨rfl, _, List.mem_cons_self .., _, hser⟩, fun h => by cases h⟩
        · simp only [extendRoadMap, if_pos hv, M.bind_apply, h1]
        · intro i n hn
          exact ⟨n, by rw [List.getElem?_append_left (List.getElem?_eq_some_iff.1 hn).1, hn], rfl⟩
    · obtain ⟨o, g', k1, k2, k3, k4, k5, k6⟩ := ih htr g hw hi
      refine ⟨o, g', ?_, k2, k3, k4, ?_, ?_⟩
      · simp only [extendRoadMap, if_neg hv, k1]
      · rcases k5 with k5 | ⟨k5, d, hd, hn⟩
        · exact .inl k5
        · exact .inr ⟨k5, d, List.mem_cons_of_mem _ hd, hn⟩
      · intro ho ha
        rw [k6 ho ha]
        simp [hv]

/-! ## UpdateRoadMapEdges -/

/-- Any order that makes infinity the largest serves here: the update compares no weights. -/
@[reducible] def anyCost : Cost (Option W) where
  toLinearOrder := inferInstanceAs (LinearOrder (WithBot W))
  add := NotANumber.add
  zero := some 0
  inf := some Cost.inf
  le_inf a := by
    cases a with
    | none => exact (bot_le : (⊥ : WithBot W) ≤ _)
    | some a => exact (WithBot.coe_le_coe (α := W)).2 (Cost.le_inf a)
  add_mono {a b} c h := by
    cases a with
    | none => exact (bot_le : (⊥ : WithBot W) ≤ _)
    | some a =>
      cases b with
      | none => exact absurd h (WithBot.not_coe_le_bot (α := W) a)
      | some b =>
        cases c with
        | none => exact (bot_le : (⊥ : WithBot W) ≤ _)
        | some c => exact (WithBot.coe_le_coe (α := W)).2 (Cost.add_mono c ((WithBot.coe_le_coe (α := W)).1 h))
  le_add a c h := by
    cases c with
    | none => exact absurd h (WithBot.not_coe_le_bot (α := W) 0)
    | some c =>
      cases a with
      | none => exact (bot_le : (⊥ : WithBot W) ≤ _)
      | some a => exact (WithBot.coe_le_coe (α := W)).2 (Cost.le_add a ((WithBot.coe_le_coe (α := W)).1 h))

theorem updateOutEdges_eq (valid : ν → ν → Bool) (distance : ν → ν → Option W) (current : Nat) :
    ∀ (count k : Nat) (g : Graph ν (Option W)), updateOutEdges valid distance current count k g =
      @Prm.updateOutEdges ν (Option W) anyCost valid distance current count k g
  | 0, _, _ => rfl
  | count + 1, k, g => by
    unfold updateOutEdges Prm.updateOutEdges
    simp only [updateOutEdges_eq valid distance current count]
    cases getNode g (current : Int) with
    | ok n =>
      simp only [Out.bind_ok]
      cases n.outEdges[k]? with
      | none => rfl
      | some e => rfl
    | throws e => rfl
    | abort => rfl
    | ub => rfl

theorem updateNodes_eq (valid : ν → ν → Bool) (distance : ν → ν → Option W) :
    ∀ (order : List Nat) (g : Graph ν (Option W)), updateNodes valid distance order g =
      @Prm.updateNodes ν (Option W) anyCost valid distance order g
  | [], _ => rfl
  | i :: is, g => by
    unfold updateNodes Prm.updateNodes
    simp only [updateOutEdges_eq, updateNodes_eq valid distance is]

theorem update_eq (valid : ν → ν → Bool) (distance : ν → ν → Option W) (order : List Nat)
    (g : Graph ν (Option W)) : updateRoadMapEdges valid distance order g =
      @Prm.updateRoadMapEdges ν (Option W) anyCost valid distance order g := by
  unfold updateRoadMapEdges Prm.updateRoadMapEdges
  simp only [updateNodes_eq]

/-- **C196, update.** Updating a consistent roadmap gives both copies of every accepted edge the distance between
its states, also if that is not a number, and infinity to the others; nothing else changes, the roadmap stays
consistent, and the order in which the nodes are visited makes no difference. -/
theorem C196_update (valid : ν → ν → Bool) (distance : ν → ν → Option W) (g : Graph ν (Option W))
    (hl : Linked g) (order : List Nat) (ho : order.Perm (List.range g.length)) :
    ∃ g', updateRoadMapEdges valid distance order g = .ok g' ∧ Reweighted valid distance g g' ∧ Linked g' ∧
      (Mirrored g → Mirrored g') ∧
      ∀ order' : List Nat, order'.Perm (List.range g.length) →
        updateRoadMapEdges valid distance order' g = .ok g' := by
  let : Cost (Option W) := anyCost
  obtain ⟨g', h1, h2⟩ := @Prm.C55_update ν (Option W) anyCost valid distance g hl order ho
  obtain ⟨h3, h4⟩ := @Prm.C55_stays_linked ν (Option W) anyCost valid distance g g' hl order ho h1
  refine ⟨g', by rw [update_eq, h1], ⟨h2.size, h2.node, h2.outEdge, h2.inEdge⟩, h3, h4, ?_⟩
  intro order' ho'
  rw [update_eq, ← @Prm.C55_order ν (Option W) anyCost valid distance g hl order order' ho ho', h1]

/-- **C196, update, refused.** A roadmap that is not consistent is refused. -/
theorem C196_update_refuses (valid : ν → ν → Bool) (distance : ν → ν → Option W) (g : Graph ν (Option W))
    (hl : ¬ Linked g) (order : List Nat) :
    updateRoadMapEdges valid distance order g = .throws .invalidArgument := by
  rw [update_eq]
  exact @Prm.C55_refuses ν (Option W) anyCost valid distance g hl order

/-! ## Cases that meet the hypotheses -/

/-- A distance that is not a number if one of the states is 7. -/
def exDistance (a b : Nat) : Option Dist := if a = 7 ∨ b = 7 then none else some (.fin ((a - b) + (b - a)))

/-- Two neighbours, every edge accepted. -/
def exSetup (K : Nat) : Setup Nat (Option Dist) := ⟨exDistance, fun _ _ => true, K, true, false⟩

/-- serial queries -/
def serial : Threads := fun _ => none

/-- The states 1, 7 and 4 sampled one after the other: 7 stays alone, 1 and 4 are joined. -/
def exRoadmap : Graph Nat (Option Dist) :=
  [⟨1, some .inf, [⟨2, 0, some (.fin 3), UNKNOWN⟩], [⟨0, 2, some (.fin 3), UNKNOWN⟩]⟩,
   ⟨7, some .inf, [], []⟩,
   ⟨4, some .inf, [⟨0, 2, some (.fin 3), UNKNOWN⟩], [⟨2, 0, some (.fin 3), UNKNOWN⟩]⟩]

example : extendRoadMap (exSetup 2) (fun _ => true) [(1, serial), (7, serial), (4, serial)] [] =
    (.ok (), exRoadmap) := by decide +kernel

example : serial.Ok := by intro n s h; cases h

/-- two of three nodes have a number as distance -/
example : (exSetup 2).K < exRoadmap.length ∧
    exRoadmap.countP (fun n => usable (queryDistance (exSetup 2) .roadmapToNewState 2 n.value)) = 2 := by
  decide +kernel

example : (addNodeToRoadmap (exSetup 2) serial .roadmapToNewState 2 exRoadmap).1 = .ok 3 := by decide +kernel

/-- none of three has one: the call throws and leaves a node without edges behind -/
example : addNodeToRoadmap (exSetup 2) serial .roadmapToNewState 7 exRoadmap =
    (.throws .outOfRange, exRoadmap ++ [⟨7, some .inf, [], []⟩]) := by decide +kernel

/-- in parallel it does not -/
example : addNodeToRoadmap (exSetup 2) (fun n => some [List.range n]) .roadmapToNewState 7 exRoadmap =
    (.ok 3, exRoadmap ++ [⟨7, some .inf, [], []⟩]) := by decide +kernel

/-- an update with another distance makes weights that are not numbers -/
example : updateRoadMapEdges (fun _ _ => true) (fun _ _ => (none : Option Dist)) [0, 1, 2] exRoadmap =
    .ok [⟨1, some .inf, [⟨2, 0, none, UNKNOWN⟩], [⟨0, 2, none, UNKNOWN⟩]⟩, ⟨7, some .inf, [], []⟩,
      ⟨4, some .inf, [⟨0, 2, none, UNKNOWN⟩], [⟨2, 0, none, UNKNOWN⟩]⟩] := by decide +kernel

end Verif.NanPrm
