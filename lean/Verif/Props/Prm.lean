import Verif.Lemmas.Prm
import Verif.Props.Dijkstra
import Verif.Props.Astar

/-!
# Properties of the roadmap planner: C54, C55
-/
namespace Verif.Prm
open Verif Verif.Graph Verif.Knn

variable {ν W : Type} [Cost W]

/-- **C54.** Adding a state to a consistent roadmap, with finite distances: the neighbours are K
nearest nodes. If one of them is at distance zero and duplicates are not wanted, its index is returned
and nothing changes. Otherwise one node is added and joined, in both directions, to exactly those
neighbours the edge check accepts; its index is returned and nothing else changes. -/
theorem C54_add (S : Setup ν W) (threads : Threads) (ht : threads.Ok) (dir : Direction) (state : ν)
    (g : Graph ν W) (hd : S.symmetric = true ∨ dir = .roadmapToNewState)
    (hf : ∀ n ∈ g, queryDistance S dir state n.value < Cost.inf) :
    ∃ R, Neighbors S dir g state R ∧
      ((S.addDuplicates = false ∧ ∃ e ∈ R, e.2 = 0 ∧
          addNodeToRoadmap S threads dir state g = (.ok e.1, g)) ∨
       ((S.addDuplicates = false → ∀ e ∈ R, e.2 ≠ 0) ∧
        ∃ es g', addNodeToRoadmap S threads dir state g = (.ok (g.length : Int), g') ∧
          Inserted state es g g' ∧ JoinedNeighbors S dir g state R es)) := by
  obtain ⟨R, h1, h2⟩ := nearestNeighbors_spec S threads dir g state ht hf
  refine ⟨R, h2, ?_⟩
  obtain ⟨es, g', h3, h4, h5⟩ := insertNode_ok S dir state R g hd h2
  by_cases ha : S.addDuplicates = false
  · rcases findDuplicate_spec R with ⟨h6, h7⟩ | ⟨e, he, h6, h7⟩
    · right
      refine ⟨fun _ => h7, es, g', ?_, h4, h5⟩
      simp [addNodeToRoadmap, M.bind_apply, h1, duplicateOf, ha, h6, h3]
    · left
      refine ⟨ha, e, he, h6, ?_⟩
      simp [addNodeToRoadmap, M.bind_apply, h1, duplicateOf, ha, h7]
  · right
    refine ⟨fun h => absurd h ha, es, g', ?_, h4, h5⟩
    simp [addNodeToRoadmap, M.bind_apply, h1, duplicateOf, ha, h3]

/-- **C54.** If distances are not negative and `K` is not zero, the state is recognised as a duplicate
exactly when some node of the whole roadmap is at distance zero. -/
theorem C54_duplicate (S : Setup ν W) (threads : Threads) (ht : threads.Ok) (dir : Direction)
    (state : ν) (g : Graph ν W) (hd : S.symmetric = true ∨ dir = .roadmapToNewState)
    (hf : ∀ n ∈ g, queryDistance S dir state n.value < Cost.inf)
    (hn : ∀ n ∈ g, 0 ≤ queryDistance S dir state n.value) (hK : S.K ≠ 0)
    (ha : S.addDuplicates = false) :
    ((∃ n ∈ g, queryDistance S dir state n.value = 0) →
      ∃ i n, NodeAt g i n ∧ queryDistance S dir state n.value = 0 ∧
        addNodeToRoadmap S threads dir state g = (.ok i, g)) ∧
    ((∀ n ∈ g, queryDistance S dir state n.value ≠ 0) →
      ∃ g', addNodeToRoadmap S threads dir state g = (.ok (g.length : Int), g') ∧
        g'.length = g.length + 1) := by
  obtain ⟨R, hR, h⟩ := C54_add S threads ht dir state g hd hf
  rcases h with ⟨_, e, he, h0, hres⟩ | ⟨hno, es, g', hres, hins, _⟩
  · obtain ⟨n, hnode, hq⟩ := neighbors_nodes hR e he
    rw [h0] at hq
    refine ⟨fun _ => ⟨e.1, n, hnode, hq.symm, hres⟩, ?_⟩
    intro hall
    exact absurd hq.symm (hall n (List.mem_of_getElem? hnode.2))
  · refine ⟨?_, fun _ => ⟨g', hres, hins.size⟩⟩
    rintro ⟨n, hmem, h0⟩
    exfalso
    obtain ⟨i, hi⟩ := List.getElem?_of_mem hmem
    by_cases hin : (i : Int) ∈ R.map (·.1)
    · obtain ⟨e, he, hei⟩ := List.mem_map.1 hin
      obtain ⟨m, hm, hq⟩ := neighbors_nodes hR e he
      rw [hei] at hm
      rw [hm.unique ((nodeAt_nat g i n).2 hi), h0] at hq
      exact hno ha e he hq
    · have hlen : 0 < R.length := by
        rw [hR.length]
        have := (List.getElem?_eq_some_iff.1 hi).1
        omega
      obtain ⟨e, he⟩ := List.exists_mem_of_length_pos hlen
      have h1 := hR.nearest i n hi hin e he
      obtain ⟨m, hm, hq⟩ := neighbors_nodes hR e he
      have h2 := hn m (List.mem_of_getElem? hm.2)
      rw [← hq] at h2
      simp only [h0] at h1
      exact hno ha e he (le_antisymm h1 h2)

/-- **C54.** However the call ends (also with an exception or a failed assertion, and for any
distances), a consistent roadmap stays consistent. -/
theorem C54_stays_linked (S : Setup ν W) (threads : Threads) (dir : Direction) (state : ν)
    (g : Graph ν W) (hl : Linked g) (hm : Mirrored g) :
    Linked (addNodeToRoadmap S threads dir state g).2 ∧
    Mirrored (addNodeToRoadmap S threads dir state g).2 :=
  have h := addNodeToRoadmap_inv S threads dir state g (inv_of_linked hl hm)
  ⟨h.linked, h.mir⟩

/-- The loop hits the assertion as soon as a neighbour is accepted. -/
theorem allNeighborDistances_asymmetric (S : Setup ν W) (state : ν) (g : Graph ν W) (b : Node ν W)
    (hs : S.symmetric = false) (R : List (Int × W)) (hR : ∀ e ∈ R, ∃ n, NodeAt g e.1 n) :
    ((∃ e ∈ R, ∃ n, NodeAt g e.1 n ∧ S.edgeValid n.value state = true) →
      allNeighborDistances S .newStateToRoadmap state (g ++ [b]) R = .abort) ∧
    ((∀ e ∈ R, ∀ n, NodeAt g e.1 n → S.edgeValid n.value state = false) →
      allNeighborDistances S .newStateToRoadmap state (g ++ [b]) R =
        .ok (List.replicate R.length none)) := by
  induction R with
  | nil => exact ⟨by simp, fun _ => rfl⟩
  | cons x xs ih =>
    obtain ⟨ih1, ih2⟩ := ih (fun e he => hR e (List.mem_cons_of_mem _ he))
    obtain ⟨n, hn⟩ := hR x (List.mem_cons_self ..)
    have hx : neighborDistances S .newStateToRoadmap state (g ++ [b]) x =
        if S.edgeValid n.value state = true then .abort else .ok none := by
      unfold neighborDistances
      rw [getNode_append hn]
      simp only [Out.bind_ok, hs]
      split <;> simp
    constructor
    · rintro ⟨e, he, m, hm, hv⟩
      unfold allNeighborDistances
      rw [hx]
      by_cases hxv : S.edgeValid n.value state = true
      · rw [if_pos hxv]; rfl
      · rw [if_neg hxv]
        rcases List.mem_cons.1 he with rfl | he
        · rw [hn.unique hm] at hxv; exact absurd hv hxv
        · rw [ih1 ⟨e, he, m, hm, hv⟩]; rfl
    · intro hall
      unfold allNeighborDistances
      rw [hx, hall x (List.mem_cons_self ..) n hn,
        ih2 (fun e he => hall e (List.mem_cons_of_mem _ he))]
      rfl

/-- **C54.** With distances declared asymmetric, adding a state in the other direction (as all queries
do with their start states) fails an assertion as soon as one of the nearest neighbours can be joined
to it; the node has then been added without edges. So such a call never joins a state to the roadmap. -/
theorem C54_asymmetric_start (S : Setup ν W) (threads : Threads) (ht : threads.Ok) (state : ν)
    (g : Graph ν W) (hs : S.symmetric = false)
    (hf : ∀ n ∈ g, S.distance state n.value < Cost.inf) (hdup : S.addDuplicates = true) :
    ∃ R, Neighbors S .newStateToRoadmap g state R ∧
      ((∃ e ∈ R, ∃ n, NodeAt g e.1 n ∧ S.edgeValid n.value state = true) →
        addNodeToRoadmap S threads .newStateToRoadmap state g =
          (.abort, g ++ [⟨state, Cost.inf, [], []⟩])) ∧
      ((∀ e ∈ R, ∀ n, NodeAt g e.1 n → S.edgeValid n.value state = false) →
        addNodeToRoadmap S threads .newStateToRoadmap state g =
          (.ok (g.length : Int), g ++ [⟨state, Cost.inf, [], []⟩])) := by
  obtain ⟨R, h1, h2⟩ := nearestNeighbors_spec S threads .newStateToRoadmap g state ht
    (by simpa [queryDistance] using hf)
  refine ⟨R, h2, ?_⟩
  obtain ⟨h3, h4⟩ := allNeighborDistances_asymmetric S state g ⟨state, Cost.inf, [], []⟩ hs R
    (fun e he => (neighbors_nodes h2 e he).imp fun n hn => hn.1)
  have hacc : ∀ (R : List (Int × W)) N (h : Graph ν W),
      addNeighborEdges N (R.zip (List.replicate R.length none)) h = (.ok (), h) := by
    intro R N h
    induction R with
    | nil => rfl
    | cons x xs ih =>
      rw [List.length_cons, List.replicate_succ, List.zip_cons_cons, addNeighborEdges]
      exact ih
  constructor
  · intro h
    simp [addNodeToRoadmap, M.bind_apply, h1, duplicateOf, hdup, insertNode, addNode, addNodeObject,
      h3 h]
  · intro h
    simp [addNodeToRoadmap, M.bind_apply, h1, duplicateOf, hdup, insertNode, addNode, addNodeObject,
      h4 h, hacc]

/-- Adding a node keeps the roadmap sound. -/
theorem Sound.insert {S : Setup ν W} {stateValid : ν → Bool} {g g' : Graph ν W}
    (h : Sound S stateValid g) (hi : Inv g) {state : ν} (hv : stateValid state = true)
    {R : List (Int × W)} {es : List (Int × W × W)} (hins : Inserted state es g g')
    (hes : JoinedNeighbors S .roadmapToNewState g state R es) : Sound S stateValid g' := by
  have hcase : ∀ (i : Nat) n', g'[i]? = some n' →
      (∃ n, g[i]? = some n ∧ n'.value = n.value) ∨ (i = g.length ∧ n'.value = state) := by
    intro i n' hn'
    have hlt := (List.getElem?_eq_some_iff.1 hn').1
    rw [hins.size] at hlt
    by_cases hig : i < g.length
    · left
      have := hins.oldNodes i _ (List.getElem?_eq_getElem hig)
      rw [hn'] at this
      injection this with this
      exact ⟨_, List.getElem?_eq_getElem hig, by rw [this]⟩
    · right
      have hig : i = g.length := by omega
      subst hig
      rw [hins.newNode] at hn'
      injection hn' with hn'
      exact ⟨rfl, by rw [← hn']⟩
  constructor
  · intro n' hn'
    obtain ⟨i, hi⟩ := List.getElem?_of_mem hn'
    rcases hcase i n' hi with ⟨n, h1, h2⟩ | ⟨_, h2⟩
    · rw [h2]; exact h.states n (List.mem_of_getElem? h1)
    · rw [h2]; exact hv
  · intro i j n' m' hi' hj' e he hto
    rcases hcase i n' hi' with ⟨n, h1, h2⟩ | ⟨hig, h2⟩
    · have hold := hins.oldNodes i n h1
      rw [hi'] at hold
      injection hold with hold
      rw [hold] at he
      simp only [List.mem_append, List.mem_map, List.mem_filter] at he
      rcases he with he | ⟨x, ⟨hx, hxi⟩, rfl⟩
      · have hrange := (hi.outs i n ((nodeAt_nat g i n).2 h1) e he).2.2
        rcases hcase j m' hj' with ⟨m, h3, h4⟩ | ⟨hjg, _⟩
        · rw [h2, h4]; exact h.edges i j n m h1 h3 e he hto
        · omega
      · simp only [Edge.make] at hto ⊢
        have hjg : j = g.length := by omega
        subst hjg
        rw [hins.newNode] at hj'
        injection hj' with hj'
        have hilt := (List.getElem?_eq_some_iff.1 h1).1
        obtain ⟨_, m, hm, hval, h3, h4, h5, h6⟩ := (hes.2 x.1 x.2.1 x.2.2).1 hx
        have hxi' : x.1 = (i : Int) := by simpa using hxi
        rw [hxi'] at hm
        have := hm.unique ((nodeAt_nat g i n).2 h1)
        subst this
        rw [h2, ← hj']
        refine ⟨h3, Or.inl ⟨hilt, hval, ?_⟩⟩
        cases hsym : S.symmetric with
        | true => simpa [queryDistance] using (h5 hsym).1
        | false => exact (h6 hsym).1
    · subst hig
      rw [hins.newNode] at hi'
      injection hi' with hi'
      subst hi'
      simp only [List.mem_map] at he
      obtain ⟨x, hx, rfl⟩ := he
      simp only [Edge.make] at hto ⊢
      obtain ⟨_, m, hm, hval, h3, h4, h5, h6⟩ := (hes.2 x.1 x.2.1 x.2.2).1 hx
      rw [hto] at hm
      have hmj := (nodeAt_nat g j m).1 hm
      have hjlt := (List.getElem?_eq_some_iff.1 hmj).1
      have hold := hins.oldNodes j m hmj
      rw [hj'] at hold
      injection hold with hold
      rw [hold]
      refine ⟨h4, Or.inr ⟨hjlt, hval, ?_⟩⟩
      cases hsym : S.symmetric with
      | true =>
        obtain ⟨h7, h8⟩ := h5 hsym
        simp only [if_true]
        rw [h8, h7]
        simp [queryDistance]
      | false => simpa using (h6 hsym).2

theorem extend_sound (S : Setup ν W) (stateValid : ν → Bool) (draws : List (ν × Threads))
    (ht : ∀ d ∈ draws, d.2.Ok)
    (hf : ∀ a b, stateValid a = true → stateValid b = true → S.distance a b < Cost.inf)
    (g : Graph ν W) (hi : Inv g) (hs : Sound S stateValid g) :
    ∃ g', extendRoadMap S stateValid draws g = (.ok (), g') ∧ Inv g' ∧ Sound S stateValid g' ∧
      KeepsStates g g' ∧
      (S.addDuplicates = true →
        g'.map (·.value) = g.map (·.value) ++ (draws.map (·.1)).filter stateValid) := by
  induction draws generalizing g with
  | nil => exact ⟨g, rfl, hi, hs, fun i n h => ⟨n, h, rfl⟩, by simp⟩
  | cons d draws ih =>
    obtain ⟨state, threads⟩ := d
    have ht' : ∀ d ∈ draws, d.2.Ok := fun d hd => ht d (List.mem_cons_of_mem _ hd)
    by_cases hv : stateValid state = true
    · obtain ⟨R, hR, hcase⟩ := C54_add S threads (ht _ (List.mem_cons_self ..)) .roadmapToNewState state
        g (Or.inr rfl) (fun n hn => by
          simpa [queryDistance] using hf _ _ (hs.states n hn) hv)
      rcases hcase with ⟨hdup, e, _, _, hres⟩ | ⟨_, es, g1, hres, hins, hes⟩
      · obtain ⟨g', h1, h2, h3, h4, h5⟩ := ih ht' g hi hs
        refine ⟨g', ?_, h2, h3, h4, fun h => by rw [h] at hdup; cases hdup⟩
        simp only [extendRoadMap, if_pos hv, M.bind_apply, hres, h1]
      · have i1 : Inv g1 := by
          have := addNodeToRoadmap_inv S threads .roadmapToNewState state g hi
          rw [hres] at this; exact this
        obtain ⟨g', h1, h2, h3, h4, h5⟩ := ih ht' g1 i1 (hs.insert hi hv hins hes)
        refine ⟨g', by simp only [extendRoadMap, if_pos hv, M.bind_apply, hres, h1], h2, h3, ?_, ?_⟩
        · intro i n hn
          obtain ⟨n', e1, e2⟩ := h4 i _ (hins.oldNodes i n hn)
          exact ⟨n', e1, e2⟩
        · intro hd
          rw [h5 hd]
          have : g1.map (·.value) = g.map (·.value) ++ [state] := by
            apply List.ext_getElem?
            intro k
            rw [List.getElem?_map]
            rcases Nat.lt_trichotomy k g.length with hk | hk | hk
            · rw [hins.oldNodes k _ (List.getElem?_eq_getElem hk),
                List.getElem?_append_left (by simpa using hk)]
              simp [hk]
            · subst hk
              rw [hins.newNode, List.getElem?_append_right (by simp)]
              simp
            · rw [List.getElem?_eq_none (by rw [hins.size]; omega),
                List.getElem?_eq_none (by simp; omega)]
              rfl
          rw [this]
          simp [hv]
    · obtain ⟨g', h1, h2, h3, h4, h5⟩ := ih ht' g hi hs
      refine ⟨g', by simp only [extendRoadMap, if_neg hv, h1], h2, h3, h4, ?_⟩
      intro hd
      rw [h5 hd]
      simp [hv]

/-- **C54.** Whatever states are drawn, extending a consistent and sound roadmap succeeds and gives a
consistent and sound roadmap that keeps all nodes; if duplicates are wanted, its new nodes are exactly
the drawn states accepted by the state check, in the order in which they were drawn. -/
theorem C54_extend (S : Setup ν W) (stateValid : ν → Bool) (draws : List (ν × Threads))
    (ht : ∀ d ∈ draws, d.2.Ok)
    (hf : ∀ a b, stateValid a = true → stateValid b = true → S.distance a b < Cost.inf)
    (g : Graph ν W) (hl : Linked g) (hm : Mirrored g) (hs : Sound S stateValid g) :
    ∃ g', extendRoadMap S stateValid draws g = (.ok (), g') ∧ Linked g' ∧ Mirrored g' ∧
      Sound S stateValid g' ∧ KeepsStates g g' ∧
      (S.addDuplicates = true →
        g'.map (·.value) = g.map (·.value) ++ (draws.map (·.1)).filter stateValid) := by
  obtain ⟨g', h1, h2, h3⟩ := extend_sound S stateValid draws ht hf g (inv_of_linked hl hm) hs
  exact ⟨g', h1, h2.linked, h2.mir, h3⟩

/-- **C54.** The same for a roadmap built from nothing. -/
theorem C54_build (S : Setup ν W) (stateValid : ν → Bool) (draws : List (ν × Threads))
    (ht : ∀ d ∈ draws, d.2.Ok)
    (hf : ∀ a b, stateValid a = true → stateValid b = true → S.distance a b < Cost.inf) :
    ∃ g', buildRoadMap S stateValid draws = .ok g' ∧ Linked g' ∧ Mirrored g' ∧
      Sound S stateValid g' ∧
      (S.addDuplicates = true → g'.map (·.value) = (draws.map (·.1)).filter stateValid) := by
  have hnil : Inv ([] : Graph ν W) := by
    constructor
    · intro i n h; simp [NodeAt] at h
    · intro i n h; simp [NodeAt] at h
    · intro i j n m h; simp [NodeAt] at h
  obtain ⟨g', h1, h2, h3, _, h4⟩ := extend_sound S stateValid draws ht hf [] hnil
    ⟨by simp, by intro i j n m h; simp at h⟩
  refine ⟨g', by simp only [buildRoadMap, h1], h2.linked, h2.mir, h3, ?_⟩
  simpa using h4

/-- **C55.** On a consistent roadmap, whatever the order in which the nodes are visited, every edge
gets the new weight in both its copies, and nothing else changes. -/
theorem C55_update (valid : ν → ν → Bool) (distance : ν → ν → W) (g : Graph ν W)
    (hl : Linked g) (order : List Nat) (ho : order.Perm (List.range g.length)) :
    ∃ g', updateRoadMapEdges valid distance order g = .ok g' ∧ Reweighted valid distance g g' := by
  obtain ⟨g', h1, h2⟩ := updateRoadMapEdges_ok valid distance g hl order ho
  refine ⟨g', h1, ⟨length_of_map h2, ?_, ?_, ?_⟩⟩
  · intro i n hi
    exact ⟨fullNode (newWeight valid distance g) i n, by rw [h2, hi]; rfl, rfl, rfl, by simp [fullNode], by simp [fullNode]⟩
  · intro i n n' k e m hi hi' he hm
    rw [h2, hi] at hi'
    injection hi' with hi'
    subst hi'
    refine ⟨newWeight valid distance g i e.toIndex, ?_, ?_, ?_⟩
    · simp [fullNode, he, setWeight]
    · intro hv
      simp [newWeight, Int.toNat_natCast, hi, hm.2, updatedWeight, hv]
    · intro hv
      simp [newWeight, Int.toNat_natCast, hi, hm.2, updatedWeight, hv]
  · intro i n n' k e m hi hi' he hm
    rw [h2, hi] at hi'
    injection hi' with hi'
    subst hi'
    refine ⟨newWeight valid distance g e.fromIndex i, ?_, ?_, ?_⟩
    · simp [fullNode, he, setWeight]
    · intro hv
      simp [newWeight, Int.toNat_natCast, hi, hm.2, updatedWeight, hv]
    · intro hv
      simp [newWeight, Int.toNat_natCast, hi, hm.2, updatedWeight, hv]

/-- **C55.** All orders give the same roadmap. -/
theorem C55_order (valid : ν → ν → Bool) (distance : ν → ν → W) (g : Graph ν W)
    (hl : Linked g) (order order' : List Nat) (ho : order.Perm (List.range g.length))
    (ho' : order'.Perm (List.range g.length)) :
    updateRoadMapEdges valid distance order g = updateRoadMapEdges valid distance order' g := by
  obtain ⟨a, a1, a2⟩ := updateRoadMapEdges_ok valid distance g hl order ho
  obtain ⟨b, b1, b2⟩ := updateRoadMapEdges_ok valid distance g hl order' ho'
  rw [a1, b1]
  congr 1
  apply List.ext_getElem?
  intro v
  rw [a2, b2]

omit [Cost W] in
theorem nodeAt_full {g g' : Graph ν W} {wt : Int → Int → W}
    (h : ∀ v : Nat, g'[v]? = (g[v]?).map (fullNode wt v)) {i : Int} {n' : Node ν W}
    (hn : NodeAt g' i n') : ∃ n, NodeAt g i n ∧ n' = fullNode wt i.toNat n := by
  have h2 := hn.2
  rw [h] at h2
  obtain ⟨n, h3, h4⟩ := Option.map_eq_some_iff.1 h2
  exact ⟨n, ⟨hn.1, h3⟩, h4.symm⟩

omit [Cost W] in
theorem nodeAt_full' {g g' : Graph ν W} {wt : Int → Int → W}
    (h : ∀ v : Nat, g'[v]? = (g[v]?).map (fullNode wt v)) {i : Int} {n : Node ν W}
    (hn : NodeAt g i n) : NodeAt g' i (fullNode wt i.toNat n) :=
  ⟨hn.1, by rw [h, hn.2]; rfl⟩

/-- **C55.** The roadmap stays consistent, and if the two copies of every edge agreed, they still do. -/
theorem C55_stays_linked (valid : ν → ν → Bool) (distance : ν → ν → W) (g g' : Graph ν W)
    (hl : Linked g) (order : List Nat) (ho : order.Perm (List.range g.length))
    (h : updateRoadMapEdges valid distance order g = .ok g') :
    Linked g' ∧ (Mirrored g → Mirrored g') := by
  obtain ⟨g'', h1, h2⟩ := updateRoadMapEdges_ok valid distance g hl order ho
  rw [h] at h1
  injection h1 with h1
  subst h1
  constructor
  · intro i n' hn'
    obtain ⟨n, hn, rfl⟩ := nodeAt_full h2 hn'
    obtain ⟨hin, hout⟩ := hl i n hn
    constructor
    · intro e he
      simp only [fullNode, List.mem_map] at he
      obtain ⟨e0, he0, rfl⟩ := he
      obtain ⟨p1, p2, m, hm, e', he', p3⟩ := hin e0 he0
      refine ⟨p1, p2, _, nodeAt_full' h2 hm, ?_⟩
      exact ⟨_, List.mem_map.2 ⟨e', he', rfl⟩, p3⟩
    · intro e he
      simp only [fullNode, List.mem_map] at he
      obtain ⟨e0, he0, rfl⟩ := he
      obtain ⟨p1, p2, m, hm, e', he', p3⟩ := hout e0 he0
      refine ⟨p1, p2, _, nodeAt_full' h2 hm, ?_⟩
      exact ⟨_, List.mem_map.2 ⟨e', he', rfl⟩, p3⟩
  · intro hm i j n' m' hn' hm'
    obtain ⟨n, hn, rfl⟩ := nodeAt_full h2 hn'
    obtain ⟨m, hm1, rfl⟩ := nodeAt_full h2 hm'
    have hmir := hm i j n m hn hm1
    have hi : (i.toNat : Int) = i := Int.toNat_of_nonneg hn.1
    have hj : (j.toNat : Int) = j := Int.toNat_of_nonneg hm1.1
    simp only [fullNode, hi, hj, List.filter_map]
    have c1 : ((fun e : Edge W => decide (e.toIndex = j)) ∘
        fun e => setWeight (newWeight valid distance g i e.toIndex) e) =
        fun e => decide (e.toIndex = j) := rfl
    have c2 : ((fun e : Edge W => decide (e.fromIndex = i)) ∘
        fun e => setWeight (newWeight valid distance g e.fromIndex j) e) =
        fun e => decide (e.fromIndex = i) := rfl
    rw [c1, c2, hmir]
    apply List.map_congr_left
    intro e he
    obtain ⟨he1, he2⟩ := List.mem_filter.1 he
    have he2 : e.fromIndex = i := by simpa using he2
    rw [(linked_ins hl j m hm1 e he1).1, he2]

/-- **C55.** A roadmap that is not consistent is refused. -/
theorem C55_refuses (valid : ν → ν → Bool) (distance : ν → ν → W) (g : Graph ν W)
    (hl : ¬ Linked g) (order : List Nat) :
    updateRoadMapEdges valid distance order g = .throws .invalidArgument := by
  obtain ⟨b, hb, hi⟩ := checkGraphLinkage_spec g
  have : b = false := by
    cases b with
    | false => rfl
    | true => exact absurd (hi.1 rfl) hl
  subst this
  simp [updateRoadMapEdges, hb]

/-! ## Cases that meet the hypotheses -/

/-- Points on a line; edges may not be longer than 5. -/
def exSetup (symmetric addDuplicates : Bool) : Setup Nat Dist where
  distance a b := .fin ((a - b) + (b - a))
  edgeValid a b := decide ((a - b) + (b - a) ≤ 5)
  K := 2
  symmetric := symmetric
  addDuplicates := addDuplicates

/-- Serial queries. -/
def serial : Threads := fun _ => none

example : serial.Ok := by intro n s h; cases h

/-- Five draws, of which one is refused and one is a duplicate. -/
def exDraws : List (Nat × Threads) := [(3, serial), (99, serial), (7, serial), (3, serial), (13, serial)]

/-- The roadmap built from them. -/
def exRoadmap : Graph Nat Dist :=
  match buildRoadMap (exSetup true false) (· < 50) exDraws with
  | .ok g => g
  | _ => []

example : exRoadmap.map (·.value) = [3, 7, 13] := by decide +kernel
example : exRoadmap.map (fun n => n.outEdges.map (fun e => (e.toIndex, e.weight))) =
    [[(1, .fin 4)], [(0, .fin 4)], []] := by decide +kernel

example : ∀ a b, (exSetup true false).distance a b < Cost.inf := fun _ _ => rfl

/-- Adding 9 joins it to 7 and 13. -/
example : (addNodeToRoadmap (exSetup true false) serial .newStateToRoadmap 9 exRoadmap).1 = .ok 3 ∧
    ((addNodeToRoadmap (exSetup true false) serial .newStateToRoadmap 9 exRoadmap).2[3]?).map
      (fun n => n.outEdges.map (fun e => (e.toIndex, e.weight))) =
        some [(2, .fin 4), (1, .fin 2)] := by decide +kernel

/-- **C54.** The failed assertion, on a roadmap built by the planner itself. -/
theorem C54_asymmetric_start_aborts :
    (addNodeToRoadmap (exSetup false false) serial .newStateToRoadmap 9 exRoadmap).1 = .abort := by
  decide +kernel

/-- **C54.** Infinite distances: the query for the neighbours returns an index that is no node, the
call throws, and the new node stays in the roadmap without any edge. -/
theorem C54_infinite_distance :
    ∃ (S : Setup Nat Dist) (g : Graph Nat Dist), Linked g ∧
      addNodeToRoadmap S serial .roadmapToNewState 9 g =
        (.throws .outOfRange, g ++ [⟨9, .inf, [], []⟩]) := by
  refine ⟨⟨fun a b => if a = b then .fin 0 else .inf, fun _ _ => true, 1, true, false⟩,
    history .inf [.addNode 1, .addNode 2], (inv_history _ _).linked, by decide +kernel⟩

/-- Reweighting: the edge between 3 and 7 is no longer valid. -/
example : (match updateRoadMapEdges (fun a b => decide (a + b ≠ 10)) (fun a b => Dist.fin (a + b)) [2, 0, 1]
    exRoadmap with
    | .ok g => g.map (fun n => (n.inEdges.map (·.weight), n.outEdges.map (·.weight)))
    | _ => []) = [([.inf], [.inf]), ([.inf], [.inf]), ([], [])] := by decide +kernel
example : (match updateRoadMapEdges (fun a b => decide (a < b)) (fun a b => Dist.fin (a + b)) [2, 0, 1]
    exRoadmap with
    | .ok g => g.map (fun n => (n.inEdges.map (·.weight), n.outEdges.map (·.weight)))
    | _ => []) = [([.inf], [.fin 10]), ([.fin 10], [.inf]), ([], [])] := by decide +kernel

end Verif.Prm
