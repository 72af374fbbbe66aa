import Verif.Spec.Prm
import Verif.Lemmas.Graph
import Verif.Props.Knn

/-!
# Lemmas on the roadmap planner
-/
namespace Verif.Prm
open Verif Verif.Graph Verif.Knn

variable {ν W : Type} [Cost W]

/-- The entries for which edges are added. -/
def accepted : List ((Int × W) × Option (W × W)) → List (Int × W × W)
  | [] => []
  | (x, some (a, b)) :: rest => if 0 ≤ a ∧ 0 ≤ b then (x.1, a, b) :: accepted rest else accepted rest
  | (_, none) :: rest => accepted rest

/-- A node after edges to the new node `N` were added. -/
def withNeighbors (N : Int) (es : List (Int × W × W)) (v : Nat) (n : Node ν W) : Node ν W :=
  if (v : Int) = N then
    { n with
      inEdges := n.inEdges ++ es.map (fun e => Edge.make e.1 N e.2.1)
      outEdges := n.outEdges ++ es.map (fun e => Edge.make N e.1 e.2.2) }
  else
    { n with
      inEdges := n.inEdges ++ (es.filter (fun e => decide (e.1 = (v : Int)))).map
        (fun e => Edge.make N (v : Int) e.2.2)
      outEdges := n.outEdges ++ (es.filter (fun e => decide (e.1 = (v : Int)))).map
        (fun e => Edge.make (v : Int) N e.2.1) }

omit [Cost W] in
theorem withNeighbors_nil (N : Int) (v : Nat) (n : Node ν W) : withNeighbors N [] v n = n := by
  unfold withNeighbors; split <;> simp

omit [Cost W] in
theorem withNeighbors_cons (N : Int) (x : Int) (a b : W) (es : List (Int × W × W)) (v : Nat)
    (n : Node ν W) (hx : x ≠ N) :
    withNeighbors N ((x, a, b) :: es) v n =
      withNeighbors N es v (withEdge N x b v (withEdge x N a v n)) := by
  unfold withNeighbors withEdge
  by_cases hv : (v : Int) = N
  · have h2 : (v : Int) ≠ x := by omega
    simp only [if_pos hv, if_neg h2]
    simp
  · by_cases h2 : (v : Int) = x
    · simp only [if_neg hv, if_pos h2]
      simp [h2]
    · have h3 : ¬ x = (v : Int) := fun h => h2 h.symm
      simp only [if_neg hv, if_neg h2]
      simp [h3]

omit [Cost W] in
theorem length_of_map {g g' : Graph ν W} {f : Nat → Node ν W → Node ν W}
    (h : ∀ v : Nat, g'[v]? = (g[v]?).map (f v)) : g'.length = g.length := by
  have hnone : ∀ v : Nat, g'[v]? = none ↔ g[v]? = none := by
    intro v; rw [h v]; exact Option.map_eq_none_iff
  have a := (hnone g.length).2 (List.getElem?_eq_none (Nat.le_refl _))
  have b := (hnone g'.length).1 (List.getElem?_eq_none (Nat.le_refl _))
  rw [List.getElem?_eq_none_iff] at a b
  omega

theorem addNeighborEdges_ok (N : Int) (L : List ((Int × W) × Option (W × W))) (h : Graph ν W)
    (hN : 0 ≤ N ∧ N < (h.length : Int)) (hL : ∀ x ∈ L, 0 ≤ x.1.1 ∧ x.1.1 < N) :
    ∃ h', addNeighborEdges N L h = (.ok (), h') ∧
      ∀ v : Nat, h'[v]? = (h[v]?).map (withNeighbors N (accepted L) v) := by
  induction L generalizing h with
  | nil =>
    refine ⟨h, rfl, ?_⟩
    intro v
    cases h[v]? <;> simp [accepted, withNeighbors_nil]
  | cons x rest ih =>
    have hr : ∀ x ∈ rest, 0 ≤ x.1.1 ∧ x.1.1 < N := fun y hy => hL y (List.mem_cons_of_mem _ hy)
    obtain ⟨x, d⟩ := x
    have hx := hL _ (List.mem_cons_self ..)
    simp only at hx
    match d with
    | none =>
      simpa only [addNeighborEdges, accepted] using ih h hN hr
    | some (a, b) =>
      by_cases hab : 0 ≤ a ∧ 0 ≤ b
      · obtain ⟨k1, h1, e1, g1, _⟩ := addEdge_ok (g := h) (f := x.1) (t := N) (w := a) (by omega) hN
          (by omega)
        have l1 := length_of_map g1
        obtain ⟨k2, h2, e2, g2, _⟩ := addEdge_ok (g := h1) (f := N) (t := x.1) (w := b) (by omega)
          (by omega) (by omega)
        have l2 := length_of_map g2
        obtain ⟨h', e3, g3⟩ := ih h2 (by omega) hr
        refine ⟨h', ?_, ?_⟩
        · simp only [addNeighborEdges, if_pos hab, M.bind_apply, e1, e2, e3]
        · intro v
          rw [g3, g2, g1]
          simp only [accepted, if_pos hab]
          cases h[v]? with
          | none => rfl
          | some n => simp only [Option.map_some, withNeighbors_cons N x.1 a b _ v n (by omega)]
      · obtain ⟨h', e3, g3⟩ := ih h hN hr
        refine ⟨h', ?_, ?_⟩
        · simp only [addNeighborEdges, if_neg hab, e3]
        · simpa only [accepted, if_neg hab] using g3

/-- Whatever happens, the graph stays consistent. -/
theorem addNeighborEdges_inv (N : Int) (L : List ((Int × W) × Option (W × W))) (h : Graph ν W)
    (hi : Inv h) : Inv (addNeighborEdges N L h).2 := by
  induction L generalizing h with
  | nil => exact hi
  | cons x rest ih =>
    obtain ⟨x, d⟩ := x
    match d with
    | none => simpa only [addNeighborEdges] using ih h hi
    | some (a, b) =>
      by_cases hab : 0 ≤ a ∧ 0 ≤ b
      · simp only [addNeighborEdges, if_pos hab, M.bind_apply]
        have i1 := hi.run (inf := Cost.inf) (.addEdge x.1 N a)
        have i2 := i1.run (inf := Cost.inf) (.addEdge N x.1 b)
        simp only [Edit.run] at i1 i2
        generalize hp : addEdgeBetweenNodes x.1 N a h = p at i1 i2
        obtain ⟨o1, s1⟩ := p
        cases o1 with
        | ok k =>
          simp only at i1 i2 ⊢
          generalize hq : addEdgeBetweenNodes N x.1 b s1 = q at i2
          obtain ⟨o2, s2⟩ := q
          cases o2 with
          | ok k => exact ih s2 i2
          | throws e => exact i2
          | abort => exact i2
          | ub => exact i2
        | throws e => exact i1
        | abort => exact i1
        | ub => exact i1
      · simpa only [addNeighborEdges, if_neg hab] using ih h hi

theorem insertNode_inv (S : Setup ν W) (dir : Direction) (state : ν) (R : List (Int × W))
    (g : Graph ν W) (hi : Inv g) : Inv (insertNode S dir state R g).2 := by
  unfold insertNode
  simp only [addNode, addNodeObject, M.bind_apply, M.modify_apply, M.get_apply, M.pure_apply,
    M.lift_apply]
  have i1 := hi.bare state (Cost.inf : W)
  cases allNeighborDistances S dir state (g ++ [⟨state, Cost.inf, [], []⟩]) R with
  | ok ds =>
    simp only
    have := addNeighborEdges_inv (((g ++ [(⟨state, Cost.inf, [], []⟩ : Node ν W)]).length : Int) - 1)
      (R.zip ds) _ i1
    generalize addNeighborEdges (((g ++ [(⟨state, Cost.inf, [], []⟩ : Node ν W)]).length : Int) - 1)
      (R.zip ds) (g ++ [⟨state, Cost.inf, [], []⟩]) = p at this
    obtain ⟨o, s⟩ := p
    cases o <;> exact this
  | throws e => exact i1
  | abort => exact i1
  | ub => exact i1

theorem addNodeToRoadmap_inv (S : Setup ν W) (sch : Threads) (dir : Direction)
    (state : ν) (g : Graph ν W) (hi : Inv g) : Inv (addNodeToRoadmap S sch dir state g).2 := by
  unfold addNodeToRoadmap
  simp only [M.bind_apply, M.get_apply, M.lift_apply]
  cases nearestNeighbors S sch dir g state with
  | ok R =>
    simp only
    cases duplicateOf S R with
    | some i => exact hi
    | none => exact insertNode_inv S dir state R g hi
  | throws e => exact hi
  | abort => exact hi
  | ub => exact hi

omit [Cost W] in
theorem graphDistance_eq (S : Setup ν W) (dir : Direction) :
    graphDistance S dir = fun n q => queryDistance S dir q n.value := by
  funext n q
  cases dir <;> simp [graphDistance, queryDistance]

theorem nearestNeighbors_spec (S : Setup ν W) (sch : Threads) (dir : Direction)
    (g : Graph ν W) (state : ν) (hs : sch.Ok)
    (hf : ∀ n ∈ g, queryDistance S dir state n.value < Cost.inf) :
    ∃ R, nearestNeighbors S sch dir g state = .ok R ∧ Neighbors S dir g state R := by
  unfold nearestNeighbors Neighbors
  rw [graphDistance_eq]
  cases h : sch g.length with
  | none => exact C26_serial g state _ S.K hf
  | some s => exact C27_parallel s g state _ S.K (hs _ s h) hf

theorem findDuplicate_spec (R : List (Int × W)) :
    (findDuplicate R = none ∧ ∀ e ∈ R, e.2 ≠ 0) ∨
    (∃ e ∈ R, e.2 = 0 ∧ findDuplicate R = some e.1) := by
  induction R with
  | nil => left; simp [findDuplicate]
  | cons x xs ih =>
    by_cases hx : x.2 = 0
    · right; exact ⟨x, List.mem_cons_self .., hx, by simp [findDuplicate, hx]⟩
    · rcases ih with ⟨h1, h2⟩ | ⟨e, h1, h2, h3⟩
      · left
        refine ⟨by simp [findDuplicate, hx, h1], ?_⟩
        intro e he
        rcases List.mem_cons.1 he with rfl | he
        · exact hx
        · exact h2 e he
      · right; exact ⟨e, List.mem_cons_of_mem _ h1, h2, by simp [findDuplicate, hx, h3]⟩

omit [Cost W] in
theorem getNode_append {g : Graph ν W} {b : Node ν W} {i : Int} {n : Node ν W} (h : NodeAt g i n) :
    getNode (g ++ [b]) i = .ok n := by
  have hr := h.range
  unfold getNode
  rw [nodePos_ok (by simp only [List.length_append, List.length_cons, List.length_nil]; omega)]
  simp only [Out.bind_ok]
  rw [List.getElem?_append_left (by omega), h.2]

/-- What the loop over the neighbours computes, when it does not hit the assertion. -/
theorem allNeighborDistances_ok (S : Setup ν W) (dir : Direction) (state : ν) (g : Graph ν W)
    (b : Node ν W) (hd : S.symmetric = true ∨ dir = .roadmapToNewState) (R : List (Int × W))
    (hR : ∀ e ∈ R, ∃ n, NodeAt g e.1 n ∧ e.2 = queryDistance S dir state n.value) :
    ∃ ds, allNeighborDistances S dir state (g ++ [b]) R = .ok ds ∧
      ((accepted (R.zip ds)).map (·.1)).Sublist (R.map (·.1)) ∧
      ∀ j a c, (j, a, c) ∈ accepted (R.zip ds) ↔
        j ∈ R.map (·.1) ∧ ∃ n, NodeAt g j n ∧ Joined S dir state n.value a c := by
  induction R with
  | nil => exact ⟨[], rfl, by simp [accepted], by simp [accepted]⟩
  | cons x xs ih =>
    obtain ⟨ds, h1, h2, h3⟩ := ih (fun e he => hR e (List.mem_cons_of_mem _ he))
    obtain ⟨n, hn, hx⟩ := hR x (List.mem_cons_self ..)
    have key : ∃ d, neighborDistances S dir state (g ++ [b]) x = .ok d ∧
        ∀ a c, d = some (a, c) ∧ 0 ≤ a ∧ 0 ≤ c ↔ Joined S dir state n.value a c := by
      unfold neighborDistances
      rw [getNode_append hn]
      simp only [Out.bind_ok]
      by_cases hv : S.edgeValid n.value state = true
      · by_cases hs : S.symmetric = true
        · simp only [if_pos hv, if_pos hs]
          refine ⟨_, rfl, ?_⟩
          intro a c
          simp only [Joined, hv, hs, hx, Option.some.injEq, Prod.mk.injEq]
          constructor
          · rintro ⟨⟨rfl, rfl⟩, h4, h5⟩
            exact ⟨trivial, h4, h5, fun _ => ⟨rfl, rfl⟩, fun h => by cases h⟩
          · rintro ⟨_, h4, h5, h6, _⟩
            obtain ⟨h6, h7⟩ := h6 trivial
            exact ⟨⟨h6.symm, by rw [h7, h6]⟩, h4, h5⟩
        · have hs' : S.symmetric = false := by simpa using hs
          have hdir := hd.resolve_left hs
          simp only [if_pos hv, if_neg hs, if_pos hdir]
          refine ⟨_, rfl, ?_⟩
          intro a c
          have hq : queryDistance S dir state n.value = S.distance n.value state := by
            simp [queryDistance, hdir]
          simp only [Joined, hv, hs', hx, hq, Option.some.injEq, Prod.mk.injEq]
          constructor
          · rintro ⟨⟨rfl, rfl⟩, h4, h5⟩
            exact ⟨trivial, h4, h5, (fun h => by cases h), fun _ => ⟨rfl, rfl⟩⟩
          · rintro ⟨_, h4, h5, _, h6⟩
            obtain ⟨h6, h7⟩ := h6 trivial
            exact ⟨⟨h6.symm, h7.symm⟩, h4, h5⟩
      · simp only [if_neg hv]
        refine ⟨_, rfl, ?_⟩
        intro a c
        simp [Joined, hv]
    obtain ⟨d, hd1, hd2⟩ := key
    refine ⟨d :: ds, by simp only [allNeighborDistances, hd1, h1, Out.bind_ok], ?_⟩
    have hmem : ∀ j a c, (j ∈ (x :: xs).map (·.1) ∧ ∃ n, NodeAt g j n ∧ Joined S dir state n.value a c) ↔
        (j = x.1 ∧ Joined S dir state n.value a c) ∨
        (j ∈ xs.map (·.1) ∧ ∃ n, NodeAt g j n ∧ Joined S dir state n.value a c) := by
      intro j a c
      simp only [List.map_cons, List.mem_cons]
      constructor
      · rintro ⟨rfl | h, m, hm, hj⟩
        · left; rw [hn.unique hm]; exact ⟨rfl, hj⟩
        · right; exact ⟨h, m, hm, hj⟩
      · rintro (⟨rfl, hj⟩ | ⟨h, hj⟩)
        · exact ⟨Or.inl rfl, n, hn, hj⟩
        · exact ⟨Or.inr h, hj⟩
    match d, hd2 with
    | none, hd2 =>
      simp only [List.zip_cons_cons, accepted]
      refine ⟨h2.trans (by simp), ?_⟩
      intro j a c
      rw [hmem, h3]
      constructor
      · exact Or.inr
      · rintro (⟨_, hj⟩ | h)
        · have := (hd2 a c).2 hj; simp at this
        · exact h
    | some (a0, c0), hd2 =>
      by_cases hab : 0 ≤ a0 ∧ 0 ≤ c0
      · simp only [List.zip_cons_cons, accepted, if_pos hab]
        refine ⟨by simpa using h2, ?_⟩
        intro j a c
        rw [hmem, List.mem_cons, h3]
        have : ((j, a, c) = (x.1, a0, c0)) ↔ (j = x.1 ∧ Joined S dir state n.value a c) := by
          rw [← hd2]
          constructor
          · intro h; cases h; exact ⟨rfl, rfl, hab⟩
          · rintro ⟨rfl, h, _⟩; cases h; rfl
        rw [this]
      · simp only [List.zip_cons_cons, accepted, if_neg hab]
        refine ⟨h2.trans (by simp), ?_⟩
        intro j a c
        rw [hmem, h3]
        constructor
        · exact Or.inr
        · rintro (⟨_, hj⟩ | h)
          · obtain ⟨h4, h5, h6⟩ := (hd2 a c).2 hj
            cases h4
            exact absurd ⟨h5, h6⟩ hab
          · exact h

theorem neighbors_nodes {S : Setup ν W} {dir : Direction} {g : Graph ν W} {state : ν}
    {R : List (Int × W)} (h : Neighbors S dir g state R) :
    ∀ e ∈ R, ∃ n, NodeAt g e.1 n ∧ e.2 = queryDistance S dir state n.value := by
  intro e he
  obtain ⟨i, n, h1, h2, h3⟩ := h.distances e he
  exact ⟨n, by rw [h2]; exact (nodeAt_nat g i n).2 h1, h3⟩

theorem insertNode_ok (S : Setup ν W) (dir : Direction) (state : ν) (R : List (Int × W))
    (g : Graph ν W) (hd : S.symmetric = true ∨ dir = .roadmapToNewState)
    (hR : Neighbors S dir g state R) :
    ∃ es g', insertNode S dir state R g = (.ok (g.length : Int), g') ∧ Inserted state es g g' ∧
      JoinedNeighbors S dir g state R es := by
  obtain ⟨ds, h1, h2, h3⟩ := allNeighborDistances_ok S dir state g ⟨state, Cost.inf, [], []⟩ hd R
    (neighbors_nodes hR)
  have hlen : (((g ++ [(⟨state, Cost.inf, [], []⟩ : Node ν W)]).length : Int) - 1) = (g.length : Int) := by
    simp
  obtain ⟨g', h4, h5⟩ := addNeighborEdges_ok (g.length : Int) (R.zip ds)
    (g ++ [⟨state, Cost.inf, [], []⟩]) (by simp; omega) (by
      intro x hx
      have hx1 : x.1 ∈ R := (List.of_mem_zip hx).1
      obtain ⟨n, hn, _⟩ := neighbors_nodes hR x.1 hx1
      exact hn.range)
  refine ⟨accepted (R.zip ds), g', ?_, ?_, h2.nodup hR.distinct, h3⟩
  · unfold insertNode
    simp only [addNode, addNodeObject, M.bind_apply, M.modify_apply, M.get_apply, M.pure_apply,
      M.lift_apply, hlen, h1, h4]
  · constructor
    · rw [length_of_map h5]; simp
    · rw [h5, List.getElem?_append_right (Nat.le_refl _)]
      simp [withNeighbors]
    · intro j n hj
      have hlt := (List.getElem?_eq_some_iff.1 hj).1
      rw [h5, List.getElem?_append_left hlt, hj]
      have : ¬ ((j : Int) = (g.length : Int)) := by omega
      simp only [Option.map_some, withNeighbors, if_neg this]

/-! ## UpdateRoadMapEdges -/

/-- The weight the edge from node `i` to node `j` gets. -/
def newWeight (valid : ν → ν → Bool) (distance : ν → ν → W) (g : Graph ν W) (i j : Int) : W :=
  match g[i.toNat]?, g[j.toNat]? with
  | some n, some m => updatedWeight valid distance n.value m.value
  | _, _ => Cost.inf

/-- Node `v` when the out edges marked by `o` and the in edges marked by `d` have new weights. -/
def partNode (wt : Int → Int → W) (o d : Nat → Nat → Bool) (v : Nat) (n : Node ν W) : Node ν W :=
  { n with
    outEdges := n.outEdges.mapIdx (fun k e => if o v k then setWeight (wt v e.toIndex) e else e)
    inEdges := n.inEdges.map
      (fun e => if d e.fromIndex.toNat v then setWeight (wt e.fromIndex v) e else e) }

omit [Cost W] in
theorem linked_ins {g : Graph ν W} (hl : Linked g) : ∀ i n, NodeAt g i n → ∀ e ∈ n.inEdges,
    e.toIndex = i ∧ e.fromIndex ≠ i ∧ 0 ≤ e.fromIndex ∧ e.fromIndex < (g.length : Int) := by
  intro i n hn e he
  obtain ⟨h1, h2, m, hm, _⟩ := (hl i n hn).1 e he
  exact ⟨h1, h2, hm.range⟩

omit [Cost W] in
theorem linked_outs {g : Graph ν W} (hl : Linked g) : ∀ i n, NodeAt g i n → ∀ e ∈ n.outEdges,
    e.fromIndex = i ∧ e.toIndex ≠ i ∧ 0 ≤ e.toIndex ∧ e.toIndex < (g.length : Int) := by
  intro i n hn e he
  obtain ⟨h1, h2, m, hm, _⟩ := (hl i n hn).2 e he
  exact ⟨h1, h2, hm.range⟩

theorem updateOutEdges_ok (valid : ν → ν → Bool) (distance : ν → ν → W) (g : Graph ν W) (hg : Linked g)
    (cur : Nat) (n : Node ν W) (hn : g[cur]? = some n) (count k : Nat)
    (hk : k + count = n.outEdges.length) (h : Graph ν W) (o d : Nat → Nat → Bool)
    (hh : ∀ v : Nat, h[v]? = (g[v]?).map (partNode (newWeight valid distance g) o d v)) :
    ∃ h' o' d', updateOutEdges valid distance cur count k h = .ok h' ∧
      (∀ v : Nat, h'[v]? = (g[v]?).map (partNode (newWeight valid distance g) o' d' v)) ∧
      (∀ v j, o v j = true → o' v j = true) ∧ (∀ v j, d v j = true → d' v j = true) ∧
      (∀ j, k ≤ j → j < n.outEdges.length → o' cur j = true) ∧
      (∀ j e, k ≤ j → n.outEdges[j]? = some e → d' cur e.toIndex.toNat = true) := by
  induction count generalizing k h o d with
  | zero =>
    refine ⟨h, o, d, rfl, hh, fun _ _ h => h, fun _ _ h => h, fun j h1 h2 => by omega, ?_⟩
    intro j e h1 h2
    have := (List.getElem?_eq_some_iff.1 h2).1
    omega
  | succ count ih =>
    have hkl : k < n.outEdges.length := by omega
    obtain ⟨e, he⟩ : ∃ e, n.outEdges[k]? = some e := ⟨_, List.getElem?_eq_getElem hkl⟩
    have hlen := length_of_map hh
    have hcl : cur < g.length := (List.getElem?_eq_some_iff.1 hn).1
    have hcur : getNode h (cur : Int) =
        .ok (partNode (newWeight valid distance g) o d cur n) := by
      unfold getNode
      rw [nodePos_ok (by omega)]
      simp only [Out.bind_ok, Int.toNat_natCast, hh, hn, Option.map_some]
    obtain ⟨hfrom, hne, hto⟩ := linked_outs hg cur n ((nodeAt_nat g cur n).2 hn) e (List.mem_of_getElem? he)
    obtain ⟨m, hm⟩ := nodeAt_of_range hto.1 hto.2
    have hoth : getNode h e.toIndex =
        .ok (partNode (newWeight valid distance g) o d e.toIndex.toNat m) := by
      unfold getNode
      rw [nodePos_ok (by omega)]
      simp only [Out.bind_ok, hh, hm.2, Option.map_some]
    have hw : updatedWeight valid distance n.value m.value =
        newWeight valid distance g cur e.toIndex := by
      simp only [newWeight, Int.toNat_natCast, hn, hm.2]
    have hek : ∃ e', (partNode (newWeight valid distance g) o d cur n).outEdges[k]? = some e' ∧
        e'.toIndex = e.toIndex := by
      simp only [partNode, List.getElem?_mapIdx, he, Option.map_some]
      refine ⟨_, rfl, ?_⟩
      split <;> rfl
    obtain ⟨e', he', het⟩ := hek
    simp only [updateOutEdges, hcur, Out.bind_ok, he', het, hoth]
    have hval : (partNode (newWeight valid distance g) o d cur n).value = n.value := rfl
    have hval' : (partNode (newWeight valid distance g) o d e.toIndex.toNat m).value = m.value := rfl
    rw [hval, hval', hw]
    generalize hW : newWeight valid distance g cur e.toIndex = w
    obtain ⟨h', o', d', r1, r2, r3, r4, r5, r6⟩ := ih (k + 1) (by omega)
      ((h.modify cur (fun n => ⟨n.value, n.distance, n.inEdges, n.outEdges.modify k (setWeight w)⟩)).modify
        e.toIndex.toNat (fun n => ⟨n.value, n.distance, setInWeights cur w n.inEdges, n.outEdges⟩))
      (fun v j => o v j || (decide (v = cur) && decide (j = k)))
      (fun f v => d f v || (decide (f = cur) && decide (v = e.toIndex.toNat))) (by
        intro v
        rw [List.getElem?_modify, List.getElem?_modify, hh]
        cases hv : g[v]? with
        | none => simp
        | some x =>
          simp only [Option.map_some]
          simp only [partNode]
          rw [← hW]
          have A : (if cur = v then (x.outEdges.mapIdx (fun k e => if o v k then
                setWeight (newWeight valid distance g v e.toIndex) e else e)).modify k
                (setWeight (newWeight valid distance g cur e.toIndex))
              else x.outEdges.mapIdx (fun k e => if o v k then
                setWeight (newWeight valid distance g v e.toIndex) e else e)) =
              x.outEdges.mapIdx (fun j e => if (o v j || (decide (v = cur) && decide (j = k))) then
                setWeight (newWeight valid distance g v e.toIndex) e else e) := by
            split
            · rename_i hcv
              subst hcv
              rw [hn] at hv
              injection hv with hv
              subst hv
              apply List.ext_getElem?
              intro j
              rw [List.getElem?_modify, List.getElem?_mapIdx, List.getElem?_mapIdx]
              by_cases hkj : k = j
              · subst hkj
                simp only [he, Option.map_some, if_true, decide_true, Bool.and_true, Bool.or_true]
                split <;> rfl
              · have : ¬ j = k := fun h => hkj h.symm
                simp [hkj, this]
            · rename_i hcv
              have : ¬ v = cur := fun h => hcv h.symm
              simp [this]
          have B : (if e.toIndex.toNat = v then setInWeights cur
                (newWeight valid distance g cur e.toIndex) (x.inEdges.map
                  (fun e => if d e.fromIndex.toNat v then
                    setWeight (newWeight valid distance g e.fromIndex v) e else e))
              else x.inEdges.map (fun e => if d e.fromIndex.toNat v then
                    setWeight (newWeight valid distance g e.fromIndex v) e else e)) =
              x.inEdges.map (fun y => if (d y.fromIndex.toNat v || (decide (y.fromIndex.toNat = cur) &&
                decide (v = e.toIndex.toNat))) then
                  setWeight (newWeight valid distance g y.fromIndex v) y else y) := by
            split
            · rename_i hcv
              unfold setInWeights
              rw [List.map_map]
              apply List.map_congr_left
              intro y hy
              have hyf := (linked_ins hg v x ((nodeAt_nat g v x).2 hv) y hy).2.2
              have hev : e.toIndex = (v : Int) := by omega
              have hfe : ∀ c : Bool, (if c = true then
                  setWeight (newWeight valid distance g y.fromIndex v) y else y).fromIndex =
                  y.fromIndex := by intro c; split <;> rfl
              simp only [Function.comp_apply, hfe]
              by_cases hyc : y.fromIndex = (cur : Int)
              · have : y.fromIndex.toNat = cur := by omega
                simp only [hyc, if_true, Int.toNat_natCast, decide_true, Bool.and_self,
                  Bool.or_true, hev]
                split <;> rfl
              · have : ¬ y.fromIndex.toNat = cur := by omega
                simp [hyc, this]
            · rename_i hcv
              have : ¬ v = e.toIndex.toNat := fun h => hcv h.symm
              simp [this]
          split <;> split <;> simp_all)
    refine ⟨h', o', d', r1, r2, ?_, ?_, ?_, ?_⟩
    · intro v j hv; exact r3 v j (by simp [hv])
    · intro v j hv; exact r4 v j (by simp [hv])
    · intro j h1 h2
      by_cases hj : j = k
      · exact r3 cur j (by simp [hj])
      · exact r5 j (by omega) h2
    · intro j e2 h1 h2
      by_cases hj : j = k
      · subst hj
        rw [he] at h2
        injection h2 with h2
        subst h2
        exact r4 cur _ (by simp)
      · exact r6 j e2 (by omega) h2

theorem updateNodes_ok (valid : ν → ν → Bool) (distance : ν → ν → W) (g : Graph ν W) (hg : Linked g)
    (order : List Nat) (ho : ∀ i ∈ order, i < g.length) (h : Graph ν W) (o d : Nat → Nat → Bool)
    (hh : ∀ v : Nat, h[v]? = (g[v]?).map (partNode (newWeight valid distance g) o d v)) :
    ∃ h' o' d', updateNodes valid distance order h = .ok h' ∧
      (∀ v : Nat, h'[v]? = (g[v]?).map (partNode (newWeight valid distance g) o' d' v)) ∧
      (∀ v j, o v j = true → o' v j = true) ∧ (∀ v j, d v j = true → d' v j = true) ∧
      (∀ i ∈ order, ∀ n, g[i]? = some n →
        (∀ j, j < n.outEdges.length → o' i j = true) ∧
        ∀ e ∈ n.outEdges, d' i e.toIndex.toNat = true) := by
  induction order generalizing h o d with
  | nil => exact ⟨h, o, d, rfl, hh, fun _ _ h => h, fun _ _ h => h, by simp⟩
  | cons i is ih =>
    have hi := ho i (List.mem_cons_self ..)
    have hn : g[i]? = some g[i] := List.getElem?_eq_getElem hi
    have hlen := length_of_map hh
    have hcur : getNode h (i : Int) = .ok (partNode (newWeight valid distance g) o d i g[i]) := by
      unfold getNode
      rw [nodePos_ok (by omega)]
      simp only [Out.bind_ok, Int.toNat_natCast, hh, hn, Option.map_some]
    have hl : (partNode (newWeight valid distance g) o d i g[i]).outEdges.length =
        g[i].outEdges.length := by simp [partNode]
    obtain ⟨h1, o1, d1, a1, a2, a3, a4, a5, a6⟩ := updateOutEdges_ok valid distance g hg i g[i] hn
      g[i].outEdges.length 0 (by omega) h o d hh
    obtain ⟨h2, o2, d2, b1, b2, b3, b4, b5⟩ := ih (fun j hj => ho j (List.mem_cons_of_mem _ hj)) h1
      o1 d1 a2
    refine ⟨h2, o2, d2, by simp only [updateNodes, hcur, Out.bind_ok, hl, a1, b1], b2,
      fun v j hv => b3 v j (a3 v j hv), fun v j hv => b4 v j (a4 v j hv), ?_⟩
    intro j hj n hjn
    rcases List.mem_cons.1 hj with rfl | hj
    · rw [hn] at hjn
      injection hjn with hjn
      subst hjn
      refine ⟨fun k hk => b3 _ _ (a5 k (by omega) hk), ?_⟩
      intro e he
      obtain ⟨k, hk⟩ := List.getElem?_of_mem he
      exact b4 _ _ (a6 k e (by omega) hk)
    · exact b5 j hj n hjn

omit [Cost W] in
/-- A consistent graph whose two copies agree satisfies the invariant. -/
theorem inv_of_linked {g : Graph ν W} (hl : Linked g) (hm : Mirrored g) : Inv g :=
  ⟨linked_ins hl, linked_outs hl, hm⟩

/-- A node when all its edges have new weights. -/
def fullNode (wt : Int → Int → W) (v : Nat) (n : Node ν W) : Node ν W :=
  { n with
    outEdges := n.outEdges.map (fun e => setWeight (wt v e.toIndex) e)
    inEdges := n.inEdges.map (fun e => setWeight (wt e.fromIndex v) e) }

theorem updateRoadMapEdges_ok (valid : ν → ν → Bool) (distance : ν → ν → W) (g : Graph ν W)
    (hg : Linked g) (order : List Nat) (ho : order.Perm (List.range g.length)) :
    ∃ h', updateRoadMapEdges valid distance order g = .ok h' ∧
      (∀ v : Nat, h'[v]? = (g[v]?).map (fullNode (newWeight valid distance g) v)) := by
  have hc : checkGraphLinkage g = .ok true := by
    obtain ⟨b, hb, hi⟩ := checkGraphLinkage_spec g
    rw [hb, hi.2 hg]
  obtain ⟨h', o, d, h1, h2, _, _, h3⟩ := updateNodes_ok valid distance g hg order
    (fun i hi => List.mem_range.1 (ho.mem_iff.1 hi)) g (fun _ _ => false) (fun _ _ => false) (by
      intro v
      cases g[v]? with
      | none => rfl
      | some n =>
        have : List.mapIdx (fun _ (e : Edge W) => e) n.outEdges = n.outEdges := by
          apply List.ext_getElem?
          intro k
          simp [List.getElem?_mapIdx]
        simp [partNode, this])
  have hall : ∀ i, i < g.length → i ∈ order := fun i hi => ho.mem_iff.2 (List.mem_range.2 hi)
  refine ⟨h', by simp [updateRoadMapEdges, hc, h1], ?_⟩
  intro v
  rw [h2]
  cases hv : g[v]? with
  | none => rfl
  | some n =>
    have hvl : v < g.length := (List.getElem?_eq_some_iff.1 hv).1
    simp only [Option.map_some, partNode, fullNode, Option.some.injEq, Node.mk.injEq, true_and]
    constructor
    · apply List.map_congr_left
      intro e he
      obtain ⟨_, _, m, hm, e', he', het⟩ := (hg v n ((nodeAt_nat g v n).2 hv)).1 e he
      have := (h3 e.fromIndex.toNat (hall _ (by have := hm.range; omega)) m hm.2).2 e' he'
      rw [het, Int.toNat_natCast] at this
      rw [this, if_pos rfl]
    · apply List.ext_getElem?
      intro k
      rw [List.getElem?_mapIdx, List.getElem?_map]
      cases hk : n.outEdges[k]? with
      | none => rfl
      | some e =>
        simp only [Option.map_some]
        rw [(h3 v (hall v hvl) n hv).1 k (List.getElem?_eq_some_iff.1 hk).1, if_pos rfl]

end Verif.Prm
