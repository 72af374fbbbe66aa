import Verif.Lemmas.Prm
import Verif.Props.NanKnn
import Verif.Model.NanPrm
import Verif.Spec.NanPrm

/-!
# Lemmas on adding states to a roadmap with distances that may not be a number
-/
namespace Verif.NanPrm
open Verif Verif.Graph Verif.NotANumber
open Verif.Prm (Direction Threads Setup graphDistance allNeighborDistances neighborDistances queryDistance
  withNeighbors withNeighbors_nil withNeighbors_cons length_of_map getNode_append graphDistance_eq)

variable {ν W : Type} [Cost W]

/-- The entries for which edges are added. -/
def accepted : List ((Int × Option W) × Option (Option W × Option W)) → List (Int × W × W)
  | [] => []
  | (x, some (some a, some b)) :: rest => if 0 ≤ a ∧ 0 ≤ b then (x.1, a, b) :: accepted rest else accepted rest
  | _ :: rest => accepted rest

/-- The edges with numbers as weights. -/
def asWeights (es : List (Int × W × W)) : List (Int × Option W × Option W) :=
  es.map fun e => (e.1, some e.2.1, some e.2.2)

theorem addNeighborEdges_ok (N : Int) (L : List ((Int × Option W) × Option (Option W × Option W)))
    (h : Graph ν (Option W))
    (hN : 0 ≤ N ∧ N < (h.length : Int)) (hL : ∀ x ∈ L, 0 ≤ x.1.1 ∧ x.1.1 < N) :
    ∃ h', addNeighborEdges N L h = (.ok (), h') ∧
      ∀ v : Nat, h'[v]? = (h[v]?).map (withNeighbors N (asWeights (accepted L)) v) := by
  induction L generalizing h with
  | nil =>
    refine ⟨h, rfl, ?_⟩
    intro v
    cases h[v]? <;> simp [accepted, asWeights, withNeighbors_nil]
  | cons x rest ih =>
    have hr : ∀ x ∈ rest, 0 ≤ x.1.1 ∧ x.1.1 < N := fun y hy => hL y (List.mem_cons_of_mem _ hy)
    obtain ⟨x, d⟩ := x
    have hx := hL _ (List.mem_cons_self ..)
    simp only at hx
    match d with
    | none => simpa only [addNeighborEdges, accepted] using ih h hN hr
    | some (none, b) =>
      simpa [addNeighborEdges, accepted, notNegative] using ih h hN hr
    | some (some a, none) =>
      simpa [addNeighborEdges, accepted, notNegative] using ih h hN hr
    | some (some a, some b) =>
      by_cases hab : 0 ≤ a ∧ 0 ≤ b
      · obtain ⟨k1, h1, e1, g1, _⟩ := addEdge_ok (g := h) (f := x.1) (t := N) (w := some a) (by omega) hN
          (by omega)
        have l1 := length_of_map g1
        obtain ⟨k2, h2, e2, g2, _⟩ := addEdge_ok (g := h1) (f := N) (t := x.1) (w := some b) (by omega)
          (by omega) (by omega)
        have l2 := length_of_map g2
        obtain ⟨h', e3, g3⟩ := ih h2 (by omega) hr
        have hc : (notNegative (some a) && notNegative (some b)) = true := by
          simp [notNegative, hab.1, hab.2]
        refine ⟨h', ?_, ?_⟩
        · simp only [addNeighborEdges, if_pos hc, M.bind_apply, e1, e2, e3]
        · intro v
          rw [g3, g2, g1]
          simp only [accepted, if_pos hab, asWeights, List.map_cons]
          cases h[v]? with
          | none => rfl
          | some n =>
            simp only [Option.map_some,
              withNeighbors_cons N x.1 (some a) (some b) _ v n (by omega)]
      · obtain ⟨h', e3, g3⟩ := ih h hN hr
        have hc : ¬ (notNegative (some a) && notNegative (some b)) = true := by
          simpa [notNegative] using hab
        refine ⟨h', ?_, ?_⟩
        · simp only [addNeighborEdges, if_neg hc, e3]
        · simpa only [accepted, if_neg hab] using g3

/-- Whatever happens, the graph stays consistent and its weights numbers. -/
theorem addNeighborEdges_inv (N : Int) (L : List ((Int × Option W) × Option (Option W × Option W)))
    (h : Graph ν (Option W)) (hi : Inv h) : Inv (addNeighborEdges N L h).2 := by
  induction L generalizing h with
  | nil => exact hi
  | cons x rest ih =>
    obtain ⟨x, d⟩ := x
    match d with
    | none => simpa only [addNeighborEdges] using ih h hi
    | some (a, b) =>
      by_cases hab : (notNegative a && notNegative b) = true
      · simp only [addNeighborEdges, if_pos hab, M.bind_apply]
        have i1 := hi.run (inf := none) (.addEdge x.1 N a)
        have i2 := i1.run (inf := none) (.addEdge N x.1 b)
        simp only [Edit.run] at i1 i2
        generalize hp : addEdgeBetweenNodes x.1 N a h = p at i1 i2
        obtain ⟨o1, s1⟩ := p
        cases o1 with
        | ok k =>
          simp only at i1 i2 ⊢
          generalize hq : addEdgeBetweenNodes N x.1 b s1 = q at i2
          obtain ⟨o2, s2⟩ := q
          cases o2 with
          | ok k => exact ih s2 i2
          | throws e => exact i2
          | abort => exact i2
          | ub => exact i2
        | throws e => exact i1
        | abort => exact i1
        | ub => exact i1
      · simpa only [addNeighborEdges, if_neg hab] using ih h hi

theorem insertNode_inv (S : Setup ν (Option W)) (dir : Direction) (state : ν) (R : List (Int × Option W))
    (g : Graph ν (Option W)) (hi : Inv g) : Inv (insertNode S dir state R g).2 := by
  unfold insertNode
  simp only [addNode, addNodeObject, M.bind_apply, M.modify_apply, M.get_apply, M.pure_apply,
    M.lift_apply]
  have i1 := hi.bare state (some Cost.inf : Option W)
  cases allNeighborDistances S dir state (g ++ [⟨state, some Cost.inf, [], []⟩]) R with
  | ok ds =>
    simp only
    have := addNeighborEdges_inv (((g ++ [(⟨state, some Cost.inf, [], []⟩ : Node ν (Option W))]).length : Int) - 1)
      (R.zip ds) _ i1
    generalize addNeighborEdges (((g ++ [(⟨state, some Cost.inf, [], []⟩ : Node ν (Option W))]).length : Int) - 1)
      (R.zip ds) (g ++ [⟨state, some Cost.inf, [], []⟩]) = p at this
    obtain ⟨o, s⟩ := p
    cases o <;> exact this
  | throws e => exact i1
  | abort => exact i1
  | ub => exact i1

theorem addNodeToRoadmap_inv (S : Setup ν (Option W)) (sch : Threads) (dir : Direction)
    (state : ν) (g : Graph ν (Option W)) (hi : Inv g) : Inv (addNodeToRoadmap S sch dir state g).2 := by
  unfold addNodeToRoadmap
  simp only [M.bind_apply, M.get_apply, M.lift_apply]
  cases nearestNeighbors S sch dir g state with
  | ok R =>
    simp only
    cases duplicateOf S R with
    | some i => exact hi
    | none => exact insertNode_inv S dir state R g hi
  | throws e => exact hi
  | abort => exact hi
  | ub => exact hi

theorem findDuplicate_spec (R : List (Int × Option W)) :
    (findDuplicate R = none ∧ ∀ e ∈ R, e.2 ≠ some 0) ∨
    (∃ L e L', R = L ++ e :: L' ∧ (∀ x ∈ L, x.2 ≠ some 0) ∧ e.2 = some 0 ∧ findDuplicate R = some e.1) := by
  induction R with
  | nil => left; simp [findDuplicate]
  | cons x xs ih =>
    by_cases hx : x.2 = some 0
    · right; exact ⟨[], x, xs, rfl, by simp, hx, by simp [findDuplicate, hx]⟩
    · rcases ih with ⟨h1, h2⟩ | ⟨L, e, L', h1, h2, h3, h4⟩
      · left
        refine ⟨by simp [findDuplicate, hx, h1], ?_⟩
        intro e he
        rcases List.mem_cons.1 he with rfl | he
        · exact hx
        · exact h2 e he
      · right
        refine ⟨x :: L, e, L', by rw [h1]; rfl, ?_, h3, by simp [findDuplicate, hx, h4]⟩
        intro y hy
        rcases List.mem_cons.1 hy with rfl | hy
        · exact hx
        · exact h2 y hy

/-- What is computed for one neighbour, when the assertion is not hit. -/
theorem neighborDistances_ok (S : Setup ν (Option W)) (dir : Direction) (state : ν) (g : Graph ν (Option W))
    (b : Node ν (Option W)) (hd : S.symmetric = true ∨ dir = .roadmapToNewState) (x : Int × Option W)
    {n : Node ν (Option W)} (hn : NodeAt g x.1 n) (hx : x.2 = queryDistance S dir state n.value) :
    ∃ d, neighborDistances S dir state (g ++ [b]) x = .ok d ∧
      ∀ a c, d = some (some a, some c) ∧ 0 ≤ a ∧ 0 ≤ c ↔ Joined S dir state n.value a c := by
  unfold neighborDistances
  rw [getNode_append hn]
  simp only [Out.bind_ok]
  by_cases hv : S.edgeValid n.value state = true
  · by_cases hs : S.symmetric = true
    · simp only [if_pos hv, if_pos hs]
      refine ⟨_, rfl, ?_⟩
      intro a c
      simp only [Joined, hv, hs, hx, Option.some.injEq, Prod.mk.injEq]
      constructor
      · rintro ⟨⟨h1, h2⟩, h4, h5⟩
        rw [h1] at h2
        exact ⟨trivial, h4, h5, fun _ => ⟨h1, (Option.some.inj h2).symm⟩, fun h => by cases h⟩
      · rintro ⟨_, h4, h5, h6, _⟩
        obtain ⟨h6, h7⟩ := h6 trivial
        exact ⟨⟨h6, by rw [h7, h6]⟩, h4, h5⟩
    · have hs' : S.symmetric = false := by simpa using hs
      have hdir := hd.resolve_left hs
      simp only [if_pos hv, if_neg hs, if_pos hdir]
      refine ⟨_, rfl, ?_⟩
      intro a c
      have hq : queryDistance S dir state n.value = S.distance n.value state := by
        simp [queryDistance, hdir]
      simp only [Joined, hv, hs', hx, hq, Option.some.injEq, Prod.mk.injEq]
      constructor
      · rintro ⟨⟨h1, h2⟩, h4, h5⟩
        exact ⟨trivial, h4, h5, (fun h => by cases h), fun _ => ⟨h1, h2⟩⟩
      · rintro ⟨_, h4, h5, _, h6⟩
        obtain ⟨h6, h7⟩ := h6 trivial
        exact ⟨⟨h6, h7⟩, h4, h5⟩
  · simp only [if_neg hv]
    refine ⟨_, rfl, ?_⟩
    intro a c
    simp [Joined, hv]

/-- What the loop over the neighbours computes, when it does not hit the assertion. -/
theorem allNeighborDistances_ok (S : Setup ν (Option W)) (dir : Direction) (state : ν) (g : Graph ν (Option W))
    (b : Node ν (Option W)) (hd : S.symmetric = true ∨ dir = .roadmapToNewState) (R : List (Int × Option W))
    (hR : ∀ e ∈ R, ∃ n, NodeAt g e.1 n ∧ e.2 = queryDistance S dir state n.value) :
    ∃ ds, allNeighborDistances S dir state (g ++ [b]) R = .ok ds ∧
      ((accepted (R.zip ds)).map (·.1)).Sublist (R.map (·.1)) ∧
      ∀ j a c, (j, a, c) ∈ accepted (R.zip ds) ↔
        j ∈ R.map (·.1) ∧ ∃ n, NodeAt g j n ∧ Joined S dir state n.value a c := by
  induction R with
  | nil => exact ⟨[], rfl, by simp [accepted], by simp [accepted]⟩
  | cons x xs ih =>
    obtain ⟨ds, h1, h2, h3⟩ := ih (fun e he => hR e (List.mem_cons_of_mem _ he))
    obtain ⟨n, hn, hx⟩ := hR x (List.mem_cons_self ..)
    obtain ⟨d, hd1, hd2⟩ := neighborDistances_ok S dir state g b hd x hn hx
    refine ⟨d :: ds, by simp only [allNeighborDistances, hd1, h1, Out.bind_ok], ?_⟩
    have hmem : ∀ j a c, (j ∈ (x :: xs).map (·.1) ∧ ∃ n, NodeAt g j n ∧ Joined S dir state n.value a c) ↔
        (j = x.1 ∧ Joined S dir state n.value a c) ∨
        (j ∈ xs.map (·.1) ∧ ∃ n, NodeAt g j n ∧ Joined S dir state n.value a c) := by
      intro j a c
      simp only [List.map_cons, List.mem_cons]
      constructor
      · rintro ⟨rfl | h, m, hm, hj⟩
        · left; rw [hn.unique hm]; exact ⟨rfl, hj⟩
        · right; exact ⟨h, m, hm, hj⟩
      · rintro (⟨rfl, hj⟩ | ⟨h, hj⟩)
        · exact ⟨Or.inl rfl, n, hn, hj⟩
        · exact ⟨Or.inr h, hj⟩
    have skip : (∀ a c, ¬ Joined S dir state n.value a c) → accepted ((x, d) :: xs.zip ds) = accepted (xs.zip ds) →
        ((accepted ((x :: xs).zip (d :: ds))).map (·.1)).Sublist ((x :: xs).map (·.1)) ∧
        ∀ j a c, (j, a, c) ∈ accepted ((x :: xs).zip (d :: ds)) ↔
          j ∈ (x :: xs).map (·.1) ∧ ∃ n, NodeAt g j n ∧ Joined S dir state n.value a c := by
      intro hno hacc
      rw [List.zip_cons_cons, hacc]
      refine ⟨h2.trans (by simp), ?_⟩
      intro j a c
      rw [hmem, h3]
      exact ⟨Or.inr, fun h => h.resolve_left fun h => hno a c h.2⟩
    match d, hd2, skip with
    | none, hd2, skip =>
      exact skip (fun a c h => by have := (hd2 a c).2 h; simp at this) rfl
    | some (none, _), hd2, skip =>
      exact skip (fun a c h => by have := (hd2 a c).2 h; simp at this) rfl
    | some (some _, none), hd2, skip =>
      exact skip (fun a c h => by have := (hd2 a c).2 h; simp at this) rfl
    | some (some a0, some c0), hd2, skip =>
      by_cases hab : 0 ≤ a0 ∧ 0 ≤ c0
      · simp only [List.zip_cons_cons, accepted, if_pos hab]
        refine ⟨by simpa using h2, ?_⟩
        intro j a c
        rw [hmem, List.mem_cons, h3]
        have : ((j, a, c) = (x.1, a0, c0)) ↔ (j = x.1 ∧ Joined S dir state n.value a c) := by
          rw [← hd2]
          constructor
          · intro h; cases h; exact ⟨rfl, rfl, hab⟩
          · rintro ⟨rfl, h, _⟩; cases h; rfl
        rw [this]
      · refine skip (fun a c h => ?_) (by simp only [accepted, if_neg hab])
        obtain ⟨h4, h5, h6⟩ := (hd2 a c).2 h
        cases h4
        exact hab ⟨h5, h6⟩

/-- An unset entry makes the loop throw. -/
theorem allNeighborDistances_unset (S : Setup ν (Option W)) (dir : Direction) (state : ν)
    (g : Graph ν (Option W)) (b : Node ν (Option W)) (hd : S.symmetric = true ∨ dir = .roadmapToNewState)
    (R : List (Int × Option W))
    (hR : ∀ e ∈ R, e.1 = -1 ∨ ∃ n, NodeAt g e.1 n ∧ e.2 = queryDistance S dir state n.value)
    (hx : ∃ e ∈ R, e.1 = -1) :
    allNeighborDistances S dir state (g ++ [b]) R = .throws .outOfRange := by
  induction R with
  | nil => simp at hx
  | cons x xs ih =>
    rcases hR x (List.mem_cons_self ..) with h | ⟨n, hn, hq⟩
    · have : getNode (g ++ [b]) x.1 = .throws .outOfRange := by
        unfold getNode nodePos
        rw [if_neg (by omega)]
        rfl
      unfold allNeighborDistances neighborDistances
      rw [this]
      rfl
    · obtain ⟨d, hd1, _⟩ := neighborDistances_ok S dir state g b hd x hn hq
      obtain ⟨e, he, he1⟩ := hx
      have hr := ih (fun e he => hR e (List.mem_cons_of_mem _ he)) (by
        rcases List.mem_cons.1 he with rfl | he
        · have := hn.range; omega
        · exact ⟨e, he, he1⟩)
      unfold allNeighborDistances
      rw [hd1, Out.bind_ok, hr]
      rfl

theorem insertNode_ok (S : Setup ν (Option W)) (dir : Direction) (state : ν) (R : List (Int × Option W))
    (g : Graph ν (Option W)) (hd : S.symmetric = true ∨ dir = .roadmapToNewState)
    (hR : ∀ e ∈ R, ∃ n, NodeAt g e.1 n ∧ e.2 = queryDistance S dir state n.value)
    (hnd : (R.map (·.1)).Nodup) :
    ∃ es g', insertNode S dir state R g = (.ok (g.length : Int), g') ∧ Inserted state es g g' ∧
      (es.map (·.1)).Nodup ∧
      ∀ j there back, (j, there, back) ∈ es ↔
        j ∈ R.map (·.1) ∧ ∃ n, NodeAt g j n ∧ Joined S dir state n.value there back := by
  obtain ⟨ds, h1, h2, h3⟩ := allNeighborDistances_ok S dir state g ⟨state, some Cost.inf, [], []⟩ hd R hR
  have hlen : (((g ++ [(⟨state, some Cost.inf, [], []⟩ : Node ν (Option W))]).length : Int) - 1) =
      (g.length : Int) := by
    simp
  obtain ⟨g', h4, h5⟩ := addNeighborEdges_ok (g.length : Int) (R.zip ds)
    (g ++ [⟨state, some Cost.inf, [], []⟩]) (by simp; omega) (by
      intro x hx
      have hx1 : x.1 ∈ R := (List.of_mem_zip hx).1
      obtain ⟨n, hn, _⟩ := hR x.1 hx1
      exact hn.range)
  refine ⟨accepted (R.zip ds), g', ?_, ?_, h2.nodup hnd, h3⟩
  · unfold insertNode
    simp only [addNode, addNodeObject, M.bind_apply, M.modify_apply, M.get_apply, M.pure_apply,
      M.lift_apply, hlen, h1, h4]
  · constructor
    · rw [length_of_map h5]; simp
    · rw [h5, List.getElem?_append_right (Nat.le_refl _)]
      simp [withNeighbors, asWeights]
    · intro j n hj
      have hlt := (List.getElem?_eq_some_iff.1 hj).1
      rw [h5, List.getElem?_append_left hlt, hj]
      have : ¬ ((j : Int) = (g.length : Int)) := by omega
      simp only [Option.map_some, withNeighbors, if_neg this, asWeights, List.filter_map, List.map_map]
      rfl

end Verif.NanPrm
