import Verif.Spec.Graph
import Verif.Lemmas.SerializationRos
namespace Verif.Graph
open Verif

variable {ν W : Type}

theorem nodeAt_nat (g : Graph ν W) (i : Nat) (n : Node ν W) :
    NodeAt g (i : Int) n ↔ g[i]? = some n := by
  unfold NodeAt; constructor
  · rintro ⟨_, h⟩; simpa using h
  · intro h; exact ⟨by omega, by simpa using h⟩

theorem NodeAt.range {g : Graph ν W} {i : Int} {n : Node ν W} (h : NodeAt g i n) :
    0 ≤ i ∧ i < (g.length : Int) := by
  obtain ⟨h0, h⟩ := h
  have := (List.getElem?_eq_some_iff.1 h).1
  omega

theorem nodeAt_of_range {g : Graph ν W} {i : Int} (h0 : 0 ≤ i) (h1 : i < (g.length : Int)) :
    ∃ n, NodeAt g i n :=
  ⟨g[i.toNat]'(by omega), h0, by rw [List.getElem?_eq_getElem]⟩

theorem NodeAt.unique {g : Graph ν W} {i : Int} {n m : Node ν W} (h : NodeAt g i n)
    (h' : NodeAt g i m) : n = m := by
  have := h.2.symm.trans h'.2
  exact Option.some.inj this

theorem flag_foldl {α : Type} (p : α → Prop) [DecidablePred p] (l : List α) (b : Bool) :
    l.foldl (fun flag e => if p e then true else flag) b = true ↔ b = true ∨ ∃ e ∈ l, p e := by
  induction l generalizing b with
  | nil => simp
  | cons a l ih =>
    rw [List.foldl_cons, ih]
    by_cases h : p a <;> simp [h]

theorem checkInEdges_spec (g : Graph ν W) (idx : Nat) (es : List (Edge W)) :
    ∃ b, checkInEdges g idx es = .ok b ∧ (b = true ↔ ∀ e ∈ es, e.toIndex = (idx : Int) ∧
      e.fromIndex ≠ (idx : Int) ∧
      ∃ m, NodeAt g e.fromIndex m ∧ ∃ e' ∈ m.outEdges, e'.toIndex = (idx : Int)) := by
  induction es with
  | nil => exact ⟨true, rfl, by simp⟩
  | cons e es ih =>
    obtain ⟨b, hb, hi⟩ := ih
    unfold checkInEdges
    dsimp only
    by_cases h1 : e.fromIndex < 0 ∨ e.fromIndex ≥ (g.length : Int)
    · rw [if_pos h1]
      refine ⟨false, rfl, ⟨fun h => (by cases h), fun h => ?_⟩⟩
      exfalso
      obtain ⟨_, _, m, hm, _⟩ := h e (List.mem_cons_self)
      have := hm.range
      omega
    rw [if_neg h1]
    by_cases h2 : e.toIndex ≠ (idx : Int)
    · rw [if_pos h2]
      refine ⟨false, rfl, ⟨fun h => (by cases h), fun h => ?_⟩⟩
      exfalso
      exact h2 (h e List.mem_cons_self).1
    rw [if_neg h2]
    by_cases h3 : e.fromIndex = e.toIndex
    · rw [if_pos h3]
      refine ⟨false, rfl, ⟨fun h => (by cases h), fun h => ?_⟩⟩
      exfalso
      have := h e List.mem_cons_self
      omega
    rw [if_neg h3]
    obtain ⟨m, hm⟩ := nodeAt_of_range (g := g) (i := e.fromIndex) (by omega) (by omega)
    rw [hm.2]
    dsimp only
    by_cases h4 : (m.outEdges.foldl (fun flag e => if e.toIndex = (idx : Int) then true else flag)
      false) = false
    · rw [if_pos h4]
      refine ⟨false, rfl, ⟨fun h => (by cases h), fun h => ?_⟩⟩
      exfalso
      obtain ⟨_, _, m', hm', hex⟩ := h e List.mem_cons_self
      rw [hm'.unique hm] at hex
      have := (flag_foldl (fun e : Edge W => e.toIndex = (idx : Int)) m.outEdges false).2
        (Or.inr hex)
      rw [this] at h4
      cases h4
    rw [if_neg h4]
    refine ⟨b, hb, ?_⟩
    rw [hi]
    have h5 := (flag_foldl (fun e : Edge W => e.toIndex = (idx : Int)) m.outEdges false).1
      (by simpa using h4)
    simp only [Bool.false_eq_true, false_or] at h5
    constructor
    · intro h e' he'
      rcases List.mem_cons.1 he' with rfl | he'
      · exact ⟨by omega, by omega, m, hm, h5⟩
      · exact h e' he'
    · intro h e' he'
      exact h e' (List.mem_cons_of_mem _ he')

theorem checkOutEdges_spec (g : Graph ν W) (idx : Nat) (es : List (Edge W)) :
    ∃ b, checkOutEdges g idx es = .ok b ∧ (b = true ↔ ∀ e ∈ es, e.fromIndex = (idx : Int) ∧
      e.toIndex ≠ (idx : Int) ∧
      ∃ m, NodeAt g e.toIndex m ∧ ∃ e' ∈ m.inEdges, e'.fromIndex = (idx : Int)) := by
  induction es with
  | nil => exact ⟨true, rfl, by simp⟩
  | cons e es ih =>
    obtain ⟨b, hb, hi⟩ := ih
    unfold checkOutEdges
    dsimp only
    by_cases h2 : e.fromIndex ≠ (idx : Int)
    · rw [if_pos h2]
      refine ⟨false, rfl, ⟨fun h => (by cases h), fun h => ?_⟩⟩
      exfalso
      exact h2 (h e List.mem_cons_self).1
    rw [if_neg h2]
    by_cases h1 : e.toIndex < 0 ∨ e.toIndex ≥ (g.length : Int)
    · rw [if_pos h1]
      refine ⟨false, rfl, ⟨fun h => (by cases h), fun h => ?_⟩⟩
      exfalso
      obtain ⟨_, _, m, hm, _⟩ := h e (List.mem_cons_self)
      have := hm.range
      omega
    rw [if_neg h1]
    by_cases h3 : e.fromIndex = e.toIndex
    · rw [if_pos h3]
      refine ⟨false, rfl, ⟨fun h => (by cases h), fun h => ?_⟩⟩
      exfalso
      have := h e List.mem_cons_self
      omega
    rw [if_neg h3]
    obtain ⟨m, hm⟩ := nodeAt_of_range (g := g) (i := e.toIndex) (by omega) (by omega)
    rw [hm.2]
    dsimp only
    by_cases h4 : (m.inEdges.foldl (fun flag e => if e.fromIndex = (idx : Int) then true else flag)
      false) = false
    · rw [if_pos h4]
      refine ⟨false, rfl, ⟨fun h => (by cases h), fun h => ?_⟩⟩
      exfalso
      obtain ⟨_, _, m', hm', hex⟩ := h e List.mem_cons_self
      rw [hm'.unique hm] at hex
      have := (flag_foldl (fun e : Edge W => e.fromIndex = (idx : Int)) m.inEdges false).2
        (Or.inr hex)
      rw [this] at h4
      cases h4
    rw [if_neg h4]
    refine ⟨b, hb, ?_⟩
    rw [hi]
    have h5 := (flag_foldl (fun e : Edge W => e.fromIndex = (idx : Int)) m.inEdges false).1
      (by simpa using h4)
    simp only [Bool.false_eq_true, false_or] at h5
    constructor
    · intro h e' he'
      rcases List.mem_cons.1 he' with rfl | he'
      · exact ⟨by omega, by omega, m, hm, h5⟩
      · exact h e' he'
    · intro h e' he'
      exact h e' (List.mem_cons_of_mem _ he')

/-- The condition of `Linked` for one node. -/
def LinkedAt (g : Graph ν W) (i : Int) (n : Node ν W) : Prop :=
  (∀ e ∈ n.inEdges, e.toIndex = i ∧ e.fromIndex ≠ i ∧
      ∃ m, NodeAt g e.fromIndex m ∧ ∃ e' ∈ m.outEdges, e'.toIndex = i) ∧
    (∀ e ∈ n.outEdges, e.fromIndex = i ∧ e.toIndex ≠ i ∧
      ∃ m, NodeAt g e.toIndex m ∧ ∃ e' ∈ m.inEdges, e'.fromIndex = i)

theorem checkNodes_spec (g : Graph ν W) (ns : List (Node ν W)) (idx : Nat) :
    ∃ b, checkNodes g ns idx = .ok b ∧
      (b = true ↔ ∀ k n, ns[k]? = some n → LinkedAt g ((idx + k : Nat) : Int) n) := by
  induction ns generalizing idx with
  | nil => exact ⟨true, rfl, by simp⟩
  | cons n ns ih =>
    obtain ⟨b1, hb1, hi1⟩ := checkInEdges_spec g idx n.inEdges
    obtain ⟨b2, hb2, hi2⟩ := checkOutEdges_spec g idx n.outEdges
    obtain ⟨b3, hb3, hi3⟩ := ih (idx + 1)
    have key : (∀ k m, (n :: ns)[k]? = some m → LinkedAt g ((idx + k : Nat) : Int) m) ↔
        (b1 = true ∧ b2 = true) ∧ b3 = true := by
      rw [hi1, hi2, hi3]
      constructor
      · intro h
        refine ⟨h 0 n rfl, fun k m hk => ?_⟩
        have := h (k + 1) m (by simpa using hk)
        rwa [show idx + (k + 1) = idx + 1 + k by omega] at this
      · rintro ⟨h1, h2⟩ k m hk
        cases k with
        | zero => simp at hk; subst hk; exact h1
        | succ k =>
          have := h2 k m (by simpa using hk)
          rwa [show idx + (k + 1) = idx + 1 + k by omega]
    unfold checkNodes
    rw [hb1, key]
    simp only [Out.bind_ok]
    cases b1 with
    | false => exact ⟨false, rfl, by simp⟩
    | true =>
      rw [if_neg (by simp), hb2]
      simp only [Out.bind_ok]
      cases b2 with
      | false => exact ⟨false, rfl, by simp⟩
      | true =>
        rw [if_neg (by simp), hb3]
        exact ⟨b3, rfl, by simp⟩

theorem linked_iff (g : Graph ν W) :
    Linked g ↔ ∀ k n, g[k]? = some n → LinkedAt g ((k : Nat) : Int) n := by
  constructor
  · intro h k n hk
    exact h k n ((nodeAt_nat g k n).2 hk)
  · intro h i n hn
    have := h i.toNat n hn.2
    rwa [Int.toNat_of_nonneg hn.1] at this

theorem checkGraphLinkage_spec (g : Graph ν W) :
    ∃ b, checkGraphLinkage g = .ok b ∧ (b = true ↔ Linked g) := by
  obtain ⟨b, hb, hi⟩ := checkNodes_spec g g 0
  exact ⟨b, hb, by rw [hi, linked_iff]; simp⟩

/-! ## addEdgeBetweenNodes -/

theorem findEdgeTo_spec (t : Int) (es : List (Edge W)) (k0 : Nat) (h : ∃ e ∈ es, e.toIndex = t) :
    ∃ k e, findEdgeTo t es k0 = .ok (k0 + k) ∧ es[k]? = some e ∧ e.toIndex = t ∧
      ∀ k' e', k' < k → es[k']? = some e' → e'.toIndex ≠ t := by
  induction es generalizing k0 with
  | nil => simp at h
  | cons e es ih =>
    unfold findEdgeTo
    by_cases he : e.toIndex = t
    · rw [if_pos he]
      exact ⟨0, e, rfl, rfl, he, by intro k' e' h; omega⟩
    · rw [if_neg he]
      obtain ⟨e', he', ht⟩ := h
      have : e' ∈ es := by
        rcases List.mem_cons.1 he' with rfl | h
        · exact absurd ht he
        · exact h
      obtain ⟨k, f, h1, h2, h3, h4⟩ := ih (k0 + 1) ⟨e', this, ht⟩
      refine ⟨k + 1, f, by rw [h1]; congr 1; omega, by simpa using h2, h3, ?_⟩
      intro k' f' hk hf
      cases k' with
      | zero => simp at hf; subst hf; exact he
      | succ k' => exact h4 k' f' (by omega) (by simpa using hf)

theorem nodePos_ok {g : Graph ν W} {i : Int} (h : 0 ≤ i ∧ i < (g.length : Int)) :
    nodePos g i = .ok i.toNat := by unfold nodePos; rw [if_pos h]
theorem nodePos_bad {g : Graph ν W} {i : Int} (h : ¬ (0 ≤ i ∧ i < (g.length : Int))) :
    nodePos g i = .throws .outOfRange := by unfold nodePos; rw [if_neg h]

/-- The node stored at position `v` after an edge from `f` to `t` was added. -/
def withEdge (f t : Int) (w : W) (v : Nat) (n : Node ν W) : Node ν W :=
  { n with
    outEdges := if (v : Int) = f then n.outEdges ++ [Edge.make f t w] else n.outEdges
    inEdges := if (v : Int) = t then n.inEdges ++ [Edge.make f t w] else n.inEdges }

theorem addEdge_get {g : Graph ν W} {f t : Int} (w : W) (hf : 0 ≤ f) (ht : 0 ≤ t) (v : Nat) :
    ((g.modify f.toNat (Node.addOutEdge (Edge.make f t w))).modify t.toNat
      (Node.addInEdge (Edge.make f t w)))[v]? = (g[v]?).map (withEdge f t w v) := by
  rw [List.getElem?_modify, List.getElem?_modify]
  cases g[v]? with
  | none => simp
  | some n =>
    have e1 : (f.toNat = v) = ((v : Int) = f) := by apply propext; omega
    have e2 : (t.toNat = v) = ((v : Int) = t) := by apply propext; omega
    simp only [Option.map_some, e1, e2, withEdge, Node.addInEdge, Node.addOutEdge]
    by_cases h1 : (v : Int) = f <;> by_cases h2 : (v : Int) = t
    · simp only [if_pos h1, if_pos h2]; rfl
    · simp only [if_pos h1, if_neg h2]; rfl
    · simp only [if_neg h1, if_pos h2]; rfl
    · simp only [if_neg h1, if_neg h2]; rfl

theorem addEdge_bad_from {g : Graph ν W} {f t : Int} {w : W}
    (h : ¬ (0 ≤ f ∧ f < (g.length : Int))) :
    addEdgeBetweenNodes f t w g = (.throws .outOfRange, g) := by
  unfold addEdgeBetweenNodes
  simp [nodePos_bad h]

theorem addEdge_bad_to {g : Graph ν W} {f t : Int} {w : W}
    (hf : 0 ≤ f ∧ f < (g.length : Int)) (h : ¬ (0 ≤ t ∧ t < (g.length : Int))) :
    addEdgeBetweenNodes f t w g = (.throws .outOfRange, g) := by
  unfold addEdgeBetweenNodes
  simp [nodePos_ok hf, nodePos_bad h]

theorem addEdge_self {g : Graph ν W} {f t : Int} {w : W}
    (hf : 0 ≤ f ∧ f < (g.length : Int)) (h : f = t) :
    addEdgeBetweenNodes f t w g = (.throws .invalidArgument, g) := by
  subst h
  unfold addEdgeBetweenNodes
  simp [nodePos_ok hf]

theorem addEdge_ok {g : Graph ν W} {f t : Int} {w : W}
    (hf : 0 ≤ f ∧ f < (g.length : Int)) (ht : 0 ≤ t ∧ t < (g.length : Int)) (hne : f ≠ t) :
    ∃ k g', addEdgeBetweenNodes f t w g = (.ok k, g') ∧
      (∀ v : Nat, g'[v]? = (g[v]?).map (withEdge f t w v)) ∧
      (∀ n, NodeAt g' f n → ∃ e, n.outEdges[k]? = some e ∧ e.toIndex = t ∧
        ∀ k' e', k' < k → n.outEdges[k']? = some e' → e'.toIndex ≠ t) := by
  have hget := addEdge_get (g := g) w hf.1 ht.1
  obtain ⟨n, hn⟩ := nodeAt_of_range hf.1 hf.2
  have hnf : (f.toNat : Int) = f := Int.toNat_of_nonneg hf.1
  have h1 := hget f.toNat
  rw [hn.2] at h1
  obtain ⟨k, e, hk, he, het, hmin⟩ := findEdgeTo_spec t (withEdge f t w f.toNat n).outEdges 0
    ⟨Edge.make f t w, by simp [withEdge, hnf], rfl⟩
  refine ⟨k, _, ?_, hget, ?_⟩
  · unfold addEdgeBetweenNodes
    simp [nodePos_ok hf, nodePos_ok ht, hne]
    rw [h1]
    simp [Node.getEdgeTo, hk]
  · intro m hm
    have := hm.2.symm.trans h1
    simp only [Option.map_some, Option.some.injEq] at this
    subst this
    exact ⟨e, he, het, hmin⟩

/-- The three ways a call of `addEdgeBetweenNodes` leaves the graph. -/
theorem addEdge_cases (g : Graph ν W) (f t : Int) (w : W) :
    (addEdgeBetweenNodes f t w g).2 = g ∨
      ((0 ≤ f ∧ f < (g.length : Int)) ∧ (0 ≤ t ∧ t < (g.length : Int)) ∧ f ≠ t ∧
        ∀ v : Nat, (addEdgeBetweenNodes f t w g).2[v]? = (g[v]?).map (withEdge f t w v)) := by
  by_cases hf : 0 ≤ f ∧ f < (g.length : Int)
  · by_cases ht : 0 ≤ t ∧ t < (g.length : Int)
    · by_cases hne : f = t
      · exact Or.inl (by rw [addEdge_self hf hne])
      · obtain ⟨k, g', h, hv, _⟩ := addEdge_ok (w := w) hf ht hne
        exact Or.inr ⟨hf, ht, hne, by rw [h]; exact hv⟩
    · exact Or.inl (by rw [addEdge_bad_to hf ht])
  · exact Or.inl (by rw [addEdge_bad_from hf])

/-- The invariant of every history. -/
structure Inv (g : Graph ν W) : Prop where
  ins : ∀ i n, NodeAt g i n → ∀ e ∈ n.inEdges, e.toIndex = i ∧ e.fromIndex ≠ i ∧
    0 ≤ e.fromIndex ∧ e.fromIndex < (g.length : Int)
  outs : ∀ i n, NodeAt g i n → ∀ e ∈ n.outEdges, e.fromIndex = i ∧ e.toIndex ≠ i ∧
    0 ≤ e.toIndex ∧ e.toIndex < (g.length : Int)
  mir : Mirrored g

theorem Inv.linked {g : Graph ν W} (h : Inv g) : Linked g := by
  intro i n hn
  constructor
  · intro e he
    obtain ⟨h1, h2, h3, h4⟩ := h.ins i n hn e he
    obtain ⟨m, hm⟩ := nodeAt_of_range h3 h4
    have hmem : e ∈ n.inEdges.filter (fun x => decide (x.fromIndex = e.fromIndex)) := by
      simp [he]
    rw [← h.mir _ _ m n hm hn] at hmem
    simp at hmem
    exact ⟨h1, h2, m, hm, e, hmem.1, h1⟩
  · intro e he
    obtain ⟨h1, h2, h3, h4⟩ := h.outs i n hn e he
    obtain ⟨m, hm⟩ := nodeAt_of_range h3 h4
    have hmem : e ∈ n.outEdges.filter (fun x => decide (x.toIndex = e.toIndex)) := by
      simp [he]
    rw [h.mir _ _ n m hn hm] at hmem
    simp at hmem
    exact ⟨h1, h2, m, hm, e, hmem.1, h1⟩

theorem nodeAt_append {g : Graph ν W} {b : Node ν W} {i : Int} {n : Node ν W}
    (h : NodeAt (g ++ [b]) i n) : NodeAt g i n ∨ (i = (g.length : Int) ∧ n = b) := by
  obtain ⟨h0, h⟩ := h
  rw [List.getElem?_append] at h
  split at h
  · exact Or.inl ⟨h0, h⟩
  · rename_i hl
    right
    have h2 := (List.getElem?_eq_some_iff.1 h).1
    simp at h2
    have h3 : i.toNat - g.length = 0 := by omega
    rw [h3] at h
    simp at h
    exact ⟨by omega, h.symm⟩

theorem Inv.bare {g : Graph ν W} (h : Inv g) (v : ν) (d : W) : Inv (g ++ [⟨v, d, [], []⟩]) := by
  have hlen : ((g ++ [(⟨v, d, [], []⟩ : Node ν W)]).length : Int) = g.length + 1 := by simp
  refine ⟨?_, ?_, ?_⟩
  · intro i n hn e he
    rcases nodeAt_append hn with hn | ⟨_, rfl⟩
    · have := h.ins i n hn e he
      rw [hlen]; omega
    · cases he
  · intro i n hn e he
    rcases nodeAt_append hn with hn | ⟨_, rfl⟩
    · have := h.outs i n hn e he
      rw [hlen]; omega
    · cases he
  · intro i j n m hn hm
    rcases nodeAt_append hn with hn | ⟨hi, rfl⟩ <;> rcases nodeAt_append hm with hm | ⟨hj, rfl⟩
    · exact h.mir i j n m hn hm
    · simp only [List.filter_nil, List.filter_eq_nil_iff, decide_eq_true_eq]
      intro e he
      have := h.outs i n hn e he
      omega
    · symm
      simp only [List.filter_nil, List.filter_eq_nil_iff, decide_eq_true_eq]
      intro e he
      have := h.ins j m hm e he
      omega
    · rfl

theorem Inv.edge {g g' : Graph ν W} (h : Inv g) {f t : Int} {w : W}
    (hf : 0 ≤ f ∧ f < (g.length : Int)) (ht : 0 ≤ t ∧ t < (g.length : Int)) (hne : f ≠ t)
    (hg : ∀ v : Nat, g'[v]? = (g[v]?).map (withEdge f t w v)) : Inv g' := by
  have hlen : g'.length = g.length := by
    have a := hg g'.length
    have b := hg g.length
    rw [List.getElem?_eq_none (Nat.le_refl _)] at a
    rw [List.getElem?_eq_none (Nat.le_refl g.length), Option.map_none,
      List.getElem?_eq_none_iff] at b
    have c := Option.map_eq_none_iff.1 a.symm
    rw [List.getElem?_eq_none_iff] at c
    omega
  have hback : ∀ i n', NodeAt g' i n' → ∃ n, NodeAt g i n ∧ n' = withEdge f t w i.toNat n := by
    intro i n' hn
    have := hg i.toNat
    rw [hn.2] at this
    cases hx : g[i.toNat]? with
    | none => rw [hx] at this; simp at this
    | some n =>
      rw [hx] at this
      simp only [Option.map_some, Option.some.injEq] at this
      exact ⟨n, ⟨hn.1, hx⟩, this⟩
  refine ⟨?_, ?_, ?_⟩
  · intro i n' hn e he
    obtain ⟨n, hn0, rfl⟩ := hback i n' hn
    rw [hlen]
    have hi : (i.toNat : Int) = i := Int.toNat_of_nonneg hn.1
    simp only [withEdge, hi] at he
    split at he
    · rcases List.mem_append.1 he with he | he
      · exact h.ins i n hn0 e he
      · simp at he; subst he; simp [Edge.make]; omega
    · exact h.ins i n hn0 e he
  · intro i n' hn e he
    obtain ⟨n, hn0, rfl⟩ := hback i n' hn
    rw [hlen]
    have hi : (i.toNat : Int) = i := Int.toNat_of_nonneg hn.1
    simp only [withEdge, hi] at he
    split at he
    · rcases List.mem_append.1 he with he | he
      · exact h.outs i n hn0 e he
      · simp at he; subst he; simp [Edge.make]; omega
    · exact h.outs i n hn0 e he
  · intro i j n' m' hn hm
    obtain ⟨n, hn0, rfl⟩ := hback i n' hn
    obtain ⟨m, hm0, rfl⟩ := hback j m' hm
    have hi : (i.toNat : Int) = i := Int.toNat_of_nonneg hn.1
    have hj : (j.toNat : Int) = j := Int.toNat_of_nonneg hm.1
    have := h.mir i j n m hn0 hm0
    simp only [withEdge, hi, hj]
    by_cases h1 : i = f <;> by_cases h2 : j = t <;>
      simp [h1, h2, List.filter_append, Edge.make, List.filter_cons] <;> subst_vars <;>
      simp_all <;> omega

theorem Inv.run {inf : W} {g : Graph ν W} (h : Inv g) (e : Edit ν W) : Inv (e.run inf g) := by
  have hadd : ∀ {g : Graph ν W} (_ : Inv g) (f t : Int) (w : W),
      Inv (addEdgeBetweenNodes f t w g).2 := by
    intro g h f t w
    rcases addEdge_cases g f t w with h1 | ⟨hf, ht, hne, hv⟩
    · rw [h1]; exact h
    · exact h.edge hf ht hne hv
  cases e with
  | addNode v => exact h.bare v inf
  | addNodeObject v d => exact h.bare v d
  | addEdge i j w => exact hadd h i j w
  | addEdges i j w =>
    have h1 := hadd h i j w
    have h2 := hadd h1 j i w
    simp only [Edit.run, addEdgesBetweenNodes, M.bind_apply]
    rcases hx : addEdgeBetweenNodes i j w g with ⟨o, g1⟩
    rw [hx] at h1 h2
    cases o with
    | ok a =>
      simp only at h1 h2 ⊢
      rcases hy : addEdgeBetweenNodes j i w g1 with ⟨o, g2⟩
      rw [hy] at h2
      cases o <;> simpa using h2
    | throws e => exact h1
    | abort => exact h1
    | ub => exact h1

theorem inv_history (inf : W) (edits : List (Edit ν W)) : Inv (history inf edits) := by
  unfold history
  have : ∀ (g : Graph ν W), Inv g → Inv (edits.foldl (fun g e => e.run inf g) g) := by
    induction edits with
    | nil => intro g h; exact h
    | cons e es ih => intro g h; exact ih _ (h.run e)
  refine this [] ⟨?_, ?_, ?_⟩
  · rintro i n ⟨_, h⟩; simp at h
  · rintro i n ⟨_, h⟩; simp at h
  · rintro i j n m ⟨_, h⟩; simp at h

end Verif.Graph
