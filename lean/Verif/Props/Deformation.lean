import Verif.Model.Deformation
import Verif.Spec.Deformation
import Mathlib.Data.Int.Order.Basic

/-!
# C56: the first-order deformation path
-/
namespace Verif.Deformation
open Verif

variable {W : Type} [LinearOrder W] {rows cols : Int} {valid : Int → Int → Bool}

theorem mem_upTo {lo hi x : Int} : x ∈ upTo lo hi ↔ lo ≤ x ∧ x ≤ hi := by
  unfold upTo
  rw [List.mem_map]
  constructor
  · rintro ⟨i, hi', rfl⟩
    have := List.mem_range.1 hi'
    omega
  · rintro ⟨h1, h2⟩
    exact ⟨(x - lo).toNat, List.mem_range.2 (by omega), by omega⟩

theorem mem_neighbours {c d : Cell} :
    d ∈ neighbours rows cols valid c ↔ Move rows cols valid c d := by
  obtain ⟨c1, c2⟩ := c
  obtain ⟨d1, d2⟩ := d
  simp only [neighbours, Move, InGrid, List.mem_flatMap, List.mem_map, List.mem_filter, mem_upTo, Prod.mk.injEq,
    Bool.and_eq_true, Bool.not_eq_true', Bool.and_eq_false_iff, beq_eq_false_iff_ne, ne_eq]
  constructor
  · rintro ⟨col, hcol, row, ⟨hrow, hne, hv⟩, rfl, rfl⟩
    refine ⟨?_, by omega, by omega, by omega, by omega, by omega, hv⟩
    rintro ⟨rfl, rfl⟩
    simp at hne
  · rintro ⟨hne, h1, h2, h3, h4, hg, hv⟩
    refine ⟨d2, by omega, d1, ⟨by omega, ?_, hv⟩, rfl, rfl⟩
    by_cases h : d1 = c1
    · right; rintro rfl; exact hne ⟨h.symm, rfl⟩
    · exact Or.inl h

theorem length_flatMap_le {α β : Type} (l : List α) (f : α → List β) (k : Nat) (h : ∀ x, (f x).length ≤ k) :
    (l.flatMap f).length ≤ l.length * k := by
  induction l with
  | nil => simp
  | cons a l ih =>
    rw [List.flatMap_cons, List.length_append, List.length_cons, Nat.succ_mul]
    have := h a
    omega

theorem length_neighbours (c : Cell) : (neighbours rows cols valid c).length ≤ 9 := by
  unfold neighbours
  refine Nat.le_trans (length_flatMap_le _ _ 3 fun col => ?_) ?_
  · rw [List.length_map]
    refine Nat.le_trans (List.length_filter_le _ _) ?_
    unfold upTo
    rw [List.length_map, List.length_range]
    omega
  · have : (upTo (max 0 (c.2 - 1)) (min (cols - 1) (c.2 + 1))).length ≤ 3 := by
      unfold upTo
      rw [List.length_map, List.length_range]
      omega
    omega

/-- what a run of the inner loop does -/
theorem addNeighbours_spec (current : Cell) (ns : List Cell) (s : St)
    (hns : ∀ n ∈ ns, InGrid rows cols n) :
    ∃ s', addNeighbours rows cols current ns s = .ok s' ∧ s'.explored = s.explored ∧
      (∀ c, c ∈ s'.frontier ↔ c ∈ s.frontier ∨ (c ∈ ns ∧ c ∉ s.explored)) ∧
      (∀ c, s'.parents c = if c ∈ ns ∧ c ∉ s.explored then some current else s.parents c) ∧
      s'.frontier.length ≤ s.frontier.length + ns.length := by
  induction ns generalizing s with
  | nil => exact ⟨s, rfl, rfl, by simp, by simp, by simp⟩
  | cons n ns ih =>
    have ha : access rows cols n = .ok () := by
      unfold access
      exact Out.assert_true (hns n (List.mem_cons_self ..))
    have hns' : ∀ m ∈ ns, InGrid rows cols m := fun m hm => hns m (List.mem_cons_of_mem _ hm)
    rw [addNeighbours, ha, Out.bind_ok]
    by_cases hn : n ∈ s.explored
    · rw [if_pos hn]
      obtain ⟨s', h1, h2, h3, h4, h5⟩ := ih s hns'
      refine ⟨s', h1, h2, fun c => ?_, fun c => ?_, ?_⟩
      · rw [h3]
        constructor
        · rintro (h | ⟨h, h'⟩)
          · exact Or.inl h
          · exact Or.inr ⟨List.mem_cons_of_mem _ h, h'⟩
        · rintro (h | ⟨h, h'⟩)
          · exact Or.inl h
          · rcases List.mem_cons.1 h with rfl | h
            · exact absurd hn h'
            · exact Or.inr ⟨h, h'⟩
      · rw [h4]
        have : (c ∈ n :: ns ∧ c ∉ s.explored) ↔ (c ∈ ns ∧ c ∉ s.explored) := by
          constructor
          · rintro ⟨h, h'⟩
            rcases List.mem_cons.1 h with rfl | h
            · exact absurd hn h'
            · exact ⟨h, h'⟩
          · rintro ⟨h, h'⟩; exact ⟨List.mem_cons_of_mem _ h, h'⟩
        simp only [this]
      · rw [List.length_cons]; omega
    · rw [if_neg hn]
      obtain ⟨s', h1, h2, h3, h4, h5⟩ := ih
        { s with frontier := s.frontier ++ [n], parents := fun c => if c = n then some current else s.parents c } hns'
      refine ⟨s', h1, h2, fun c => ?_, fun c => ?_, ?_⟩
      · rw [h3]
        simp only [List.mem_append, List.mem_cons, List.not_mem_nil, or_false]
        constructor
        · rintro ((h | h) | ⟨h, h'⟩)
          · exact Or.inl h
          · exact Or.inr ⟨Or.inl h, h ▸ hn⟩
          · exact Or.inr ⟨Or.inr h, h'⟩
        · rintro (h | ⟨h | h, h'⟩)
          · exact Or.inl (Or.inl h)
          · exact Or.inl (Or.inr h)
          · exact Or.inr ⟨h, h'⟩
      · rw [h4]
        simp only [List.mem_cons]
        by_cases hc : c = n
        · subst hc; simp [hn]
        · simp [hc]
      · simp only [List.length_append, List.length_cons, List.length_nil] at h5 ⊢
        omega

/-- the parents of the cells of the list lead back to the start -/
def Linked (rows cols : Int) (valid : Int → Int → Bool) (parents : Cell → Option Cell) : List Cell → Prop
  | [] => True
  | c :: l => (c = (0, 0) ∨ ∃ p, parents c = some p ∧ p ∈ l ∧ Move rows cols valid p c) ∧
      Linked rows cols valid parents l

theorem Linked.congr {parents parents' : Cell → Option Cell} {l : List Cell}
    (h : Linked rows cols valid parents l) (he : ∀ c ∈ l, parents' c = parents c) :
    Linked rows cols valid parents' l := by
  induction l with
  | nil => trivial
  | cons c l ih =>
    refine ⟨?_, ih h.2 fun d hd => he d (List.mem_cons_of_mem _ hd)⟩
    rw [he c (List.mem_cons_self ..)]
    exact h.1

/-- the invariant of the search -/
structure Inv (rows cols : Int) (valid : Int → Int → Bool) (s : St) : Prop where
  exploredGrid : ∀ c ∈ s.explored, InGrid rows cols c
  frontierGrid : ∀ c ∈ s.frontier, InGrid rows cols c
  nodup : s.explored.Nodup
  goal : (rows - 1, cols - 1) ∉ s.explored
  linked : Linked rows cols valid s.parents s.explored
  open_ : ∀ c ∈ s.frontier, c ∉ s.explored → c = (0, 0) ∨
    ∃ p, s.parents c = some p ∧ p ∈ s.explored ∧ Move rows cols valid p c
  start : (0, 0) ∈ s.explored ∨ (0, 0) ∈ s.frontier
  closed : ∀ c ∈ s.explored, ∀ d, Move rows cols valid c d → d ∈ s.explored ∨ d ∈ s.frontier

/-- all cells of the grid -/
def cells (rows cols : Int) : List Cell := (upTo 0 (rows - 1)).flatMap fun r => (upTo 0 (cols - 1)).map fun c => (r, c)

theorem mem_cells {c : Cell} : c ∈ cells rows cols ↔ InGrid rows cols c := by
  obtain ⟨r, c⟩ := c
  simp only [cells, InGrid, List.mem_flatMap, List.mem_map, mem_upTo, Prod.mk.injEq]
  constructor
  · rintro ⟨a, h1, b, h2, rfl, rfl⟩; omega
  · intro h; exact ⟨r, by omega, c, by omega, rfl, rfl⟩

theorem length_cells (hr : 0 < rows) (hc : 0 < cols) : (cells rows cols).length ≤ rows.toNat * cols.toNat := by
  unfold cells
  refine Nat.le_trans (length_flatMap_le _ _ cols.toNat fun r => ?_) ?_
  · rw [List.length_map]; unfold upTo; rw [List.length_map, List.length_range]; omega
  · refine Nat.mul_le_mul_right _ ?_
    unfold upTo; rw [List.length_map, List.length_range]; omega

/-- the number of iterations still possible -/
def measure (rows cols : Int) (s : St) : Nat :=
  s.frontier.length + 10 * (rows.toNat * cols.toNat - s.explored.length)

theorem explored_bound (hr : 0 < rows) (hc : 0 < cols) {l : List Cell} (hn : l.Nodup)
    (hg : ∀ c ∈ l, InGrid rows cols c) : l.length ≤ rows.toNat * cols.toNat := by
  refine Nat.le_trans ?_ (length_cells hr hc)
  exact List.Nodup.length_le_of_subset hn fun c h => mem_cells.2 (hg c h)

theorem iterate_spec (hr : 0 < rows) (hc : 0 < cols) (key : Cell → W) (pick : Nat) (s : St)
    (hi : Inv rows cols valid s) (hne : s.frontier ≠ []) :
    (∃ s', iterate rows cols valid key pick s = .ok (true, s') ∧ s'.explored = s.explored ∧
      s'.parents = s.parents ∧ (rows - 1, cols - 1) ∈ s.frontier) ∨
    (∃ s', iterate rows cols valid key pick s = .ok (false, s') ∧ Inv rows cols valid s' ∧
      measure rows cols s' < measure rows cols s) := by
  unfold iterate
  cases hp : popMin key pick s.frontier with
  | none => exact absurd (popMin_none.1 hp) hne
  | some r =>
    obtain ⟨current, rest⟩ := r
    have hpop := popMin_mem hp
    have hmem : ∀ c, c ∈ s.frontier ↔ c = current ∨ c ∈ rest := by
      intro c
      refine ⟨hpop.2.2.1 c, ?_⟩
      rintro (rfl | h)
      · exact hpop.1
      · exact hpop.2.1 c h
    have hlen : s.frontier.length = rest.length + 1 := (popMin_length hp).symm
    have hcur : InGrid rows cols current := hi.frontierGrid _ ((hmem _).2 (Or.inl rfl))
    dsimp only
    by_cases hgoal : current.1 = rows - 1 ∧ current.2 = cols - 1
    · rw [if_pos hgoal]
      refine Or.inl ⟨_, rfl, rfl, rfl, ?_⟩
      have : current = (rows - 1, cols - 1) := Prod.ext hgoal.1 hgoal.2
      rw [← this]
      exact (hmem _).2 (Or.inl rfl)
    · rw [if_neg hgoal]
      have ha : access rows cols current = .ok () := by
        unfold access; exact Out.assert_true hcur
      rw [ha, Out.bind_ok]
      right
      by_cases he : current ∈ s.explored
      · rw [if_pos he]
        refine ⟨_, rfl, ⟨hi.exploredGrid, fun c h => hi.frontierGrid c ((hmem c).2 (Or.inr h)), hi.nodup, hi.goal,
          hi.linked, fun c h => hi.open_ c ((hmem c).2 (Or.inr h)), ?_, ?_⟩, ?_⟩
        · rcases hi.start with h | h
          · exact Or.inl h
          · rcases (hmem _).1 h with h | h
            · exact Or.inl (h ▸ he)
            · exact Or.inr h
        · intro c hc' d hd
          rcases hi.closed c hc' d hd with h | h
          · exact Or.inl h
          · rcases (hmem _).1 h with h | h
            · exact Or.inl (h ▸ he)
            · exact Or.inr h
        · unfold measure; dsimp only; omega
      · rw [if_neg he]
        obtain ⟨s', h1, h2, h3, h4, h5⟩ := addNeighbours_spec (rows := rows) (cols := cols) current
          (neighbours rows cols valid current) { s with frontier := rest, explored := current :: s.explored }
          (fun n hn => (mem_neighbours.1 hn).2.2.2.2.2.1)
        rw [h1, Out.bind_ok]
        dsimp only at h2 h3 h4 h5
        have hnd : (current :: s.explored).Nodup := List.nodup_cons.2 ⟨he, hi.nodup⟩
        have hgrid : ∀ c ∈ current :: s.explored, InGrid rows cols c := by
          intro c h
          rcases List.mem_cons.1 h with rfl | h
          · exact hcur
          · exact hi.exploredGrid c h
        have hpar : ∀ c ∈ current :: s.explored, s'.parents c = s.parents c := by
          intro c h
          rw [h4, if_neg fun hh => hh.2 h]
        refine ⟨s', rfl, ⟨?_, ?_, ?_, ?_, ?_, ?_, ?_, ?_⟩, ?_⟩
        · rw [h2]; exact hgrid
        · intro c h
          rcases (h3 c).1 h with h | h
          · exact hi.frontierGrid c ((hmem c).2 (Or.inr h))
          · exact (mem_neighbours.1 h.1).2.2.2.2.2.1
        · rw [h2]; exact hnd
        · rw [h2]
          intro h
          rcases List.mem_cons.1 h with h | h
          · exact hgoal ⟨by rw [← h], by rw [← h]⟩
          · exact hi.goal h
        · rw [h2]
          refine Linked.congr (parents := s.parents) ⟨?_, hi.linked⟩ hpar
          exact hi.open_ current ((hmem _).2 (Or.inl rfl)) he
        · intro c h hx
          rw [h2] at hx
          rw [h4]
          by_cases hn : c ∈ neighbours rows cols valid current
          · rw [if_pos ⟨hn, hx⟩]
            right
            refine ⟨current, rfl, ?_, mem_neighbours.1 hn⟩
            rw [h2]; exact List.mem_cons_self ..
          · rw [if_neg fun hh => hn hh.1]
            rcases (h3 c).1 h with h | h
            · rcases hi.open_ c ((hmem c).2 (Or.inr h)) (fun h' => hx (List.mem_cons_of_mem _ h')) with h0 | ⟨p, hp1, hp2, hp3⟩
              · exact Or.inl h0
              · right
                refine ⟨p, hp1, ?_, hp3⟩
                rw [h2]; exact List.mem_cons_of_mem _ hp2
            · exact absurd h.1 hn
        · rcases hi.start with h | h
          · left; rw [h2]; exact List.mem_cons_of_mem _ h
          · rcases (hmem _).1 h with h | h
            · left; rw [h2, h]; exact List.mem_cons_self ..
            · right; exact (h3 _).2 (Or.inl h)
        · intro c hc' d hd
          rw [h2] at hc' ⊢
          by_cases hx : d ∈ current :: s.explored
          · exact Or.inl hx
          · right
            rcases List.mem_cons.1 hc' with rfl | hc'
            · exact (h3 _).2 (Or.inr ⟨mem_neighbours.2 hd, hx⟩)
            · rcases hi.closed c hc' d hd with h | h
              · exact absurd (List.mem_cons_of_mem _ h) hx
              · rcases (hmem _).1 h with h | h
                · exact absurd (h ▸ List.mem_cons_self ..) hx
                · exact (h3 _).2 (Or.inl h)
        · have hb := explored_bound hr hc hnd hgrid
          have hl := length_neighbours (rows := rows) (cols := cols) (valid := valid) current
          unfold measure
          rw [h2]
          rw [List.length_cons] at hb ⊢
          omega

theorem search_spec (hr : 0 < rows) (hc : 0 < cols) (key : Cell → W) (pick : Nat → Nat) (fuel : Nat) (s : St)
    (hi : Inv rows cols valid s) (hf : measure rows cols s < fuel) :
    (∃ s' s'', search rows cols valid key pick fuel s = some (.ok (true, s')) ∧ Inv rows cols valid s'' ∧
      s'.explored = s''.explored ∧ s'.parents = s''.parents ∧ (rows - 1, cols - 1) ∈ s''.frontier) ∨
    (∃ s', search rows cols valid key pick fuel s = some (.ok (false, s')) ∧ Inv rows cols valid s' ∧
      s'.frontier = []) := by
  induction fuel generalizing s with
  | zero => omega
  | succ fuel ih =>
    rw [search]
    by_cases hne : s.frontier = []
    · rw [if_pos hne]
      exact Or.inr ⟨s, rfl, hi, hne⟩
    · rw [if_neg hne]
      rcases iterate_spec hr hc key (pick fuel) s hi hne with ⟨s', h1, h2, h3, h4⟩ | ⟨s', h1, h2, h3⟩
      · rw [h1]
        exact Or.inl ⟨s', s, rfl, hi, h2, h3, h4⟩
      · rw [h1]
        exact ih s' h2 (by omega)

theorem Chain.append {p : List Cell} {c d : Cell} (h : Chain rows cols valid p) (hl : p.getLast? = some c)
    (hm : Move rows cols valid c d) : Chain rows cols valid (p ++ [d]) := by
  induction p with
  | nil => simp at hl
  | cons a p ih =>
    cases p with
    | nil =>
      simp at hl
      subst hl
      exact ⟨hm, trivial⟩
    | cons b p =>
      refine ⟨h.1, ih h.2 ?_⟩
      rwa [List.getLast?_cons_cons] at hl

/-- following the parents from a linked cell -/
theorem recover_spec (parents : Cell → Option Cell) (l : List Cell) (hl : Linked rows cols valid parents l)
    (c : Cell) (hc : c ∈ l) (fuel : Nat) (hf : l.length ≤ fuel) (hn : l.Nodup) :
    ∃ p, recover parents fuel c = some p ∧ p.head? = some (0, 0) ∧ p.getLast? = some c ∧
      Chain rows cols valid p ∧ p.Nodup ∧ ∀ d ∈ p, d ∈ l := by
  induction l generalizing c fuel with
  | nil => simp at hc
  | cons a l ih =>
    cases fuel with
    | zero => simp at hf
    | succ fuel =>
      by_cases h0 : c = (0, 0)
      · subst h0
        exact ⟨[(0, 0)], by simp [recover], rfl, rfl, trivial, by simp, by simpa using hc⟩
      rcases List.mem_cons.1 hc with rfl | hc'
      · rcases hl.1 with h | ⟨q, hq1, hq2, hq3⟩
        · exact absurd h h0
        · obtain ⟨p, h1, h2, h3, h4, h5, h6⟩ := ih hl.2 q hq2 fuel (by rw [List.length_cons] at hf; omega)
            (List.nodup_cons.1 hn).2
          refine ⟨p ++ [c], ?_, ?_, by simp, h4.append h3 hq3, ?_, ?_⟩
          · rw [recover, if_neg h0, hq1, Option.getD_some, h1]; rfl
          · cases p with
            | nil => simp at h2
            | cons b p => simpa using h2
          · rw [List.nodup_append]
            refine ⟨h5, by simp, ?_⟩
            intro x hx y hy
            rw [List.mem_singleton] at hy
            subst hy
            rintro rfl
            exact (List.nodup_cons.1 hn).1 (h6 _ hx)
          · intro d hd
            rcases List.mem_append.1 hd with h | h
            · exact List.mem_cons_of_mem _ (h6 d h)
            · rw [List.mem_singleton] at h; rw [h]; exact List.mem_cons_self ..
      · obtain ⟨p, h1, h2, h3, h4, h5, h6⟩ := ih hl.2 c hc' (fuel + 1) (by rw [List.length_cons] at hf; omega)
          (List.nodup_cons.1 hn).2
        exact ⟨p, h1, h2, h3, h4, h5, fun d hd => List.mem_cons_of_mem _ (h6 d hd)⟩

/-- a chain cannot leave a closed set -/
theorem chain_closed {p : List Cell} (h : Chain rows cols valid p) (S : Cell → Prop)
    (hS : ∀ a b, S a → Move rows cols valid a b → S b) {a : Cell} (ha : p.head? = some a) (hSa : S a)
    {b : Cell} (hb : p.getLast? = some b) : S b := by
  induction p generalizing a with
  | nil => simp at ha
  | cons x p ih =>
    simp at ha
    subst ha
    cases p with
    | nil => simp at hb; subst hb; exact hSa
    | cons y p =>
      rw [List.getLast?_cons_cons] at hb
      exact ih h.2 rfl (hS _ _ hSa h.1) hb

/-- For every grid, every validity function, every distance and every way of breaking ties, the search ends. It
returns a path if there is one, without repeated cells, and the empty list otherwise. Whether the first cell is
valid does not matter. A grid without cells fails the assertion. -/
theorem C56_deformation (rows cols : Int) (valid : Int → Int → Bool) (key : Cell → W) (pick : Nat → Nat) :
    (0 < rows → 0 < cols → ∀ fuel : Nat, 10 * (rows.toNat * cols.toNat) + 2 ≤ fuel →
      ∃ path, deformation rows cols valid key pick fuel = some (.ok path) ∧
        ((∃ p, IsPath rows cols valid p) → IsPath rows cols valid path ∧ path.Nodup) ∧
        ((¬ ∃ p, IsPath rows cols valid p) → path = [])) ∧
    (¬ (0 < rows ∧ 0 < cols) → ∀ fuel, deformation rows cols valid key pick fuel = some .abort) := by
  constructor
  · intro hr hc fuel hfuel
    have hgrid0 : InGrid rows cols (0, 0) := ⟨le_refl _, hr, le_refl _, hc⟩
    have hinit : Inv rows cols valid ⟨[(0, 0)], [], fun _ => none⟩ := by
      refine ⟨by simp, ?_, by simp, by simp, trivial, ?_, by simp, by simp⟩
      · intro c h; rw [List.mem_singleton] at h; rw [h]; exact hgrid0
      · intro c h _; exact Or.inl (List.mem_singleton.1 h)
    unfold deformation
    rw [if_pos ⟨hr, hc⟩]
    rcases search_spec hr hc key pick fuel _ hinit (by unfold measure; simp; omega) with
      ⟨s', s'', h1, h2, h3, h4, h5⟩ | ⟨s', h1, h2, h3⟩
    · rw [h1]
      dsimp only
      have hl : Linked rows cols valid s''.parents ((rows - 1, cols - 1) :: s''.explored) :=
        ⟨h2.open_ _ h5 h2.goal, h2.linked⟩
      have hnd : ((rows - 1, cols - 1) :: s''.explored).Nodup := List.nodup_cons.2 ⟨h2.goal, h2.nodup⟩
      have hb := explored_bound hr hc h2.nodup h2.exploredGrid
      obtain ⟨p, q1, q2, q3, q4, q5, _⟩ := recover_spec s''.parents _ hl (rows - 1, cols - 1)
        (List.mem_cons_self ..) fuel (by rw [List.length_cons]; omega) hnd
      rw [h4, q1]
      refine ⟨p, rfl, fun _ => ⟨⟨q2, q3, q4⟩, q5⟩, fun h => absurd ⟨p, q2, q3, q4⟩ h⟩
    · rw [h1]
      refine ⟨[], rfl, ?_, fun _ => rfl⟩
      rintro ⟨p, hp1, hp2, hp3⟩
      exfalso
      refine h2.goal (chain_closed hp3 (fun c => c ∈ s'.explored) ?_ hp1 ?_ hp2)
      · intro a b ha hm
        rcases h2.closed a ha b hm with h | h
        · exact h
        · rw [h3] at h; simp at h
      · rcases h2.start with h | h
        · exact h
        · rw [h3] at h; simp at h
  · intro h fuel
    unfold deformation
    rw [if_neg h]

/-- The neighbours of a cell are the valid cells of the grid one king move away, each once. -/
theorem C56_neighbours (rows cols : Int) (valid : Int → Int → Bool) (c : Cell) :
    (∀ d, d ∈ neighbours rows cols valid c ↔ Move rows cols valid c d) ∧ (neighbours rows cols valid c).Nodup := by
  refine ⟨fun d => mem_neighbours, ?_⟩
  have hu : ∀ lo hi, (upTo lo hi).Nodup := by
    intro lo hi
    unfold upTo
    rw [List.Nodup, List.pairwise_map]
    exact List.Pairwise.imp (fun h => by omega) List.nodup_range
  unfold neighbours List.Nodup
  rw [List.pairwise_flatMap]
  constructor
  · intro col _
    rw [List.pairwise_map]
    exact List.Pairwise.imp (fun h => by simpa using h) ((hu _ _).filter _)
  · refine List.Pairwise.imp ?_ (hu _ _)
    intro a b hab x hx y hy
    simp only [List.mem_map, List.mem_filter] at hx hy
    obtain ⟨r, _, rfl⟩ := hx
    obtain ⟨r', _, rfl⟩ := hy
    simp [hab]

/-- a grid with a wall and a gap -/
def wall : Int → Int → Bool := fun r c => !(c == 1 && r != 2)

example : IsPath 3 3 wall [(0, 0), (1, 0), (2, 1), (2, 2)] := by
  refine ⟨rfl, rfl, ?_, ?_, ?_, trivial⟩ <;> unfold Move InGrid wall <;> decide

example : deformation 3 3 wall (fun c => (c.1 - 2) ^ 2 + (c.2 - 2) ^ 2) (fun _ => 0) 100 =
      some (.ok [(0, 0), (1, 0), (2, 1), (2, 2)]) ∧
    deformation 3 3 (fun _ c => !(c == 1)) (fun c => (c.1 - 2) ^ 2 + (c.2 - 2) ^ 2) (fun _ => 0) 100 =
      some (.ok []) ∧
    deformation 1 1 (fun _ _ => false) (fun c => (c.1 - 2) ^ 2 + (c.2 - 2) ^ 2) (fun _ => 0) 100 =
      some (.ok [(0, 0)]) := by
  decide +kernel

end Verif.Deformation
