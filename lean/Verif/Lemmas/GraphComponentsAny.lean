import Verif.Lemmas.GraphComponentsExact

/-!
# The search for connected components in any graph
-/
namespace Verif.Graph
open Verif

variable {ν W : Type}

/-- The labels after searches from the nodes `S`. -/
structure Labelled (g : Graph ν W) (S : List Nat) (c : List Nat) : Prop where
  len : c.length = g.length
  found : ∀ i s w : Nat, S[i]? = some s → Leads g s w → w < g.length →
    (∀ j s' : Nat, j < i → S[j]? = some s' → ¬ Leads g s' w) → c[w]? = some (i + 1)
  none : ∀ w : Nat, w < g.length → (∀ s ∈ S, ¬ Leads g s w) → c[w]? = some 0

theorem Leads.lt {g : Graph ν W} (hr : OutInRange g) {u w : Nat} (h : Leads g u w) : w < g.length := by
  have key : ∀ v w, Adj g v w → w < g.length := by
    rintro v w ⟨n, hn, e, he, hw⟩
    have := (hr n (List.mem_of_getElem? hn) e he).2
    omega
  cases h with
  | one ha => exact key _ _ ha
  | more _ ha => exact key _ _ ha

/-- A node to which a start leads has a first start that leads to it. -/
theorem first_start {g : Graph ν W} {S : List Nat} {w : Nat} (h : ∃ s ∈ S, Leads g s w) :
    ∃ i s : Nat, S[i]? = some s ∧ Leads g s w ∧ ∀ j s' : Nat, j < i → S[j]? = some s' → ¬ Leads g s' w := by
  have h' : ∃ i s : Nat, S[i]? = some s ∧ Leads g s w := by
    obtain ⟨s, hs, hl⟩ := h
    obtain ⟨i, hi⟩ := List.getElem?_of_mem hs
    exact ⟨i, s, hi, hl⟩
  obtain ⟨i, hi⟩ := h'
  induction i using Nat.strongRecOn with
  | _ i ih =>
    obtain ⟨s, hs, hl⟩ := hi
    by_cases hn : ∃ j s' : Nat, j < i ∧ S[j]? = some s' ∧ Leads g s' w
    · obtain ⟨j, s', hj, h1, h2⟩ := hn
      exact ih j hj ⟨s', h1, h2⟩
    · exact ⟨i, s, hs, hl, fun j s' hj h1 h2 => hn ⟨j, s', hj, h1, h2⟩⟩

theorem Labelled.zero_iff {g : Graph ν W} {S c : List Nat} (h : Labelled g S c) {w : Nat} (hw : w < g.length) :
    c[w]? = some 0 ↔ ∀ s ∈ S, ¬ Leads g s w := by
  constructor
  · intro h0 s hs hl
    obtain ⟨i, s', h1, h2, h3⟩ := first_start ⟨s, hs, hl⟩
    have := h.found i s' w h1 h2 hw h3
    rw [h0] at this
    injection this with this
    omega
  · exact h.none w hw

theorem Labelled.bound {g : Graph ν W} {S c : List Nat} (h : Labelled g S c) {w x : Nat} (hx : c[w]? = some x) :
    x ≤ S.length := by
  have hw : w < g.length := by rw [← h.len]; exact (List.getElem?_eq_some_iff.1 hx).1
  by_cases hs : ∃ s ∈ S, Leads g s w
  · obtain ⟨i, s', h1, h2, h3⟩ := first_start hs
    rw [h.found i s' w h1 h2 hw h3] at hx
    injection hx with hx
    have := (List.getElem?_eq_some_iff.1 h1).1
    omega
  · rw [h.none w hw (fun s hm hl => hs ⟨s, hm, hl⟩)] at hx
    injection hx with hx
    omega

/-- One marking from a node without a label. -/
theorem Labelled.mark {g : Graph ν W} (hr : OutInRange g) {S c : List Nat} (h : Labelled g S c) {v : Nat}
    (hv : v < g.length) :
    ∃ c' num', markConnectedComponent (g.length + 1) g (v : Int) c (S.length + 1) = some (.ok (c', num')) ∧
      Labelled g (S ++ [v]) c' ∧ counted g S + num' = counted g (S ++ [v]) := by
  have hfr : ∀ w : Nat, c[w]? ≠ some (S.length + 1) := by
    intro w hw
    have := h.bound hw
    omega
  obtain ⟨c', num', h1, h2, h3, _, h5⟩ := mark_spec (R := Leads g v) (id := S.length + 1) (start := v)
    (by omega) h.len hr hv hfr (fun w ha => .one ha) (fun u w hu ha => hu.more ha)
  have hcnt : num' + zeros c' = 1 + zeros c := markLoop_count (by omega) _ h1
  have hlen : c'.length = g.length := by rw [h2.len, h.len]
  have hget : ∀ w, w < g.length → ∃ x, c'[w]? = some x := by
    intro w hw
    exact ⟨_, List.getElem?_eq_getElem (by rw [hlen]; exact hw)⟩
  -- every node this one leads to has a label
  have hlab : ∀ w, Leads g v w → ∃ x, c'[w]? = some x ∧ x ≠ 0 := by
    intro w hl
    induction hl with
    | one ha => exact h5 v (Or.inl rfl) _ ha
    | @more u w hl ha ih =>
      obtain ⟨x, hx, hx0⟩ := ih
      rcases step_cases h2 hx with h6 | ⟨h6, _⟩
      · -- the node had a label before, so has the next one
        have hu := hl.lt hr
        have hw := (hl.more ha).lt hr
        have hs : ∃ s ∈ S, Leads g s u := by
          refine Classical.byContradiction (fun hn => ?_)
          have := (h.zero_iff hu).2 (fun s hm hls => hn ⟨s, hm, hls⟩)
          rw [h6] at this
          injection this with this
          exact hx0 this
        obtain ⟨s, hm, hls⟩ := hs
        obtain ⟨y, hy⟩ := hget w hw
        refine ⟨y, hy, ?_⟩
        rintro rfl
        rcases step_cases h2 hy with h7 | ⟨h7, _⟩
        · exact (h.zero_iff hw).1 h7 s hm (hls.more ha)
        · omega
      · subst h6
        exact h5 u (Or.inr hx) w ha
  have hfoundNew : ∀ w, Leads g v w → (∀ s ∈ S, ¬ Leads g s w) → c'[w]? = some (S.length + 1) := by
    intro w hl hn
    obtain ⟨x, hx, hx0⟩ := hlab w hl
    rcases step_cases h2 hx with h6 | ⟨h6, _⟩
    · rw [(h.zero_iff (hl.lt hr)).2 hn] at h6
      injection h6 with h6
      exact absurd h6.symm hx0
    · rw [← h6]; exact hx
  have hkeep : ∀ w x : Nat, c[w]? = some x → x ≠ 0 → c'[w]? = some x := by
    intro w x hx hx0
    rcases h2.old w x hx with h6 | ⟨h6, _⟩
    · exact h6
    · exact absurd h6 hx0
  have hL : Labelled g (S ++ [v]) c' := by
    refine ⟨hlen, ?_, ?_⟩
    · intro i s w hi hl hw hmin
      rcases Nat.lt_or_ge i S.length with hlt | hge
      · rw [List.getElem?_append_left hlt] at hi
        refine hkeep w _ (h.found i s w hi hl hw ?_) (by omega)
        intro j s' hj hs'
        exact hmin j s' hj (by rw [List.getElem?_append_left (by omega)]; exact hs')
      · rw [List.getElem?_append_right hge] at hi
        have hi0 : i - S.length = 0 := by
          have := (List.getElem?_eq_some_iff.1 hi).1
          simp at this
          omega
        rw [hi0] at hi
        simp at hi
        subst hi
        have hi1 : i = S.length := by omega
        subst hi1
        refine hfoundNew w hl (fun s hs => ?_)
        obtain ⟨j, hj⟩ := List.getElem?_of_mem hs
        have hjl := (List.getElem?_eq_some_iff.1 hj).1
        exact hmin j s hjl (by rw [List.getElem?_append_left hjl]; exact hj)
    · intro w hw hn
      rcases h2.old w 0 (h.none w hw (fun s hs => hn s (by simp [hs]))) with h6 | ⟨_, h6⟩
      · exact h6
      · exact absurd (h3 w h6) (hn v (by simp))
  refine ⟨c', num', h1, hL, ?_⟩
  have hz : ∀ (T d : List Nat), Labelled g T d →
      zeros d + howMany (fun w => ∃ s ∈ T, Leads g s w) g.length = g.length := by
    intro T d hT
    have e1 : zeros d = howMany (fun w => d[w]? = some 0) g.length := by rw [zeros_howMany, hT.len]
    have e2 : howMany (fun w => d[w]? = some 0) g.length
        = howMany (fun w => ¬ ∃ s ∈ T, Leads g s w) g.length :=
      howMany_congr (fun w hw => by rw [hT.zero_iff hw]; simp)
    have e3 : howMany (fun w => (¬ ∃ s ∈ T, Leads g s w) ∨ ∃ s ∈ T, Leads g s w) g.length
        = howMany (fun w => ¬ ∃ s ∈ T, Leads g s w) g.length
          + howMany (fun w => ∃ s ∈ T, Leads g s w) g.length :=
      howMany_or (fun w _ hh => hh.1 hh.2)
    have e4 : ∀ n, howMany (fun w => (¬ ∃ s ∈ T, Leads g s w) ∨ ∃ s ∈ T, Leads g s w) n = n := by
      intro n
      induction n with
      | zero => rfl
      | succ n ih => rw [howMany_succ_pos (Classical.em _).symm, ih]
    rw [e4] at e3
    omega
  have z1 := hz S c h
  have z2 := hz (S ++ [v]) c' hL
  unfold counted
  rw [List.length_append, List.length_singleton]
  omega

theorem starts_stop {g : Graph ν W} {v : Nat} (h : ¬ counted g (starts g v) < g.length) (k : Nat) :
    starts g (v + k) = starts g v := by
  induction k with
  | zero => rfl
  | succ k ih =>
    rw [← Nat.add_assoc]
    conv => lhs; unfold starts
    rw [if_neg]
    · exact ih
    · rintro ⟨_, h2⟩
      rw [ih] at h2
      exact h h2

theorem componentsLoop_any {g : Graph ν W} (hr : OutInRange g) (remaining idx : Nat)
    (hidx : idx + remaining = g.length) {c : List Nat} (h : Labelled g (starts g idx) c) :
    ∃ c', componentsLoop (g.length + 1) g remaining idx (counted g (starts g idx)) c (starts g idx).length =
        some (.ok (c', (starts g g.length).length)) ∧ Labelled g (starts g g.length) c' := by
  induction remaining generalizing idx c with
  | zero =>
    rw [show idx = g.length by omega] at h ⊢
    exact ⟨c, rfl, h⟩
  | succ remaining ih =>
    unfold componentsLoop
    by_cases ht : counted g (starts g idx) < g.length
    · rw [if_pos ht]
      have hl : idx < c.length := by rw [h.len]; omega
      have hg := List.getElem?_eq_getElem hl
      rw [hg]
      dsimp only
      generalize c[idx] = x at hg
      have hz := h.zero_iff (w := idx) (by omega)
      by_cases hx : x = 0
      · subst hx
        rw [if_pos rfl]
        obtain ⟨c', num', h1, h2, h3⟩ := h.mark hr (v := idx) (by omega)
        rw [h1]
        dsimp only
        have hs : starts g (idx + 1) = starts g idx ++ [idx] := by
          conv => lhs; unfold starts
          rw [if_pos ⟨hz.1 hg, ht⟩]
        have := ih (idx + 1) (by omega) (c := c') (by rw [hs]; exact h2)
        rw [hs, List.length_append, List.length_singleton] at this
        rw [h3]
        exact this
      · rw [if_neg hx]
        have hs : starts g (idx + 1) = starts g idx := by
          conv => lhs; unfold starts
          rw [if_neg]
          rintro ⟨h1, _⟩
          rw [hz.2 h1] at hg
          injection hg with hg
          exact hx hg.symm
        have := ih (idx + 1) (by omega) (c := c) (by rw [hs]; exact h)
        rw [hs] at this
        exact this
    · rw [if_neg ht]
      have hs : starts g g.length = starts g idx := by
        rw [← hidx]; exact starts_stop ht _
      rw [hs]
      exact ⟨c, rfl, h⟩

theorem components_any {g : Graph ν W} (hr : OutInRange g) :
    ∃ c, getConnectedComponentsUndirected g = some (.ok (c, (starts g g.length).length)) ∧
      Labelled g (starts g g.length) c := by
  have h0 : Labelled g (starts g 0) (List.replicate g.length 0) := by
    refine ⟨by simp, ?_, ?_⟩
    · intro i s w hi; simp [starts] at hi
    · intro w hw _; rw [List.getElem?_replicate, if_pos hw]
  have := componentsLoop_any hr g.length 0 (by omega) h0
  have hc : counted g (starts g 0) = 0 := by
    unfold counted starts
    rw [howMany_none (by simp)]
    rfl
  rw [hc] at this
  exact this

end Verif.Graph
