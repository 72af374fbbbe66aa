import Verif.Lemmas.Graph
namespace Verif.Graph
open Verif

variable {ν W : Type}

/-- Number of unlabelled nodes. -/
def zeros (c : List Nat) : Nat := c.countP (fun x => x == 0)

theorem zeros_set {c : List Nat} {i id : Nat} (h : c[i]? = some 0) (hid : id ≠ 0) :
    zeros (c.set i id) + 1 = zeros c := by
  induction c generalizing i with
  | nil => simp at h
  | cons a c ih =>
    cases i with
    | zero => simp at h; subst h; simp [zeros, hid]
    | succ i =>
      have := ih (i := i) (by simpa using h)
      simp only [zeros, List.set_cons_succ, List.countP_cons] at this ⊢
      omega

/-- The relation between the labels before and after some marking with `id`, while the nodes in
`R` are known reachable. -/
structure Step (c0 c : List Nat) (id : Nat) : Prop where
  len : c.length = c0.length
  old : ∀ v x : Nat, c0[v]? = some x → c[v]? = some x ∨ (x = 0 ∧ c[v]? = some id)

theorem Step.refl (c : List Nat) (id : Nat) : Step c c id := ⟨rfl, fun _ _ h => Or.inl h⟩

theorem Step.set {c0 c : List Nat} {id i : Nat} (h : Step c0 c id) (hi : c[i]? = some 0) (hid : id ≠ 0) :
    Step c0 (c.set i id) id := by
  refine ⟨by simp [h.len], ?_⟩
  intro v x hv
  by_cases hvi : i = v
  · subst hvi
    have hl : i < c.length := (List.getElem?_eq_some_iff.1 hi).1
    rcases h.old i x hv with h1 | ⟨h1, h2⟩
    · rw [hi] at h1; injection h1 with h1
      right; exact ⟨h1.symm, by simp [hl]⟩
    · rw [hi] at h2; injection h2 with h2; omega
  · rw [List.getElem?_set_ne hvi]
    exact h.old v x hv

/-- The invariant of the marking loop. `R` says which nodes count as reached. -/
structure MInv (g : Graph ν W) (R : Nat → Prop) (start id : Nat) (c0 c : List Nat) (num : Nat)
    (q : List Int) (budget : Nat) : Prop where
  step : Step c0 c id
  reached : ∀ v : Nat, c[v]? = some id → R v
  queue : ∀ x ∈ q, ∃ v : Nat, x = (v : Int) ∧ v < g.length ∧ (v = start ∨ c[v]? = some id)
  fuel : q.length + zeros c ≤ budget
  num_pos : 1 ≤ num

/-- Every neighbour of `v` is labelled. -/
def Done (g : Graph ν W) (c : List Nat) (v : Nat) : Prop :=
  ∀ w, Adj g v w → ∃ x, c[w]? = some x ∧ x ≠ 0

/-- Labels are kept. -/
def Keeps (c c' : List Nat) : Prop := ∀ (v x : Nat), c[v]? = some x → x ≠ 0 → c'[v]? = some x

theorem Keeps.refl (c : List Nat) : Keeps c c := fun _ _ h _ => h
theorem Keeps.trans {a b c : List Nat} (h : Keeps a b) (h' : Keeps b c) : Keeps a c :=
  fun v x hv hx => h' v x (h v x hv hx) hx
theorem Keeps.done {g : Graph ν W} {c c' : List Nat} (h : Keeps c c') {v : Nat} (hd : Done g c v) :
    Done g c' v := by
  intro w hw
  obtain ⟨x, hx, hne⟩ := hd w hw
  exact ⟨x, h w x hx hne, hne⟩

theorem keeps_set {c : List Nat} {i id : Nat} (hi : c[i]? = some 0) : Keeps c (c.set i id) := by
  intro v x hv hx
  by_cases hvi : i = v
  · subst hvi; rw [hi] at hv; injection hv with hv; omega
  · rw [List.getElem?_set_ne hvi]; exact hv

theorem markEdges_spec {g : Graph ν W} {R : Nat → Prop} {start id : Nat} {c0 : List Nat}
    (hid : id ≠ 0) (hfresh : c0.length = g.length) (es : List (Edge W))
    (hr : ∀ e ∈ es, 0 ≤ e.toIndex ∧ e.toIndex < (g.length : Int) ∧ R e.toIndex.toNat)
    {c : List Nat} {num : Nat} {q : List Int} {budget : Nat}
    (h : MInv g R start id c0 c num q budget) :
    ∃ c' num' q', markEdges id es (c, num, q) = .ok (c', num', q') ∧
      MInv g R start id c0 c' num' q' budget ∧ Keeps c c' ∧ num ≤ num' ∧
      (∀ e ∈ es, ∃ x, c'[e.toIndex.toNat]? = some x ∧ x ≠ 0) ∧
      (∀ v : Nat, (v : Int) ∈ q' → (v : Int) ∈ q ∨ c[v]? = some 0) ∧ (∀ x ∈ q, x ∈ q') ∧
      (∀ v : Nat, c'[v]? = some id → c[v]? = some id ∨ (v : Int) ∈ q') := by
  induction es generalizing c num q with
  | nil => exact ⟨c, num, q, rfl, h, Keeps.refl c, Nat.le_refl _, by simp, fun v hv => Or.inl hv,
      fun x hx => hx, fun v hv => Or.inl hv⟩
  | cons e es ih =>
    obtain ⟨he0, he1, heR⟩ := hr e List.mem_cons_self
    have hr' : ∀ e ∈ es, 0 ≤ e.toIndex ∧ e.toIndex < (g.length : Int) ∧ R e.toIndex.toNat :=
      fun e he => hr e (List.mem_cons_of_mem _ he)
    unfold markEdges
    dsimp only
    rw [if_neg (by omega)]
    have hlt : e.toIndex.toNat < c.length := by rw [h.step.len, hfresh]; omega
    have hget := List.getElem?_eq_getElem hlt
    rw [hget]
    dsimp only
    generalize c[e.toIndex.toNat] = x at hget
    have hnat : ((e.toIndex.toNat : Nat) : Int) = e.toIndex := Int.toNat_of_nonneg he0
    by_cases hx : x = 0
    · subst hx
      rw [if_pos rfl]
      have hset : (c.set e.toIndex.toNat id)[e.toIndex.toNat]? = some id := by simp [hlt]
      have hk1 : Keeps c (c.set e.toIndex.toNat id) := keeps_set hget
      have hinv : MInv g R start id c0 (c.set e.toIndex.toNat id) (num + 1) (q ++ [e.toIndex])
          budget := by
        refine ⟨h.step.set hget hid, ?_, ?_, ?_, by omega⟩
        · intro v hv
          by_cases hvi : e.toIndex.toNat = v
          · subst hvi; exact heR
          · rw [List.getElem?_set_ne hvi] at hv; exact h.reached v hv
        · intro y hy
          rcases List.mem_append.1 hy with hy | hy
          · obtain ⟨v, rfl, h2, h3⟩ := h.queue y hy
            refine ⟨v, rfl, h2, ?_⟩
            rcases h3 with h3 | h3
            · exact Or.inl h3
            · exact Or.inr (hk1 v id h3 hid)
          · simp at hy; subst hy
            exact ⟨e.toIndex.toNat, hnat.symm, by omega, Or.inr hset⟩
        · have := zeros_set (id := id) hget hid
          have := h.fuel
          simp only [List.length_append, List.length_cons, List.length_nil]
          omega
      obtain ⟨c', num', q', heq, hi, hk, hn, hall, hq1, hq2, hq3⟩ := ih hr' hinv
      refine ⟨c', num', q', heq, hi, hk1.trans hk, by omega, ?_, ?_, ?_, ?_⟩
      · intro e' he'
        rcases List.mem_cons.1 he' with rfl | he'
        · exact ⟨id, hk _ _ hset hid, hid⟩
        · exact hall e' he'
      · intro v hv
        rcases hq1 v hv with h1 | h1
        · rcases List.mem_append.1 h1 with h1 | h1
          · exact Or.inl h1
          · simp at h1; right
            rw [show v = e.toIndex.toNat by omega]; exact hget
        · right
          by_cases hvi : e.toIndex.toNat = v
          · subst hvi; exact hget
          · rwa [List.getElem?_set_ne hvi] at h1
      · intro y hy; exact hq2 y (List.mem_append_left _ hy)
      · intro v hv
        rcases hq3 v hv with h1 | h1
        · by_cases hvi : e.toIndex.toNat = v
          · subst hvi
            right; apply hq2; rw [hnat]; simp
          · rw [List.getElem?_set_ne hvi] at h1; exact Or.inl h1
        · exact Or.inr h1
    · rw [if_neg hx]
      obtain ⟨c', num', q', heq, hi, hk, hn, hall, hq1, hq2, hq3⟩ := ih hr' h
      refine ⟨c', num', q', heq, hi, hk, hn, ?_, hq1, hq2, hq3⟩
      intro e' he'
      rcases List.mem_cons.1 he' with rfl | he'
      · exact ⟨x, hk _ _ hget hx, hx⟩
      · exact hall e' he'

theorem adj_of_edge {g : Graph ν W} {v : Nat} {n : Node ν W} (hn : g[v]? = some n) {e : Edge W}
    (he : e ∈ n.outEdges) (h0 : 0 ≤ e.toIndex) : Adj g v e.toIndex.toNat :=
  ⟨n, hn, e, he, (Int.toNat_of_nonneg h0).symm⟩

theorem markLoop_spec {g : Graph ν W} {R : Nat → Prop} {start id : Nat} {c0 : List Nat}
    (hid : id ≠ 0) (hfresh : c0.length = g.length) (hrange : OutInRange g)
    (hR0 : ∀ v, Adj g start v → R v) (hR : ∀ u v, R u → Adj g u v → R v)
    (fuel : Nat) {c : List Nat} {num : Nat} {q : List Int} (hfuel : q.length + zeros c ≤ fuel)
    (h : MInv g R start id c0 c num q fuel)
    (hdone : ∀ v : Nat, (v = start ∨ c[v]? = some id) → (v : Int) ∈ q ∨ Done g c v) :
    ∃ c' num', markLoop g id fuel (c, num, q) = some (.ok (c', num')) ∧
      MInv g R start id c0 c' num' [] fuel ∧ Keeps c c' ∧ num ≤ num' ∧
      (∀ v : Nat, (v = start ∨ c'[v]? = some id) → Done g c' v) := by
  induction fuel generalizing c num q with
  | zero =>
    have : q = [] := List.length_eq_zero_iff.1 (by omega)
    subst this
    refine ⟨c, num, rfl, h, Keeps.refl c, Nat.le_refl _, ?_⟩
    intro v hv
    rcases hdone v hv with h1 | h1
    · simp at h1
    · exact h1
  | succ fuel ih =>
    cases q with
    | nil =>
      refine ⟨c, num, rfl, h, Keeps.refl c, Nat.le_refl _, ?_⟩
      intro v hv
      rcases hdone v hv with h1 | h1
      · simp at h1
      · exact h1
    | cons next q =>
      obtain ⟨v0, rfl, hv0, hv0r⟩ := h.queue _ List.mem_cons_self
      have hRv : ∀ w, Adj g v0 w → R w := by
        rcases hv0r with rfl | h1
        · exact hR0
        · exact fun w ha => hR v0 w (h.reached v0 h1) ha
      unfold markLoop
      rw [if_neg (by omega)]
      have hn := List.getElem?_eq_getElem hv0
      simp only [Int.toNat_natCast]
      rw [hn]
      generalize g[v0] = n at hn
      dsimp only
      have hmem : n ∈ g := List.mem_of_getElem? hn
      simp only [List.length_cons] at hfuel
      have hpre : MInv g R start id c0 c num q fuel :=
        ⟨h.step, h.reached, fun x hx => h.queue x (List.mem_cons_of_mem _ hx), by omega,
          h.num_pos⟩
      obtain ⟨c', num', q', heq, hi, hk, hnum, hall, hq1, hq2, hq3⟩ :=
        markEdges_spec hid hfresh n.outEdges (fun e he =>
          ⟨(hrange n hmem e he).1, (hrange n hmem e he).2,
            hRv _ (adj_of_edge hn he (hrange n hmem e he).1)⟩) hpre
      rw [heq]
      dsimp only
      have hdone' : ∀ v : Nat, (v = start ∨ c'[v]? = some id) → (v : Int) ∈ q' ∨ Done g c' v := by
        intro v hv
        by_cases hvv : v = v0
        · subst hvv
          right
          intro w ⟨n', hn', e, he, hw⟩
          rw [hn] at hn'; injection hn' with hn'; subst hn'
          obtain ⟨x, hx, hx0⟩ := hall e he
          rw [hw] at hx
          exact ⟨x, by simpa using hx, hx0⟩
        · have hcase : (v : Int) ∈ q' ∨ (v = start ∨ c[v]? = some id) := by
            rcases hv with hv | hv
            · exact Or.inr (Or.inl hv)
            · rcases hq3 v hv with h1 | h1
              · exact Or.inr (Or.inr h1)
              · exact Or.inl h1
          rcases hcase with h1 | h1
          · exact Or.inl h1
          · rcases hdone v h1 with h2 | h2
            · rcases List.mem_cons.1 h2 with h2 | h2
              · omega
              · exact Or.inl (hq2 _ h2)
            · exact Or.inr (hk.done h2)
      obtain ⟨c2, num2, h1, h2, h3, h4, h5⟩ := ih (by have := hi.fuel; omega) hi hdone'
      refine ⟨c2, num2, h1, ⟨h2.step, h2.reached, h2.queue, ?_, h2.num_pos⟩, hk.trans h3, by omega, h5⟩
      have := h2.fuel
      omega

/-- What one call of `markConnectedComponentUndirected` does. -/
theorem mark_spec {g : Graph ν W} {R : Nat → Prop} {start id : Nat} {c0 : List Nat}
    (hid : id ≠ 0) (hlen : c0.length = g.length) (hrange : OutInRange g)
    (hstart : start < g.length) (hfresh : ∀ v : Nat, c0[v]? ≠ some id)
    (hR0 : ∀ v, Adj g start v → R v) (hR : ∀ u v, R u → Adj g u v → R v) :
    ∃ c' num', markConnectedComponent (g.length + 1) g (start : Int) c0 id =
        some (.ok (c', num')) ∧
      Step c0 c' id ∧ (∀ v : Nat, c'[v]? = some id → R v) ∧ 1 ≤ num' ∧
      (∀ v : Nat, (v = start ∨ c'[v]? = some id) → Done g c' v) := by
  have hz : zeros c0 ≤ g.length := by rw [← hlen]; exact List.countP_le_length
  have hinv : MInv g R start id c0 c0 1 [(start : Int)] (g.length + 1) := by
    refine ⟨Step.refl c0 id, fun v hv => absurd hv (hfresh v), ?_, ?_, Nat.le_refl _⟩
    · intro x hx; simp at hx; exact ⟨start, hx, hstart, Or.inl rfl⟩
    · simp only [List.length_cons, List.length_nil]; omega
  obtain ⟨c', num', h1, h2, _, h4, h5⟩ := markLoop_spec hid hlen hrange hR0 hR (g.length + 1)
    (by simp only [List.length_cons, List.length_nil]; omega) hinv (by
      intro v hv
      rcases hv with rfl | hv
      · left; simp
      · exact absurd hv (hfresh v))
  exact ⟨c', num', h1, h2.step, h2.reached, h2.num_pos, h5⟩

/-- A chain of edges in their own direction. -/
inductive Reach (g : Graph ν W) (u : Nat) : Nat → Prop
  | refl : Reach g u u
  | step {v w : Nat} : Reach g u v → Adj g v w → Reach g u w

theorem Connected.trans {g : Graph ν W} {u v w : Nat} (h : Connected g u v) (h' : Connected g v w) :
    Connected g u w := by
  induction h' with
  | refl => exact h
  | fwd _ ha ih => exact ih.fwd ha
  | bwd _ ha ih => exact ih.bwd ha

theorem Connected.symm {g : Graph ν W} {u v : Nat} (h : Connected g u v) : Connected g v u := by
  induction h with
  | refl => exact .refl _
  | fwd _ ha ih => exact ((Connected.refl _).bwd ha).trans ih
  | bwd _ ha ih => exact ((Connected.refl _).fwd ha).trans ih

theorem Reach.connected {g : Graph ν W} {u v : Nat} (h : Reach g u v) : Connected g u v := by
  induction h with
  | refl => exact .refl _
  | step _ ha ih => exact ih.fwd ha

/-- The invariant of the outer loop. -/
structure CInv (g : Graph ν W) (c : List Nat) (count : Nat) : Prop where
  len : c.length = g.length
  bound : ∀ v x : Nat, c[v]? = some x → x ≤ count
  sound : ∀ u v x : Nat, c[u]? = some x → c[v]? = some x → x ≠ 0 → Connected g u v

/-- Labels are closed under edges. -/
def Closed (g : Graph ν W) (c : List Nat) : Prop :=
  ∀ (u v x : Nat), c[u]? = some x → x ≠ 0 → Adj g u v → c[v]? = some x

theorem step_cases {c0 c : List Nat} {id : Nat} (h : Step c0 c id) {v x : Nat} (hv : c[v]? = some x) :
    c0[v]? = some x ∨ (x = id ∧ c0[v]? = some 0) := by
  have hl : v < c0.length := by rw [← h.len]; exact (List.getElem?_eq_some_iff.1 hv).1
  have hg := List.getElem?_eq_getElem hl
  rcases h.old v _ hg with h1 | ⟨h1, h2⟩
  · left; rw [hg, ← h1, hv]
  · right
    rw [hv] at h2; injection h2 with h2
    exact ⟨h2, by rw [hg, h1]⟩

theorem componentsLoop_spec {g : Graph ν W} (hrange : OutInRange g) (remaining idx total : Nat)
    (hidx : idx + remaining = g.length) {c : List Nat} {count : Nat} (h : CInv g c count) :
    ∃ c' count', componentsLoop (g.length + 1) g remaining idx total c count =
        some (.ok (c', count')) ∧ CInv g c' count' ∧ count ≤ count' ∧
      (Symmetric g → Closed g c → Closed g c') := by
  induction remaining generalizing idx total c count with
  | zero => exact ⟨c, count, rfl, h, Nat.le_refl _, fun _ h => h⟩
  | succ remaining ih =>
    unfold componentsLoop
    by_cases ht : total < g.length
    · rw [if_pos ht]
      have hl : idx < c.length := by rw [h.len]; omega
      have hg := List.getElem?_eq_getElem hl
      rw [hg]
      dsimp only
      generalize c[idx] = x at hg
      by_cases hx : x = 0
      · subst hx
        rw [if_pos rfl]
        have hfr : ∀ v : Nat, c[v]? ≠ some (count + 1) := by
          intro v hv
          have := h.bound v _ hv
          omega
        obtain ⟨c', num', h1, h2, h3, h4, h5⟩ := mark_spec (R := Reach g idx) (id := count + 1)
          (by omega) h.len hrange (by omega) hfr (fun v ha => Reach.refl.step ha) (fun u v hu ha => hu.step ha)
        rw [h1]
        dsimp only
        have hc' : CInv g c' (count + 1) := by
          refine ⟨by rw [h2.len, h.len], ?_, ?_⟩
          · intro v x hv
            rcases step_cases h2 hv with h6 | ⟨h6, _⟩
            · have := h.bound v x h6; omega
            · omega
          · intro u v x hu hv hx
            rcases step_cases h2 hu with h6 | ⟨h6, h6'⟩
            · rcases step_cases h2 hv with h7 | ⟨h7, _⟩
              · exact h.sound u v x h6 h7 hx
              · subst h7; exact absurd h6 (hfr u)
            · subst h6
              exact (h3 u hu).connected.symm.trans (h3 v hv).connected
        obtain ⟨c2, count2, e1, e2, e3, e4⟩ := ih (idx + 1) (total + num') (by omega) hc'
        refine ⟨c2, count2, e1, e2, by omega, fun hs hcl => e4 hs ?_⟩
        -- closure of the labels after the marking
        have hnew : ∀ u, (u = idx ∨ c'[u]? = some (count + 1)) → c[u]? = some 0 := by
          intro u hu
          rcases hu with rfl | hu
          · exact hg
          · rcases step_cases h2 hu with h6 | ⟨_, h6⟩
            · exact absurd h6 (hfr u)
            · exact h6
        have hstep : ∀ u, (u = idx ∨ c'[u]? = some (count + 1)) → ∀ v, Adj g u v →
            c'[v]? = some (count + 1) := by
          intro u hu v ha
          obtain ⟨x, hx, hx0⟩ := h5 u hu v ha
          rcases step_cases h2 hx with h6 | ⟨h6, _⟩
          · have := hcl v u x h6 hx0 (hs u v ha)
            rw [hnew u hu] at this
            injection this with this; omega
          · rw [← h6]; exact hx
        intro u v x hu hx0 ha
        rcases step_cases h2 hu with h6 | ⟨h6, _⟩
        · have h7 := hcl u v x h6 hx0 ha
          rcases h2.old v x h7 with h8 | ⟨h8, _⟩
          · exact h8
          · omega
        · subst h6
          exact hstep u (Or.inr hu) v ha
      · rw [if_neg hx]
        exact ih (idx + 1) total (by omega) h
    · rw [if_neg ht]
      exact ⟨c, count, rfl, h, Nat.le_refl _, fun _ h => h⟩

theorem cinv_init (g : Graph ν W) : CInv g (List.replicate g.length 0) 0 := by
  refine ⟨by simp, ?_, ?_⟩
  · intro v x hv
    rw [List.getElem?_replicate] at hv
    split at hv <;> simp_all
  · intro u v x hu hv hx
    rw [List.getElem?_replicate] at hu
    split at hu <;> simp_all

theorem closed_init (g : Graph ν W) : Closed g (List.replicate g.length 0) := by
  intro u v x hu hx
  rw [List.getElem?_replicate] at hu
  split at hu <;> simp_all

theorem components_spec {g : Graph ν W} (hrange : OutInRange g) :
    ∃ c count, getConnectedComponentsUndirected g = some (.ok (c, count)) ∧ CInv g c count ∧
      (Symmetric g → Closed g c) := by
  obtain ⟨c, count, h1, h2, _, h4⟩ := componentsLoop_spec hrange g.length 0 0 (by omega)
    (cinv_init g)
  exact ⟨c, count, h1, h2, fun hs => h4 hs (closed_init g)⟩

theorem closed_connected {g : Graph ν W} (hs : Symmetric g) {c : List Nat} (hc : Closed g c)
    {u v x : Nat} (h : Connected g u v) (hu : c[u]? = some x) (hx : x ≠ 0) : c[v]? = some x := by
  induction h with
  | refl => exact hu
  | fwd _ ha ih => exact hc _ _ x ih hx ha
  | bwd _ ha ih => exact hc _ _ x ih hx (hs _ _ ha)

end Verif.Graph

namespace Verif.Graph
open Verif
variable {ν W : Type}

theorem componentsLoop_full {g : Graph ν W} (fuel remaining idx total : Nat)
    (hidx : idx + remaining = g.length) {c : List Nat} {count : Nat} (hlen : c.length = g.length)
    (h : ∀ v x : Nat, c[v]? = some x → x ≠ 0) :
    componentsLoop fuel g remaining idx total c count = some (.ok (c, count)) := by
  induction remaining generalizing idx total with
  | zero => rfl
  | succ remaining ih =>
    unfold componentsLoop
    split
    · have hl : idx < c.length := by omega
      have hg := List.getElem?_eq_getElem hl
      rw [hg]
      dsimp only
      rw [if_neg (h idx _ hg)]
      exact ih (idx + 1) total (by omega)
    · rfl

theorem components_connected {g : Graph ν W} (hrange : OutInRange g) (hs : Symmetric g)
    (hn : 2 ≤ g.length) (hc : ∀ u v, u < g.length → v < g.length → Connected g u v) :
    getConnectedComponentsUndirected g = some (.ok (List.replicate g.length 1, 1)) := by
  obtain ⟨c', num', h1, h2, _, _, h5⟩ := mark_spec (R := Reach g 0) (id := 1) (start := 0)
    (c0 := List.replicate g.length 0) (by omega) (by simp) hrange (by omega) (by
      intro v hv
      rw [List.getElem?_replicate] at hv
      split at hv <;> simp_all) (fun v ha => Reach.refl.step ha) (fun u v hu ha => hu.step ha)
  have hlen : c'.length = g.length := by rw [h2.len]; simp
  have hz : ∀ v x : Nat, c'[v]? = some x → x ≠ 0 → x = 1 := by
    intro v x hv hx
    rcases step_cases h2 hv with h6 | ⟨h6, _⟩
    · rw [List.getElem?_replicate] at h6
      split at h6 <;> simp_all
    · exact h6
  have hstep : ∀ u, (u = 0 ∨ c'[u]? = some 1) → ∀ v, Adj g u v → c'[v]? = some 1 := by
    intro u hu v ha
    obtain ⟨x, hx, hx0⟩ := h5 u hu v ha
    rw [hx, hz v x hx hx0]
  have hcl : Closed g c' := by
    intro u v x hu hx ha
    have := hz u x hu hx
    subst this
    exact hstep u (Or.inr hu) v ha
  -- node 0 has a neighbour
  have hnb : ∀ v, Connected g 0 v → v ≠ 0 → ∃ w, Adj g 0 w := by
    intro v hv
    induction hv with
    | refl => intro h; exact absurd rfl h
    | @fwd v w _ ha ih =>
      intro _
      by_cases h0 : v = 0
      · subst h0; exact ⟨w, ha⟩
      · exact ih h0
    | @bwd v w _ ha ih =>
      intro _
      by_cases h0 : v = 0
      · subst h0; exact ⟨w, hs _ _ ha⟩
      · exact ih h0
  obtain ⟨w, hw⟩ := hnb 1 (hc 0 1 (by omega) (by omega)) (by omega)
  have hw1 := hstep 0 (Or.inl rfl) w hw
  have h01 := hstep w (Or.inr hw1) 0 (hs _ _ hw)
  have hall : ∀ v, v < g.length → c'[v]? = some 1 := fun v hv =>
    closed_connected hs hcl (hc 0 v (by omega) hv) h01 (by omega)
  have hc'eq : c' = List.replicate g.length 1 := by
    apply List.ext_getElem?
    intro i
    by_cases hi : i < g.length
    · rw [hall i hi, List.getElem?_replicate, if_pos hi]
    · rw [List.getElem?_eq_none (by omega), List.getElem?_eq_none (by simp; omega)]
  unfold getConnectedComponentsUndirected
  obtain ⟨m, hm⟩ : ∃ m, g.length = m + 1 := ⟨g.length - 1, by omega⟩
  have key : ∀ rem, rem + 1 = g.length → componentsLoop (g.length + 1) g (rem + 1) 0 0
      (List.replicate g.length 0) 0 = some (.ok (List.replicate g.length 1, 1)) := by
    intro rem hrem
    unfold componentsLoop
    rw [if_pos (by omega)]
    rw [show (List.replicate g.length 0)[0]? = some 0 by
      rw [List.getElem?_replicate, if_pos (by omega)]]
    dsimp only
    rw [if_pos rfl]
    have h1' : markConnectedComponent (g.length + 1) g ((0 : Nat) : Int) (List.replicate g.length 0)
      (0 + 1) = some (.ok (c', num')) := h1
    rw [h1']
    dsimp only
    rw [componentsLoop_full _ rem 1 _ (by omega) hlen, hc'eq]
    intro v x hv hx0
    rw [hc'eq, List.getElem?_replicate] at hv
    split at hv <;> simp_all
  have := key m hm.symm
  rwa [← hm] at this

end Verif.Graph
