import Verif.Lemmas.GraphComponents
import Verif.Spec.GraphComponents
namespace Verif.Graph
open Verif

variable {ν W : Type}

/-! ## Counting -/

theorem howMany_succ_pos {p : Nat → Prop} {n : Nat} (h : p n) : howMany p (n + 1) = howMany p n + 1 := by
  simp [howMany, List.range_succ, h]

theorem howMany_succ_neg {p : Nat → Prop} {n : Nat} (h : ¬ p n) : howMany p (n + 1) = howMany p n := by
  simp [howMany, List.range_succ, h]

theorem howMany_congr {p q : Nat → Prop} {n : Nat} (h : ∀ v, v < n → (p v ↔ q v)) :
    howMany p n = howMany q n := by
  induction n with
  | zero => rfl
  | succ n ih =>
    have h1 := ih (fun v hv => h v (by omega))
    by_cases hp : p n
    · rw [howMany_succ_pos hp, howMany_succ_pos ((h n (by omega)).1 hp), h1]
    · rw [howMany_succ_neg hp, howMany_succ_neg (fun hq => hp ((h n (by omega)).2 hq)), h1]

theorem howMany_mono {p q : Nat → Prop} {n : Nat} (h : ∀ v, v < n → p v → q v) :
    howMany p n ≤ howMany q n := by
  induction n with
  | zero => exact Nat.le_refl _
  | succ n ih =>
    have h1 := ih (fun v hv => h v (by omega))
    by_cases hp : p n
    · rw [howMany_succ_pos hp, howMany_succ_pos (h n (by omega) hp)]; omega
    · rw [howMany_succ_neg hp]
      by_cases hq : q n
      · rw [howMany_succ_pos hq]; omega
      · rw [howMany_succ_neg hq]; omega

theorem howMany_or {p q : Nat → Prop} {n : Nat} (h : ∀ v, v < n → ¬ (p v ∧ q v)) :
    howMany (fun v => p v ∨ q v) n = howMany p n + howMany q n := by
  induction n with
  | zero => rfl
  | succ n ih =>
    have h1 := ih (fun v hv => h v (by omega))
    by_cases hp : p n
    · rw [howMany_succ_pos (p := fun v => p v ∨ q v) (Or.inl hp), howMany_succ_pos hp,
        howMany_succ_neg (fun hq => h n (by omega) ⟨hp, hq⟩)]; omega
    · by_cases hq : q n
      · rw [howMany_succ_pos (p := fun v => p v ∨ q v) (Or.inr hq), howMany_succ_pos hq,
          howMany_succ_neg hp]; omega
      · rw [howMany_succ_neg (p := fun v => p v ∨ q v) (fun h => h.elim hp hq),
          howMany_succ_neg hp, howMany_succ_neg hq]; omega

theorem howMany_le_of_le (p : Nat → Prop) {m n : Nat} (h : m ≤ n) : howMany p m ≤ howMany p n := by
  induction n with
  | zero => rw [show m = 0 by omega]; exact Nat.le_refl _
  | succ n ih =>
    by_cases hm : m = n + 1
    · rw [hm]; exact Nat.le_refl _
    · have := ih (by omega)
      by_cases hp : p n
      · rw [howMany_succ_pos hp]; omega
      · rw [howMany_succ_neg hp]; omega

theorem howMany_none {p : Nat → Prop} {n : Nat} (h : ∀ v, v < n → ¬ p v) : howMany p n = 0 := by
  induction n with
  | zero => rfl
  | succ n ih => rw [howMany_succ_neg (h n (by omega))]; exact ih (fun v hv => h v (by omega))

theorem howMany_one {p : Nat → Prop} {n v : Nat} (hv : v < n) (h : ∀ w, w < n → (p w ↔ w = v)) :
    howMany p n = 1 := by
  induction n with
  | zero => omega
  | succ n ih =>
    by_cases hvn : v = n
    · subst hvn
      rw [howMany_succ_pos ((h v (by omega)).2 rfl), howMany_none]
      intro w hw hp
      have := (h w (by omega)).1 hp
      omega
    · rw [howMany_succ_neg (fun hp => hvn ((h n (by omega)).1 hp).symm)]
      exact ih (by omega) (fun w hw => h w (by omega))

theorem zeros_take (c : List Nat) (n : Nat) (h : n ≤ c.length) :
    zeros (c.take n) = howMany (fun v => c[v]? = some 0) n := by
  induction n with
  | zero => rfl
  | succ n ih =>
    have hn : n < c.length := by omega
    have hg := List.getElem?_eq_getElem hn
    rw [List.take_add_one, hg]
    generalize c[n] = a at hg
    have hz : zeros (c.take n ++ (some a).toList) = zeros (c.take n) + (if a = 0 then 1 else 0) := by
      by_cases ha : a = 0 <;> simp [zeros, ha]
    rw [hz, ih (by omega)]
    by_cases ha : a = 0
    · rw [howMany_succ_pos (p := fun v => c[v]? = some 0) (by rw [hg, ha]), if_pos ha]
    · rw [howMany_succ_neg (p := fun v => c[v]? = some 0) (by rw [hg]; simpa using ha), if_neg ha]
      rfl

theorem zeros_howMany (c : List Nat) : zeros c = howMany (fun v => c[v]? = some 0) c.length := by
  have := zeros_take c c.length (Nat.le_refl _)
  rwa [List.take_length] at this

/-! ## How many nodes the marking counts -/

theorem markEdges_count {id : Nat} (hid : id ≠ 0) (es : List (Edge W)) {c c' : List Nat}
    {num num' : Nat} {q q' : List Int} (h : markEdges id es (c, num, q) = .ok (c', num', q')) :
    num' + zeros c' = num + zeros c := by
  induction es generalizing c num q with
  | nil => simp only [markEdges] at h; injection h with h; simp only [Prod.mk.injEq] at h; obtain ⟨rfl, rfl, _⟩ := h; rfl
  | cons e es ih =>
    unfold markEdges at h
    dsimp only at h
    by_cases h0 : e.toIndex < 0
    · rw [if_pos h0] at h; cases h
    · rw [if_neg h0] at h
      cases hc : c[e.toIndex.toNat]? with
      | none => rw [hc] at h; cases h
      | some x =>
        rw [hc] at h
        dsimp only at h
        by_cases hx : x = 0
        · subst hx
          rw [if_pos rfl] at h
          have := ih h
          have := zeros_set (id := id) hc hid
          omega
        · rw [if_neg hx] at h
          exact ih h

theorem markLoop_count {g : Graph ν W} {id : Nat} (hid : id ≠ 0) (fuel : Nat) {c c' : List Nat}
    {num num' : Nat} {q : List Int} (h : markLoop g id fuel (c, num, q) = some (.ok (c', num'))) :
    num' + zeros c' = num + zeros c := by
  induction fuel generalizing c num q with
  | zero =>
    cases q with
    | nil => simp only [markLoop] at h; injection h with h; injection h with h; simp only [Prod.mk.injEq] at h; obtain ⟨rfl, rfl⟩ := h; rfl
    | cons x q => simp [markLoop] at h
  | succ fuel ih =>
    cases q with
    | nil => simp only [markLoop] at h; injection h with h; injection h with h; simp only [Prod.mk.injEq] at h; obtain ⟨rfl, rfl⟩ := h; rfl
    | cons x q =>
      unfold markLoop at h
      by_cases h0 : x < 0
      · rw [if_pos h0] at h; cases h
      · rw [if_neg h0] at h
        cases hg : g[x.toNat]? with
        | none => rw [hg] at h; cases h
        | some n =>
          rw [hg] at h
          dsimp only at h
          cases hm : markEdges id n.outEdges (c, num, q) with
          | ok s =>
            obtain ⟨c1, num1, q1⟩ := s
            rw [hm] at h
            have h1 := ih h
            have h2 := markEdges_count hid _ hm
            omega
          | throws e => rw [hm] at h; cases h
          | abort => rw [hm] at h; cases h
          | ub => rw [hm] at h; cases h

/-! ## Components of symmetric graphs -/

theorem First.unique {g : Graph ν W} {u v : Nat} (hu : First g u) (hv : First g v)
    (h : Connected g u v) : u = v := by
  rcases Nat.lt_trichotomy u v with h1 | h1 | h1
  · exact absurd h (hv u h1)
  · exact h1
  · exact absurd h.symm (hu v h1)

theorem First.le {g : Graph ν W} {u w : Nat} (hu : First g u) (h : Connected g u w) : u ≤ w := by
  rcases Nat.lt_or_ge w u with h1 | h1
  · exact absurd h.symm (hu w h1)
  · exact h1

theorem exists_first (g : Graph ν W) (w : Nat) : ∃ u, First g u ∧ Connected g u w := by
  induction w using Nat.strongRecOn with
  | _ w ih =>
    by_cases h : First g w
    · exact ⟨w, h, .refl w⟩
    · have : ∃ u, u < w ∧ Connected g u w := by
        refine Classical.byContradiction (fun hn => h (fun u hu hc => hn ⟨u, hu, hc⟩))
      obtain ⟨u, hu, hc⟩ := this
      obtain ⟨x, hx, hxu⟩ := ih u hu
      exact ⟨x, hx, hxu.trans hc⟩

theorem hasEdge_connected {g : Graph ν W} (hs : Symmetric g) {u w : Nat} (h : Connected g u w)
    (hu : HasEdge g u) : HasEdge g w := by
  induction h with
  | refl => exact hu
  | fwd _ ha _ => exact ⟨_, hs _ _ ha⟩
  | bwd _ ha _ => exact ⟨_, ha⟩

theorem alone {g : Graph ν W} (hs : Symmetric g) {u w : Nat} (h : Connected g u w)
    (hu : ¬ HasEdge g u) : w = u := by
  induction h with
  | refl => rfl
  | @fwd v w _ ha ih => subst ih; exact absurd ⟨w, ha⟩ hu
  | @bwd v w _ ha ih => subst ih; exact absurd ⟨w, hs _ _ ha⟩ hu

theorem connected_lt {g : Graph ν W} (hr : OutInRange g) {u w : Nat} (h : Connected g u w)
    (hu : u < g.length) : w < g.length := by
  induction h with
  | refl => exact hu
  | @fwd v w _ ha _ =>
    obtain ⟨n, hn, e, he, hw⟩ := ha
    have := (hr n (List.mem_of_getElem? hn) e he).2
    omega
  | @bwd v w _ ha _ =>
    obtain ⟨n, hn, _⟩ := ha
    exact (List.getElem?_eq_some_iff.1 hn).1

/-- The nodes connected to a node up to `v`, when `v` is first in its component. -/
theorem nodesBefore_succ_first {g : Graph ν W} {v : Nat} (h : First g v) :
    nodesBefore g (v + 1) = nodesBefore g v + howMany (Connected g v) g.length := by
  unfold nodesBefore
  rw [← howMany_or]
  · apply howMany_congr
    intro w _
    constructor
    · rintro ⟨u, hu, hc⟩
      by_cases huv : u = v
      · subst huv; exact Or.inr hc
      · exact Or.inl ⟨u, by omega, hc⟩
    · rintro (⟨u, hu, hc⟩ | hc)
      · exact ⟨u, by omega, hc⟩
      · exact ⟨v, by omega, hc⟩
  · rintro w _ ⟨⟨u, hu, hc⟩, hc'⟩
    exact h u hu (hc.trans hc'.symm)

theorem nodesBefore_succ_notFirst {g : Graph ν W} {v : Nat} (h : ¬ First g v) :
    nodesBefore g (v + 1) = nodesBefore g v := by
  have : ∃ u, u < v ∧ Connected g u v :=
    Classical.byContradiction (fun hn => h (fun u hu hc => hn ⟨u, hu, hc⟩))
  obtain ⟨x, hx, hxv⟩ := this
  apply howMany_congr
  intro w _
  constructor
  · rintro ⟨u, hu, hc⟩
    by_cases huv : u = v
    · subst huv; exact ⟨x, hx, hxv.trans hc⟩
    · exact ⟨u, by omega, hc⟩
  · rintro ⟨u, hu, hc⟩
    exact ⟨u, by omega, hc⟩

theorem searched_mono {g : Graph ν W} {u v : Nat} (h : u ≤ v) :
    nodesBefore g u + joinedBefore g u ≤ nodesBefore g v + joinedBefore g v := by
  have h1 : nodesBefore g u ≤ nodesBefore g v :=
    howMany_mono (fun w _ ⟨x, hx, hc⟩ => ⟨x, by omega, hc⟩)
  have h2 : joinedBefore g u ≤ joinedBefore g v := howMany_le_of_le _ h
  omega

/-! ## The outer loop -/

/-- What holds when the outer loop comes to `idx`. -/
structure Upto (g : Graph ν W) (idx total : Nat) (c : List Nat) (count : Nat) : Prop where
  len : c.length = g.length
  total_eq : total = nodesBefore g idx + joinedBefore g idx
  count_eq : count = componentsBefore g idx
  come : ∀ u, u < idx → First g u → SearchComesTo g u
  marked : ∀ u w : Nat, First g u → Connected g u w → w < g.length → u < idx → HasEdge g u →
    c[w]? = some (componentsBefore g (u + 1))
  unmarked : ∀ u w : Nat, First g u → Connected g u w → w < g.length → ¬ (u < idx ∧ HasEdge g u) →
    c[w]? = some 0

/-- The result of the whole search. -/
structure Searched (g : Graph ν W) (c : List Nat) (count : Nat) : Prop where
  len : c.length = g.length
  count_eq : count = howMany (fun u => First g u ∧ SearchComesTo g u) g.length
  marked : ∀ u w : Nat, First g u → Connected g u w → w < g.length → HasEdge g u →
    SearchComesTo g u → c[w]? = some (componentsBefore g (u + 1))
  unmarked : ∀ u w : Nat, First g u → Connected g u w → w < g.length →
    ¬ (HasEdge g u ∧ SearchComesTo g u) → c[w]? = some 0

theorem Upto.stop {g : Graph ν W} {idx total : Nat} {c : List Nat} {count : Nat}
    (h : Upto g idx total c count) (hle : idx ≤ g.length)
    (hstop : idx = g.length ∨ ¬ total < g.length) : Searched g c count := by
  have hno : ∀ u, u < g.length → idx ≤ u → ¬ SearchComesTo g u := by
    intro u hu hiu hc
    rcases hstop with h1 | h1
    · omega
    · have := searched_mono (g := g) hiu
      unfold SearchComesTo at hc
      rw [h.total_eq] at h1
      omega
  have hsplit : ∀ k, idx + k ≤ g.length →
      howMany (fun u => First g u ∧ SearchComesTo g u) (idx + k) = componentsBefore g idx := by
    intro k
    induction k with
    | zero =>
      intro _
      exact howMany_congr (fun u hu => ⟨fun hf => hf.1, fun hf => ⟨hf, h.come u hu hf⟩⟩)
    | succ k ih =>
      intro hk
      rw [← Nat.add_assoc, howMany_succ_neg (fun hf => hno (idx + k) (by omega) (by omega) hf.2)]
      exact ih (by omega)
  refine ⟨h.len, ?_, ?_, ?_⟩
  · rw [h.count_eq, ← hsplit (g.length - idx) (by omega), show idx + (g.length - idx) = g.length by omega]
  · intro u w hu hc hw he hcome
    have hul : u < g.length := Nat.lt_of_le_of_lt (hu.le hc) hw
    refine h.marked u w hu hc hw ?_ he
    rcases Nat.lt_or_ge u idx with h1 | h1
    · exact h1
    · exact absurd hcome (hno u hul h1)
  · intro u w hu hc hw hn
    exact h.unmarked u w hu hc hw (fun ⟨h1, h2⟩ => hn ⟨h2, h.come u h1 hu⟩)

theorem componentsBefore_pos {g : Graph ν W} {u : Nat} (h : First g u) :
    componentsBefore g (u + 1) ≠ 0 := by
  unfold componentsBefore
  rw [howMany_succ_pos h]; omega

open Classical in
/-- After one marking from the first node of a component. -/
theorem Upto.mark {g : Graph ν W} (hr : OutInRange g) (hs : Symmetric g) {idx total : Nat}
    {c : List Nat} {count : Nat} (h : Upto g idx total c count) (hl : idx < g.length)
    (hcome : total < g.length) (hf : First g idx) :
    ∃ c' num', markConnectedComponent (g.length + 1) g (idx : Int) c (count + 1) =
        some (.ok (c', num')) ∧ Upto g (idx + 1) (total + num') c' (count + 1) := by
  have hid : count + 1 = componentsBefore g (idx + 1) := by
    rw [h.count_eq]; unfold componentsBefore; rw [howMany_succ_pos hf]
  have hlab : ∀ v x : Nat, c[v]? = some x → x ≤ count := by
    intro v x hv
    have hvl : v < g.length := by rw [← h.len]; exact (List.getElem?_eq_some_iff.1 hv).1
    obtain ⟨u, hu, huv⟩ := exists_first g v
    by_cases hue : u < idx ∧ HasEdge g u
    · rw [h.marked u v hu huv hvl hue.1 hue.2] at hv
      injection hv with hv
      rw [← hv, h.count_eq]
      exact howMany_le_of_le _ (by omega)
    · rw [h.unmarked u v hu huv hvl hue] at hv
      injection hv with hv; omega
  have hfr : ∀ v : Nat, c[v]? ≠ some (count + 1) := by
    intro v hv; have := hlab v _ hv; omega
  obtain ⟨c', num', h1, h2, h3, _, h5⟩ := mark_spec (R := Reach g idx) (id := count + 1) (start := idx)
    (by omega) h.len hr hl hfr (fun v ha => Reach.refl.step ha) (fun u v hu ha => hu.step ha)
  have hcnt : num' + zeros c' = 1 + zeros c := markLoop_count (by omega) _ h1
  have hlen : c'.length = g.length := by rw [h2.len, h.len]
  -- the nodes of this component had the label 0
  have hown : ∀ w, Connected g idx w → c[w]? = some 0 := by
    intro w hc
    exact h.unmarked idx w hf hc (connected_lt hr hc hl) (fun hh => by omega)
  -- other nodes keep their labels
  have hother : ∀ w x : Nat, ¬ Connected g idx w → c[w]? = some x → c'[w]? = some x := by
    intro w x hn hx
    rcases h2.old w x hx with h6 | ⟨_, h6⟩
    · exact h6
    · exact absurd (h3 w h6).connected hn
  -- the nodes of this component get the new label if it has an edge
  have hnew : HasEdge g idx → ∀ w, Connected g idx w → c'[w]? = some (count + 1) := by
    rintro ⟨w0, hw0⟩
    have hst : ∀ u, (u = idx ∨ c'[u]? = some (count + 1)) → Connected g idx u →
        ∀ v, Adj g u v → c'[v]? = some (count + 1) := by
      intro u hu hcu v ha
      obtain ⟨x, hx, hx0⟩ := h5 u hu v ha
      rcases step_cases h2 hx with h6 | ⟨h6, _⟩
      · rw [hown v (hcu.fwd ha)] at h6
        injection h6 with h6; omega
      · rw [← h6]; exact hx
    have h0 := hst idx (Or.inl rfl) (.refl idx) w0 hw0
    have h00 := hst w0 (Or.inr h0) ((Connected.refl idx).fwd hw0) idx (hs _ _ hw0)
    intro w hc
    induction hc with
    | refl => exact h00
    | fwd hc ha ih => exact hst _ (Or.inr ih) hc _ ha
    | bwd hc ha ih => exact hst _ (Or.inr ih) hc _ (hs _ _ ha)
  -- and stay at 0 otherwise
  have hlone : ¬ HasEdge g idx → ∀ w, Connected g idx w → c'[w]? = some 0 := by
    intro hne w hc
    rcases h2.old w 0 (hown w hc) with h6 | ⟨_, h6⟩
    · exact h6
    · have hw := alone hs hc hne
      subst hw
      refine absurd h6 ?_
      intro h6
      -- nobody marks a node without edges
      have hz : ∀ (fuel : Nat) (cc : List Nat) (num : Nat) (cc' : List Nat) (nn : Nat),
          markLoop g (count + 1) (fuel + 1) (cc, num, [(w : Int)]) = some (.ok (cc', nn)) → cc' = cc := by
        intro fuel cc num cc' nn hm
        have hgw := List.getElem?_eq_getElem hl
        generalize g[w] = n at hgw
        have hno : n.outEdges = [] := by
          cases hes : n.outEdges with
          | nil => rfl
          | cons e es =>
            exfalso
            have he : e ∈ n.outEdges := by rw [hes]; exact List.mem_cons_self
            exact hne ⟨_, adj_of_edge hgw he (hr n (List.mem_of_getElem? hgw) e he).1⟩
        unfold markLoop at hm
        rw [if_neg (by omega)] at hm
        simp only [Int.toNat_natCast] at hm
        rw [hgw] at hm
        simp only [hno, markEdges, markLoop] at hm
        injection hm with hm; injection hm with hm
        simp only [Prod.mk.injEq] at hm
        exact hm.1.symm
      have := hz _ _ _ _ _ h1
      rw [this] at h6
      exact hfr w h6
  -- the number of nodes counted
  have hnum : num' = howMany (Connected g idx) g.length + (if HasEdge g idx then 1 else 0) := by
    have hzc : zeros c = howMany (fun w => c[w]? = some 0) g.length := by
      rw [zeros_howMany, h.len]
    have hzc' : zeros c' = howMany (fun w => c'[w]? = some 0) g.length := by
      rw [zeros_howMany, hlen]
    by_cases he : HasEdge g idx
    · rw [if_pos he]
      have hor : howMany (fun w => c[w]? = some 0) g.length
          = howMany (fun w => c'[w]? = some 0) g.length + howMany (Connected g idx) g.length := by
        rw [← howMany_or]
        · apply howMany_congr
          intro w hw
          constructor
          · intro h0
            by_cases hcw : Connected g idx w
            · exact Or.inr hcw
            · exact Or.inl (hother w 0 hcw h0)
          · rintro (h0 | hcw)
            · rcases step_cases h2 h0 with h6 | ⟨h6, _⟩
              · exact h6
              · omega
            · exact hown w hcw
        · rintro w _ ⟨h0, hcw⟩
          rw [hnew he w hcw] at h0
          injection h0 with h0; omega
      omega
    · rw [if_neg he]
      have h1' : howMany (Connected g idx) g.length = 1 :=
        howMany_one hl (fun w _ => ⟨fun hc => alone hs hc he, fun hw => hw ▸ .refl _⟩)
      have hsame : howMany (fun w => c[w]? = some 0) g.length
          = howMany (fun w => c'[w]? = some 0) g.length := by
        apply howMany_congr
        intro w hw
        constructor
        · intro h0
          by_cases hcw : Connected g idx w
          · exact hlone he w hcw
          · exact hother w 0 hcw h0
        · intro h0
          rcases step_cases h2 h0 with h6 | ⟨h6, _⟩
          · exact h6
          · omega
      omega
  refine ⟨c', num', h1, hlen, ?_, hid, ?_, ?_, ?_⟩
  · rw [h.total_eq, hnum, nodesBefore_succ_first hf]
    unfold joinedBefore
    by_cases he : HasEdge g idx
    · rw [howMany_succ_pos (p := fun u => First g u ∧ HasEdge g u) ⟨hf, he⟩, if_pos he]; omega
    · rw [howMany_succ_neg (p := fun u => First g u ∧ HasEdge g u) (fun hh => he hh.2), if_neg he]; omega
  · intro u hu hfu
    by_cases hui : u = idx
    · subst hui; unfold SearchComesTo; rw [← h.total_eq]; exact hcome
    · exact h.come u (by omega) hfu
  · intro u w hu hc hw hlt he
    by_cases hui : u = idx
    · subst hui; rw [hnew he w hc, hid]
    · refine hother w _ ?_ (h.marked u w hu hc hw (by omega) he)
      intro hcw
      exact hui (hu.unique hf (hc.trans hcw.symm))
  · intro u w hu hc hw hn
    by_cases hui : u = idx
    · subst hui
      exact hlone (fun he => hn ⟨by omega, he⟩) w hc
    · refine hother w 0 ?_ (h.unmarked u w hu hc hw (fun hh => hn ⟨by omega, hh.2⟩))
      intro hcw
      exact hui (hu.unique hf (hc.trans hcw.symm))

theorem Upto.skip {g : Graph ν W} {idx total : Nat}
    {c : List Nat} {count : Nat} (h : Upto g idx total c count) (hf : ¬ First g idx) :
    Upto g (idx + 1) total c count := by
  have hne : ∀ u, First g u → u ≠ idx := fun u hu e => hf (e ▸ hu)
  refine ⟨h.len, ?_, ?_, ?_, ?_, ?_⟩
  · rw [h.total_eq, nodesBefore_succ_notFirst hf]
    unfold joinedBefore
    rw [howMany_succ_neg (p := fun u => First g u ∧ HasEdge g u) (fun hh => hf hh.1)]
  · rw [h.count_eq]; unfold componentsBefore; rw [howMany_succ_neg hf]
  · intro u hu hfu
    exact h.come u (by have := hne u hfu; omega) hfu
  · intro u w hu hc hw hlt he
    exact h.marked u w hu hc hw (by have := hne u hu; omega) he
  · intro u w hu hc hw hn
    exact h.unmarked u w hu hc hw (fun hh => hn ⟨by omega, hh.2⟩)

theorem componentsLoop_exact {g : Graph ν W} (hr : OutInRange g) (hs : Symmetric g)
    (remaining idx total : Nat) (hidx : idx + remaining = g.length) {c : List Nat} {count : Nat}
    (h : Upto g idx total c count) :
    ∃ c' count', componentsLoop (g.length + 1) g remaining idx total c count =
        some (.ok (c', count')) ∧ Searched g c' count' := by
  induction remaining generalizing idx total c count with
  | zero => exact ⟨c, count, rfl, h.stop (by omega) (Or.inl (by omega))⟩
  | succ remaining ih =>
    unfold componentsLoop
    by_cases ht : total < g.length
    · rw [if_pos ht]
      have hl : idx < c.length := by rw [h.len]; omega
      have hg := List.getElem?_eq_getElem hl
      rw [hg]
      dsimp only
      generalize c[idx] = x at hg
      obtain ⟨u, hu, hui⟩ := exists_first g idx
      by_cases hf : First g idx
      · have hx : x = 0 := by
          rw [h.unmarked idx idx hf (.refl _) (by omega) (by omega)] at hg
          injection hg with hg; exact hg.symm
        rw [if_pos hx]
        obtain ⟨c', num', h1, h2⟩ := h.mark hr hs (by omega) ht hf
        rw [h1]
        exact ih (idx + 1) (total + num') (by omega) h2
      · have hlt : u < idx := by
          rcases Nat.lt_or_ge u idx with h1 | h1
          · exact h1
          · have : u = idx := Nat.le_antisymm (hu.le hui) h1
            exact absurd (this ▸ hu) hf
        have he : HasEdge g u := by
          refine Classical.byContradiction (fun hn => ?_)
          have := alone hs hui hn
          omega
        have hx : x ≠ 0 := by
          rw [h.marked u idx hu hui (by omega) hlt he] at hg
          injection hg with hg
          rw [← hg]; exact componentsBefore_pos hu
        rw [if_neg hx]
        exact ih (idx + 1) total (by omega) (h.skip hf)
    · rw [if_neg ht]
      exact ⟨c, count, rfl, h.stop (by omega) (Or.inr ht)⟩

theorem components_exact {g : Graph ν W} (hr : OutInRange g) (hs : Symmetric g) :
    ∃ c count, getConnectedComponentsUndirected g = some (.ok (c, count)) ∧ Searched g c count := by
  refine componentsLoop_exact hr hs g.length 0 0 (by omega) ⟨by simp, ?_, rfl, ?_, ?_, ?_⟩
  · have h1 : nodesBefore g 0 = 0 := howMany_none (fun v _ ⟨u, hu, _⟩ => by omega)
    rw [h1]; rfl
  · intro u hu; omega
  · intro u w _ _ _ hu; omega
  · intro u w _ _ hw _
    rw [List.getElem?_replicate, if_pos hw]

end Verif.Graph
