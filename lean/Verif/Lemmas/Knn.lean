import Verif.Model.Knn
import Verif.Spec.Knn
import Mathlib.Data.List.Nodup
import Mathlib.Data.List.Sort

/-!
# Keeping the K best entries
-/
namespace Verif.Knn
open Verif

variable {α β W : Type} [Cost W]

/-! ## The largest entry -/

theorem maxElementFrom_spec (l : List (Int × W)) : ∀ (suf : List (Int × W)) (i largest : Nat) (worst : W),
    (∀ k, suf[k]? = l[i + k]?) → (∃ e, l[largest]? = some e ∧ e.2 = worst) →
    (∀ k, k < i → ∀ e, l[k]? = some e → e.2 ≤ worst) → i + suf.length = l.length →
    ∃ e, l[maxElementFrom suf i largest worst]? = some e ∧ ∀ y ∈ l, y.2 ≤ e.2
  | [], i, largest, worst, _, ⟨e, h1, h2⟩, h3, hl => by
    refine ⟨e, h1, ?_⟩
    intro y hy
    obtain ⟨k, hk⟩ := List.mem_iff_getElem?.1 hy
    rw [h2]
    have := (List.getElem?_eq_some_iff.1 hk).1
    exact h3 k (by simp at hl; omega) y hk
  | x :: xs, i, largest, worst, hs, h1, h3, hl => by
    have hx : l[i]? = some x := by have := hs 0; simpa using this.symm
    have hs' : ∀ k, xs[k]? = l[i + 1 + k]? := by
      intro k
      have := hs (k + 1)
      simp at this
      rw [this]; congr 1; omega
    unfold maxElementFrom
    split
    · rename_i hlt
      refine maxElementFrom_spec l xs (i + 1) i x.2 hs' ⟨x, hx, rfl⟩ ?_ (by simp at hl; omega)
      intro k hk e he
      rcases Nat.lt_succ_iff_lt_or_eq.1 hk with hk | rfl
      · exact le_trans (h3 k hk e he) (le_of_lt hlt)
      · rw [hx] at he; injection he with he; rw [he]
    · rename_i hlt
      refine maxElementFrom_spec l xs (i + 1) largest worst hs' h1 ?_ (by simp at hl; omega)
      intro k hk e he
      rcases Nat.lt_succ_iff_lt_or_eq.1 hk with hk | rfl
      · exact h3 k hk e he
      · rw [hx] at he; injection he with he; rw [← he]; exact le_of_not_gt hlt

theorem maxElement_spec {l : List (Int × W)} (hne : l ≠ []) :
    ∃ e, l[maxElement l]? = some e ∧ ∀ y ∈ l, y.2 ≤ e.2 := by
  cases l with
  | nil => exact absurd rfl hne
  | cons x xs =>
    refine maxElementFrom_spec (x :: xs) xs 1 0 x.2 ?_ ⟨x, rfl, rfl⟩ ?_ (by simp; omega)
    · intro k; rw [show 1 + k = k + 1 by omega]; rfl
    · intro k hk e he
      have : k = 0 := by omega
      subst this
      simp at he
      rw [he]

theorem replaceWorst_spec {l : List (Int × W)} (hne : l ≠ []) (x : Int × W) :
    ∃ p w, l[p]? = some w ∧ (∀ y ∈ l, y.2 ≤ w.2) ∧
      replaceWorst l x = .ok (if x.2 < w.2 then l.set p x else l) := by
  obtain ⟨w, h1, h2⟩ := maxElement_spec hne
  refine ⟨maxElement l, w, h1, h2, ?_⟩
  unfold replaceWorst
  rw [h1]
  simp only
  split <;> rfl

/-! ## The invariant -/

/-- `L` holds entries for items of `S` with their distances `f`, no item twice, and possibly unset
entries; items of `S` that are not in `L` are no closer than what is in `L`. -/
structure Core (f : Nat → W) (S : List Nat) (L : List (Int × W)) : Prop where
  dist : ∀ (p q : Nat) (e e' : Int × W), L[p]? = some e → L[q]? = some e' → e.1 = e'.1 → e.1 ≠ -1 → p = q
  mem : ∀ e ∈ L, e = (-1, Cost.inf) ∨ ∃ i ∈ S, e = ((i : Int), f i)
  best : ∀ i ∈ S, (∀ e ∈ L, e.1 ≠ (i : Int)) → ∀ e ∈ L, e.2 ≤ f i

omit [Cost W] in
theorem mem_set_iff {L : List (Int × W)} {p : Nat} {x e : Int × W} (h : e ∈ L.set p x) :
    e = x ∨ ∃ q, q ≠ p ∧ L[q]? = some e := by
  obtain ⟨q, hq⟩ := List.mem_iff_getElem?.1 h
  rw [List.getElem?_set] at hq
  split at hq
  · split at hq
    · injection hq with hq; exact Or.inl hq.symm
    · cases hq
  · rename_i hne
    exact Or.inr ⟨q, fun h => hne h.symm, hq⟩

theorem Core.replace {f : Nat → W} {S : List Nat} {L : List (Int × W)} (hc : Core f S L) {i : Nat}
    (hi : i ∉ S) {p : Nat} {w : Int × W} (hp : L[p]? = some w) (hmax : ∀ y ∈ L, y.2 ≤ w.2) :
    Core f (S ++ [i]) (if f i < w.2 then L.set p ((i : Int), f i) else L) := by
  have hplt := (List.getElem?_eq_some_iff.1 hp).1
  have hnew : ∀ e ∈ L, e.1 ≠ (i : Int) := by
    intro e he hei
    rcases hc.mem e he with rfl | ⟨j, hj, rfl⟩
    · have : (-1 : Int) = i := hei
      omega
    · have hji : (j : Int) = i := hei
      have : j = i := by omega
      subst this; exact hi hj
  split
  · rename_i hlt
    have hpx : (L.set p ((i : Int), f i))[p]? = some ((i : Int), f i) := by
      rw [List.getElem?_set]; simp [hplt]
    refine ⟨?_, ?_, ?_⟩
    · intro a b e e' ha hb hee hne
      rw [List.getElem?_set] at ha hb
      by_cases h1 : p = a <;> by_cases h2 : p = b
      · omega
      · rw [if_pos h1, if_pos hplt] at ha
        rw [if_neg h2] at hb
        injection ha with ha
        exact absurd (by rw [← hee, ← ha]) (hnew e' (List.mem_of_getElem? hb))
      · rw [if_neg h1] at ha
        rw [if_pos h2, if_pos hplt] at hb
        injection hb with hb
        exact absurd (by rw [hee, ← hb]) (hnew e (List.mem_of_getElem? ha))
      · rw [if_neg h1] at ha
        rw [if_neg h2] at hb
        exact hc.dist a b e e' ha hb hee hne
    · intro e he
      rcases mem_set_iff he with rfl | ⟨q, _, hq⟩
      · exact Or.inr ⟨i, by simp, rfl⟩
      · rcases hc.mem e (List.mem_of_getElem? hq) with h | ⟨j, hj, h⟩
        · exact Or.inl h
        · exact Or.inr ⟨j, List.mem_append_left _ hj, h⟩
    · intro j hj hnot e he
      have hji : j ≠ i := by
        rintro rfl
        exact hnot _ (List.mem_of_getElem? hpx) rfl
      have hj : j ∈ S := by
        rcases List.mem_append.1 hj with hj | hj
        · exact hj
        · simp at hj; exact absurd hj hji
      have hle : e.2 ≤ w.2 := by
        rcases mem_set_iff he with rfl | ⟨q, _, hq⟩
        · exact le_of_lt hlt
        · exact hmax e (List.mem_of_getElem? hq)
      by_cases hw : w.1 = (j : Int)
      · rcases hc.mem w (List.mem_of_getElem? hp) with h | ⟨k, _, h⟩
        · rw [h] at hw
          have : (-1 : Int) = j := hw
          omega
        · rw [h] at hw hle
          have hkj : (k : Int) = j := hw
          have : k = j := by omega
          subst this; exact hle
      · refine le_trans hle (hc.best j hj ?_ w (List.mem_of_getElem? hp))
        intro e' he' hej
        obtain ⟨q, hq⟩ := List.mem_iff_getElem?.1 he'
        by_cases hqp : q = p
        · subst hqp
          rw [hp] at hq; injection hq with hq
          rw [hq] at hw; exact hw hej
        · exact hnot e' (List.mem_of_getElem? (i := q) (by
            rw [List.getElem?_set, if_neg (fun h => hqp h.symm)]; exact hq)) hej
  · rename_i hge
    refine ⟨hc.dist, ?_, ?_⟩
    · intro e he
      rcases hc.mem e he with h | ⟨j, hj, h⟩
      · exact Or.inl h
      · exact Or.inr ⟨j, List.mem_append_left _ hj, h⟩
    · intro j hj hnot e he
      rcases List.mem_append.1 hj with hj | hj
      · exact hc.best j hj hnot e he
      · simp at hj; subst hj
        exact le_trans (hmax e he) (le_of_not_gt hge)

theorem Core.push {f : Nat → W} {S : List Nat} {L : List (Int × W)} (hc : Core f S L) {i : Nat}
    (hi : i ∉ S) (hall : ∀ j ∈ S, ∃ e ∈ L, e.1 = (j : Int)) :
    Core f (S ++ [i]) (L ++ [((i : Int), f i)]) := by
  have hnew : ∀ e ∈ L, e.1 ≠ (i : Int) := by
    intro e he hei
    rcases hc.mem e he with rfl | ⟨j, hj, rfl⟩
    · have : (-1 : Int) = i := hei
      omega
    · have hji : (j : Int) = i := hei
      have : j = i := by omega
      subst this; exact hi hj
  refine ⟨?_, ?_, ?_⟩
  · intro a b e e' ha hb hee hne
    rw [List.getElem?_append] at ha hb
    split at ha <;> split at hb
    · exact hc.dist a b e e' ha hb hee hne
    · rw [List.getElem?_singleton] at hb
      split at hb
      · injection hb with hb
        exact absurd (by rw [hee, ← hb]) (hnew e (List.mem_of_getElem? ha))
      · cases hb
    · rw [List.getElem?_singleton] at ha
      split at ha
      · injection ha with ha
        exact absurd (by rw [← hee, ← ha]) (hnew e' (List.mem_of_getElem? hb))
      · cases ha
    · rw [List.getElem?_singleton] at ha hb
      split at ha
      · split at hb
        · omega
        · cases hb
      · cases ha
  · intro e he
    rcases List.mem_append.1 he with he | he
    · rcases hc.mem e he with h | ⟨j, hj, h⟩
      · exact Or.inl h
      · exact Or.inr ⟨j, List.mem_append_left _ hj, h⟩
    · simp at he; exact Or.inr ⟨i, by simp, he⟩
  · intro j hj hnot
    exfalso
    rcases List.mem_append.1 hj with hj | hj
    · obtain ⟨e, he, hej⟩ := hall j hj
      exact hnot e (List.mem_append_left _ he) hej
    · simp at hj; subst hj
      exact hnot (((j : Nat) : Int), f j) (by simp) rfl

/-! ## What the loops compute -/

/-- The `K` best of `S`, without unset entries. -/
structure KBest (f : Nat → W) (K : Nat) (S : List Nat) (R : List (Int × W)) : Prop where
  length : R.length = min K S.length
  nodup : (R.map (·.1)).Nodup
  mem : ∀ e ∈ R, ∃ i ∈ S, e = ((i : Int), f i)
  best : ∀ i ∈ S, (i : Int) ∉ R.map (·.1) → ∀ e ∈ R, e.2 ≤ f i

theorem Core.pairwise {f : Nat → W} {S : List Nat} {L : List (Int × W)} (hc : Core f S L) :
    L.Pairwise (fun a b => a.1 = b.1 → a.1 = -1) := by
  rw [List.pairwise_iff_getElem]
  intro i j hi hj hij heq
  by_contra hne
  have := hc.dist i j _ _ (List.getElem?_eq_getElem hi) (List.getElem?_eq_getElem hj) heq hne
  omega

omit [Cost W] in
theorem nodup_subset_length {R : List (Int × W)} {S : List Nat} (hn : (R.map (·.1)).Nodup)
    (hs : ∀ e ∈ R, ∃ i ∈ S, e.1 = (i : Int)) : R.length ≤ S.length := by
  have := List.Nodup.length_le_of_subset hn (l₂ := S.map Int.ofNat) (by
    intro x hx
    obtain ⟨e, he, rfl⟩ := List.mem_map.1 hx
    obtain ⟨i, hi, h⟩ := hs e he
    exact List.mem_map.2 ⟨i, hi, h.symm⟩)
  simpa using this

omit [Cost W] in
theorem subset_nodup_length {R : List (Int × W)} {S : List Nat} (hn : S.Nodup)
    (hs : ∀ i ∈ S, (i : Int) ∈ R.map (·.1)) : S.length ≤ R.length := by
  have hn' : (S.map Int.ofNat).Nodup := hn.map (fun a b h => Int.ofNat.inj h)
  have := List.Nodup.length_le_of_subset hn' (l₂ := R.map (·.1)) (by
    intro x hx
    obtain ⟨i, hi, rfl⟩ := List.mem_map.1 hx
    exact hs i hi)
  simpa using this

/-- Dropping the unset entries of a list of `K` entries gives the `K` best, if all distances are
finite. -/
theorem Core.kbest {f : Nat → W} {S : List Nat} {L : List (Int × W)} {K : Nat} (hc : Core f S L)
    (hK : L.length = K) (hS : S.Nodup) (hf : ∀ i ∈ S, f i < Cost.inf) :
    KBest f K S (L.filter (fun e => decide (e.1 ≠ -1))) := by
  generalize hR : L.filter (fun e => decide (e.1 ≠ -1)) = R
  have hmemR : ∀ e, e ∈ R ↔ e ∈ L ∧ e.1 ≠ -1 := by intro e; rw [← hR]; simp
  have hmem : ∀ e ∈ R, ∃ i ∈ S, e = ((i : Int), f i) := by
    intro e he
    obtain ⟨h1, h2⟩ := (hmemR e).1 he
    rcases hc.mem e h1 with h | h
    · rw [h] at h2; exact absurd rfl h2
    · exact h
  have hnd : (R.map (·.1)).Nodup := by
    unfold List.Nodup
    rw [List.pairwise_map]
    have hp : R.Pairwise (fun a b => a.1 = b.1 → a.1 = -1) := by
      rw [← hR]; exact hc.pairwise.sublist List.filter_sublist
    exact hp.imp_of_mem (fun {a b} ha _ h heq => ((hmemR a).1 ha).2 (h heq))
  have hbest : ∀ i ∈ S, (i : Int) ∉ R.map (·.1) → ∀ e ∈ L, e.2 ≤ f i := by
    intro i hi hnot e he
    refine hc.best i hi ?_ e he
    intro e' he' hei
    exact hnot (List.mem_map.2 ⟨e', (hmemR e').2 ⟨he', by rw [hei]; omega⟩, hei⟩)
  refine ⟨?_, hnd, hmem, fun i hi hnot e he => hbest i hi hnot e ((hmemR e).1 he).1⟩
  have h1 : R.length ≤ S.length := nodup_subset_length hnd (fun e he => by
    obtain ⟨i, hi, h⟩ := hmem e he; exact ⟨i, hi, by rw [h]⟩)
  have h2 : R.length ≤ K := by rw [← hR, ← hK]; exact List.length_filter_le _ _
  by_cases hlt : R.length < K
  · have hex : ∃ e ∈ L, e.1 = -1 := by
      by_contra hno
      have : R = L := by
        rw [← hR, List.filter_eq_self]
        intro e he
        simp only [decide_eq_true_eq]
        intro h
        exact hno ⟨e, he, h⟩
      rw [this] at hlt; omega
    obtain ⟨e, he, he1⟩ := hex
    have heinf : e.2 = Cost.inf := by
      rcases hc.mem e he with h | ⟨i, _, h⟩
      · rw [h]
      · rw [h] at he1
        have : (i : Int) = -1 := he1
        omega
    have := subset_nodup_length (R := R) hS (by
      intro i hi
      by_contra hnot
      have := hbest i hi hnot e he
      rw [heinf] at this
      exact absurd (hf i hi) (not_lt_of_ge this))
    omega
  · omega

/-- The distance of the item at a position (infinity where there is none). -/
def distAt (items : List α) (current : β) (distance : α → β → W) (i : Nat) : W :=
  match items[i]? with
  | some item => distance item current
  | none => Cost.inf

theorem scan_core {items : List α} {current : β} {distance : α → β → W} :
    ∀ (is S : List Nat) (L : List (Int × W)), L ≠ [] → (S ++ is).Nodup →
      (∀ i ∈ is, i < items.length) → Core (distAt items current distance) S L →
      ∃ L', scan items current distance is L = .ok L' ∧ L'.length = L.length ∧
        Core (distAt items current distance) (S ++ is) L' := by
  intro is
  induction is with
  | nil => intro S L _ _ _ hc; exact ⟨L, rfl, rfl, by simpa using hc⟩
  | cons i is ih =>
    intro S L hne hnd hlt hc
    unfold scan
    have hi := hlt i (by simp)
    rw [List.getElem?_eq_getElem hi]
    simp only
    have hd : distance items[i] current = distAt items current distance i := by
      unfold distAt; rw [List.getElem?_eq_getElem hi]
    obtain ⟨p, w, h1, h2, h3⟩ := replaceWorst_spec hne ((i : Int), distance items[i] current)
    rw [h3, Out.bind_ok]
    have hiS : i ∉ S := by
      intro h
      rw [List.nodup_append] at hnd
      exact hnd.2.2 i h i (by simp) rfl
    have hc' := hc.replace hiS h1 h2
    rw [hd]
    have hlen : (if distAt items current distance i < w.2 then
        L.set p ((i : Int), distAt items current distance i) else L).length = L.length := by
      split
      · simp
      · rfl
    obtain ⟨L', g1, g2, g3⟩ := ih (S ++ [i]) _ (by
      intro h
      rw [h] at hlen
      exact hne (List.length_eq_zero_iff.1 hlen.symm)) (by simpa using hnd)
      (fun j hj => hlt j (List.mem_cons_of_mem _ hj)) hc'
    exact ⟨L', g1, by rw [g2, hlen], by simpa using g3⟩

theorem core_unset (f : Nat → W) (K : Nat) : Core f [] (unset K) := by
  have hmem : ∀ e ∈ (unset K : List (Int × W)), e = (-1, Cost.inf) := by
    intro e he; exact (List.mem_replicate.1 he).2
  refine ⟨?_, fun e he => Or.inl (hmem e he), fun i hi => by cases hi⟩
  intro p q e e' hp _ _ hne
  rw [hmem e (List.mem_of_getElem? hp)] at hne
  exact absurd rfl hne

theorem scan_unset {items : List α} {current : β} {distance : α → β → W} {K : Nat} (hK : 0 < K)
    (is : List Nat) (hnd : is.Nodup) (hlt : ∀ i ∈ is, i < items.length) :
    ∃ L, scan items current distance is (unset K) = .ok L ∧ L.length = K ∧
      Core (distAt items current distance) is L := by
  obtain ⟨L, h1, h2, h3⟩ := scan_core (items := items) (current := current) (distance := distance)
    is [] (unset K) (by intro h; have := congrArg List.length h; simp [unset] at this; omega)
    (by simpa using hnd) hlt (core_unset _ _)
  exact ⟨L, h1, by rw [h2]; simp [unset], by simpa using h3⟩

/-! ## Merging -/

/-- The loop that merges keeps the `K` best of what it has seen. -/
theorem merge_core {f : Nat → W} {K : Nat} (hK : 0 < K) :
    ∀ (xs : List (Int × W)) (is S : List Nat) (L : List (Int × W)),
      (xs.filter (fun e => decide (e.1 ≠ -1))) = is.map (fun i : Nat => ((i : Int), f i)) →
      (∀ i ∈ is, f i < Cost.inf) → (S ++ is).Nodup → Core f S L → (∀ e ∈ L, e.1 ≠ -1) →
      L.length = min K S.length →
      ∃ L', merge K xs L = .ok L' ∧ Core f (S ++ is) L' ∧ (∀ e ∈ L', e.1 ≠ -1) ∧
        L'.length = min K (S.length + is.length) := by
  intro xs
  induction xs with
  | nil =>
    intro is S L hx _ _ hc hreal hl
    have : is = [] := by
      cases is with
      | nil => rfl
      | cons a b => simp at hx
    subst this
    exact ⟨L, rfl, by simpa using hc, hreal, by simpa using hl⟩
  | cons x xs ih =>
    intro is S L hx hf hnd hc hreal hl
    unfold merge
    by_cases hx1 : x.1 = -1
    · rw [if_neg (by simp [hx1])]
      rw [List.filter_cons_of_neg (by simp [hx1])] at hx
      exact ih is S L hx hf hnd hc hreal hl
    · rw [List.filter_cons_of_pos (by simpa using hx1)] at hx
      cases is with
      | nil => simp at hx
      | cons i is =>
        simp only [List.map_cons, List.cons.injEq] at hx
        obtain ⟨hxi, hx⟩ := hx
        subst hxi
        have hfi := hf i (by simp)
        rw [if_pos ⟨ne_of_lt hfi, hx1⟩]
        have hiS : i ∉ S := by
          intro h
          rw [List.nodup_append] at hnd
          exact hnd.2.2 i h i (by simp) rfl
        have hnd' : ((S ++ [i]) ++ is).Nodup := by simpa using hnd
        have hf' : ∀ i ∈ is, f i < Cost.inf := fun j hj => hf j (List.mem_cons_of_mem _ hj)
        have hlS : (S ++ [i]).length = S.length + 1 := by simp
        have hfin : ∀ L', Core f ((S ++ [i]) ++ is) L' ∧ (∀ e ∈ L', e.1 ≠ -1) ∧
            L'.length = min K ((S ++ [i]).length + is.length) →
            Core f (S ++ i :: is) L' ∧ (∀ e ∈ L', e.1 ≠ -1) ∧
            L'.length = min K (S.length + (i :: is).length) := by
          rintro L' ⟨h1, h2, h3⟩
          refine ⟨by simpa using h1, h2, ?_⟩
          rw [h3]; simp; omega
        split
        · rename_i hlt
          have hall : ∀ j ∈ S, ∃ e ∈ L, e.1 = (j : Int) := by
            -- every item of S is in L, as L has as many entries
            have hLS : L.length = S.length := by omega
            have hLn : (L.map (·.1)).Nodup := by
              unfold List.Nodup
              rw [List.pairwise_map]
              exact hc.pairwise.imp_of_mem (fun {a b} ha _ h heq => hreal a ha (h heq))
            have hsub : L.map (·.1) ⊆ S.map Int.ofNat := by
              intro y hy
              obtain ⟨e, he, rfl⟩ := List.mem_map.1 hy
              rcases hc.mem e he with h | ⟨j, hj, h⟩
              · exact absurd (by rw [h]) (hreal e he)
              · exact List.mem_map.2 ⟨j, hj, by rw [h]; rfl⟩
            have hperm := (List.subperm_of_subset hLn hsub).perm_of_length_le (by simp [hLS])
            intro j hj
            have : (j : Int) ∈ L.map (·.1) :=
              hperm.mem_iff.2 (List.mem_map.2 ⟨j, hj, rfl⟩)
            obtain ⟨e, he, h⟩ := List.mem_map.1 this
            exact ⟨e, he, h⟩
          obtain ⟨L', g1, g2⟩ := ih is (S ++ [i]) (L ++ [((i : Int), f i)]) hx hf' hnd'
            (hc.push hiS hall) (by
              intro e he
              rcases List.mem_append.1 he with he | he
              · exact hreal e he
              · simp at he; rw [he]; simp) (by simp; omega)
          exact ⟨L', g1, hfin L' g2⟩
        · rename_i hge
          have hLne : L ≠ [] := by rintro rfl; simp at hge; omega
          obtain ⟨p, w, h1, h2, h3⟩ := replaceWorst_spec hLne ((i : Int), f i)
          rw [h3, Out.bind_ok]
          obtain ⟨L', g1, g2⟩ := ih is (S ++ [i]) _ hx hf' hnd' (hc.replace hiS h1 h2) (by
              intro e he
              split at he
              · rcases mem_set_iff he with rfl | ⟨q, _, hq⟩
                · simp
                · exact hreal e (List.mem_of_getElem? hq)
              · exact hreal e he) (by
              split
              · simp; omega
              · simp; omega)
          exact ⟨L', g1, hfin L' g2⟩

/-- The `K` best of the union of the `K` best are the `K` best. -/
theorem KBest.combine {f : Nat → W} {K : Nat} {R : List (Int × W)} {Ss Bs : List (List Nat)}
    (hrel : List.Forall₂ (fun S B => KBest f K S (B.map (fun i : Nat => ((i : Int), f i)))) Ss Bs)
    (hR : KBest f K Bs.flatten R) (hnd : Ss.flatten.Nodup) : KBest f K Ss.flatten R := by
  have hsub : ∀ i, i ∈ Bs.flatten → i ∈ Ss.flatten := by
    intro i hi
    clear hR hnd
    induction hrel with
    | nil => exact hi
    | cons h _ ih =>
      rw [List.flatten_cons, List.mem_append] at hi ⊢
      rcases hi with hi | hi
      · left
        obtain ⟨j, hj, h'⟩ := h.mem ((i : Int), f i) (List.mem_map.2 ⟨i, hi, rfl⟩)
        have h1 : (i : Int) = j := (Prod.mk.inj h').1
        have h1 : i = j := by omega
        rw [h1]; exact hj
      · exact Or.inr (ih hi)
  refine ⟨?_, hR.nodup, fun e he => ?_, ?_⟩
  · rw [hR.length]
    clear hR hsub hnd
    induction hrel with
    | nil => rfl
    | cons h _ ih =>
      have := h.length
      simp only [List.length_map] at this
      simp only [List.flatten_cons, List.length_append]
      omega
  · obtain ⟨i, hi, h⟩ := hR.mem e he
    exact ⟨i, hsub i hi, h⟩
  · intro i hi hnot e he
    -- find the thread of `i`
    have hthread : ∃ S B : List Nat, KBest f K S (B.map (fun i : Nat => ((i : Int), f i))) ∧ i ∈ S ∧
        (∀ j ∈ B, j ∈ Bs.flatten) ∧ S.Nodup := by
      clear hR hnot he hsub
      induction hrel with
      | nil => cases hi
      | @cons S B Ss Bs h _ ih =>
        rw [List.flatten_cons, List.mem_append] at hi
        rw [List.flatten_cons, List.nodup_append] at hnd
        rcases hi with hi | hi
        · exact ⟨S, B, h, hi, fun j hj => by simp [hj], hnd.1⟩
        · obtain ⟨S', B', h1, h2, h3, h4⟩ := ih hnd.2.1 hi
          exact ⟨S', B', h1, h2, fun j hj => by
            rw [List.flatten_cons]; exact List.mem_append_right _ (h3 j hj), h4⟩
    obtain ⟨S, B, hB, hiS, hBs, hSn⟩ := hthread
    by_cases hiB : i ∈ B
    · exact hR.best i (hBs i hiB) hnot e he
    · have hiB' : (i : Int) ∉ (B.map (fun i : Nat => ((i : Int), f i))).map (·.1) := by
        intro h
        rw [List.map_map, List.mem_map] at h
        obtain ⟨a, ha, hai⟩ := h
        have hai : (a : Int) = i := hai
        have : a = i := by omega
        subst this; exact hiB ha
      have hBle : ∀ j ∈ B, f j ≤ f i := fun j hj =>
        hB.best i hiS hiB' ((j : Int), f j) (List.mem_map.2 ⟨j, hj, rfl⟩)
      by_cases hall : ∀ j ∈ B, (j : Int) ∈ R.map (·.1)
      · -- the thread's list is full, so the result consists of its entries
        have hBn : B.Nodup := by
          have := hB.nodup
          rw [List.map_map] at this
          exact List.Nodup.of_map _ this
        have hBK : B.length = K := by
          have h1 := hB.length
          simp only [List.length_map] at h1
          by_contra hne
          have h2 : B.length = S.length := by omega
          have hsubS : B ⊆ S := by
            intro j hj
            obtain ⟨k, hk, h'⟩ := hB.mem ((j : Int), f j) (List.mem_map.2 ⟨j, hj, rfl⟩)
            have h1 : (j : Int) = k := (Prod.mk.inj h').1
            have h1 : j = k := by omega
            rw [h1]; exact hk
          have := ((List.subperm_of_subset hBn hsubS).perm_of_length_le (by omega)).mem_iff.2 hiS
          exact hiB this
        have hRK : R.length ≤ K := by rw [hR.length]; omega
        have hperm := (List.subperm_of_subset (hBn.map (f := Int.ofNat) (fun a b h => Int.ofNat.inj h))
          (l₂ := R.map (·.1)) (by
            intro y hy
            obtain ⟨j, hj, rfl⟩ := List.mem_map.1 hy
            exact hall j hj)).perm_of_length_le (by simp; omega)
        have : e.1 ∈ B.map Int.ofNat := hperm.mem_iff.2 (List.mem_map.2 ⟨e, he, rfl⟩)
        obtain ⟨j, hj, hje⟩ := List.mem_map.1 this
        obtain ⟨k, _, hk⟩ := hR.mem e he
        rw [hk] at hje ⊢
        have hjk : (j : Int) = k := hje
        have : j = k := by omega
        subst this
        exact hBle j hj
      · have : ∃ j ∈ B, (j : Int) ∉ R.map (·.1) := by
          by_contra hno
          exact hall (fun j hj => by
            by_contra hnj
            exact hno ⟨j, hj, hnj⟩)
        obtain ⟨j, hj, hjR⟩ := this
        exact le_trans (hR.best j (hBs j hj) hjR e he) (hBle j hj)

theorem KBest.perm {f : Nat → W} {K : Nat} {S S' : List Nat} {R : List (Int × W)}
    (h : KBest f K S R) (hp : S.Perm S') : KBest f K S' R :=
  ⟨by rw [h.length, hp.length_eq], h.nodup,
    fun e he => by obtain ⟨i, hi, h'⟩ := h.mem e he; exact ⟨i, hp.mem_iff.1 hi, h'⟩,
    fun i hi => h.best i (hp.mem_iff.2 hi)⟩

theorem KBest.spec {items : List α} {current : β} {distance : α → β → W} {K : Nat}
    {R : List (Int × W)}
    (h : KBest (distAt items current distance) K (List.range items.length) R) :
    KNearest items current distance K R := by
  have hd : ∀ (i : Nat) (item : α), items[i]? = some item →
      distAt items current distance i = distance item current := by
    intro i item hi; unfold distAt; rw [hi]
  refine ⟨by simpa using h.length, h.nodup, ?_, ?_⟩
  · intro e he
    obtain ⟨i, hi, rfl⟩ := h.mem e he
    have hi := List.mem_range.1 hi
    exact ⟨i, items[i], List.getElem?_eq_getElem hi, rfl, hd i _ (List.getElem?_eq_getElem hi)⟩
  · intro i item hi hnot e he
    rw [← hd i item hi]
    exact h.best i (List.mem_range.2 (List.getElem?_eq_some_iff.1 hi).1) hnot e he

/-- With finitely many items more than `K`, no unset entry is left. -/
theorem Core.full {f : Nat → W} {S : List Nat} {L : List (Int × W)} {K : Nat} (hc : Core f S L)
    (hK : L.length = K) (hS : S.Nodup) (hf : ∀ i ∈ S, f i < Cost.inf) (hlt : K ≤ S.length) :
    L.filter (fun e => decide (e.1 ≠ -1)) = L := by
  have := (hc.kbest hK hS hf).length
  apply List.filter_sublist.eq_of_length
  omega

theorem allDistances_spec {items : List α} {current : β} {distance : α → β → W} :
    ∀ (is : List Nat) (L : List (Int × W)), (∀ i ∈ is, i < items.length) → is.Nodup →
      ∃ L', allDistances items current distance is L = .ok L' ∧ L'.length = L.length ∧
        ∀ k, L'[k]? = if k ∈ is ∧ k < L.length then some ((k : Int), distAt items current distance k)
          else L[k]? := by
  intro is
  induction is with
  | nil => intro L _ _; exact ⟨L, rfl, rfl, by simp⟩
  | cons i is ih =>
    intro L hlt hnd
    have hi := hlt i (by simp)
    unfold allDistances
    rw [List.getElem?_eq_getElem hi]
    simp only
    rw [List.nodup_cons] at hnd
    obtain ⟨L', h1, h2, h3⟩ := ih (L.set i ((i : Int), distance items[i] current))
      (fun j hj => hlt j (List.mem_cons_of_mem _ hj)) hnd.2
    refine ⟨L', h1, by simpa using h2, ?_⟩
    intro k
    rw [h3 k, List.length_set]
    have hd : distAt items current distance i = distance items[i] current := by
      unfold distAt; rw [List.getElem?_eq_getElem hi]
    by_cases hk : k = i
    · subst hk
      rw [if_neg (fun h => hnd.1 h.1), List.getElem?_set]
      by_cases hkl : k < L.length
      · simp [hkl, hd]
      · simp [hkl]
    · have h' : (L.set i ((i : Int), distance items[i] current))[k]? = L[k]? := by
        rw [List.getElem?_set, if_neg (fun h => hk h.symm)]
      rw [h']
      simp [hk]

theorem allDistances_perm {items : List α} {current : β} {distance : α → β → W} {is : List Nat}
    (hp : is.Perm (List.range items.length)) :
    allDistances items current distance is (unset items.length) =
      .ok ((List.range items.length).map fun i : Nat => ((i : Int), distAt items current distance i)) := by
  obtain ⟨L', h1, h2, h3⟩ := allDistances_spec (items := items) (current := current)
    (distance := distance) is (unset items.length)
    (fun i hi => List.mem_range.1 (hp.mem_iff.1 hi)) (hp.nodup_iff.2 List.nodup_range)
  rw [h1]
  congr 1
  apply List.ext_getElem?
  intro k
  have hlen : (unset items.length : List (Int × W)).length = items.length := by simp [unset]
  rw [h3 k, hlen]
  by_cases hk : k < items.length
  · have : k ∈ is := hp.mem_iff.2 (List.mem_range.2 hk)
    rw [if_pos ⟨this, hk⟩]
    simp [hk]
  · rw [if_neg (fun h => hk h.2)]
    have : (unset items.length : List (Int × W))[k]? = none := by
      rw [List.getElem?_eq_none_iff]; omega
    rw [this]
    simp [hk]

theorem kbest_all (f : Nat → W) {K n : Nat} (h : n ≤ K) :
    KBest f K (List.range n) ((List.range n).map fun i : Nat => ((i : Int), f i)) := by
  refine ⟨by simp; omega, ?_, ?_, ?_⟩
  · rw [List.map_map]
    exact List.nodup_range.map (fun a b h => Int.ofNat.inj h)
  · intro e he
    obtain ⟨i, hi, rfl⟩ := List.mem_map.1 he
    exact ⟨i, hi, rfl⟩
  · intro i hi hnot
    exact absurd (List.mem_map.2 ⟨_, List.mem_map.2 ⟨i, hi, rfl⟩, rfl⟩) hnot

theorem scanThreads_spec {items : List α} {current : β} {distance : α → β → W} {K : Nat} (hK : 0 < K) :
    ∀ (sched : List (List Nat)), (∀ t ∈ sched, t.Nodup ∧ (∀ i ∈ t, i < items.length) ∧
        ∀ i ∈ t, distAt items current distance i < Cost.inf) →
      ∃ Ls Bs, scanThreads items current distance K sched = .ok Ls ∧
        Ls.flatten.filter (fun e => decide (e.1 ≠ -1)) =
          (Bs.flatten).map (fun i : Nat => ((i : Int), distAt items current distance i)) ∧
        List.Forall₂ (fun S B => KBest (distAt items current distance) K S
          (B.map (fun i : Nat => ((i : Int), distAt items current distance i)))) sched Bs := by
  intro sched
  induction sched with
  | nil => intro _; exact ⟨[], [], rfl, rfl, .nil⟩
  | cons t ts ih =>
    intro hs
    obtain ⟨ht1, ht2, hft⟩ := hs t (by simp)
    obtain ⟨L, h1, h2, h3⟩ := scan_unset (items := items) (current := current) (distance := distance)
      hK t ht1 ht2
    have hb := h3.kbest h2 ht1 hft
    obtain ⟨Ls, Bs, g1, g2, g3⟩ := ih (fun t' ht' => hs t' (List.mem_cons_of_mem _ ht'))
    have hB : ∃ B : List Nat, L.filter (fun e => decide (e.1 ≠ -1)) =
        B.map (fun i : Nat => ((i : Int), distAt items current distance i)) := by
      refine ⟨(L.filter (fun e => decide (e.1 ≠ -1))).map (fun e => e.1.toNat), ?_⟩
      rw [List.map_map]
      have hid : ∀ l : List (Int × W), (∀ e ∈ l, ∃ i ∈ t, e = ((i : Int), distAt items current distance i)) →
          l = l.map ((fun i : Nat => ((i : Int), distAt items current distance i)) ∘
            fun e => e.1.toNat) := by
        intro l hl
        induction l with
        | nil => rfl
        | cons e l ihl =>
          obtain ⟨i, _, h⟩ := hl e (by simp)
          rw [List.map_cons, ← ihl (fun e he => hl e (List.mem_cons_of_mem _ he)), h]
          simp
      exact hid _ hb.mem
    obtain ⟨B, hB⟩ := hB
    refine ⟨L :: Ls, B :: Bs, ?_, ?_, ?_⟩
    · unfold scanThreads
      rw [h1, Out.bind_ok, g1, Out.bind_ok]
    · rw [List.flatten_cons, List.filter_append, hB, g2, List.flatten_cons, List.map_append]
    · rw [hB] at hb
      exact .cons hb g3

/-- Threads that scan items at finite distance, and the merge of what they keep: the `K` best of all
scanned items. -/
theorem parallel_kbest {items : List α} {current : β} {distance : α → β → W} {K : Nat} (hK : 0 < K)
    (schedule : List (List Nat)) (hnd : schedule.flatten.Nodup)
    (hlt : ∀ i ∈ schedule.flatten, i < items.length)
    (hf : ∀ i ∈ schedule.flatten, distAt items current distance i < Cost.inf) :
    ∃ Ls L, scanThreads items current distance K schedule = .ok Ls ∧ merge K Ls.flatten [] = .ok L ∧
      KBest (distAt items current distance) K schedule.flatten L := by
  obtain ⟨Ls, Bs, h1, h2, h3⟩ := scanThreads_spec (items := items) (current := current)
    (distance := distance) (K := K) hK schedule (by
      intro t ht
      exact ⟨hnd.sublist (List.sublist_flatten_of_mem ht),
        fun i hi => hlt i (List.mem_flatten.2 ⟨t, ht, hi⟩), fun i hi => hf i (List.mem_flatten.2 ⟨t, ht, hi⟩)⟩)
  -- the merged items are distinct items of the schedule
  have hsub : ∀ (Ss Bs : List (List Nat)), List.Forall₂ (fun S B =>
      KBest (distAt items current distance) K S
        (B.map (fun i : Nat => ((i : Int), distAt items current distance i)))) Ss Bs →
      Ss.flatten.Nodup → Bs.flatten.Nodup ∧ ∀ i ∈ Bs.flatten, i ∈ Ss.flatten := by
    intro Ss Bs hrel hn
    induction hrel with
    | nil => exact ⟨by simp, fun i hi => hi⟩
    | @cons S B Ss Bs h _ ih =>
      rw [List.flatten_cons, List.nodup_append] at hn
      obtain ⟨g1, g2⟩ := ih hn.2.1
      have hB : ∀ i ∈ B, i ∈ S := by
        intro i hi
        obtain ⟨j, hj, h'⟩ := h.mem ((i : Int), distAt items current distance i)
          (List.mem_map.2 ⟨i, hi, rfl⟩)
        have h1 : (i : Int) = j := (Prod.mk.inj h').1
        have h1 : i = j := by omega
        rw [h1]; exact hj
      constructor
      · rw [List.flatten_cons, List.nodup_append]
        refine ⟨?_, g1, ?_⟩
        · have := h.nodup
          rw [List.map_map] at this
          exact List.Nodup.of_map _ this
        · intro a ha b hb
          exact hn.2.2 a (hB a ha) b (g2 b hb)
      · intro i hi
        rw [List.flatten_cons, List.mem_append] at hi ⊢
        exact hi.imp (hB i) (g2 i)
  obtain ⟨hBn, hBs⟩ := hsub _ _ h3 hnd
  have hfB : ∀ i ∈ Bs.flatten, distAt items current distance i < Cost.inf := fun i hi => hf i (hBs i hi)
  obtain ⟨L, g1, g2, g3, g4⟩ := merge_core (f := distAt items current distance) (K := K)
    hK Ls.flatten Bs.flatten [] [] h2 hfB (by simpa using hBn)
    ⟨by simp, by simp, by simp⟩ (by simp) (by simp)
  refine ⟨Ls, L, h1, g1, ?_⟩
  have hL : KBest (distAt items current distance) K Bs.flatten L := by
    refine ⟨by simpa using g4, ?_, ?_, ?_⟩
    · unfold List.Nodup
      rw [List.pairwise_map]
      exact g2.pairwise.imp_of_mem (fun {a b} ha _ h heq => g3 a ha (h heq))
    · intro e he
      rcases g2.mem e he with h | ⟨i, hi, h⟩
      · exact absurd (by rw [h]) (g3 e he)
      · exact ⟨i, by simpa using hi, h⟩
    · intro i hi hnot
      exact g2.best i (by simpa using hi) (fun e he h => hnot (List.mem_map.2 ⟨e, he, h⟩))
  exact KBest.combine h3 hL hnd

/-! ## Items at infinite distance are passed over -/

theorem replaceWorst_length {l l' : List (Int × W)} {x : Int × W} (h : replaceWorst l x = .ok l') :
    l'.length = l.length := by
  unfold replaceWorst at h
  split at h
  · cases h
  · split at h
    · injection h with h; rw [← h]; simp
    · injection h with h; rw [← h]

/-- Scanning leaves out the items at infinite distance. -/
theorem scan_usable {items : List α} {current : β} {distance : α → β → W} :
    ∀ (is : List Nat) (L : List (Int × W)), L ≠ [] → (∀ i ∈ is, i < items.length) →
      scan items current distance is L = scan items current distance
        (is.filter fun i => decide (distAt items current distance i < Cost.inf)) L := by
  intro is
  induction is with
  | nil => intro L _ _; rfl
  | cons i is ih =>
    intro L hne hlt
    have hil : i < items.length := hlt i (by simp)
    have hi : items[i]? = some items[i] := List.getElem?_eq_getElem hil
    have hd : distAt items current distance i = distance items[i] current := by
      unfold distAt; rw [hi]
    rw [List.filter_cons, hd]
    obtain ⟨w, hw, _⟩ := maxElement_spec hne
    have hlt' : ∀ k ∈ is, k < items.length := fun k hk => hlt k (List.mem_cons_of_mem _ hk)
    by_cases hfin : distance items[i] current < Cost.inf
    · rw [if_pos (by simpa using hfin)]
      simp only [scan, hi]
      cases hr : replaceWorst L ((i : Int), distance items[i] current) with
      | ok l' =>
        rw [Out.bind_ok, Out.bind_ok]
        refine ih l' ?_ hlt'
        intro h0
        have := replaceWorst_length hr
        rw [h0] at this
        exact hne (List.length_eq_zero_iff.1 this.symm)
      | throws e => rfl
      | abort => rfl
      | ub => rfl
    · rw [if_neg (by simpa using hfin)]
      have hr : replaceWorst L ((i : Int), distance items[i] current) = .ok L := by
        unfold replaceWorst
        rw [hw]
        simp only
        rw [if_neg (fun h => hfin (lt_of_lt_of_le h (Cost.le_inf _)))]
      simp only [scan, hi]
      rw [hr, Out.bind_ok]
      exact ih L hne hlt'

theorem scanThreads_usable {items : List α} {current : β} {distance : α → β → W} {K : Nat} (hK : 0 < K) :
    ∀ sched : List (List Nat), (∀ t ∈ sched, ∀ i ∈ t, i < items.length) →
      scanThreads items current distance K sched = scanThreads items current distance K
        (sched.map fun t => t.filter fun i => decide (distAt items current distance i < Cost.inf)) := by
  intro sched
  induction sched with
  | nil => intro _; rfl
  | cons t ts ih =>
    intro h
    have hu : (unset K : List (Int × W)) ≠ [] := by
      intro h0
      have := congrArg List.length h0
      simp [unset] at this
      omega
    rw [List.map_cons]
    unfold scanThreads
    rw [← scan_usable t (unset K) hu (h t (by simp)), ← ih (fun t' ht' => h t' (List.mem_cons_of_mem _ ht'))]

/-- How many of the items at the indices `0 … n-1` satisfy `p`. -/
theorem length_filter_range {α : Type} (p : α → Bool) : ∀ items : List α,
    ((List.range items.length).filter fun i => (items[i]?).any p).length = items.countP p
  | [] => rfl
  | x :: xs => by
    rw [List.length_cons, List.range_succ_eq_map, List.filter_cons, List.filter_map, List.countP_cons,
      ← length_filter_range p xs]
    have : ((fun i => ((x :: xs)[i]?).any p) ∘ Nat.succ) = fun i => (xs[i]?).any p := by
      funext i; simp
    rw [this]
    simp only [List.getElem?_cons_zero, Option.any_some]
    split <;> simp_all

/-- The distances of the `K` best, sorted, are the first `K` of all distances, sorted. -/
theorem KNearest.sorted {items : List α} {current : β} {distance : α → β → W} {K : Nat}
    {R : List (Int × W)} (h : KNearest items current distance K R) :
    (R.map (·.2)).mergeSort =
      ((items.map fun item => distance item current).mergeSort).take K := by
  let f := distAt items current distance
  have hR : ∀ e ∈ R, e.1.toNat < items.length ∧ e.2 = f e.1.toNat ∧ (e.1.toNat : Int) = e.1 := by
    intro e he
    obtain ⟨i, item, h1, h2, h3⟩ := h.distances e he
    rw [h2, h3]
    refine ⟨(List.getElem?_eq_some_iff.1 h1).1, ?_, by simp⟩
    show _ = distAt items current distance _
    unfold distAt
    simp [h1]
  have hD : items.map (fun item => distance item current) = (List.range items.length).map f := by
    apply List.ext_getElem
    · simp
    · intro i h1 h2
      simp at h1
      simp only [List.getElem_map, List.getElem_range]
      show _ = distAt items current distance i
      unfold distAt
      rw [List.getElem?_eq_getElem h1]
  let A := R.map (fun e => e.1.toNat)
  have hA : A.Nodup := by
    have := h.distinct
    unfold List.Nodup at this ⊢
    rw [List.pairwise_map] at this ⊢
    refine this.imp_of_mem ?_
    intro a b ha hb hne heq
    apply hne
    rw [← (hR a ha).2.2, ← (hR b hb).2.2, heq]
  let B := (List.range items.length).filter (fun i => decide (i ∉ A))
  have hperm : (List.range items.length).Perm (A ++ B) := by
    rw [List.perm_ext_iff_of_nodup List.nodup_range]
    · intro i
      simp only [B, List.mem_append, List.mem_filter, List.mem_range, decide_eq_true_eq]
      constructor
      · intro hi
        by_cases hiA : i ∈ A
        · exact Or.inl hiA
        · exact Or.inr ⟨hi, hiA⟩
      · rintro (hi | hi)
        · obtain ⟨e, he, rfl⟩ := List.mem_map.1 hi
          exact (hR e he).1
        · exact hi.1
    · rw [List.nodup_append]
      refine ⟨hA, List.nodup_range.filter _, ?_⟩
      intro a ha b hb hab
      subst hab
      have := (List.mem_filter.1 hb).2
      simp at this
      exact this ha
  have hAf : A.map f = R.map (·.2) := by
    rw [List.map_map]
    apply List.map_congr_left
    intro e he
    exact (hR e he).2.1.symm
  have hle : ∀ a ∈ A.map f, ∀ b ∈ B.map f, a ≤ b := by
    intro a ha b hb
    rw [hAf] at ha
    obtain ⟨e, he, rfl⟩ := List.mem_map.1 ha
    obtain ⟨i, hi, rfl⟩ := List.mem_map.1 hb
    obtain ⟨hi1, hi2⟩ := List.mem_filter.1 hi
    have hi1 := List.mem_range.1 hi1
    have hfi : f i = distance items[i] current := by
      show distAt items current distance i = _
      unfold distAt
      rw [List.getElem?_eq_getElem hi1]
    rw [hfi]
    refine h.nearest i items[i] (List.getElem?_eq_getElem hi1) ?_ e he
    intro hmem
    obtain ⟨e', he', hei⟩ := List.mem_map.1 hmem
    have : i ∈ A := List.mem_map.2 ⟨e', he', by rw [hei]; simp⟩
    simp at hi2
    exact hi2 this
  have hsort : ∀ l : List W, l.mergeSort.Pairwise (· ≤ ·) := by
    intro l
    have := List.pairwise_mergeSort (le := fun a b : W => decide (a ≤ b))
      (fun a b c h1 h2 => by simp at *; exact le_trans h1 h2)
      (fun a b => by simp; exact le_total a b) l
    simpa using this
  have heq : (items.map fun item => distance item current).mergeSort =
      (A.map f).mergeSort ++ (B.map f).mergeSort := by
    apply List.Perm.eq_of_pairwise (le := (· ≤ ·))
    · intro a b _ _ h1 h2; exact le_antisymm h1 h2
    · exact hsort _
    · rw [List.pairwise_append]
      refine ⟨hsort _, hsort _, ?_⟩
      intro a ha b hb
      exact hle a ((List.mergeSort_perm _ _).mem_iff.1 ha) b ((List.mergeSort_perm _ _).mem_iff.1 hb)
    · refine (List.mergeSort_perm _ _).trans ?_
      rw [hD]
      refine (hperm.map f).trans ?_
      rw [List.map_append]
      exact ((List.mergeSort_perm _ _).symm).append ((List.mergeSort_perm _ _).symm)
  rw [heq, hAf]
  have hlen : (R.map (·.2)).mergeSort.length = min K items.length := by
    rw [List.length_mergeSort, List.length_map, h.length]
  have hBlen : B.length + R.length = items.length := by
    have := hperm.length_eq
    simp only [List.length_range, List.length_append, A, List.length_map] at this
    omega
  have := h.length
  by_cases hK : K ≤ items.length
  · rw [List.take_append_of_le_length (by omega), List.take_of_length_le (by omega)]
  · have hB : B = [] := List.length_eq_zero_iff.1 (by omega)
    rw [hB]
    simp only [List.map_nil, List.mergeSort_nil, List.append_nil]
    rw [List.take_of_length_le (by omega)]

end Verif.Knn
