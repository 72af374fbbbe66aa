import Mathlib.Algebra.Order.Field.Basic
import Mathlib.Tactic.Linarith
import Mathlib.Tactic.Ring
import Mathlib.Tactic.NormNum
import Verif.Spec.SimpleAstar

/-!
# Lemmas for the grid A* planner
-/
namespace Verif.SimpleAstar
open Verif

section walks
variable {S K : Type}

theorem Walk.snoc {next : S → List S} {u m n : S} {p : List S} (h : Walk next u p m) (hn : n ∈ next m) :
    Walk next u (p ++ [n]) n := by
  induction h with
  | here u => exact .cons hn (.here n)
  | cons hv _ ih => exact .cons hv (ih hn)

theorem Walk.head {next : S → List S} {u t : S} {p : List S} (h : Walk next u p t) : ∃ q, p = u :: q := by
  cases h with
  | here => exact ⟨_, rfl⟩
  | cons _ _ => exact ⟨_, rfl⟩

theorem Walk.ne_nil {next : S → List S} {u t : S} {p : List S} (h : Walk next u p t) : p ≠ [] := by
  obtain ⟨q, rfl⟩ := h.head; simp

theorem Walk.last_mem {next : S → List S} {u t : S} {p : List S} (h : Walk next u p t) : t ∈ p := by
  induction h with
  | here => simp
  | cons _ _ ih => exact List.mem_cons_of_mem _ ih

variable [Field K]

theorem Walk.length_snoc {next : S → List S} {u m n : S} {p : List S} (d : S → S → K) (h : Walk next u p m) :
    length d (p ++ [n]) = length d p + d m n := by
  induction h with
  | here u => simp [length]
  | cons hv hw ih =>
    obtain ⟨q, rfl⟩ := hw.head
    simp only [List.cons_append, length] at ih ⊢
    rw [ih, add_assoc]

end walks

variable {S K : Type} [DecidableEq S] [Field K] [LinearOrder K]

theorem lookup_cons_eq {α β : Type} [DecidableEq α] (a x : α) (b : β) (l : List (α × β)) :
    ((a, b) :: l).lookup x = if x = a then some b else l.lookup x := by
  rw [List.lookup_cons]
  by_cases h : x = a
  · subst h; simp
  · rw [if_neg h, beq_eq_false_iff_ne.2 h]

/-- What holds of the local variables. `pending u v`: the neighbour `v` of `u` is still to be looked at. -/
structure Inv (P : Problem S K) (start : S) (pending : S → S → Prop) (s : State S K) : Prop where
  nodup : s.explored.Nodup
  costStart : s.cost.lookup start = some 0
  backStart : s.back.lookup start = none
  costBack : ∀ n, (s.cost.lookup n).isSome ↔ n = start ∨ (s.back.lookup n).isSome
  backOk : ∀ n m, s.back.lookup n = some m → n ∈ P.neighbours m ∧
    ∃ c, s.cost.lookup m = some c ∧ s.cost.lookup n = some (c + P.distance m n)
  order1 : ∀ n m, s.back.lookup n = some m → n ∉ s.explored → m ∈ s.explored
  order2 : ∀ pre n post m, s.explored = pre ++ n :: post → s.back.lookup n = some m → m ∈ post
  known : ∀ n ∈ s.explored, (s.cost.lookup n).isSome
  front : ∀ x ∈ s.frontier, (s.cost.lookup x.1).isSome
  waiting : ∀ n c, s.cost.lookup n = some c → n ∉ s.explored → (n, c + P.heuristic n) ∈ s.frontier
  notGoal : ∀ n ∈ s.explored, P.goal n = false
  startFirst : start ∈ s.explored ∨ s.explored = []
  closed : ∀ u ∈ s.explored, ∀ v ∈ P.neighbours u, pending u v ∨
    ((s.cost.lookup v).isSome ∧ (v ∉ s.explored → ∀ cu cv, s.cost.lookup u = some cu →
      s.cost.lookup v = some cv → cv ≤ cu + P.distance u v))

/-- The way to a state that the backpointers give. -/
theorem pathTo {P : Problem S K} {start : S} {pending : S → S → Prop} {s : State S K}
    (inv : Inv P start pending s) : ∀ (k : Nat) (pre post : List S) (n : S) (c : K), post.length ≤ k →
    s.explored = pre ++ post → n ∉ post → s.cost.lookup n = some c →
    (∀ m, s.back.lookup n = some m → m ∈ post) →
    ∃ p, Walk P.neighbours start p n ∧ p.Nodup ∧ (∀ u ∈ p, u = n ∨ u ∈ post) ∧
      length P.distance p = c ∧ (∀ u ∈ p, u = start ∨ (s.back.lookup u).isSome) ∧
      ∀ fuel acc, p.length ≤ fuel → extractPath s.back fuel n acc = some (p ++ acc.reverse)
  | k, pre, post, n, c, hk, hpost, hn, hc, hback => by
    cases hb : s.back.lookup n with
    | none =>
      have hstart : n = start := by
        rcases (inv.costBack n).1 (by rw [hc]; rfl) with h | h
        · exact h
        · rw [hb] at h; cases h
      subst hstart
      rw [inv.costStart] at hc
      injection hc with hc
      refine ⟨[n], .here n, by simp, by simp, by rw [← hc]; rfl, by simp, ?_⟩
      intro fuel acc hf
      cases fuel with
      | zero => simp at hf
      | succ fuel => simp [extractPath, hb]
    | some m =>
      have hm := hback m hb
      obtain ⟨hnm, cm, hcm, hcn⟩ := inv.backOk n m hb
      obtain ⟨a, b, hab⟩ := List.append_of_mem hm
      have hex : s.explored = (pre ++ a) ++ m :: b := by rw [hpost, hab, List.append_assoc]
      have hnod : (m :: b).Nodup := by
        have := inv.nodup
        rw [hex] at this
        exact (List.nodup_append.1 this).2.1
      cases k with
      | zero =>
        rw [hab] at hk
        simp at hk
      | succ k =>
        obtain ⟨p, hw, hp, hsub, hlen, hbk, hextr⟩ := pathTo inv k (pre ++ a ++ [m]) b m cm
          (by rw [hab] at hk; simp at hk; omega)
          (by rw [hex]; simp) (List.nodup_cons.1 hnod).1 hcm
          (fun m' hm' => inv.order2 (pre ++ a) m b m' hex hm')
        have hmem : ∀ u ∈ p, u ∈ post := by
          intro u hu
          rw [hab]
          rcases hsub u hu with rfl | h
          · simp
          · simp [h]
        refine ⟨p ++ [n], hw.snoc hnm, ?_, ?_, ?_, ?_, ?_⟩
        · rw [List.nodup_append]
          refine ⟨hp, by simp, ?_⟩
          intro x hx y hy
          rw [List.mem_singleton.1 hy]
          intro hxn
          exact hn (hxn ▸ hmem x hx)
        · intro u hu
          rcases List.mem_append.1 hu with h | h
          · exact Or.inr (hmem u h)
          · exact Or.inl (List.mem_singleton.1 h)
        · rw [hw.length_snoc, hlen]
          rw [hcn] at hc
          injection hc
        · intro u hu
          rcases List.mem_append.1 hu with h | h
          · exact hbk u h
          · rw [List.mem_singleton.1 h, hb]; exact Or.inr rfl
        · intro fuel acc hf
          cases fuel with
          | zero => simp at hf
          | succ fuel =>
            rw [extractPath, hb]
            simp only
            rw [hextr fuel (acc ++ [n]) (by simp at hf; omega)]
            simp

/-- The way to a state that has not been explored. -/
theorem pathOpen {P : Problem S K} {start : S} {pending : S → S → Prop} {s : State S K}
    (inv : Inv P start pending s) {n : S} {c : K} (hn : n ∉ s.explored) (hc : s.cost.lookup n = some c) :
    ∃ p, Walk P.neighbours start p n ∧ p.Nodup ∧ length P.distance p = c ∧
      extractPath s.back (s.back.length + 1) n [] = some p := by
  obtain ⟨p, hw, hp, _, hlen, hb, hextr⟩ := pathTo inv s.explored.length [] s.explored n c (Nat.le_refl _)
    rfl hn hc (fun m hm => inv.order1 n m hm hn)
  refine ⟨p, hw, hp, hlen, ?_⟩
  have hsub : p ⊆ start :: s.back.map Prod.fst := by
    intro u hu
    rcases hb u hu with rfl | h
    · simp
    · obtain ⟨m, hm⟩ := Option.isSome_iff_exists.1 h
      refine List.mem_cons_of_mem _ (List.mem_map.2 ?_)
      obtain ⟨l1, l2, hl, _⟩ := List.lookup_eq_some_iff.1 hm
      exact ⟨(u, m), by rw [hl]; simp, rfl⟩
  have := List.Nodup.length_le_of_subset hp hsub
  rw [hextr _ [] (by simpa using this)]
  simp

/-- The way to an explored state. -/
theorem pathExplored {P : Problem S K} {start : S} {pending : S → S → Prop} {s : State S K}
    (inv : Inv P start pending s) {n : S} (hn : n ∈ s.explored) :
    ∃ p c, s.cost.lookup n = some c ∧ Walk P.neighbours start p n ∧ p.Nodup ∧ length P.distance p = c ∧
      ∀ u ∈ p, u ∈ s.explored := by
  obtain ⟨c, hc⟩ := Option.isSome_iff_exists.1 (inv.known n hn)
  obtain ⟨pre, post, hpp⟩ := List.append_of_mem hn
  have hnod := inv.nodup
  rw [hpp] at hnod
  obtain ⟨p, hw, hp, hsub, hlen, _, _⟩ := pathTo inv post.length (pre ++ [n]) post n c (Nat.le_refl _)
    (by rw [hpp]; simp) (List.nodup_cons.1 (List.nodup_append.1 hnod).2.1).1 hc
    (fun m hm => inv.order2 pre n post m hpp hm)
  refine ⟨p, c, hc, hw, hp, hlen, ?_⟩
  intro u hu
  rw [hpp]
  rcases hsub u hu with rfl | h
  · simp
  · simp [h]

theorem inv_init (P : Problem S K) (start : S) :
    Inv P start (fun _ _ => False) ⟨[(start, P.heuristic start)], [], [(start, 0)], []⟩ where
  nodup := List.nodup_nil
  costStart := by simp [List.lookup]
  backStart := rfl
  costBack n := by
    rw [lookup_cons_eq]
    by_cases h : n = start <;> simp [h]
  backOk n m h := by simp at h
  order1 n m h := by simp at h
  order2 pre n post m h := by simp at h
  known n h := by simp at h
  front x h := by
    rw [List.mem_singleton.1 h]
    simp [List.lookup]
  waiting n c h _ := by
    rw [lookup_cons_eq] at h
    by_cases hn : n = start
    · rw [if_pos hn] at h
      injection h with h
      rw [hn, ← h]
      simp
    · rw [if_neg hn] at h
      cases h
  notGoal n h := by simp at h
  startFirst := Or.inr rfl
  closed u h := by simp at h

/-- Leaving out neighbours that need not be looked at any more. -/
theorem Inv.weaken {P : Problem S K} {start : S} {p q : S → S → Prop} {s : State S K}
    (inv : Inv P start p s) (h : ∀ u ∈ s.explored, ∀ v ∈ P.neighbours u, p u v → q u v ∨
      ((s.cost.lookup v).isSome ∧ (v ∉ s.explored → ∀ cu cv, s.cost.lookup u = some cu →
        s.cost.lookup v = some cv → cv ≤ cu + P.distance u v))) : Inv P start q s :=
  { inv with
    closed := fun u hu v hv => by
      rcases inv.closed u hu v hv with hp | hok
      · exact h u hu v hv hp
      · exact Or.inr hok }

/-- One neighbour gets a new cost. -/
theorem Inv.push {P : Problem S K} {start : S} {s : State S K} {current n : S} {ns : List S} {c : K}
    (inv : Inv P start (fun u v => u = current ∧ v ∈ n :: ns) s) (hcur : current ∈ s.explored)
    (hc : s.cost.lookup current = some c) (hstart : start ∈ s.explored) (hn : n ∉ s.explored)
    (hmem : n ∈ P.neighbours current)
    (hnew : ∀ c', s.cost.lookup n = some c' → c + P.distance current n ≤ c') :
    Inv P start (fun u v => u = current ∧ v ∈ ns)
      { s with
        frontier := s.frontier ++ [(n, c + P.distance current n + P.heuristic n)]
        cost := (n, c + P.distance current n) :: s.cost
        back := (n, current) :: s.back } where
  nodup := inv.nodup
  costStart := by
    dsimp only
    rw [lookup_cons_eq, if_neg (by rintro rfl; exact hn hstart), inv.costStart]
  backStart := by
    dsimp only
    rw [lookup_cons_eq, if_neg (by rintro rfl; exact hn hstart), inv.backStart]
  costBack m := by
    dsimp only
    rw [lookup_cons_eq, lookup_cons_eq]
    by_cases h : m = n
    · simp [h]
    · rw [if_neg h, if_neg h, inv.costBack m]
  backOk m m' h := by
    dsimp only at h ⊢
    rw [lookup_cons_eq] at h
    have hcurn : current ≠ n := by rintro rfl; exact hn hcur
    by_cases hm : m = n
    · rw [if_pos hm] at h
      injection h with h
      subst h; subst hm
      refine ⟨hmem, c, ?_, ?_⟩
      · rw [lookup_cons_eq, if_neg hcurn, hc]
      · rw [lookup_cons_eq, if_pos rfl]
    · rw [if_neg hm] at h
      obtain ⟨h1, c', h2, h3⟩ := inv.backOk m m' h
      have hm' : m' ≠ n := by
        rintro rfl
        by_cases hme : m ∈ s.explored
        · obtain ⟨pre, post, hpp⟩ := List.append_of_mem hme
          have := inv.order2 pre m post m' hpp h
          exact hn (by rw [hpp]; simp [this])
        · exact hn (inv.order1 m m' h hme)
      refine ⟨h1, c', ?_, ?_⟩
      · rw [lookup_cons_eq, if_neg hm', h2]
      · rw [lookup_cons_eq, if_neg hm, h3]
  order1 m m' h hm := by
    dsimp only at h hm ⊢
    rw [lookup_cons_eq] at h
    by_cases hmn : m = n
    · rw [if_pos hmn] at h
      injection h with h
      exact h ▸ hcur
    · rw [if_neg hmn] at h
      exact inv.order1 m m' h hm
  order2 pre m post m' he h := by
    dsimp only at he h ⊢
    rw [lookup_cons_eq] at h
    have hmn : m ≠ n := by
      rintro rfl
      exact hn (by rw [he]; simp)
    rw [if_neg hmn] at h
    exact inv.order2 pre m post m' he h
  known m hm := by
    dsimp only at hm ⊢
    rw [lookup_cons_eq]
    by_cases h : m = n
    · simp [h]
    · rw [if_neg h]; exact inv.known m hm
  front x hx := by
    dsimp only at hx ⊢
    rw [lookup_cons_eq]
    by_cases h : x.1 = n
    · simp [h]
    · rw [if_neg h]
      rcases List.mem_append.1 hx with h' | h'
      · exact inv.front x h'
      · rw [List.mem_singleton.1 h'] at h
        exact absurd rfl h
  waiting m c' h hm := by
    dsimp only at h hm ⊢
    rw [lookup_cons_eq] at h
    by_cases hmn : m = n
    · rw [if_pos hmn] at h
      injection h with h
      rw [hmn, ← h]
      simp
    · rw [if_neg hmn] at h
      exact List.mem_append_left _ (inv.waiting m c' h hm)
  notGoal := inv.notGoal
  startFirst := inv.startFirst
  closed u hu v hv := by
    dsimp only at hu ⊢
    have hun : u ≠ n := by rintro rfl; exact hn hu
    by_cases hvn : v = n
    · right
      refine ⟨by rw [lookup_cons_eq, if_pos hvn]; rfl, ?_⟩
      intro _ cu cv hcu hcv
      rw [lookup_cons_eq, if_neg hun] at hcu
      rw [lookup_cons_eq, if_pos hvn] at hcv
      injection hcv with hcv
      subst hvn
      rcases inv.closed u hu v hv with hp | hok
      · rw [hp.1] at hcu ⊢
        rw [hc] at hcu
        injection hcu with hcu
        rw [← hcv, hcu]
      · obtain ⟨c', hc'⟩ := Option.isSome_iff_exists.1 hok.1
        rw [← hcv]
        exact le_trans (hnew c' hc') (hok.2 hn cu c' hcu hc')
    · rcases inv.closed u hu v hv with hp | hok
      · left
        refine ⟨hp.1, ?_⟩
        rcases List.mem_cons.1 hp.2 with h | h
        · exact absurd h hvn
        · exact h
      · right
        rw [lookup_cons_eq, if_neg hvn]
        refine ⟨hok.1, ?_⟩
        intro hv' cu cv hcu hcv
        rw [lookup_cons_eq, if_neg hun] at hcu
        exact hok.2 hv' cu cv hcu hcv

/-- The loop over the neighbours: no assertion fails; nothing that was explored changes. `Q` is a further
property that adding an entry keeps. -/
theorem expand_spec {P : Problem S K} {start current : S} {c : K} {Q : State S K → Prop}
    (hQ : ∀ s n ns, Inv P start (fun u v => u = current ∧ v ∈ n :: ns) s → current ∈ s.explored →
      s.cost.lookup current = some c → n ∉ s.explored → n ∈ P.neighbours current →
      (∀ c', s.cost.lookup n = some c' → c + P.distance current n < c') → Q s →
      Inv P start (fun u v => u = current ∧ v ∈ ns)
      { s with
        frontier := s.frontier ++ [(n, c + P.distance current n + P.heuristic n)]
        cost := (n, c + P.distance current n) :: s.cost
        back := (n, current) :: s.back } → Q
      { s with
        frontier := s.frontier ++ [(n, c + P.distance current n + P.heuristic n)]
        cost := (n, c + P.distance current n) :: s.cost
        back := (n, current) :: s.back }) :
    ∀ (ns : List S) (s : State S K), Inv P start (fun u v => u = current ∧ v ∈ ns) s →
      current ∈ s.explored → s.cost.lookup current = some c → start ∈ s.explored →
      (∀ n ∈ ns, n ∈ P.neighbours current) → Q s →
      ∃ s', expand P current c ns s = .ok s' ∧ Inv P start (fun _ _ => False) s' ∧ Q s' ∧
        s'.explored = s.explored ∧ s'.frontier.length ≤ s.frontier.length + ns.length
  | [], s, inv, _, _, _, _, hq => ⟨s, rfl, inv.weaken (fun u _ v _ h => by simp at h), hq, rfl, by simp⟩
  | n :: ns, s, inv, hcur, hc, hstart, hsub, hq => by
    rw [expand]
    have hsub' : ∀ m ∈ ns, m ∈ P.neighbours current := fun m hm => hsub m (List.mem_cons_of_mem _ hm)
    by_cases hn : n ∈ s.explored
    · rw [if_pos hn]
      obtain ⟨s', h1, h2, h3, h4, h5⟩ := expand_spec hQ ns s (inv.weaken (by
        intro u hu v hv hp
        rcases List.mem_cons.1 hp.2 with h | h
        · right
          rw [h]
          exact ⟨inv.known n hn, fun h' => absurd hn h'⟩
        · exact Or.inl ⟨hp.1, h⟩)) hcur hc hstart hsub' hq
      exact ⟨s', h1, h2, h3, h4, by simp; omega⟩
    · rw [if_neg hn]
      have hns : n ≠ start := by rintro rfl; exact hn hstart
      have hiff := inv.costBack n
      have ha1 : (s.cost.lookup n).isNone → (s.back.lookup n).isNone := by
        intro h
        rw [Option.isNone_iff_eq_none] at h ⊢
        cases hb : s.back.lookup n with
        | none => rfl
        | some m => rw [h, hb] at hiff; simp at hiff
      have ha2 : (s.back.lookup n).isNone → (s.cost.lookup n).isNone := by
        intro h
        rw [Option.isNone_iff_eq_none] at h ⊢
        cases hb : s.cost.lookup n with
        | none => rfl
        | some m => rw [h, hb] at hiff; simp [hns] at hiff
      rw [Out.assert_true ha1, Out.bind_ok, Out.assert_true ha2, Out.bind_ok]
      dsimp only
      by_cases hcond : noBetter (s.cost.lookup n) (c + P.distance current n) = true
      · rw [if_pos hcond]
        have hinv : Inv P start (fun u v => u = current ∧ v ∈ ns) s := inv.weaken (by
          intro u hu v hv hp
          rcases List.mem_cons.1 hp.2 with h | h
          · right
            cases hl : s.cost.lookup n with
            | none => rw [hl] at hcond; simp [noBetter] at hcond
            | some c' =>
              rw [hl] at hcond
              simp only [noBetter, decide_eq_true_eq] at hcond
              rw [h, hp.1, hl]
              refine ⟨rfl, ?_⟩
              intro _ cu cv hcu hcv
              rw [hc] at hcu
              injection hcu with hcu
              injection hcv with hcv
              rw [← hcu, ← hcv]
              exact hcond
          · exact Or.inl ⟨hp.1, h⟩)
        obtain ⟨s', h1, h2, h3, h4, h5⟩ := expand_spec hQ ns s hinv hcur hc hstart hsub' hq
        exact ⟨s', h1, h2, h3, h4, by simp; omega⟩
      · rw [if_neg hcond]
        have hless : ∀ c', s.cost.lookup n = some c' → c + P.distance current n < c' := by
          intro c' hc'
          rw [hc'] at hcond
          simpa [noBetter] using hcond
        have hmem := hsub n (by simp)
        have hinv := inv.push hcur hc hstart hn hmem (fun c' hc' => le_of_lt (hless c' hc'))
        have hcn : current ≠ n := by rintro rfl; exact hn hcur
        obtain ⟨s', h1, h2, h3, h4, h5⟩ := expand_spec hQ ns _ hinv hcur
          (by dsimp only; rw [lookup_cons_eq, if_neg hcn, hc]) hstart hsub'
          (hQ s n ns inv hcur hc hn hmem hless hq hinv)
        refine ⟨s', h1, h2, h3, h4, ?_⟩
        simp only [List.length_append, List.length_cons, List.length_nil] at h5 ⊢
        omega

theorem mem_erase_of_ne {α : Type} {l : List α} {i : Nat} {x y : α} (hi : l[i]? = some x) (hy : y ∈ l)
    (hne : y ≠ x) : y ∈ l.eraseIdx i := by
  obtain ⟨j, hj⟩ := List.mem_iff_getElem?.1 hy
  refine List.mem_eraseIdx_iff_getElem?.2 ⟨j, ?_, hj⟩
  rintro rfl
  rw [hi] at hj
  injection hj with hj
  exact hne hj.symm

/-- Taking an entry out of the queue whose state is explored. -/
theorem Inv.drop {P : Problem S K} {start : S} {s : State S K} {i : Nat} {x : S × K}
    (inv : Inv P start (fun _ _ => False) s) (hi : s.frontier[i]? = some x) (hx : x.1 ∈ s.explored) :
    Inv P start (fun _ _ => False) { s with frontier := s.frontier.eraseIdx i } :=
  { inv with
    front := fun y hy => inv.front y (List.mem_of_mem_eraseIdx hy)
    waiting := fun n c hc hn => mem_erase_of_ne hi (inv.waiting n c hc hn) (by rintro rfl; exact hn hx) }

/-- Taking an entry out of the queue and marking its state as explored. -/
theorem Inv.mark {P : Problem S K} {start : S} {s : State S K} {i : Nat} {x : S × K}
    (inv : Inv P start (fun _ _ => False) s) (hi : s.frontier[i]? = some x) (hx : x.1 ∉ s.explored)
    (hgoal : P.goal x.1 = false) :
    Inv P start (fun u v => u = x.1 ∧ v ∈ P.neighbours x.1)
      { s with frontier := s.frontier.eraseIdx i, explored := x.1 :: s.explored } ∧
    start ∈ x.1 :: s.explored := by
  have hstart : start ∈ x.1 :: s.explored := by
    rcases inv.startFirst with h | h
    · exact List.mem_cons_of_mem _ h
    · rcases (inv.costBack x.1).1 (inv.front x (List.mem_of_getElem? hi)) with h' | h'
      · rw [h']; simp
      · obtain ⟨m, hm⟩ := Option.isSome_iff_exists.1 h'
        have := inv.order1 _ _ hm hx
        rw [h] at this
        cases this
  refine ⟨{ inv with
    nodup := List.nodup_cons.2 ⟨hx, inv.nodup⟩
    front := fun y hy => inv.front y (List.mem_of_mem_eraseIdx hy)
    waiting := fun n c hc hn => mem_erase_of_ne hi
      (inv.waiting n c hc (fun h => hn (List.mem_cons_of_mem _ h))) (by rintro rfl; exact hn (by simp))
    order1 := fun n m hb hn =>
      List.mem_cons_of_mem _ (inv.order1 n m hb (fun h => hn (List.mem_cons_of_mem _ h)))
    order2 := ?_
    known := ?_
    notGoal := ?_
    startFirst := Or.inl hstart
    closed := ?_ }, hstart⟩
  · intro pre n post m he hb
    cases pre with
    | nil =>
      simp only [List.nil_append, List.cons.injEq] at he
      rw [← he.2]
      exact inv.order1 n m hb (he.1 ▸ hx)
    | cons a pre =>
      simp only [List.cons_append, List.cons.injEq] at he
      exact inv.order2 pre n post m he.2 hb
  · intro n hn
    rcases List.mem_cons.1 hn with rfl | h
    · exact inv.front x (List.mem_of_getElem? hi)
    · exact inv.known n h
  · intro n hn
    rcases List.mem_cons.1 hn with rfl | h
    · exact hgoal
    · exact inv.notGoal n h
  · intro u hu v hv
    by_cases hux : u = x.1
    · exact Or.inl ⟨hux, hux ▸ hv⟩
    · right
      rcases List.mem_cons.1 hu with h | h
      · exact absurd h hux
      · rcases inv.closed u h v hv with h' | h'
        · exact h'.elim
        · exact ⟨h'.1, fun hn => h'.2 (fun hm => hn (List.mem_cons_of_mem _ hm))⟩

/-- Exploring a state. -/
theorem explore_spec {P : Problem S K} {start : S} {s : State S K} {i : Nat} {x : S × K} {Q : State S K → Prop}
    (inv : Inv P start (fun _ _ => False) s) (hi : s.frontier[i]? = some x) (hx : x.1 ∉ s.explored)
    (hgoal : P.goal x.1 = false)
    (hmark : Q { s with frontier := s.frontier.eraseIdx i, explored := x.1 :: s.explored })
    (hQ : ∀ c s n ns, Inv P start (fun u v => u = x.1 ∧ v ∈ n :: ns) s → x.1 ∈ s.explored →
      s.cost.lookup x.1 = some c → n ∉ s.explored → n ∈ P.neighbours x.1 →
      (∀ c', s.cost.lookup n = some c' → c + P.distance x.1 n < c') → Q s →
      Inv P start (fun u v => u = x.1 ∧ v ∈ ns)
      { s with
        frontier := s.frontier ++ [(n, c + P.distance x.1 n + P.heuristic n)]
        cost := (n, c + P.distance x.1 n) :: s.cost
        back := (n, x.1) :: s.back } → Q
      { s with
        frontier := s.frontier ++ [(n, c + P.distance x.1 n + P.heuristic n)]
        cost := (n, c + P.distance x.1 n) :: s.cost
        back := (n, x.1) :: s.back }) :
    ∃ s', explore P x.1 { s with frontier := s.frontier.eraseIdx i } = .ok s' ∧
      Inv P start (fun _ _ => False) s' ∧ Q s' ∧ s'.explored = x.1 :: s.explored ∧
      s'.frontier.length + 1 ≤ s.frontier.length + (P.neighbours x.1).length := by
  obtain ⟨hinv, hstart⟩ := inv.mark hi hx hgoal
  obtain ⟨c, hc⟩ := Option.isSome_iff_exists.1 (inv.front x (List.mem_of_getElem? hi))
  obtain ⟨s', h1, h2, h3, h4, h5⟩ := expand_spec (hQ c) (P.neighbours x.1) _ hinv (by simp) hc hstart
    (fun n hn => hn) hmark
  refine ⟨s', ?_, h2, h3, h4, ?_⟩
  · rw [explore]
    dsimp only
    rw [hc]
    exact h1
  · have hlt := (List.getElem?_eq_some_iff.1 hi).1
    simp only [List.length_eraseIdx_of_lt hlt] at h5
    omega

/-- How the main loop ends. -/
theorem loop_spec {P : Problem S K} {start : S} {pick : Nat → List (S × K) → Nat} {Q : State S K → Prop}
    (hdrop : ∀ s i x, Inv P start (fun _ _ => False) s → Q s → s.frontier[i]? = some x →
      x.1 ∈ s.explored → Q { s with frontier := s.frontier.eraseIdx i })
    (hexplore : ∀ k s x, Inv P start (fun _ _ => False) s → Q s →
      s.frontier[pick k s.frontier % s.frontier.length]? = some x → x.1 ∉ s.explored →
      P.goal x.1 = false → ∀ s', explore P x.1
        { s with frontier := s.frontier.eraseIdx (pick k s.frontier % s.frontier.length) } = .ok s' →
      Q s') :
    ∀ (fuel k : Nat) (s : State S K) (r : Out (List S × Nat)), Inv P start (fun _ _ => False) s → Q s →
      loop P pick fuel k s = some r →
      (∃ s', Inv P start (fun _ _ => False) s' ∧ Q s' ∧ s'.frontier = [] ∧
        r = .ok ([], s'.explored.length)) ∨
      (∃ k' s' x p c, Inv P start (fun _ _ => False) s' ∧ Q s' ∧
        s'.frontier[pick k' s'.frontier % s'.frontier.length]? = some x ∧ P.goal x.1 = true ∧
        s'.cost.lookup x.1 = some c ∧ Walk P.neighbours start p x.1 ∧ p.Nodup ∧ length P.distance p = c ∧
        r = .ok (p, s'.explored.length))
  | fuel, k, s, r, inv, hq, h => by
    rw [loop] at h
    cases hx : s.frontier[pick k s.frontier % s.frontier.length]? with
    | none =>
      rw [hx] at h
      simp only [Option.some.injEq] at h
      refine Or.inl ⟨s, inv, hq, ?_, h.symm⟩
      by_contra hne
      have := Nat.mod_lt (pick k s.frontier) (List.length_pos_iff.2 hne)
      rw [List.getElem?_eq_getElem this] at hx
      cases hx
    | some x =>
      rw [hx] at h
      cases fuel with
      | zero => simp at h
      | succ fuel =>
        dsimp only at h
        by_cases hg : P.goal x.1 = true
        · rw [if_pos hg] at h
          have hxe : x.1 ∉ s.explored := by
            intro hm
            rw [inv.notGoal _ hm] at hg
            cases hg
          obtain ⟨c, hc⟩ := Option.isSome_iff_exists.1 (inv.front x (List.mem_of_getElem? hx))
          obtain ⟨p, hw, hp, hlen, hext⟩ := pathOpen inv hxe hc
          rw [hext] at h
          simp only [Option.map_some, Option.some.injEq] at h
          exact Or.inr ⟨k, s, x, p, c, inv, hq, hx, hg, hc, hw, hp, hlen, h.symm⟩
        · rw [if_neg hg] at h
          by_cases hxe : x.1 ∈ s.explored
          · rw [if_pos hxe] at h
            exact loop_spec hdrop hexplore fuel (k + 1) _ r (inv.drop hx hxe) (hdrop s _ x inv hq hx hxe) h
          · rw [if_neg hxe] at h
            have hg' : P.goal x.1 = false := by simpa using hg
            obtain ⟨s', h1, h2, _⟩ := explore_spec (Q := fun _ => True) inv hx hxe hg' trivial
              (fun _ _ _ _ _ _ _ _ _ _ _ _ => trivial)
            rw [h1] at h
            exact loop_spec hdrop hexplore fuel (k + 1) s' r h2
              (hexplore k s x inv hq hx hxe hg' s' h1) h

/-- The number of neighbours of the states of a list that are not explored. -/
def openDegree (next : S → List S) (explored L : List S) : Nat :=
  ((L.filter (fun u => decide (u ∉ explored))).map (fun u => (next u).length)).sum

theorem openDegree_mark (next : S → List S) {explored : List S} {x : S} (hx : x ∉ explored) :
    ∀ {L : List S}, L.Nodup → x ∈ L →
    openDegree next (x :: explored) L + (next x).length = openDegree next explored L
  | a :: L, hn, hmem => by
    have hn' := List.nodup_cons.1 hn
    by_cases hax : a = x
    · subst hax
      have hsame : L.filter (fun u => decide (u ∉ a :: explored)) = L.filter (fun u => decide (u ∉ explored)) := by
        apply List.filter_congr
        intro u hu
        have : u ≠ a := by rintro rfl; exact hn'.1 hu
        simp [this]
      rw [openDegree, openDegree, List.filter_cons, List.filter_cons, hsame, if_neg (by simp), if_pos (by simpa using hx)]
      simp [Nat.add_comm]
    · have hmem' : x ∈ L := by
        rcases List.mem_cons.1 hmem with h | h
        · exact absurd h.symm hax
        · exact h
      have ih := openDegree_mark next hx hn'.2 hmem'
      rw [openDegree, openDegree] at ih ⊢
      rw [List.filter_cons, List.filter_cons]
      by_cases hae : a ∈ explored
      · rw [if_neg (by simp [hae]), if_neg (by simp [hae])]
        exact ih
      · rw [if_pos (by simp [hae, hax]), if_pos (by simp [hae])]
        simp only [List.map_cons, List.sum_cons]
        omega

/-- The main loop ends. -/
theorem loop_ends {P : Problem S K} {start : S} {pick : Nat → List (S × K) → Nat} {L : List S}
    (hL : L.Nodup) (hreach : ∀ u, Reachable P.neighbours start u → u ∈ L) :
    ∀ (fuel k : Nat) (s : State S K), Inv P start (fun _ _ => False) s →
      s.frontier.length + openDegree P.neighbours s.explored L ≤ fuel →
      (loop P pick fuel k s).isSome
  | fuel, k, s, inv, hf => by
    rw [loop]
    cases hx : s.frontier[pick k s.frontier % s.frontier.length]? with
    | none => rfl
    | some x =>
      have hlt := (List.getElem?_eq_some_iff.1 hx).1
      cases fuel with
      | zero => omega
      | succ fuel =>
        dsimp only
        by_cases hg : P.goal x.1 = true
        · rw [if_pos hg]
          have hxe : x.1 ∉ s.explored := by
            intro hm
            rw [inv.notGoal _ hm] at hg
            cases hg
          obtain ⟨c, hc⟩ := Option.isSome_iff_exists.1 (inv.front x (List.mem_of_getElem? hx))
          obtain ⟨p, _, _, _, hext⟩ := pathOpen inv hxe hc
          rw [hext]
          rfl
        · rw [if_neg hg]
          by_cases hxe : x.1 ∈ s.explored
          · rw [if_pos hxe]
            refine loop_ends hL hreach fuel (k + 1) _ (inv.drop hx hxe) ?_
            simp only [List.length_eraseIdx_of_lt hlt]
            omega
          · rw [if_neg hxe]
            have hg' : P.goal x.1 = false := by simpa using hg
            obtain ⟨s', h1, h2, _, h4, h5⟩ := explore_spec (Q := fun _ => True) inv hx hxe hg' trivial
              (fun _ _ _ _ _ _ _ _ _ _ _ _ => trivial)
            rw [h1]
            refine loop_ends hL hreach fuel (k + 1) s' h2 ?_
            obtain ⟨c, hc⟩ := Option.isSome_iff_exists.1 (inv.front x (List.mem_of_getElem? hx))
            obtain ⟨p, hw, _⟩ := pathOpen inv hxe hc
            have := openDegree_mark P.neighbours hxe hL (hreach x.1 ⟨p, hw⟩)
            rw [h4]
            omega

/-- At the end all states that can be reached are explored. -/
theorem reachable_explored {P : Problem S K} {start : S} {s : State S K}
    (inv : Inv P start (fun _ _ => False) s) (hf : s.frontier = []) {u t : S} {p : List S}
    (hw : Walk P.neighbours u p t) : (s.cost.lookup u).isSome → t ∈ s.explored := by
  have hall : ∀ n, (s.cost.lookup n).isSome → n ∈ s.explored := by
    intro n hn
    by_contra hne
    obtain ⟨c, hc⟩ := Option.isSome_iff_exists.1 hn
    have := inv.waiting n c hc hne
    rw [hf] at this
    cases this
  induction hw with
  | here u => exact hall u
  | cons hv _ ih =>
    intro hu
    apply ih
    rcases inv.closed _ (hall _ hu) _ hv with h | h
    · exact h.elim
    · exact h.1

end Verif.SimpleAstar
