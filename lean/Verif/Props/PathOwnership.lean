import Verif.Spec.PathOwnership
/-!
# C146: paths own their segments
-/
namespace Verif.PathOwnership
open Verif

variable {S : Type}

/-- Each path has pointers of its own to segments that are there, and nothing else is on the heap. -/
structure Owned (m : Memory S) (v : Nat → Option (List S)) : Prop where
  exists_iff : ∀ p, m.paths p = none ↔ v p = none
  values : ∀ p l, m.paths p = some l → ∃ s, v p = some s ∧ l.map m.heap = s.map some
  nodup : ∀ p l, m.paths p = some l → l.Nodup
  apart : ∀ p q l k a, m.paths p = some l → m.paths q = some k → a ∈ l → a ∈ k → p = q
  owner : ∀ a, m.heap a ≠ none → ∃ p l, m.paths p = some l ∧ a ∈ l
  bound : ∀ a, m.next ≤ a → m.heap a = none

theorem load_eq (m : Memory S) : ∀ (l : List Nat) (s : List S), l.map m.heap = s.map some → m.load l = .ok s
  | [], [], _ => rfl
  | [], _ :: _, h => by simp at h
  | _ :: _, [], h => by simp at h
  | a :: l, x :: s, h => by
    simp only [List.map_cons, List.cons.injEq] at h
    simp only [Memory.load, h.1, load_eq m l s h.2, Out.bind_ok]

theorem free_eq : ∀ (l : List Nat) (m : Memory S), l.Nodup → (∀ a ∈ l, m.heap a ≠ none) →
    m.free l = .ok { m with heap := fun a => if a ∈ l then none else m.heap a }
  | [], m, _, _ => by simp [Memory.free]
  | a :: l, m, hn, hl => by
    obtain ⟨s, hs⟩ := Option.ne_none_iff_exists'.mp (hl a List.mem_cons_self)
    rw [List.nodup_cons] at hn
    simp only [Memory.free, hs]
    rw [free_eq l _ hn.2]
    · congr 1
      simp only [Memory.mk.injEq, and_true]
      funext b
      by_cases hb : b = a
      · subst hb; simp
      · simp [hb]
    · intro b hb
      have hne : b ≠ a := fun h => hn.1 (h ▸ hb)
      simpa [hne] using hl b (List.mem_cons_of_mem _ hb)

theorem free_dead (m : Memory S) : ∀ l : List Nat, (∃ a ∈ l, m.heap a = none) → m.free l = .ub
  | [], h => by simp at h
  | a :: l, h => by
    cases hs : m.heap a with
    | none => simp [Memory.free, hs]
    | some s =>
      simp only [Memory.free, hs]
      apply free_dead
      obtain ⟨b, hb, hbn⟩ := h
      rcases List.mem_cons.mp hb with rfl | hb
      · rw [hs] at hbn; cases hbn
      · refine ⟨b, hb, ?_⟩
        simp only
        split
        · rfl
        · exact hbn
termination_by l => l.length

theorem load_dead (m : Memory S) : ∀ l : List Nat, (∃ a ∈ l, m.heap a = none) → m.load l = .ub
  | [], h => by simp at h
  | a :: l, h => by
    cases hs : m.heap a with
    | none => simp [Memory.load, hs]
    | some s =>
      obtain ⟨b, hb, hbn⟩ := h
      rcases List.mem_cons.mp hb with rfl | hb
      · rw [hs] at hbn; cases hbn
      · simp [Memory.load, hs, load_dead m l ⟨b, hb, hbn⟩]

theorem allocate_eq : ∀ (segments : List S) (m : Memory S),
    (m.allocate segments).2 = List.range' m.next segments.length ∧
    (m.allocate segments).1 = ⟨fun a => if m.next ≤ a ∧ a < m.next + segments.length then segments[a - m.next]? else m.heap a,
      m.next + segments.length, m.paths⟩
  | [], m => by
    refine ⟨rfl, ?_⟩
    show m = _
    cases m with
    | mk h n p =>
      simp only [List.length_nil, Nat.add_zero, Memory.mk.injEq, and_true]
      funext a
      rw [if_neg (by omega)]
  | s :: rest, m => by
    obtain ⟨h1, h2⟩ := allocate_eq rest
      { m with heap := fun a => if a = m.next then some s else m.heap a, next := m.next + 1 }
    constructor
    · simp only [Memory.allocate, h1, List.length_cons, List.range'_succ]
    · simp only [Memory.allocate, h2, List.length_cons, Memory.mk.injEq, and_true]
      refine ⟨?_, by omega⟩
      funext a
      by_cases ha : a = m.next
      · subst ha
        rw [if_neg (by omega), if_pos rfl, if_pos (by omega)]
        simp
      · by_cases hb : m.next + 1 ≤ a ∧ a < m.next + 1 + rest.length
        · rw [if_pos hb, if_pos (by omega)]
          have : a - m.next = (a - (m.next + 1)) + 1 := by omega
          rw [this, List.getElem?_cons_succ]
        · rw [if_neg hb, if_neg ha, if_neg (by omega)]

/-- A path made of new segments -/
theorem owned_new {m : Memory S} {v : Nat → Option (List S)} (h : Owned m v) (p : Nat) (hp : m.paths p = none)
    (segments : List S) :
    Owned ((m.allocate segments).1.set p (some (m.allocate segments).2))
      (fun r => if r = p then some segments else v r) := by
  obtain ⟨h1, h2⟩ := allocate_eq segments m
  rw [h1, h2]
  have old : ∀ q l, q ≠ p → m.paths q = some l → ∀ a ∈ l, a < m.next := by
    intro q l _ hq a ha
    rcases Nat.lt_or_ge a m.next with h' | h'
    · exact h'
    · obtain ⟨s, _, hs⟩ := h.values q l hq
      have : m.heap a ∈ l.map m.heap := List.mem_map_of_mem ha
      rw [hs, h.bound a h'] at this
      simp at this
  constructor
  · intro r
    simp only [Memory.set]
    by_cases hr : r = p
    · simp [hr]
    · simpa [hr] using h.exists_iff r
  · intro r l hl
    simp only [Memory.set] at hl ⊢
    by_cases hr : r = p
    · simp only [hr, if_true, Option.some.injEq] at hl ⊢
      refine ⟨segments, rfl, ?_⟩
      subst hl
      apply List.ext_getElem?
      intro i
      simp only [List.getElem?_map]
      rcases Nat.lt_or_ge i segments.length with hi | hi
      · rw [List.getElem?_range' hi, List.getElem?_eq_getElem hi]
        simp only [Option.map_some, Nat.one_mul]
        rw [if_pos (by omega)]
        simp [hi]
      · rw [List.getElem?_eq_none (by simpa using hi), List.getElem?_eq_none hi]
        rfl
    · simp only [hr, if_false] at hl ⊢
      obtain ⟨s, hs1, hs2⟩ := h.values r l hl
      refine ⟨s, hs1, hs2 ▸ List.map_congr_left fun a ha => ?_⟩
      have := old r l hr hl a ha
      rw [if_neg (by omega)]
  · intro r l hl
    simp only [Memory.set] at hl
    by_cases hr : r = p
    · simp only [hr, if_true, Option.some.injEq] at hl
      subst hl
      exact List.nodup_range'
    · simp only [hr, if_false] at hl
      exact h.nodup r l hl
  · intro q r l k a hq hr ha hk
    simp only [Memory.set] at hq hr
    by_cases e1 : q = p <;> by_cases e2 : r = p
    · rw [e1, e2]
    · simp only [e1, if_true, Option.some.injEq, e2, if_false] at hq hr
      have := old r k e2 hr a hk
      rw [← hq, List.mem_range'] at ha
      obtain ⟨i, _, hi⟩ := ha
      omega
    · simp only [e1, if_true, Option.some.injEq, e2, if_false] at hq hr
      have := old q l e1 hq a ha
      rw [← hr, List.mem_range'] at hk
      obtain ⟨i, _, hi⟩ := hk
      omega
    · simp only [e1, e2, if_false] at hq hr
      exact h.apart q r l k a hq hr ha hk
  · intro a ha
    simp only [Memory.set] at ha ⊢
    by_cases hr : m.next ≤ a ∧ a < m.next + segments.length
    · refine ⟨p, _, if_pos rfl, ?_⟩
      rw [List.mem_range']
      exact ⟨a - m.next, by omega, by omega⟩
    · rw [if_neg hr] at ha
      obtain ⟨q, l, hq, hl⟩ := h.owner a ha
      have : q ≠ p := fun e => by rw [e, hp] at hq; cases hq
      exact ⟨q, l, by rw [if_neg this]; exact hq, hl⟩
  · intro a ha
    simp only [Memory.set] at ha ⊢
    rw [if_neg (by omega)]
    exact h.bound a (by omega)

/-- A path is destroyed -/
theorem owned_destroy {m : Memory S} {v : Nat → Option (List S)} (h : Owned m v) (p : Nat) (l : List Nat)
    (hp : m.paths p = some l) :
    m.free l = .ok { m with heap := fun a => if a ∈ l then none else m.heap a } ∧
    Owned (({ m with heap := fun a => if a ∈ l then none else m.heap a } : Memory S).set p none)
      (fun r => if r = p then none else v r) := by
  constructor
  · refine free_eq l m (h.nodup p l hp) fun a ha hn => ?_
    obtain ⟨s, _, hs⟩ := h.values p l hp
    have : m.heap a ∈ l.map m.heap := List.mem_map_of_mem ha
    rw [hs, hn] at this
    simp at this
  · constructor
    · intro r
      simp only [Memory.set]
      by_cases hr : r = p
      · simp [hr]
      · simpa [hr] using h.exists_iff r
    · intro r k hk
      simp only [Memory.set] at hk ⊢
      by_cases hr : r = p
      · simp [hr] at hk
      · simp only [hr, if_false] at hk ⊢
        obtain ⟨s, hs1, hs2⟩ := h.values r k hk
        refine ⟨s, hs1, hs2 ▸ List.map_congr_left fun a ha => ?_⟩
        rw [if_neg fun ha' => hr (h.apart r p k l a hk hp ha ha')]
    · intro r k hk
      simp only [Memory.set] at hk
      by_cases hr : r = p
      · simp [hr] at hk
      · simp only [hr, if_false] at hk
        exact h.nodup r k hk
    · intro q r k k' a hq hr ha hk
      simp only [Memory.set] at hq hr
      by_cases e1 : q = p
      · simp [e1] at hq
      · by_cases e2 : r = p
        · simp [e2] at hr
        · simp only [e1, e2, if_false] at hq hr
          exact h.apart q r k k' a hq hr ha hk
    · intro a ha
      simp only [Memory.set] at ha ⊢
      by_cases hal : a ∈ l
      · simp [hal] at ha
      · simp only [hal, if_false] at ha
        obtain ⟨q, k, hq, hk⟩ := h.owner a ha
        have : q ≠ p := fun e => by
          rw [e, hp] at hq
          cases hq
          exact hal hk
        exact ⟨q, k, by rw [if_neg this]; exact hq, hk⟩
    · intro a ha
      simp only [Memory.set] at ha ⊢
      split
      · rfl
      · exact h.bound a ha

theorem owned_step {m : Memory S} {v v' : Nat → Option (List S)} (h : Owned m v) (op : Op S)
    (hop : ∀ p q, op = .assign p q → p = q) (hm : meaning v op = some v') :
    ∃ m', m.step op = some (.ok m') ∧ Owned m' v' := by
  cases op with
  | make p segments =>
    simp only [meaning] at hm
    by_cases hv : v p = none
    · rw [if_pos hv] at hm
      cases hm
      have hp := (h.exists_iff p).mpr hv
      exact ⟨_, by simp only [Memory.step, hp], owned_new h p hp segments⟩
    · rw [if_neg hv] at hm; cases hm
  | copy p q =>
    simp only [meaning] at hm
    by_cases hv : v p = none ∧ v q ≠ none
    · rw [if_pos hv] at hm
      cases hm
      have hp := (h.exists_iff p).mpr hv.1
      obtain ⟨l, hq⟩ := Option.ne_none_iff_exists'.mp fun e => hv.2 ((h.exists_iff q).mp e)
      obtain ⟨s, hs1, hs2⟩ := h.values q l hq
      refine ⟨(m.allocate s).1.set p (some (m.allocate s).2),
        by simp only [Memory.step, hp, hq, load_eq m l s hs2, Out.bind_ok], ?_⟩
      rw [hs1]
      exact owned_new h p hp s
    · rw [if_neg hv] at hm; cases hm
  | assign p q =>
    obtain rfl := hop p q rfl
    simp only [meaning] at hm
    by_cases hv : v p ≠ none ∧ v p ≠ none
    · rw [if_pos hv] at hm
      cases hm
      obtain ⟨l, hq⟩ := Option.ne_none_iff_exists'.mp fun e => hv.2 ((h.exists_iff p).mp e)
      refine ⟨m, ?_, ?_⟩
      · simp only [Memory.step, hq, Memory.set]
        congr 2
        cases m with
        | mk a b c =>
          simp only [Memory.mk.injEq, true_and]
          funext r
          split
          · rename_i hr; rw [hr]; exact hq.symm
          · rfl
      · have : (fun r => if r = p then v p else v r) = v := by
          funext r
          split
          · rename_i hr; rw [hr]
          · rfl
        rw [this]
        exact h
    · rw [if_neg hv] at hm; cases hm
  | destroy p =>
    simp only [meaning] at hm
    by_cases hv : v p ≠ none
    · rw [if_pos hv] at hm
      cases hm
      obtain ⟨l, hq⟩ := Option.ne_none_iff_exists'.mp fun e => hv ((h.exists_iff p).mp e)
      obtain ⟨h1, h2⟩ := owned_destroy h p l hq
      exact ⟨_, by simp only [Memory.step, hq, h1, Out.bind_ok], h2⟩
    · rw [if_neg hv] at hm; cases hm

theorem owned_run (ops : List (Op S)) : ∀ {m : Memory S} {v v' : Nat → Option (List S)}, Owned m v → NoAssign ops →
    meanings v ops = some v' → ∃ m', m.run ops = some (.ok m') ∧ Owned m' v' := by
  induction ops with
  | nil =>
    intro m v v' h _ hm
    cases hm
    exact ⟨m, rfl, h⟩
  | cons op ops ih =>
    intro m v v' h hn hm
    simp only [meanings] at hm
    cases hw : meaning v op with
    | none => rw [hw] at hm; cases hm
    | some w =>
      rw [hw] at hm
      obtain ⟨m', h1, h2⟩ := owned_step h op (fun p q e => hn p q (e ▸ List.mem_cons_self)) hw
      obtain ⟨m'', h3, h4⟩ := ih h2 (fun p q hpq => hn p q (List.mem_cons_of_mem _ hpq)) hm
      exact ⟨m'', by simp only [Memory.run, h1, h3], h4⟩

theorem owned_empty : Owned (Memory.empty : Memory S) fun _ => none := by
  constructor <;> simp [Memory.empty]

/-- C146: in every program that constructs, copies and destroys paths, and assigns none to another, each path keeps its
segments until it is destroyed, nothing is deleted twice or used after it is deleted, and each segment on the heap belongs to
exactly one path; so when all paths are gone nothing is left. -/
theorem C146_owned (ops : List (Op S)) (hn : NoAssign ops) (v : Nat → Option (List S))
    (hm : meanings (fun _ => none) ops = some v) :
    ∃ m, Memory.empty.run ops = some (.ok m) ∧ (∀ p, m.value p = (v p).map Out.ok) ∧
      (∀ a, m.heap a ≠ none → ∃ p l, m.paths p = some l ∧ a ∈ l ∧ ∀ q k, m.paths q = some k → a ∈ k → q = p) ∧
      ((∀ p, v p = none) → ∀ a, m.heap a = none) := by
  obtain ⟨m, h1, h⟩ := owned_run ops owned_empty hn hm
  refine ⟨m, h1, fun p => ?_, fun a ha => ?_, fun hv a => ?_⟩
  · unfold Memory.value
    cases hp : m.paths p with
    | none => rw [(h.exists_iff p).mp hp]; rfl
    | some l =>
      obtain ⟨s, hs1, hs2⟩ := h.values p l hp
      rw [hs1, Option.map_some, load_eq m l s hs2]
      rfl
  · obtain ⟨p, l, hp, hl⟩ := h.owner a ha
    exact ⟨p, l, hp, hl, fun q k hq hk => h.apart q p k l a hq hp hk hl⟩
  · cases ha : m.heap a with
    | none => rfl
    | some s =>
      obtain ⟨p, l, hp, -⟩ := h.owner a (by rw [ha]; simp)
      rw [(h.exists_iff p).mpr (hv p)] at hp
      cases hp

/-- C146: a path assigned to another has the same value, but the two cannot both be destroyed: after the first is gone the
other must not be used, and destroying it deletes its segments a second time, in either order. The segments the path had
before are on the heap for ever. -/
theorem C146_assign_wrong (ops : List (Op S)) (hn : NoAssign ops) (v : Nat → Option (List S))
    (hm : meanings (fun _ => none) ops = some v) (p q : Nat) (hpq : p ≠ q) (sp sq : List S) (hp : v p = some sp)
    (hq : v q = some sq) (hne : sq ≠ []) :
    (∃ m, Memory.empty.run (ops ++ [.assign p q]) = some (.ok m) ∧ m.value p = some (.ok sq) ∧
      (sp ≠ [] → ∃ a, m.heap a ≠ none ∧ ∀ r l, m.paths r = some l → a ∉ l)) ∧
    Memory.empty.run (ops ++ [.assign p q, .destroy p, .destroy q]) = some .ub ∧
    Memory.empty.run (ops ++ [.assign p q, .destroy q, .destroy p]) = some .ub ∧
    ∃ m, Memory.empty.run (ops ++ [.assign p q, .destroy q]) = some (.ok m) ∧ m.value p = some .ub := by
  obtain ⟨m, h1, h⟩ := owned_run ops owned_empty hn hm
  have hrun : ∀ rest, Memory.empty.run (ops ++ rest) = m.run rest := by
    have key : ∀ (ops : List (Op S)) (m₀ : Memory S), m₀.run ops = some (.ok m) → ∀ rest, m₀.run (ops ++ rest) = m.run rest := by
      intro ops
      induction ops with
      | nil => intro m₀ e rest; cases e; rfl
      | cons op ops ih =>
        intro m₀ e rest
        simp only [Memory.run, List.cons_append] at e ⊢
        split at e
        · cases e
        · rename_i m' hm'
          exact ih m' e rest
        · rename_i out hne hout
          cases e
          exact absurd rfl (hne m)
    exact key ops _ h1
  obtain ⟨lp, hlp⟩ := Option.ne_none_iff_exists'.mp fun e => by
    have := (h.exists_iff p).mp e
    rw [hp] at this
    cases this
  obtain ⟨lq, hlq⟩ := Option.ne_none_iff_exists'.mp fun e => by
    have := (h.exists_iff q).mp e
    rw [hq] at this
    cases this
  obtain ⟨s, hs1, hs2⟩ := h.values q lq hlq
  rw [hq] at hs1
  cases hs1
  obtain ⟨t, ht1, ht2⟩ := h.values p lp hlp
  rw [hp] at ht1
  cases ht1
  have hlive : ∀ (r : Nat) (l : List Nat), m.paths r = some l → ∀ a ∈ l, m.heap a ≠ none := by
    intro r l hr a ha hn
    obtain ⟨s, _, hs⟩ := h.values r l hr
    have : m.heap a ∈ l.map m.heap := List.mem_map_of_mem ha
    rw [hs, hn] at this
    simp at this
  obtain ⟨a, ha⟩ : ∃ a, a ∈ lq := by
    cases lq with
    | nil =>
      cases sq with
      | nil => exact absurd rfl hne
      | cons x y => simp at hs2
    | cons a l => exact ⟨a, List.mem_cons_self⟩
  have hfree := free_eq lq (m.set p (some lq)) (h.nodup q lq hlq) (hlive q lq hlq)
  have hstep : m.step (.assign p q) = some (.ok (m.set p (some lq))) := by simp only [Memory.step, hlp, hlq]
  have hpp : (m.set p (some lq)).paths p = some lq := by simp [Memory.set]
  have hpq' : (m.set p (some lq)).paths q = some lq := by simp [Memory.set, hpq.symm, hlq]
  refine ⟨⟨m.set p (some lq), ?_, ?_, fun hsp => ?_⟩, ?_, ?_, ?_⟩
  · rw [hrun]; simp only [Memory.run, hstep]
  · simp only [Memory.value, hpp, Option.map_some]
    rw [load_eq _ lq sq (by simpa [Memory.set] using hs2)]
  · obtain ⟨b, hb⟩ : ∃ b, b ∈ lp := by
      cases lp with
      | nil =>
        cases sp with
        | nil => exact absurd rfl hsp
        | cons x y => simp at ht2
      | cons b l => exact ⟨b, List.mem_cons_self⟩
    refine ⟨b, hlive p lp hlp b hb, fun r l hr hbl => ?_⟩
    simp only [Memory.set] at hr
    by_cases e : r = p
    · simp only [e, if_true, Option.some.injEq] at hr
      subst hr
      exact hpq (h.apart p q lp lq b hlp hlq hb hbl)
    · simp only [e, if_false] at hr
      exact e (h.apart r p l lp b hr hlp hbl hb)
  · rw [hrun]
    simp only [Memory.run, hstep]
    simp only [Memory.step, hpp, hfree, Out.bind_ok]
    have e : (({ m.set p (some lq) with heap := fun a => if a ∈ lq then none else (m.set p (some lq)).heap a } :
        Memory S).set p none).paths q = some lq := by simp [Memory.set, hpq.symm, hlq]
    simp only [e]
    rw [free_dead _ lq ⟨a, ha, by simp [Memory.set, ha]⟩]
    rfl
  · rw [hrun]
    simp only [Memory.run, hstep]
    simp only [Memory.step, hpq', hfree, Out.bind_ok]
    have e : (({ m.set p (some lq) with heap := fun a => if a ∈ lq then none else (m.set p (some lq)).heap a } :
        Memory S).set q none).paths p = some lq := by simp [Memory.set, hpq]
    simp only [e]
    rw [free_dead _ lq ⟨a, ha, by simp [Memory.set, ha]⟩]
    rfl
  · rw [hrun]
    simp only [Memory.run, hstep]
    simp only [Memory.step, hpq', hfree, Out.bind_ok]
    refine ⟨_, rfl, ?_⟩
    have e : (({ m.set p (some lq) with heap := fun a => if a ∈ lq then none else (m.set p (some lq)).heap a } :
        Memory S).set q none).paths p = some lq := by simp [Memory.set, hpq]
    simp only [Memory.value, e, Option.map_some]
    rw [load_dead _ lq ⟨a, ha, by simp [Memory.set, ha]⟩]

/-- The hypotheses are met: two paths with a segment each. -/
example : ∃ v, meanings (fun _ => none) [Op.make 0 ['a'], .make 1 ['b'], .copy 2 0] = some v ∧ v 0 = some ['a'] ∧
    v 1 = some ['b'] ∧ v 2 = some ['a'] := ⟨_, rfl, rfl, rfl, rfl⟩

example : NoAssign [Op.make 0 ['a'], .make 1 ['b'], .copy 2 0] := by
  intro p q h
  simp at h

end Verif.PathOwnership
