import Verif.Spec.Listener

/-!
# C123: a listener under every schedule
-/
namespace Verif.Listener

variable {μ : Type}

/-- Whether a thread is between taking the mutex and giving it back. -/
def Pc.inside : Pc μ → Bool
  | .cbWrite _ | .cbUnlock | .getRead | .getUnlock _ | .clearWrite | .clearUnlock | .pollRead
  | .pollUnlock _ => true
  | _ => false

theorem latest_append (h : List (Event μ)) (e : Event μ) :
    latest (h ++ [e]) = match e with
      | .delivered _ m => some m
      | .cleared _ => none
      | _ => latest h := by
  unfold latest
  rw [List.foldl_append, List.foldl_cons, List.foldl_nil]
  cases e <;> rfl

/-- The message stored was delivered, and nothing has been cleared since. -/
theorem latest_some : ∀ (n : Nat) (h : List (Event μ)), h.length = n → ∀ m, latest h = some m →
    ∃ (j u : Nat), h[j]? = some (.delivered u m) ∧
      ∀ (i t : Nat), h[i]? = some (.cleared t) → i < j := by
  intro n
  induction n with
  | zero =>
    intro h hn m hm
    rw [List.length_eq_zero_iff.1 hn] at hm
    cases hm
  | succ n ih =>
    intro h hn m hm
    have hne : h ≠ [] := by rintro rfl; cases hn
    obtain ⟨h', e, rfl⟩ : ∃ h' e, h = h' ++ [e] := ⟨_, _, (List.dropLast_concat_getLast hne).symm⟩
    have hlen : h'.length = n := by simpa using hn
    rw [latest_append] at hm
    have keep : latest h' = some m → (∀ t, e ≠ .cleared t) → ∃ (j u : Nat),
        (h' ++ [e])[j]? = some (.delivered u m) ∧
        ∀ (i t : Nat), (h' ++ [e])[i]? = some (.cleared t) → i < j := by
      intro h1 hc
      obtain ⟨j, u, hj, hcl⟩ := ih h' hlen m h1
      have hjl : j < h'.length := by
        rcases Nat.lt_or_ge j h'.length with h | h
        · exact h
        · rw [List.getElem?_eq_none h] at hj; cases hj
      refine ⟨j, u, by rw [List.getElem?_append_left hjl]; exact hj, fun i t hi => ?_⟩
      rcases Nat.lt_or_ge i h'.length with h | h
      · rw [List.getElem?_append_left h] at hi
        exact hcl i t hi
      · rw [List.getElem?_append_right h] at hi
        cases hk : i - h'.length with
        | zero => rw [hk] at hi; simp at hi; exact absurd hi (hc t)
        | succ k => rw [hk] at hi; simp at hi
    cases e with
    | delivered u m' =>
      simp only [Option.some.injEq] at hm
      subst hm
      refine ⟨h'.length, u, by simp, fun i t hi => ?_⟩
      rcases Nat.lt_or_ge i h'.length with h | h
      · exact h
      · rw [List.getElem?_append_right h] at hi
        cases hk : i - h'.length with
        | zero => rw [hk] at hi; simp at hi
        | succ k => rw [hk] at hi; simp at hi
    | cleared t => cases hm
    | began t c => exact keep hm (by simp)
    | ended t c s r => exact keep hm (by simp)
    | shutdown => exact keep hm (by simp)

/-- What holds of a thread in a call. -/
def At (h : List (Event μ)) (t : Nat) (since : Nat) : Call μ → Pc μ → Prop
  | .callback m, .cbLock m' => m' = m
  | .callback m, .cbWrite m' => m' = m
  | .callback m, .cbUnlock => ∃ j, since < j ∧ h[j]? = some (.delivered t m)
  | .get, .getLock => True
  | .get, .getRead => True
  | .get, .getUnlock v => ∃ j, since < j ∧ j ≤ h.length ∧ v = latest (h.take j)
  | .waitForNew, .clearLock => True
  | .waitForNew, .clearWrite => True
  | .waitForNew, .clearUnlock => ∃ i, since < i ∧ h[i]? = some (.cleared t)
  | .waitForNew, .check => ∃ i, since < i ∧ h[i]? = some (.cleared t)
  | .waitForNew, .pollLock => ∃ i, since < i ∧ h[i]? = some (.cleared t)
  | .waitForNew, .pollRead => ∃ i, since < i ∧ h[i]? = some (.cleared t)
  | .waitForNew, .pollUnlock none => ∃ i, since < i ∧ h[i]? = some (.cleared t)
  | .waitForNew, .pollUnlock (some m) => ∃ i j u, since < i ∧ i < j ∧ h[i]? = some (.cleared t) ∧
      h[j]? = some (.delivered u m)
  | _, _ => False

theorem get_append {h : List (Event μ)} {e x : Event μ} {i : Nat} (hi : h[i]? = some x) :
    (h ++ [e])[i]? = some x := by
  have : i < h.length := by
    rcases Nat.lt_or_ge i h.length with h' | h'
    · exact h'
    · rw [List.getElem?_eq_none h'] at hi; cases hi
  rw [List.getElem?_append_left this]; exact hi

theorem At.append {h : List (Event μ)} {t since : Nat} {c : Call μ} {pc : Pc μ} (e : Event μ)
    (ha : At h t since c pc) : At (h ++ [e]) t since c pc := by
  unfold At at ha ⊢
  split <;> simp only at ha
  · exact ha
  · exact ha
  · obtain ⟨j, h1, h2⟩ := ha; exact ⟨j, h1, get_append h2⟩
  · trivial
  · trivial
  · obtain ⟨j, h1, h2, h3⟩ := ha
    refine ⟨j, h1, by simp; omega, ?_⟩
    rw [List.take_append_of_le_length h2]; exact h3
  · trivial
  · trivial
  · obtain ⟨j, h1, h2⟩ := ha; exact ⟨j, h1, get_append h2⟩
  · obtain ⟨j, h1, h2⟩ := ha; exact ⟨j, h1, get_append h2⟩
  · obtain ⟨j, h1, h2⟩ := ha; exact ⟨j, h1, get_append h2⟩
  · obtain ⟨j, h1, h2⟩ := ha; exact ⟨j, h1, get_append h2⟩
  · obtain ⟨j, h1, h2⟩ := ha; exact ⟨j, h1, get_append h2⟩
  · obtain ⟨i, j, u, h1, h2, h3, h4⟩ := ha
    exact ⟨i, j, u, h1, h2, get_append h3, get_append h4⟩

theorem Running.append {h : List (Event μ)} {t since : Nat} {c : Call μ} (e : Event μ)
    (hr : Running h t c since) (he : ∀ c', e ≠ .began t c') : Running (h ++ [e]) t c since := by
  refine ⟨get_append hr.1, fun i c' hi h' => ?_⟩
  rcases Nat.lt_or_ge i h.length with hl | hl
  · rw [List.getElem?_append_left hl] at h'
    exact hr.2 i c' hi h'
  · rw [List.getElem?_append_right hl] at h'
    cases hk : i - h.length with
    | zero => rw [hk] at h'; simp at h'; exact he c' h'
    | succ k => rw [hk] at h'; simp at h'

/-- What holds of an event given the history before it. -/
def Fine (h : List (Event μ)) : Event μ → Prop
  | .ended t c since r => Running h t c since ∧ MayEnd h t since c r
  | .delivered t m => ∃ since, Running h t (.callback m) since
  | .cleared t => ∃ since, Running h t .waitForNew since
  | _ => True

/-- What holds at every moment. -/
structure Inv (s : State μ) : Prop where
  held : ∀ t, (∃ a, s.threads t = some a ∧ a.pc.inside = true) ↔ s.holder = some t
  msg : s.msg = latest s.history
  ok : s.ok = false → ∃ j : Nat, s.history[j]? = some .shutdown
  active : ∀ t a, s.threads t = some a → Running s.history t a.call a.since ∧
    At s.history t a.since a.call a.pc
  fine : ∀ k e, s.history[k]? = some e → Fine (s.history.take k) e

theorem fine_append {h : List (Event μ)} {e : Event μ}
    (hf : ∀ k e, h[k]? = some e → Fine (h.take k) e) (he : Fine h e) :
    ∀ k e', (h ++ [e])[k]? = some e' → Fine ((h ++ [e]).take k) e' := by
  intro k e' hk
  rcases Nat.lt_or_ge k h.length with hl | hl
  · rw [List.getElem?_append_left hl] at hk
    rw [List.take_append_of_le_length (Nat.le_of_lt hl)]
    exact hf k e' hk
  · rw [List.getElem?_append_right hl] at hk
    cases hk' : k - h.length with
    | zero =>
      rw [hk'] at hk
      simp at hk
      subst hk
      have : k = h.length := by omega
      rw [this, List.take_append_of_le_length (Nat.le_refl _), List.take_length]
      exact he
    | succ j => rw [hk'] at hk; simp at hk

theorem Running.lt {h : List (Event μ)} {t since : Nat} {c : Call μ} (hr : Running h t c since) :
    since < h.length := by
  rcases Nat.lt_or_ge since h.length with h' | h'
  · exact h'
  · have := hr.1; rw [List.getElem?_eq_none h'] at this; cases this

/-- A step that only moves a thread on. -/
theorem Inv.goto {s : State μ} (h : Inv s) {t : Nat} {a : Active μ} (ht : s.threads t = some a)
    {pc : Pc μ} (hin : pc.inside = a.pc.inside) (hat : At s.history t a.since a.call pc) :
    Inv (s.goto t a pc) := by
  refine ⟨fun u => ?_, h.msg, h.ok, fun u b hb => ?_, h.fine⟩
  · refine Iff.trans ?_ (h.held u)
    simp only [State.goto]
    by_cases hu : u = t
    · subst hu; simp [ht, hin]
    · simp [hu]
  · simp only [State.goto] at hb ⊢
    by_cases hu : u = t
    · subst hu
      simp only [if_true, Option.some.injEq] at hb
      subst hb
      exact ⟨(h.active u a ht).1, hat⟩
    · simp only [hu, if_false] at hb
      exact h.active u b hb

/-- A step that waits for the mutex or takes it. -/
theorem Inv.lock {s : State μ} (h : Inv s) {t : Nat} {a : Active μ} (ht : s.threads t = some a)
    {pc : Pc μ} (hin : pc.inside = true) (hat : At s.history t a.since a.call pc) :
    Inv (s.lock t a pc) := by
  unfold State.lock
  split
  · rename_i hh
    refine ⟨fun u => ?_, h.msg, h.ok, fun u b hb => ?_, h.fine⟩
    · simp only [State.goto]
      by_cases hu : u = t
      · subst hu; simp [hin]
      · have := h.held u
        rw [hh] at this
        simp only [hu, if_false, Option.some.injEq]
        constructor
        · intro h'; exact absurd (this.1 h') (by simp)
        · intro h'; exact absurd h'.symm hu
    · simp only [State.goto] at hb ⊢
      by_cases hu : u = t
      · subst hu
        simp only [if_true, Option.some.injEq] at hb
        subst hb
        exact ⟨(h.active u a ht).1, hat⟩
      · simp only [hu, if_false] at hb
        exact h.active u b hb
  · exact h

/-- A step that gives the mutex back and goes on. -/
theorem Inv.unlock {s : State μ} (h : Inv s) {t : Nat} {a : Active μ} (ht : s.threads t = some a)
    (hin : a.pc.inside = true) {pc : Pc μ} (hout : pc.inside = false)
    (hat : At s.history t a.since a.call pc) :
    Inv ({ s with holder := none }.goto t a pc) := by
  have hold := (h.held t).1 ⟨a, ht, hin⟩
  refine ⟨fun u => ?_, h.msg, h.ok, fun u b hb => ?_, h.fine⟩
  · simp only [State.goto]
    by_cases hu : u = t
    · subst hu; simp [hout]
    · have := h.held u
      rw [hold] at this
      simp only [hu, if_false]
      constructor
      · intro h'
        have := this.1 h'
        simp only [Option.some.injEq] at this
        exact absurd this.symm hu
      · intro h'; cases h'
  · simp only [State.goto] at hb ⊢
    by_cases hu : u = t
    · subst hu
      simp only [if_true, Option.some.injEq] at hb
      subst hb
      exact ⟨(h.active u a ht).1, hat⟩
    · simp only [hu, if_false] at hb
      exact h.active u b hb

/-- A call that ends; `inside` says whether it gives the mutex back. -/
theorem Inv.finish {s : State μ} (h : Inv s) {t : Nat} {a : Active μ} (ht : s.threads t = some a)
    {holder : Option Nat}
    (hh : (a.pc.inside = true ∧ holder = none) ∨ (a.pc.inside = false ∧ holder = s.holder))
    {r : Result μ} (hr : MayEnd s.history t a.since a.call r) :
    Inv ({ s with holder := holder }.finish t a r) := by
  have hrun := (h.active t a ht).1
  refine ⟨fun u => ?_, ?_, fun hok => ?_, fun u b hb => ?_, ?_⟩
  · simp only [State.finish, State.emit]
    by_cases hu : u = t
    · subst hu
      simp only [if_true]
      constructor
      · rintro ⟨b, hb, _⟩; cases hb
      · intro h'
        rcases hh with ⟨_, h2⟩ | ⟨h1, h2⟩
        · rw [h2] at h'; cases h'
        · rw [h2] at h'
          obtain ⟨b, hb, hb'⟩ := (h.held u).2 h'
          rw [ht] at hb
          cases hb
          rw [h1] at hb'; cases hb'
    · simp only [hu, if_false]
      rcases hh with ⟨h1, h2⟩ | ⟨h1, h2⟩
      · have hold := (h.held t).1 ⟨a, ht, h1⟩
        have := h.held u
        rw [hold] at this
        rw [h2]
        constructor
        · intro h'
          have := this.1 h'
          simp only [Option.some.injEq] at this
          exact absurd this.symm hu
        · intro h'; cases h'
      · rw [h2]; exact h.held u
  · simp only [State.finish, State.emit, latest_append]
    exact h.msg
  · obtain ⟨j, hj⟩ := h.ok hok
    exact ⟨j, get_append hj⟩
  · simp only [State.finish, State.emit] at hb ⊢
    by_cases hu : u = t
    · simp [hu] at hb
    · simp only [hu, if_false] at hb
      obtain ⟨h1, h2⟩ := h.active u b hb
      exact ⟨h1.append _ (by simp), h2.append _⟩
  · exact fine_append h.fine ⟨hrun, hr⟩

/-- A step that changes the stored message. -/
theorem Inv.write {s : State μ} (h : Inv s) {t : Nat} {a : Active μ} (ht : s.threads t = some a)
    {pc : Pc μ} (hin : pc.inside = a.pc.inside) {e : Event μ} {v : Option μ}
    (hv : v = latest (s.history ++ [e])) (hb : ∀ u c, e ≠ .began u c)
    (he : Fine s.history e) (hat : At (s.history ++ [e]) t a.since a.call pc) :
    Inv (({ s with msg := v }.emit e).goto t a pc) := by
  refine ⟨fun u => ?_, hv, fun hok => ?_, fun u b hb' => ?_, fine_append h.fine he⟩
  · refine Iff.trans ?_ (h.held u)
    simp only [State.goto, State.emit]
    by_cases hu : u = t
    · subst hu; simp [ht, hin]
    · simp [hu]
  · obtain ⟨j, hj⟩ := h.ok hok
    exact ⟨j, get_append hj⟩
  · simp only [State.goto, State.emit] at hb' ⊢
    by_cases hu : u = t
    · subst hu
      simp only [if_true, Option.some.injEq] at hb'
      subst hb'
      exact ⟨(h.active u a ht).1.append _ (hb u), hat⟩
    · simp only [hu, if_false] at hb'
      obtain ⟨h1, h2⟩ := h.active u b hb'
      exact ⟨h1.append _ (hb u), h2.append _⟩

theorem Inv.move {s : State μ} (h : Inv s) (m : Move μ) : Inv (move s m) := by
  cases m with
  | call t c =>
    simp only [Listener.move]
    cases ht : s.threads t with
    | some a => exact h
    | none =>
      simp only
      refine ⟨fun u => ?_, ?_, fun hok => ?_, fun u b hb => ?_, fine_append h.fine trivial⟩
      · simp only [State.emit]
        have hu' := h.held u
        by_cases hu : u = t
        · subst hu
          rw [ht] at hu'
          simp only [if_true, Option.some.injEq, ← hu']
          constructor
          · rintro ⟨b, rfl, hb⟩
            cases c <;> cases hb
          · rintro ⟨b, hb, _⟩; cases hb
        · simp only [hu, if_false]; exact hu'
      · simp only [State.emit, latest_append]; exact h.msg
      · obtain ⟨j, hj⟩ := h.ok hok
        exact ⟨j, get_append hj⟩
      · simp only [State.emit] at hb ⊢
        by_cases hu : u = t
        · subst hu
          simp only [if_true, Option.some.injEq] at hb
          subst hb
          refine ⟨⟨by simp, fun i c' hi h' => ?_⟩, by cases c <;> simp [At, entry]⟩
          simp only at hi
          rw [List.getElem?_eq_none (by simp; omega)] at h'
          cases h'
        · simp only [hu, if_false] at hb
          obtain ⟨h1, h2⟩ := h.active u b hb
          refine ⟨h1.append _ fun c' h' => ?_, h2.append _⟩
          simp only [Event.began.injEq] at h'
          exact hu h'.1.symm
  | shutdown =>
    refine ⟨h.held, ?_, fun _ => ⟨s.history.length, by simp [Listener.move, State.emit]⟩,
      fun u b hb => ?_, fine_append h.fine trivial⟩
    · simp only [Listener.move, State.emit, latest_append]; exact h.msg
    · obtain ⟨h1, h2⟩ := h.active u b hb
      exact ⟨h1.append _ (by simp), h2.append _⟩
  | step t =>
    simp only [Listener.move]
    cases ht : s.threads t with
    | none => exact h
    | some a =>
      simp only
      obtain ⟨hrun, hat⟩ := h.active t a ht
      have hlt := hrun.lt
      unfold stepAt
      cases hpc : a.pc with
      | cbLock m =>
        rw [hpc] at hat
        cases hc : a.call <;> rw [hc] at hat <;> try exact hat.elim
        exact h.lock ht rfl (by rw [hc]; exact hat)
      | cbWrite m =>
        rw [hpc] at hat
        cases hc : a.call <;> rw [hc] at hat <;> try exact hat.elim
        obtain rfl : m = _ := hat
        refine h.write ht (by rw [hpc]; rfl) (by rw [latest_append]) (by simp)
          ⟨a.since, hc ▸ hrun⟩ ?_
        rw [hc]
        exact ⟨s.history.length, hlt, by simp⟩
      | cbUnlock =>
        rw [hpc] at hat
        cases hc : a.call <;> rw [hc] at hat <;> try exact hat.elim
        exact h.finish ht (.inl ⟨by rw [hpc]; rfl, rfl⟩) (by rw [hc]; exact hat)
      | getLock =>
        rw [hpc] at hat
        cases hc : a.call <;> rw [hc] at hat <;> try exact hat.elim
        exact h.lock ht rfl (by rw [hc]; exact hat)
      | getRead =>
        rw [hpc] at hat
        cases hc : a.call <;> rw [hc] at hat <;> try exact hat.elim
        refine h.goto ht (by rw [hpc]; rfl) ?_
        rw [hc]
        exact ⟨s.history.length, hlt, Nat.le_refl _, by rw [List.take_length]; exact h.msg⟩
      | getUnlock v =>
        rw [hpc] at hat
        cases hc : a.call <;> rw [hc] at hat <;> try exact hat.elim
        exact h.finish ht (.inl ⟨by rw [hpc]; rfl, rfl⟩) (by rw [hc]; exact hat)
      | clearLock =>
        rw [hpc] at hat
        cases hc : a.call <;> rw [hc] at hat <;> try exact hat.elim
        exact h.lock ht rfl (by rw [hc]; exact hat)
      | clearWrite =>
        rw [hpc] at hat
        cases hc : a.call <;> rw [hc] at hat <;> try exact hat.elim
        refine h.write ht (by rw [hpc]; rfl) (by rw [latest_append]) (by simp)
          ⟨a.since, hc ▸ hrun⟩ ?_
        rw [hc]
        exact ⟨s.history.length, hlt, by simp⟩
      | clearUnlock =>
        rw [hpc] at hat
        cases hc : a.call <;> rw [hc] at hat <;> try exact hat.elim
        exact h.unlock ht (by rw [hpc]; rfl) rfl (by rw [hc]; exact hat)
      | check =>
        rw [hpc] at hat
        cases hc : a.call <;> rw [hc] at hat <;> try exact hat.elim
        simp only
        split
        · exact h.goto ht (by rw [hpc]; rfl) (by rw [hc]; exact hat)
        · rename_i hok
          exact h.finish ht (.inr ⟨by rw [hpc]; rfl, rfl⟩)
            (by rw [hc]; exact h.ok (by simpa using hok))
      | pollLock =>
        rw [hpc] at hat
        cases hc : a.call <;> rw [hc] at hat <;> try exact hat.elim
        exact h.lock ht rfl (by rw [hc]; exact hat)
      | pollRead =>
        rw [hpc] at hat
        cases hc : a.call <;> rw [hc] at hat <;> try exact hat.elim
        refine h.goto ht (by rw [hpc]; rfl) ?_
        rw [hc]
        cases hm : s.msg with
        | none => exact hat
        | some m =>
          obtain ⟨i, hi, hcl⟩ := hat
          obtain ⟨j, u, hj, hlast⟩ := latest_some _ _ rfl m (h.msg ▸ hm)
          exact ⟨i, j, u, hi, hlast i t hcl, hcl, hj⟩
      | pollUnlock v =>
        rw [hpc] at hat
        cases hc : a.call <;> rw [hc] at hat <;> try exact hat.elim
        cases v with
        | none =>
          exact h.unlock ht (by rw [hpc]; rfl) rfl (by rw [hc]; exact hat)
        | some m =>
          exact h.finish ht (.inl ⟨by rw [hpc]; rfl, rfl⟩) (by rw [hc]; exact hat)

theorem inv_start : Inv (start : State μ) :=
  ⟨fun t => ⟨fun ⟨_, h, _⟩ => (by cases h), fun h => (by cases h)⟩, rfl, fun h => (by cases h),
    fun t a h => (by cases h), fun k e h => (by simp [start] at h)⟩

theorem inv_run : ∀ (moves : List (Move μ)) {s : State μ}, Inv s → Inv (run s moves)
  | [], _, h => h
  | m :: ms, _, h => inv_run ms (h.move m)

/-- C123, results: whatever the schedule, every call that ends returns what it should: a callback has
delivered its message during the call; `get` returns the message stored at some moment of the call,
which is the last one delivered unless a `waitForNew` has cleared it since, and null if there is
none; `waitForNew` returns a message that was delivered during the call, after it cleared the old one,
never null and never a message from before the call; and it throws only when the node has been shut
down. -/
theorem C123_results (moves : List (Move μ)) (k t since : Nat) (c : Call μ) (r : Result μ)
    (h : (run start moves).history[k]? = some (.ended t c since r)) :
    Running ((run start moves).history.take k) t c since ∧
    MayEnd ((run start moves).history.take k) t since c r :=
  (inv_run moves inv_start).fine k _ h

/-- C123, changes: the stored message changes only by a callback's message, during that callback, and
by `waitForNew`, during that call. -/
theorem C123_changes (moves : List (Move μ)) (k t : Nat) :
    (∀ m, (run start moves).history[k]? = some (.delivered t m) →
      ∃ since, Running ((run start moves).history.take k) t (.callback m) since) ∧
    ((run start moves).history[k]? = some (.cleared t) →
      ∃ since, Running ((run start moves).history.take k) t .waitForNew since) :=
  ⟨fun _ h => (inv_run moves inv_start).fine k _ h, fun h => (inv_run moves inv_start).fine k _ h⟩

/-- C123, no data race: under every schedule at most one thread is about to read or write the stored
message, and it holds the mutex. -/
theorem C123_no_race (moves : List (Move μ)) (t u : Nat) (a b : Active μ)
    (ha : (run start moves).threads t = some a) (hb : (run start moves).threads u = some b)
    (hta : a.pc.accesses = true) (hub : b.pc.accesses = true) :
    t = u ∧ (run start moves).holder = some t := by
  have hin : ∀ pc : Pc μ, pc.accesses = true → pc.inside = true := by
    intro pc h; cases pc <;> first | rfl | cases h
  have h := inv_run moves (inv_start (μ := μ))
  have h1 := (h.held t).1 ⟨a, ha, hin _ hta⟩
  have h2 := (h.held u).1 ⟨b, hb, hin _ hub⟩
  rw [h1] at h2
  exact ⟨by simpa using h2, h1⟩

/-- C123, no deadlock: while a thread is in a call, some thread can take a step that changes
something. -/
theorem C123_progress (moves : List (Move μ)) (t : Nat) (a : Active μ)
    (ht : (run start moves).threads t = some a) :
    ∃ u, move (run start moves) (.step u) ≠ run start moves := by
  have h := inv_run moves (inv_start (μ := μ))
  revert h ht
  generalize run start moves = s
  intro ht h
  have key : ∀ u b, s.threads u = some b → (b.pc.inside = true ∨ s.holder = none) →
      move s (.step u) ≠ s := by
    intro u b hb hor he
    have hth := congrArg (fun s => s.threads u) he
    simp only [move, hb] at hth
    unfold stepAt at hth
    obtain ⟨c, since, pc⟩ := b
    cases pc <;> simp only at hth hor
    case cbLock m =>
      rcases hor with hor | hor
      · cases hor
      · simp [State.lock, hor, State.goto] at hth
    case getLock =>
      rcases hor with hor | hor
      · cases hor
      · simp [State.lock, hor, State.goto] at hth
    case clearLock =>
      rcases hor with hor | hor
      · cases hor
      · simp [State.lock, hor, State.goto] at hth
    case pollLock =>
      rcases hor with hor | hor
      · cases hor
      · simp [State.lock, hor, State.goto] at hth
    case check =>
      split at hth <;> simp [State.goto, State.finish, State.emit] at hth
    case pollUnlock v =>
      cases v <;> simp [State.goto, State.finish, State.emit] at hth
    all_goals simp [State.goto, State.finish, State.emit] at hth
  cases hh : s.holder with
  | none => exact ⟨t, key t a ht (.inr hh)⟩
  | some u =>
    obtain ⟨b, hb, hin⟩ := (h.held u).2 hh
    exact ⟨u, key u b hb (.inl hin)⟩

/-- C123, waiting ends: when a thread polls in `waitForNew`, a message is stored, and the other
threads leave the listener alone while the node is up, the call returns that message. -/
theorem C123_wait_returns (s : State μ) (t since : Nat) (m : μ)
    (ht : s.threads t = some ⟨.waitForNew, since, .check⟩) (hok : s.ok = true)
    (hm : s.msg = some m) (hh : s.holder = none) :
    (run s [.step t, .step t, .step t, .step t]).history =
      s.history ++ [.ended t .waitForNew since (.message m)] ∧
    (run s [.step t, .step t, .step t, .step t]).threads t = none ∧
    (run s [.step t, .step t, .step t, .step t]).msg = some m := by
  simp [run, move, ht, stepAt, hok, State.goto, State.lock, hh, State.finish, State.emit, hm]

theorem stepAt_ok (s : State μ) (t : Nat) (a : Active μ) : (stepAt s t a).ok = s.ok := by
  unfold stepAt
  split <;> (try unfold State.lock) <;> (try split) <;> rfl

theorem run_down (moves : List (Move μ)) : ∀ s : State μ, s.ok = false → (run s moves).ok = false := by
  induction moves with
  | nil => intro s h; exact h
  | cons m ms ih =>
    intro s h
    refine ih _ ?_
    cases m with
    | call t c => simp only [move]; split <;> exact h
    | step t =>
      simp only [move]
      split
      · rw [stepAt_ok]; exact h
      · exact h
    | shutdown => rfl

/-- C123, shutdown: once the node has been shut down, whatever happens before and after, the next check of a waiting
call ends it with the exception. -/
theorem C123_shutdown (before after : List (Move μ)) (t since : Nat)
    (ht : (run start (before ++ .shutdown :: after)).threads t = some ⟨.waitForNew, since, .check⟩) :
    (run start (before ++ .shutdown :: after ++ [.step t])).history =
      (run start (before ++ .shutdown :: after)).history ++ [.ended t .waitForNew since .interrupted] ∧
    (run start (before ++ .shutdown :: after ++ [.step t])).threads t = none := by
  have happ : ∀ (a b : List (Move μ)) (s : State μ), run s (a ++ b) = run (run s a) b := by
    intro a
    induction a with
    | nil => intro b s; rfl
    | cons m ms ih => intro b s; exact ih b _
  have hok : (run start (before ++ .shutdown :: after)).ok = false := by
    rw [happ]
    exact run_down after _ rfl
  rw [happ (before ++ .shutdown :: after)]
  simp [run, move, ht, stepAt, hok, State.finish, State.emit]

example : (run (start : State Nat) ([.call 0 .waitForNew, .step 0, .step 0] ++ .shutdown :: [.step 0])).threads 0 =
    some ⟨.waitForNew, 0, .check⟩ := rfl

/-- A schedule in which a thread waits while another thread's callback delivers a message, and `get`
before and after: the wait clears the old message, which `get` then misses. -/
example : ((run (start : State Nat)
    [.call 0 (.callback 7), .step 0, .step 0, .step 0, .call 1 .waitForNew, .step 1, .step 1, .step 1,
     .call 2 .get, .step 2, .step 2, .step 2, .call 0 (.callback 8), .step 0, .step 0, .step 0,
     .step 1, .step 1, .step 1, .step 1]).history.filterMap fun e => match e with
      | .ended t .get _ (.value v) => some (t, v)
      | .ended t .waitForNew _ (.message m) => some (t, some m)
      | _ => none) = [(2, none), (1, some 8)] := by
  decide

end Verif.Listener
