import Verif.Spec.ReliableTf
/-!
# C136: threads that send transforms
-/
namespace Verif.ReliableTf
open Verif

variable {K V : Type} [DecidableEq K]

theorem lookup_remove (m : List (K × Nat)) (k k' : K) : lookup (remove m k) k' = if k' = k then none else lookup m k' := by
  unfold lookup remove
  induction m with
  | nil => simp
  | cons e m ih =>
    by_cases h1 : e.1 = k
    · rw [List.filter_cons_of_neg (by simp [h1]), ih]
      by_cases h2 : k' = k
      · rw [if_pos h2, if_pos h2]
      · rw [if_neg h2, if_neg h2, List.find?_cons_of_neg (by simp [h1, Ne.symm h2])]
    · rw [List.filter_cons_of_pos (by simp [h1])]
      by_cases h3 : e.1 = k'
      · have : k' ≠ k := fun h => h1 (h3.trans h)
        rw [List.find?_cons_of_pos (by simp [h3]), List.find?_cons_of_pos (by simp [h3]), if_neg this]
      · rw [List.find?_cons_of_neg (by simp [h3]), List.find?_cons_of_neg (by simp [h3]), ih]

theorem lookup_put (m : List (K × Nat)) (k k' : K) (i : Nat) :
    lookup (put m k i) k' = if k' = k then some i else lookup m k' := by
  have h := lookup_remove m k k'
  unfold put
  unfold lookup at h ⊢
  rw [List.find?_append, Option.map_or, h]
  by_cases hk : k' = k
  · simp [hk]
  · simp [hk, Ne.symm hk]

theorem lookup_iff {m : List (K × Nat)} (hm : (m.map Prod.fst).Nodup) (k : K) (i : Nat) :
    lookup m k = some i ↔ (k, i) ∈ m := by
  unfold lookup
  induction m with
  | nil => simp
  | cons e m ih =>
    rw [List.map_cons, List.nodup_cons] at hm
    by_cases h : e.1 = k
    · rw [List.find?_cons_of_pos (by simp [h])]
      obtain ⟨k1, i1⟩ := e
      simp only at h
      subst h
      simp only [Option.map_some, Option.some.injEq, List.mem_cons, Prod.mk.injEq, true_and]
      constructor
      · exact fun h => .inl h.symm
      · rintro (h | h)
        · exact h.symm
        · exact absurd (List.mem_map_of_mem (f := Prod.fst) h) hm.1
    · rw [List.find?_cons_of_neg (by simp [h]), ih hm.2]
      constructor
      · exact fun h => List.mem_cons_of_mem _ h
      · intro h'
        rcases List.mem_cons.mp h' with h' | h'
        · rw [← h'] at h; exact absurd rfl h
        · exact h'

theorem remove_mem {m : List (K × Nat)} {k : K} {e : K × Nat} : e ∈ remove m k ↔ e ∈ m ∧ e.1 ≠ k := by
  unfold remove; simp

/-- What one command does to what is kept for each key -/
def applyCmd (w : K → Option (V × Bool)) : Cmd K V → K → Option (V × Bool)
  | .stop k => fun k' => if k = k' then none else w k'
  | .join _ => w
  | .spawn k v st => fun k' => if k = k' then some (v, st) else w k'
  | .await => w
  | .closeAll => fun _ => none

/-- What is kept for each key -/
def cur (s : State K V) (k : K) : Option (V × Bool) :=
  (lookup s.managed k).bind fun i => s.threads[i]?.map fun t => (t.value, t.isStatic)

/-- What holds at every moment -/
structure Inv (s : State K V) : Prop where
  keys : (s.managed.map Prod.fst).Nodup
  kept : ∀ k i, (k, i) ∈ s.managed → ∃ t, s.threads[i]? = some t ∧ t.key = k ∧ t.exit = false
  alive : ∀ i t, s.threads[i]? = some t → t.alive = true → (t.key, i) ∈ s.managed ∨ ∃ rest, s.todo = .join i :: rest
  joining : ∀ i rest, s.todo = .join i :: rest → ∃ t, s.threads[i]? = some t ∧ t.exit = true ∧
    lookup s.managed t.key = none
  single : ∀ i, .join i ∉ s.todo.tail
  fresh : ∀ a k v st b, s.todo = a ++ .spawn k v st :: b →
    a = [.stop k] ∨ ((a = [] ∨ ∃ i, a = [.join i]) ∧ lookup s.managed k = none)
  last : ∀ a b, s.todo = a ++ .await :: b → b = []
  goal : s.todo.foldl applyCmd (cur s) = wanted s.calls

theorem wanted_snoc (cs : List (Call K V)) (c : Call K V) : wanted (cs ++ [c]) = c.body.foldl applyCmd (wanted cs) := by
  funext k
  unfold wanted
  rw [List.foldl_append]
  rcases c with ⟨k', v, st⟩ | k' | _
  · simp only [List.foldl_cons, List.foldl_nil, Call.body, applyCmd]
    by_cases h : k' = k <;> simp [h]
  · rfl
  · rfl

omit [DecidableEq K] in
theorem last_tail {c : Cmd K V} {rest : List (Cmd K V)} (h : ∀ a b, c :: rest = a ++ .await :: b → b = []) :
    ∀ a b, rest = a ++ .await :: b → b = [] := fun a b e => h (c :: a) b (by rw [e]; rfl)

omit [DecidableEq K] in
/-- What a list holds after one place is overwritten -/
theorem set_get {l : List (Sender K V)} {i j : Nat} {t t' u : Sender K V} (ht : l[i]? = some t)
    (hu : (l.set i t')[j]? = some u) : (j = i ∧ u = t') ∨ (j ≠ i ∧ l[j]? = some u) := by
  rw [List.getElem?_set] at hu
  by_cases h : i = j
  · subst h
    have hlt : i < l.length := (List.getElem?_eq_some_iff.mp ht).1
    rw [if_pos rfl, if_pos hlt] at hu
    exact .inl ⟨rfl, (Option.some.inj hu).symm⟩
  · rw [if_neg h] at hu
    exact .inr ⟨Ne.symm h, hu⟩

omit [DecidableEq K] in
theorem set_same {l : List (Sender K V)} {i j : Nat} {t t' u : Sender K V} (ht : l[i]? = some t) (hu : l[j]? = some u) :
    (l.set i t')[j]? = some (if j = i then t' else u) := by
  rw [List.getElem?_set]
  by_cases h : i = j
  · subst h
    have hlt : i < l.length := (List.getElem?_eq_some_iff.mp ht).1
    rw [if_pos rfl, if_pos hlt, if_pos rfl]
  · rw [if_neg h, hu, if_neg (Ne.symm h)]

/-- A step of a thread keeps what holds -/
theorem inv_set {s : State K V} (h : Inv s) {i : Nat} {t t' : Sender K V} (ht : s.threads[i]? = some t)
    (hal : t.alive = true) (hk : t'.key = t.key) (hv : t'.value = t.value) (hs : t'.isStatic = t.isStatic)
    (he : t'.exit = t.exit) (st : List (K × V)) (sent : List (List (K × V))) :
    Inv { s with threads := s.threads.set i t', statics := st, sent := sent } := by
  refine ⟨h.keys, ?_, ?_, ?_, h.single, h.fresh, h.last, ?_⟩
  · intro k j hj
    obtain ⟨u, hu, h1, h2⟩ := h.kept k j hj
    refine ⟨_, set_same ht hu, ?_⟩
    split
    · rename_i hji
      subst hji
      rw [ht] at hu
      cases hu
      exact ⟨hk.trans h1, he.trans h2⟩
    · exact ⟨h1, h2⟩
  · intro j u hu hua
    rcases set_get ht hu with ⟨rfl, rfl⟩ | ⟨-, hu⟩
    · rw [hk]; exact h.alive _ t ht hal
    · exact h.alive j u hu hua
  · intro j rest hj
    obtain ⟨u, hu, h1, h2⟩ := h.joining j rest hj
    refine ⟨_, set_same ht hu, ?_⟩
    split
    · rename_i hji
      subst hji
      rw [ht] at hu
      cases hu
      exact ⟨he.trans h1, by rw [hk]; exact h2⟩
    · exact ⟨h1, h2⟩
  · have : cur { s with threads := s.threads.set i t', statics := st, sent := sent } = cur s := by
      funext k
      unfold cur
      simp only
      rcases hl : lookup s.managed k with _ | j
      · rfl
      · simp only [Option.bind_some]
        rcases hu : s.threads[j]? with _ | u
        · rw [List.getElem?_set]
          split
          · rename_i hij
            subst hij
            rw [ht] at hu; cases hu
          · rw [hu]
        · rw [set_same ht hu]
          split
          · rename_i hji
            subst hji
            rw [ht] at hu
            cases hu
            simp [hv, hs]
          · rfl
    show s.todo.foldl applyCmd (cur _) = wanted s.calls
    rw [this]
    exact h.goal

omit [DecidableEq K] in
theorem body_last (c : Call K V) : ∀ a b, c.body = a ++ .await :: b → b = [] := by
  intro a b h
  rcases c with ⟨k, v, st⟩ | k | _
  · rcases a with _ | ⟨x, _ | ⟨y, _ | ⟨z, a⟩⟩⟩ <;> simp [Call.body] at h
    simp [h]
  · rcases a with _ | ⟨x, a⟩ <;> simp [Call.body] at h
  · rcases a with _ | ⟨x, a⟩ <;> simp [Call.body] at h

theorem fold_stops (ks : List K) (w : K → Option (V × Bool)) :
    (ks.map (Cmd.stop (V := V))).foldl applyCmd w = fun k => if k ∈ ks then none else w k := by
  induction ks generalizing w with
  | nil => simp
  | cons k0 ks ih =>
    rw [List.map_cons, List.foldl_cons, ih]
    funext k
    simp only [applyCmd, List.mem_cons]
    by_cases h1 : k ∈ ks
    · simp [h1]
    · by_cases h2 : k0 = k
      · simp [h2]
      · simp [h1, h2, Ne.symm h2]


omit [DecidableEq K] in
theorem modify_get (l : List (Sender K V)) (i j : Nat) (f : Sender K V → Sender K V) :
    (l.modify i f)[j]? = if i = j then l[j]?.map f else l[j]? := by
  rw [List.getElem?_modify]
  by_cases h : i = j
  · simp [h]
  · simp [h]

theorem inv_main {s s' : State K V} (h : Inv s) (hm : mainStep s = some s') : Inv s' := by
  obtain ⟨managed, threads, statics, sent, todo, calls⟩ := s
  rcases todo with _ | ⟨c, rest⟩
  · cases hm
  have hsingle : ∀ i, .join i ∉ rest := h.single
  have htail : ∀ i, .join i ∉ rest.tail := fun i hi => hsingle i (List.mem_of_mem_tail hi)
  have hgoal : rest.foldl applyCmd (applyCmd (cur ⟨managed, threads, statics, sent, c :: rest, calls⟩) c) = wanted calls :=
    h.goal
  have hno : ∀ i r, rest ≠ .join i :: r := fun i r e => hsingle i (by rw [e]; exact List.mem_cons_self)
  have hfresh : ∀ a k v st b, rest = a ++ .spawn k v st :: b →
      c :: a = [.stop k] ∨ ((c :: a = [] ∨ ∃ i, c :: a = [.join i]) ∧ lookup managed k = none) :=
    fun a k v st b e => h.fresh (c :: a) k v st b (congrArg (c :: ·) e)
  rcases c with k | i | ⟨k, v, st⟩ | _ | _
  · -- stop
    unfold mainStep at hm
    simp only at hm
    rcases hl : lookup managed k with _ | i
    · rw [hl] at hm
      cases hm
      refine ⟨h.keys, h.kept, ?_, fun i r e => absurd e (hno i r), htail, ?_, last_tail h.last, ?_⟩
      · intro i t ht ha
        rcases h.alive i t ht ha with h1 | ⟨r, h1⟩
        · exact .inl h1
        · cases h1
      · intro a k' v st b e
        rcases hfresh a k' v st b e with h1 | ⟨h1 | ⟨i, h1⟩, -⟩
        · obtain ⟨h1, rfl⟩ := List.cons.inj h1
          cases h1
          exact .inr ⟨.inl rfl, hl⟩
        · cases h1
        · cases h1
      · show rest.foldl applyCmd _ = _
        rw [← hgoal]
        congr 1
        funext k'
        simp only [applyCmd]
        by_cases e : k = k'
        · subst e
          rw [if_pos rfl]
          unfold cur
          simp [hl]
        · rw [if_neg e]
          rfl
    · rw [hl] at hm
      cases hm
      have hki : (k, i) ∈ managed := (lookup_iff h.keys k i).mp hl
      obtain ⟨t0, ht0, hk0, he0⟩ := h.kept k i hki
      have ht0' : threads[i]? = some t0 := ht0
      refine ⟨?_, ?_, ?_, ?_, ?_, ?_, ?_, ?_⟩
      · exact h.keys.sublist (List.Sublist.map _ List.filter_sublist)
      · intro k' j hj
        obtain ⟨h1, h2⟩ := remove_mem.mp hj
        obtain ⟨t, ht, hk, he⟩ := h.kept k' j h1
        refine ⟨t, ?_, hk, he⟩
        show (threads.modify i _)[j]? = _
        rw [modify_get, if_neg]
        · exact ht
        · rintro rfl
          rw [ht0] at ht
          cases ht
          exact h2 (hk.symm.trans hk0)
      · intro j u hu ha
        have hu' : (threads.modify i fun t => { t with exit := true })[j]? = some u := hu
        rw [modify_get] at hu'
        by_cases hij : i = j
        · subst hij
          exact .inr ⟨rest, rfl⟩
        · rw [if_neg hij] at hu'
          rcases h.alive j u hu' ha with h1 | ⟨r, h1⟩
          · refine .inl (remove_mem.mpr ⟨h1, ?_⟩)
            intro e
            simp only at e
            have := (lookup_iff h.keys k j).mpr (by rw [← e]; exact h1)
            have h2 : lookup managed k = some j := this
            rw [hl] at h2
            exact hij (Option.some.inj h2)
          · cases h1
      · intro j r hj
        cases hj
        refine ⟨{ t0 with exit := true }, ?_, rfl, (lookup_remove _ _ _).trans (if_pos hk0)⟩
        show (threads.modify i _)[i]? = _
        rw [modify_get, if_pos rfl, ht0']
        rfl
      · exact hsingle
      · intro a k' v st b e
        rcases a with _ | ⟨x, a⟩
        · cases e
        · obtain ⟨h1, h2⟩ := List.cons.inj e
          rcases hfresh a k' v st b h2 with h1 | ⟨h1 | ⟨i, h1⟩, -⟩
          · obtain ⟨h3, rfl⟩ := List.cons.inj h1
            cases h3
            refine .inr ⟨.inr ⟨i, ?_⟩, ?_⟩
            · rw [← (List.cons.inj e).1]
            · exact (lookup_remove _ _ _).trans (if_pos rfl)
          · cases h1
          · cases h1
      · intro a b e
        rcases a with _ | ⟨x, a⟩
        · cases e
        · exact last_tail h.last a b (List.cons.inj e).2
      · show rest.foldl applyCmd _ = _
        rw [← hgoal]
        congr 1
        funext k'
        simp only [applyCmd]
        unfold cur
        simp only
        rw [lookup_remove]
        by_cases e : k = k'
        · subst e; simp
        · rw [if_neg e, if_neg (Ne.symm e)]
          rcases hl' : lookup managed k' with _ | j
          · rfl
          · simp only [Option.bind_some]
            rw [modify_get]
            by_cases hij : i = j
            · subst hij
              rw [if_pos rfl]
              cases threads[i]? <;> rfl
            · rw [if_neg hij]
  · -- join
    obtain ⟨t, ht, he, -⟩ := h.joining i rest rfl
    have ht' : threads[i]? = some t := ht
    unfold mainStep at hm
    simp only [ht'] at hm
    by_cases ha : t.alive = true
    · rw [if_pos ha] at hm; cases hm
    · rw [if_neg ha] at hm
      cases hm
      refine ⟨h.keys, h.kept, ?_, fun i r e => absurd e (hno i r), htail, ?_, last_tail h.last, hgoal⟩
      · intro j u hu hua
        rcases h.alive j u hu hua with h1 | ⟨r, h1⟩
        · exact .inl h1
        · cases h1
          rw [ht] at hu
          cases hu
          exact absurd hua ha
      · intro a k' v st b e
        rcases hfresh a k' v st b e with h1 | ⟨h1 | ⟨i, h1⟩, h2⟩
        · cases h1
        · cases h1
        · cases h1
          exact .inr ⟨.inl rfl, h2⟩
  · -- spawn
    cases hm
    have hold : ∀ (j : Nat) (u : Sender K V), threads[j]? = some u → (threads ++ [(⟨k, v, st, false, true, false⟩ : Sender K V)])[j]? = some u := by
      intro j u hu
      rw [List.getElem?_append_left (List.getElem?_eq_some_iff.mp hu).1, hu]
    have hnone : lookup managed k = none := by
      rcases h.fresh [] k v st rest rfl with h1 | ⟨-, h2⟩
      · cases h1
      · exact h2
    refine ⟨?_, ?_, ?_, fun i r e => absurd e (hno i r), htail, ?_, last_tail h.last, ?_⟩
    · show ((put managed k threads.length).map Prod.fst).Nodup
      unfold put
      rw [List.map_append, List.nodup_append]
      refine ⟨h.keys.sublist (List.Sublist.map _ List.filter_sublist), by simp, ?_⟩
      intro a ha b hb
      obtain ⟨e, he, rfl⟩ := List.mem_map.mp ha
      simp only [List.map_cons, List.map_nil, List.mem_singleton] at hb
      subst hb
      exact (remove_mem.mp he).2
    · intro k' j hj
      rcases List.mem_append.mp hj with h1 | h1
      · obtain ⟨t, ht, hk, he⟩ := h.kept k' j (remove_mem.mp h1).1
        exact ⟨t, hold j t ht, hk, he⟩
      · cases List.mem_singleton.mp h1
        exact ⟨⟨k, v, st, false, true, false⟩, by simp, rfl, rfl⟩
    · intro j u hu ha
      have hu' : (threads ++ [(⟨k, v, st, false, true, false⟩ : Sender K V)])[j]? = some u := hu
      rcases Nat.lt_trichotomy j threads.length with hj | hj | hj
      · rw [List.getElem?_append_left hj] at hu'
        rcases h.alive j u hu' ha with h1 | ⟨r, h1⟩
        · refine .inl (List.mem_append_left _ (remove_mem.mpr ⟨h1, fun e => ?_⟩))
          have h2 : lookup managed u.key = some j := (lookup_iff h.keys u.key j).mpr h1
          simp only at e
          rw [e, hnone] at h2
          cases h2
        · cases h1
      · subst hj
        rw [List.getElem?_concat_length] at hu'
        cases hu'
        exact .inl (List.mem_append_right _ (List.mem_singleton.mpr rfl))
      · rw [List.getElem?_eq_none (by rw [List.length_append]; exact hj)] at hu'
        cases hu'
    · intro a k' v' st' b e
      rcases hfresh a k' v' st' b e with h1 | ⟨h1 | ⟨i, h1⟩, -⟩ <;> cases h1
    · show rest.foldl applyCmd _ = _
      rw [← hgoal]
      congr 1
      funext k'
      simp only [applyCmd]
      unfold cur
      simp only
      rw [lookup_put]
      by_cases e : k = k'
      · subst e; simp
      · rw [if_neg e, if_neg (Ne.symm e)]
        rcases hl' : lookup managed k' with _ | j
        · rfl
        · simp only [Option.bind_some]
          obtain ⟨t, ht, -⟩ := h.kept k' j ((lookup_iff h.keys k' j).mp hl')
          have ht' : threads[j]? = some t := ht
          rw [hold j t ht, ht']
  · -- await
    cases hm
    refine ⟨h.keys, h.kept, ?_, fun i r e => absurd e (hno i r), htail, ?_, last_tail h.last, hgoal⟩
    · intro j u hu hua
      rcases h.alive j u hu hua with h1 | ⟨r, h1⟩
      · exact .inl h1
      · cases h1
    · intro a k' v' st' b e
      rcases hfresh a k' v' st' b e with h1 | ⟨h1 | ⟨i, h1⟩, -⟩ <;> cases h1
  · -- close
    cases hm
    refine ⟨h.keys, h.kept, ?_, ?_, ?_, ?_, ?_, ?_⟩
    · intro j u hu hua
      rcases h.alive j u hu hua with h1 | ⟨r, h1⟩
      · exact .inl h1
      · cases h1
    · intro i r e
      exfalso
      have : .join i ∈ managed.map (fun e : K × Nat => Cmd.stop e.1) ++ rest := by
        have e' : managed.map (fun e : K × Nat => Cmd.stop e.1) ++ rest = .join i :: r := e
        rw [e']; exact List.mem_cons_self
      rcases List.mem_append.mp this with h1 | h1
      · obtain ⟨_, _, h2⟩ := List.mem_map.mp h1
        cases h2
      · exact hsingle i h1
    · intro i hi
      rcases List.mem_append.mp (List.mem_of_mem_tail hi) with h1 | h1
      · obtain ⟨_, _, h2⟩ := List.mem_map.mp h1
        cases h2
      · exact hsingle i h1
    · intro a k v st b e
      exfalso
      have hx : .spawn k v st ∈ managed.map (fun e : K × Nat => Cmd.stop e.1) ++ rest := by
        have e' : managed.map (fun e : K × Nat => Cmd.stop e.1) ++ rest = a ++ .spawn k v st :: b := e
        rw [e']; simp
      rcases List.mem_append.mp hx with h1 | h1
      · obtain ⟨_, _, h2⟩ := List.mem_map.mp h1
        cases h2
      · obtain ⟨a', b', h2⟩ := List.append_of_mem h1
        rcases hfresh a' k v st b' h2 with h1 | ⟨h1 | ⟨i, h1⟩, -⟩ <;> cases h1
    · intro a b e
      have e' : managed.map (fun e : K × Nat => Cmd.stop e.1) ++ rest = a ++ .await :: b := e
      rcases List.append_eq_append_iff.mp e' with ⟨c, h1, h2⟩ | ⟨c, h1, h2⟩
      · exact last_tail h.last c b h2
      · rcases c with _ | ⟨x, c⟩
        · exact last_tail h.last [] b (by simpa using h2.symm)
        · have hx : .await ∈ managed.map (fun e : K × Nat => Cmd.stop (V := V) e.1) := by
            rw [h1, (List.cons.inj h2).1]; simp
          obtain ⟨_, _, h2⟩ := List.mem_map.mp hx
          cases h2
    · show (managed.map (fun e : K × Nat => Cmd.stop e.1) ++ rest).foldl applyCmd _ = _
      rw [List.foldl_append, ← hgoal]
      congr 1
      have := fold_stops (V := V) (managed.map Prod.fst) (cur ⟨managed, threads, statics, sent, .closeAll :: rest, calls⟩)
      rw [List.map_map] at this
      refine (show _ = _ from this).trans ?_
      funext k
      simp only [applyCmd]
      by_cases hk : k ∈ managed.map Prod.fst
      · rw [if_pos hk]
      · rw [if_neg hk]
        unfold cur
        simp only
        rcases hl : lookup managed k with _ | j
        · rfl
        · exact absurd (List.mem_map_of_mem (f := Prod.fst) ((lookup_iff h.keys k j).mp hl)) hk

theorem inv_step {s s' : State K V} (h : Inv s) (hs : Step s s') : Inv s' := by
  rcases hs with ⟨c, h0⟩ | ⟨_, hm⟩ | ⟨rest, h0⟩ | ⟨i, t, ht, ha⟩ | ⟨i, t, ht, ha⟩
  · refine ⟨h.keys, h.kept, ?_, ?_, ?_, ?_, body_last c, ?_⟩
    · intro i t ht ha
      rcases h.alive i t ht ha with h1 | ⟨r, h1⟩
      · exact .inl h1
      · rw [h0] at h1; cases h1
    · intro i r e
      rcases c with ⟨k, v, st⟩ | k | _ <;> cases e
    · intro i hi
      rcases c with ⟨k, v, st⟩ | k | _ <;> simp [Call.body] at hi
    · intro a k v st b e
      rcases c with ⟨k', v', st'⟩ | k' | _
      · rcases a with _ | ⟨x, _ | ⟨y, _ | ⟨z, a⟩⟩⟩ <;> simp [Call.body] at e
        obtain ⟨h1, ⟨rfl, -⟩, -⟩ := e
        exact .inl (by rw [← h1])
      · rcases a with _ | ⟨x, a⟩ <;> simp [Call.body] at e
      · rcases a with _ | ⟨x, a⟩ <;> simp [Call.body] at e
    · have hg := h.goal
      rw [h0] at hg
      show c.body.foldl applyCmd (cur s) = wanted (s.calls ++ [c])
      rw [wanted_snoc, ← hg]
      rfl
  · exact inv_main h hm
  · have hr : rest = [] := h.last [] rest h0
    refine ⟨h.keys, h.kept, ?_, ?_, ?_, ?_, ?_, ?_⟩
    · intro i t ht ha
      rcases h.alive i t ht ha with h1 | ⟨r, h1⟩
      · exact .inl h1
      · rw [h0] at h1; cases h1
    · intro i r e; cases e
    · intro i hi; cases hi
    · intro a k v st b e
      rcases a with _ | ⟨x, a⟩ <;> cases e
    · intro a b e
      rcases a with _ | ⟨x, a⟩ <;> cases e
    · have hg := h.goal
      rw [h0, hr] at hg
      exact hg
  · unfold threadStep
    split
    · split
      · exact inv_set (t' := { t with sending := false }) h ht ha rfl rfl rfl rfl _ _
      · exact inv_set (t' := { t with sending := false }) h ht ha rfl rfl rfl rfl _ _
    · split
      · exact inv_set (t' := { t with alive := false }) h ht ha rfl rfl rfl rfl _ _
      · exact inv_set (t' := { t with sending := true }) h ht ha rfl rfl rfl rfl _ _
  · exact inv_set (t' := { t with alive := false }) h ht ha rfl rfl rfl rfl _ _

theorem inv_reach {s : State K V} (h : Reach s) : Inv s := by
  induction h with
  | init =>
    refine ⟨List.nodup_nil, ?_, ?_, ?_, ?_, ?_, ?_, rfl⟩
    · intro k i h; cases h
    · intro i t h; cases h
    · intro i r h; cases h
    · intro i h; cases h
    · intro a k v st b h
      rcases a with _ | ⟨x, a⟩ <;> cases h
    · intro a b h
      rcases a with _ | ⟨x, a⟩ <;> cases h
  | step _ hs ih => exact inv_step ih hs

/-! ## C136 -/

/-- At every moment, also in the middle of a call, no two threads send the same transform -/
theorem C136_one_sender {s : State K V} (h : Reach s) {i j : Nat} {t u : Sender K V} (hi : s.threads[i]? = some t)
    (hj : s.threads[j]? = some u) (ht : t.alive = true) (hu : u.alive = true) (hk : t.key = u.key) : i = j := by
  have inv := inv_reach h
  rcases inv.alive i t hi ht with h1 | ⟨r1, h1⟩
  · rcases inv.alive j u hj hu with h2 | ⟨r2, h2⟩
    · rw [← hk] at h2
      have e1 := (lookup_iff inv.keys t.key i).mpr h1
      have e2 := (lookup_iff inv.keys t.key j).mpr h2
      rw [e1] at e2
      exact Option.some.inj e2
    · obtain ⟨u', hu', -, h3⟩ := inv.joining j r2 h2
      rw [hj] at hu'
      cases hu'
      rw [← hk, (lookup_iff inv.keys t.key i).mpr h1] at h3
      cases h3
  · rcases inv.alive j u hj hu with h2 | ⟨r2, h2⟩
    · obtain ⟨t', ht', -, h3⟩ := inv.joining i r1 h1
      rw [hi] at ht'
      cases ht'
      rw [hk, (lookup_iff inv.keys u.key j).mpr h2] at h3
      cases h3
    · rw [h1] at h2
      cases h2
      rfl

/-- When no call is going on, a running thread sends what the calls so far ask for -/
theorem C136_wanted {s : State K V} (h : Reach s) (h0 : s.todo = []) {i : Nat} {t : Sender K V}
    (hi : s.threads[i]? = some t) (ht : t.alive = true) : wanted s.calls t.key = some (t.value, t.isStatic) := by
  have inv := inv_reach h
  rcases inv.alive i t hi ht with h1 | ⟨r1, h1⟩
  · have hg := inv.goal
    rw [h0] at hg
    rw [← hg]
    show cur s t.key = _
    unfold cur
    rw [(lookup_iff inv.keys t.key i).mpr h1]
    simp [hi]
  · rw [h0] at h1; cases h1

/-- When no call is going on, what the calls so far ask for has a thread, and it has not been told to stop -/
theorem C136_kept {s : State K V} (h : Reach s) (h0 : s.todo = []) {k : K} {v : V} {st : Bool}
    (hw : wanted s.calls k = some (v, st)) :
    ∃ (i : Nat) (t : Sender K V), s.threads[i]? = some t ∧ t.key = k ∧ t.value = v ∧ t.isStatic = st ∧ t.exit = false := by
  have inv := inv_reach h
  have hg := inv.goal
  rw [h0] at hg
  rw [← hg] at hw
  have hw' : cur s k = some (v, st) := hw
  unfold cur at hw'
  rcases hl : lookup s.managed k with _ | i
  · rw [hl] at hw'; cases hw'
  · rw [hl] at hw'
    obtain ⟨t, ht, hk, he⟩ := inv.kept k i ((lookup_iff inv.keys k i).mp hl)
    simp only [Option.bind_some, ht, Option.map_some, Option.some.injEq, Prod.mk.injEq] at hw'
    exact ⟨i, t, ht, hk, hw'.1, hw'.2, he⟩

/-- The message a thread sends -/
theorem step_sent {s s' : State K V} (hs : Step s s') : (s'.sent = s.sent ∧ s'.statics = s.statics) ∨
    ∃ (i : Nat) (t : Sender K V), s.threads[i]? = some t ∧ t.alive = true ∧
      ((t.isStatic = true ∧ s'.statics = s.statics ++ [(t.key, t.value)] ∧
        s'.sent = s.sent ++ [s.statics ++ [(t.key, t.value)]]) ∨
       (t.isStatic = false ∧ s'.statics = s.statics ∧ s'.sent = s.sent ++ [[(t.key, t.value)]])) := by
  rcases hs with ⟨c, h0⟩ | ⟨_, hm⟩ | ⟨rest, h0⟩ | ⟨i, t, ht, ha⟩ | ⟨i, t, ht, ha⟩
  · exact .inl ⟨rfl, rfl⟩
  · refine .inl ?_
    unfold mainStep at hm
    split at hm
    · cases hm
    · split at hm <;> cases hm <;> exact ⟨rfl, rfl⟩
    · split at hm
      · split at hm <;> cases hm
        exact ⟨rfl, rfl⟩
      · cases hm
    · cases hm; exact ⟨rfl, rfl⟩
    · cases hm; exact ⟨rfl, rfl⟩
    · cases hm; exact ⟨rfl, rfl⟩
  · exact .inl ⟨rfl, rfl⟩
  · unfold threadStep
    split
    · refine .inr ⟨i, t, ht, ha, ?_⟩
      split
      · rename_i hst
        exact .inl ⟨hst, rfl, rfl⟩
      · rename_i hst
        exact .inr ⟨by simpa using hst, rfl, rfl⟩
    · split <;> exact .inl ⟨rfl, rfl⟩
  · exact .inl ⟨rfl, rfl⟩

/-- When no call is going on, a message is sent only for a transform the calls so far ask for; one that is not static
holds exactly that transform, with the value last given -/
theorem C136_sent {s s' : State K V} (h : Reach s) (h0 : s.todo = []) (hs : Step s s') : s'.sent = s.sent ∨
    ∃ (k : K) (v : V), (wanted s.calls k = some (v, false) ∧ s'.sent = s.sent ++ [[(k, v)]]) ∨
      (wanted s.calls k = some (v, true) ∧ s'.sent = s.sent ++ [s.statics ++ [(k, v)]]) := by
  rcases step_sent hs with ⟨h1, -⟩ | ⟨i, t, ht, ha, h1⟩
  · exact .inl h1
  · have hw := C136_wanted h h0 ht ha
    refine .inr ⟨t.key, t.value, ?_⟩
    rcases h1 with ⟨h1, -, h2⟩ | ⟨h1, -, h2⟩
    · exact .inr ⟨by rw [hw, h1], h2⟩
    · exact .inl ⟨by rw [hw, h1], h2⟩

/-- After a close no thread runs, and nothing is sent until the next call -/
theorem C136_close {s : State K V} (h : Reach s) (h0 : s.todo = []) {cs : List (Call K V)}
    (hc : s.calls = cs ++ [.close]) : (∀ t ∈ s.threads, t.alive = false) ∧ ∀ s', Step s s' → s'.sent = s.sent := by
  have hw : ∀ k, wanted s.calls k = none := by
    intro k
    rw [hc, wanted_snoc]
    rfl
  have hd : ∀ t ∈ s.threads, t.alive = false := by
    intro t ht
    obtain ⟨i, hi⟩ := List.mem_iff_getElem?.mp ht
    rcases ha : t.alive with _ | _
    · rfl
    · have := C136_wanted h h0 hi ha
      rw [hw] at this
      cases this
  refine ⟨hd, fun s' hs => ?_⟩
  rcases step_sent hs with ⟨h1, -⟩ | ⟨i, t, ht, ha, -⟩
  · exact h1
  · rw [hd t (List.mem_of_getElem? ht)] at ha
    cases ha

/-- Some steps of the program -/
inductive Steps : Nat → State K V → State K V → Prop where
  | refl (s : State K V) : Steps 0 s s
  | tail {n : Nat} {s s' s'' : State K V} : Steps n s s' → Step s' s'' → Steps (n + 1) s s''

/-- A wanted transform goes on being sent: as long as its thread runs, at most two of its own steps send it -/
theorem C136_goes_on {s : State K V} (h : Reach s) (h0 : s.todo = []) {i : Nat} {t : Sender K V}
    (hi : s.threads[i]? = some t) (ht : t.alive = true) :
    ∃ (n : Nat) (s' : State K V), n ≤ 2 ∧ Steps n s s' ∧ s'.todo = [] ∧
      s'.sent = s.sent ++ [if t.isStatic then s.statics ++ [(t.key, t.value)] else [(t.key, t.value)]] := by
  have inv := inv_reach h
  have he : t.exit = false := by
    rcases inv.alive i t hi ht with h1 | ⟨r, h1⟩
    · obtain ⟨t', ht', -, h2⟩ := inv.kept _ _ h1
      rw [hi] at ht'
      cases ht'
      exact h2
    · rw [h0] at h1; cases h1
  have send : ∀ (s : State K V) (t : Sender K V), s.todo = [] → s.threads[i]? = some t → t.alive = true →
      t.sending = true → ∃ s' : State K V, Step s s' ∧ s'.todo = [] ∧
        s'.sent = s.sent ++ [if t.isStatic then s.statics ++ [(t.key, t.value)] else [(t.key, t.value)]] := by
    intro s t h0 hi ht hs
    refine ⟨_, .thread s i t hi ht, ?_⟩
    unfold threadStep
    rw [if_pos hs]
    rcases t.isStatic with _ | _
    · exact ⟨h0, rfl⟩
    · exact ⟨h0, rfl⟩
  rcases hs : t.sending with _ | _
  · have h1 : threadStep s i t = { s with threads := s.threads.set i { t with sending := true } } := by
      unfold threadStep
      rw [hs, he]
      rfl
    obtain ⟨s', h2, h3, h4⟩ := send (threadStep s i t) { t with sending := true } (by rw [h1]; exact h0)
      (by rw [h1]; exact (set_same hi hi).trans (by simp)) ht rfl
    refine ⟨2, s', by omega, .tail (.tail (.refl s) (.thread s i t hi ht)) h2, h3, ?_⟩
    rw [h4, h1]
  · obtain ⟨s', h2, h3, h4⟩ := send s t h0 hi ht hs
    exact ⟨1, s', by omega, .tail (.refl s) h2, h3, h4⟩

/-- Stopping does not block for ever: while the caller waits for a thread, that thread ends after at most two steps of
its own, having sent at most one more message, and then the caller goes on -/
theorem C136_join {s : State K V} (h : Reach s) {i : Nat} {rest : List (Cmd K V)} (h0 : s.todo = .join i :: rest) :
    ∃ (n : Nat) (s' : State K V), n ≤ 3 ∧ Steps n s s' ∧ s'.todo = rest ∧ s'.sent.length ≤ s.sent.length + 1 := by
  obtain ⟨t, ht, he, -⟩ := (inv_reach h).joining i rest h0
  have go : ∀ (s : State K V) (t : Sender K V), s.todo = .join i :: rest → s.threads[i]? = some t → t.alive = false →
      Step s { s with todo := rest } := by
    intro s t h0 ht ha
    refine .main _ _ ?_
    unfold mainStep
    rw [h0]
    simp only [ht, ha]
    rfl
  have dead : ∀ (s : State K V) (t : Sender K V), s.todo = .join i :: rest → s.threads[i]? = some t → t.alive = true →
      t.exit = true → t.sending = false → ∃ s1 s2 : State K V, Step s s1 ∧ Step s1 s2 ∧ s2.todo = rest ∧ s2.sent = s.sent := by
    intro s t h0 ht ha he hs
    have h1 : threadStep s i t = { s with threads := s.threads.set i { t with alive := false } } := by
      unfold threadStep
      rw [hs, he]
      rfl
    refine ⟨_, _, .thread s i t ht ha, go _ { t with alive := false } (by rw [h1]; exact h0)
      (by rw [h1]; exact (set_same ht ht).trans (by simp)) rfl, rfl, by rw [h1]⟩
  rcases ha : t.alive with _ | _
  · exact ⟨1, _, by omega, .tail (.refl s) (go s t h0 ht ha), rfl, Nat.le_succ _⟩
  · rcases hs : t.sending with _ | _
    · obtain ⟨s1, s2, h1, h2, h3, h4⟩ := dead s t h0 ht ha he hs
      exact ⟨2, s2, by omega, .tail (.tail (.refl s) h1) h2, h3, by rw [h4]; omega⟩
    · have h1 : (threadStep s i t).todo = s.todo ∧ (threadStep s i t).threads = s.threads.set i { t with sending := false } ∧
          (threadStep s i t).sent.length = s.sent.length + 1 := by
        unfold threadStep
        rw [if_pos hs]
        split <;> exact ⟨rfl, rfl, by simp⟩
      obtain ⟨s1, s2, h2, h3, h4, h5⟩ := dead (threadStep s i t) { t with sending := false } (by rw [h1.1, h0])
        (by rw [h1.2.1]; exact (set_same ht ht).trans (by simp)) ha he rfl
      exact ⟨3, s2, by omega, .tail (.tail (.tail (.refl s) (.thread s i t ht ha)) h2) h3, h4, by rw [h5, h1.2.2]; exact Nat.le_refl _⟩

/-- A thread that has ended never runs again, and its transform and event are never changed back -/
theorem C136_dead_stays {s s' : State K V} (hs : Step s s') {i : Nat} {t : Sender K V} (ht : s.threads[i]? = some t) :
    ∃ t' : Sender K V, s'.threads[i]? = some t' ∧ t'.key = t.key ∧ t'.value = t.value ∧ t'.isStatic = t.isStatic ∧
      (t.exit = true → t'.exit = true) ∧ (t.alive = false → t'.alive = false) := by
  have same : ∃ t' : Sender K V, s.threads[i]? = some t' ∧ t'.key = t.key ∧ t'.value = t.value ∧ t'.isStatic = t.isStatic ∧
      (t.exit = true → t'.exit = true) ∧ (t.alive = false → t'.alive = false) :=
    ⟨t, ht, rfl, rfl, rfl, id, id⟩
  have set : ∀ (j : Nat) (u u' : Sender K V), s.threads[j]? = some u → u.alive = true → u'.key = u.key →
      u'.value = u.value → u'.isStatic = u.isStatic → u'.exit = u.exit →
      ∃ t' : Sender K V, (s.threads.set j u')[i]? = some t' ∧ t'.key = t.key ∧ t'.value = t.value ∧
        t'.isStatic = t.isStatic ∧ (t.exit = true → t'.exit = true) ∧ (t.alive = false → t'.alive = false) := by
    intro j u u' hu ha h1 h2 h3 h4
    refine ⟨_, set_same hu ht, ?_⟩
    split
    · rename_i hij
      subst hij
      rw [ht] at hu
      cases hu
      exact ⟨h1, h2, h3, fun h => h4.trans h, fun h => by rw [ha] at h; cases h⟩
    · exact ⟨rfl, rfl, rfl, id, id⟩
  rcases hs with ⟨c, h0⟩ | ⟨_, hm⟩ | ⟨rest, h0⟩ | ⟨j, u, hu, ha⟩ | ⟨j, u, hu, ha⟩
  · exact same
  · unfold mainStep at hm
    split at hm
    · cases hm
    · split at hm <;> cases hm
      · exact same
      · rename_i j _
        show ∃ t' : Sender K V, (s.threads.modify j _)[i]? = some t' ∧ _
        rw [modify_get]
        by_cases hij : j = i
        · rw [if_pos hij, ht]
          exact ⟨_, rfl, rfl, rfl, rfl, fun _ => rfl, id⟩
        · rw [if_neg hij]
          exact same
    · split at hm
      · split at hm <;> cases hm
        exact same
      · cases hm
    · cases hm
      refine ⟨t, ?_, rfl, rfl, rfl, id, id⟩
      exact (List.getElem?_append_left (List.getElem?_eq_some_iff.mp ht).1).trans ht
    · cases hm; exact same
    · cases hm; exact same
  · exact same
  · unfold threadStep
    split
    · split
      · exact set j u { u with sending := false } hu ha rfl rfl rfl rfl
      · exact set j u { u with sending := false } hu ha rfl rfl rfl rfl
    · split
      · exact set j u { u with alive := false } hu ha rfl rfl rfl rfl
      · exact set j u { u with sending := true } hu ha rfl rfl rfl rfl
  · exact set j u { u with alive := false } hu ha rfl rfl rfl rfl

/-! ## Static transforms -/

/-- What is done at one moment -/
inductive Act (K V : Type) where
  | call (c : Call K V)
  | main
  | thread (i : Nat)

/-- The state after some moments -/
def run (s : State K V) : List (Act K V) → Option (State K V)
  | [] => some s
  | .call c :: as => match s.todo with
    | [] => run { s with todo := c.body, calls := s.calls ++ [c] } as
    | _ :: _ => none
  | .main :: as => match mainStep s with
    | some s' => run s' as
    | none => none
  | .thread i :: as => match s.threads[i]? with
    | some t => if t.alive = true then run (threadStep s i t) as else none
    | none => none

theorem run_reach {s s' : State K V} (as : List (Act K V)) (h : Reach s) (hr : run s as = some s') : Reach s' := by
  induction as generalizing s with
  | nil => cases hr; exact h
  | cons a as ih =>
    rcases a with c | _ | i
    · rw [run] at hr
      split at hr
      · rename_i h0
        exact ih (h.step (.call s c h0)) hr
      · cases hr
    · rw [run] at hr
      split at hr
      · rename_i h0
        exact ih (h.step (.main _ _ h0)) hr
      · cases hr
    · rw [run] at hr
      split at hr
      · rename_i h0
        split at hr
        · rename_i h1
          exact ih (h.step (.thread _ _ _ h0 h1)) hr
        · cases hr
      · cases hr

/-- The static transforms sent so far are kept for ever, in the order of sending -/
theorem C136_statics_kept {s s' : State K V} (hs : Step s s') : s.statics <+: s'.statics := by
  rcases step_sent hs with ⟨-, h1⟩ | ⟨i, t, ht, ha, ⟨-, h1, -⟩ | ⟨-, h1, -⟩⟩
  · rw [h1]; exact List.prefix_rfl
  · rw [h1]; exact List.prefix_append _ _
  · rw [h1]; exact List.prefix_rfl

/-- A static transform that was stopped is sent again whenever another one is -/
theorem C136_static_wrong : ∃ s : State Nat Nat, Reach s ∧ s.todo = [] ∧
    s.calls = [.start 1 10 true, .stop 1, .start 2 20 true] ∧ wanted s.calls 1 = none ∧
    s.sent = [[(1, 10)], [(1, 10), (2, 20)]] :=
  ⟨_, run_reach [.call (.start 1 10 true), .main, .main, .thread 0, .thread 0, .main, .call (.stop 1), .main, .thread 0,
    .main, .call (.start 2 20 true), .main, .main, .thread 1, .thread 1, .main] .init rfl, rfl, rfl, rfl, rfl⟩

/-- A static transform given a new value is sent with both, the old one first -/
theorem C136_static_old_value : ∃ s : State Nat Nat, Reach s ∧ s.todo = [] ∧
    s.calls = [.start 1 10 true, .start 1 11 true] ∧ wanted s.calls 1 = some (11, true) ∧
    s.sent = [[(1, 10)], [(1, 10), (1, 11)]] :=
  ⟨_, run_reach [.call (.start 1 10 true), .main, .main, .thread 0, .thread 0, .main, .call (.start 1 11 true), .main,
    .thread 0, .main, .main, .thread 1, .thread 1, .main] .init rfl, rfl, rfl, rfl, rfl⟩

/-- One static transform, asked for once, makes messages without bound: the n-th holds n copies of it -/
theorem C136_static_grows (k : K) (v : V) (n : Nat) : ∃ s : State K V, Reach s ∧ s.todo = [] ∧
    s.calls = [.start k v true] ∧ s.sent = (List.range n).map fun j => List.replicate (j + 1) (k, v) := by
  have key : ∃ s : State K V, Reach s ∧ s.todo = [] ∧ s.calls = [.start k v true] ∧
      s.threads = [⟨k, v, true, false, true, false⟩] ∧ s.statics = List.replicate n (k, v) ∧
      s.sent = (List.range n).map fun j => List.replicate (j + 1) (k, v) := by
    induction n with
    | zero =>
      exact ⟨_, run_reach [.call (.start k v true), .main, .main, .main] .init rfl, rfl, rfl, rfl, rfl, rfl⟩
    | succ n ih =>
      obtain ⟨s, h1, h2, h3, h4, h5, h6⟩ := ih
      obtain ⟨managed, threads, statics, sent, todo, calls⟩ := s
      simp only at h2 h3 h4 h5 h6
      subst h2 h3 h4
      refine ⟨_, run_reach [.thread 0, .thread 0] h1 rfl, rfl, rfl, rfl, ?_, ?_⟩
      · show statics ++ [(k, v)] = _
        rw [h5, List.replicate_succ']
      · show sent ++ [statics ++ [(k, v)]] = _
        rw [h6, h5, List.range_succ, List.map_append, List.map_cons, List.map_nil, List.replicate_succ']
  obtain ⟨s, h1, h2, h3, -, -, h6⟩ := key
  exact ⟨s, h1, h2, h3, h6⟩

/-- A start and a restart with a new value: in between the old thread sends once more -/
example : ∃ s : State Nat Nat, Reach s ∧ s.todo = [] ∧ s.calls = [.start 1 10 false, .start 1 11 false] ∧
    wanted s.calls 1 = some (11, false) ∧ s.sent = [[(1, 10)], [(1, 10)], [(1, 11)]] ∧
    s.threads.map (fun t => t.alive) = [false, true] :=
  ⟨_, run_reach [.call (.start 1 10 false), .main, .main, .thread 0, .thread 0, .main, .thread 0, .call (.start 1 11 false),
    .main, .thread 0, .thread 0, .main, .main, .thread 1, .thread 1, .main] .init rfl, rfl, rfl, rfl, rfl, rfl⟩

/-- The caller waiting for a thread that is about to send -/
example : ∃ s : State Nat Nat, Reach s ∧ s.todo = [.join 0] :=
  ⟨_, run_reach [.call (.start 1 10 false), .main, .main, .thread 0, .main, .call .close, .main, .main] .init rfl, rfl⟩

end Verif.ReliableTf
