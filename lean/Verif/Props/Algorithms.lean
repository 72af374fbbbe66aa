import Verif.Spec.Algorithms

/-!
# C127: nested dictionaries and chunks of lists
-/
namespace Verif.Algorithms
open Verif

variable {K V : Type} [DecidableEq K]

theorem get_set (k k' : K) (v : Value K V) : ∀ items : Items K V,
    (items.set k v).get k' = if k' = k then some v else items.get k'
  | .nil => by simp only [Items.set, Items.get]
  | .cons a w rest => by
    have ih := get_set k k' v rest
    by_cases h : k = a
    · simp only [Items.set, if_pos h, Items.get]
      by_cases h' : k' = k
      · rw [if_pos (h'.trans h), if_pos h']
      · rw [if_neg (fun e => h' (e.trans h.symm)), if_neg h', if_neg (fun e => h' (e.trans h.symm))]
    · simp only [Items.set, if_neg h, Items.get]
      by_cases h' : k' = a
      · rw [if_pos h', if_pos h', if_neg (fun e => h (e.symm.trans h'))]
      · rw [if_neg h', if_neg h', ih]

/-- What one key becomes -/
def merged (old : Option (Value K V)) : Option (Value K V) → Option (Value K V) → Prop
  | none, new => new = old
  | some (.leaf x), new => new = some (.leaf x)
  | some (.dict m), new => ∃ w, updateValue (old.getD (.dict .nil)) m = .ok w ∧ new = some w

theorem merged_of_item {items : Items K V} {k : K} {w : Value K V} {r : Value K V}
    (h : updateItem (.dict items) k w = .ok r) :
    ∃ new, r = .dict (items.set k new) ∧ merged (items.get k) (some w) (some new) := by
  cases w with
  | leaf x =>
    simp only [updateItem, Except.ok.injEq] at h
    exact ⟨_, h.symm, rfl⟩
  | dict m =>
    simp only [updateItem] at h
    cases hn : updateValue ((items.get k).getD (.dict .nil)) m with
    | error e => rw [hn] at h; cases h
    | ok new =>
      rw [hn] at h
      simp only [bind, Except.bind, Except.ok.injEq] at h
      exact ⟨new, h.symm, new, hn, rfl⟩

/-- The result key by key -/
theorem updateValue_get : ∀ (v : Items K V) (items : Items K V) (r : Value K V), v.Distinct →
    updateValue (.dict items) v = .ok r →
    ∃ items', r = .dict items' ∧ ∀ k, merged (items.get k) (v.get k) (items'.get k)
  | .nil, items, r, _, h => by
    simp only [updateValue, Except.ok.injEq] at h
    exact ⟨items, h.symm, fun k => rfl⟩
  | .cons a w rest, items, r, hd, h => by
    simp only [Items.Distinct] at hd
    obtain ⟨hd1, hd2, hd3⟩ := hd
    simp only [updateValue] at h
    cases hi : updateItem (.dict items) a w with
    | error e => rw [hi] at h; cases h
    | ok b =>
      rw [hi] at h
      simp only [bind, Except.bind] at h
      obtain ⟨new, rfl, hm⟩ := merged_of_item hi
      obtain ⟨items', rfl, hk⟩ := updateValue_get rest _ r hd3 h
      refine ⟨items', rfl, fun k => ?_⟩
      have := hk k
      rw [get_set] at this
      simp only [Items.get]
      by_cases hka : k = a
      · subst hka
        rw [if_pos rfl] at this ⊢
        rw [hd1] at this
        simp only [merged] at this
        rw [this]
        exact hm
      · rw [if_neg hka] at this ⊢
        exact this

theorem get_distinct {v : Items K V} {k : K} {w : Value K V} (hd : v.Distinct) (h : v.get k = some w) : w.Distinct := by
  match v with
  | .nil => simp [Items.get] at h
  | .cons a u rest =>
    simp only [Items.Distinct] at hd
    simp only [Items.get] at h
    split at h
    · cases h; exact hd.2.1
    · exact get_distinct hd.2.2 h

theorem updateValue_leaf {x : V} {v : Items K V} {r : Value K V} (h : updateValue (.leaf x) v = .ok r) :
    v = .nil ∧ r = .leaf x := by
  cases v with
  | nil => simp only [updateValue, Except.ok.injEq] at h; exact ⟨rfl, h.symm⟩
  | cons k w rest =>
    simp only [updateValue] at h
    cases w <;> simp [updateItem, bind, Except.bind] at h

theorem leafAt_cons (k : K) (p : List K) (items : Items K V) :
    leafAt (k :: p) (.dict items) = (match items.get k with | none => none | some v => leafAt p v) := by
  unfold leafAt
  simp only [valueAt]
  cases items.get k <;> rfl

theorem leafAt_nil_dict (p : List K) : leafAt p (.dict (.nil : Items K V)) = none := by
  cases p <;> rfl

theorem leafAt_leaf_cons (k : K) (p : List K) (x : V) : leafAt (k :: p) (.leaf x) = none := rfl

theorem update_leaf_at : ∀ (p : List K) (base : Value K V) (v : Items K V) (r : Value K V), v.Distinct →
    updateValue base v = .ok r →
    ((∃ q, q <+: p ∧ (leafAt q (.dict v)).isSome) → leafAt p r = leafAt p (.dict v)) ∧
    ((¬ ∃ q, q <+: p ∧ (leafAt q (.dict v)).isSome) → leafAt p r = leafAt p base) := by
  intro p
  induction p with
  | nil =>
    intro base v r hd h
    have hno : ¬ ∃ q, q <+: ([] : List K) ∧ (leafAt q (.dict v)).isSome := by
      rintro ⟨q, hq, hs⟩
      rw [List.prefix_nil.mp hq] at hs
      simp [leafAt, valueAt] at hs
    refine ⟨fun h => absurd h hno, fun _ => ?_⟩
    cases base with
    | leaf x => rw [(updateValue_leaf h).2]
    | dict items =>
      obtain ⟨items', rfl, -⟩ := updateValue_get v items r hd h
      rfl
  | cons k p ih =>
    intro base v r hd h
    cases base with
    | leaf x =>
      obtain ⟨rfl, rfl⟩ := updateValue_leaf h
      refine ⟨?_, fun _ => rfl⟩
      rintro ⟨q, -, hs⟩
      rw [leafAt_nil_dict] at hs
      cases hs
    | dict items =>
      obtain ⟨items', rfl, hk⟩ := updateValue_get v items r hd h
      have hm := hk k
      rw [leafAt_cons, leafAt_cons, leafAt_cons]
      have cover : (∃ q, q <+: (k :: p) ∧ (leafAt q (.dict v)).isSome) ↔
          ∃ q, q <+: p ∧ (match v.get k with | none => none | some w => leafAt q w).isSome := by
        constructor
        · rintro ⟨q, hq, hs⟩
          cases q with
          | nil => simp [leafAt, valueAt] at hs
          | cons a q =>
            obtain ⟨rfl, hq'⟩ := List.cons_prefix_cons.mp hq
            rw [leafAt_cons] at hs
            exact ⟨q, hq', hs⟩
        · rintro ⟨q, hq, hs⟩
          exact ⟨k :: q, List.cons_prefix_cons.mpr ⟨rfl, hq⟩, by rw [leafAt_cons]; exact hs⟩
      rw [cover]
      cases hv : v.get k with
      | none =>
        rw [hv] at hm
        simp only [merged] at hm
        rw [hm]
        simp
      | some w =>
        rw [hv] at hm
        cases w with
        | leaf x =>
          simp only [merged] at hm
          rw [hm]
          refine ⟨fun _ => rfl, fun hno => absurd ⟨[], List.nil_prefix, rfl⟩ hno⟩
        | dict m =>
          simp only [merged] at hm
          obtain ⟨w, hw, hm⟩ := hm
          rw [hm]
          have hdm : m.Distinct := by
            have := get_distinct hd hv
            simpa [Value.Distinct] using this
          obtain ⟨h1, h2⟩ := ih _ m w hdm hw
          refine ⟨h1, fun hno => (h2 hno).trans ?_⟩
          cases items.get k with
          | none => exact leafAt_nil_dict p
          | some u => rfl

/-- C127: updating a nested dictionary: a path of keys that reaches a value of the update, or runs through one, leads
where it leads in the update; every other path leads where it led before. Without an update nothing changes. -/
theorem C127_nested_update (base update : Items K V) (r : Value K V) (hd : update.Distinct)
    (h : nestedDictUpdate base (some update) = .ok r) (p : List K) :
    ((∃ q, q <+: p ∧ (leafAt q (.dict update)).isSome) → leafAt p r = leafAt p (.dict update)) ∧
    ((¬ ∃ q, q <+: p ∧ (leafAt q (.dict update)).isSome) → leafAt p r = leafAt p (.dict base)) ∧
    nestedDictUpdate base none = .ok (.dict base) :=
  ⟨(update_leaf_at p _ update r hd h).1, (update_leaf_at p _ update r hd h).2, rfl⟩

theorem valueAt_cons (k : K) (p : List K) (items : Items K V) :
    valueAt (k :: p) (.dict items) = (match items.get k with | none => none | some v => valueAt p v) := rfl

theorem valueAt_nil_dict {p : List K} {x : V} : valueAt p (.dict (.nil : Items K V)) ≠ some (.leaf x) := by
  cases p <;> simp [valueAt, Items.get]

/-- A dictionary of the update, with items, stands where the base has another value. -/
def Clash (base : Value K V) (update : Items K V) : Prop :=
  ∃ (p : List K) (x : V) (k : K) (v : Value K V) (rest : Items K V),
    valueAt p base = some (.leaf x) ∧ valueAt p (.dict update) = some (.dict (.cons k v rest))

mutual
theorem ok_of_items : ∀ (v : Items K V) (base : Value K V), v.Distinct → ¬ Clash base v → ∃ r, updateValue base v = .ok r
  | .nil, base, _, _ => ⟨base, by simp only [updateValue]⟩
  | .cons k w rest, base, hd, hc => by
    simp only [Items.Distinct] at hd
    obtain ⟨hd1, hd2, hd3⟩ := hd
    cases base with
    | leaf x => exact absurd ⟨[], x, k, w, rest, rfl, rfl⟩ hc
    | dict items =>
      obtain ⟨new, hn⟩ := ok_of_item w k items hd2 (by
        rintro ⟨m, rfl, p, x, k', v', rest', h1, h2⟩
        refine hc ⟨k :: p, x, k', v', rest', ?_, ?_⟩
        · rw [valueAt_cons]
          cases hg : items.get k with
          | none => rw [hg] at h1; exact absurd h1 valueAt_nil_dict
          | some u => rw [hg] at h1; exact h1
        · rw [valueAt_cons]
          simp only [Items.get, if_pos]
          exact h2)
      obtain ⟨r, hr⟩ := ok_of_items rest (.dict (items.set k new)) hd3 (by
        rintro ⟨p, x, k', v', rest', h1, h2⟩
        cases p with
        | nil => simp [valueAt] at h1
        | cons k2 p =>
          rw [valueAt_cons] at h1 h2
          rw [get_set] at h1
          by_cases h2k : k2 = k
          · subst h2k
            rw [hd1] at h2
            cases h2
          · rw [if_neg h2k] at h1
            refine hc ⟨k2 :: p, x, k', v', rest', h1, ?_⟩
            rw [valueAt_cons]
            simp only [Items.get, if_neg h2k]
            exact h2)
      refine ⟨r, ?_⟩
      simp only [updateValue]
      rw [hn]
      exact hr
theorem ok_of_item : ∀ (w : Value K V) (k : K) (items : Items K V), w.Distinct →
    (¬ ∃ m, w = .dict m ∧ Clash ((items.get k).getD (.dict .nil)) m) →
    ∃ new, updateItem (.dict items) k w = .ok (.dict (items.set k new))
  | .leaf x, k, items, _, _ => ⟨.leaf x, by simp only [updateItem]⟩
  | .dict m, k, items, hd, hc => by
    obtain ⟨new, hn⟩ := ok_of_items m ((items.get k).getD (.dict .nil)) (by simpa [Value.Distinct] using hd)
      (fun h => hc ⟨m, rfl, h⟩)
    refine ⟨new, ?_⟩
    simp only [updateItem]
    rw [hn]
    rfl
end

theorem not_ok_of_clash : ∀ (p : List K) (base : Value K V) (v : Items K V) (r : Value K V) (x : V) (k : K)
    (w : Value K V) (rest : Items K V), v.Distinct → valueAt p base = some (.leaf x) →
    valueAt p (.dict v) = some (.dict (.cons k w rest)) → updateValue base v ≠ .ok r := by
  intro p
  induction p with
  | nil =>
    intro base v r x k w rest hd h1 h2 h
    simp only [valueAt, Option.some.injEq] at h1 h2
    cases h2
    subst h1
    have := (updateValue_leaf h).1
    cases this
  | cons a p ih =>
    intro base v r x k w rest hd h1 h2 h
    cases base with
    | leaf y => simp [valueAt] at h1
    | dict items =>
      obtain ⟨items', rfl, hk⟩ := updateValue_get v items r hd h
      have hm := hk a
      rw [valueAt_cons] at h1 h2
      cases hv : v.get a with
      | none => rw [hv] at h2; cases h2
      | some u =>
        rw [hv] at h2 hm
        cases u with
        | leaf y => cases p <;> simp [valueAt] at h2
        | dict m =>
          obtain ⟨w', hw, -⟩ := hm
          refine ih _ m w' x k w rest (by have := get_distinct hd hv; simpa [Value.Distinct] using this) ?_ h2 hw
          cases hg : items.get a with
          | none => rw [hg] at h1; cases h1
          | some u => rw [hg] at h1; exact h1

/-- C127: the update raises exactly when it has a dictionary, with items, where the base has another value. -/
theorem C127_nested_update_raises (base update : Items K V) (hd : update.Distinct) :
    (∃ r, nestedDictUpdate base (some update) = .ok r) ↔ ¬ Clash (.dict base) update :=
  ⟨fun ⟨r, h⟩ ⟨p, x, k, w, rest, h1, h2⟩ => not_ok_of_clash p _ update r x k w rest hd h1 h2 h,
   ok_of_items update _ hd⟩

/-- `{'a': {'b': 1}}` updated with `{'a': {'c': 2}}` -/
example : nestedDictUpdate (.cons "a" (.dict (.cons "b" (.leaf 1) .nil)) .nil)
    (some (.cons "a" (.dict (.cons "c" (.leaf 2) .nil)) .nil)) =
    .ok (.dict (.cons "a" (.dict (.cons "b" (.leaf 1) (.cons "c" (.leaf 2) .nil))) .nil)) := by
  simp [nestedDictUpdate, updateValue, updateItem, Items.get, Items.set, bind, Except.bind]

/-! ### Lists -/

theorem toSet_length : ∀ (x seen : List K), seen.Nodup →
    (toSet x seen).length ≤ seen.length + x.length ∧
    ((toSet x seen).length = seen.length + x.length ↔ x.Nodup ∧ ∀ a ∈ x, a ∉ seen)
  | [], seen, _ => by simp [toSet]
  | a :: x, seen, hs => by
    simp only [toSet]
    by_cases h : a ∈ seen
    · rw [if_pos h]
      obtain ⟨h1, -⟩ := toSet_length x seen hs
      refine ⟨by simp; omega, ?_, ?_⟩
      · intro he; simp at he; omega
      · rintro ⟨-, h2⟩; exact absurd h (h2 a List.mem_cons_self)
    · rw [if_neg h]
      obtain ⟨h1, h2⟩ := toSet_length x (a :: seen) (List.nodup_cons.mpr ⟨h, hs⟩)
      simp only [List.length_cons] at *
      refine ⟨by omega, ?_⟩
      rw [show seen.length + (x.length + 1) = seen.length + 1 + x.length by omega, h2, List.nodup_cons]
      constructor
      · rintro ⟨hn, ha⟩
        refine ⟨⟨fun hx => ha a hx List.mem_cons_self, hn⟩, fun b hb => ?_⟩
        rcases List.mem_cons.mp hb with rfl | hb
        · exact h
        · exact fun hbs => ha b hb (List.mem_cons_of_mem _ hbs)
      · rintro ⟨⟨hx, hn⟩, ha⟩
        refine ⟨hn, fun b hb hbs => ?_⟩
        rcases List.mem_cons.mp hbs with rfl | hbs
        · exact hx hb
        · exact ha b (List.mem_cons_of_mem _ hb) hbs

/-- C127: a list is unique exactly when no element occurs twice. -/
theorem C127_unique (x : List K) : isListUnique x = true ↔ x.Nodup := by
  have := (toSet_length x [] List.nodup_nil).2
  unfold isListUnique
  rw [beq_iff_eq]
  simp only [List.length_nil, Nat.zero_add, List.not_mem_nil, not_false_eq_true, implies_true, and_true] at this
  rw [← this]
  exact ⟨Eq.symm, Eq.symm⟩

/-- C127: repeating the last element: the `i`-th item is that of the list, and beyond the end the last one; an empty
list raises. -/
theorem C127_repeat {α : Type} (x : List α) (i : Nat) :
    (∀ h : i < x.length, repeatLast x i = .ok x[i]) ∧
    (∀ h : x ≠ [], x.length ≤ i → repeatLast x i = .ok (x.getLast h)) ∧
    (x = [] → repeatLast x i = .error .runtimeError) := by
  refine ⟨fun h => ?_, fun h hi => ?_, ?_⟩
  · unfold repeatLast
    rw [if_neg (by omega), List.getElem?_eq_getElem h]
  · unfold repeatLast
    have := List.length_pos_iff.mpr h
    rw [if_neg (by omega), List.getElem?_eq_none hi, List.getLast?_eq_some_getLast h]
  · rintro rfl
    rfl

theorem repeat_min {α : Type} (x : List α) (i : Nat) (h : x ≠ []) :
    ∃ h' : min i (x.length - 1) < x.length, repeatLast x i = .ok x[min i (x.length - 1)] := by
  have hp := List.length_pos_iff.mpr h
  refine ⟨by omega, ?_⟩
  obtain ⟨h1, h2, -⟩ := C127_repeat x i
  by_cases hi : i < x.length
  · rw [h1 hi]
    congr 2
    omega
  · rw [h2 h (by omega), List.getLast_eq_getElem]
    congr 2
    omega

theorem zipNext_ok {α : Type} (i : Nat) : ∀ (args : List (List α)), (∀ x ∈ args, x ≠ []) →
    ∃ row, zipNext args i = .ok row ∧ row.length = args.length ∧
      ∀ (j : Nat) (x : List α), args[j]? = some x → row[j]? = x[min i (x.length - 1)]?
  | [], _ => ⟨[], rfl, rfl, by simp⟩
  | x :: args, h => by
    obtain ⟨row, h1, h2, h3⟩ := zipNext_ok i args (fun y hy => h y (List.mem_cons_of_mem _ hy))
    obtain ⟨hlt, hx⟩ := repeat_min x i (h x List.mem_cons_self)
    refine ⟨x[min i (x.length - 1)] :: row, ?_, by simp [h2], ?_⟩
    · unfold zipNext at h1 ⊢
      rw [List.mapM_cons, hx, h1]
      rfl
    · intro j y hy
      cases j with
      | zero =>
        simp only [List.getElem?_cons_zero, Option.some.injEq] at hy ⊢
        subst hy
        rw [List.getElem?_eq_getElem hlt]
      | succ j =>
        simp only [List.getElem?_cons_succ] at hy ⊢
        exact h3 j y hy

theorem zipNext_error {α : Type} (i : Nat) : ∀ (args : List (List α)), (∃ x ∈ args, x = []) →
    zipNext args i = .error .runtimeError
  | [], h => by simp at h
  | x :: args, h => by
    unfold zipNext
    rw [List.mapM_cons]
    by_cases hx : x = []
    · rw [(C127_repeat x i).2.2 hx]; rfl
    · obtain ⟨_, he⟩ := repeat_min x i hx
      obtain ⟨y, hy, hy0⟩ := h
      have : zipNext args i = .error .runtimeError := by
        rcases List.mem_cons.mp hy with rfl | hy
        · exact absurd hy0 hx
        · exact zipNext_error i args ⟨y, hy, hy0⟩
      unfold zipNext at this
      rw [he, this]
      rfl

theorem zipLoop_ok {α : Type} (args : List (List α)) (h : ∀ x ∈ args, x ≠ []) : ∀ (left i : Nat),
    (zipLoop args left i).ended = none ∧ (zipLoop args left i).items.length = left ∧
    ∀ k, k < left → ∃ row, (zipLoop args left i).items[k]? = some row ∧ row.length = args.length ∧
      ∀ (j : Nat) (x : List α), args[j]? = some x → row[j]? = x[min (i + k) (x.length - 1)]? := by
  intro left
  induction left with
  | zero => intro i; exact ⟨rfl, rfl, fun k hk => absurd hk (by omega)⟩
  | succ left ih =>
    intro i
    obtain ⟨row, h1, h2, h3⟩ := zipNext_ok i args h
    obtain ⟨i1, i2, i3⟩ := ih (i + 1)
    simp only [zipLoop, h1]
    refine ⟨i1, by simp [i2], fun k hk => ?_⟩
    cases k with
    | zero => exact ⟨row, rfl, h2, h3⟩
    | succ k =>
      obtain ⟨row', a, b, c⟩ := i3 k (by omega)
      refine ⟨row', by simpa using a, b, ?_⟩
      rw [show i + (k + 1) = i + 1 + k by omega]
      exact c

theorem foldl_max (l : List Nat) : ∀ n, n ≤ l.foldl max n ∧ (∀ a ∈ l, a ≤ l.foldl max n) ∧
    (l.foldl max n = n ∨ l.foldl max n ∈ l) := by
  induction l with
  | nil => intro n; simp
  | cons a l ih =>
    intro n
    obtain ⟨h1, h2, h3⟩ := ih (max n a)
    simp only [List.foldl_cons]
    refine ⟨by omega, ?_, ?_⟩
    · intro b hb
      rcases List.mem_cons.mp hb with rfl | hb
      · omega
      · exact h2 b hb
    · rcases h3 with h3 | h3
      · by_cases h : n ≤ a
        · right; rw [h3, Nat.max_eq_right h]; exact List.mem_cons_self
        · left; rw [h3]; omega
      · right; exact List.mem_cons_of_mem _ h3

/-- C127: zipping at least two lists, none of them empty: there are as many rows as the longest list has elements,
and in row `i` every list has its `i`-th element, or its last one. -/
theorem C127_zip {α : Type} (args : List (List α)) (h2 : 2 ≤ args.length) (h : ∀ x ∈ args, x ≠ []) :
    let r := zipRepeatShorter args
    r.ended = none ∧ (∀ x ∈ args, x.length ≤ r.items.length) ∧ (∃ x ∈ args, x.length = r.items.length) ∧
    ∀ i, i < r.items.length → ∃ row, r.items[i]? = some row ∧ row.length = args.length ∧
      ∀ (j : Nat) (x : List α), args[j]? = some x → row[j]? = x[min i (x.length - 1)]? := by
  match args, h2 with
  | a :: b :: rest, _ =>
    intro r
    obtain ⟨h1, h3, h4⟩ := zipLoop_ok (a :: b :: rest) h (((b :: rest).map List.length).foldl max a.length) 0
    obtain ⟨m1, m2, m3⟩ := foldl_max ((b :: rest).map List.length) a.length
    have hr : r = zipLoop (a :: b :: rest) (((b :: rest).map List.length).foldl max a.length) 0 := rfl
    rw [hr]
    refine ⟨h1, ?_, ?_, ?_⟩
    · rw [h3]
      intro x hx
      rcases List.mem_cons.mp hx with rfl | hx
      · exact m1
      · exact m2 _ (List.mem_map_of_mem hx)
    · rw [h3]
      rcases m3 with m3 | m3
      · exact ⟨a, List.mem_cons_self, m3.symm⟩
      · obtain ⟨x, hx, he⟩ := List.mem_map.mp m3
        exact ⟨x, List.mem_cons_of_mem _ hx, he⟩
    · rw [h3]
      intro i hi
      have := h4 i hi
      simpa using this

/-- C127: with an empty list beside one that is not, nothing comes and the first `next` raises; if all are empty
nothing comes. With fewer than two lists it raises. -/
theorem C127_zip_raises {α : Type} (args : List (List α)) :
    (2 ≤ args.length → (∃ x ∈ args, x = []) → (∃ x ∈ args, x ≠ []) →
      zipRepeatShorter args = ⟨[], some .runtimeError⟩) ∧
    (2 ≤ args.length → (∀ x ∈ args, x = []) → zipRepeatShorter args = ⟨[], none⟩) ∧
    (args.length < 2 → zipRepeatShorter args = ⟨[], some .typeError⟩) := by
  refine ⟨?_, ?_, ?_⟩
  · intro h2 he hne
    match args, h2 with
    | a :: b :: rest, _ =>
      have hr : zipRepeatShorter (a :: b :: rest) =
        zipLoop (a :: b :: rest) (((b :: rest).map List.length).foldl max a.length) 0 := rfl
      obtain ⟨m1, m2, -⟩ := foldl_max ((b :: rest).map List.length) a.length
      have : 0 < ((b :: rest).map List.length).foldl max a.length := by
        obtain ⟨x, hx, hx0⟩ := hne
        have hp := List.length_pos_iff.mpr hx0
        rcases List.mem_cons.mp hx with rfl | hx
        · omega
        · have := m2 _ (List.mem_map_of_mem hx); omega
      obtain ⟨n, hn⟩ := Nat.exists_eq_succ_of_ne_zero (Nat.pos_iff_ne_zero.mp this)
      rw [hr, hn]
      simp only [zipLoop, zipNext_error 0 _ he]
  · intro h2 he
    match args, h2 with
    | a :: b :: rest, _ =>
      have hr : zipRepeatShorter (a :: b :: rest) =
        zipLoop (a :: b :: rest) (((b :: rest).map List.length).foldl max a.length) 0 := rfl
      obtain ⟨-, -, m3⟩ := foldl_max ((b :: rest).map List.length) a.length
      have : ((b :: rest).map List.length).foldl max a.length = 0 := by
        rcases m3 with m3 | m3
        · rw [m3, he a List.mem_cons_self]; rfl
        · obtain ⟨x, hx, hxe⟩ := List.mem_map.mp m3
          rw [← hxe, he x (List.mem_cons_of_mem _ hx)]; rfl
      rw [hr, this]
      rfl
  · intro h
    match args, h with
    | [], _ => rfl
    | [_], _ => rfl

example : zipRepeatShorter [[1, 2, 3], [4]] = ⟨[[1, 4], [2, 4], [3, 4]], none⟩ := by decide

theorem chunkLoop_spec {α : Type} (size : Nat) (hs : 0 < size) : ∀ (n : Nat) (it : List α), it.length = n →
    (∀ c ∈ chunkLoop size it, c.length = size) ∧
    ∃ rest, rest.length < size ∧ (chunkLoop size it).flatten ++ rest = it := by
  intro n
  induction n using Nat.strongRecOn with
  | _ n ih =>
    intro it hn
    by_cases h : size ≤ it.length
    · have hl : (it.take size).length = size := by rw [List.length_take]; omega
      have hne : it.take size ≠ [] := by intro h0; rw [h0] at hl; simp at hl; omega
      rw [chunkLoop]
      simp only [dif_neg hne, ne_eq, hl, not_true_eq_false, if_false]
      obtain ⟨h1, rest, h2, h3⟩ := ih (it.length - size) (by omega) (it.drop size) (by simp)
      refine ⟨?_, rest, h2, ?_⟩
      · intro c hc
        rcases List.mem_cons.mp hc with rfl | hc
        · exact hl
        · exact h1 c hc
      · rw [List.flatten_cons, List.append_assoc, h3, List.take_append_drop]
    · have hl : (it.take size).length ≠ size := by rw [List.length_take]; omega
      rw [chunkLoop]
      refine ⟨?_, it, by omega, ?_⟩ <;> (split; · simp) <;> simp [List.length_take] <;> omega

/-- C127: chunks have the size asked for; one after the other they are the beginning of the list, and fewer elements
than make a chunk are left out. Size zero gives no chunks, a negative size raises. -/
theorem C127_chunks {α : Type} (l : List α) :
    (∀ size : Nat, 0 < size → (chunkedDropLast l size).ended = none ∧
      (∀ c ∈ (chunkedDropLast l size).items, c.length = size) ∧
      ∃ rest, rest.length < size ∧ (chunkedDropLast l size).items.flatten ++ rest = l) ∧
    chunkedDropLast l 0 = ⟨[], none⟩ ∧
    (∀ size : Int, size < 0 → chunkedDropLast l size = ⟨[], some .valueError⟩) := by
  refine ⟨fun size hs => ?_, ?_, fun size hs => if_pos hs⟩
  · unfold chunkedDropLast
    rw [if_neg (by omega)]
    exact ⟨rfl, chunkLoop_spec size hs _ l rfl⟩
  · unfold chunkedDropLast
    rw [if_neg (by omega), chunkLoop]
    simp

example : chunkedDropLast [1, 2, 3, 4, 5] 2 = ⟨[[1, 2], [3, 4]], none⟩ := by
  simp [chunkedDropLast, chunkLoop]

theorem reversedLoop_spec {α : Type} (seq : List α) (n : Nat) (hn : 0 < n) : ∀ (m end' : Nat) (chunks : List (List α)),
    end' = m → end' ≤ seq.length → (∀ c ∈ chunks, c.length = n) →
    (∀ c ∈ reversedLoop seq n end' chunks, c.length = n) ∧
    seq.take (end' % n) ++ (reversedLoop seq n end' chunks).flatten = seq.take end' ++ chunks.flatten := by
  intro m
  induction m using Nat.strongRecOn with
  | _ m ih =>
    intro end' chunks hm hl hc
    rw [reversedLoop]
    by_cases h : n ≤ end'
    · rw [dif_pos ⟨hn, h⟩]
      simp only
      obtain ⟨h1, h2⟩ := ih (end' - n) (by omega) (end' - n) (((seq.take end').drop (end' - n)) :: chunks) rfl (by omega)
        (by
          intro c hc'
          rcases List.mem_cons.mp hc' with rfl | hc'
          · rw [List.length_drop, List.length_take]; omega
          · exact hc c hc')
      refine ⟨h1, ?_⟩
      rw [← Nat.mod_eq_sub_mod h] at h2
      rw [h2, List.flatten_cons, ← List.append_assoc]
      congr 1
      have := List.take_append_drop (end' - n) (seq.take end')
      rw [List.take_take, Nat.min_eq_left (by omega)] at this
      exact this
    · rw [dif_neg (by omega), Nat.mod_eq_of_lt (by omega)]
      exact ⟨hc, rfl⟩

/-- C127: reversed chunks have the size asked for; one after the other they are the end of the list, and fewer
elements than make a chunk are left out at the start. Size zero raises, a negative size gives no chunks. -/
theorem C127_reversed_chunks {α : Type} (seq : List α) :
    (∀ n : Nat, 0 < n → ∃ chunks, reversedChunked seq n = .ok chunks ∧ (∀ c ∈ chunks, c.length = n) ∧
      chunks.flatten = seq.drop (seq.length % n)) ∧
    reversedChunked seq 0 = .error .valueError ∧ (∀ n : Int, n < 0 → reversedChunked seq n = .ok []) := by
  refine ⟨fun n hn => ?_, rfl, fun n hn => ?_⟩
  · obtain ⟨h1, h2⟩ := reversedLoop_spec seq n hn _ seq.length [] rfl (Nat.le_refl _) (by simp)
    refine ⟨_, ?_, h1, ?_⟩
    · unfold reversedChunked
      rw [if_neg (by omega), if_neg (by omega)]
      rfl
    · rw [List.take_length, List.flatten_nil, List.append_nil] at h2
      have := List.take_append_drop (seq.length % n) seq
      exact List.append_cancel_left (h2.trans this.symm)
  · unfold reversedChunked
    rw [if_neg (by omega), if_pos hn]

example : reversedChunked [1, 2, 3, 4, 5] 2 = .ok [[2, 3], [4, 5]] := by
  simp [reversedChunked, reversedLoop]

end Verif.Algorithms
