import Verif.Spec.Timestamps
/-!
# C148: time strings
-/
namespace Verif.Timestamps

theorem digit_lt : ∀ a < 10, ∀ b < 10, (digit a < digit b ↔ a < b) := by decide

theorem digit_inj : ∀ a < 10, ∀ b < 10, (digit a = digit b ↔ a = b) := by decide

theorem digit_ne : ∀ a < 10, digit a ≠ '-' := by decide

theorem append_lt : ∀ (u u' v v' : List Char), u.length = u'.length →
    (u ++ v < u' ++ v' ↔ u < u' ∨ u = u' ∧ v < v')
  | [], [], v, v', _ => by simp
  | [], _ :: _, _, _, h => by simp at h
  | _ :: _, [], _, _, h => by simp at h
  | a :: u, b :: u', v, v', h => by
    simp only [List.length_cons, Nat.add_right_cancel_iff] at h
    simp only [List.cons_append, List.cons_lt_cons_iff, append_lt u u' v v' h, List.cons.injEq]
    constructor
    · rintro (h | ⟨h, h' | ⟨h', h''⟩⟩)
      · exact .inl (.inl h)
      · exact .inl (.inr ⟨h, h'⟩)
      · exact .inr ⟨⟨h, h'⟩, h''⟩
    · rintro ((h | ⟨h, h'⟩) | ⟨⟨h, h'⟩, h''⟩)
      · exact .inl h
      · exact .inr ⟨h, .inl h'⟩
      · exact .inr ⟨h, .inr ⟨h', h''⟩⟩

theorem decimal_small (n : Nat) (h : n < 10) : decimal n = [digit n] := by rw [decimal, dif_pos h]

theorem decimal_large (n : Nat) (h : ¬ n < 10) : decimal n = decimal (n / 10) ++ [digit (n % 10)] := by
  rw [decimal, dif_neg h]

theorem decimal_pos (n : Nat) : 0 < (decimal n).length := by
  rw [decimal]
  split <;> simp

/-- Numbers with equally many digits are ordered as their digits. -/
theorem decimal_order (n : Nat) : ∀ m, (decimal n).length = (decimal m).length →
    (decimal n < decimal m ↔ n < m) ∧ (decimal n = decimal m ↔ n = m) := by
  induction n using Nat.strongRecOn with
  | ind n ih =>
    intro m h
    by_cases hn : n < 10 <;> by_cases hm : m < 10
    · rw [decimal_small n hn, decimal_small m hm]
      constructor
      · simp only [List.cons_lt_cons_iff, digit_lt n hn m hm]
        simp
      · simp [digit_inj n hn m hm]
    · rw [decimal_small n hn, decimal_large m hm] at h
      have := decimal_pos (m / 10)
      simp only [List.length_append, List.length_singleton] at h
      omega
    · rw [decimal_large n hn, decimal_small m hm] at h
      have := decimal_pos (n / 10)
      simp only [List.length_append, List.length_singleton] at h
      omega
    · rw [decimal_large n hn, decimal_large m hm] at h ⊢
      simp only [List.length_append, List.length_singleton, Nat.add_right_cancel_iff] at h
      obtain ⟨h1, h2⟩ := ih (n / 10) (by omega) (m / 10) h
      have a := digit_lt (n % 10) (by omega) (m % 10) (by omega)
      have b := digit_inj (n % 10) (by omega) (m % 10) (by omega)
      constructor
      · rw [append_lt _ _ _ _ h, h1, h2]
        simp only [List.cons_lt_cons_iff, a, List.not_lt_nil, and_false, or_false]
        omega
      · constructor
        · intro e
          obtain ⟨e1, e2⟩ := List.append_inj e h
          have := h2.mp e1
          simp only [List.cons.injEq, b, and_true] at e2
          omega
        · rintro rfl; rfl

theorem decimal_digits (n : Nat) : ∀ c ∈ decimal n, c ≠ '-' := by
  induction n using Nat.strongRecOn with
  | ind n ih =>
    by_cases hn : n < 10
    · rw [decimal_small n hn]
      intro c hc
      rw [List.mem_singleton.mp hc]
      exact digit_ne n hn
    · rw [decimal_large n hn]
      intro c hc
      rcases List.mem_append.mp hc with hc | hc
      · exact ih (n / 10) (by omega) c hc
      · rw [List.mem_singleton.mp hc]
        exact digit_ne _ (by omega)

theorem decimal_length (n : Nat) (k : Nat) : 10 ^ k ≤ n → n < 10 ^ (k + 1) → (decimal n).length = k + 1 := by
  induction k generalizing n with
  | zero =>
    intro _ h
    rw [decimal_small n (by simpa using h)]
    rfl
  | succ k ih =>
    intro h1 h2
    have h3 : 10 ≤ n := by
      have : 10 ^ (k + 1) = 10 ^ k * 10 := Nat.pow_succ ..
      have : 0 < 10 ^ k := Nat.pow_pos (by omega)
      omega
    rw [decimal_large n (by omega), List.length_append, ih (n / 10)]
    · rfl
    · have : 10 ^ (k + 1) = 10 ^ k * 10 := Nat.pow_succ ..
      omega
    · have : 10 ^ (k + 1 + 1) = 10 ^ (k + 1) * 10 := Nat.pow_succ ..
      omega

theorem two_order (a b : Nat) (ha : a < 100) (hb : b < 100) : (two a < two b ↔ a < b) ∧ (two a = two b ↔ a = b) := by
  have h1 := digit_lt (a / 10) (by omega) (b / 10) (by omega)
  have h2 := digit_inj (a / 10) (by omega) (b / 10) (by omega)
  have h3 := digit_lt (a % 10) (by omega) (b % 10) (by omega)
  have h4 := digit_inj (a % 10) (by omega) (b % 10) (by omega)
  constructor
  · simp only [two, List.cons_lt_cons_iff, h1, h2, h3, List.not_lt_nil, and_false, or_false]
    omega
  · simp only [two, List.cons.injEq, h2, h4, and_true]
    omega

theorem same_head_lt (c : Char) (u v : List Char) : c :: u < c :: v ↔ u < v := by
  rw [List.cons_lt_cons_iff]
  simp

theorem not_self_lt : ∀ u : List Char, ¬ u < u
  | [] => List.not_lt_nil _
  | c :: u => by rw [same_head_lt]; exact not_self_lt u

/-- What follows the first `-` is determined. -/
theorem split_dash : ∀ (u u' v v' : List Char), (∀ c ∈ u, c ≠ '-') → (∀ c ∈ u', c ≠ '-') →
    u ++ '-' :: v = u' ++ '-' :: v' → u = u' ∧ v = v'
  | [], [], v, v', _, _, e => by simpa using e
  | [], b :: u', v, v', _, h', e => by
    simp only [List.nil_append, List.cons_append, List.cons.injEq] at e
    exact absurd e.1.symm (h' b List.mem_cons_self)
  | a :: u, [], v, v', h, _, e => by
    simp only [List.nil_append, List.cons_append, List.cons.injEq] at e
    exact absurd e.1 (h a List.mem_cons_self)
  | a :: u, b :: u', v, v', h, h', e => by
    simp only [List.cons_append, List.cons.injEq] at e
    obtain ⟨e1, e2⟩ := split_dash u u' v v' (fun c hc => h c (List.mem_cons_of_mem _ hc))
      (fun c hc => h' c (List.mem_cons_of_mem _ hc)) e.2
    exact ⟨by rw [e.1, e1], e2⟩

/-- What comes after the year is of fixed length. -/
def afterYear (t : Civil) : List Char :=
  two t.month ++ '-' :: (two t.day ++ '_' :: '_' :: (two t.hour ++ '-' :: (two t.minute ++ '-' :: two t.second)))

theorem afterYear_length (t : Civil) : (afterYear t).length = 15 := rfl

theorem afterYear_order (a b : Civil) (ha : a.Valid) (hb : b.Valid) :
    (afterYear a < afterYear b ↔ (a.month < b.month ∨ a.month = b.month ∧ (a.day < b.day ∨ a.day = b.day ∧
      (a.hour < b.hour ∨ a.hour = b.hour ∧ (a.minute < b.minute ∨ a.minute = b.minute ∧ a.second < b.second))))) ∧
    (afterYear a = afterYear b ↔ a.month = b.month ∧ a.day = b.day ∧ a.hour = b.hour ∧ a.minute = b.minute ∧
      a.second = b.second) := by
  obtain ⟨-, a1, -, a2, a3, a4, a5⟩ := ha
  obtain ⟨-, b1, -, b2, b3, b4, b5⟩ := hb
  have h1 := two_order a.month b.month (by omega) (by omega)
  have h2 := two_order a.day b.day (by omega) (by omega)
  have h3 := two_order a.hour b.hour (by omega) (by omega)
  have h4 := two_order a.minute b.minute (by omega) (by omega)
  have h5 := two_order a.second b.second (by omega) (by omega)
  have hl : ∀ x y : Nat, (two x).length = (two y).length := fun _ _ => rfl
  constructor
  · unfold afterYear
    rw [append_lt _ _ _ _ (hl _ _), same_head_lt, append_lt _ _ _ _ (hl _ _), same_head_lt, same_head_lt,
      append_lt _ _ _ _ (hl _ _), same_head_lt, append_lt _ _ _ _ (hl _ _), same_head_lt]
    rw [h1.1, h1.2, h2.1, h2.2, h3.1, h3.2, h4.1, h4.2, h5.1]
  · unfold afterYear
    constructor
    · intro e
      obtain ⟨e1, e⟩ := List.append_inj e (hl _ _)
      obtain ⟨e2, e⟩ := List.append_inj (List.cons.inj e).2 (hl _ _)
      obtain ⟨e3, e⟩ := List.append_inj (List.cons.inj (List.cons.inj e).2).2 (hl _ _)
      obtain ⟨e4, e⟩ := List.append_inj (List.cons.inj e).2 (hl _ _)
      exact ⟨h1.2.mp e1, h2.2.mp e2, h3.2.mp e3, h4.2.mp e4, h5.2.mp (List.cons.inj e).2⟩
    · rintro ⟨e1, e2, e3, e4, e5⟩
      rw [e1, e2, e3, e4, e5]

theorem putTime_eq (t : Civil) : putTime t = decimal t.year ++ '-' :: afterYear t := rfl

/-- C148: two times have the same string exactly if all their fields are the same. -/
theorem C148_distinct (a b : Civil) (ha : a.Valid) (hb : b.Valid) : putTime a = putTime b ↔ a = b := by
  constructor
  · intro e
    rw [putTime_eq, putTime_eq] at e
    obtain ⟨e1, e2⟩ := split_dash _ _ _ _ (decimal_digits _) (decimal_digits _) e
    have hy := (decimal_order a.year b.year (by rw [e1])).2.mp e1
    obtain ⟨f1, f2, f3, f4, f5⟩ := (afterYear_order a b ha hb).2.mp e2
    cases a; cases b
    simp only at hy f1 f2 f3 f4 f5
    simp [hy, f1, f2, f3, f4, f5]
  · rintro rfl; rfl

/-- C148: from the year 1000 to the year 9999 the alphabetical order of the strings is the order of the times. -/
theorem C148_sorted (a b : Civil) (ha : a.Valid) (hb : b.Valid) (ya : 1000 ≤ a.year ∧ a.year ≤ 9999)
    (yb : 1000 ≤ b.year ∧ b.year ≤ 9999) : putTime a < putTime b ↔ a.Before b := by
  have hla := decimal_length a.year 3 (by omega) (by omega)
  have hlb := decimal_length b.year 3 (by omega) (by omega)
  obtain ⟨h1, h2⟩ := decimal_order a.year b.year (by omega)
  rw [putTime_eq, putTime_eq, append_lt _ _ _ _ (by omega), same_head_lt, h1, h2, (afterYear_order a b ha hb).1]
  rfl

/-- C148: with milliseconds, two moments have the same string exactly if their local times and their milliseconds are the
same. -/
theorem C148_milliseconds_distinct (localtime : Nat → Civil) (hv : ∀ s, (localtime s).Valid) (m n : Nat) :
    timeStringMilliseconds localtime m = timeStringMilliseconds localtime n ↔
      localtime (m / 1000) = localtime (n / 1000) ∧ m % 1000 = n % 1000 := by
  constructor
  · intro e
    unfold timeStringMilliseconds at e
    rw [putTime_eq, putTime_eq, List.append_assoc, List.append_assoc, List.cons_append, List.cons_append] at e
    obtain ⟨e1, e2⟩ := split_dash _ _ _ _ (decimal_digits _) (decimal_digits _) e
    obtain ⟨e3, e4⟩ := List.append_inj e2 (by rw [afterYear_length, afterYear_length])
    refine ⟨(C148_distinct _ _ (hv _) (hv _)).mp (by rw [putTime_eq, putTime_eq, e1, e3]), ?_⟩
    have := (List.cons.inj e4).2
    exact (decimal_order _ _ (by rw [this])).2.mp this
  · rintro ⟨e1, e2⟩
    unfold timeStringMilliseconds
    rw [e1, e2]

/-- C148: without milliseconds, moments in the same second have the same string. -/
theorem C148_same_second (localtime : Nat → Civil) (hv : ∀ s, (localtime s).Valid) (m n : Nat) :
    timeString localtime m = timeString localtime n ↔ localtime (m / 1000) = localtime (n / 1000) :=
  C148_distinct _ _ (hv _) (hv _)

/-- C148: the strings with milliseconds are not in the order of time, because the milliseconds are written without leading
zeros: in every second, the moments from 10 to 99 milliseconds after its start whose milliseconds begin with a smaller digit
come before an earlier moment in its first 9 milliseconds. -/
theorem C148_milliseconds_unsorted (localtime : Nat → Civil) (s a b : Nat) (ha : a < 10) (hb : 10 ≤ b) (hb' : b < 100)
    (hab : b / 10 < a) :
    1000 * s + a < 1000 * s + b ∧
    timeStringMilliseconds localtime (1000 * s + b) < timeStringMilliseconds localtime (1000 * s + a) := by
  refine ⟨by omega, ?_⟩
  unfold timeStringMilliseconds
  have e1 : (1000 * s + b) / 1000 = s := by omega
  have e2 : (1000 * s + a) / 1000 = s := by omega
  have e3 : (1000 * s + b) % 1000 = b := by omega
  have e4 : (1000 * s + a) % 1000 = a := by omega
  rw [e1, e2, e3, e4, append_lt _ _ _ _ rfl]
  refine .inr ⟨rfl, ?_⟩
  rw [same_head_lt, decimal_small a ha, decimal_large b (by omega), decimal_small (b / 10) (by omega)]
  exact List.cons_lt_cons_iff.mpr (.inl ((digit_lt _ (by omega) a ha).mpr hab))

/-- C148: moments of the same second are in order if their milliseconds have equally many digits. -/
theorem C148_milliseconds_partly_sorted (localtime : Nat → Civil) (s a b : Nat) (k : Nat) (ha : 10 ^ k ≤ a)
    (ha' : a < 10 ^ (k + 1)) (hb : 10 ^ k ≤ b) (hb' : b < 10 ^ (k + 1)) (h : a < 1000) (h' : b < 1000) :
    timeStringMilliseconds localtime (1000 * s + a) < timeStringMilliseconds localtime (1000 * s + b) ↔ a < b := by
  unfold timeStringMilliseconds
  have e1 : (1000 * s + b) / 1000 = s := by omega
  have e2 : (1000 * s + a) / 1000 = s := by omega
  have e3 : (1000 * s + b) % 1000 = b := by omega
  have e4 : (1000 * s + a) % 1000 = a := by omega
  rw [e1, e2, e3, e4, append_lt _ _ _ _ rfl, same_head_lt]
  have := (decimal_order a b (by rw [decimal_length a k ha ha', decimal_length b k hb hb'])).1
  rw [this]
  exact ⟨fun h => h.elim (fun h => absurd h (not_self_lt _)) (·.2), fun h => .inr ⟨rfl, h⟩⟩

/-- The hypotheses are met. -/
example : (Civil.mk 2024 2 29 23 59 59).Valid := by simp [Civil.Valid]

example : String.ofList (putTime ⟨2024, 2, 9, 23, 5, 59⟩) = "2024-02-09__23-05-59" := by decide +kernel

example : (2 : Nat) < 10 ∧ 10 ≤ 15 ∧ 15 < 100 ∧ 15 / 10 < 2 := by decide

end Verif.Timestamps
