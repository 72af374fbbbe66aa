import Verif.Props.PathUtils

/-!
# C50, C51: resampling and upsampling of paths
-/
namespace Verif.PathUtils
open Verif
open Verif.Voxel (int64 truncate)
set_option linter.unusedSectionVars false

section
variable {K C : Type} [Field K] [LinearOrder K] [IsStrictOrderedRing K] [FloorRing K]

/-! ## Resampling -/

theorem pieceLoop_spec (interp : C → C → K → C) (a b : C) (n : Nat) (hn : n < 2 ^ 32 - 1) :
    ∀ (fuel segment : Nat) (acc : List C), segment ≤ n + 1 → n + 1 < segment + fuel →
    pieceLoop interp a b n fuel segment acc =
      some (acc ++ ((List.range (n + 1)).drop segment).map fun k : Nat => interp a b ((k : K) / (n : K))) := by
  intro fuel
  induction fuel with
  | zero => intro segment acc h1 h2; omega
  | succ fuel ih =>
    intro segment acc h1 h2
    rw [pieceLoop]
    by_cases h : segment ≤ n
    · rw [if_pos h, Nat.mod_eq_of_lt (by omega), ih (segment + 1) _ (by omega) (by omega)]
      have e : (List.range (n + 1)).drop segment = segment :: (List.range (n + 1)).drop (segment + 1) := by
        rw [List.drop_eq_getElem_cons (by simp; omega)]
        simp
      rw [e, List.map_cons, List.append_assoc, List.singleton_append]
    · rw [if_neg h, List.drop_eq_nil_of_le (by simp; omega)]
      simp

theorem drop_one_range (interp : C → C → K → C) (a b : C) (n : Nat) :
    ((List.range (n + 1)).drop 1).map (fun k : Nat => interp a b ((k : K) / (n : K))) = steps interp a b n := by
  unfold steps
  rw [List.range_succ_eq_map, List.drop_succ_cons, List.drop_zero, List.map_map]
  rfl

/-- the last number of pieces makes the counter wrap around for ever -/
theorem pieceLoop_diverges (interp : C → C → K → C) (a b : C) (n : Nat) (hn : 2 ^ 32 - 1 ≤ n) :
    ∀ (fuel segment : Nat) (acc : List C), segment < 2 ^ 32 → pieceLoop interp a b n fuel segment acc = none := by
  intro fuel
  induction fuel with
  | zero => intro segment acc _; rfl
  | succ fuel ih =>
    intro segment acc h
    rw [pieceLoop, if_pos (by omega)]
    exact ih _ _ (Nat.mod_lt _ (by norm_num))

theorem ceil_pieces {d r : K} (hr : 0 < r) (hd : 0 ≤ d) : LeastPieces d r ⌈d / r⌉.toNat := by
  have h0 : 0 ≤ ⌈d / r⌉ := Int.ceil_nonneg (div_nonneg hd hr.le)
  have e : ((⌈d / r⌉.toNat : Nat) : K) = (⌈d / r⌉ : K) := by
    rw [← Int.cast_natCast, Int.toNat_of_nonneg h0]
  refine ⟨?_, ?_⟩
  · rw [e, ← div_le_iff₀ hr]
    exact Int.le_ceil _
  · intro m hm
    have : ⌈d / r⌉ ≤ (m : Int) := by
      rw [Int.ceil_le, div_le_iff₀ hr]
      exact_mod_cast hm
    omega

theorem steps_one (interp : C → C → K → C) (a b : C) (h1 : interp a b 1 = b) : steps interp a b 1 = [b] := by
  simp [steps, h1]

theorem resampleLoop_spec (dist : C → C → K) (interp : C → C → K → C) (r : K) (hr : 0 < r)
    (path : List C) (hi : ∀ a b, interp a b 1 = b)
    (h0 : ∀ a b, Consecutive path a b → 0 ≤ dist a b ∧ dist a b ≤ (2 ^ 32 - 2) * r) (fuel : Nat)
    (hfuel : 2 ^ 32 ≤ fuel) :
    ∀ (left idx : Nat) (a : C) (acc : List C), path[idx]? = some a → idx + left < path.length →
    ∃ out, resampleLoop dist interp r path fuel left idx acc = some (.ok (acc ++ out)) ∧
      Resampled dist interp r ((path.drop idx).take (left + 1)) (a :: out) := by
  intro left
  induction left with
  | zero =>
    intro idx a acc ha hl
    refine ⟨[], by rw [resampleLoop]; simp, ?_⟩
    obtain ⟨hlt, ha⟩ := List.getElem?_eq_some_iff.1 ha
    rw [List.drop_eq_getElem_cons hlt, ha, List.take_succ_cons, List.take_zero]
    exact .single a
  | succ left ih =>
    intro idx a acc ha hl
    have hlt1 : idx + 1 < path.length := by omega
    obtain ⟨b, hb⟩ : ∃ b, path[idx + 1]? = some b := ⟨_, List.getElem?_eq_getElem hlt1⟩
    obtain ⟨hd0, hd1⟩ := h0 a b ⟨idx, ha, hb⟩
    have hp := ceil_pieces hr hd0
    have c0 : 0 ≤ ⌈dist a b / r⌉ := Int.ceil_nonneg (div_nonneg hd0 hr.le)
    have c1 : ⌈dist a b / r⌉ ≤ 2 ^ 32 - 2 := by
      rw [Int.ceil_le, div_le_iff₀ hr]
      refine hd1.trans (le_of_eq ?_)
      norm_num
    have hnil : steps interp a b 0 = [] := rfl
    have shape : ∀ out : List C, Resampled dist interp r ((path.drop (idx + 1)).take (left + 1)) (b :: out) →
        Resampled dist interp r ((path.drop idx).take (left + 1 + 1))
          (a :: (steps interp a b ⌈dist a b / r⌉.toNat ++ out)) := by
      intro out h
      obtain ⟨hlt, ha'⟩ := List.getElem?_eq_some_iff.1 ha
      obtain ⟨_, hb'⟩ := List.getElem?_eq_some_iff.1 hb
      rw [List.drop_eq_getElem_cons hlt, ha', List.take_succ_cons, List.drop_eq_getElem_cons hlt1, hb',
        List.take_succ_cons]
      rw [List.drop_eq_getElem_cons hlt1, hb', List.take_succ_cons] at h
      exact .step a b _ out _ hp h
    rw [resampleLoop, ha, hb]
    dsimp only
    rw [if_neg (by rintro (h | h | h) <;> [exact hr.ne' h; omega; omega])]
    by_cases n0 : ⌈dist a b / r⌉.toNat = 0
    · rw [if_pos n0]
      obtain ⟨out, g1, g2⟩ := ih (idx + 1) b acc hb (by omega)
      have := shape out g2
      rw [n0, hnil, List.nil_append] at this
      exact ⟨out, g1, this⟩
    · rw [if_neg n0]
      by_cases n1 : ⌈dist a b / r⌉.toNat = 1
      · rw [if_pos n1]
        obtain ⟨out, g1, g2⟩ := ih (idx + 1) b (acc ++ [b]) hb (by omega)
        have := shape out g2
        rw [n1, steps_one interp a b (hi a b)] at this
        refine ⟨[b] ++ out, by rw [g1, List.append_assoc], this⟩
      · rw [if_neg n1, pieceLoop_spec interp a b _ (by omega) fuel 1 acc (by omega) (by omega)]
        dsimp only
        rw [drop_one_range]
        obtain ⟨out, g1, g2⟩ := ih (idx + 1) b (acc ++ steps interp a b ⌈dist a b / r⌉.toNat) hb (by omega)
        exact ⟨_, by rw [g1, List.append_assoc], shape out g2⟩

/-- Resampling a part of a path cuts each of its segments into the least number of equal pieces no longer than
the resampling distance. -/
theorem C50_resample (path : List C) (start stop : Nat) (r : K) (dist : C → C → K) (interp : C → C → K → C)
    (fuel : Nat) (h1 : start < stop) (h2 : stop ≤ path.length) (hr : 0 < r) (hi : ∀ a b, interp a b 1 = b)
    (h0 : ∀ a b, Consecutive path a b → 0 ≤ dist a b ∧ dist a b ≤ (2 ^ 32 - 2) * r) (hfuel : 2 ^ 32 ≤ fuel) :
    ∃ out, resamplePathPartial path start stop r dist interp fuel = some (.ok out) ∧
      Resampled dist interp r ((path.drop start).take (stop - start)) out := by
  unfold resamplePathPartial
  rw [if_neg (by omega)]
  have hlt : start < path.length := by omega
  have hs := List.getElem?_eq_getElem hlt
  rw [hs]
  dsimp only
  by_cases h : stop - start = 1
  · rw [if_pos h]
    refine ⟨_, rfl, ?_⟩
    rw [h, List.drop_eq_getElem_cons hlt, List.take_succ_cons, List.take_zero]
    exact .single _
  · rw [if_neg h]
    obtain ⟨out, g1, g2⟩ := resampleLoop_spec dist interp r hr path hi h0 fuel hfuel (stop - 1 - start) start
      path[start] [path[start]] hs (by omega)
    rw [show stop - 1 - start + 1 = stop - start by omega] at g2
    exact ⟨_, g1, g2⟩

/-- `ResamplePath` does so for the whole path. -/
theorem C50_whole (path : List C) (r : K) (dist : C → C → K) (interp : C → C → K → C)
    (fuel : Nat) (h1 : path ≠ []) (hr : 0 < r) (hi : ∀ a b, interp a b 1 = b)
    (h0 : ∀ a b, Consecutive path a b → 0 ≤ dist a b ∧ dist a b ≤ (2 ^ 32 - 2) * r) (hfuel : 2 ^ 32 ≤ fuel) :
    ∃ out, resamplePath path r dist interp fuel = some (.ok out) ∧ Resampled dist interp r path out := by
  obtain ⟨out, g1, g2⟩ := C50_resample path 0 path.length r dist interp fuel (List.length_pos_iff.2 h1)
    (le_refl _) hr hi h0 hfuel
  refine ⟨out, g1, ?_⟩
  simpa using g2

theorem steps_last (interp : C → C → K → C) (a b : C) (n : Nat) (hn : n ≠ 0) (hi : interp a b 1 = b) :
    ∃ front, steps interp a b n = front ++ [b] := by
  obtain ⟨m, rfl⟩ := Nat.exists_eq_succ_of_ne_zero hn
  refine ⟨(List.range m).map fun k => interp a b (((k + 1 : Nat) : K) / ((m + 1 : Nat) : K)), ?_⟩
  unfold steps
  rw [Nat.succ_eq_add_one, List.range_succ, List.map_append, List.map_singleton, div_self (by positivity), hi]

theorem pieces_zero {d r : K} (_ : 0 < r) (hd : 0 ≤ d) {n : Nat} (h : LeastPieces d r n) : n = 0 ↔ d = 0 := by
  constructor
  · rintro rfl
    have := h.1
    simp at this
    exact le_antisymm this hd
  · rintro rfl
    have := h.2 0 (by simp)
    omega

/-- A resampled path keeps, in order, the first state and every state at positive distance from its
predecessor. If only equal states are at distance 0 it keeps all states and ends at the same state. -/
theorem C50_keeps (path out : List C) (r : K) (dist : C → C → K) (interp : C → C → K → C) (hr : 0 < r)
    (hi : ∀ a b, interp a b 1 = b) (h0 : ∀ a b, 0 ≤ dist a b) (h : Resampled dist interp r path out) :
    out.head? = path.head? ∧ (path.take 1 ++ moved dist path).Sublist out ∧
    ((∀ a b, dist a b = 0 → a = b) → (∀ x ∈ path, x ∈ out) ∧ out.getLast? = path.getLast?) := by
  refine ⟨by cases h <;> rfl, ?_, ?_⟩
  · induction h with
    | single a => simp [moved]
    | step a b rest out n hp h ih =>
      rw [List.take_succ_cons, List.take_zero, List.singleton_append] at ih ⊢
      refine List.Sublist.cons_cons a ?_
      rw [moved]
      have ih' := List.cons_sublist_cons.1 ih
      by_cases hd : dist a b = 0
      · rw [if_pos hd]
        exact ih'.trans (List.sublist_append_right _ _)
      · rw [if_neg hd]
        obtain ⟨front, e⟩ := steps_last interp a b n (by rwa [ne_eq, pieces_zero hr (h0 a b) hp]) (hi a b)
        rw [e, List.append_assoc]
        exact (List.Sublist.cons_cons b ih').trans (List.sublist_append_right _ _)
  · intro he
    induction h with
    | single a => simp
    | step a b rest out n hp h ih =>
      obtain ⟨ih1, ih2⟩ := ih
      by_cases hd : dist a b = 0
      · have hn := (pieces_zero hr (h0 a b) hp).2 hd
        subst hn
        have := he a b hd
        subst this
        have e : steps interp a a 0 = [] := rfl
        rw [e, List.nil_append]
        refine ⟨fun x hx => ih1 x (by simpa using hx), ?_⟩
        rw [ih2]
        simp [List.getLast?_cons]
      · obtain ⟨front, e⟩ := steps_last interp a b n (by rwa [ne_eq, pieces_zero hr (h0 a b) hp]) (hi a b)
        rw [e]
        constructor
        · intro x hx
          rcases List.mem_cons.1 hx with rfl | hx
          · simp
          · have := ih1 x hx
            simp only [List.mem_cons, List.mem_append] at this ⊢
            tauto
        · rw [List.append_assoc, List.singleton_append]
          have e2 : (a :: (front ++ b :: out)).getLast? = (b :: out).getLast? := by
            simp [List.getLast?_cons, List.getLast?_append]
          rw [e2, ih2]
          simp [List.getLast?_cons]

/-- If distances along an interpolated segment grow with the ratio, and states at distance 0 are equal, the
states of a resampled path are at most the resampling distance apart. -/
theorem C50_spacing (path out : List C) (r : K) (dist : C → C → K) (interp : C → C → K → C) (hr : 0 < r)
    (hi0 : ∀ a b, interp a b 0 = a) (hi : ∀ a b, interp a b 1 = b)
    (h0 : ∀ a b, 0 ≤ dist a b) (he : ∀ a b, dist a b = 0 → a = b)
    (hg : ∀ a b s t, 0 ≤ s → s ≤ t → t ≤ 1 → dist (interp a b s) (interp a b t) = (t - s) * dist a b)
    (h : Resampled dist interp r path out) :
    ∀ x y, Consecutive out x y → dist x y ≤ r := by
  induction h with
  | single a =>
    rintro x y ⟨i, -, h2⟩
    simp at h2
  | step a b rest out n hp h ih =>
    rintro x y ⟨i, h1, h2⟩
    by_cases hn : n = 0
    · have := he a b ((pieces_zero hr (h0 a b) hp).1 hn)
      subst this; subst hn
      exact ih x y ⟨i, h1, h2⟩
    · have hnp : (0 : K) < n := by exact_mod_cast Nat.pos_of_ne_zero hn
      have hsl : (steps interp a b n).length = n := by simp [steps]
      have get : ∀ k, k ≤ n → (a :: (steps interp a b n ++ out))[k]? = some (interp a b ((k : K) / n)) := by
        intro k hk
        cases k with
        | zero => simp [hi0]
        | succ k =>
          rw [List.getElem?_cons_succ, List.getElem?_append_left (by omega)]
          unfold steps
          rw [List.getElem?_map, List.getElem?_range (by omega)]
          rfl
      by_cases hk : i + 1 ≤ n
      · rw [get i (by omega)] at h1
        rw [get (i + 1) hk] at h2
        injection h1 with h1
        injection h2 with h2
        rw [← h1, ← h2, hg a b _ _ (by positivity)
          (by rw [div_le_div_iff_of_pos_right hnp]; push_cast; linarith)
          (by rw [div_le_one hnp]; exact_mod_cast hk)]
        have e : (((i + 1 : Nat) : K) / n - (i : K) / n) * dist a b = dist a b / n := by
          push_cast; field_simp; ring
        rw [e, div_le_iff₀ hnp, mul_comm]
        exact hp.1
      · refine ih x y ⟨i - n, ?_, ?_⟩
        · rcases Nat.eq_or_lt_of_le (by omega : n ≤ i) with c | c
          · subst c
            rw [get n (le_refl _), div_self hnp.ne', hi] at h1
            simpa using h1
          · rw [← h1, show i = (i - n - 1) + n + 1 by omega, List.getElem?_cons_succ,
              List.getElem?_append_right (by omega), hsl, show i - n - 1 + n + 1 - n = i - n - 1 + 1 by omega,
              List.getElem?_cons_succ]
            congr 1
            omega
        · rw [← h2, List.getElem?_cons_succ, List.getElem?_cons_succ, List.getElem?_append_right (by omega), hsl]

/-- Index ranges that are empty or reach beyond the path throw; a zero resampling distance and a number of
pieces beyond the range of `uint32_t` are undefined behaviour, and its largest value makes the call run for
ever. -/
theorem C50_errors (path : List C) (r : K) (dist : C → C → K) (interp : C → C → K → C) (fuel : Nat) :
    (∀ start stop, resamplePathPartial path start stop r dist interp fuel = some (.throws .invalidArgument) ↔
      stop ≤ start ∨ path.length < stop) ∧
    resamplePath ([] : List C) r dist interp fuel = some (.throws .invalidArgument) ∧
    (∀ a b, (r = 0 ∨ 0 < r ∧ (2 ^ 32 - 1) * r < dist a b) → resamplePath [a, b] r dist interp fuel = some .ub) ∧
    (∀ a b, 0 < r → (2 ^ 32 - 2) * r < dist a b → dist a b ≤ (2 ^ 32 - 1) * r →
      resamplePath [a, b] r dist interp fuel = none) := by
  have loop : ∀ (left idx : Nat) (acc : List C),
      resampleLoop dist interp r path fuel left idx acc ≠ some (.throws .invalidArgument) := by
    intro left
    induction left with
    | zero => intro idx acc h; cases h
    | succ left ih =>
      intro idx acc h
      rw [resampleLoop] at h
      split at h
      · dsimp only at h
        split at h
        · cases h
        · split at h
          · exact ih _ _ h
          · split at h
            · exact ih _ _ h
            · split at h
              · cases h
              · exact ih _ _ h
      · cases h
  refine ⟨?_, rfl, ?_, ?_⟩
  · intro start stop
    unfold resamplePathPartial
    constructor
    · intro h
      by_contra hn
      rw [if_neg (by omega)] at h
      split at h
      · cases h
      · split at h
        · cases h
        · exact loop _ _ _ h
    · intro h
      rw [if_pos (by omega)]
  · intro a b h
    have hc : r = 0 ∨ ⌈dist a b / r⌉ < 0 ∨ 2 ^ 32 ≤ ⌈dist a b / r⌉ := by
      rcases h with h | ⟨h1, h2⟩
      · exact .inl h
      · right; right
        have : (2 ^ 32 - 1 : Int) < ⌈dist a b / r⌉ := by
          rw [Int.lt_ceil, lt_div_iff₀ h1]
          refine lt_of_eq_of_lt ?_ h2
          norm_num
        omega
    unfold resamplePath resamplePathPartial
    simp only [List.length_cons, List.length_nil]
    norm_num
    rw [resampleLoop]
    simp only [List.getElem?_cons_zero, List.getElem?_cons_succ]
    rw [if_pos hc]
  · intro a b hr h1 h2
    have c1 : (2 ^ 32 - 2 : Int) < ⌈dist a b / r⌉ := by
      rw [Int.lt_ceil, lt_div_iff₀ hr]
      refine lt_of_eq_of_lt ?_ h1
      norm_num
    have c2 : ⌈dist a b / r⌉ ≤ (2 ^ 32 - 1 : Int) := by
      rw [Int.ceil_le, div_le_iff₀ hr]
      refine h2.trans (le_of_eq ?_)
      norm_num
    unfold resamplePath resamplePathPartial
    simp only [List.length_cons, List.length_nil]
    norm_num
    rw [resampleLoop]
    simp only [List.getElem?_cons_zero, List.getElem?_cons_succ]
    rw [if_neg (by rintro (h | h | h) <;> [exact hr.ne' h; omega; omega]), if_neg (by omega),
      if_neg (by omega), pieceLoop_diverges interp a b _ (by omega) fuel 1 _ (by norm_num)]

end

end Verif.PathUtils
