import Verif.Model.VectorMath
import Mathlib.Algebra.Order.Round
import Mathlib.Tactic.NormNum
import Mathlib.Tactic.Linarith
import Mathlib.Tactic.FieldSimp
import Mathlib.Tactic.Ring
import Mathlib.Tactic.Positivity

/-!
# Lemmas about the elementwise loops and rounding
-/
namespace Verif.VectorMath
open Verif

theorem fill_from {α T : Type} (l : List α) (f : α → Out T) (P : α → Prop) [DecidablePred P] (g : α → T)
    (hf : ∀ a ∈ l, f a = if P a then .ok (g a) else .ub) (value : Nat → Out T)
    (hv : ∀ idx (h : idx < l.length), value idx = f l[idx]) : ∀ (k idx : Nat) (out : List T),
    l.length - idx = k → idx ≤ l.length → out.length = l.length → out.take idx = (l.take idx).map g →
    fill value idx out = if ∀ a ∈ l.drop idx, P a then .ok (l.map g) else .ub := by
  intro k
  induction k with
  | zero =>
    intro idx out hk hi hl ht
    have : idx = l.length := by omega
    rw [fill, dif_neg (by omega), this, List.drop_length]
    rw [this, ← hl, List.take_length, hl, List.take_length] at ht
    rw [ht, if_pos (by simp)]
  | succ k ih =>
    intro idx out hk hi hl ht
    have hlt : idx < l.length := by omega
    rw [fill, dif_pos (by omega), hv idx hlt, hf _ (List.getElem_mem hlt), List.drop_eq_getElem_cons hlt]
    by_cases hP : P l[idx]
    · rw [if_pos hP, Out.bind_ok, ih (idx + 1) _ (by omega) (by omega) (by rw [List.length_set]; exact hl)]
      · have : (∀ a ∈ l[idx] :: l.drop (idx + 1), P a) ↔ ∀ a ∈ l.drop (idx + 1), P a := by
          rw [List.forall_mem_cons]
          exact ⟨fun h => h.2, fun h => ⟨hP, h⟩⟩
        simp only [this]
      · rw [List.take_succ_eq_append_getElem hlt, List.map_append, ← ht,
          List.take_succ_eq_append_getElem (by rw [List.length_set]; omega), List.getElem_set_self,
          List.take_set_of_le (le_refl _)]
        rfl
    · rw [if_neg hP, Out.bind_ub, if_neg (fun h => hP (h _ List.mem_cons_self))]

theorem fill_one {T : Type} (l : List T) (f : T → Out T) (P : T → Prop) [DecidablePred P] (g : T → T) (z : T)
    (hf : ∀ a ∈ l, f a = if P a then .ok (g a) else .ub) :
    fill (fun idx => do let a ← at' l idx; f a) 0 (List.replicate l.length z) =
      if ∀ a ∈ l, P a then .ok (l.map g) else .ub := by
  rw [fill_from l f P g hf _ _ _ 0 _ rfl (Nat.zero_le _) List.length_replicate rfl, List.drop_zero]
  intro idx h
  simp [at', h]

theorem fill_two {T : Type} (l m : List T) (f : T → T → Out T) (P : T → T → Prop) [∀ a b, Decidable (P a b)]
    (g : T → T → T) (z : T) (hl : l.length = m.length)
    (hf : ∀ a ∈ l, ∀ b ∈ m, f a b = if P a b then .ok (g a b) else .ub) :
    fill (fun idx => do let a ← at' l idx; let b ← at' m idx; f a b) 0 (List.replicate l.length z) =
      if ∀ p ∈ l.zip m, P p.1 p.2 then .ok (List.zipWith g l m) else .ub := by
  rw [fill_from (l.zip m) (fun p => f p.1 p.2) (fun p => P p.1 p.2) (fun p => g p.1 p.2)
    (fun p hp => hf _ (List.of_mem_zip hp).1 _ (List.of_mem_zip hp).2) _ _ _ 0 _ rfl (Nat.zero_le _) (by simp [hl]) rfl, List.drop_zero]
  · rw [List.zip, List.map_zipWith]
  · intro idx h
    rw [List.length_zip] at h
    have h1 : idx < l.length := by omega
    have h2 : idx < m.length := by omega
    simp [at', h1, h2]

/-! ### Rounding -/

theorem two_zpow_pos (j : Int) : (0 : ℚ) < 2 ^ j := zpow_pos two_pos j

theorem nearest_int (n : Int) : nearest n = n := by
  simp [nearest]

theorem nearest_near (x : ℚ) : |(nearest x : ℚ) - x| ≤ 1 / 2 := by
  have h1 := Int.floor_le x
  have h2 := Int.lt_floor_add_one x
  unfold nearest
  rw [abs_le]
  split_ifs <;> push_cast <;> constructor <;> linarith

theorem le_nearest {x : ℚ} {n : Int} (h : (n : ℚ) ≤ x) : n ≤ nearest x := by
  have : n ≤ ⌊x⌋ := Int.le_floor.mpr h
  unfold nearest
  split_ifs <;> omega

theorem nearest_le {x : ℚ} {n : Int} (h : x ≤ n) : nearest x ≤ n := by
  rcases lt_or_eq_of_le h with h | h
  · have : ⌊x⌋ < n := Int.floor_lt.mpr h
    unfold nearest
    split_ifs <;> omega
  · rw [h, nearest_int]

theorem log_abs_pos {x : ℚ} (h : x ≠ 0) : (2 : ℚ) ^ Int.log 2 |x| ≤ |x| ∧ |x| < 2 ^ (Int.log 2 |x| + 1) :=
  ⟨by exact_mod_cast Int.zpow_log_le_self (b := 2) (by norm_num) (abs_pos.mpr h),
   by exact_mod_cast Int.lt_zpow_succ_log_self (b := 2) (by norm_num) |x|⟩

/-- The relative error of rounding -/
theorem roundDouble_near (x : ℚ) : |roundDouble x - x| ≤ |x| / 2 ^ 53 := by
  unfold roundDouble
  split_ifs with h
  · subst h; simp
  · simp only
    obtain ⟨h1, -⟩ := log_abs_pos h
    set u : ℚ := 2 ^ (Int.log 2 |x| - 52) with hu
    have hpos : 0 < u := two_zpow_pos _
    have e : (nearest (x / u) : ℚ) * u - x = ((nearest (x / u) : ℚ) - x / u) * u := by field_simp
    rw [e, abs_mul, abs_of_pos hpos]
    have h2 : |(nearest (x / u) : ℚ) - x / u| * u ≤ 1 / 2 * u := mul_le_mul_of_nonneg_right (nearest_near _) hpos.le
    have h3 : u = 2 ^ Int.log 2 |x| / 2 ^ 52 := by
      rw [hu, zpow_sub₀ two_ne_zero]; norm_cast
    rw [h3] at h2
    rw [h3]
    calc _ ≤ 1 / 2 * ((2 : ℚ) ^ Int.log 2 |x| / 2 ^ 52) := h2
      _ = 2 ^ Int.log 2 |x| / 2 ^ 53 := by ring
      _ ≤ |x| / 2 ^ 53 := by gcongr

/-- A whole number of at most 53 digits times a power of two is not rounded. -/
theorem roundDouble_exact (m : Int) (j : Int) (h : |m| ≤ 2 ^ 53) :
    roundDouble ((m : ℚ) * 2 ^ j) = m * 2 ^ j := by
  unfold roundDouble
  by_cases hm : m = 0
  · simp [hm]
  have hm' : (m : ℚ) ≠ 0 := by exact_mod_cast hm
  have hx : (m : ℚ) * 2 ^ j ≠ 0 := mul_ne_zero hm' (two_zpow_pos j).ne'
  rw [if_neg hx]
  simp only
  obtain ⟨h1, h2⟩ := log_abs_pos hx
  set e := Int.log 2 |(m : ℚ) * 2 ^ j| with he
  have hk : e - 52 ≤ j ∨ (e - 52 = j + 1 ∧ |m| = 2 ^ 53) := by
    have habs : |(m : ℚ) * 2 ^ j| = |(m : ℚ)| * 2 ^ j := by rw [abs_mul, abs_of_pos (two_zpow_pos j)]
    have hm53 : |(m : ℚ)| ≤ 2 ^ 53 := by exact_mod_cast h
    have hle : (2 : ℚ) ^ e ≤ 2 ^ (53 + j) := by
      rw [zpow_add₀ two_ne_zero]
      calc (2 : ℚ) ^ e ≤ |(m : ℚ)| * 2 ^ j := by rw [← habs]; exact h1
        _ ≤ 2 ^ 53 * 2 ^ j := mul_le_mul_of_nonneg_right hm53 (two_zpow_pos j).le
        _ = _ := by norm_cast
    have hle' : e ≤ 53 + j := (zpow_le_zpow_iff_right₀ (by norm_num)).mp hle
    rcases lt_or_eq_of_le hle' with hlt | heq
    · left; omega
    · right
      refine ⟨by omega, ?_⟩
      have : (2 : ℚ) ^ 53 * 2 ^ j ≤ |(m : ℚ)| * 2 ^ j := by
        rw [← habs]
        calc (2 : ℚ) ^ 53 * 2 ^ j = 2 ^ e := by rw [heq, zpow_add₀ two_ne_zero]; norm_cast
          _ ≤ _ := h1
      have := le_of_mul_le_mul_right this (two_zpow_pos j)
      have : (2 : Int) ^ 53 ≤ |m| := by exact_mod_cast this
      omega
  have key : ∃ n : Int, (m : ℚ) * 2 ^ j / 2 ^ (e - 52) = n := by
    rcases hk with hk | ⟨hk, hm53⟩
    · obtain ⟨d, hd⟩ := Int.le.dest hk
      refine ⟨m * 2 ^ d, ?_⟩
      rw [← hd, zpow_add₀ two_ne_zero]
      push_cast
      field_simp
      norm_cast
    · rw [hk, zpow_add₀ two_ne_zero]
      rcases abs_cases m with ⟨h1, -⟩ | ⟨h1, -⟩
      · refine ⟨2 ^ 52, ?_⟩
        have : m = 2 ^ 53 := by omega
        rw [this]; push_cast; field_simp; norm_num
      · refine ⟨-2 ^ 52, ?_⟩
        have : m = -2 ^ 53 := by omega
        rw [this]; push_cast; field_simp; norm_num
  obtain ⟨n, hn⟩ := key
  rw [hn, nearest_int, ← hn]
  field_simp

theorem roundDouble_int (m : Int) (h : |m| ≤ 2 ^ 53) : roundDouble (m : ℚ) = m := by
  have := roundDouble_exact m 0 h
  simpa using this

theorem le_roundDouble {x : ℚ} (h : 2 ^ 53 ≤ x) : 2 ^ 53 ≤ roundDouble x := by
  have hx : x ≠ 0 := by intro h0; rw [h0] at h; norm_num at h
  have hpos : 0 < x := lt_of_lt_of_le (by norm_num) h
  obtain ⟨h1, h2⟩ := log_abs_pos hx
  unfold roundDouble
  rw [if_neg hx]
  simp only
  set e := Int.log 2 |x|
  have he : 53 ≤ e := by
    rw [abs_of_pos hpos] at h2
    have : (2 : ℚ) ^ (53 : Int) < 2 ^ (e + 1) := lt_of_le_of_lt (by exact_mod_cast h) h2
    have := (zpow_lt_zpow_iff_right₀ (by norm_num : (1 : ℚ) < 2)).mp this
    omega
  rw [abs_of_pos hpos] at h1
  have hn : (2 : Int) ^ 52 ≤ nearest (x / 2 ^ (e - 52)) := by
    apply le_nearest
    rw [le_div_iff₀ (two_zpow_pos _)]
    refine le_trans (le_of_eq ?_) h1
    rw [zpow_sub₀ two_ne_zero]
    push_cast
    norm_cast
    field_simp
  have hn' : (2 : ℚ) ^ 52 ≤ nearest (x / 2 ^ (e - 52)) := by exact_mod_cast hn
  have hu : (2 : ℚ) ≤ 2 ^ (e - 52) := by
    calc (2 : ℚ) = 2 ^ (1 : Int) := by norm_num
      _ ≤ 2 ^ (e - 52) := zpow_le_zpow_right₀ (by norm_num) (by omega)
  calc (2 : ℚ) ^ 53 = 2 ^ 52 * 2 := by norm_num
    _ ≤ _ := mul_le_mul hn' hu (by norm_num) (le_trans (by positivity) hn')

theorem roundDouble_le {x : ℚ} (h : x ≤ -2 ^ 53) : roundDouble x ≤ -2 ^ 53 := by
  have hx : x ≠ 0 := by intro h0; rw [h0] at h; norm_num at h
  have hneg : x < 0 := lt_of_le_of_lt h (by norm_num)
  obtain ⟨h1, h2⟩ := log_abs_pos hx
  unfold roundDouble
  rw [if_neg hx]
  simp only
  set e := Int.log 2 |x|
  have he : 53 ≤ e := by
    rw [abs_of_neg hneg] at h2
    have : (2 : ℚ) ^ (53 : Int) < 2 ^ (e + 1) := lt_of_le_of_lt (by have : (2 : ℚ) ^ 53 ≤ -x := by linarith
                                                                    exact_mod_cast this) h2
    have := (zpow_lt_zpow_iff_right₀ (by norm_num : (1 : ℚ) < 2)).mp this
    omega
  rw [abs_of_neg hneg] at h1
  have hn : nearest (x / 2 ^ (e - 52)) ≤ -(2 : Int) ^ 52 := by
    apply nearest_le
    rw [div_le_iff₀ (two_zpow_pos _)]
    have : ((-(2 : Int) ^ 52 : Int) : ℚ) * 2 ^ (e - 52) = - 2 ^ e := by
      have h52 : (2 : ℚ) ^ (52 : Int) = 2 ^ 52 := by norm_cast
      rw [zpow_sub₀ two_ne_zero, h52]
      push_cast
      field_simp
      norm_num
    rw [this]; linarith
  have hn' : (nearest (x / 2 ^ (e - 52)) : ℚ) ≤ -2 ^ 52 := by exact_mod_cast hn
  have hu : (2 : ℚ) ≤ 2 ^ (e - 52) := by
    calc (2 : ℚ) = 2 ^ (1 : Int) := by norm_num
      _ ≤ 2 ^ (e - 52) := zpow_le_zpow_right₀ (by norm_num) (by omega)
  nlinarith

end Verif.VectorMath
