import Verif.Model.PathSpecial
import Verif.Model.ResampleRounded
import Verif.Spec.PathSpecial
import Verif.Props.Resample
import Verif.Props.MathSpecial

/-!
# Property C191 (path_utils.hpp): resampling paths with special doubles
-/
namespace Verif.PathSpecial
open Verif
open Verif.PathUtils (Consecutive)
open Verif.VoxelSpecial (toInt64 ceil)

variable {C : Type} (A : Ieee)

theorem toUint32_ceil (q : ℝ) : toUint32 (ceil (.num q)) = if 0 ≤ ⌈q⌉ ∧ ⌈q⌉ < 2 ^ 32 then .ok ⌈q⌉.toNat else .ub := by
  simp only [ceil, toUint32]
  have e : (if (0 : ℝ) ≤ (⌈q⌉ : ℝ) then ⌊(⌈q⌉ : ℝ)⌋ else ⌈(⌈q⌉ : ℝ)⌉) = ⌈q⌉ := by split <;> simp
  rw [e]

theorem convertible_iff (q : ℝ) : Convertible (.num q) ↔ 0 ≤ ⌈q⌉ ∧ ⌈q⌉ < 2 ^ 32 := by
  have h1 : 0 ≤ ⌈q⌉ ↔ -1 < q := by
    rw [← Int.sub_one_lt_iff, Int.lt_ceil]; norm_num
  have h2 : ⌈q⌉ < 2 ^ 32 ↔ q ≤ 2 ^ 32 - 1 := by
    rw [← Int.le_sub_one_iff, Int.ceil_le]; norm_num
  rw [h1, h2]
  constructor
  · rintro ⟨p, h, g1, g2⟩
    injection h with h
    subst h
    exact ⟨g1, g2⟩
  · rintro ⟨g1, g2⟩
    exact ⟨q, rfl, g1, g2⟩

theorem toUint32_not {d : Dbl} (h : ¬ Convertible d) : toUint32 (ceil d) = .ub := by
  cases d with
  | nan => rfl
  | inf s => rfl
  | num q => rw [toUint32_ceil, if_neg (fun g => h ((convertible_iff q).2 g))]

theorem piece_end (interp : C → C → Dbl → C) (a b : C) (n : Nat) (hn : n < 2 ^ 32 - 1) (hn0 : n ≠ 0) (acc : List C)
    (fuel : Nat) (hf : 2 ^ 32 ≤ fuel) : ∃ acc', pieceLoop A interp a b n fuel 1 acc = some acc' := by
  have : ∀ (fuel segment : Nat) (acc : List C), pieceLoop A interp a b n fuel segment acc =
      PathUtils.pieceLoop (fun a b (t : ℝ) => interp a b (A.round t)) a b n fuel segment acc := by
    intro fuel
    induction fuel with
    | zero => intro segment acc; rfl
    | succ fuel ih =>
      intro segment acc
      have hd : A.div (.num segment) (.num n) = A.round ((segment : ℝ) / n) := by
        simp only [Ieee.div]; rw [if_neg (by exact_mod_cast hn0)]
      rw [pieceLoop, PathUtils.pieceLoop, ih, hd]
  rw [this, PathUtils.pieceLoop_spec _ _ _ _ hn fuel 1 acc (by omega) (by omega)]
  exact ⟨_, rfl⟩

/-! ## What is undefined -/

theorem loop_undefined (path : List C) (r : Dbl) (dist : C → C → Dbl) (interp : C → C → Dbl → C) (fuel : Nat) (bad : Nat)
    (a b : C) (ha : path[bad]? = some a) (hb : path[bad + 1]? = some b) (h : ¬ Convertible (A.div (dist a b) r)) :
    ∀ (left idx : Nat) (acc : List C), idx ≤ bad → bad < idx + left →
      (resampleLoop A dist interp r path fuel left idx acc = none ∨
        resampleLoop A dist interp r path fuel left idx acc = some .ub) ∧
      (2 ^ 32 ≤ fuel → (∀ x y q, Consecutive path x y → A.div (dist x y) r = .num q → q ≤ 2 ^ 32 - 2 ∨ 2 ^ 32 - 1 < q) →
        resampleLoop A dist interp r path fuel left idx acc = some .ub) := by
  intro left
  induction left with
  | zero => intro idx acc h1 h2; omega
  | succ left ih =>
    intro idx acc h1 h2
    rw [resampleLoop]
    have hlt := (List.getElem?_eq_some_iff.1 hb).1
    rw [List.getElem?_eq_getElem (show idx < path.length by omega),
      List.getElem?_eq_getElem (show idx + 1 < path.length by omega)]
    dsimp only
    by_cases hi : idx = bad
    · subst hi
      have e1 : path[idx] = a := by
        have := List.getElem?_eq_getElem (show idx < path.length by omega)
        rw [ha] at this; injection this with this; exact this.symm
      have e2 : path[idx + 1] = b := by
        have := List.getElem?_eq_getElem (show idx + 1 < path.length by omega)
        rw [hb] at this; injection this with this; exact this.symm
      rw [e1, e2, toUint32_not h]
      exact ⟨.inr rfl, fun _ _ => rfl⟩
    · have next := fun acc => ih (idx + 1) acc (by omega) (by omega)
      have hc : Consecutive path path[idx] path[idx + 1] :=
        ⟨idx, List.getElem?_eq_getElem _, List.getElem?_eq_getElem _⟩
      by_cases hq : Convertible (A.div (dist path[idx] path[idx + 1]) r)
      · obtain ⟨q, e, -, -⟩ := id hq
        rw [e] at hq ⊢
        rw [toUint32_ceil, if_pos ((convertible_iff q).1 hq)]
        dsimp only
        split
        · exact next acc
        · rename_i n0
          split
          · exact next _
          · cases hp : pieceLoop A interp path[idx] path[idx + 1] ⌈q⌉.toNat fuel 1 acc with
            | some acc' => exact next acc'
            | none =>
              refine ⟨.inl rfl, fun hf hE => ?_⟩
              have hq2 := (convertible_iff q).1 hq
              have hle : ⌈q⌉ ≤ 2 ^ 32 - 2 := by
                rcases hE _ _ q hc e with g | g
                · rw [Int.ceil_le]; push_cast; linarith
                · obtain ⟨p, hp, -, g2⟩ := hq
                  injection hp with hp
                  subst hp
                  linarith
              obtain ⟨acc', h'⟩ := piece_end A interp path[idx] path[idx + 1] ⌈q⌉.toNat (by omega) n0 acc fuel hf
              rw [hp] at h'
              cases h'
      · rw [toUint32_not hq]
        exact ⟨.inr rfl, fun _ _ => rfl⟩

/-- **C191.** If, for two states that follow each other in the range, the quotient of distance and resolution is not a
number that fits into `uint32_t`, then resampling returns nothing: it is undefined, unless it does not come to an end
before (which takes a segment of exactly `2 ^ 32 - 1` pieces). -/
theorem C191_undefined (path : List C) (start stop : Nat) (r : Dbl) (dist : C → C → Dbl) (interp : C → C → Dbl → C)
    (fuel : Nat) (hs : stop ≤ path.length) (k : Nat) (hk1 : start ≤ k) (hk2 : k + 1 < stop) (a b : C)
    (ha : path[k]? = some a) (hb : path[k + 1]? = some b) (h : ¬ Convertible (A.div (dist a b) r)) :
    (resamplePathPartial A path start stop r dist interp fuel = none ∨
      resamplePathPartial A path start stop r dist interp fuel = some .ub) ∧
    (2 ^ 32 ≤ fuel → (∀ x y q, Consecutive path x y → A.div (dist x y) r = .num q → q ≤ 2 ^ 32 - 2 ∨ 2 ^ 32 - 1 < q) →
      resamplePathPartial A path start stop r dist interp fuel = some .ub) := by
  unfold resamplePathPartial
  rw [if_neg (by omega), List.getElem?_eq_getElem (show start < path.length by omega)]
  dsimp only
  rw [if_neg (by omega)]
  exact loop_undefined A path r dist interp fuel k a b ha hb h _ _ _ hk1 (by omega)

/-- **C191.** Distances that are infinite or not a number, and resolutions that are zero or not a number, have no such
quotient. -/
theorem C191_not_finite (d r : Dbl) (h : ¬ d.Finite ∨ r = .nan ∨ r = .num 0) : ¬ Convertible (A.div d r) := by
  have key : ¬ (A.div d r).Finite := by
    rintro ⟨z, hz⟩
    cases d with
    | nan => cases hz
    | inf s => cases r <;> cases hz
    | num x =>
      rcases h with h | rfl | rfl
      · exact h ⟨x, rfl⟩
      · cases hz
      · simp only [Ieee.div, if_true] at hz
        split at hz <;> cases hz
  rintro ⟨q, hq, -⟩
  exact key ⟨q, hq⟩

/-! ## States that are dropped -/

theorem loop_dropped (path : List C) (r : Dbl) (dist : C → C → Dbl) (interp : C → C → Dbl → C) (fuel : Nat) :
    ∀ (left idx : Nat) (acc : List C), idx + left < path.length →
      (∀ k a b, idx ≤ k → k < idx + left → path[k]? = some a → path[k + 1]? = some b →
        ∃ q, A.div (dist a b) r = .num q ∧ -1 < q ∧ q ≤ 0) →
      resampleLoop A dist interp r path fuel left idx acc = some (.ok acc) := by
  intro left
  induction left with
  | zero => intro idx acc _ _; rfl
  | succ left ih =>
    intro idx acc hl h
    rw [resampleLoop, List.getElem?_eq_getElem (show idx < path.length by omega),
      List.getElem?_eq_getElem (show idx + 1 < path.length by omega)]
    dsimp only
    obtain ⟨q, e, q1, q2⟩ := h idx _ _ (le_refl _) (by omega) (List.getElem?_eq_getElem (show idx < path.length by omega))
      (List.getElem?_eq_getElem (show idx + 1 < path.length by omega))
    have hz : ⌈q⌉ = 0 := by
      rw [Int.ceil_eq_iff]; constructor <;> push_cast <;> linarith
    rw [e, toUint32_ceil, hz, if_pos ⟨le_refl _, by norm_num⟩]
    dsimp only
    rw [if_pos (show Int.toNat 0 = 0 from rfl)]
    exact ih _ _ (by omega) fun k a b k1 k2 => h k a b (by omega) (by omega)

/-- **C191.** If all quotients are numbers above minus one and at most zero, then only the first state is left: the
path does not end as it did. -/
theorem C191_dropped (path : List C) (start stop : Nat) (r : Dbl) (dist : C → C → Dbl) (interp : C → C → Dbl → C)
    (fuel : Nat) (h1 : start < stop) (hs : stop ≤ path.length)
    (h : ∀ k a b, start ≤ k → k + 1 < stop → path[k]? = some a → path[k + 1]? = some b →
      ∃ q, A.div (dist a b) r = .num q ∧ -1 < q ∧ q ≤ 0) :
    ∃ first, path[start]? = some first ∧ resamplePathPartial A path start stop r dist interp fuel = some (.ok [first]) := by
  refine ⟨_, List.getElem?_eq_getElem (show start < path.length by omega), ?_⟩
  unfold resamplePathPartial
  rw [if_neg (by omega), List.getElem?_eq_getElem (show start < path.length by omega)]
  dsimp only
  split
  · rfl
  · exact loop_dropped A path r dist interp fuel _ _ _ (by omega) fun k a b k1 k2 => h k a b k1 (by omega)

/-- **C191.** So it is with an infinite resolution, if the distances are numbers. -/
theorem C191_infinite_resolution (path : List C) (s : Bool) (dist : C → C → Dbl) (interp : C → C → Dbl → C) (fuel : Nat)
    (hd : ∀ a b, Consecutive path a b → (dist a b).Finite) (first : C) (rest : List C) (hp : path = first :: rest) :
    resamplePath A path (.inf s) dist interp fuel = some (.ok [first]) := by
  subst hp
  obtain ⟨f, e, h⟩ := C191_dropped A (first :: rest) 0 (first :: rest).length (.inf s) dist interp fuel (by simp)
    (le_refl _) (by
      intro k a b _ _ ha hb
      obtain ⟨x, hx⟩ := hd a b ⟨k, ha, hb⟩
      refine ⟨0, ?_, by norm_num, le_refl _⟩
      rw [hx]
      rfl)
  have : f = first := by simpa using e.symm
  subst this
  exact h

/-! ## Numbers -/

theorem pieceLoop_agrees (interp : C → C → Dbl → C) (a b : C) (n : Nat) (hn : n ≠ 0) :
    ∀ (fuel segment : Nat) (acc : List C), pieceLoop A interp a b n fuel segment acc =
      ResampleRounded.pieceLoop A.R (fun a b t => interp a b (.num t)) a b n fuel segment acc := by
  intro fuel
  induction fuel with
  | zero => intro segment acc; rfl
  | succ fuel ih =>
    intro segment acc
    rw [pieceLoop, ResampleRounded.pieceLoop]
    by_cases hs : segment ≤ n
    · rw [if_pos hs, if_pos hs, ih]
      have hn' : (0 : ℝ) < n := by exact_mod_cast Nat.pos_of_ne_zero hn
      have hle : (segment : ℝ) / n ≤ 1 := by
        rw [div_le_one hn']; exact_mod_cast hs
      have h0 : (0 : ℝ) ≤ (segment : ℝ) / n := by positivity
      have hd : A.div (.num segment) (.num n) = .num (A.R.rd ((segment : ℝ) / n)) := by
        simp only [Ieee.div]
        rw [if_neg hn'.ne', A.round_small]
        rw [abs_of_nonneg h0]
        exact le_trans hle (by norm_num)
      rw [hd]
    · rw [if_neg hs, if_neg hs]

theorem loop_agrees (path : List C) (r : ℝ) (dist : C → C → ℝ) (interp : C → C → Dbl → C) (fuel : Nat) :
    ∀ (left idx : Nat) (acc : List C),
      resampleLoop A (fun a b => .num (dist a b)) interp (.num r) path fuel left idx acc =
      ResampleRounded.resampleLoop A.R dist (fun a b t => interp a b (.num t)) r path fuel left idx acc := by
  intro left
  induction left with
  | zero => intro idx acc; rfl
  | succ left ih =>
    intro idx acc
    rw [resampleLoop, ResampleRounded.resampleLoop]
    cases path[idx]? with
    | none => rfl
    | some a =>
      cases path[idx + 1]? with
      | none => rfl
      | some b =>
        dsimp only
        by_cases hr : r = 0
        · rw [if_pos (.inl hr), toUint32_not (C191_not_finite A _ _ (.inr (.inr (by rw [hr]))))]
        · have hd : A.div (.num (dist a b)) (.num r) = A.round (dist a b / r) := by
            simp only [Ieee.div]; rw [if_neg hr]
          rw [hd]
          generalize dist a b / r = x
          have same : toUint32 (ceil (A.round x)) =
              if 0 ≤ ⌈A.R.rd x⌉ ∧ ⌈A.R.rd x⌉ < 2 ^ 32 then .ok ⌈A.R.rd x⌉.toNat else .ub := by
            rcases A.round_cases x with ⟨e, _⟩ | ⟨⟨s, e⟩, ht⟩
            · rw [e, toUint32_ceil]
            · rw [e, if_neg]
              · rfl
              · rw [← convertible_iff]
                rintro ⟨q, hq, q1, q2⟩
                injection hq with hq
                subst hq
                have h64 := A.large
                have : |A.R.rd x| ≤ 2 ^ 32 := abs_le.2 ⟨by linarith, by linarith⟩
                have : (2 : ℝ) ^ 64 < 2 ^ 32 := by linarith
                norm_num at this
          rw [same]
          by_cases hc : 0 ≤ ⌈A.R.rd x⌉ ∧ ⌈A.R.rd x⌉ < 2 ^ 32
          · rw [if_pos hc, if_neg (by rintro (g | g) <;> [exact hr g; omega])]
            dsimp only
            split
            · exact ih _ _
            · rename_i n0
              split
              · exact ih _ _
              · rw [pieceLoop_agrees A interp a b _ n0]
                cases ResampleRounded.pieceLoop A.R (fun a b t => interp a b (.num t)) a b ⌈A.R.rd x⌉.toNat fuel 1 acc with
                | none => rfl
                | some acc => exact ih _ _
          · rw [if_neg hc, if_pos (.inr (by omega))]

/-- **C191.** If the distances and the resolution are numbers, then nothing but rounding is involved. -/
theorem C191_agrees (path : List C) (start stop : Nat) (r : ℝ) (dist : C → C → ℝ) (interp : C → C → Dbl → C)
    (fuel : Nat) : resamplePathPartial A path start stop (.num r) (fun a b => .num (dist a b)) interp fuel =
      ResampleRounded.resamplePathPartial A.R path start stop r dist (fun a b t => interp a b (.num t)) fuel := by
  unfold resamplePathPartial ResampleRounded.resamplePathPartial
  simp only [loop_agrees]
  cases path[start]? <;> rfl

/-- **C191.** Index ranges are checked as always, and the whole path is the range of all indices. -/
theorem C191_ranges (path : List C) (start stop : Nat) (r : Dbl) (dist : C → C → Dbl) (interp : C → C → Dbl → C)
    (fuel : Nat) : (stop ≤ start ∨ path.length < stop →
      resamplePathPartial A path start stop r dist interp fuel = some (.throws .invalidArgument)) ∧
    (stop = start + 1 → stop ≤ path.length → ∃ a, path[start]? = some a ∧
      resamplePathPartial A path start stop r dist interp fuel = some (.ok [a])) ∧
    resamplePath A path r dist interp fuel = resamplePathPartial A path 0 path.length r dist interp fuel := by
  refine ⟨fun h => if_pos h, ?_, rfl⟩
  rintro rfl h
  refine ⟨_, List.getElem?_eq_getElem (show start < path.length by omega), ?_⟩
  unfold resamplePathPartial
  rw [if_neg (by omega), List.getElem?_eq_getElem (show start < path.length by omega)]
  dsimp only
  rw [if_pos (by omega)]

/-! ## Cases that meet the hypotheses -/

/-- Infinitely far states. -/
example : resamplePath MathSpecial.exIeee [false, true] (.num 1) (fun _ _ => .inf false) (fun a _ _ => a) (2 ^ 32) =
    some .ub :=
  (C191_undefined MathSpecial.exIeee [false, true] 0 2 (.num 1) (fun _ _ => .inf false) (fun a _ _ => a) (2 ^ 32) (le_refl _)
    0 (le_refl _) (by norm_num) false true rfl rfl
    (C191_not_finite _ _ _ (.inl (by rintro ⟨x, h⟩; cases h)))).2 (le_refl _) (by intro x y q _ h; cases h)

/-- A path of three states at distance five: with an infinite resolution one state is left. -/
example : resamplePath MathSpecial.exIeee [1, 2, 3] (.inf false) (fun _ _ => .num 5) (fun a _ _ => a) 0 = some (.ok [1]) :=
  C191_infinite_resolution _ _ _ _ _ _ (fun _ _ _ => ⟨5, rfl⟩) 1 [2, 3] rfl

end Verif.PathSpecial
