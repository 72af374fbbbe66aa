import Mathlib.Tactic.Linarith
import Mathlib.Tactic.Ring
import Mathlib.Tactic.FieldSimp
import Mathlib.Tactic.Positivity
import Mathlib.Tactic.NormNum
import Mathlib.Data.Rat.Floor
import Verif.Spec.PathUtils
import Verif.Props.Averages

/-!
# C49, C50, C51: shortcut smoothing, resampling and upsampling
-/
namespace Verif.PathUtils
open Verif
open Verif.Voxel (int64 truncate)
set_option linter.unusedSectionVars false

section
variable {K C : Type} [Field K] [LinearOrder K] [IsStrictOrderedRing K] [FloorRing K]

/-! ## Shortcuts -/

theorem truncate_bounds (x b : K) (hx : |x| ≤ b) (hb : b < 2 ^ 62) :
    ∃ t : Int, truncate x = .ok t ∧ -2 ^ 62 ≤ t ∧ t < 2 ^ 62 := by
  obtain ⟨h1, h2⟩ := abs_le.1 hx
  have key : ∀ t : Int, (-2 ^ 62 ≤ t ∧ t < 2 ^ 62) → int64 t = .ok t := by
    intro t ht
    unfold int64
    rw [if_pos ⟨by omega, by omega⟩]
  unfold truncate
  have e : ((2 ^ 62 : Int) : K) = 2 ^ 62 := by norm_num
  by_cases h : 0 ≤ x
  · rw [if_pos h]
    have t1 : (0 : Int) ≤ ⌊x⌋ := Int.floor_nonneg.2 h
    have t2 : ⌊x⌋ < 2 ^ 62 := by
      rw [Int.floor_lt, e]; linarith
    exact ⟨_, key _ ⟨by omega, t2⟩, by omega, t2⟩
  · rw [if_neg h]
    have t1 : ⌈x⌉ ≤ (0 : Int) := by rw [Int.ceil_le]; push_cast; linarith
    have t2 : -2 ^ 62 ≤ ⌈x⌉ := by
      have : (-2 ^ 62 : Int) < ⌈x⌉ + 1 := by
        rw [← sub_lt_iff_lt_add, Int.lt_ceil]
        push_cast
        linarith
      omega
    exact ⟨_, key _ ⟨t2, by omega⟩, t2, by omega⟩

theorem consecutive_shortcut {path : List C} {s e : Nat} {x y a b : C} (hs : path[s]? = some x)
    (he : path[e]? = some y) (hse : s + 1 < e)
    (h : Consecutive (path.take (s + 1) ++ path.drop e) a b) :
    Consecutive path a b ∨ (a = x ∧ b = y) := by
  obtain ⟨i, h1, h2⟩ := h
  have hsl := (List.getElem?_eq_some_iff.1 hs).1
  have hl : (path.take (s + 1)).length = s + 1 := by rw [List.length_take]; omega
  rcases Nat.lt_trichotomy i s with c | c | c
  · left
    rw [List.getElem?_append_left (by omega), List.getElem?_take_of_lt (by omega)] at h1
    rw [List.getElem?_append_left (by omega), List.getElem?_take_of_lt (by omega)] at h2
    exact ⟨i, h1, h2⟩
  · right
    subst c
    rw [List.getElem?_append_left (by omega), List.getElem?_take_of_lt (by omega), hs] at h1
    rw [List.getElem?_append_right (by omega), hl, List.getElem?_drop] at h2
    simp only [Nat.sub_self, Nat.add_zero] at h2
    rw [he] at h2
    injection h1 with h1
    injection h2 with h2
    exact ⟨h1.symm, h2.symm⟩
  · left
    rw [List.getElem?_append_right (by omega), hl, List.getElem?_drop] at h1
    rw [List.getElem?_append_right (by omega), hl, List.getElem?_drop] at h2
    exact ⟨_, h1, by rw [← h2]; congr 1; omega⟩

theorem sublist_shortcut (path : List C) (s e : Nat) (h : s ≤ e) : (path.take s ++ path.drop e).Sublist path := by
  conv_rhs => rw [← List.take_append_drop s path]
  refine (List.Sublist.refl _).append ?_
  rw [show e = s + (e - s) by omega, ← List.drop_drop]
  exact List.drop_sublist _ _

/-- the length of a path -/
def pathLength (dist : C → C → K) (l : List C) : K := (List.zipWith dist l l.tail).sum

theorem pathLength_split (dist : C → C → K) (front : List C) (x : C) (back : List C) :
    pathLength dist (front ++ x :: back) = pathLength dist (front ++ [x]) + pathLength dist (x :: back) := by
  obtain ⟨r, s, h1, h2, h3⟩ := (Averages.C73_total dist).2.2.1 front x back
  rw [Averages.totalDistance_eq] at h1 h2 h3
  injection h1 with h1; injection h2 with h2; injection h3 with h3
  unfold pathLength
  rw [h1, h2, h3]

theorem pathLength_shortcut (dist : C → C → K) (h0 : ∀ a, dist a a = 0)
    (htri : ∀ a b c, dist a c ≤ dist a b + dist b c) (front mid back : List C) (x y : C) :
    pathLength dist (front ++ x :: y :: back) ≤ pathLength dist (front ++ x :: (mid ++ y :: back)) := by
  rw [pathLength_split, pathLength_split dist front x (mid ++ y :: back)]
  have e1 : pathLength dist (x :: y :: back) = dist x y + pathLength dist (y :: back) := by
    simp [pathLength]
  have e2 := pathLength_split dist (x :: mid) y back
  rw [List.cons_append] at e2
  obtain ⟨r, h1, h2⟩ := (Averages.C73_total dist).2.2.2 h0 htri x (mid ++ [y])
  rw [Averages.totalDistance_eq] at h1
  injection h1 with h1
  have e3 : pathLength dist (x :: mid ++ [y]) = r := h1
  have e4 : (x :: (mid ++ [y])).getLast (List.cons_ne_nil _ _) = y := by simp
  rw [e4] at h2
  rw [e1, e2, e3]
  linarith

theorem shortcut_split {path : List C} {s e : Nat} {x y : C} (hs : path[s]? = some x)
    (he : path[e]? = some y) (hse : s + 1 < e) :
    ∃ front mid back, path = front ++ x :: (mid ++ y :: back) ∧
      path.take (s + 1) ++ path.drop e = front ++ x :: y :: back := by
  obtain ⟨ls, hs⟩ := List.getElem?_eq_some_iff.1 hs
  obtain ⟨le, he⟩ := List.getElem?_eq_some_iff.1 he
  refine ⟨path.take s, (path.drop (s + 1)).take (e - (s + 1)), path.drop (e + 1), ?_, ?_⟩
  · have e1 : path.drop e = y :: path.drop (e + 1) := by rw [List.drop_eq_getElem_cons le, he]
    have e2 : path.drop s = x :: path.drop (s + 1) := by rw [List.drop_eq_getElem_cons ls, hs]
    have e3 : path.drop e = (path.drop (s + 1)).drop (e - (s + 1)) := by rw [List.drop_drop]; congr 1; omega
    rw [← e1, e3, List.take_append_drop, ← e2, List.take_append_drop]
  · rw [List.drop_eq_getElem_cons le, he, List.take_succ_eq_append_getElem ls, hs]
    simp

/-- what holds of the path and the checks made so far, compared with the path at the start -/
structure Smooth (dist : C → C → K) (valid : Nat → C → C → Bool) (path cur : List C)
    (log : List (Check C)) : Prop where
  sub : cur.Sublist path
  head : cur.head? = path.head?
  last : cur.getLast? = path.getLast?
  cons : ∀ a b, Consecutive cur a b → Consecutive path a b ∨ Check.mk a b true ∈ log
  answers : ∀ (k : Nat) (c : Check C), log[k]? = some c → c.answer = valid k c.start c.stop
  shrink : cur.length + (log.filter (·.answer)).length ≤ path.length
  dist : (∀ a, dist a a = 0) → (∀ a b c, dist a c ≤ dist a b + dist b c) →
    pathLength dist cur ≤ pathLength dist path

theorem answers_snoc {valid : Nat → C → C → Bool} {log : List (Check C)}
    (h : ∀ (k : Nat) (c : Check C), log[k]? = some c → c.answer = valid k c.start c.stop) (a b : C) :
    ∀ (k : Nat) (c : Check C), (log ++ [⟨a, b, valid log.length a b⟩])[k]? = some c →
      c.answer = valid k c.start c.stop := by
  intro k c hc
  rcases Nat.lt_trichotomy k log.length with hk | hk | hk
  · rw [List.getElem?_append_left hk] at hc
    exact h k c hc
  · subst hk
    rw [List.getElem?_append_right (le_refl _)] at hc
    simp at hc
    rw [← hc]
  · rw [List.getElem?_eq_none (by simp; omega)] at hc
    cases hc

theorem shortcutLoop_spec (path : List C) (maxFailed : Nat) (maxFraction : K) (valid : Nat → C → C → Bool)
    (draw : Nat → Nat → Nat × K) (hf : 0 ≤ maxFraction)
    (hsize : (path.length : K) * maxFraction < 2 ^ 62) (hlen : path.length < 2 ^ 62)
    (hd : ∀ i n, 0 < n → (draw i n).1 < n ∧ |(draw i n).2| ≤ maxFraction) (dist : C → C → K) :
    ∀ (left i failed : Nat) (cur : List C) (log : List (Check C)), Smooth dist valid path cur log →
    (log.filter (! ·.answer)).length = failed → failed ≤ maxFailed → log.length ≤ i →
    ∃ cur' log', shortcutLoop maxFailed maxFraction valid draw left i failed cur log = .ok (cur', log') ∧
      Smooth dist valid path cur' log' ∧ (log'.filter (! ·.answer)).length ≤ maxFailed ∧
      log'.length ≤ i + left := by
  intro left
  induction left with
  | zero => intro i failed cur log h h1 h2 h3; exact ⟨cur, log, rfl, h, by omega, by omega⟩
  | succ left ih =>
    intro i failed cur log h h1 h2 h3
    rw [shortcutLoop]
    by_cases hc : failed < maxFailed ∧ cur.length > 2
    · rw [if_pos hc, if_neg (by linarith)]
      dsimp only
      have hcl : cur.length ≤ path.length := h.sub.length_le
      obtain ⟨hb, hfr⟩ := hd i cur.length (by omega)
      generalize (draw i cur.length).1 = base at *
      generalize (draw i cur.length).2 = fraction at *
      obtain ⟨shift, e1, s1, s2⟩ := truncate_bounds ((cur.length : K) * fraction)
        ((path.length : K) * maxFraction) (by
          rw [abs_mul, abs_of_nonneg (by positivity)]
          exact mul_le_mul (by exact_mod_cast hcl) hfr (abs_nonneg _) (by positivity)) hsize
      have e2 : int64 ((base : Int) + shift) = .ok ((base : Int) + shift) := by
        unfold int64; rw [if_pos ⟨by omega, by omega⟩]
      rw [e1, Out.bind_ok, e2, Out.bind_ok]
      obtain ⟨safe, e3, c1, c2⟩ : ∃ safe : Int, Clamp.clampValue ((base : Int) + shift) 0 ((cur.length : Int) - 1) =
          .ok safe ∧ 0 ≤ safe ∧ safe ≤ (cur.length : Int) - 1 := by
        unfold Clamp.clampValue Clamp.stdMin Clamp.stdMax
        rw [Out.assert_true (by omega), Out.bind_ok]
        refine ⟨_, rfl, ?_, ?_⟩ <;> split <;> split <;> omega
      rw [e3, Out.bind_ok]
      generalize hs : (min (base : Int) safe).toNat = s at *
      generalize he : (max (base : Int) safe).toNat = e at *
      by_cases hse : e ≤ s + 1
      · rw [if_pos hse]
        obtain ⟨cur', log', g1, g2, g3, g4⟩ := ih (i + 1) failed cur log h h1 h2 (by omega)
        exact ⟨cur', log', g1, g2, g3, by omega⟩
      · rw [if_neg hse]
        have hel : e < cur.length := by omega
        have hsl : s < cur.length := by omega
        rw [List.getElem?_eq_getElem hsl, List.getElem?_eq_getElem hel]
        dsimp only
        have hans := answers_snoc h.answers (cur[s]) (cur[e])
        by_cases ha : valid log.length cur[s] cur[e] = true
        · rw [if_pos ha]
          obtain ⟨front, mid, back, p1, p2⟩ := shortcut_split (List.getElem?_eq_getElem hsl)
            (List.getElem?_eq_getElem hel) (by omega)
          have hS : Smooth dist valid path (cur.take (s + 1) ++ cur.drop e)
              (log ++ [⟨cur[s], cur[e], valid log.length cur[s] cur[e]⟩]) := by
            refine ⟨(sublist_shortcut cur (s + 1) e (by omega)).trans h.sub, ?_, ?_, ?_, hans, ?_, ?_⟩
            · rw [← h.head, p2]
              conv_rhs => rw [p1]
              cases front <;> rfl
            · rw [← h.last, p2]
              conv_rhs => rw [p1]
              simp [List.getLast?_append, List.getLast?_cons]
            · intro a b hab
              rcases consecutive_shortcut (List.getElem?_eq_getElem hsl) (List.getElem?_eq_getElem hel)
                (by omega) hab with g | ⟨g1, g2⟩
              · rcases h.cons a b g with g | g
                · exact .inl g
                · exact .inr (List.mem_append_left _ g)
              · right
                rw [ha, g1, g2]
                simp
            · rw [List.filter_append, List.length_append, List.length_append, List.length_take,
                List.length_drop, ha]
              have := h.shrink
              simp
              omega
            · intro d0 dt
              refine le_trans ?_ (h.dist d0 dt)
              rw [p2]
              conv_rhs => rw [p1]
              exact pathLength_shortcut dist d0 dt front mid back _ _
          obtain ⟨cur', log', g1, g2, g3, g4⟩ := ih (i + 1) failed _ _ hS
            (by rw [List.filter_append, List.length_append, h1, ha]; simp) h2 (by simp; omega)
          exact ⟨cur', log', g1, g2, g3, by omega⟩
        · rw [if_neg ha]
          have ha' : valid log.length cur[s] cur[e] = false := by simpa using ha
          have hS : Smooth dist valid path cur
              (log ++ [⟨cur[s], cur[e], valid log.length cur[s] cur[e]⟩]) := by
            refine ⟨h.sub, h.head, h.last, ?_, hans, ?_, h.dist⟩
            · intro a b hab
              rcases h.cons a b hab with g | g
              · exact .inl g
              · exact .inr (List.mem_append_left _ g)
            · rw [List.filter_append, List.length_append, ha']
              simpa using h.shrink
          obtain ⟨cur', log', g1, g2, g3, g4⟩ := ih (i + 1) (failed + 1) _ _ hS
            (by rw [List.filter_append, List.length_append, h1, ha']; simp) (by omega) (by simp; omega)
          exact ⟨cur', log', g1, g2, g3, by omega⟩
    · rw [if_neg hc]
      exact ⟨cur, log, rfl, h, by omega, by omega⟩

/-- Shortcut smoothing returns a part of the path, in order and with the same ends; states that follow each
other in it did so before or were approved by the validity check; the number of checks and of failed checks is
bounded; every approved check shortens the path; and no path gets longer, for any distance with the triangle
inequality. -/
theorem C49_shortcut (path : List C) (maxIterations maxFailed : Nat) (maxFraction : K)
    (valid : Nat → C → C → Bool) (draw : Nat → Nat → Nat × K) (hf : 0 ≤ maxFraction)
    (hsize : (path.length : K) * maxFraction < 2 ^ 62) (hlen : path.length < 2 ^ 62)
    (hd : ∀ i n, 0 < n → (draw i n).1 < n ∧ |(draw i n).2| ≤ maxFraction) :
    ∃ result log, shortcutSmoothPath path maxIterations maxFailed maxFraction valid draw = .ok (result, log) ∧
      result.Sublist path ∧ result.head? = path.head? ∧ result.getLast? = path.getLast? ∧
      (∀ a b, Consecutive result a b → Consecutive path a b ∨ Check.mk a b true ∈ log) ∧
      (∀ (k : Nat) (c : Check C), log[k]? = some c → c.answer = valid k c.start c.stop) ∧
      log.length ≤ maxIterations ∧ (log.filter (! ·.answer)).length ≤ maxFailed ∧
      result.length + (log.filter (·.answer)).length ≤ path.length ∧
      (∀ dist : C → C → K, (∀ a, dist a a = 0) → (∀ a b c, dist a c ≤ dist a b + dist b c) →
        ∃ long short, Averages.totalDistance dist path = .ok long ∧
          Averages.totalDistance dist result = .ok short ∧ short ≤ long) := by
  have start : ∀ dist : C → C → K, Smooth dist valid path path [] := fun dist =>
    ⟨List.Sublist.refl _, rfl, rfl, fun a b h => .inl h, by simp, by simp, fun _ _ => le_refl _⟩
  have run := fun dist => shortcutLoop_spec path maxFailed maxFraction valid draw hf hsize hlen hd dist
    maxIterations 0 0 path [] (start dist) rfl (Nat.zero_le _) (Nat.zero_le _)
  obtain ⟨cur, log, h1, h2, h3, h4⟩ := run (fun _ _ => 0)
  refine ⟨cur, log, h1, h2.sub, h2.head, h2.last, h2.cons, h2.answers, by omega, h3, h2.shrink, ?_⟩
  intro dist d0 dt
  obtain ⟨cur', log', g1, g2, -, -⟩ := run dist
  rw [g1] at h1
  injection h1 with h1
  injection h1 with h1 _
  subst h1
  exact ⟨_, _, Averages.totalDistance_eq .., Averages.totalDistance_eq .., g2.dist d0 dt⟩

/-- Paths of at most two states, or smoothing with no (failed) iterations allowed, leave the path as it is. -/
theorem C49_unchanged (path : List C) (maxIterations maxFailed : Nat) (maxFraction : K)
    (valid : Nat → C → C → Bool) (draw : Nat → Nat → Nat × K)
    (h : path.length ≤ 2 ∨ maxIterations = 0 ∨ maxFailed = 0) :
    shortcutSmoothPath path maxIterations maxFailed maxFraction valid draw = .ok (path, []) := by
  unfold shortcutSmoothPath
  cases maxIterations with
  | zero => rfl
  | succ n =>
    rw [shortcutLoop, if_neg (by omega)]

end

/-- Example: of the path 0, 5, 1, 7, 2 the first draw picks the index 0 and half the path, and the shortcut
from 0 to 1 is approved. -/
example : shortcutSmoothPath [0, 5, 1, 7, 2] 1 3 (1 / 2 : ℚ) (fun _ a b => decide (a ≤ b))
    (fun _ _ => (0, 1 / 2)) = .ok ([0, 1, 7, 2], [⟨0, 1, true⟩]) := by
  decide +kernel

end Verif.PathUtils
