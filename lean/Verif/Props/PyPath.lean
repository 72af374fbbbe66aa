import Verif.Spec.PyPath
import Mathlib.Tactic.Linarith
import Mathlib.Tactic.Positivity
import Mathlib.Tactic.FieldSimp
import Mathlib.Tactic.Ring
import Mathlib.Tactic.LinearCombination

/-!
# C128: the closest point of a path (Python); C129: densifying and travelling along a path; C130: reversed
trajectories
-/
namespace Verif.PyPath
open Verif

variable {E : Type} [NormedAddCommGroup E] [InnerProductSpace ℝ E]

theorem tiny_pos : 0 < tiny := by unfold tiny; positivity

/-- C128: segments shorter than ten times 2^-52 count as points. -/
theorem C128_tolerance : tiny = 10 / 2 ^ 52 := by unfold tiny; ring

/-! ### The closest point -/

theorem dist_sq (a v q : E) (β : ℝ) :
    dist (a + β • v) q ^ 2 = ‖q - a‖ ^ 2 - 2 * β * inner ℝ (q - a) v + β ^ 2 * ‖v‖ ^ 2 := by
  unfold dist
  have e : a + β • v - q = β • v - (q - a) := by abel
  rw [e, norm_sub_sq_real, norm_smul, inner_smul_left, real_inner_comm, mul_pow, Real.norm_eq_abs, sq_abs]
  simp only [conj_trivial]
  ring

theorem clamp_best (c β : ℝ) (h0 : 0 ≤ β) (h1 : β ≤ 1) :
    0 ≤ (β - clamp c 0 1) * (β + clamp c 0 1 - 2 * c) ∧ 0 ≤ clamp c 0 1 ∧ clamp c 0 1 ≤ 1 := by
  unfold clamp
  rcases le_total c 0 with h | h
  · rw [max_eq_left h, min_eq_left zero_le_one]
    exact ⟨by nlinarith, le_refl _, zero_le_one⟩
  · rw [max_eq_right h]
    rcases le_total c 1 with h' | h'
    · rw [min_eq_left h']
      exact ⟨by nlinarith [sq_nonneg (β - c)], h, h'⟩
    · rw [min_eq_right h']
      exact ⟨by nlinarith, zero_le_one, le_refl _⟩

/-- C128: the closest point of a segment: the fraction lies between zero and one, the point is at that fraction, and
no point of the segment is closer. A segment shorter than ten units of rounding gives its first point, at most that
much further away. -/
theorem C128_segment (a b q : E) :
    let r := closestPointToLineSegment a b q
    0 ≤ r.2 ∧ r.2 ≤ 1 ∧ r.1 = a + r.2 • (b - a) ∧
    (tiny ≤ ‖b - a‖ → ∀ β : ℝ, 0 ≤ β → β ≤ 1 → ‖r.1 - q‖ ≤ ‖a + β • (b - a) - q‖) ∧
    (‖b - a‖ < tiny → r = (a, 0) ∧ ∀ β : ℝ, 0 ≤ β → β ≤ 1 → ‖a - q‖ ≤ ‖a + β • (b - a) - q‖ + ‖b - a‖) := by
  intro r
  by_cases h : ‖b - a‖ < tiny
  · have hr : r = (a, 0) := if_pos h
    refine ⟨by rw [hr], by rw [hr]; exact zero_le_one, by rw [hr]; simp, fun h' => absurd h (not_lt.mpr h'), fun _ => ⟨hr, ?_⟩⟩
    intro β h0 h1
    have e : a - q = (a + β • (b - a) - q) - β • (b - a) := by abel
    rw [e]
    refine (norm_sub_le _ _).trans ?_
    gcongr
    rw [norm_smul, Real.norm_of_nonneg h0]
    exact mul_le_of_le_one_left (norm_nonneg _) h1
  · have hv : 0 < ‖b - a‖ := lt_of_lt_of_le tiny_pos (not_lt.mp h)
    have hr : r = (a + clamp (inner ℝ (q - a) ((1 / ‖b - a‖) • (b - a)) / ‖b - a‖) 0 1 • (b - a),
        clamp (inner ℝ (q - a) ((1 / ‖b - a‖) • (b - a)) / ‖b - a‖) 0 1) := if_neg h
    rw [inner_smul_right] at hr
    set c := 1 / ‖b - a‖ * inner ℝ (q - a) (b - a) / ‖b - a‖ with hc
    have hcv : inner ℝ (q - a) (b - a) = c * ‖b - a‖ ^ 2 := by rw [hc]; field_simp
    refine ⟨?_, ?_, by rw [hr], ?_, fun h' => absurd h' h⟩
    · rw [hr]; exact (clamp_best c 0 le_rfl zero_le_one).2.1
    · rw [hr]; exact (clamp_best c 0 le_rfl zero_le_one).2.2
    · intro _ β h0 h1
      rw [hr]
      apply le_of_sq_le_sq _ (norm_nonneg _)
      have e1 := dist_sq a (b - a) q (clamp c 0 1)
      have e2 := dist_sq a (b - a) q β
      unfold dist at e1 e2
      simp only
      rw [e1, e2, hcv]
      obtain ⟨hb, -, -⟩ := clamp_best c β h0 h1
      nlinarith [mul_nonneg hb (sq_nonneg ‖b - a‖)]

/-- What a round knows: the best point so far is on the path, and no point seen so far is closer by more than `e`. -/
theorem segment_best (a b q : E) (e : ℝ) (he : 0 ≤ e) (hs : tiny ≤ e ∨ a = b ∨ tiny ≤ ‖b - a‖) (β : ℝ) (h0 : 0 ≤ β)
    (h1 : β ≤ 1) : dist (closestPointToLineSegment a b q).1 q ≤ dist (a + β • (b - a)) q + e := by
  obtain ⟨-, -, -, hlong, hshort⟩ := C128_segment a b q
  unfold dist
  by_cases h : ‖b - a‖ < tiny
  · obtain ⟨hr, hb⟩ := hshort h
    have hb' := hb β h0 h1
    rw [hr]
    simp only
    rcases hs with hs | hs | hs
    · linarith
    · subst hs
      simp only [sub_self, norm_zero, add_zero] at hb'
      simp only [sub_self]
      linarith
    · linarith
  · have := hlong (not_lt.mp h) β h0 h1
    linarith

/-- The invariant of the loop -/
def Inv (path : List E) (q : E) (e : ℝ) (k : Nat) (s : Closest E) : Prop :=
  s.d = dist s.point q ∧ At path s.ind s.alpha s.point ∧ ∀ i β x, i < k → At path i β x → s.d ≤ dist x q + e

theorem closestLoop_inv (path : List E) (q : E) (e : ℝ) (he : 0 ≤ e)
    (hs : ∀ i a b, path[i]? = some a → path[i + 1]? = some b → tiny ≤ e ∨ a = b ∨ tiny ≤ ‖b - a‖) (l : List E) :
    ∀ (k : Nat) (s : Closest E), path.drop k = l → Inv path q e k s →
      Inv path q e (path.length - 1) (closestLoop q l k s) := by
  induction l with
  | nil =>
    intro k s hk h
    have : path.length ≤ k := List.drop_eq_nil_iff.mp hk
    exact ⟨h.1, h.2.1, fun i β x hi hx => h.2.2 i β x (by omega) hx⟩
  | cons a l ih =>
    intro k s hk h
    have ha : path[k]? = some a := by rw [← List.head?_drop, hk]; rfl
    have hl : path.drop (k + 1) = l := by rw [← List.tail_drop, hk]; rfl
    cases l with
    | nil =>
      have : path.length ≤ k + 1 := List.drop_eq_nil_iff.mp hl
      exact ⟨h.1, h.2.1, fun i β x hi hx => h.2.2 i β x (by omega) hx⟩
    | cons b rest =>
      have hb : path[k + 1]? = some b := by rw [← List.head?_drop, hl]; rfl
      refine ih (k + 1) _ hl ?_
      obtain ⟨h0, h1, hp, -, -⟩ := C128_segment a b q
      have best := segment_best a b q e he (hs k a b ha hb)
      have hat : ∀ β x, At path k β x → dist (closestPointToLineSegment a b q).1 q ≤ dist x q + e := by
        intro β x hx
        obtain ⟨hβ0, hβ1, a', ha', hx⟩ := hx
        obtain rfl : a = a' := by rw [ha] at ha'; exact Option.some.inj ha'
        rcases hx with ⟨rfl, rfl⟩ | ⟨b', hb', rfl⟩
        · have := best 0 le_rfl zero_le_one
          simpa using this
        · obtain rfl : b = b' := by rw [hb] at hb'; exact Option.some.inj hb'
          exact best β hβ0 hβ1
      show Inv path q e (k + 1) (closestRound q s k a b)
      unfold closestRound
      simp only
      split
      · rename_i hlt
        refine ⟨rfl, ⟨h0, h1, a, ha, Or.inr ⟨b, hb, hp⟩⟩, ?_⟩
        intro i β x hi hx
        simp only
        rcases Nat.lt_succ_iff_lt_or_eq.mp hi with hi | rfl
        · exact hlt.le.trans (h.2.2 i β x hi hx)
        · exact hat β x hx
      · rename_i hlt
        refine ⟨h.1, h.2.1, ?_⟩
        intro i β x hi hx
        rcases Nat.lt_succ_iff_lt_or_eq.mp hi with hi | rfl
        · exact h.2.2 i β x hi hx
        · exact (not_lt.mp hlt).trans (hat β x hx)

/-- The last waypoint is at fraction one of the last segment, or the only one. -/
theorem at_last {path : List E} {i : Nat} {β : ℝ} {x : E} (h : At path i β x) (hn : 2 ≤ path.length) :
    ∃ j γ, j < path.length - 1 ∧ At path j γ x := by
  obtain ⟨h0, h1, a, ha, hx⟩ := h
  have hi := (List.getElem?_eq_some_iff.mp ha).1
  by_cases hj : i < path.length - 1
  · exact ⟨i, β, hj, h0, h1, a, ha, hx⟩
  · refine ⟨i - 1, 1, by omega, zero_le_one, le_rfl, ?_⟩
    obtain ⟨c, hc⟩ : ∃ c, path[i - 1]? = some c := ⟨_, List.getElem?_eq_getElem (by omega)⟩
    refine ⟨c, hc, Or.inr ⟨a, by rw [← ha]; congr 1; omega, ?_⟩⟩
    rcases hx with ⟨-, rfl⟩ | ⟨b, hb, -⟩
    · rw [one_smul]; abel
    · have := (List.getElem?_eq_some_iff.mp hb).1
      omega

theorem closestPoint_inv (path : List E) (q : E) (e : ℝ) (he : 0 ≤ e)
    (hs : ∀ i a b, path[i]? = some a → path[i + 1]? = some b → tiny ≤ e ∨ a = b ∨ tiny ≤ ‖b - a‖) (hne : path ≠ []) :
    ∃ pt ind alpha, closestPoint path q = .ok (pt, ind, alpha) ∧ At path ind alpha pt ∧ alpha < 1 ∧
      ∀ i β x, At path i β x → ‖pt - q‖ ≤ ‖x - q‖ + e := by
  cases path with
  | nil => exact absurd rfl hne
  | cons p rest =>
    have hinv0 : Inv (p :: rest) q e 0 ⟨dist p q, 0, p, 0⟩ :=
      ⟨rfl, ⟨le_rfl, zero_le_one, p, rfl, Or.inl ⟨rfl, rfl⟩⟩, fun i β x hi => absurd hi (Nat.not_lt_zero _)⟩
    have hinv := closestLoop_inv (p :: rest) q e he hs (p :: rest) 0 _ rfl hinv0
    have hbest : ∀ i β x, At (p :: rest) i β x →
        (closestLoop q (p :: rest) 0 ⟨dist p q, 0, p, 0⟩).d ≤ dist x q + e := by
      intro i β x hx
      cases rest with
      | cons b rest =>
        obtain ⟨j, γ, hj, hx'⟩ := at_last hx (by simp)
        exact hinv.2.2 j γ x hj hx'
      | nil =>
        obtain ⟨h0, h1, a, ha, hx⟩ := hx
        have hi := (List.getElem?_eq_some_iff.mp ha).1
        obtain rfl : i = 0 := by simpa using hi
        obtain rfl : p = a := by simpa using ha
        rcases hx with ⟨-, rfl⟩ | ⟨b, hb, -⟩
        · show dist x q ≤ dist x q + e
          linarith
        · simp at hb
    unfold closestPoint
    simp only
    generalize closestLoop q (p :: rest) 0 ⟨dist p q, 0, p, 0⟩ = s at hinv hbest
    obtain ⟨hd, hat, -⟩ := hinv
    split
    · rename_i h1
      refine ⟨_, _, _, rfl, ?_, zero_lt_one, fun i β x hx => ?_⟩
      · obtain ⟨-, -, a, ha, hx⟩ := hat
        rcases hx with ⟨h0, -⟩ | ⟨b, hb, hx⟩
        · rw [h1] at h0; exact absurd h0 one_ne_zero
        · refine ⟨le_rfl, zero_le_one, b, hb, Or.inl ⟨rfl, ?_⟩⟩
          rw [hx, h1, one_smul]; abel
      · have := hbest i β x hx
        rw [hd] at this
        exact this
    · rename_i h1
      refine ⟨_, _, _, rfl, hat, lt_of_le_of_ne hat.2.1 h1, fun i β x hx => ?_⟩
      have := hbest i β x hx
      rw [hd] at this
      exact this

/-- C128: for every path with a waypoint the result is a point of the path at the index and the fraction returned, the
fraction is below one, and no point of the path is closer by more than ten units of rounding. -/
theorem C128_closest_point (path : List E) (q : E) (hne : path ≠ []) :
    ∃ pt ind alpha, closestPoint path q = .ok (pt, ind, alpha) ∧ At path ind alpha pt ∧ alpha < 1 ∧
      ∀ i β x, At path i β x → ‖pt - q‖ ≤ ‖x - q‖ + tiny :=
  closestPoint_inv path q tiny tiny_pos.le (fun _ _ _ _ _ => Or.inl le_rfl) hne

/-- C128: if every segment has length zero or at least ten units of rounding, then no point of the path is closer. -/
theorem C128_closest_point_exact (path : List E) (q : E) (hne : path ≠ [])
    (hs : ∀ i a b, path[i]? = some a → path[i + 1]? = some b → a = b ∨ tiny ≤ ‖b - a‖) :
    ∃ pt ind alpha, closestPoint path q = .ok (pt, ind, alpha) ∧ At path ind alpha pt ∧ alpha < 1 ∧
      ∀ i β x, At path i β x → ‖pt - q‖ ≤ ‖x - q‖ := by
  obtain ⟨pt, ind, alpha, h, hat, ha, hb⟩ :=
    closestPoint_inv path q 0 le_rfl (fun i a b h1 h2 => Or.inr (hs i a b h1 h2)) hne
  exact ⟨pt, ind, alpha, h, hat, ha, fun i β x hx => by simpa using hb i β x hx⟩

/-- C128: an empty path raises. -/
theorem C128_closest_point_empty (q : E) : closestPoint ([] : List E) q = .error .indexError := rfl

/-- The hypotheses are met: the path of the real line from 0 to 2 and back to 1. -/
example : ∃ pt ind alpha, closestPoint [(0 : ℝ), 2, 1] 3 = .ok (pt, ind, alpha) ∧ At [(0 : ℝ), 2, 1] ind alpha pt ∧
    alpha < 1 ∧ ∀ i β x, At [(0 : ℝ), 2, 1] i β x → ‖pt - 3‖ ≤ ‖x - 3‖ := by
  refine C128_closest_point_exact _ _ (by simp) ?_
  intro i a b ha hb
  right
  have ht : tiny ≤ 1 := by unfold tiny; norm_num
  rcases i with _ | _ | i
  · simp at ha hb
    subst ha; subst hb
    norm_num; linarith
  · simp at ha hb
    subst ha; subst hb
    norm_num; linarith
  · simp at hb

/-! ### Lengths -/

omit [InnerProductSpace ℝ E] in
theorem lengthLoop_eq (l : List E) : ∀ (q : E) (d : ℝ), lengthLoop l q d = d + polylineLength (q :: l) := by
  induction l with
  | nil => intro q d; simp [lengthLoop, polylineLength]
  | cons a l ih =>
    intro q d
    rw [lengthLoop, ih, polylineLength, dist, norm_sub_rev]
    ring

omit [InnerProductSpace ℝ E] in
/-- C129: the length of a path is the sum of the distances of its consecutive points, zero for an empty path. -/
theorem C129_path_length (path : List E) : pathLength path = polylineLength path := by
  cases path with
  | nil => rfl
  | cons p rest => rw [pathLength, lengthLoop_eq, zero_add]

omit [InnerProductSpace ℝ E] in
theorem polylineLength_nonneg (l : List E) : 0 ≤ polylineLength l := by
  induction l with
  | nil => exact le_rfl
  | cons a l ih =>
    cases l with
    | nil => exact le_rfl
    | cons b l => rw [polylineLength]; exact add_nonneg (norm_nonneg _) ih

omit [InnerProductSpace ℝ E] in
theorem polylineLength_append (l : List E) (a : E) (r : List E) :
    polylineLength (l ++ a :: r) = polylineLength (l ++ [a]) + polylineLength (a :: r) := by
  induction l with
  | nil => simp [polylineLength]
  | cons b l ih =>
    cases l with
    | nil => simp [polylineLength]
    | cons c l =>
      simp only [List.cons_append, polylineLength] at ih ⊢
      rw [ih]; ring

/-! ### Densifying -/

/-- C129: the points which `densify_line` adds: `n` equal steps which end at the end point, where `n` is the least
number of steps none of which is longer than `max_dist`. -/
theorem C129_densify_line (s t : E) (m : ℝ) (hm : 0 < m) :
    ∃ n : ℕ, densifyLine s t m = .ok ((List.range n).map fun k : ℕ => s + (((k : ℝ) + 1) / n) • (t - s)) ∧
      ‖t - s‖ ≤ n * m ∧ ∀ k : ℕ, ‖t - s‖ ≤ k * m → n ≤ k := by
  have h0 : 0 ≤ ⌈‖s - t‖ / m⌉ := Int.ceil_nonneg (div_nonneg (norm_nonneg _) hm.le)
  obtain ⟨n, hn⟩ := Int.eq_ofNat_of_zero_le h0
  refine ⟨n, ?_, ?_, ?_⟩
  · unfold densifyLine dist
    rw [if_neg hm.ne']
    simp only [hn, Int.toNat_natCast, Int.cast_natCast]
  · have := Int.le_ceil (‖s - t‖ / m)
    rw [hn, div_le_iff₀ hm, norm_sub_rev] at this
    simpa using this
  · intro k hk
    have : ‖s - t‖ / m ≤ ((k : Int) : ℝ) := by
      rw [div_le_iff₀ hm, norm_sub_rev]; simpa using hk
    have := Int.ceil_le.mpr this
    omega

/-- The points `s + (k / n) • v` -/
noncomputable def step (s v : E) (n : ℕ) (k : ℕ) : E := s + ((k : ℝ) / n) • v

theorem steps_cons (s v : E) (n : ℕ) :
    s :: ((List.range n).map fun k : ℕ => s + (((k : ℝ) + 1) / n) • v) = (List.range (n + 1)).map (step s v n) := by
  rw [List.range_succ_eq_map, List.map_cons, List.map_map]
  congr 1
  · simp [step]
  · apply List.map_congr_left
    intro k _
    simp [step]

theorem step_diff (s v : E) (n k : ℕ) : ‖step s v n (k + 1) - step s v n k‖ = ‖v‖ / n := by
  have : step s v n (k + 1) - step s v n k = ((1 : ℝ) / n) • v := by
    unfold step
    rw [add_sub_add_left_eq_sub, ← sub_smul]
    congr 1
    rw [Nat.cast_succ]; ring
  rw [this, norm_smul, Real.norm_of_nonneg (by positivity)]
  ring

theorem steps_length (s v : E) (n m : ℕ) :
    polylineLength ((List.range (m + 1)).map (step s v n)) = m * (‖v‖ / n) := by
  induction m with
  | zero => simp [polylineLength]
  | succ m ih =>
    rw [List.range_succ, List.map_append, List.range_succ, List.map_append]
    simp only [List.map_cons, List.map_nil, List.append_assoc, List.cons_append, List.nil_append]
    rw [polylineLength_append]
    rw [List.range_succ, List.map_append] at ih
    simp only [List.map_cons, List.map_nil] at ih
    rw [ih]
    simp only [polylineLength, step_diff, Nat.cast_succ]
    ring

theorem step_last (s v : E) (n : ℕ) (hn : n ≠ 0) : step s v n n = s + v := by
  unfold step
  rw [div_self (by exact_mod_cast hn), one_smul]

/-- What `densify` has made of the waypoints `done` -/
def Dense (done : List E) (m : ℝ) (r : List E) : Prop :=
  r.head? = done.head? ∧ r.getLast? = done.getLast? ∧ List.IsChain (fun a b => ‖b - a‖ ≤ m) r ∧
  polylineLength r = polylineLength done ∧ (∀ p ∈ done, p ∈ r) ∧ Along done r

theorem at_append {path : List E} {i : Nat} {β : ℝ} {x : E} (l : List E) (h : At path i β x) :
    At (path ++ l) i β x := by
  obtain ⟨h0, h1, a, ha, hx⟩ := h
  have key : ∀ {j : Nat} {c : E}, path[j]? = some c → (path ++ l)[j]? = some c := by
    intro j c hj
    rw [List.getElem?_append_left (List.getElem?_eq_some_iff.mp hj).1, hj]
  refine ⟨h0, h1, a, key ha, ?_⟩
  rcases hx with hx | ⟨b, hb, hx⟩
  · exact Or.inl hx
  · exact Or.inr ⟨b, key hb, hx⟩

theorem at_place {path : List E} {i : Nat} {β : ℝ} {x : E} (h : At path i β x) :
    (i : ℝ) + β ≤ ((path.length - 1 : ℕ) : ℝ) := by
  obtain ⟨h0, h1, a, ha, hx⟩ := h
  have hi := (List.getElem?_eq_some_iff.mp ha).1
  rcases hx with ⟨rfl, -⟩ | ⟨b, hb, -⟩
  · rw [add_zero]; exact_mod_cast (by omega : i ≤ path.length - 1)
  · have hb := (List.getElem?_eq_some_iff.mp hb).1
    have : ((i + 1 : ℕ) : ℝ) ≤ ((path.length - 1 : ℕ) : ℝ) := by exact_mod_cast (by omega : i + 1 ≤ path.length - 1)
    push_cast at this
    linarith

theorem dense_step (d0 : List E) (s p : E) (m : ℝ) (hm : 0 < m) (r : List E) (h : Dense (d0 ++ [s]) m r) :
    r.getLast? = some s ∧ ∃ line, densifyLine s p m = .ok line ∧ Dense (d0 ++ [s] ++ [p]) m (r ++ line) := by
  obtain ⟨hh, hl, hc, hlen, hmem, marked, hmk, hat, hpw⟩ := h
  have hl' : r.getLast? = some s := by rw [hl]; simp
  refine ⟨hl', ?_⟩
  obtain ⟨n, hn, hle, -⟩ := C129_densify_line s p m hm
  refine ⟨_, hn, ?_⟩
  have hr : r ≠ [] := by rintro rfl; simp at hl'
  have hdone : polylineLength (d0 ++ [s] ++ [p]) = polylineLength (d0 ++ [s]) + ‖p - s‖ := by
    rw [List.append_assoc, List.singleton_append, polylineLength_append]
    simp [polylineLength]
  have hhead : (d0 ++ [s] ++ [p]).head? = (d0 ++ [s]).head? := by cases d0 <;> rfl
  rcases Nat.eq_zero_or_pos n with rfl | hpos
  · have hps : p = s := by
      have : ‖p - s‖ ≤ 0 := by simpa using hle
      exact sub_eq_zero.mp (norm_le_zero_iff.mp this)
    simp only [List.range_zero, List.map_nil, List.append_nil]
    refine ⟨by rw [hh, hhead], by rw [hl', hps]; simp, hc, by rw [hdone, hps, hlen]; simp, ?_, marked, hmk, ?_, hpw⟩
    · intro x hx
      rcases List.mem_append.mp hx with hx | hx
      · exact hmem x hx
      · rw [List.mem_singleton.mp hx, hps]
        exact hmem s (by simp)
    · intro x hx
      exact at_append _ (hat x hx)
  · obtain ⟨r0, hr0⟩ : ∃ r0, r = r0 ++ [s] := List.getLast?_eq_some_iff.mp hl'
    have hn0 : n ≠ 0 := by omega
    have hnr : (0 : ℝ) < n := by exact_mod_cast hpos
    have happ : r ++ (List.range n).map (fun k : ℕ => s + (((k : ℝ) + 1) / n) • (p - s)) =
        r0 ++ s :: (List.range n).map (fun k : ℕ => s + (((k : ℝ) + 1) / n) • (p - s)) := by
      rw [hr0, List.append_assoc]; rfl
    have hlast : (r0 ++ (List.range (n + 1)).map (step s (p - s) n)).getLast? = some p := by
      rw [List.range_succ, List.map_append, ← List.append_assoc]
      simp only [List.map_cons, List.map_nil, List.getLast?_append, List.getLast?_singleton, Option.some_or]
      rw [step_last _ _ _ hn0]; congr 1; abel
    refine ⟨?_, ?_, ?_, ?_, ?_, marked ++ (List.range n).map
        (fun k : ℕ => (d0.length, ((k : ℝ) + 1) / n, s + (((k : ℝ) + 1) / n) • (p - s))), ?_, ?_, ?_⟩
    · rw [hhead, ← hh, List.head?_append_of_ne_nil _ hr]
    · rw [happ, steps_cons, hlast]; simp
    · rw [happ, List.isChain_split]
      refine ⟨by rw [← hr0]; exact hc, ?_⟩
      rw [steps_cons, List.isChain_iff_getElem]
      intro i hi
      simp only [List.getElem_map, List.getElem_range, step_diff]
      rw [div_le_iff₀ hnr]
      linarith
    · rw [happ, polylineLength_append, ← hr0, hlen, hdone, steps_cons, steps_length]
      congr 1
      field_simp
    · intro x hx
      rcases List.mem_append.mp hx with hx | hx
      · exact List.mem_append_left _ (hmem x hx)
      · rw [List.mem_singleton.mp hx, happ, steps_cons]
        exact List.mem_of_getLast? hlast
    · rw [List.map_append, hmk, List.map_map]; rfl
    · intro x hx
      rcases List.mem_append.mp hx with hx | hx
      · exact at_append _ (hat x hx)
      · obtain ⟨k, hk, rfl⟩ := List.mem_map.mp hx
        have hk' : k < n := List.mem_range.mp hk
        have : ((k : ℝ) + 1) ≤ n := by exact_mod_cast hk'
        refine ⟨by positivity, (div_le_one hnr).mpr this, s, by simp, Or.inr ⟨p, by simp, rfl⟩⟩
    · rw [List.pairwise_append]
      refine ⟨hpw, ?_, ?_⟩
      · rw [List.pairwise_map]
        refine List.Pairwise.imp ?_ List.pairwise_lt_range
        intro a b hab
        have : (a : ℝ) ≤ b := by exact_mod_cast hab.le
        simp only
        gcongr
      · intro a ha b hb
        obtain ⟨k, hk, rfl⟩ := List.mem_map.mp hb
        have h1 := at_place (hat a ha)
        simp only [List.length_append, List.length_singleton, Nat.add_sub_cancel] at h1
        simp only
        have : (0 : ℝ) ≤ ((k : ℝ) + 1) / n := by positivity
        linarith

theorem densifyLoop_spec (m : ℝ) (hm : 0 < m) (rest : List E) : ∀ (d0 : List E) (s : E) (r : List E),
    Dense (d0 ++ [s]) m r → ∃ r', densifyLoop m rest r = .ok r' ∧ Dense (d0 ++ [s] ++ rest) m r' := by
  induction rest with
  | nil => intro d0 s r h; exact ⟨r, rfl, by simpa using h⟩
  | cons p rest ih =>
    intro d0 s r h
    obtain ⟨hl, line, hline, hd⟩ := dense_step d0 s p m hm r h
    obtain ⟨r', hr', hd'⟩ := ih (d0 ++ [s]) p (r ++ line) hd
    refine ⟨r', ?_, by simpa using hd'⟩
    rw [densifyLoop, hl]
    simp only [hline]
    exact hr'

/-- C129: densifying a path: the result starts and ends where the path does, its consecutive points are at most
`max_dist` apart, it has the same length, it has every waypoint, and its points lie on the path in order. -/
theorem C129_densify (path : List E) (m : ℝ) (hm : 0 < m) :
    ∃ r, densify path m = .ok r ∧ r.head? = path.head? ∧ r.getLast? = path.getLast? ∧
      List.IsChain (fun a b => ‖b - a‖ ≤ m) r ∧ polylineLength r = polylineLength path ∧
      (∀ p ∈ path, p ∈ r) ∧ Along path r := by
  cases path with
  | nil => exact ⟨[], rfl, rfl, rfl, List.IsChain.nil, rfl, fun _ h => h, [], rfl, by simp, List.Pairwise.nil⟩
  | cons p rest =>
    have h0 : Dense ([] ++ [p]) m [p] := by
      refine ⟨rfl, rfl, List.IsChain.singleton _, rfl, fun _ h => h, [(0, 0, p)], rfl, ?_, List.pairwise_singleton _ _⟩
      intro x hx
      rw [List.mem_singleton.mp hx]
      exact ⟨le_rfl, zero_le_one, p, rfl, Or.inl ⟨rfl, rfl⟩⟩
    exact densifyLoop_spec m hm rest [] p [p] h0

/-- C129: with the distance zero a path of two or more points raises. -/
theorem C129_densify_zero (a b : E) (rest : List E) : densify (a :: b :: rest) 0 = .error .valueError := by
  simp [densify, densifyLoop, densifyLine]

/-! ### Travelling -/

open Classical in
/-- Both loops -/
noncomputable def follow : E → List E → ℝ → List E
  | _, [], _ => []
  | q, next :: rest, d =>
    if d > 0 then
      match lastPoint q next d with
      | some p => [p]
      | none => next :: follow next rest (d - dist q next)
    else []

theorem travelForwards_eq (path : List E) (rest : List E) : ∀ (ind : Nat) (q : E) (d : ℝ) (acc : List E),
    ind < path.length → path.drop (ind + 1) = rest →
    travelForwards path ind q d acc = .ok (acc ++ follow q rest d) := by
  induction rest with
  | nil =>
    intro ind q d acc hi hr
    have : path.length ≤ ind + 1 := List.drop_eq_nil_iff.mp hr
    rw [travelForwards, if_pos (by omega : ind + 1 = path.length)]
    simp [follow]
  | cons next rest ih =>
    intro ind q d acc hi hr
    have hnext : path[ind + 1]? = some next := by rw [← List.head?_drop, hr]; rfl
    have hlen := (List.getElem?_eq_some_iff.mp hnext).1
    have hr' : path.drop (ind + 1 + 1) = rest := by rw [← List.tail_drop, hr]; rfl
    rw [travelForwards, if_neg (by omega : ¬ ind + 1 = path.length), follow]
    split
    · split
      · rename_i h; rw [hnext] at h; exact absurd h (by simp)
      · rename_i nx h
        rw [hnext] at h
        obtain rfl := Option.some.inj h
        cases hlp : lastPoint q next d with
        | some p => simp
        | none =>
          simp only
          rw [ih (ind + 1) next _ _ hlen hr']
          simp
    · simp

theorem travelBackwards_eq (path : List E) (ind : Nat) : ∀ (q : E) (d : ℝ) (acc : List E), ind ≤ path.length →
    travelBackwards path ind q d acc = .ok (acc ++ follow q (path.take ind).reverse d) := by
  induction ind with
  | zero => intro q d acc _; simp [travelBackwards, follow]
  | succ ind ih =>
    intro q d acc hi
    have hnext : path[ind]? = some path[ind] := List.getElem?_eq_getElem (by omega)
    rw [travelBackwards, List.take_add_one, hnext]
    simp only [Option.toList_some, List.reverse_append, List.reverse_singleton, List.singleton_append, follow]
    split
    · cases hlp : lastPoint q path[ind] d with
      | some p => simp
      | none =>
        simp only
        rw [ih _ _ _ (by omega)]
        simp
    · simp

theorem follow_spec (rest : List E) : ∀ (q : E) (d : ℝ), 0 ≤ d → Follows (q :: rest) d (q :: follow q rest d) := by
  induction rest with
  | nil =>
    intro q d hd
    refine ⟨⟨[], q, [], rfl, Or.inl rfl⟩, ?_⟩
    simp [follow, polylineLength, hd]
  | cons next rest ih =>
    intro q d hd
    rw [follow]
    split
    · rename_i hpos
      unfold lastPoint
      by_cases hlt : dist q next > d
      · rw [if_pos hlt]
        unfold dist at hlt
        rw [norm_sub_rev] at hlt
        have hn : 0 < ‖next - q‖ := lt_trans hpos hlt
        have hp : d • (1 / ‖next - q‖) • (next - q) + q = q + (d / ‖next - q‖) • (next - q) := by
          rw [smul_smul, add_comm]; congr 2; ring
        simp only [hp]
        refine ⟨⟨[], q, next :: rest, rfl, Or.inr ⟨next, rest, d / ‖next - q‖, rfl, by positivity, ?_, rfl⟩⟩, ?_⟩
        · rw [div_le_one hn]; exact hlt.le
        · simp only [polylineLength, add_sub_cancel_left, norm_smul, Real.norm_eq_abs, abs_div, abs_norm, abs_of_pos hpos]
          rw [div_mul_cancel₀ _ hn.ne', add_zero, min_eq_left]
          have := polylineLength_nonneg (next :: rest)
          linarith
      · rw [if_neg hlt]
        have hle : dist q next ≤ d := not_lt.mp hlt
        obtain ⟨⟨l0, a, r0, hl, hr⟩, hlen⟩ := ih next (d - dist q next) (by linarith)
        simp only
        refine ⟨⟨q :: l0, a, r0, by rw [hl]; rfl, ?_⟩, ?_⟩
        · rcases hr with hr | ⟨b, r1, β, h1, h2, h3, h4⟩
          · left; rw [hr]; rfl
          · right; exact ⟨b, r1, β, h1, h2, h3, by rw [h4]; rfl⟩
        · rw [polylineLength, hlen, polylineLength]
          unfold dist
          rw [norm_sub_rev q next, ← min_add_add_left]
          congr 1
          ring
    · rename_i hneg
      obtain rfl : d = 0 := le_antisymm (not_lt.mp hneg) hd
      refine ⟨⟨[], q, next :: rest, rfl, Or.inl rfl⟩, ?_⟩
      rw [min_eq_left (polylineLength_nonneg _)]
      rfl

open Classical in
/-- C129: travelling along a path starts at the point of the path closest to the starting point (the first waypoint if
none is given) and follows the waypoints after it (before it for a negative distance) for the absolute distance, or
to the end of the path. -/
theorem C129_travel_along (path : List E) (distance : ℝ) (start : Option E) (p : E) (rest : List E)
    (hpath : path = p :: rest) :
    ∃ q ind alpha, closestPoint path (start.getD p) = .ok (q, ind, alpha) ∧
      ∃ r, travelAlong path distance start = .ok r ∧
        Follows (q :: if 0 ≤ distance then path.drop (ind + 1) else (path.take (if alpha = 0 then ind else ind + 1)).reverse)
          |distance| r := by
  subst hpath
  obtain ⟨q, ind, alpha, hc, hat, hlt, -⟩ := C128_closest_point (p :: rest) (start.getD p) (by simp)
  refine ⟨q, ind, alpha, hc, ?_⟩
  have hi : ind < (p :: rest).length := by
    obtain ⟨-, -, a, ha, -⟩ := hat
    exact (List.getElem?_eq_some_iff.mp ha).1
  unfold travelAlong
  simp only [hc]
  generalize p :: rest = path at *
  have habs := abs_nonneg distance
  by_cases ha : alpha = 0
  · simp only [ha, ne_eq, not_true_eq_false, if_false, if_true]
    rcases lt_trichotomy distance 0 with hd | hd | hd
    · rw [if_neg (not_lt.mpr hd.le), if_pos hd, if_neg (not_le.mpr hd)]
      exact ⟨_, travelBackwards_eq path ind q _ _ hi.le, follow_spec _ q _ habs⟩
    · subst hd
      simp only [lt_irrefl, if_false, le_refl, if_true]
      refine ⟨_, rfl, ⟨[], q, path.drop (ind + 1), rfl, Or.inl rfl⟩, ?_⟩
      rw [abs_zero, min_eq_left (polylineLength_nonneg _)]; rfl
    · rw [if_pos hd, if_pos hd.le]
      exact ⟨_, travelForwards_eq path _ ind q _ _ hi rfl, follow_spec _ q _ habs⟩
  · simp only [ha, ne_eq, not_false_eq_true, if_true, if_false]
    have hlen : (path.take (ind + 1)).length = ind + 1 := by rw [List.length_take]; omega
    rcases lt_trichotomy distance 0 with hd | hd | hd
    · rw [if_neg (not_lt.mpr hd.le), if_pos hd, if_neg (not_le.mpr hd)]
      refine ⟨_, travelBackwards_eq _ (ind + 1) q _ _ (by simp; omega), ?_⟩
      have : (path.take (ind + 1) ++ [q] ++ path.drop (ind + 1)).take (ind + 1) = path.take (ind + 1) := by
        rw [List.append_assoc, List.take_left' hlen]
      rw [this]
      exact follow_spec _ q _ habs
    · subst hd
      simp only [lt_irrefl, if_false, le_refl, if_true]
      refine ⟨_, rfl, ⟨[], q, path.drop (ind + 1), rfl, Or.inl rfl⟩, ?_⟩
      rw [abs_zero, min_eq_left (polylineLength_nonneg _)]; rfl
    · rw [if_pos hd, if_pos hd.le]
      have hdrop : (path.take (ind + 1) ++ [q] ++ path.drop (ind + 1)).drop (ind + 1 + 1) = path.drop (ind + 1) :=
        List.drop_left' (by simp [hlen])
      exact ⟨_, travelForwards_eq _ _ (ind + 1) q _ _ (by simp; omega) hdrop, follow_spec _ q _ habs⟩

/-- C129: an empty path raises. -/
theorem C129_travel_along_empty (distance : ℝ) (start : Option E) :
    travelAlong ([] : List E) distance start = .error .indexError := rfl

/-- The hypotheses are met: on the path 0, 2, 1 of the real line the first waypoint is the closest to itself. -/
example : ∃ r, travelAlong [(0 : ℝ), 2, 1] 1 none = .ok r := by
  obtain ⟨_, _, _, _, r, hr, _⟩ := C129_travel_along [(0 : ℝ), 2, 1] 1 none 0 [2, 1] rfl
  exact ⟨r, hr⟩

example : ∃ r, densify [(0 : ℝ), 2, 1] (1 / 2) = .ok r ∧ List.IsChain (fun a b => ‖b - a‖ ≤ 1 / 2) r := by
  obtain ⟨r, h, _, _, hc, _⟩ := C129_densify [(0 : ℝ), 2, 1] (1 / 2) (by norm_num)
  exact ⟨r, h, hc⟩

/-! ### Reversed trajectories -/

theorem reverseLoop_eq (rest : List TrajectoryPoint) : ∀ (prev : TrajectoryPoint) (t : ℝ),
    reverseLoop (prev :: rest) rest t = rest.map fun p => { p with time := t + (prev.time - p.time) } := by
  induction rest with
  | nil => intro prev t; rfl
  | cons p rest ih =>
    intro prev t
    rw [reverseLoop]
    simp only [ih, List.map_cons]
    congr 1
    apply List.map_congr_left
    intro x _
    congr 1
    ring

/-- C130: the reversed trajectory has the points in reverse order, and the time of each is how long before the end of
the trajectory it was. -/
theorem C130_reverse (points : List TrajectoryPoint) (last : TrajectoryPoint) (h : points.getLast? = some last) :
    reverseTrajectory points = .ok (points.reverse.map fun p => { p with time := last.time - p.time }) := by
  obtain ⟨l, rfl⟩ := List.getLast?_eq_some_iff.mp h
  unfold reverseTrajectory
  rw [List.reverse_append]
  simp only [List.reverse_singleton, List.singleton_append, List.map_cons, reverseLoop_eq, sub_self, zero_add]

/-- C130: an empty trajectory raises. -/
theorem C130_reverse_empty : reverseTrajectory [] = .error .indexError := rfl

/-- C130: reversing twice gives the trajectory back, moved in time to start at zero. -/
theorem C130_reverse_twice (points : List TrajectoryPoint) (first : TrajectoryPoint) (h : points.head? = some first) :
    ∃ r, reverseTrajectory points = .ok r ∧
      reverseTrajectory r = .ok (points.map fun p => { p with time := p.time - first.time }) := by
  obtain ⟨last, hl⟩ : ∃ last, points.getLast? = some last := by
    cases points with
    | nil => simp at h
    | cons a l => exact ⟨_, List.getLast?_eq_some_getLast (by simp)⟩
  refine ⟨_, C130_reverse points last hl, ?_⟩
  have hr : (points.reverse.map fun p => { p with time := last.time - p.time : TrajectoryPoint }).getLast? =
      some { first with time := last.time - first.time } := by
    rw [List.getLast?_map, List.getLast?_reverse, h]; rfl
  rw [C130_reverse _ _ hr, ← List.map_reverse, List.reverse_reverse, List.map_map]
  congr 1
  apply List.map_congr_left
  intro p _
  simp only [Function.comp]
  congr 1
  ring

/-- C130: the velocities are not reversed. The trajectory from position 0 to 1 at velocity 1 becomes one from 1 to 0
at the same positive velocity. -/
theorem C130_velocities_wrong :
    reverseTrajectory [⟨[0], [1], [], [], 0⟩, ⟨[1], [1], [], [], 1⟩] =
      .ok [⟨[1], [1], [], [], 0⟩, ⟨[0], [1], [], [], 1⟩] := by
  rw [C130_reverse _ ⟨[1], [1], [], [], 1⟩ rfl]
  simp

end Verif.PyPath
