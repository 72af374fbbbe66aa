import Verif.Lemmas.TotgIntegrate
import Verif.Spec.TotgTrajectory

/-! # Lemmas: backward integration -/
namespace Verif.Totg
open Verif
namespace Problem
variable {n : Nat} (P : Problem n)

/-- The lowest acceleration at a point. -/
noncomputable def lowest (p : ℝ × ℝ) : ℝ := P.acceleration p.1 p.2 false

theorem intersection_spec (s1 s2 cur front : Point) (slope : ℝ) (x : Point)
    (hs : slope * (front.1 - cur.1) = front.2 - cur.2)
    (h : intersection s1 s2 cur front (some slope) = some x) :
    OnLine s1 s2 x ∧ OnLine cur front x ∧ max s1.1 cur.1 - eps ≤ x.1 ∧ x.1 ≤ eps + min s2.1 front.1 := by
  unfold intersection at h
  simp only at h
  split at h
  · cases h
  · rename_i h1
    split at h
    · cases h
    · rename_i h2
      split at h
      · rename_i h3
        cases h
        refine ⟨?_, ?_, h3.1, h3.2⟩
        · unfold OnLine
          simp only
          field_simp
          ring
        · unfold OnLine
          simp only
          generalize hm : (s2.2 - s1.2) / (s2.1 - s1.1) = m at h2
          generalize hx : (s1.2 - cur.2 + slope * cur.1 - m * s1.1) / (slope - m) = pos
          have e : pos * (slope - m) = s1.2 - cur.2 + slope * cur.1 - m * s1.1 := by
            rw [← hx]; field_simp
          have : s1.2 + m * (pos - s1.1) - cur.2 = slope * (pos - cur.1) := by linarith
          rw [this, ← hs]
          ring
      · cases h

/-- The outcome of backward integration. -/
def BackResult (rev : List Point) (start : Point) (before : ℝ) (out : List Point) : Prop :=
  let b := back P.timeStep P.lowest start before
  ∃ m s2 s1 below x, (s2 :: s1 :: below) <:+ rev ∧ out = ((List.range (m + 1)).map b) ++ x :: s1 :: below ∧
    OnLine s1 s2 x ∧ OnLine (b (m + 1)) (b m) x ∧ max s1.1 (b (m + 1)).1 - eps ≤ x.1 ∧
    x.1 ≤ eps + min s2.1 (b m).1 ∧ ∀ k, 1 ≤ k → k ≤ m + 1 → 0 ≤ (b k).2

theorem range_back (b : Nat → Point) (m : Nat) :
    ((List.range (m + 1)).map b).reverse = b m :: ((List.range m).map b).reverse := by
  rw [List.range_succ, List.map_append, List.reverse_append]
  rfl

theorem backwardLoop_spec (rev : List Point) (start : Point) (before : ℝ)
    (hlast : ∀ p ∈ rev.getLast?, p.1 ≤ 0) (fuel : Nat) :
    let b := back P.timeStep P.lowest start before
    ∀ (m : Nat) (slope : Option ℝ) (s2 s1 : Point) (below : List Point),
    (m = 0 → s1.1 ≤ start.1) →
    (∀ k, m = k + 1 → slope = if (b k).1 - (b m).1 = 0 then none else
      some (((b k).2 - (b m).2) / ((b k).1 - (b m).1))) →
    (∀ k, 1 ≤ k → k ≤ m → 0 ≤ (b k).2) →
    (s2 :: s1 :: below) <:+ rev →
    (P.backwardLoop fuel (if m = 0 then before else P.lowest (b m)) slope (b m)
        ((List.range m).map b).reverse s2 s1 below = none) ∨
    (P.backwardLoop fuel (if m = 0 then before else P.lowest (b m)) slope (b m)
        ((List.range m).map b).reverse s2 s1 below = some (.throws .runtimeError)) ∨
    ∃ out, P.backwardLoop fuel (if m = 0 then before else P.lowest (b m)) slope (b m)
        ((List.range m).map b).reverse s2 s1 below = some (.ok out) ∧ P.BackResult rev start before out := by
  intro b
  induction fuel with
  | zero => intro m slope s2 s1 below _ _ _ _; exact Or.inl rfl
  | succ fuel ih =>
    intro m slope s2 s1 below h0 hslope hvel hsuf
    rw [backwardLoop.eq_def]
    simp only
    split
    · exact Or.inr (Or.inl rfl)
    · rename_i hgo
      split
      · have e2 : (b (m + 1)).2 = (b m).2 - P.timeStep * (if m = 0 then before else P.lowest (b m)) := rfl
        have e1 : (b (m + 1)).1 = (b m).1 - P.timeStep * (((b m).2 + (b (m + 1)).2) / 2) := rfl
        have e1' : (b m).1 - P.timeStep * (1 / 2) * ((b m).2 - P.timeStep * (if m = 0 then before else
            P.lowest (b m)) + (b m).2) = (b (m + 1)).1 := by rw [e1, e2]; ring
        rw [e1', ← e2]
        have hpair : ((b (m + 1)).1, (b (m + 1)).2) = b (m + 1) := rfl
        rw [hpair]
        have hacc : P.acceleration (b (m + 1)).1 (b (m + 1)).2 false = P.lowest (b (m + 1)) := rfl
        rw [hacc]
        split
        · exact Or.inr (Or.inl rfl)
        · rename_i hneg
          have hvel' : ∀ k, 1 ≤ k → k ≤ m + 1 → 0 ≤ (b k).2 := by
            intro k hk1 hk2
            rcases Nat.eq_or_lt_of_le hk2 with rfl | hk2
            · exact not_lt.1 hneg
            · exact hvel k hk1 (by omega)
          rw [← range_back]
          split
          · rename_i x hx
            split at hx
            · simp [intersection] at hx
            · rename_i hd
              obtain ⟨i1, i2, i3, i4⟩ := intersection_spec s1 s2 (b (m + 1)) (b m) _ x
                (div_mul_cancel₀ _ hd) hx
              exact Or.inr (Or.inr ⟨_, rfl, m, s2, s1, below, x, hsuf, by rw [List.reverse_reverse], i1, i2, i3, i4, hvel'⟩)
          · have := ih (m + 1) (if (b m).1 - (b (m + 1)).1 = 0 then none else
              some (((b m).2 - (b (m + 1)).2) / ((b m).1 - (b (m + 1)).1))) s2 s1 below (by omega)
              (by intro k hk; cases Nat.succ.inj hk; rfl) hvel' hsuf
            rw [if_neg (by omega)] at this
            exact this
      · rename_i hs1
        cases m with
        | zero => exact absurd (h0 rfl) hs1
        | succ k =>
          rw [range_back]
          cases below with
          | nil =>
            exfalso
            have hl : s1 ∈ rev.getLast? := by
              obtain ⟨pre, hpre⟩ := hsuf
              rw [← hpre]
              simp
            have := hlast s1 hl
            apply hgo
            refine ⟨rfl, ?_⟩
            linarith [not_le.1 hs1]
          | cons s0 below =>
            simp only
            have hsuf' : (s1 :: s0 :: below) <:+ rev := (List.suffix_cons s2 _).trans hsuf
            have hsl := hslope k rfl
            split
            · rename_i x hx
              rw [hsl] at hx
              split at hx
              · simp [intersection] at hx
              · rename_i hd
                obtain ⟨i1, i2, i3, i4⟩ := intersection_spec s0 s1 (b (k + 1)) (b k) _ x
                  (div_mul_cancel₀ _ hd) hx
                refine Or.inr (Or.inr ⟨_, rfl, k, s1, s0, below, x, hsuf', ?_, i1, i2, i3, i4, hvel⟩)
                rw [← range_back, List.reverse_reverse]
            · have := ih (k + 1) slope s1 s0 below (by omega) hslope hvel hsuf'
              rw [range_back] at this
              exact this

theorem backward_spec (rev : List Point) (start : Point) (before : ℝ)
    (hlast : ∀ p ∈ rev.getLast?, p.1 ≤ 0) (h2 : 2 ≤ rev.length) (fuel : Nat) :
    (P.backward fuel rev start before = none) ∨
    (P.backward fuel rev start before = some (.throws .runtimeError)) ∨
    ((∃ s1, rev[1]? = some s1 ∧ start.1 < s1.1) ∧
      P.backward fuel rev start before = some (.throws .invalidArgument)) ∨
    ∃ out, P.backward fuel rev start before = some (.ok out) ∧ P.BackResult rev start before out := by
  unfold backward
  match rev, h2, hlast with
  | s2 :: s1 :: below, _, hlast =>
    simp only
    split
    · rename_i h
      exact Or.inr (Or.inr (Or.inl ⟨⟨s1, rfl, h⟩, rfl⟩))
    · rename_i h
      rcases P.backwardLoop_spec (s2 :: s1 :: below) start before hlast fuel 0 (some 0) s2 s1 below
        (fun _ => not_lt.1 h) (by intro k hk; omega) (by intro k h1 h2; omega) List.suffix_rfl with h | h | h
      · exact Or.inl h
      · exact Or.inr (Or.inl h)
      · exact Or.inr (Or.inr (Or.inr h))

end Problem
end Verif.Totg
