import Verif.Model.Totg
import Verif.Props.TotgLimits
import Mathlib.Data.List.Chain
import Mathlib.Tactic.Linarith
import Mathlib.Tactic.Ring
import Mathlib.Tactic.FieldSimp
import Mathlib.Tactic.Positivity

/-! # Lemmas: invariants of the integration of a trajectory -/
namespace Verif.Totg
open Verif
namespace Problem
variable {n : Nat} (P : Problem n)

theorem eps_pos : 0 < eps := by unfold eps; norm_num

theorem velocityLimit_nonneg (h0 : 0 ≤ P.largest) (h1 : ∀ i, 0 ≤ P.maxVelocity i) (s : ℝ) :
    0 ≤ P.velocityLimit s :=
  (C109_velocity P.largest P.maxVelocity (P.first s) 0 le_rfl h1).2 ⟨h0, fun i => by simpa using h1 i⟩

/-- not faster than the limits, and not backwards -/
def Within (p : Point) : Prop := ¬ P.Exceeds p ∧ 0 ≤ p.2

theorem clamped_nonneg (hl : ∀ s, 0 ≤ P.velocityLimit s) (old pos vel : ℝ) (h : 0 ≤ vel) :
    0 ≤ P.clamped old pos vel := by
  unfold clamped
  split
  · exact hl pos
  · exact h

theorem overshoot_spec (hl : ∀ s, 0 ≤ P.velocityLimit s) (fuel : Nat) : ∀ (before after b a : Point),
    before.1 ≤ after.1 → 0 ≤ before.2 → 0 ≤ after.2 → P.Exceeds after →
    P.overshoot fuel before after = some (b, a) →
    before.1 ≤ b.1 ∧ b.1 ≤ a.1 ∧ a.1 ≤ after.1 ∧ a.1 - b.1 ≤ eps ∧ 0 ≤ b.2 ∧ P.Exceeds a ∧
      (b = before ∨ P.Within b) := by
  induction fuel with
  | zero => intro before after b a _ _ _ _ h; cases h
  | succ fuel ih =>
    intro before after b a h1 h2 h3 h4 h
    rw [overshoot] at h
    split at h
    · have hv : 0 ≤ P.clamped before.1 (1 / 2 * (before.1 + after.1)) (1 / 2 * (before.2 + after.2)) :=
        P.clamped_nonneg hl _ _ _ (by linarith)
      simp only at h
      split at h
      · rename_i hex
        obtain ⟨r1, r2, r3, r4, r5, r6, r7⟩ := ih _ _ b a (by simp only; linarith) h2 hv hex h
        exact ⟨r1, r2, by simp only at r3; linarith, r4, r5, r6, r7⟩
      · rename_i hex
        obtain ⟨r1, r2, r3, r4, r5, r6, r7⟩ := ih _ _ b a (by simp only; linarith) hv h3 h4 h
        refine ⟨by simp only at r1; linarith, r2, r3, r4, r5, r6, Or.inr ?_⟩
        rcases r7 with rfl | r7
        · exact ⟨hex, hv⟩
        · exact r7
    · rename_i hc
      cases h
      exact ⟨le_rfl, h1, le_rfl, not_lt.1 hc, h2, h4, Or.inl rfl⟩

theorem stepped_ge (ht : 0 ≤ P.timeStep) (disc : List (ℝ × Bool)) (acceleration : ℝ) (old : Point)
    (ho : 0 ≤ old.2) (hd : ∀ d ∈ disc.head?, old.1 < d.1) (h : 0 ≤ (P.stepped disc acceleration old).2) :
    old.1 ≤ (P.stepped disc acceleration old).1 := by
  have plain : ∀ v : ℝ, 0 ≤ v → old.1 ≤ old.1 + P.timeStep * (1 / 2) * (old.2 + v) := by
    intro v hv
    have : 0 ≤ P.timeStep * (1 / 2) * (old.2 + v) := mul_nonneg (by linarith) (by linarith)
    linarith
  unfold stepped at h ⊢
  cases disc with
  | nil => exact plain _ h
  | cons d rest =>
    simp only at h ⊢
    split
    · exact (hd d rfl).le
    · rename_i hc
      rw [if_neg hc] at h
      exact plain _ h

theorem dropped_head (disc : List (ℝ × Bool)) (x : ℝ) :
    ∀ d ∈ (disc.dropWhile fun d => decide (d.1 ≤ x) || !d.2).head?, x < d.1 := by
  intro d hd
  induction disc with
  | nil => simp at hd
  | cons e rest ih =>
    rw [List.dropWhile_cons] at hd
    split at hd
    · exact ih hd
    · rename_i hc
      simp only [List.head?_cons, Option.mem_some_iff] at hd
      subst hd
      simp only [Bool.or_eq_true, decide_eq_true_eq, Bool.not_eq_true', not_or, not_le] at hc
      exact hc.1

/-- What forward integration adds to a trajectory. -/
theorem forward_spec (hl : ∀ s, 0 ≤ P.velocityLimit s) (ht : 0 ≤ P.timeStep) {Q : Point → Prop}
    {R : Point → Point → Prop} (hQ : ∀ p, P.Within p → Q p) (hR : ∀ a b : Point, b.1 ≤ a.1 → R a b) (fuel : Nat) :
    ∀ (disc : List (ℝ × Bool)) (acceleration : ℝ) (old back : Point) (below : List Point)
      (reached : Bool) (out : List Point),
    back.1 ≤ old.1 → 0 ≤ old.2 → 0 ≤ back.2 → back.1 ≤ P.length → Q back →
    P.forward fuel disc acceleration old (back :: below) = some (.ok (reached, out)) →
    ∃ head new, out = head :: (new ++ back :: below) ∧ (head :: (new ++ [back])).IsChain R ∧ (∀ p ∈ new, Q p) ∧
      (reached = true → P.length < head.1) ∧ (reached = false → Q head ∧ 0 ≤ head.2 ∧ head.1 ≤ P.length) := by
  induction fuel with
  | zero => intro _ _ _ _ _ _ _ _ _ _ _ _ h; cases h
  | succ fuel ih =>
    intro disc acceleration old back below reached out h1 h2 h3 h4 hb h
    rw [forward] at h
    simp only at h
    have hd := dropped_head disc old.1
    generalize disc.dropWhile (fun d => decide (d.1 ≤ old.1) || !d.2) = disc at h hd
    have hge := P.stepped_ge ht disc acceleration old h2 hd
    generalize P.stepped disc acceleration old = new at h hge
    split at h
    · rename_i hend
      simp only [Option.some.injEq, Out.ok.injEq, Prod.mk.injEq] at h
      obtain ⟨rfl, rfl⟩ := h
      refine ⟨new, [], rfl, List.isChain_cons_cons.2 ⟨hR _ _ (h4.trans hend.le), List.isChain_singleton _⟩, by simp, fun _ => hend,
        by simp⟩
    · rename_i hend
      split at h
      · cases h
      · rename_i hneg
        have hnew := hge (not_lt.1 hneg)
        have hv := P.clamped_nonneg hl old.1 new.1 new.2 (not_lt.1 hneg)
        generalize P.clamped old.1 new.1 new.2 = v at h hv
        split at h
        · rename_i hex
          cases ho : P.overshoot fuel back (new.1, v) with
          | none => rw [ho] at h; simp at h
          | some r =>
            obtain ⟨b, a⟩ := r
            rw [ho] at h
            simp only [Option.bind_eq_bind, Option.bind_some] at h
            obtain ⟨o1, o2, o3, o4, o5, o6, o7⟩ := P.overshoot_spec hl fuel back (new.1, v) b a (h1.trans hnew)
              h3 hv hex ho
            have hQb : Q b := by
              rcases o7 with rfl | o7
              · exact hb
              · exact hQ _ o7
            have hchain : [b, back].IsChain R := List.isChain_cons_cons.2 ⟨hR _ _ o1, List.isChain_singleton _⟩
            have hble : b.1 ≤ P.length := by
              have := o2.trans o3
              simp only at this
              exact this.trans (not_lt.1 hend)
            have stop : some (Out.ok (false, b :: back :: below)) = some (Out.ok (reached, out)) →
                ∃ head new, out = head :: (new ++ back :: below) ∧ (head :: (new ++ [back])).IsChain R ∧ (∀ p ∈ new, Q p) ∧
                (reached = true → P.length < head.1) ∧
                (reached = false → Q head ∧ 0 ≤ head.2 ∧ head.1 ≤ P.length) := by
              intro h
              simp only [Option.some.injEq, Out.ok.injEq, Prod.mk.injEq] at h
              obtain ⟨rfl, rfl⟩ := h
              exact ⟨b, [], rfl, hchain, by simp, by simp, fun _ => ⟨hQb, o5, hble⟩⟩
            have go : P.forward fuel disc (P.acceleration new.1 v true) (new.1, v) (b :: back :: below) =
                some (.ok (reached, out)) → ∃ head new, out = head :: (new ++ back :: below) ∧ (head :: (new ++ [back])).IsChain R ∧
                (∀ p ∈ new, Q p) ∧ (reached = true → P.length < head.1) ∧
                (reached = false → Q head ∧ 0 ≤ head.2 ∧ head.1 ≤ P.length) := by
              intro h
              obtain ⟨head, tail, e, k1, k2, k3, k4⟩ := ih _ _ _ b (back :: below) reached out (o2.trans o3) hv o5 hble
                hQb h
              refine ⟨head, tail ++ [b], by rw [e]; simp, by simpa using List.isChain_split (l₁ := head :: tail).2 ⟨k1, hchain⟩, ?_, k3,
                k4⟩
              intro p hp
              rcases List.mem_append.1 hp with hp | hp
              · exact k2 p hp
              · rw [List.mem_singleton.1 hp]; exact hQb
            split at h
            · cases disc with
              | nil => cases h
              | cons d rest =>
                simp only at h
                split at h
                · exact stop h
                · split at h
                  · exact stop h
                  · exact go h
            · split at h
              · exact stop h
              · exact go h
        · rename_i hex
          obtain ⟨head, tail, e, k1, k2, k3, k4⟩ := ih _ _ _ (new.1, v) (back :: below) reached out le_rfl hv hv
            (not_lt.1 hend) (hQ _ ⟨hex, hv⟩) h
          refine ⟨head, tail ++ [(new.1, v)], by rw [e]; simp, by
            have := List.isChain_split (l₁ := head :: tail).2 ⟨k1, List.isChain_cons_cons.2 ⟨hR (new.1, v) back (h1.trans hnew),
              List.isChain_singleton _⟩⟩
            simpa using this, ?_, k3, k4⟩
          intro p hp
          rcases List.mem_append.1 hp with hp | hp
          · exact k2 p hp
          · rw [List.mem_singleton.1 hp]; exact hQ _ ⟨hex, hv⟩

/-- Forward integration fails only because of a negative velocity, or by looking at a discontinuity that is
not there. -/
theorem forward_throws (fuel : Nat) : ∀ (disc : List (ℝ × Bool)) (acceleration : ℝ) (old : Point)
    (rev : List Point), (∀ e, P.forward fuel disc acceleration old rev = some (.throws e) → e = .runtimeError) ∧
      P.forward fuel disc acceleration old rev ≠ some .abort := by
  induction fuel with
  | zero => intro _ _ _ _; exact ⟨fun e h => by simp [forward] at h, by simp [forward]⟩
  | succ fuel ih =>
    intro disc acceleration old rev
    rw [forward]
    simp only
    split
    · simp
    · split
      · simp
      · split
        · cases rev with
          | nil => simp
          | cons back below =>
            simp only
            cases ho : P.overshoot fuel back _ with
            | none => simp
            | some r =>
              simp only [Option.bind_eq_bind, Option.bind_some]
              split
              · split
                · simp
                · split
                  · simp
                  · split
                    · simp
                    · exact ih _ _ _ _
              · split
                · simp
                · exact ih _ _ _ _
        · exact ih _ _ _ _

end Problem
end Verif.Totg
