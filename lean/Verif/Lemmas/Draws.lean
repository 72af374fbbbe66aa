import Mathlib.Probability.Independence.InfinitePi
import Verif.Spec.Draws

/-!
# Sequences of random draws: blocks
-/
namespace Verif.Draws
open MeasureTheory
variable {σ : Type} (draw : σ → ℝ × σ)

theorem stateAfter_succ (g : σ) (k : Nat) : stateAfter draw g (k + 1) = stateAfter draw (draw g).2 k :=
  Function.iterate_succ_apply _ _ _

theorem drawAt_succ (g : σ) (k : Nat) : drawAt draw g (k + 1) = drawAt draw (draw g).2 k := by
  rw [drawAt, stateAfter_succ]; rfl

theorem stateAfter_add (g : σ) (j k : Nat) : stateAfter draw g (j + k) = stateAfter draw (stateAfter draw g j) k := by
  rw [stateAfter, add_comm, Function.iterate_add_apply]; rfl

theorem drawAt_add (g : σ) (j k : Nat) : drawAt draw g (j + k) = drawAt draw (stateAfter draw g j) k := by
  rw [drawAt, stateAfter_add]; rfl

theorem drawAt_next (s : ℕ → ℝ) (k : Nat) : drawAt next s k = s k := by
  induction k generalizing s with
  | zero => rfl
  | succ k ih => rw [drawAt_succ, ih]; rfl

/-- A function that takes `n` draws and nothing else from the state: result number `k` comes from the draws from number
`k * n` on. -/
theorem results_eq {α : Type} (f : σ → α × σ) (n : Nat) (v : (Fin n → ℝ) → α)
    (hf : ∀ g, f g = (v fun i => drawAt draw g i, stateAfter draw g n)) (g : σ) (k : Nat) :
    results f g k = v fun i => drawAt draw g (k * n + i) := by
  have h : ∀ (k : Nat) (g : σ), (fun g => (f g).2)^[k] g = stateAfter draw g (k * n) := by
    intro k
    induction k with
    | zero => intro g; rw [Nat.zero_mul]; rfl
    | succ k ih =>
      intro g
      rw [Function.iterate_succ_apply, ih, hf, ← stateAfter_add]
      congr 1
      rw [Nat.succ_mul, add_comm]
  rw [results, h, hf]
  simp only [drawAt_add]

/-- Blocks of independent draws are independent. -/
theorem blocks (μ : Measure ℝ) [IsProbabilityMeasure μ] (n : Nat) :
    (Measure.infinitePi fun _ : ℕ => μ).map (fun s (k : ℕ) (i : Fin n) => s (k * n + i)) =
      Measure.infinitePi fun _ : ℕ => Measure.infinitePi fun _ : Fin n => μ := by
  have hinj : Function.Injective fun p : ℕ × Fin n => p.1 * n + p.2.val := by
    intro p q h
    have hn : 0 < n := Nat.lt_of_le_of_lt (Nat.zero_le _) p.2.isLt
    have a1 : p.1 = q.1 := by
      have := congrArg (· / n) h
      simp only [mul_comm _ n] at this
      rwa [Nat.mul_add_div hn, Nat.mul_add_div hn, Nat.div_eq_of_lt p.2.isLt, Nat.div_eq_of_lt q.2.isLt, add_zero,
        add_zero] at this
    have a2 : p.2.val = q.2.val := by
      simp only [a1] at h
      omega
    exact Prod.ext a1 (Fin.ext a2)
  rw [← Measure.infinitePi_map_curry (fun _ _ => μ)]
  have := Measure.map_infinitePi_infinitePi_of_inj (P := fun _ : ℕ => μ) hinj
  rw [← this, Measure.map_map (by fun_prop) (by fun_prop)]
  rfl

/-- Results of repeated calls with independent draws are independent and have the same law. -/
theorem results_law {α : Type} [MeasurableSpace α] (μ : Measure ℝ) [IsProbabilityMeasure μ]
    (f : (ℕ → ℝ) → α × (ℕ → ℝ)) (n : Nat) (v : (Fin n → ℝ) → α) (hv : Measurable v)
    (hf : ∀ g, f g = (v fun i => drawAt next g i, stateAfter next g n)) :
    (Measure.infinitePi fun _ : ℕ => μ).map (fun s k => results f s k) =
      Measure.infinitePi fun _ : ℕ => (Measure.infinitePi fun _ : Fin n => μ).map v := by
  rw [← Measure.infinitePi_map_pi _ (fun _ => hv), ← blocks μ n, Measure.map_map (by fun_prop) (by fun_prop)]
  congr 1
  funext s k
  rw [results_eq next f n v hf]
  simp only [drawAt_next, Function.comp]

end Verif.Draws
