import Mathlib.Data.Real.Basic
import Mathlib.Logic.Function.Iterate

/-!
# Specification: sequences of random draws

A generator is a function from its state to a draw and the next state.
-/
namespace Verif.Draws
variable {σ : Type} (draw : σ → ℝ × σ)

/-- The state after `k` draws -/
def stateAfter (g : σ) (k : Nat) : σ := (fun g => (draw g).2)^[k] g

/-- Draw number `k` from state `g` -/
def drawAt (g : σ) (k : Nat) : ℝ := (draw (stateAfter draw g k)).1

/-- Results number 0, 1, ... of calling `f` again and again -/
def results {α : Type} (f : σ → α × σ) (g : σ) (k : Nat) : α := (f ((fun g => (f g).2)^[k] g)).1

/-- A generator that reads a given sequence -/
def next (s : ℕ → ℝ) : ℝ × (ℕ → ℝ) := (s 0, fun k => s (k + 1))

end Verif.Draws
