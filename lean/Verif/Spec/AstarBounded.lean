import Verif.Spec.Astar
import Verif.Base.Double

/-!
# Specification of paths for heuristics that may overestimate, and for costs that are doubles
-/
namespace Verif.Astar
open Verif

/-- `Below step h B u c t`: there is a path from `u`, reached at cost `c`, to `t`, such that at each later node of it
the cost so far and the heuristic add up to at most `B`. -/
inductive Below {W : Type} [Cost W] (step : Int → Int → W → Prop) (h : Int → W) (B : W) : Int → W → Int → Prop
  | here (u : Int) (c : W) : Below step h B u c u
  | cons {u v t : Int} {w c : W} : step u v w → c + w + h v ≤ B → Below step h B v (c + w) t → Below step h B u c t

variable {F : Format}

/-- `ExactPath step u p t c`: `p` lists the nodes of a path from `u` to `t`; the costs of its steps, none infinite, have
the exact sum `c`. -/
inductive ExactPath (step : Int → Int → Double F → Prop) : Int → List Int → Int → ℝ → Prop
  | here (u : Int) : ExactPath step u [u] u 0
  | cons {u v t : Int} {p : List Int} {w c : ℝ} {fp : F.Fp w} {nonneg : 0 ≤ w} {le : w ≤ F.big} :
      step u v (.fin w fp nonneg le) → ExactPath step v p t c → ExactPath step u (u :: p) t (w + c)

/-- The heuristic overestimates the exact cost of a path to the goal at most by the factor `ε`. -/
def Within (step : Int → Int → Double F → Prop) (h : Int → Double F) (goal : Int) (ε : ℝ) : Prop :=
  ∀ u p c, ExactPath step u p goal c → ∃ x fp nonneg le, h u = .fin x fp nonneg le ∧ x ≤ ε * c

/-- What a caller gets who adds doubles: no path if there is none, or a path; its exact cost, up to the rounding of the
sums, is the number reported; this is at most `ε` times the exact cost of every path, up to rounding; if it is infinite
all these products are beyond the largest double. -/
def NearlyOptimal (step : Int → Int → Double F → Prop) (start goal : Int) (ε : ℝ) (path : List Int) (cost : Double F) :
    Prop :=
  Complete step start goal path cost ∧
  (∀ x fp nonneg le, cost = .fin x fp nonneg le →
    (∃ c, ExactPath step start path goal c ∧ c * (1 - unit) ^ (path.length - 1) ≤ x) ∧
    ∀ p c, ExactPath step start p goal c → x ≤ ε * c * (1 + unit) ^ (p.length - 1)) ∧
  (cost = .inf → ∀ p c, ExactPath step start p goal c → F.big < ε * c * (1 + unit) ^ (p.length - 1))

end Verif.Astar
