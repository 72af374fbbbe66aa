import Verif.Spec.Dijkstra
import Verif.Base.Double

/-!
# Specification of shortest routes in a graph whose weights are doubles
-/
namespace Verif.Dijkstra
open Verif Verif.Graph

variable {ν : Type} {F : Format}

/-- `ExactRoute g start v k c`: there is a route of `k` edges from `v` to `start` whose weights, none infinite, have the
exact sum `c`. -/
inductive ExactRoute (g : Graph ν (Double F)) (start : Nat) : Nat → Nat → ℝ → Prop
  | here : ExactRoute g start start 0 0
  | step {u v k : Nat} {c w : ℝ} {fp : F.Fp w} {nonneg : 0 ≤ w} {le : w ≤ F.big} : ExactRoute g start u k c →
      EdgeInto g v u (.fin w fp nonneg le) → ExactRoute g start v (k + 1) (c + w)

end Verif.Dijkstra
