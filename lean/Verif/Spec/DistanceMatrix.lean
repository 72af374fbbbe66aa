/-!
# Specification of the executions of a parallel double loop
-/
namespace Verif.DistanceMatrix

/-- The iterations `(idx, jdx)` with `idx ≤ jdx < n`, each once, in some order. Every interleaving of
the threads of a parallel loop over `idx` is such an order. -/
structure TriangleOnce (n : Nat) (order : List (Nat × Nat)) : Prop where
  nodup : order.Nodup
  mem : ∀ i j : Nat, (i, j) ∈ order ↔ i ≤ j ∧ j < n

end Verif.DistanceMatrix
