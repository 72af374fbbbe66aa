import Verif.Spec.Kmeans

/-!
# Specification of the size of the subset that k-means looks at first
-/
namespace Verif.Kmeans

/-- The least number of points that is at least a tenth of `n`. -/
def TenthUp (n m : Nat) : Prop := n ≤ 10 * m ∧ ∀ m', n ≤ 10 * m' → m ≤ m'

end Verif.Kmeans
