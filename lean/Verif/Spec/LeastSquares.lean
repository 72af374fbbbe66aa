import Mathlib.LinearAlgebra.Matrix.PosDef
import Verif.Model.LeastSquares

/-!
# Least squares

What a singular value decomposition is, what a pseudoinverse is, what is minimised.
-/
namespace Verif.LeastSquares
open Matrix

/-- The sum of the squares of the entries -/
def squares {n : Nat} (v : Fin n → ℝ) : ℝ := ∑ i, v i ^ 2

/-- A singular value decomposition `a = u s vᵀ`, with orthonormal columns and no negative singular value -/
structure IsSvd {m n : Nat} (a : Matrix (Fin m) (Fin n) ℝ) (d : Svd m n) : Prop where
  u : d.uᵀ * d.u = 1
  v : d.vᵀ * d.v = 1
  s : ∀ i, 0 ≤ d.s i
  product : ∀ i j, a i j = ∑ k, d.u i (Fin.castLE (min_le_left m n) k) * d.s k * d.v j k

/-- The same with as many columns of `u` as singular values -/
structure IsThinSvd {m n : Nat} (a : Matrix (Fin m) (Fin n) ℝ) (d : ThinSvd m n) : Prop where
  u : d.uᵀ * d.u = 1
  v : d.vᵀ * d.v = 1
  s : ∀ i, 0 ≤ d.s i
  product : ∀ i j, a i j = ∑ k, d.u i k * d.s k * d.v j k

/-- `p` is the Moore-Penrose pseudoinverse of `a`. -/
structure IsPseudoinverse {m n : Nat} (a : Matrix (Fin m) (Fin n) ℝ) (p : Matrix (Fin n) (Fin m) ℝ) : Prop where
  first : a * p * a = a
  second : p * a * p = p
  third : (a * p)ᵀ = a * p
  fourth : (p * a)ᵀ = p * a

/-- `σ` is the smallest singular value: the least stretch. -/
structure IsMinSingular {n : Nat} (a : Matrix (Fin n) (Fin n) ℝ) (σ : ℝ) : Prop where
  nonneg : 0 ≤ σ
  least : ∀ x, σ ^ 2 * squares x ≤ squares (a *ᵥ x)
  attained : ∃ x, squares x = 1 ∧ squares (a *ᵥ x) = σ ^ 2

/-- Solving by a Cholesky decomposition is right for symmetric positive definite matrices. -/
def SolvesPosDef (llt : Llt) : Prop :=
  ∀ n (a : Matrix (Fin n) (Fin n) ℝ) v, a.PosDef → a *ᵥ llt n a v = v

/-- `x` is the only minimum of `f`. -/
def IsUniqueMinimum {n : Nat} (f : (Fin n → ℝ) → ℝ) (x : Fin n → ℝ) : Prop := ∀ y, y ≠ x → f x < f y

end Verif.LeastSquares
