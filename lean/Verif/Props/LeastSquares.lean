import Mathlib.LinearAlgebra.Matrix.PosDef
import Mathlib.Tactic.LinearCombination
import Verif.Props.Pseudoinverse

/-! # C115: weighted and underdetermined least squares -/
namespace Verif.LeastSquares
open Verif Matrix Finset

/-- The quadratic form of a symmetric matrix decides positive definiteness. -/
theorem posDef_of {n : Nat} (a : Matrix (Fin n) (Fin n) ℝ) (hs : aᵀ = a) (h : ∀ x, x ≠ 0 → 0 < x ⬝ᵥ (a *ᵥ x)) :
    a.PosDef := by
  rw [posDef_iff_dotProduct_mulVec]
  refine ⟨?_, fun x hx => ?_⟩
  · unfold IsHermitian
    rw [conjTranspose_eq_transpose_of_trivial, hs]
  · simpa using h x hx

/-- The damping that is applied -/
noncomputable def damping (minSingular : MinSingular) {n : Nat} (lhs : Matrix (Fin n) (Fin n) ℝ)
    (threshold value : ℝ) : ℝ := if minSingular n lhs < threshold then value else 0

theorem damped_eq (minSingular : MinSingular) {n : Nat} (hn : 0 < n) (lhs : Matrix (Fin n) (Fin n) ℝ)
    (threshold value : ℝ) :
    damped minSingular lhs threshold value =
      .ok (lhs + damping minSingular lhs threshold value • (1 : Matrix (Fin n) (Fin n) ℝ)) := by
  unfold damped damping
  rw [Out.assert_true hn, Out.bind_ok]
  split <;> simp

/-- A matrix that is positive semidefinite is, once damped, positive definite. -/
theorem damped_posDef (minSingular : MinSingular) {n : Nat} (lhs : Matrix (Fin n) (Fin n) ℝ) (threshold value : ℝ)
    (ht : 0 < threshold) (hv : 0 < value) (hs : lhsᵀ = lhs) (hnn : ∀ x, 0 ≤ x ⬝ᵥ (lhs *ᵥ x))
    (hz : ∀ x, x ⬝ᵥ (lhs *ᵥ x) = 0 → lhs *ᵥ x = 0) (hm : IsMinSingular lhs (minSingular n lhs)) :
    (lhs + damping minSingular lhs threshold value • (1 : Matrix (Fin n) (Fin n) ℝ)).PosDef := by
  refine posDef_of _ (by simp [transpose_add, hs]) fun x hx => ?_
  rw [add_mulVec, smul_mulVec, one_mulVec, dotProduct_add, dotProduct_smul, smul_eq_mul, ← squares_dot]
  have hp := squares_pos hx
  unfold damping
  split
  · have := mul_pos hv hp
    linarith [hnn x]
  · rename_i hlt
    rw [zero_mul, add_zero]
    refine lt_of_le_of_ne (hnn x) fun e => ?_
    have h0 := hz x e.symm
    have h1 := hm.least x
    rw [h0] at h1
    have h2 : squares (0 : Fin n → ℝ) = 0 := squares_eq_zero.2 rfl
    have h3 : 0 < minSingular n lhs := ht.trans_le (not_lt.1 hlt)
    have := mul_pos (pow_pos h3 2) hp
    linarith

/-- The weighted squares of the residual, and the damped square of the solution -/
def weightedCost {m n : Nat} (A : Matrix (Fin m) (Fin n) ℝ) (b w : Fin m → ℝ) (δ : ℝ) (x : Fin n → ℝ) : ℝ :=
  ∑ i, w i * ((A *ᵥ x) i - b i) ^ 2 + δ * squares x

theorem weighted_form {m n : Nat} (A : Matrix (Fin m) (Fin n) ℝ) (w : Fin m → ℝ) (x : Fin n → ℝ) :
    x ⬝ᵥ ((Aᵀ * diagonal w * A) *ᵥ x) = ∑ i, w i * (A *ᵥ x) i ^ 2 := by
  rw [← mulVec_mulVec, ← mulVec_mulVec, ← dot_mulVec]
  unfold dotProduct
  refine sum_congr rfl fun i _ => ?_
  rw [mulVec_diagonal]; ring

theorem weighted_symm {m n : Nat} (A : Matrix (Fin m) (Fin n) ℝ) (w : Fin m → ℝ) :
    (Aᵀ * diagonal w * A)ᵀ = Aᵀ * diagonal w * A := by
  rw [transpose_mul, transpose_mul, transpose_transpose, diagonal_transpose, Matrix.mul_assoc]

/-- Where the normal equations hold, a step changes the cost by its quadratic form. -/
theorem weightedCost_step {m n : Nat} (A : Matrix (Fin m) (Fin n) ℝ) (b w : Fin m → ℝ) (δ : ℝ) (x h : Fin n → ℝ)
    (hx : (Aᵀ * diagonal w * A + δ • (1 : Matrix (Fin n) (Fin n) ℝ)) *ᵥ x = Aᵀ *ᵥ (w * b)) :
    weightedCost A b w δ (x + h) = weightedCost A b w δ x +
      h ⬝ᵥ ((Aᵀ * diagonal w * A + δ • (1 : Matrix (Fin n) (Fin n) ℝ)) *ᵥ h) := by
  have e1 : h ⬝ᵥ ((Aᵀ * diagonal w * A + δ • (1 : Matrix (Fin n) (Fin n) ℝ)) *ᵥ h) =
      ∑ i, w i * (A *ᵥ h) i ^ 2 + δ * squares h := by
    rw [add_mulVec, dotProduct_add, weighted_form, smul_mulVec, one_mulVec, dotProduct_smul, smul_eq_mul, ← squares_dot]
  have e2 : ∑ i, w i * ((A *ᵥ x) i - b i) * (A *ᵥ h) i + δ * ∑ i, x i * h i = 0 := by
    have h1 := congrArg (fun v => h ⬝ᵥ v) hx
    simp only [add_mulVec, dotProduct_add, smul_mulVec, one_mulVec, dotProduct_smul, smul_eq_mul] at h1
    rw [← mulVec_mulVec, ← mulVec_mulVec, ← dot_mulVec, ← dot_mulVec] at h1
    unfold dotProduct at h1
    have h2 : ∑ i, w i * ((A *ᵥ x) i - b i) * (A *ᵥ h) i =
        ∑ i, (A *ᵥ h) i * (diagonal w *ᵥ (A *ᵥ x)) i - ∑ i, (A *ᵥ h) i * (w * b) i := by
      rw [← sum_sub_distrib]
      refine sum_congr rfl fun i _ => ?_
      rw [mulVec_diagonal, Pi.mul_apply]; ring
    have h3 : ∑ i, x i * h i = ∑ i, h i * x i := sum_congr rfl fun i _ => mul_comm _ _
    rw [h2, h3]; linarith
  rw [e1]
  unfold weightedCost
  have e3 : ∑ i, w i * ((A *ᵥ (x + h)) i - b i) ^ 2 = ∑ i, w i * ((A *ᵥ x) i - b i) ^ 2 +
      2 * ∑ i, w i * ((A *ᵥ x) i - b i) * (A *ᵥ h) i + ∑ i, w i * (A *ᵥ h) i ^ 2 := by
    rw [mul_sum, ← sum_add_distrib, ← sum_add_distrib]
    refine sum_congr rfl fun i _ => ?_
    rw [mulVec_add, Pi.add_apply]; ring
  have e4 : squares (x + h) = squares x + 2 * ∑ i, x i * h i + squares h := by
    unfold squares
    rw [mul_sum, ← sum_add_distrib, ← sum_add_distrib]
    exact sum_congr rfl fun i _ => by rw [Pi.add_apply]; ring
  rw [e3, e4]
  linear_combination 2 * e2

/-- C115: with weights that are not negative, a positive threshold and positive damping, the weighted solver gives the
only vector that minimises the weighted squares of `A x - b`, to which the damped square of `x` is added exactly if
some direction is stretched by less than the threshold by `Aᵀ W A`. Without unknowns an assertion fails. -/
theorem C115_weighted (minSingular : MinSingular) (llt : Llt) (hl : SolvesPosDef llt) {m n : Nat}
    (A : Matrix (Fin m) (Fin n) ℝ) (b w : Fin m → ℝ) (threshold value : ℝ) (hw : ∀ i, 0 ≤ w i)
    (ht : 0 < threshold) (hv : 0 < value) :
    (n = 0 → weightedLeastSquaresSolver minSingular llt A b w threshold value = .abort) ∧
    (0 < n → IsMinSingular (Aᵀ * diagonal w * A) (minSingular n (Aᵀ * diagonal w * A)) →
      ∃ x, weightedLeastSquaresSolver minSingular llt A b w threshold value = .ok x ∧
        ((∃ z, squares z = 1 ∧ squares ((Aᵀ * diagonal w * A) *ᵥ z) < threshold ^ 2) →
          IsUniqueMinimum (fun x => ∑ i, w i * ((A *ᵥ x) i - b i) ^ 2 + value * squares x) x) ∧
        ((¬ ∃ z, squares z = 1 ∧ squares ((Aᵀ * diagonal w * A) *ᵥ z) < threshold ^ 2) →
          IsUniqueMinimum (fun x => ∑ i, w i * ((A *ᵥ x) i - b i) ^ 2) x)) := by
  constructor
  · rintro rfl
    unfold weightedLeastSquaresSolver damped
    rw [Out.assert_false (by simp), Out.bind_abort, Out.bind_abort]
  · intro hn hm
    set δ := damping minSingular (Aᵀ * diagonal w * A) threshold value with hδ
    set M := Aᵀ * diagonal w * A + δ • (1 : Matrix (Fin n) (Fin n) ℝ) with hM
    have hpd : M.PosDef := by
      refine damped_posDef minSingular _ threshold value ht hv (weighted_symm A w) ?_ ?_ hm
      · intro x
        rw [weighted_form]
        exact sum_nonneg fun i _ => mul_nonneg (hw i) (sq_nonneg _)
      · intro x hx
        rw [weighted_form, sum_eq_zero_iff_of_nonneg fun i _ => mul_nonneg (hw i) (sq_nonneg _)] at hx
        rw [← mulVec_mulVec, ← mulVec_mulVec]
        have : diagonal w *ᵥ (A *ᵥ x) = 0 := by
          funext i
          rw [mulVec_diagonal, Pi.zero_apply]
          rcases mul_eq_zero.1 (hx i (mem_univ i)) with h | h
          · rw [h, zero_mul]
          · rw [pow_eq_zero_iff two_ne_zero |>.1 h, mul_zero]
        rw [this, mulVec_zero]
    have hmin : IsUniqueMinimum (weightedCost A b w δ) (llt n M (Aᵀ *ᵥ (w * b))) := by
      intro y hy
      have hs := hl n M (Aᵀ *ᵥ (w * b)) hpd
      have := weightedCost_step A b w δ _ (y - llt n M (Aᵀ *ᵥ (w * b))) hs
      rw [add_sub_cancel] at this
      rw [this]
      have hp := (posDef_iff_dotProduct_mulVec.1 hpd).2 (sub_ne_zero.2 hy)
      rw [star_trivial] at hp
      linarith
    refine ⟨llt n M (Aᵀ *ᵥ (w * b)), ?_, ?_, ?_⟩
    · unfold weightedLeastSquaresSolver
      rw [damped_eq minSingular hn]
      rfl
    · rintro ⟨z, hz1, hz2⟩
      have : δ = value := by
        rw [hδ]; unfold damping
        rw [if_pos]
        have := hm.least z
        rw [hz1, mul_one] at this
        exact lt_of_pow_lt_pow_left₀ 2 ht.le (this.trans_lt hz2)
      rw [this] at hmin
      exact hmin
    · intro hno
      have : δ = 0 := by
        rw [hδ]; unfold damping
        rw [if_neg]
        intro hlt
        obtain ⟨z, h1, h2⟩ := hm.attained
        exact hno ⟨z, h1, by rw [h2]; exact pow_lt_pow_left₀ hlt hm.nonneg two_ne_zero⟩
      rw [this] at hmin
      intro y hy
      have := hmin y hy
      simpa [weightedCost] using this

/-- C115: the solver of underdetermined systems asserts that there are more unknowns than equations, and at least one
equation. Where `A Aᵀ` stretches every direction by at least the threshold it gives the shortest solution of `A x = b`;
otherwise the only vector that minimises the squares of `A x - b` and the damped square of `x`. -/
theorem C115_underdetermined (minSingular : MinSingular) (llt : Llt) (hl : SolvesPosDef llt) {m n : Nat}
    (A : Matrix (Fin m) (Fin n) ℝ) (b : Fin m → ℝ) (threshold value : ℝ) (ht : 0 < threshold) (hv : 0 < value) :
    (¬ (0 < m ∧ m < n) → underdeterminedSolver minSingular llt A b threshold value = .abort) ∧
    (0 < m → m < n → IsMinSingular (A * Aᵀ) (minSingular m (A * Aᵀ)) →
      ∃ x, underdeterminedSolver minSingular llt A b threshold value = .ok x ∧
        ((∃ z, squares z = 1 ∧ squares ((A * Aᵀ) *ᵥ z) < threshold ^ 2) →
          IsUniqueMinimum (fun x => squares (A *ᵥ x - b) + value * squares x) x) ∧
        ((¬ ∃ z, squares z = 1 ∧ squares ((A * Aᵀ) *ᵥ z) < threshold ^ 2) →
          A *ᵥ x = b ∧ ∀ y, A *ᵥ y = b → y ≠ x → squares x < squares y)) := by
  constructor
  · intro h
    unfold underdeterminedSolver
    by_cases h1 : m < n
    · rw [Out.assert_true h1, Out.bind_ok]
      unfold damped
      rw [Out.assert_false (fun h0 => h ⟨h0, h1⟩), Out.bind_abort, Out.bind_abort]
    · rw [Out.assert_false h1, Out.bind_abort]
  · intro hn hmn hm
    set δ := damping minSingular (A * Aᵀ) threshold value with hδ
    set M := A * Aᵀ + δ • (1 : Matrix (Fin m) (Fin m) ℝ) with hM
    have hform : ∀ x, x ⬝ᵥ ((A * Aᵀ) *ᵥ x) = squares (Aᵀ *ᵥ x) := by
      intro x
      rw [← mulVec_mulVec, squares_dot, dot_mulVec, transpose_transpose]
    have hpd : M.PosDef := by
      refine damped_posDef minSingular _ threshold value ht hv ?_ ?_ ?_ hm
      · rw [transpose_mul, transpose_transpose]
      · intro x
        rw [hform]; exact squares_nonneg _
      · intro x hx
        rw [hform] at hx
        rw [← mulVec_mulVec, squares_eq_zero.1 hx, mulVec_zero]
    set z := llt m M b with hz
    have hs : M *ᵥ z = b := hl m M b hpd
    rw [hM, add_mulVec, smul_mulVec, one_mulVec, ← mulVec_mulVec] at hs
    refine ⟨Aᵀ *ᵥ z, ?_, ?_, ?_⟩
    · unfold underdeterminedSolver
      rw [Out.assert_true hmn, Out.bind_ok, damped_eq minSingular hn]
      rfl
    · rintro ⟨u, hu1, hu2⟩
      have hδv : δ = value := by
        rw [hδ]; unfold damping
        rw [if_pos]
        have := hm.least u
        rw [hu1, mul_one] at this
        exact lt_of_pow_lt_pow_left₀ 2 ht.le (this.trans_lt hu2)
      rw [hδv] at hs
      intro y hy
      set h := y - Aᵀ *ᵥ z with hh
      have hy' : y = Aᵀ *ᵥ z + h := by rw [hh, add_sub_cancel]
      have hres : A *ᵥ (Aᵀ *ᵥ z) - b = -(value • z) := by rw [← hs]; abel
      have hp := squares_pos (sub_ne_zero.2 hy)
      rw [← hh] at hp
      beta_reduce
      rw [hy', mulVec_add, show A *ᵥ (Aᵀ *ᵥ z) + A *ᵥ h - b = A *ᵥ (Aᵀ *ᵥ z) - b + A *ᵥ h by abel, hres]
      simp only [squares_dot] at hp ⊢
      simp only [add_dotProduct, dotProduct_add, neg_dotProduct, dotProduct_neg, smul_dotProduct, dotProduct_smul,
        smul_eq_mul]
      have hc1 : (A *ᵥ h) ⬝ᵥ z = h ⬝ᵥ (Aᵀ *ᵥ z) := dot_mulVec A h z
      have hc2 : z ⬝ᵥ (A *ᵥ h) = h ⬝ᵥ (Aᵀ *ᵥ z) := by rw [dotProduct_comm, hc1]
      have hc3 : (Aᵀ *ᵥ z) ⬝ᵥ h = h ⬝ᵥ (Aᵀ *ᵥ z) := dotProduct_comm _ _
      rw [hc1, hc2, hc3]
      have hnn : 0 ≤ (A *ᵥ h) ⬝ᵥ (A *ᵥ h) := by rw [← squares_dot]; exact squares_nonneg _
      have := mul_pos hv hp
      linarith
    · intro hno
      have hδ0 : δ = 0 := by
        rw [hδ]; unfold damping
        rw [if_neg]
        intro hlt
        obtain ⟨u, h1, h2⟩ := hm.attained
        exact hno ⟨u, h1, by rw [h2]; exact pow_lt_pow_left₀ hlt hm.nonneg two_ne_zero⟩
      rw [hδ0, zero_smul, add_zero] at hs
      refine ⟨hs, fun y hy hne => ?_⟩
      have e : squares y = squares (Aᵀ *ᵥ z) + squares (y - Aᵀ *ᵥ z) := by
        rw [← squares_add, add_sub_cancel]
        rw [dot_mulVec, transpose_transpose, mulVec_sub, hy, hs, sub_self, dotProduct_zero]
      have := squares_pos (sub_ne_zero.2 hne)
      linarith

/-! ### The hypotheses are met -/

/-- Solving with the inverse -/
noncomputable def inverseLlt : Llt := fun _ a v => a⁻¹ *ᵥ v

theorem inverseLlt_solves : SolvesPosDef inverseLlt := by
  intro n a v h
  unfold inverseLlt
  rw [mulVec_mulVec, mul_nonsing_inv _ ((isUnit_iff_isUnit_det a).1 h.isUnit), one_mulVec]

/-- The smallest singular value of a matrix of one entry -/
noncomputable def single : MinSingular := fun n a => if h : 0 < n then |a ⟨0, h⟩ ⟨0, h⟩| else 0

theorem single_min (a : Matrix (Fin 1) (Fin 1) ℝ) : IsMinSingular a (single 1 a) where
  nonneg := by simp [single]
  least := by intro x; simp [single, squares, mulVec, dotProduct]; apply le_of_eq; ring
  attained := ⟨fun _ => 1, by simp [squares], by simp [single, squares, mulVec, dotProduct]⟩

/-- Two readings, 1 and 4, the second with twice the weight: their mean is 3. -/
example : ∃ x, weightedLeastSquaresSolver single inverseLlt (of fun (_ : Fin 2) (_ : Fin 1) => 1) ![1, 4] ![1, 2] 1 1
    = .ok x ∧ IsUniqueMinimum (fun x => ∑ i, (![1, 2] : Fin 2 → ℝ) i *
      (((of fun (_ : Fin 2) (_ : Fin 1) => (1 : ℝ)) *ᵥ x) i - (![1, 4] : Fin 2 → ℝ) i) ^ 2) x := by
  obtain ⟨x, h1, -, h3⟩ := (C115_weighted single inverseLlt inverseLlt_solves
    (of fun (_ : Fin 2) (_ : Fin 1) => 1) ![1, 4] ![1, 2] 1 1 (by intro i; fin_cases i <;> simp) one_pos one_pos).2
    one_pos (single_min _)
  refine ⟨x, h1, h3 ?_⟩
  rintro ⟨z, hz1, hz2⟩
  have e : squares (((of fun (_ : Fin 2) (_ : Fin 1) => (1 : ℝ))ᵀ * diagonal (![1, 2] : Fin 2 → ℝ) *
      (of fun (_ : Fin 2) (_ : Fin 1) => (1 : ℝ))) *ᵥ z) = 9 * squares z := by
    simp [squares, mulVec, dotProduct, mul_apply, Fin.sum_univ_two]
    ring
  rw [e, hz1] at hz2
  norm_num at hz2

/-- One equation, x + y = 2: the shortest solution. -/
example : ∃ x, underdeterminedSolver single inverseLlt (of fun (_ : Fin 1) (_ : Fin 2) => 1) ![2] 1 1 = .ok x ∧
    (of fun (_ : Fin 1) (_ : Fin 2) => (1 : ℝ)) *ᵥ x = ![2] := by
  obtain ⟨x, h1, -, h3⟩ := (C115_underdetermined single inverseLlt inverseLlt_solves
    (of fun (_ : Fin 1) (_ : Fin 2) => 1) ![2] 1 1 one_pos one_pos).2 one_pos (by norm_num) (single_min _)
  refine ⟨x, h1, (h3 ?_).1⟩
  rintro ⟨z, hz1, hz2⟩
  have e : squares (((of fun (_ : Fin 1) (_ : Fin 2) => (1 : ℝ)) *
      (of fun (_ : Fin 1) (_ : Fin 2) => (1 : ℝ))ᵀ) *ᵥ z) = 4 * squares z := by
    simp [squares, mulVec, dotProduct, mul_apply]
    ring
  rw [e, hz1] at hz2
  norm_num at hz2

end Verif.LeastSquares
