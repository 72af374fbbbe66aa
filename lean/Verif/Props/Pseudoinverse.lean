import Mathlib.Tactic.Linarith
import Mathlib.Tactic.Ring
import Verif.Spec.LeastSquares

/-! # C114: the pseudoinverse -/
namespace Verif.LeastSquares
open Matrix Finset

theorem squares_dot {n : Nat} (v : Fin n → ℝ) : squares v = v ⬝ᵥ v := by
  unfold squares dotProduct
  exact sum_congr rfl fun i _ => by ring

theorem squares_nonneg {n : Nat} (v : Fin n → ℝ) : 0 ≤ squares v := sum_nonneg fun _ _ => sq_nonneg _

theorem squares_eq_zero {n : Nat} {v : Fin n → ℝ} : squares v = 0 ↔ v = 0 := by
  unfold squares
  rw [sum_eq_zero_iff_of_nonneg fun _ _ => sq_nonneg _]
  constructor
  · intro h; funext i; exact pow_eq_zero_iff two_ne_zero |>.1 (h i (mem_univ i))
  · rintro rfl i _; simp

theorem squares_pos {n : Nat} {v : Fin n → ℝ} (h : v ≠ 0) : 0 < squares v :=
  lt_of_le_of_ne (squares_nonneg v) fun e => h (squares_eq_zero.1 e.symm)

theorem squares_add {n : Nat} (v w : Fin n → ℝ) (h : v ⬝ᵥ w = 0) : squares (v + w) = squares v + squares w := by
  rw [squares_dot, squares_dot, squares_dot, add_dotProduct, dotProduct_add, dotProduct_add, dotProduct_comm w v, h]
  ring

theorem dot_mulVec {m n : Nat} (a : Matrix (Fin m) (Fin n) ℝ) (x : Fin n → ℝ) (y : Fin m → ℝ) :
    (a *ᵥ x) ⬝ᵥ y = x ⬝ᵥ (aᵀ *ᵥ y) := by
  rw [dotProduct_comm, dotProduct_mulVec, ← mulVec_transpose, dotProduct_comm]

/-- Orthonormal columns keep lengths. -/
theorem squares_orthonormal {m k : Nat} {u : Matrix (Fin m) (Fin k) ℝ} (h : uᵀ * u = 1) (x : Fin k → ℝ) :
    squares (u *ᵥ x) = squares x := by
  rw [squares_dot, dot_mulVec, mulVec_mulVec, h, one_mulVec, squares_dot]

/-- The coordinates along orthonormal columns are not longer than the vector. -/
theorem squares_bessel {m k : Nat} {u : Matrix (Fin m) (Fin k) ℝ} (h : uᵀ * u = 1) (x : Fin m → ℝ) :
    squares (uᵀ *ᵥ x) ≤ squares x := by
  have e : squares x = squares (u *ᵥ (uᵀ *ᵥ x)) + squares (x - u *ᵥ (uᵀ *ᵥ x)) := by
    rw [← squares_add, add_sub_cancel]
    rw [dot_mulVec, mulVec_sub, mulVec_mulVec, h, one_mulVec, sub_self, dotProduct_zero]
  rw [e, squares_orthonormal h]
  linarith [squares_nonneg (x - u *ᵥ (uᵀ *ᵥ x))]

/-- The matrix with given singular vectors and values -/
noncomputable def assemble {m n k : Nat} (u : Matrix (Fin m) (Fin k) ℝ) (s : Fin k → ℝ)
    (v : Matrix (Fin n) (Fin k) ℝ) : Matrix (Fin m) (Fin n) ℝ := u * diagonal s * vᵀ

theorem assemble_transpose {m n k : Nat} (u : Matrix (Fin m) (Fin k) ℝ) (s : Fin k → ℝ)
    (v : Matrix (Fin n) (Fin k) ℝ) : (assemble u s v)ᵀ = assemble v s u := by
  unfold assemble
  rw [transpose_mul, transpose_mul, transpose_transpose, diagonal_transpose, Matrix.mul_assoc]

theorem assemble_mul {m n l k : Nat} (u : Matrix (Fin m) (Fin k) ℝ) (s r : Fin k → ℝ)
    {v : Matrix (Fin n) (Fin k) ℝ} (w : Matrix (Fin l) (Fin k) ℝ) (h : vᵀ * v = 1) :
    assemble u s v * assemble v r w = assemble u (s * r) w := by
  unfold assemble
  calc u * diagonal s * vᵀ * (v * diagonal r * wᵀ)
      = u * diagonal s * (vᵀ * v) * diagonal r * wᵀ := by simp only [Matrix.mul_assoc]
    _ = _ := by
      rw [h, Matrix.mul_one, Matrix.mul_assoc u, diagonal_mul_diagonal]
      rfl

theorem assemble_pseudoinverse {m n k : Nat} {u : Matrix (Fin m) (Fin k) ℝ} {v : Matrix (Fin n) (Fin k) ℝ}
    (hu : uᵀ * u = 1) (hv : vᵀ * v = 1) (s r : Fin k → ℝ) (h1 : s * r * s = s) (h2 : r * s * r = r) :
    IsPseudoinverse (assemble u s v) (assemble v r u) where
  first := by rw [assemble_mul u s r u hv, assemble_mul u (s * r) s v hu, h1]
  second := by rw [assemble_mul v r s v hu, assemble_mul v (r * s) r u hv, h2]
  third := by rw [assemble_mul u s r u hv, assemble_transpose]
  fourth := by rw [assemble_mul v r s v hu, assemble_transpose]

theorem IsPseudoinverse.transpose {m n : Nat} {a : Matrix (Fin m) (Fin n) ℝ} {p : Matrix (Fin n) (Fin m) ℝ}
    (h : IsPseudoinverse a p) : IsPseudoinverse aᵀ pᵀ where
  first := by rw [← transpose_mul, ← transpose_mul, ← Matrix.mul_assoc, h.first]
  second := by rw [← transpose_mul, ← transpose_mul, ← Matrix.mul_assoc, h.second]
  third := by rw [← transpose_mul, h.fourth, h.fourth]
  fourth := by rw [← transpose_mul, h.third, h.third]

theorem assemble_small {m n k : Nat} {u : Matrix (Fin m) (Fin k) ℝ} {v : Matrix (Fin n) (Fin k) ℝ}
    (hu : uᵀ * u = 1) (hv : vᵀ * v = 1) (s : Fin k → ℝ) (c : ℝ) (hs : ∀ i, |s i| ≤ c) (x : Fin n → ℝ) :
    squares (assemble u s v *ᵥ x) ≤ c ^ 2 * squares x := by
  unfold assemble
  rw [← mulVec_mulVec, ← mulVec_mulVec, squares_orthonormal hu]
  have h1 : squares (diagonal s *ᵥ (vᵀ *ᵥ x)) ≤ c ^ 2 * squares (vᵀ *ᵥ x) := by
    unfold squares
    rw [mul_sum]
    refine sum_le_sum fun i _ => ?_
    rw [mulVec_diagonal, mul_pow]
    exact mul_le_mul_of_nonneg_right (sq_le_sq' (by linarith [neg_abs_le (s i), hs i]) ((le_abs_self _).trans (hs i)))
      (sq_nonneg _)
  exact h1.trans (mul_le_mul_of_nonneg_left (squares_bessel hv x) (sq_nonneg c))

/-- The first columns of `u` -/
def firstColumns {m n : Nat} (d : Svd m n) : Matrix (Fin m) (Fin (min m n)) ℝ :=
  of fun i k => d.u i (Fin.castLE (min_le_left m n) k)

theorem firstColumns_orthonormal {m n : Nat} {a : Matrix (Fin m) (Fin n) ℝ} {d : Svd m n} (h : IsSvd a d) :
    (firstColumns d)ᵀ * firstColumns d = 1 := by
  ext i j
  have := congrFun (congrFun h.u (Fin.castLE (min_le_left m n) i)) (Fin.castLE (min_le_left m n) j)
  rw [mul_apply] at this ⊢
  refine this.trans ?_
  simp [one_apply, Fin.ext_iff]

theorem svd_assemble {m n : Nat} {a : Matrix (Fin m) (Fin n) ℝ} {d : Svd m n} (h : IsSvd a d) :
    a = assemble (firstColumns d) d.s d.v := by
  ext i j
  rw [h.product]
  unfold assemble
  rw [mul_apply]
  refine sum_congr rfl fun k _ => ?_
  rw [mul_diagonal]
  rfl

/-- The singular values with the small ones dropped -/
noncomputable def kept {k : Nat} (rcond : ℝ) (s : Fin k → ℝ) : Fin k → ℝ := fun i => if |s i| ≤ rcond then 0 else s i

theorem pinvCore_spec (svd : Decompose) {m n : Nat} (a : Matrix (Fin m) (Fin n) ℝ) (rcond : ℝ) (hr : 0 ≤ rcond)
    (h : IsSvd a (svd m n a)) :
    IsPseudoinverse (assemble (firstColumns (svd m n a)) (kept rcond (svd m n a).s) (svd m n a).v)
      (pinvCore svd a rcond) := by
  refine assemble_pseudoinverse (firstColumns_orthonormal h) h.v _ _ ?_ ?_ <;>
  · funext i
    simp only [Pi.mul_apply, kept]
    split
    · simp
    · rename_i hi
      have : (svd m n a).s i ≠ 0 := by intro e; rw [e] at hi; simp at hi; linarith
      field_simp

theorem dropped_small {m n : Nat} {a : Matrix (Fin m) (Fin n) ℝ} {d : Svd m n} (h : IsSvd a d) (rcond : ℝ)
    (hr : 0 ≤ rcond) :
    (∀ x, squares ((a - assemble (firstColumns d) (kept rcond d.s) d.v) *ᵥ x) ≤ rcond ^ 2 * squares x) ∧
    (∀ x, squares ((a - assemble (firstColumns d) (kept rcond d.s) d.v)ᵀ *ᵥ x) ≤ rcond ^ 2 * squares x) := by
  have e : a - assemble (firstColumns d) (kept rcond d.s) d.v =
      assemble (firstColumns d) (fun i => d.s i - kept rcond d.s i) d.v := by
    conv_lhs => rw [svd_assemble h]
    unfold assemble
    rw [← Matrix.sub_mul, ← Matrix.mul_sub, diagonal_sub]
  have hs : ∀ i, |d.s i - kept rcond d.s i| ≤ rcond := by
    intro i
    unfold kept
    split
    · rename_i hi; simpa using hi
    · simpa using hr
  rw [e]
  refine ⟨assemble_small (firstColumns_orthonormal h) h.v _ _ hs, ?_⟩
  rw [assemble_transpose]
  exact assemble_small h.v (firstColumns_orthonormal h) _ _ hs

/-- C114: whatever the matrix and with or without the flip, the result is the Moore-Penrose pseudoinverse of a matrix
that differs from the given one by at most `rcond`, in the operator norm. -/
theorem C114_truncated (svd : Decompose) {m n : Nat} (b : Matrix (Fin m) (Fin n) ℝ) (rcond : ℝ) (hr : 0 ≤ rcond)
    (flip : Bool) (h : IsSvd b (svd m n b)) (ht : IsSvd bᵀ (svd n m bᵀ)) :
    ∃ b', IsPseudoinverse b' (pinv svd b rcond flip) ∧ ∀ x, squares ((b - b') *ᵥ x) ≤ rcond ^ 2 * squares x := by
  unfold pinv
  split
  · refine ⟨_, (pinvCore_spec svd bᵀ rcond hr ht).transpose, ?_⟩
    have := (dropped_small ht rcond hr).2
    rw [transpose_sub, transpose_transpose] at this
    exact this
  · exact ⟨_, pinvCore_spec svd b rcond hr h, (dropped_small h rcond hr).1⟩

/-- C114: if every singular value is zero or greater than `rcond`, it is the pseudoinverse of the matrix itself. -/
theorem C114_exact (svd : Decompose) {m n : Nat} (b : Matrix (Fin m) (Fin n) ℝ) (rcond : ℝ) (hr : 0 ≤ rcond)
    (flip : Bool) (h : IsSvd b (svd m n b)) (ht : IsSvd bᵀ (svd n m bᵀ))
    (hs : ∀ i, (svd m n b).s i = 0 ∨ rcond < (svd m n b).s i)
    (hst : ∀ i, (svd n m bᵀ).s i = 0 ∨ rcond < (svd n m bᵀ).s i) :
    IsPseudoinverse b (pinv svd b rcond flip) := by
  have keep : ∀ {k : Nat} (s : Fin k → ℝ), (∀ i, s i = 0 ∨ rcond < s i) → kept rcond s = s := by
    intro k s hs
    funext i
    unfold kept
    split
    · rename_i hi
      rcases hs i with h | h
      · exact h.symm
      · exact absurd hi (not_le.2 (h.trans_le (le_abs_self _)))
    · rfl
  unfold pinv
  split
  · have := (pinvCore_spec svd bᵀ rcond hr ht).transpose
    rw [keep _ hst, ← svd_assemble ht, transpose_transpose] at this
    exact this
  · have := pinvCore_spec svd b rcond hr h
    rw [keep _ hs, ← svd_assemble h] at this
    exact this

/-- C114: a matrix has one pseudoinverse: flipping does not matter. -/
theorem C114_unique {m n : Nat} {a : Matrix (Fin m) (Fin n) ℝ} {p q : Matrix (Fin n) (Fin m) ℝ}
    (hp : IsPseudoinverse a p) (hq : IsPseudoinverse a q) : p = q := by
  have e1 : a * p = a * q := by
    have h1 : a * q * (a * p) = a * p := by rw [← Matrix.mul_assoc, hq.first]
    have h2 : (a * q * (a * p))ᵀ = a * q := by
      rw [transpose_mul, hp.third, hq.third, ← Matrix.mul_assoc, hp.first]
    rw [h1, hp.third] at h2
    exact h2
  have e2 : p * a = q * a := by
    have h1 : p * a * (q * a) = p * a := by rw [Matrix.mul_assoc, ← Matrix.mul_assoc a, hq.first]
    have h2 : (p * a * (q * a))ᵀ = q * a := by
      rw [transpose_mul, hp.fourth, hq.fourth, Matrix.mul_assoc, ← Matrix.mul_assoc a, hp.first]
    rw [h1, hp.fourth] at h2
    exact h2
  rw [← hp.second, e2, Matrix.mul_assoc, e1, ← Matrix.mul_assoc, hq.second]

/-- C114: with a pseudoinverse `p` of `a`, `p y` is the shortest of the vectors `x` for which `a x` is closest to `y`. -/
theorem C114_solves {m n : Nat} {a : Matrix (Fin m) (Fin n) ℝ} {p : Matrix (Fin n) (Fin m) ℝ}
    (hp : IsPseudoinverse a p) (y : Fin m → ℝ) (x : Fin n → ℝ) :
    squares (a *ᵥ (p *ᵥ y) - y) ≤ squares (a *ᵥ x - y) ∧
      (squares (a *ᵥ x - y) = squares (a *ᵥ (p *ᵥ y) - y) → x ≠ p *ᵥ y → squares (p *ᵥ y) < squares x) := by
  have horth : aᵀ *ᵥ (a *ᵥ (p *ᵥ y) - y) = 0 := by
    rw [mulVec_sub, mulVec_mulVec, mulVec_mulVec]
    have : aᵀ * a * p = aᵀ := by
      rw [Matrix.mul_assoc, ← hp.third, ← transpose_mul, hp.first]
    rw [this, sub_self]
  have key : squares (a *ᵥ x - y) = squares (a *ᵥ (x - p *ᵥ y)) + squares (a *ᵥ (p *ᵥ y) - y) := by
    rw [← squares_add]
    · congr 1; rw [mulVec_sub]; abel
    · rw [dot_mulVec, horth, dotProduct_zero]
  refine ⟨by linarith [squares_nonneg (a *ᵥ (x - p *ᵥ y))], fun he hne => ?_⟩
  have h0 : a *ᵥ (x - p *ᵥ y) = 0 := squares_eq_zero.1 (by linarith)
  have e1 : p *ᵥ y = (p * a) *ᵥ x := by
    have := congrArg (fun z => p *ᵥ z) h0
    simp only [mulVec_sub, mulVec_mulVec, mulVec_zero] at this
    rw [← Matrix.mul_assoc, hp.second] at this
    exact (sub_eq_zero.1 this).symm
  have e2 : squares x = squares (p *ᵥ y) + squares (x - p *ᵥ y) := by
    rw [← squares_add, add_sub_cancel]
    rw [e1, dot_mulVec, hp.fourth, mulVec_sub, mulVec_mulVec, ← Matrix.mul_assoc, hp.second, sub_self, dotProduct_zero]
  have := squares_pos (sub_ne_zero.2 hne)
  linarith

/-! ### The hypotheses are met -/

/-- A decomposition of diagonal matrices of one size with entries that are not negative -/
noncomputable def diagonalSvd : Decompose := fun m n a => ⟨1, fun i => a (Fin.castLE (min_le_left m n) i)
  (Fin.castLE (min_le_right m n) i), of fun j i => if j = Fin.castLE (min_le_right m n) i then 1 else 0⟩

theorem diagonalSvd_svd {n : Nat} (d : Fin n → ℝ) (h : ∀ i, 0 ≤ d i) :
    IsSvd (diagonal d) (diagonalSvd n n (diagonal d)) where
  u := by simp [diagonalSvd]
  v := by
    ext i j
    rw [mul_apply, sum_eq_single (Fin.castLE (min_le_right n n) i)]
    · simp only [diagonalSvd, transpose_apply, of_apply, if_true, one_mul, one_apply, Fin.ext_iff, Fin.val_castLE]
    · intro k _ hk
      simp only [diagonalSvd, transpose_apply, of_apply, if_neg hk, zero_mul]
    · intro h; exact absurd (mem_univ _) h
  s := by
    intro i
    simp [diagonalSvd, h]
  product := by
    intro i j
    simp only [diagonalSvd, of_apply]
    rw [sum_eq_single (Fin.cast (min_self n).symm i)]
    · have e1 : Fin.castLE (min_le_left n n) (Fin.cast (min_self n).symm i) = i := rfl
      rw [e1, one_apply_eq, diagonal_apply_eq, diagonal_apply]
      by_cases e : i = j
      · rw [if_pos e, if_pos e.symm]; ring
      · rw [if_neg e, if_neg (fun h => e h.symm)]; ring
    · intro k _ hk
      have : i ≠ Fin.castLE (min_le_left n n) k := by
        rintro rfl; apply hk; rfl
      simp [one_apply, this]
    · intro h; exact absurd (mem_univ _) h

/-- A matrix with a large, a zero and a small singular value -/
noncomputable def sample : Matrix (Fin 3) (Fin 3) ℝ := diagonal ![2, 0, 1 / 2000]

theorem sample_svd : IsSvd sample (diagonalSvd 3 3 sample) ∧ IsSvd sampleᵀ (diagonalSvd 3 3 sampleᵀ) := by
  have h : ∀ i, 0 ≤ (![2, 0, 1 / 2000] : Fin 3 → ℝ) i := by
    intro i; fin_cases i
    · show (0 : ℝ) ≤ 2; norm_num
    · show (0 : ℝ) ≤ 0; norm_num
    · show (0 : ℝ) ≤ 1 / 2000; norm_num
  refine ⟨diagonalSvd_svd _ h, ?_⟩
  unfold sample
  rw [diagonal_transpose]
  exact diagonalSvd_svd _ h

example : ∃ b', IsPseudoinverse b' (pinv diagonalSvd sample suggestedRcond) ∧
    ∀ x, squares ((sample - b') *ᵥ x) ≤ suggestedRcond ^ 2 * squares x :=
  C114_truncated diagonalSvd sample suggestedRcond (by unfold suggestedRcond; norm_num) true sample_svd.1 sample_svd.2

/-- The threshold is not relative to the largest singular value: a regular matrix may have a result of zero. -/
theorem C114_absolute : ∃ b : Matrix (Fin 1) (Fin 1) ℝ, IsSvd b (diagonalSvd 1 1 b) ∧ b.det ≠ 0 ∧
    pinv diagonalSvd b suggestedRcond = 0 := by
  refine ⟨diagonal fun _ => 1 / 1000, diagonalSvd_svd _ (fun _ => by norm_num), by simp, ?_⟩
  unfold pinv
  rw [if_neg (by simp)]
  ext i j
  simp [pinvCore, diagonalSvd, suggestedRcond]

end Verif.LeastSquares
