import Mathlib.Analysis.Matrix.Order
import Mathlib.Analysis.InnerProductSpace.Adjoint
import Mathlib.Probability.Independence.InfinitePi
import Mathlib.Tactic.Ring
import Mathlib.Tactic.Linarith
import Verif.Lemmas.Draws
import Verif.Spec.Multivariate

/-!
# C118: samples of a multivariate normal distribution
-/
namespace Verif.Multivariate
open Verif Matrix MeasureTheory ProbabilityTheory Verif.Draws

/-- **C118.** A distribution is made exactly if the covariance is square and of the size of the mean. -/
theorem C118_construct (e : Eigen) {n rows cols : Nat} (mean : Fin n → ℝ) (covariance : Matrix (Fin rows) (Fin cols) ℝ) :
    (¬ (rows = n ∧ cols = n) → construct e mean covariance = .abort) ∧
    ∀ h : rows = n ∧ cols = n, ∃ d, construct e mean covariance = .ok d ∧ d = ⟨n, mean,
      normTransform e (covariance.submatrix (Fin.cast h.1.symm) (Fin.cast h.2.symm))⟩ := by
  constructor
  · intro h
    rw [construct, dif_neg (by omega)]
  · intro h
    refine ⟨_, ?_, rfl⟩
    rw [construct, dif_pos ⟨h.1.symm, by omega⟩]

theorem mirror_symm {n : Nat} (a : Square n) : (mirror a)ᵀ = mirror a := by
  ext i j
  simp only [transpose_apply, mirror]
  rcases lt_trichotomy i j with h | h | h
  · rw [if_pos h.le, if_neg (not_le.2 h)]
  · subst h; rfl
  · rw [if_neg (not_le.2 h), if_pos h.le]

theorem mirror_of_symm {n : Nat} (a : Square n) (h : aᵀ = a) : mirror a = a := by
  ext i j
  simp only [mirror]
  split
  · rfl
  · exact congrFun (congrFun h i) j

/-- The part of the statement about the transformation: its square is the covariance, without the negative part. -/
theorem transform_square (e : Eigen) (he : e.Correct) {n : Nat} (a : Square n) :
    IsPositivePart (mirror a) (normTransform e a * (normTransform e a)ᵀ) := by
  have hp : (normTransform e a * (normTransform e a)ᵀ).PosSemidef := by
    have := posSemidef_self_mul_conjTranspose (normTransform e a)
    rwa [conjTranspose_eq_transpose_of_trivial] at this
  unfold normTransform at hp ⊢
  cases h : e.llt a with
  | some l =>
    simp only [h] at hp ⊢
    refine ⟨hp, ?_, ?_⟩
    · rw [he.llt a l h, sub_self]; exact PosSemidef.zero
    · rw [he.llt a l h, sub_self, mul_zero]
  | none =>
    simp only [h] at hp ⊢
    obtain ⟨h1, h2⟩ := he.eigen a
    generalize (e.eigen a).1 = v at *
    generalize (e.eigen a).2 = d at *
    have h1' : vᵀ * v = 1 := mul_eq_one_comm.1 h1
    have hv : ∀ f : Fin n → ℝ, (∀ i, 0 ≤ f i) → (v * diagonal f * vᵀ).PosSemidef := by
      intro f hf
      have := (PosSemidef.diagonal hf).mul_mul_conjTranspose_same v
      rwa [conjTranspose_eq_transpose_of_trivial] at this
    have hsq : v * diagonal (fun i => Real.sqrt (max (d i) 0)) * (v * diagonal (fun i => Real.sqrt (max (d i) 0)))ᵀ =
        v * diagonal (fun i => max (d i) 0) * vᵀ := by
      rw [transpose_mul, diagonal_transpose, mul_assoc, ← mul_assoc (diagonal _) (diagonal _), diagonal_mul_diagonal,
        ← mul_assoc]
      congr 3
      ext i
      exact Real.mul_self_sqrt (le_max_right _ _)
    have hdiff : v * diagonal (fun i => max (d i) 0) * vᵀ - mirror a = v * diagonal (fun i => max (d i) 0 - d i) * vᵀ := by
      rw [← h2, ← sub_mul, ← mul_sub, diagonal_sub]
    rw [hsq] at hp ⊢
    refine ⟨hp, ?_, ?_⟩
    · rw [hdiff]
      exact hv _ fun i => sub_nonneg.2 (le_max_left _ _)
    · rw [hdiff]
      have : v * diagonal (fun i => max (d i) 0) * vᵀ * (v * diagonal (fun i => max (d i) 0 - d i) * vᵀ) =
          v * (diagonal (fun i => max (d i) 0) * diagonal (fun i => max (d i) 0 - d i)) * vᵀ := by
        calc _ = v * diagonal (fun i => max (d i) 0) * (vᵀ * v) * (diagonal (fun i => max (d i) 0 - d i) * vᵀ) := by
              simp only [mul_assoc]
          _ = _ := by rw [h1', mul_one]; simp only [mul_assoc]
      rw [this, diagonal_mul_diagonal]
      have hz : (fun i => max (d i) 0 * (max (d i) 0 - d i)) = 0 := by
        funext i
        rcases le_total (d i) 0 with h | h
        · rw [max_eq_right h, zero_mul]; rfl
        · rw [max_eq_left h, sub_self, mul_zero]; rfl
      rw [hz, diagonal_zero', mul_zero, zero_mul]

/-- The positive part of a positive semidefinite matrix is the matrix. -/
theorem positivePart_self {n : Nat} {a p : Square n} (ha : a.PosSemidef) (h : IsPositivePart a p) : p = a := by
  obtain ⟨h1, h2, h3⟩ := h
  have hs : (p - a)ᵀ = p - a := h2.1
  suffices p - a = 0 from sub_eq_zero.1 this
  have move : ∀ x y : Fin n → ℝ, x ⬝ᵥ ((p - a) *ᵥ y) = ((p - a) *ᵥ x) ⬝ᵥ y := by
    intro x y
    rw [dotProduct_mulVec, ← mulVec_transpose, hs]
  have h0 : ∀ x, (p - a) *ᵥ x = 0 := by
    intro x
    have e0 : ((p - a) *ᵥ x) ⬝ᵥ (a *ᵥ ((p - a) *ᵥ x)) + ((p - a) *ᵥ x) ⬝ᵥ ((p - a) *ᵥ ((p - a) *ᵥ x)) = 0 := by
      rw [← dotProduct_add, ← add_mulVec, add_sub_cancel, mulVec_mulVec, h3, zero_mulVec, dotProduct_zero]
    have n1 : 0 ≤ ((p - a) *ᵥ x) ⬝ᵥ (a *ᵥ ((p - a) *ᵥ x)) := by
      simpa using ha.dotProduct_mulVec_nonneg ((p - a) *ᵥ x)
    have n2 : 0 ≤ ((p - a) *ᵥ x) ⬝ᵥ ((p - a) *ᵥ ((p - a) *ᵥ x)) := by
      simpa using h2.dotProduct_mulVec_nonneg ((p - a) *ᵥ x)
    have z : (p - a) *ᵥ ((p - a) *ᵥ x) = 0 := by
      apply (h2.dotProduct_mulVec_zero_iff _).1
      rw [star_trivial]
      linarith
    have := move x ((p - a) *ᵥ x)
    rw [z, dotProduct_zero] at this
    exact dotProduct_self_eq_zero.1 this.symm
  ext i j
  have := congrFun (h0 (Pi.single j 1)) i
  simpa using this

/-- **C118.** The transformation of the draws has the covariance as its square if this is a covariance (symmetric,
positive semidefinite; only the lower triangle is read). Otherwise its square is the positive part. -/
theorem C118_transform (e : Eigen) (he : e.Correct) {n : Nat} (covariance : Square n) :
    IsPositivePart (mirror covariance) (normTransform e covariance * (normTransform e covariance)ᵀ) ∧
    (covariance.PosSemidef → normTransform e covariance * (normTransform e covariance)ᵀ = covariance) := by
  have h := transform_square e he covariance
  refine ⟨h, fun hc => ?_⟩
  rw [mirror_of_symm covariance hc.1] at h
  exact positivePart_self hc h

/-! ### The draws -/

variable {σ : Type} (normal : σ → ℝ × σ)

theorem fill_eq {n : Nat} (left : Nat) : ∀ (idx : Nat) (draw : Fin n → ℝ) (g : σ),
    fill normal left idx draw g = ((fun i => if idx ≤ i.val ∧ i.val < idx + left then drawAt normal g (i.val - idx)
      else draw i), stateAfter normal g left) := by
  induction left with
  | zero =>
    intro idx draw g
    rw [fill]
    refine Prod.ext ?_ rfl
    funext i
    exact (if_neg (by omega)).symm
  | succ left ih =>
    intro idx draw g
    rw [fill, ih, stateAfter_succ]
    refine Prod.ext ?_ rfl
    funext i
    simp only
    by_cases h1 : i.val = idx
    · rw [if_neg (by omega), if_pos h1, if_pos (by omega), h1, Nat.sub_self]; rfl
    · by_cases h2 : idx + 1 ≤ i.val ∧ i.val < idx + 1 + left
      · rw [if_pos h2, if_pos (by omega), ← drawAt_succ]
        congr 1; omega
      · rw [if_neg h2, if_neg h1, if_neg (by omega)]

/-- **C118.** A sample takes as many draws as the mean has components, in order, and is their image under the
transformation, moved by the mean. -/
theorem C118_sample (d : Dist) (garbage : Fin d.size → ℝ) (g : σ) :
    d.sample normal garbage g =
      (d.transform *ᵥ (fun i => drawAt normal g i) + d.mean, stateAfter normal g d.size) := by
  rw [Dist.sample, fill_eq]
  have : (fun i : Fin d.size => if 0 ≤ i.val ∧ i.val < 0 + d.size then drawAt normal g (i.val - 0) else garbage i) =
      fun i => drawAt normal g i.val := by
    funext i
    rw [if_pos (by omega)]; rfl
  simp only [this]

/-! ### The law -/

/-- The affine image of standard normal draws -/
theorem affine_law {n : Nat} (N : Square n) (mean : Fin n → ℝ) :
    (Measure.infinitePi fun _ : Fin n => gaussianReal 0 1).map (fun x => WithLp.toLp 2 (N *ᵥ x + mean)) =
      multivariateGaussian (WithLp.toLp 2 mean) (N * Nᵀ) := by
  have hS : (N * Nᵀ).PosSemidef := by
    have := posSemidef_self_mul_conjTranspose N
    rwa [conjTranspose_eq_transpose_of_trivial] at this
  have hm : Measurable fun x : Fin n → ℝ => WithLp.toLp 2 (N *ᵥ x + mean) := by fun_prop
  have hprob : IsProbabilityMeasure
      ((Measure.infinitePi fun _ : Fin n => gaussianReal 0 1).map (fun x => WithLp.toLp 2 (N *ᵥ x + mean))) :=
    Measure.isProbabilityMeasure_map hm.aemeasurable
  apply Measure.ext_of_charFun
  funext t
  rw [charFun_multivariateGaussian hS, charFun_apply, integral_map hm.aemeasurable (by fun_prop),
    Measure.infinitePi_eq_pi]
  have hinner : ∀ x : Fin n → ℝ, (inner ℝ (WithLp.toLp 2 (N *ᵥ x + mean)) t : ℝ) =
      inner ℝ t (WithLp.toLp 2 mean) + inner ℝ (WithLp.toLp 2 x) (WithLp.toLp 2 (Nᵀ *ᵥ t.ofLp)) := by
    intro x
    rw [EuclideanSpace.inner_eq_star_dotProduct, EuclideanSpace.inner_eq_star_dotProduct,
      EuclideanSpace.inner_eq_star_dotProduct]
    simp only [star_trivial]
    rw [dotProduct_add, add_comm, dotProduct_comm mean, dotProduct_mulVec, ← mulVec_transpose]
  have hstd := charFun_stdGaussian (E := EuclideanSpace ℝ (Fin n)) (WithLp.toLp 2 (Nᵀ *ᵥ t.ofLp))
  rw [← map_pi_eq_stdGaussian, charFun_apply, integral_map (by fun_prop) (by fun_prop)] at hstd
  simp only [hinner, Complex.ofReal_add, add_mul, Complex.exp_add]
  rw [integral_const_mul, hstd, ← Complex.exp_add, sub_eq_add_neg]
  congr 2
  have : (‖WithLp.toLp 2 (Nᵀ *ᵥ t.ofLp)‖ : ℝ) ^ 2 = t.ofLp ⬝ᵥ (N * Nᵀ) *ᵥ t.ofLp := by
    rw [EuclideanSpace.real_norm_sq_eq, ← mulVec_mulVec, dotProduct_mulVec, ← mulVec_transpose]
    simp only [dotProduct, sq]
  rw [← Complex.ofReal_pow, this, neg_div]

/-- **C118.** From independent standard normal draws, repeated calls give independent samples of the normal
distribution with the given mean and the positive part of the given covariance, which is the covariance itself if this
is symmetric and positive semidefinite. -/
theorem C118_law (e : Eigen) (he : e.Correct) {n : Nat} (mean : Fin n → ℝ) (covariance : Square n)
    (garbage : Fin n → ℝ) :
    ∃ S, IsPositivePart (mirror covariance) S ∧ (covariance.PosSemidef → S = covariance) ∧
      ∃ N, construct e mean covariance = .ok ⟨n, mean, N⟩ ∧
        standardDraws.map (fun s k => WithLp.toLp 2 (results (Dist.sample next ⟨n, mean, N⟩ garbage) s k)) =
        Measure.infinitePi fun _ : ℕ => multivariateGaussian (WithLp.toLp 2 mean) S := by
  obtain ⟨h1, h2⟩ := C118_transform e he covariance
  refine ⟨_, h1, h2, normTransform e covariance, ?_, ?_⟩
  · rw [construct, dif_pos ⟨rfl, rfl⟩]; rfl
  · have := results_law (gaussianReal 0 1) (fun s => (WithLp.toLp 2 (Dist.sample next ⟨n, mean, normTransform e covariance⟩ garbage s).1,
      (Dist.sample next ⟨n, mean, normTransform e covariance⟩ garbage s).2)) n
      (fun x => WithLp.toLp 2 (normTransform e covariance *ᵥ x + mean)) (by fun_prop)
      (fun g => by rw [C118_sample])
    rw [affine_law] at this
    exact this

/-! ### Examples -/

theorem diagonalise {n : Nat} (a : Square n) : ∃ r : Square n × (Fin n → ℝ),
    r.1 * r.1ᵀ = 1 ∧ r.1 * Matrix.diagonal r.2 * r.1ᵀ = mirror a := by
  have h : (mirror a).IsHermitian := mirror_symm a
  refine ⟨((h.eigenvectorUnitary : Square n), h.eigenvalues), ?_, ?_⟩
  · have := Unitary.coe_mul_star_self h.eigenvectorUnitary
    rwa [Unitary.coe_star, star_eq_conjTranspose, conjTranspose_eq_transpose_of_trivial] at this
  · have := h.spectral_theorem
    rw [Unitary.conjStarAlgAut_apply, star_eq_conjTranspose, conjTranspose_eq_transpose_of_trivial] at this
    exact this.symm

open Classical in
/-- Decompositions with the contract exist: a Cholesky factor whenever there is one. -/
noncomputable def exact : Eigen where
  llt a := if h : ∃ l, l * lᵀ = mirror a then some h.choose else none
  eigen a := (diagonalise a).choose

theorem exact_correct : exact.Correct where
  llt a l h := by
    simp only [exact] at h
    split at h
    · rename_i hl
      cases h
      exact hl.choose_spec
    · cases h
  eigen a := (diagonalise a).choose_spec

/-- A covariance of two correlated numbers is positive semidefinite: the samples have it. -/
example (mean garbage : Fin 2 → ℝ) : ∃ N, construct exact mean !![2, 1; 1, 1] = .ok ⟨2, mean, N⟩ ∧
    standardDraws.map (fun s k => WithLp.toLp 2 (results (Dist.sample next ⟨2, mean, N⟩ garbage) s k)) =
    Measure.infinitePi fun _ : ℕ => multivariateGaussian (WithLp.toLp 2 mean) !![2, 1; 1, 1] := by
  obtain ⟨S, -, h2, h3⟩ := C118_law exact exact_correct mean !![2, 1; 1, 1] garbage
  have : (!![2, 1; 1, 1] : Square 2).PosSemidef := by
    have := posSemidef_self_mul_conjTranspose (!![1, 1; 0, 1] : Square 2)
    have e : (!![1, 1; 0, 1] : Square 2) * (!![1, 1; 0, 1] : Square 2)ᴴ = !![2, 1; 1, 1] := by
      ext i j
      fin_cases i <;> fin_cases j <;> (simp [Matrix.mul_apply, Fin.sum_univ_two]; try norm_num)
    rwa [e] at this
  rw [← h2 this]
  exact (h2 this) ▸ h3

end Verif.Multivariate
