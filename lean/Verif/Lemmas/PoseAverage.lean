import Mathlib.Analysis.Matrix.Spectrum
import Verif.Spec.PoseAverage
import Verif.Lemmas.Quaternion

/-!
# Lemmas: largest eigenvalues, and sums of squares
-/
namespace Verif.PoseAverage
open Verif Matrix Verif.Kinematics Verif.Pose

theorem inner_lp (x y : Fin 4 → ℝ) : inner ℝ (WithLp.toLp 2 x) (WithLp.toLp 2 y) = x ⬝ᵥ y := by
  rw [EuclideanSpace.inner_toLp_toLp]
  simp [dotProduct_comm]

/-- A symmetric matrix has no larger values on vectors than the largest eigenvalue allows. -/
theorem rayleigh {A : Matrix (Fin 4) (Fin 4) ℝ} (hA : Aᵀ = A) (m : ℝ)
    (hm : ∀ (k : ℝ) (x : Fin 4 → ℝ), x ≠ 0 → A *ᵥ x = k • x → k ≤ m) (x : Fin 4 → ℝ) :
    x ⬝ᵥ (A *ᵥ x) ≤ m * (x ⬝ᵥ x) := by
  have hH : A.IsHermitian := by
    unfold IsHermitian
    rw [conjTranspose_eq_transpose_of_trivial]; exact hA
  let b := hH.eigenvectorBasis
  have hb : ∀ i, A *ᵥ (b i).ofLp = hH.eigenvalues i • (b i).ofLp := fun i => hH.mulVec_eigenvectorBasis i
  have hle : ∀ i, hH.eigenvalues i ≤ m := fun i => by
    refine hm _ (b i).ofLp ?_ (hb i)
    intro h0
    have := b.orthonormal.1 i
    have h1 : b i = 0 := by ext k; exact congrFun h0 k
    rw [h1] at this
    simp at this
  have s1 := b.sum_inner_mul_inner (WithLp.toLp 2 x) (WithLp.toLp 2 (A *ᵥ x))
  have s2 := b.sum_inner_mul_inner (WithLp.toLp 2 x) (WithLp.toLp 2 x)
  rw [inner_lp] at s1 s2
  rw [← s1, ← s2, Finset.mul_sum]
  refine Finset.sum_le_sum fun i _ => ?_
  have e : inner ℝ (b i) (WithLp.toLp 2 (A *ᵥ x)) = hH.eigenvalues i * inner ℝ (b i) (WithLp.toLp 2 x) := by
    have e1 : inner ℝ (b i) (WithLp.toLp 2 (A *ᵥ x)) = (b i).ofLp ⬝ᵥ (A *ᵥ x) := inner_lp _ _
    have e2 : inner ℝ (b i) (WithLp.toLp 2 x) = (b i).ofLp ⬝ᵥ x := inner_lp _ _
    rw [e1, e2, dotProduct_mulVec, ← mulVec_transpose, hA, hb i, smul_dotProduct, smul_eq_mul]
  rw [e, real_inner_comm (b i) (WithLp.toLp 2 x)]
  nlinarith [mul_self_nonneg (inner ℝ (b i) (WithLp.toLp 2 x)), hle i]

/-- There is a solver. -/
theorem exists_solver : ∃ solver, Solves solver := by
  classical
  refine ⟨fun A => if hA : A.IsHermitian then (fun i => (hA.eigenvalues i : ℂ), fun i j => ((hA.eigenvectorBasis i).ofLp j : ℂ))
    else (0, 0), fun A hA => ?_⟩
  have hH : A.IsHermitian := by
    unfold IsHermitian
    rw [conjTranspose_eq_transpose_of_trivial]; exact hA
  simp only [dif_pos hH]
  refine ⟨fun i k => ?_, fun i => ?_, fun m x hx hAx => ?_, fun i _ j => Complex.ofReal_im _⟩
  · have := congrFun (hH.mulVec_eigenvectorBasis i) k
    rw [Pi.smul_apply, smul_eq_mul] at this
    rw [← Complex.ofReal_mul, ← this]
    unfold mulVec dotProduct
    push_cast
    rfl
  · simp only [Complex.normSq_ofReal]
    have := inner_lp (hH.eigenvectorBasis i).ofLp (hH.eigenvectorBasis i).ofLp
    have h1 : inner ℝ (hH.eigenvectorBasis i) (hH.eigenvectorBasis i) = (1 : ℝ) := by
      rw [real_inner_self_eq_norm_sq, hH.eigenvectorBasis.orthonormal.1 i]; norm_num
    exact (this.symm.trans h1)
  · by_contra hne
    push Not at hne
    apply hx
    have hz : ∀ i, inner ℝ (hH.eigenvectorBasis i) (WithLp.toLp 2 x) = (0 : ℝ) := by
      intro i
      have e2 : inner ℝ (hH.eigenvectorBasis i) (WithLp.toLp 2 x) = (hH.eigenvectorBasis i).ofLp ⬝ᵥ x := inner_lp _ _
      have e3 : (hH.eigenvectorBasis i).ofLp ⬝ᵥ (A *ᵥ x) = hH.eigenvalues i * ((hH.eigenvectorBasis i).ofLp ⬝ᵥ x) := by
        rw [dotProduct_mulVec, ← mulVec_transpose, hA, hH.mulVec_eigenvectorBasis i, smul_dotProduct, smul_eq_mul]
      rw [hAx, dotProduct_smul, smul_eq_mul] at e3
      have e4 : hH.eigenvalues i ≠ m := fun h => hne i (by rw [h])
      rw [e2]
      have e5 : (m - hH.eigenvalues i) * ((hH.eigenvectorBasis i).ofLp ⬝ᵥ x) = 0 := by linear_combination e3
      exact (mul_eq_zero.1 e5).resolve_left (sub_ne_zero.2 e4.symm)
    have hX := hH.eigenvectorBasis.sum_repr' (WithLp.toLp 2 x)
    simp only [hz, zero_smul, Finset.sum_const_zero] at hX
    ext k
    exact congrFun (congrArg WithLp.ofLp hX.symm) k

/-- The loop finds a largest real part. -/
theorem largest_spec (ev : Fin 4 → ℂ) (l : List (Fin 4)) (i0 : Fin 4) :
    ∃ i, largest ev l (some (ev i0).re) (some i0) = some i ∧ (ev i0).re ≤ (ev i).re ∧ ∀ k ∈ l, (ev k).re ≤ (ev i).re := by
  induction l generalizing i0 with
  | nil => exact ⟨i0, rfl, le_refl _, by simp⟩
  | cons k ks ih =>
    unfold largest
    by_cases h : (ev k).re > (ev i0).re
    · rw [if_pos h]
      obtain ⟨i, h1, h2, h3⟩ := ih k
      exact ⟨i, h1, h.le.trans h2, by simpa using ⟨h2, h3⟩⟩
    · rw [if_neg h]
      obtain ⟨i, h1, h2, h3⟩ := ih i0
      exact ⟨i, h1, h2, by simpa using ⟨(not_lt.1 h).trans h2, h3⟩⟩

theorem largest_all (ev : Fin 4 → ℂ) :
    ∃ i, largest ev [0, 1, 2, 3] none none = some i ∧ ∀ k, (ev k).re ≤ (ev i).re := by
  obtain ⟨i, h1, h2, h3⟩ := largest_spec ev [1, 2, 3] 0
  refine ⟨i, ?_, ?_⟩
  · conv_lhs => unfold largest
    rw [if_pos trivial]
    exact h1
  · intro k
    fin_cases k
    · exact h2
    · exact h3 1 (by simp)
    · exact h3 2 (by simp)
    · exact h3 3 (by simp)

theorem square_symm (cs : List (Fin 4 → ℝ)) : (square cs)ᵀ = square cs := by
  ext i j
  simp only [transpose_apply, square]
  congr 1
  exact List.map_congr_left fun c _ => mul_comm _ _

theorem square_form (cs : List (Fin 4 → ℝ)) (x : Fin 4 → ℝ) :
    x ⬝ᵥ (square cs *ᵥ x) = (cs.map fun c => (c ⬝ᵥ x) ^ 2).sum := by
  induction cs with
  | nil => simp [square, dotProduct, mulVec]
  | cons c cs ih =>
    rw [List.map_cons, List.sum_cons, ← ih]
    have e : square (c :: cs) = vecMulVec c c + square cs := by
      ext i j; simp [square, vecMulVec_apply]
    rw [e, add_mulVec, dotProduct_add]
    congr 1
    rw [vecMulVec_mulVec]
    simp [dotProduct_smul, dotProduct_comm x c, sq]

/-- The best eigenvector is real, of length one, and no other vector of length one has a larger value. -/
theorem best {solver : Solver} (hs : Solves solver) {A : Matrix (Fin 4) (Fin 4) ℝ} (hA : Aᵀ = A) {i : Fin 4}
    (hi : ∀ k, ((solver A).1 k).re ≤ ((solver A).1 i).re) :
    let v : Fin 4 → ℝ := fun j => ((solver A).2 i j).re
    v ⬝ᵥ v = 1 ∧ ∀ x, x ⬝ᵥ x = 1 → x ⬝ᵥ (A *ᵥ x) ≤ v ⬝ᵥ (A *ᵥ v) := by
  intro v
  obtain ⟨h1, h2, h3, h4⟩ := hs A hA
  -- the eigenvalue is real
  have him : ((solver A).1 i).im = 0 := by
    set w := (solver A).2 i with hw
    set l := (solver A).1 i with hl
    have hsum : ∑ k, ∑ j, (starRingEnd ℂ) (w k) * ((A k j : ℂ) * w j) = l := by
      have : ∀ k, ∑ j, (starRingEnd ℂ) (w k) * ((A k j : ℂ) * w j) = l * (Complex.normSq (w k) : ℂ) := by
        intro k
        rw [← Finset.mul_sum, h1 i k, Complex.normSq_eq_conj_mul_self]
        ring
      simp only [this]
      rw [← Finset.mul_sum, ← Complex.ofReal_sum, h2 i]
      simp
    have hconj : (starRingEnd ℂ) l = l := by
      rw [← hsum, map_sum]
      simp only [map_sum, map_mul, Complex.conj_conj, Complex.conj_ofReal]
      rw [Finset.sum_comm]
      refine Finset.sum_congr rfl fun k _ => Finset.sum_congr rfl fun j _ => ?_
      have : A j k = A k j := congrFun (congrFun hA k) j
      rw [this]; ring
    exact Complex.conj_eq_iff_im.1 hconj
  have hv : ∀ j, (solver A).2 i j = (v j : ℂ) := fun j => Complex.ext rfl (by rw [h4 i him j]; rfl)
  have hl : (solver A).1 i = (((solver A).1 i).re : ℂ) := Complex.ext rfl (by rw [him]; rfl)
  have hvv : v ⬝ᵥ v = 1 := by
    have := h2 i
    simp only [hv, Complex.normSq_ofReal] at this
    exact this
  have heig : A *ᵥ v = ((solver A).1 i).re • v := by
    ext k
    have := h1 i k
    rw [hl] at this
    simp only [hv] at this
    have h5 : ((∑ j, A k j * v j : ℝ) : ℂ) = ((((solver A).1 i).re * v k : ℝ) : ℂ) := by push_cast; exact this
    exact_mod_cast h5
  refine ⟨hvv, fun x hx => ?_⟩
  have := rayleigh hA ((solver A).1 i).re (fun k y hy hk => by
    obtain ⟨i', hi'⟩ := h3 k y hy hk
    have := hi i'
    rw [hi'] at this
    simpa using this) x
  rw [heig, dotProduct_smul, hvv, smul_eq_mul]
  rw [hx] at this
  exact this

theorem columns_none (weights : List ℝ) (qs : List Quat) (idx : Nat) :
    columns weights false idx qs = .ok (qs.map fun q => ![q.w, q.x, q.y, q.z]) := by
  induction qs generalizing idx with
  | nil => rfl
  | cons q qs ih =>
    unfold columns
    simp [ih]

theorem columns_some (weights : List ℝ) (qs : List Quat) (idx : Nat) (h : weights.length = idx + qs.length) :
    columns weights true idx qs = .ok (List.zipWith (fun w q => ![|w| * q.w, |w| * q.x, |w| * q.y, |w| * q.z])
      (weights.drop idx) qs) := by
  induction qs generalizing idx with
  | nil => unfold columns; simp
  | cons q qs ih =>
    have hi : idx < weights.length := by rw [h]; simp
    unfold columns
    rw [ih (idx + 1) (by rw [h]; simp; omega)]
    simp only [List.getElem?_eq_getElem hi, if_true, Out.bind_ok]
    rw [List.drop_eq_getElem_cons hi, List.zipWith_cons_cons]

/-- The columns, with the weights that are used -/
theorem columns_eq (weights : List ℝ) (qs : List Quat) (hl : weights = [] ∨ weights.length = qs.length) :
    ∃ cs, columns weights (if weights.length = qs.length then true else false) 0 qs = .ok cs ∧
      ∀ x : Quat, (cs.map fun c => (c ⬝ᵥ ![x.w, x.x, x.y, x.z]) ^ 2).sum =
        (List.zipWith (fun w q => w ^ 2 * dot x q ^ 2) (usedWeights weights qs) qs).sum := by
  by_cases h : weights.length = qs.length
  · rw [if_pos h]
    refine ⟨_, columns_some weights qs 0 (by simpa using h), fun x => ?_⟩
    rw [List.drop_zero]
    have hu : List.zipWith (fun w q => w ^ 2 * dot x q ^ 2) (usedWeights weights qs) qs =
        List.zipWith (fun w q => w ^ 2 * dot x q ^ 2) weights qs := by
      unfold usedWeights
      split
      · next h0 =>
        rw [h0] at h
        have : qs = [] := List.length_eq_zero_iff.1 h.symm
        rw [this, h0]; rfl
      · rfl
    rw [hu, List.map_zipWith]
    congr 2
    funext w q
    simp only [dotProduct, Fin.sum_univ_four, cons_val_zero, cons_val_one, cons_val, dot]
    have := sq_abs w
    linear_combination (x.w * q.w + x.x * q.x + x.y * q.y + x.z * q.z) ^ 2 * this
  · rw [if_neg h]
    have h0 := hl.resolve_right h
    refine ⟨_, columns_none weights qs 0, fun x => ?_⟩
    unfold usedWeights
    rw [if_pos h0, List.zipWith_map_left, List.map_map]
    have : ∀ l : List Quat, List.zipWith (fun (_ : Quat) q => (1 : ℝ) ^ 2 * dot x q ^ 2) l l = l.map fun q => dot x q ^ 2 := by
      intro l
      induction l with
      | nil => rfl
      | cons a l _ => simp
    rw [this]
    congr 1
    refine List.map_congr_left fun q _ => ?_
    simp only [Function.comp, dotProduct, Fin.sum_univ_four, cons_val_zero, cons_val_one, cons_val, dot]
    ring

/-- The squared differences of the entries of two rotation matrices -/
theorem apart_eq {p q : Quat} (hp : p.squaredNorm = 1) (hq : q.squaredNorm = 1) :
    apart (toRotationMatrix p) (toRotationMatrix q) = 8 - 8 * dot p q ^ 2 := by
  have key : ∀ R S : Mat3, apart R S = (R * Rᵀ).trace + (S * Sᵀ).trace - 2 * (R * Sᵀ).trace := by
    intro R S
    simp only [apart, trace, diag_apply, mul_apply, transpose_apply, Fin.sum_univ_three]
    ring
  have self : ∀ {p : Quat}, p.squaredNorm = 1 → dot p p = 1 := by
    intro p hp
    unfold dot Quat.squaredNorm at *
    linarith
  rw [key, trace_products hp hp, trace_products hq hq, trace_products hp hq, self hp, self hq]
  ring

end Verif.PoseAverage
