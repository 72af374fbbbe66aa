import Mathlib.LinearAlgebra.Basis.VectorSpace
import Mathlib.LinearAlgebra.Matrix.ToLin
import Verif.Lemmas.Kernel
import Verif.Spec.ThinPlateSpline
import Verif.Props.PointSets

/-! # The linear system of thin plate splines -/
namespace Verif.Kernel
open Finset

variable {ι κ : Type} [Fintype ι] [Fintype κ]

open Classical in
/-- The sum of the weights at a point -/
noncomputable def merged (x : ι → κ → ℝ) (c : ι → ℝ) (p : κ → ℝ) : ℝ := ∑ i with x i = p, c i

open Classical in
theorem sum_merged (x : ι → κ → ℝ) (c : ι → ℝ) (g : (κ → ℝ) → ℝ) :
    ∑ i, c i * g (x i) = ∑ p : (univ.image x : Finset (κ → ℝ)), merged x c p.1 * g p.1 := by
  rw [sum_coe_sort (univ.image x) (fun p => merged x c p * g p)]
  rw [← sum_fiberwise_of_maps_to (s := univ) (t := univ.image x) (g := x) (fun i _ => mem_image_of_mem x (mem_univ i))]
  refine sum_congr rfl fun p _ => ?_
  unfold merged
  rw [sum_mul]
  refine sum_congr rfl fun i hi => ?_
  rw [(mem_filter.1 hi).2]

open Classical in
theorem form_merged (x : ι → κ → ℝ) (c : ι → ℝ) (f : (κ → ℝ) → (κ → ℝ) → ℝ) :
    form x c f = form (fun p : (univ.image x : Finset (κ → ℝ)) => p.1) (fun p => merged x c p.1) f := by
  unfold form
  have h1 : ∀ i, ∑ j, c i * c j * f (x i) (x j) =
      c i * ∑ q : (univ.image x : Finset (κ → ℝ)), merged x c q.1 * f (x i) q.1 := by
    intro i
    rw [← sum_merged x c (fun q => f (x i) q), mul_sum]
    exact sum_congr rfl fun j _ => by ring
  rw [sum_congr rfl fun i _ => h1 i]
  rw [sum_merged x c (fun p => ∑ q : (univ.image x : Finset (κ → ℝ)), merged x c q.1 * f p q.1)]
  refine sum_congr rfl fun p _ => ?_
  rw [mul_sum]
  exact sum_congr rfl fun j _ => by ring

open Classical in
/-- A form that is positive on weights without sum and moment at distinct points vanishes only where the weights at each
point cancel. -/
theorem merged_zero (f : (κ → ℝ) → (κ → ℝ) → ℝ) (x : ι → κ → ℝ) (c : ι → ℝ)
    (hf : ∀ (S : Finset (κ → ℝ)) (c : S → ℝ), c ≠ 0 → ∑ i, c i = 0 → (∀ k, ∑ i, c i * i.1 k = 0) →
      form (fun p : S => p.1) c f ≠ 0)
    (h : ∑ i, c i = 0) (hm : ∀ k, ∑ i, c i * x i k = 0) (h0 : form x c f = 0) (p : κ → ℝ) : merged x c p = 0 := by
  by_cases hp : p ∈ univ.image x
  · by_contra hne
    refine hf (univ.image x) (fun p => merged x c p.1) (fun e => hne (congrFun e ⟨p, hp⟩)) ?_ ?_ ?_
    · have := sum_merged x c (fun _ => 1)
      simp only [mul_one] at this
      rw [← this, h]
    · intro k
      rw [← sum_merged x c (fun p => p k), hm]
    · rw [← form_merged, h0]
  · unfold merged
    rw [filter_eq_empty_iff.2, sum_empty]
    intro i _ e
    exact hp (e ▸ mem_image_of_mem x (mem_univ i))

end Verif.Kernel

namespace Verif.ThinPlateSpline
open Matrix Verif.PointSets Verif.Kernel Finset

/-- The kernel in the plane and in space is positive on weights without sum and moment. -/
theorem kernel_positive {d : Nat} (hd : d = 2 ∨ d = 3) (S : Finset (Fin d → ℝ)) (c : S → ℝ) (hc : c ≠ 0)
    (h : ∑ i, c i = 0) (hm : ∀ k, ∑ i, c i * i.1 k = 0) :
    form (fun p : S => p.1) c (fun p q => kernelFunction d (sq p q)) ≠ 0 := by
  rcases hd with rfl | rfl
  · have := form_log_pos (fun p : S => p.1) Subtype.val_injective c hc h hm
    rw [form_congr (g := fun p q => sq p q * Real.log (sq p q))]
    · exact this.ne'
    · intro p q
      rw [kernelFunction]
      by_cases e : Kernel.sq p q = 0
      · rw [if_pos e, e]; simp
      · rw [if_neg e]
  · have := form_sqrt_neg (fun p : S => p.1) Subtype.val_injective c hc h
    rw [form_congr (g := fun p q => (-1) * Real.sqrt (sq p q)), form_smul]
    · intro e; linarith
    · intro p q
      rw [kernelFunction]
      by_cases e : Kernel.sq p q = 0
      · rw [if_pos e, e]; simp
      · rw [if_neg e]; ring

variable {ι : Type} [Fintype ι] {d : Nat}

/-- The matrix of the system of points -/
noncomputable def system (x : ι → Point d) : Matrix (ι ⊕ Fin (d + 1)) (ι ⊕ Fin (d + 1)) ℝ :=
  fromBlocks (of fun i j => kernelFunction d (sq (x i) (x j))) (of fun i k => homogeneousPoint (x i) k)
    (of fun k i => homogeneousPoint (x i) k) 0

theorem sum_homogeneous (a : Point (d + 1)) (p : Point d) :
    ∑ l, a l * homogeneousPoint p l = ∑ l : Fin d, a l.castSucc * p l + a (Fin.last d) := by
  rw [Fin.sum_univ_castSucc]
  simp [homogeneousPoint]

theorem system_mul (x : ι → Point d) (z : ι ⊕ Fin (d + 1) → ℝ) :
    (∀ i, (system x *ᵥ z) (.inl i) = ∑ j, kernelFunction d (sq (x i) (x j)) * z (.inl j) +
      ∑ l, homogeneousPoint (x i) l * z (.inr l)) ∧
    (∀ l, (system x *ᵥ z) (.inr l) = ∑ i, homogeneousPoint (x i) l * z (.inl i)) := by
  constructor
  · intro i
    simp [system, mulVec, dotProduct, Fintype.sum_sum_type]
  · intro l
    simp [system, mulVec, dotProduct, Fintype.sum_sum_type]

theorem sq_comm' {κ : Type} [Fintype κ] (p q : κ → ℝ) : sq p q = sq q p := by
  unfold Kernel.sq
  exact sum_congr rfl fun k _ => by ring

omit [Fintype ι] in
theorem system_symm (x : ι → Point d) : (system x)ᵀ = system x := by
  unfold system
  rw [fromBlocks_transpose]
  congr 1
  ext i j; simp [sq_comm']

/-- The last equations say that the weights have no sum and no moment. -/
theorem moments (x : ι → Point d) (c : ι → ℝ) (h : ∀ l, ∑ i, homogeneousPoint (x i) l * c i = 0) :
    ∑ i, c i = 0 ∧ ∀ k, ∑ i, c i * x i k = 0 := by
  constructor
  · have := h (Fin.last d)
    simpa [homogeneousPoint] using this
  · intro k
    have := h k.castSucc
    simp only [homogeneousPoint, Fin.snoc_castSucc] at this
    rw [← this]
    exact sum_congr rfl fun i _ => by ring

/-- What the system maps to zero has no weight at any point. -/
theorem system_kernel (hd : d = 2 ∨ d = 3) (x : ι → Point d) (z : ι ⊕ Fin (d + 1) → ℝ)
    (h : system x *ᵥ z = 0) (p : Point d) : merged x (fun i => z (.inl i)) p = 0 := by
  obtain ⟨h1, h2⟩ := system_mul x z
  have hl : ∀ l, ∑ i, homogeneousPoint (x i) l * z (.inl i) = 0 := fun l => by rw [← h2, h]; rfl
  obtain ⟨hs, hm⟩ := moments x (fun i => z (.inl i)) hl
  refine merged_zero (fun p q => kernelFunction d (sq p q)) x _ (kernel_positive hd) hs hm ?_ p
  unfold form
  have e : ∀ i, ∑ j, z (.inl i) * z (.inl j) * kernelFunction d (sq (x i) (x j)) =
      -∑ l, z (.inr l) * (homogeneousPoint (x i) l * z (.inl i)) := by
    intro i
    have := h1 i
    rw [h] at this
    simp only [Pi.zero_apply] at this
    have e1 : ∑ j, z (.inl i) * z (.inl j) * kernelFunction d (sq (x i) (x j)) =
        z (.inl i) * ∑ j, kernelFunction d (sq (x i) (x j)) * z (.inl j) := by
      rw [mul_sum]; exact sum_congr rfl fun j _ => by ring
    have e2 : ∑ l, z (.inr l) * (homogeneousPoint (x i) l * z (.inl i)) =
        z (.inl i) * ∑ l, homogeneousPoint (x i) l * z (.inr l) := by
      rw [mul_sum]; exact sum_congr rfl fun j _ => by ring
    rw [e1, e2]; linear_combination -z (.inl i) * this
  rw [sum_congr rfl fun i _ => e i, sum_neg_distrib, sum_comm]
  rw [sum_eq_zero fun l _ => ?_, neg_zero]
  rw [← mul_sum, hl, mul_zero]

/-- The system has a solution if the values at coinciding points agree. -/
theorem system_solvable (hd : d = 2 ∨ d = 3) (x : ι → Point d) (y : ι → ℝ)
    (hy : ∀ i j, x i = x j → y i = y j) :
    ∃ z, system x *ᵥ z = Sum.elim y (fun _ : Fin (d + 1) => 0) := by
  classical
  by_contra hcon
  have hv : Sum.elim y (fun _ : Fin (d + 1) => 0) ∉ LinearMap.range (system x).mulVecLin := by
    rintro ⟨z, hz⟩
    exact hcon ⟨z, hz⟩
  obtain ⟨f, hf, hr⟩ := Submodule.exists_le_ker_of_notMem hv
  set z : ι ⊕ Fin (d + 1) → ℝ := fun r => f (Pi.single r 1) with hz
  have hfz : ∀ v, f v = v ⬝ᵥ z := by
    intro v
    conv_lhs => rw [LinearMap.pi_apply_eq_sum_univ f v]
    unfold dotProduct
    refine sum_congr rfl fun r _ => ?_
    rw [smul_eq_mul, hz]
    congr 2
    funext s
    simp [Pi.single_apply, eq_comm]
  have hker : system x *ᵥ z = 0 := by
    funext r
    have h0 : f (system x *ᵥ Pi.single r 1) = 0 := hr ⟨Pi.single r 1, rfl⟩
    rw [hfz, dotProduct_comm, dotProduct_mulVec, ← mulVec_transpose, system_symm] at h0
    simpa using h0
  have hm := system_kernel hd x z hker
  apply hf
  rw [hfz]
  obtain ⟨g, hg⟩ : ∃ g : Point d → ℝ, ∀ i, y i = g (x i) := by
    refine ⟨fun p => if h : ∃ i, x i = p then y h.choose else 0, fun i => ?_⟩
    have hex : ∃ j, x j = x i := ⟨i, rfl⟩
    beta_reduce
    rw [dif_pos hex]
    exact (hy _ _ hex.choose_spec).symm
  have := sum_merged x (fun i => z (.inl i)) g
  rw [sum_eq_zero (s := univ) (f := fun p : (univ.image x : Finset (Point d)) => _)
    (fun p _ => by rw [hm, zero_mul])] at this
  unfold dotProduct
  rw [Fintype.sum_sum_type]
  simp only [Sum.elim_inl, Sum.elim_inr, zero_mul, sum_const_zero, add_zero]
  rw [← this]
  exact sum_congr rfl fun i _ => by rw [hg]; ring

end Verif.ThinPlateSpline
