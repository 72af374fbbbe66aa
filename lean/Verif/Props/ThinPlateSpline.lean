import Verif.Lemmas.ThinPlateSpline

/-! # C113: thin plate splines -/
namespace Verif.ThinPlateSpline
open Verif Matrix Verif.PointSets Finset

variable {d : Nat}

/-! ### What solving computes -/

/-- The squared distance of points is that of their homogeneous columns. -/
theorem sq_homogeneous (p q : Point d) :
    ∑ k, (homogeneousPoint p k - homogeneousPoint q k) ^ 2 = Kernel.sq p q := by
  rw [Fin.sum_univ_castSucc]
  simp [homogeneousPoint, Kernel.sq]

theorem systemMatrix_eq (template : List (Point d)) (m : Nat → Nat → ℝ)
    (hm : ∀ i j : Fin (template.map homogeneousPoint).length, m i j =
      ∑ k, ((template.map homogeneousPoint).get i k - (template.map homogeneousPoint).get j k) ^ 2) :
    systemMatrix (template.map homogeneousPoint) m =
      system (fun i : Fin (template.map homogeneousPoint).length => template[i]'(by simpa using i.2)) := by
  unfold systemMatrix system
  congr 1
  · ext i j
    simp only [of_apply]
    rw [hm, ← sq_homogeneous]
    simp
  · ext i k; simp
  · ext k i; simp

/-- The points and the targets are there and as many. -/
def Usable (template target : List (Point d)) : Prop :=
  template ≠ [] ∧ target ≠ [] ∧ template.length = target.length

theorem solve_throws (solver : Solver d) (template target : List (Point d)) (h : ¬ Usable template target)
    (affine : Matrix (Fin d) (Fin (d + 1)) ℝ) (warping : List (Point d)) (solved : Bool) :
    solveForCoeffs solver ⟨template.map homogeneousPoint, target, affine, warping, solved⟩ =
      (.throws .invalidArgument, ⟨template.map homogeneousPoint, target, affine, warping, solved⟩) := by
  unfold solveForCoeffs
  simp only [List.length_map]
  by_cases h1 : template.length < 1 ∨ target.length < 1
  · rw [if_pos h1]
  · rw [if_neg h1]
    push Not at h1
    have : ¬ template.length = target.length := by
      intro e
      apply h
      refine ⟨?_, ?_, e⟩
      · rintro rfl; simp at h1
      · rintro rfl; simp at h1
    rw [dif_neg this]

/-- What solving writes: the solution of the system. -/
theorem solve_ok (solver : Solver d) (template target : List (Point d)) (h : Usable template target) :
    ∃ (affine : Matrix (Fin d) (Fin (d + 1)) ℝ) (warping : List (Point d)),
      (∀ a w b, solveForCoeffs solver ⟨template.map homogeneousPoint, target, a, w, b⟩ =
        (.ok (), ⟨template.map homogeneousPoint, target, affine, warping, true⟩)) ∧
      warping.length = template.length ∧
      (Solves solver → (d = 2 ∨ d = 3) → Consistent template target →
        ∃ weight : Fin template.length → Point d, warping = List.ofFn weight ∧
          (∀ k, ∑ i, weight i k = 0) ∧ (∀ k l, ∑ i, weight i k * template[i] l = 0) ∧
          ∀ (i : Fin template.length) (k), ∑ l, affine k l * homogeneousPoint template[i] l +
            ∑ j, weight j k * kernelFunction d (Kernel.sq template[j] template[i]) =
            (target[i]'(h.2.2 ▸ i.2)) k) := by
  obtain ⟨h1, h2, h3⟩ := h
  have hpos : 0 < (template.map homogeneousPoint).length := by
    rw [List.length_map]; exact List.length_pos_iff.2 h1
  obtain ⟨m, _, em, _, hmv⟩ := (C93_matrix (template.map homogeneousPoint).get (fun _ _ => 0)
    (allWrites (template.map homogeneousPoint).get) (List.Perm.refl _)).2 hpos
  have h3' : (template.map homogeneousPoint).length = target.length := by rw [List.length_map, h3]
  set params := solver (template.map homogeneousPoint).length (systemMatrix (template.map homogeneousPoint) m)
    (rightHandSide (template.map homogeneousPoint).length target h3') with hparams
  refine ⟨of fun k l => params (.inr l) k, List.ofFn fun i => fun k => params (.inl i) k, ?_, ?_, ?_⟩
  · intro a w b
    unfold solveForCoeffs
    simp only
    rw [if_neg, dif_pos h3', em]
    push Not
    constructor
    · omega
    · rw [← h3']; omega
  · simp
  · intro hsolves hd hcons
    set x : Fin (template.map homogeneousPoint).length → Point d :=
      fun i => template[i]'(by simpa using i.2) with hx
    have hsys := systemMatrix_eq template m (fun i j => (hmv i j).1)
    have hsol : systemMatrix (template.map homogeneousPoint) m * params =
        rightHandSide (template.map homogeneousPoint).length target h3' := by
      apply hsolves
      rw [hsys]
      have hz : ∀ k : Fin d, ∃ z, system x *ᵥ z =
          Sum.elim (fun i : Fin (template.map homogeneousPoint).length => (target[i]'(by omega)) k)
            (fun _ : Fin (d + 1) => 0) := by
        intro k
        refine system_solvable hd x _ ?_
        intro i j hij
        have := hcons i j (by simpa using i.2) (by simpa using j.2) hij
        rw [List.getElem?_eq_getElem (by omega), List.getElem?_eq_getElem (by omega)] at this
        exact congrFun (Option.some.inj this) k
      choose z hz using hz
      refine ⟨of fun r k => z k r, ?_⟩
      ext r k
      have := congrFun (hz k) r
      rw [mul_apply]
      simp only [of_apply]
      unfold mulVec dotProduct at this
      rw [this]
      cases r <;> simp [rightHandSide]
    rw [hsys] at hsol
    have hcol : ∀ k r, (system x *ᵥ fun r => params r k) r =
        rightHandSide (template.map homogeneousPoint).length target h3' r k := by
      intro k r
      rw [← hsol]
      rfl
    have hlen : template.length = (template.map homogeneousPoint).length := by simp
    refine ⟨fun i => fun k => params (.inl (Fin.cast hlen i)) k, ?_, ?_, ?_, ?_⟩
    · apply List.ext_getElem
      · simp
      · intro i h1 h2; simp
    all_goals
      have hmom : ∀ k, ∑ i, params (.inl i) k = 0 ∧ ∀ l, ∑ i, params (.inl i) k * x i l = 0 := by
        intro k
        apply moments
        intro l
        rw [← (system_mul x (fun r => params r k)).2 l, hcol]
        rfl
    · intro k
      rw [← (hmom k).1]
      exact Fintype.sum_equiv (finCongr hlen) _ _ fun i => rfl
    · intro k l
      rw [← (hmom k).2 l]
      exact Fintype.sum_equiv (finCongr hlen) _ _ fun i => rfl
    · intro i k
      have e := (system_mul x (fun r => params r k)).1 (Fin.cast hlen i)
      rw [hcol] at e
      have e1 : ∑ j, params (.inl (Fin.cast hlen j)) k * kernelFunction d (Kernel.sq template[j] template[i]) =
          ∑ j, kernelFunction d (Kernel.sq (x (Fin.cast hlen i)) (x j)) * params (.inl j) k := by
        refine Fintype.sum_equiv (finCongr hlen) _ _ fun j => ?_
        rw [mul_comm, sq_comm']
        rfl
      have e2 : ∑ l, (of fun k l => params (.inr l) k) k l * homogeneousPoint template[i] l =
          ∑ l, homogeneousPoint (x (Fin.cast hlen i)) l * params (.inr l) k :=
        sum_congr rfl fun l _ => mul_comm _ _
      beta_reduce
      rw [e1, e2, add_comm, ← e]
      rfl

/-- The kernel of the squared distance is twice the radial function in the plane, the radial function in space. -/
theorem kernel_radial (hd : d = 2 ∨ d = 3) (p q : Point d) :
    kernelFunction d (Kernel.sq p q) = (if d = 2 then 2 else 1) * radial d (apart p q) := by
  have hn := Kernel.sq_nonneg' p q
  rcases hd with rfl | rfl
  · rw [kernelFunction, radial, apart, if_pos rfl]
    change _ = 2 * (Real.sqrt (Kernel.sq p q) ^ 2 * Real.log (Real.sqrt (Kernel.sq p q)))
    rw [Real.sq_sqrt hn, Real.log_sqrt hn]
    by_cases e : Kernel.sq p q = 0
    · rw [if_pos e, e]; simp
    · rw [if_neg e]; ring
  · rw [show (if (3 : Nat) = 2 then (2 : ℝ) else 1) = 1 from rfl, kernelFunction, radial, apart]
    · change _ = 1 * -Real.sqrt (Kernel.sq p q)
      by_cases e : Kernel.sq p q = 0
      · rw [if_pos e, e]; simp
      · rw [if_neg e]; ring
    · decide

/-- The value at a point of coefficients -/
noncomputable def value (template : List (Point d)) (affine : Matrix (Fin d) (Fin (d + 1)) ℝ)
    (warping : List (Point d)) (p : Point d) : Point d := fun k =>
  ∑ l, affine k l * homogeneousPoint p l +
    (List.zipWith (fun (w : Point d) (t : Point d) => w k * kernelFunction d (Kernel.sq t p)) warping template).sum

theorem evaluate_eq (template target : List (Point d)) (affine : Matrix (Fin d) (Fin (d + 1)) ℝ)
    (warping : List (Point d)) (solved : Bool) (h : warping.length = template.length) (points : List (Point d)) :
    evaluate ⟨template.map homogeneousPoint, target, affine, warping, solved⟩ points =
      .ok (points.map (value template affine warping)) := by
  unfold evaluate
  simp only [List.length_map]
  rw [Out.assert_true h, Out.bind_ok]
  congr 1
  unfold squaredDistancesBetweenPointSets
  rw [List.zipWith_map_right, List.zipWith_self, List.map_map]
  refine List.map_congr_left fun p _ => ?_
  funext k
  simp only [Function.comp, value]
  congr 2
  rw [List.map_map, List.zipWith_map_right]
  congr 1
  funext w t
  simp only [Function.comp]
  rw [sq_distance, sq_homogeneous]

theorem sum_zipWith_ofFn {α : Type} (template : List α) (weight : Fin template.length → Point d)
    (f : Point d → α → ℝ) :
    (List.zipWith f (List.ofFn weight) template).sum = ∑ i, f (weight i) template[i] := by
  have e : List.zipWith f (List.ofFn weight) template = List.ofFn fun i => f (weight i) template[i] := by
    apply List.ext_getElem
    · simp
    · intro i h1 h2; simp
  rw [e, List.sum_ofFn]

/-! ### The properties -/

/-- C113: with a solver that finds a solution where there is one, the object maps every template point to its target, as
soon as template points that coincide have the same target; and what it computes is a thin plate spline. -/
theorem C113_warps (hd : d = 2 ∨ d = 3) (solver : Solver d) (hs : Solves solver)
    (garbage : Matrix (Fin d) (Fin (d + 1)) ℝ) (template target : List (Point d))
    (h0 : template ≠ []) (hl : template.length = target.length) (hc : Consistent template target) :
    ∃ (s : Spline d) (f : Point d → Point d), construct solver garbage template target = .ok s ∧
      IsSpline template f ∧ template.map f = target ∧
      ∀ points, interpolate solver points s = (.ok (points.map f), s) := by
  have hu : Usable template target := ⟨h0, by rintro rfl; simp at hl; exact h0 hl, hl⟩
  obtain ⟨affine, warping, h1, h2, h3⟩ := solve_ok solver template target hu
  obtain ⟨weight, rfl, h4, h5, h6⟩ := h3 hs hd hc
  refine ⟨⟨template.map homogeneousPoint, target, affine, List.ofFn weight, true⟩,
    value template affine (List.ofFn weight), ?_, ?_, ?_, ?_⟩
  · unfold construct setTargetPoints setTemplatePoints empty
    simp only
    rw [h1]
  · refine ⟨fun k l => affine k l.castSucc, fun k => affine k (Fin.last d),
      fun i k => (if d = 2 then 2 else 1) * weight i k, ?_, ?_, ?_⟩
    · intro k; rw [← mul_sum, h4, mul_zero]
    · intro k l
      rw [sum_congr rfl fun i _ => mul_assoc _ _ _, ← mul_sum, h5, mul_zero]
    · intro p k
      unfold value
      rw [sum_zipWith_ofFn template weight (fun w t => w k * kernelFunction d (Kernel.sq t p)), sum_homogeneous]
      congr 1
      refine sum_congr rfl fun i _ => ?_
      rw [kernel_radial hd]; ring
  · apply List.ext_getElem
    · simp [hl]
    · intro i hi1 hi2
      rw [List.getElem_map]
      funext k
      have := h6 ⟨i, by simpa using hi1⟩ k
      unfold value
      rw [sum_zipWith_ofFn template weight (fun w t => w k * kernelFunction d (Kernel.sq t template[i]))]
      exact this
  · intro points
    unfold interpolate
    simp only [if_true]
    rw [evaluate_eq _ _ _ _ _ h2]

/-- C113: conversely no function of the points does so otherwise. -/
theorem C113_consistent (template target : List (Point d)) (f : Point d → Point d)
    (h : template.map f = target) : Consistent template target := by
  intro i j hi hj e
  subst h
  rw [List.getElem?_map, List.getElem?_map, List.getElem?_eq_getElem hi, List.getElem?_eq_getElem hj, e]

/-- C113: with points that no line or plane contains, thin plate splines that agree at the points are equal: the one
computed is the only one through the targets. -/
theorem C113_unique (hd : d = 2 ∨ d = 3) (template : List (Point d)) (hsp : Spanning template)
    (f g : Point d → Point d) (hf : IsSpline template f) (hg : IsSpline template g)
    (h : template.map f = template.map g) : f = g := by
  obtain ⟨A, a, u, hu1, hu2, hu⟩ := hf
  obtain ⟨B, b, v, hv1, hv2, hv⟩ := hg
  have hne : (if d = 2 then (2 : ℝ) else 1) ≠ 0 := by split <;> norm_num
  set x : Fin template.length → Point d := fun i => template[i] with hx
  have hpt : ∀ i : Fin template.length, f (x i) = g (x i) := by
    intro i
    have := congrArg (fun l => l[(i : Nat)]?) h
    simpa [hx] using this
  funext p k
  -- the difference, as a vector of the system
  set z : Fin template.length ⊕ Fin (d + 1) → ℝ := Sum.elim
    (fun i => (u i k - v i k) / (if d = 2 then 2 else 1))
    (Fin.snoc (α := fun _ => ℝ) (fun l => A k l - B k l) (a k - b k)) with hz
  have hdiff : ∀ q : Point d, f q k - g q k =
      ∑ i, z (.inl i) * kernelFunction d (Kernel.sq (x i) q) + ∑ l, z (.inr l) * homogeneousPoint q l := by
    intro q
    rw [sum_homogeneous, hu, hv]
    have e1 : ∑ i, z (.inl i) * kernelFunction d (Kernel.sq (x i) q) =
        ∑ i, u i k * radial d (apart template[i] q) - ∑ i, v i k * radial d (apart template[i] q) := by
      rw [← sum_sub_distrib]
      refine sum_congr rfl fun i _ => ?_
      rw [kernel_radial hd]
      simp only [hz, Sum.elim_inl, hx]
      field_simp
    have e2 : ∑ l : Fin d, z (.inr l.castSucc) * q l = ∑ l, A k l * q l - ∑ l, B k l * q l := by
      rw [← sum_sub_distrib]
      refine sum_congr rfl fun l _ => ?_
      simp only [hz, Sum.elim_inr, Fin.snoc_castSucc]
      ring
    have e3 : z (.inr (Fin.last d)) = a k - b k := by simp [hz]
    rw [e1, e2, e3]; ring
  have hker : system x *ᵥ z = 0 := by
    funext r
    rcases r with i | l
    · rw [(system_mul x z).1 i]
      have := hdiff (x i)
      rw [hpt, sub_self] at this
      rw [Pi.zero_apply, this]
      congr 1
      · exact sum_congr rfl fun j _ => by rw [mul_comm, sq_comm']
      · exact sum_congr rfl fun j _ => mul_comm _ _
    · rw [(system_mul x z).2 l, Pi.zero_apply]
      refine Fin.lastCases ?_ (fun l => ?_) l
      · simp only [homogeneousPoint, Fin.snoc_last, one_mul, hz, Sum.elim_inl]
        rw [← sum_div, sum_sub_distrib, hu1, hv1]; simp
      · simp only [homogeneousPoint, Fin.snoc_castSucc, hz, Sum.elim_inl]
        have : ∀ i : Fin template.length, x i l * ((u i k - v i k) / (if d = 2 then 2 else 1)) =
            (u i k * template[i] l - v i k * template[i] l) / (if d = 2 then 2 else 1) := by
          intro i; ring
        rw [sum_congr rfl fun i _ => this i, ← sum_div, sum_sub_distrib, hu2, hv2]; simp
  have hmerged := system_kernel hd x z hker
  have hkernel : ∀ q : Point d, ∑ i, z (.inl i) * kernelFunction d (Kernel.sq (x i) q) = 0 := by
    intro q
    rw [Kernel.sum_merged x (fun i => z (.inl i)) (fun t => kernelFunction d (Kernel.sq t q))]
    exact sum_eq_zero fun t _ => by rw [hmerged, zero_mul]
  have haff : ∀ t ∈ template, ∑ l : Fin d, z (.inr l.castSucc) * t l = -z (.inr (Fin.last d)) := by
    intro t ht
    obtain ⟨i, hi, rfl⟩ := List.getElem_of_mem ht
    have := hdiff (x ⟨i, hi⟩)
    rw [hpt, sub_self, hkernel, sum_homogeneous] at this
    have e : x ⟨i, hi⟩ = template[i] := rfl
    rw [e] at this
    linarith
  have hnormal : (fun l : Fin d => z (.inr l.castSucc)) = 0 := by
    by_contra hn
    obtain ⟨t, ht, hne⟩ := hsp.2 _ (-z (.inr (Fin.last d))) hn
    exact hne (haff t ht)
  have hlast : z (.inr (Fin.last d)) = 0 := by
    obtain ⟨t, ht⟩ := List.exists_mem_of_ne_nil _ hsp.1
    have := haff t ht
    have hn : ∀ l : Fin d, z (.inr l.castSucc) = 0 := fun l => congrFun hnormal l
    simp only [hn, zero_mul, sum_const_zero] at this
    linarith
  have := hdiff p
  have hn : ∀ l : Fin d, z (.inr l.castSucc) = 0 := fun l => congrFun hnormal l
  rw [hkernel, sum_homogeneous, hlast] at this
  simp only [hn, zero_mul, sum_const_zero] at this
  linarith

/-- C113: an affine map is reproduced everywhere: if the targets are the images of points that no line or plane contains,
then so are all interpolated points. -/
theorem C113_affine (hd : d = 2 ∨ d = 3) (solver : Solver d) (hs : Solves solver)
    (garbage : Matrix (Fin d) (Fin (d + 1)) ℝ) (template : List (Point d)) (hsp : Spanning template)
    (linear : Matrix (Fin d) (Fin d) ℝ) (offset : Point d) :
    ∃ s, construct solver garbage template (template.map fun p => linear *ᵥ p + offset) = .ok s ∧
      ∀ points, interpolate solver points s = (.ok (points.map fun p => linear *ᵥ p + offset), s) := by
  obtain ⟨s, f, h1, h2, h3, h4⟩ := C113_warps hd solver hs garbage template
    (template.map fun p => linear *ᵥ p + offset) hsp.1 (by simp) (C113_consistent _ _ _ rfl)
  refine ⟨s, h1, ?_⟩
  have : f = fun p => linear *ᵥ p + offset := by
    refine C113_unique hd template hsp _ _ h2 ?_ h3
    refine ⟨linear, offset, 0, by simp, by simp, ?_⟩
    intro p k
    simp [mulVec, dotProduct]
  rw [← this]
  exact h4

/-- The object between calls: its points are those set last, and its coefficients, if they are said to be solved, are
what solving for these points gives. -/
def Current (solver : Solver d) (template target : List (Point d)) (s : Spline d) : Prop :=
  s.homogeneous = template.map homogeneousPoint ∧ s.target = target ∧
    (s.solved = true → Usable template target ∧ solveForCoeffs solver s = (.ok (), s))

theorem current_unsolved (solver : Solver d) (template target : List (Point d)) (affine warping) :
    Current solver template target ⟨template.map homogeneousPoint, target, affine, warping, false⟩ :=
  ⟨rfl, rfl, fun h => by simp at h⟩

theorem current_solve (solver : Solver d) (template target : List (Point d)) (s : Spline d)
    (h : Current solver template target s) : Current solver template target (solveForCoeffs solver s).2 := by
  obtain ⟨hom, tar, a, w, b⟩ := s
  obtain ⟨h1, h2, h3⟩ := h
  simp only at h1 h2 h3
  subst h1; subst h2
  by_cases hu : Usable template tar
  · obtain ⟨A, W, e, -, -⟩ := solve_ok solver template tar hu
    rw [e]
    exact ⟨rfl, rfl, fun _ => ⟨hu, e _ _ _⟩⟩
  · rw [solve_throws solver template tar hu]
    exact ⟨rfl, rfl, h3⟩

theorem current_interpolate (solver : Solver d) (template target : List (Point d)) (s : Spline d)
    (h : Current solver template target s) (points : List (Point d)) :
    Current solver template target (interpolate solver points s).2 := by
  unfold interpolate
  split
  · exact h
  · have := current_solve solver template target s h
    split <;> (rename_i e; rw [e] at this; exact this)

theorem current_calls (solver : Solver d) (calls : List (Call d)) :
    ∀ (template target : List (Point d)) (s : Spline d), Current solver template target s →
      Current solver (lastTemplate template calls) (lastTarget target calls) (calls.foldl (Call.run solver) s) := by
  induction calls with
  | nil => intro template target s h; exact h
  | cons c calls ih =>
    intro template target s h
    rw [List.foldl_cons]
    cases c with
    | template points =>
      refine ih points target _ ?_
      obtain ⟨h1, h2, h3⟩ := h
      exact ⟨rfl, h2, fun h => by simp [Call.run, setTemplatePoints] at h⟩
    | target points =>
      refine ih template points _ ?_
      obtain ⟨h1, h2, h3⟩ := h
      exact ⟨h1, rfl, fun h => by simp [Call.run, setTargetPoints] at h⟩
    | solve => exact ih template target _ (current_solve solver template target s h)
    | interpolate points => exact ih template target _ (current_interpolate solver template target s h points)

/-- C113: the constructor throws `std::invalid_argument` exactly if a point set is empty or the sizes differ. -/
theorem C113_construct (solver : Solver d) (garbage : Matrix (Fin d) (Fin (d + 1)) ℝ)
    (template target : List (Point d)) :
    (template ≠ [] ∧ target ≠ [] ∧ template.length = target.length →
      ∃ s, construct solver garbage template target = .ok s) ∧
    (¬ (template ≠ [] ∧ target ≠ [] ∧ template.length = target.length) →
      construct solver garbage template target = .throws .invalidArgument) := by
  unfold construct setTargetPoints setTemplatePoints empty
  simp only
  constructor
  · intro h
    obtain ⟨A, W, e, -, -⟩ := solve_ok solver template target h
    rw [e]
    exact ⟨_, rfl⟩
  · intro h
    rw [solve_throws solver template target h]

/-- C113: whatever was called before, interpolation gives what a new object made of the template and the target points
set last gives, or throws as its constructor does; it depends neither on the points set earlier nor on whether, when or
how often the coefficients were solved for. -/
theorem C113_history (solver : Solver d) (garbage garbage' : Matrix (Fin d) (Fin (d + 1)) ℝ)
    (calls : List (Call d)) (points : List (Point d)) :
    (interpolate solver points (calls.foldl (Call.run solver) (empty garbage))).1 =
      match construct solver garbage' (lastTemplate [] calls) (lastTarget [] calls) with
      | .ok s => (interpolate solver points s).1
      | .throws e => .throws e
      | .abort => .abort
      | .ub => .ub := by
  have hc := current_calls solver calls [] [] (empty garbage) (current_unsolved solver [] [] garbage [])
  generalize lastTemplate [] calls = template at hc ⊢
  generalize lastTarget [] calls = target at hc ⊢
  generalize List.foldl (Call.run solver) (empty garbage) calls = s at hc ⊢
  obtain ⟨hom, tar, a, w, b⟩ := s
  obtain ⟨h1, h2, h3⟩ := hc
  simp only at h1 h2 h3
  subst h1; subst h2
  by_cases hu : Usable template tar
  · obtain ⟨A, W, e, hw, -⟩ := solve_ok solver template tar hu
    have e' : construct solver garbage' template tar = .ok ⟨template.map homogeneousPoint, tar, A, W, true⟩ := by
      unfold construct setTargetPoints setTemplatePoints empty
      simp only
      rw [e]
    rw [e']
    simp only
    unfold interpolate
    simp only [if_true]
    cases b with
    | true =>
      have := (h3 rfl).2
      rw [e] at this
      have := (Prod.mk.inj this).2
      rw [this]
      rfl
    | false => simp only [Bool.false_eq_true, if_false]; rw [e]
  · rw [(C113_construct solver garbage' template tar).2 hu]
    simp only
    unfold interpolate
    cases b with
    | true => exact absurd (h3 rfl).1 hu
    | false => simp only [Bool.false_eq_true, if_false]; rw [solve_throws solver template tar hu]

/-! ### The hypotheses are met -/

/-- A solver: some solution, if there is one -/
noncomputable def someSolver (d : Nat) : Solver d := fun _ A B =>
  open Classical in if h : ∃ X, A * X = B then h.choose else 0

theorem someSolver_solves (d : Nat) : Solves (someSolver d) := by
  intro N A B h
  unfold someSolver
  rw [dif_pos h]
  exact h.choose_spec

/-- The corners of a square -/
def corners : List (Point 2) := [![0, 0], ![1, 0], ![0, 1], ![1, 1]]

theorem corners_spanning : Spanning corners := by
  refine ⟨by simp [corners], fun n b hn => ?_⟩
  by_contra h
  push Not at h
  have h0 := h ![0, 0] (by simp [corners])
  have h1 := h ![1, 0] (by simp [corners])
  have h2 := h ![0, 1] (by simp [corners])
  simp [Fin.sum_univ_two] at h0 h1 h2
  apply hn
  funext i
  fin_cases i
  · show n 0 = 0; linarith
  · show n 1 = 0; linarith

theorem corners_consistent (target : List (Point 2)) : Consistent corners target := by
  have hd : corners.Nodup := by
    simp [corners]
  intro i j hi hj e
  rw [hd.getElem_inj_iff.1 e]

/-- One corner pulled out, which no affine map does -/
def pulled : List (Point 2) := [![0, 0], ![1, 0], ![0, 1], ![3, 3]]

example : ∃ s f, construct (someSolver 2) 0 corners pulled = .ok s ∧ IsSpline corners f ∧ f ![1, 1] = ![3, 3] ∧
    ∀ points, interpolate (someSolver 2) points s = (.ok (points.map f), s) := by
  obtain ⟨s, f, h1, h2, h3, h4⟩ := C113_warps (Or.inl rfl) (someSolver 2) (someSolver_solves 2) 0 corners pulled
    (by simp [corners]) rfl (corners_consistent pulled)
  refine ⟨s, f, h1, h2, ?_, h4⟩
  simp only [corners, pulled, List.map_cons, List.map_nil, List.cons.injEq, and_true] at h3
  exact h3.2.2.2

/-- Turning the square by a right angle and moving it is turning and moving every point. -/
example : ∃ s, construct (someSolver 2) 0 corners (corners.map fun p => !![0, -1; 1, 0] *ᵥ p + ![5, 7]) = .ok s ∧
    interpolate (someSolver 2) [![2, 3]] s = (.ok [![2, 9]], s) := by
  obtain ⟨s, h1, h2⟩ := C113_affine (Or.inl rfl) (someSolver 2) (someSolver_solves 2) 0 corners corners_spanning
    !![0, -1; 1, 0] ![5, 7]
  refine ⟨s, h1, ?_⟩
  rw [h2]
  have e : (!![0, -1; 1, 0] : Matrix (Fin 2) (Fin 2) ℝ) *ᵥ ![2, 3] + ![5, 7] = ![2, 9] := by
    funext i
    fin_cases i
    · simp; norm_num
    · simp; norm_num
  rw [List.map_cons, List.map_nil, e]

/-- A target set after interpolating counts, an interpolation with too few targets throws. -/
example : (interpolate (someSolver 2) [] ([Call.template corners, .target [], .interpolate [], .solve].foldl
    (Call.run (someSolver 2)) (empty 0))).1 = .throws .invalidArgument := by
  rw [C113_history (someSolver 2) 0 0]
  simp only [lastTemplate, lastTarget, List.foldl_cons, List.foldl_nil]
  rw [(C113_construct (someSolver 2) 0 corners []).2 (by simp)]

end Verif.ThinPlateSpline
