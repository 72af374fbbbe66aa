import Mathlib.Analysis.Calculus.Deriv.Pi
import Mathlib.Analysis.SpecialFunctions.Trigonometric.Deriv
import Mathlib.Topology.Algebra.Module.FiniteDimension
import Verif.Lemmas.LinkedRobotBuild

/-!
# Lemmas about the Jacobian of linked robots
-/
namespace Verif.LinkedRobot
open Verif Matrix Verif.Kinematics Verif.Pose

/-! ### Derivatives -/

theorem turn_deriv {u : Fin 3 → ℝ} (hu : ∑ i, u i ^ 2 = 1) (v : Fin 3 → ℝ) (a : ℝ) :
    HasDerivAt (fun a => turn u a v) (u ⨯₃ turn u a v) a := by
  have hu' : u 0 ^ 2 + u 1 ^ 2 + u 2 ^ 2 = 1 := by rw [← hu, Fin.sum_univ_three]
  have h1 := (Real.hasDerivAt_cos a).smul_const v
  have h2 := (Real.hasDerivAt_sin a).smul_const (u ⨯₃ v)
  have h3 := (((Real.hasDerivAt_cos a).const_sub 1).mul_const (∑ i, u i * v i)).smul_const u
  have h4 : HasDerivAt (fun a => turn u a v) _ a := (h1.add h2).add h3
  refine h4.congr_deriv ?_
  ext i
  fin_cases i <;>
    simp only [turn, cross_apply, Fin.sum_univ_three, Fin.zero_eta, Fin.mk_one, Fin.reduceFinMk, cons_val_zero,
      cons_val_one, cons_val, Pi.add_apply, Pi.smul_apply, smul_eq_mul]
  · linear_combination (Real.sin a * v 0) * hu'
  · linear_combination (Real.sin a * v 1) * hu'
  · linear_combination (Real.sin a * v 2) * hu'

theorem turn_axis {u : Fin 3 → ℝ} (hu : ∑ i, u i ^ 2 = 1) (a : ℝ) : turn u a u = u := by
  have hs : ∑ i, u i * u i = 1 := by rw [← hu]; exact Finset.sum_congr rfl fun i _ => by ring
  unfold turn
  rw [hs, cross_self, smul_zero, add_zero, mul_one, ← add_smul]
  simp

theorem turn_zero (u : Fin 3 → ℝ) (a : ℝ) : turn u a 0 = 0 := by
  unfold turn; simp

theorem mulVec_deriv (A : Matrix (Fin 3) (Fin 3) ℝ) {f : ℝ → Fin 3 → ℝ} {f' : Fin 3 → ℝ} {t : ℝ}
    (h : HasDerivAt f f' t) : HasDerivAt (fun t => A *ᵥ f t) (A *ᵥ f') t :=
  (LinearMap.toContinuousLinearMap (Matrix.mulVecLin A)).hasFDerivAt.comp_hasDerivAt t h

theorem cross_mulVec {R : Matrix (Fin 3) (Fin 3) ℝ} (hR : IsRotationMatrix R) (a b : Fin 3 → ℝ) :
    (R *ᵥ a) ⨯₃ (R *ᵥ b) = R *ᵥ (a ⨯₃ b) := by
  rw [← C86_skew, ← C86_skew, mulVec_mulVec, rotation_skew hR, ← mulVec_mulVec]

/-! ### Poses as one value changes -/

section family
variable {n : Nat} {js : List RobotJoint} {base : Transform} {k : Nat} {hk : k < js.length} {F : ℝ → Int → Transform}

theorem fam_other (hF : ∀ θ, Placed base (js.set k (js[k].withValue θ)) (F θ)) {j : RobotJoint} (hj : j ∈ js)
    (hc : j.child ≠ js[k].child) (θ : ℝ) (v : Fin 3 → ℝ) : point (F θ j.child) v =
      point (F θ j.parent) (point j.transform (motion j.model.type j.axis j.model.value v)) := by
  refine (hF θ).2 j ?_ v
  obtain ⟨i, hi, rfl⟩ := List.getElem_of_mem hj
  have hik : k ≠ i := by rintro rfl; exact hc rfl
  exact List.mem_iff_getElem.2 ⟨i, by simpa using hi, by rw [List.getElem_set_ne hik]⟩

theorem fam_self (hF : ∀ θ, Placed base (js.set k (js[k].withValue θ)) (F θ)) (θ : ℝ) (v : Fin 3 → ℝ) :
    point (F θ js[k].child) v =
      point (F θ js[k].parent) (point js[k].transform (motion js[k].model.type js[k].axis θ v)) :=
  (hF θ).2 (js[k].withValue θ) (List.mem_iff_getElem.2 ⟨k, by simpa using hk, by rw [List.getElem_set_self]⟩) v

theorem fam_const (hF : ∀ θ, Placed base (js.set k (js[k].withValue θ)) (F θ)) {w : Int} (hw : Reach (edges js) w)
    (hd : ¬ Tree.Desc (edges js) js[k].child w) (θ θ' : ℝ) : F θ w = F θ' w := by
  induction hw with
  | root => rw [(hF θ).1, (hF θ').1]
  | @step p c h _ ih =>
    have ihp := ih fun h' => hd (h'.tail h)
    obtain ⟨j, hj, rfl, rfl⟩ := mem_edges.1 h
    have hc : j.child ≠ js[k].child := fun h' => hd (by rw [h'])
    apply point_inj
    intro v
    rw [fam_other hF hj hc, fam_other hF hj hc, ihp]

theorem fam_below (t : Tree n (edges js)) (hx : UnitAxes js)
    (hF : ∀ θ, Placed base (js.set k (js[k].withValue θ)) (F θ)) {w : Int}
    (hd : Tree.Desc (edges js) js[k].child w) :
    ∃ S : Transform, ∀ θ v, point (F θ w) v = point (F θ js[k].child) (point S v) := by
  induction hd with
  | refl => exact ⟨⟨1, 0⟩, fun θ v => by simp [point]⟩
  | @tail b c hb h ih =>
    obtain ⟨S, hS⟩ := ih
    obtain ⟨j, hj, rfl, rfl⟩ := mem_edges.1 h
    have hc : j.child ≠ js[k].child := by
      intro h'
      have h1 := t.depth_le hb
      have h2 := t.depth_step h
      rw [h'] at h2
      omega
    refine ⟨S.mul (j.transform.mul (childTransform j ⟨1, 0⟩)), fun θ v => ?_⟩
    rw [fam_other hF hj hc, hS, point_mul, point_mul, childTransform_point j (hx j hj)]
    simp [point]

theorem fam_here {T : Int → Transform} (hT : Placed base js T)
    (hF : ∀ θ, Placed base (js.set k (js[k].withValue θ)) (F θ)) {w : Int} (hw : Reach (edges js) w) :
    F js[k].model.value w = T w := by
  have h := hF js[k].model.value
  have : js.set k (js[k].withValue js[k].model.value) = js := List.set_getElem_self hk
  rw [this] at h
  induction hw with
  | root => rw [h.1, hT.1]
  | step he _ ih =>
    obtain ⟨j, hj, rfl, rfl⟩ := mem_edges.1 he
    apply point_inj
    intro v
    rw [h.2 j hj v, hT.2 j hj v, ih]

end family

/-! ### Rotations -/

theorem unit_quat {u : Fin 3 → ℝ} (hu : ∑ i, u i ^ 2 = 1) (a : ℝ) :
    IsRotationMatrix (toRotationMatrix (ofAngleAxis a u)) := by
  apply toRotationMatrix_rotation
  have hu' : u 0 ^ 2 + u 1 ^ 2 + u 2 ^ 2 = 1 := by rw [← hu, Fin.sum_univ_three]
  have := Real.sin_sq_add_cos_sq (1 / 2 * a)
  simp only [Quat.squaredNorm, ofAngleAxis]
  linear_combination Real.sin (1 / 2 * a) ^ 2 * hu' + this

theorem rotation_one : IsRotationMatrix (1 : Matrix (Fin 3) (Fin 3) ℝ) := by
  constructor <;> simp

theorem placed_rotation {js : List RobotJoint} {base : Transform} {T : Int → Transform} (hT : Placed base js T)
    (hx : UnitAxes js) (hb : IsRotationMatrix base.rotation) (hj : ∀ j ∈ js, IsRotationMatrix j.transform.rotation)
    {w : Int} (hw : Reach (edges js) w) : IsRotationMatrix (T w).rotation := by
  induction hw with
  | root => rw [hT.1]; exact hb
  | step he _ ih =>
    obtain ⟨j, hjj, rfl, rfl⟩ := mem_edges.1 he
    have : T j.child = childTransform j ((T j.parent).mul j.transform) := by
      apply point_inj
      intro v
      rw [hT.2 j hjj v, childTransform_point j (hx j hjj), point_mul]
    have h1 : IsRotationMatrix ((T j.parent).mul j.transform).rotation := rotation_mul ih (hj j hjj)
    rw [this]
    unfold childTransform
    split
    · exact rotation_mul h1 (unit_quat (hx j hjj) _)
    · split
      · refine rotation_mul h1 ?_
        apply toRotationMatrix_rotation
        simp [Quat.squaredNorm]
      · exact h1

/-! ### Columns -/

/-- The column of a joint -/
noncomputable def column (j : RobotJoint) (T : Transform) (world : Fin 3 → ℝ) (rot : Fin 3 → ℝ) : Twist :=
  if j.model.isRevolute = true then ⟨(T.rotation *ᵥ j.axis) ⨯₃ (world - T.translation), T.rotation *ᵥ j.axis⟩
  else ⟨T.rotation *ᵥ j.axis + T.translation, rot⟩

/-- The number of joints that move before a joint -/
def col (js : List RobotJoint) (k : Nat) : Nat := (activeJoints (js.take k)).length

theorem col_lt {js : List RobotJoint} {k k' : Nat} (hk : k < js.length) (h : js[k].model.type ≠ FIXED) (hkk : k < k') :
    col js k < col js k' := by
  unfold col
  have e : js.take k' = js.take k ++ js[k] :: (js.drop (k + 1)).take (k' - k - 1) := by
    have h1 : js = js.take k ++ js[k] :: js.drop (k + 1) := by
      rw [List.cons_getElem_drop_succ, List.take_append_drop]
    have h2 : (js.take k).length = k := by simp; omega
    conv_lhs => rw [h1]
    rw [List.take_append, List.take_of_length_le (by omega), h2]
    congr 1
    obtain ⟨d, rfl⟩ : ∃ d, k' = k + 1 + d := ⟨k' - k - 1, by omega⟩
    rw [show k + 1 + d - k = d + 1 by omega, List.take_succ_cons]
    congr 2
  rw [e]
  unfold activeJoints
  rw [List.filter_append, List.length_append, List.filter_cons_of_pos (by simpa using h), List.length_cons]
  omega

theorem col_lt_count {js : List RobotJoint} {k : Nat} (hk : k < js.length) (h : js[k].model.type ≠ FIXED) :
    col js k < (activeJoints js).length := by
  have := col_lt hk h hk
  unfold col at this ⊢
  rwa [List.take_length] at this

theorem col_inj {js : List RobotJoint} {k k' : Nat} (hk : k < js.length) (hk' : k' < js.length)
    (h : js[k].model.type ≠ FIXED) (h' : js[k'].model.type ≠ FIXED) (he : col js k = col js k') : k = k' := by
  rcases Nat.lt_trichotomy k k' with hl | hl | hl
  · have := col_lt hk h hl; omega
  · exact hl
  · have := col_lt hk' h' hl; omega

theorem child_inj {n : Nat} {js : List RobotJoint} (t : Tree n (edges js)) {k k' : Nat} (hk : k < js.length)
    (hk' : k' < js.length) (h : js[k].child = js[k'].child) : k = k' := by
  have hu : (js.map (·.child)).Nodup := by
    have := t.unique
    simpa [edges, Function.comp_def] using this
  have := (List.nodup_iff_injective_get.1 hu) (a₁ := ⟨k, by simpa using hk⟩) (a₂ := ⟨k', by simpa using hk'⟩) (by simpa using h)
  simpa using this

open Classical in
/-- What one round of the loop does -/
theorem jacobianLoop_step {r : Robot} (h : Built r) (world : Fin 3 → ℝ) (steps : Nat) {k : Nat} (hk : k < r.joints.length)
    (m : Jacobian) : jacobianLoop r world (steps + 1) r.joints[k].child m =
      if Known r.joints[k] then
        jacobianLoop r world steps r.joints[k].parent
          (if r.joints[k].model.type = FIXED then m else m.write (col r.joints k)
            (column r.joints[k] (poses r.links r.joints[k].child) world (m (col r.joints k)).rot))
      else .throws .runtimeError := by
  have t := h.tree
  have he : (r.joints[k].parent, r.joints[k].child) ∈ edges r.joints := mem_edges.2 ⟨_, List.getElem_mem hk, rfl, rfl⟩
  have hr := (t.range _ he).2
  have h0 := t.nonroot _ he
  simp only at hr h0
  obtain ⟨k', hk', e1, e2, e3⟩ := parent_joint t h0 hr.1 hr.2
  obtain rfl := child_inj t hk' hk e1
  obtain ⟨l, hl, hlt⟩ := read_poses hr.1 hr.2
  have hact : at? r.active ((k' : Nat) : Int) = some (if r.joints[k'].model.isFixed = true then -1 else (col r.joints k' : Int)) := by
    have ha : r.active = (activeLoop 0 r.joints).2 := congrArg Prod.snd h.active
    unfold at?
    rw [if_pos (by omega), ha]
    simp only [Int.toNat_natCast]
    rw [activeLoop_get r.joints 0 k' hk', Nat.zero_add]
    rfl
  conv_lhs => unfold jacobianLoop
  rw [if_pos (by omega), h.skeleton, skeletonOf_read _ hr.1 hr.2, Out.bind_ok, e2, e3, if_neg (by omega), hact]
  simp only
  rw [read_nat hk', Out.bind_ok, hl, Out.bind_ok, hlt]
  unfold jacobianStep
  by_cases hf : r.joints[k'].model.type = FIXED
  · have hn1 : ¬ r.joints[k'].model.isRevolute = true := by rw [isRevolute_iff, hf]; decide
    have hn2 : ¬ r.joints[k'].model.isPrismatic = true := by rw [isPrismatic_iff, hf]; decide
    have hn3 := (isFixed_iff r.joints[k'].model).2 hf
    rw [if_neg hn1, if_neg hn2, if_neg (by simp [hn3]), Out.bind_ok, if_pos hf, if_pos (show Known r.joints[k'] from Or.inl hf)]
  · have hn3 : ¬ r.joints[k'].model.isFixed = true := by rw [isFixed_iff]; exact hf
    have hc : (0 : Int) ≤ (col r.joints k' : Int) ∧ (col r.joints k' : Int) < (r.numActive : Int) := by
      have := col_lt_count hk' hf
      rw [h.count]
      omega
    rw [if_neg hn3, if_neg hf]
    by_cases hrev : r.joints[k'].model.isRevolute = true
    · have hkn : Known r.joints[k'] := by
        rcases (isRevolute_iff _).1 hrev with h | h
        · exact Or.inr (Or.inl h)
        · exact Or.inr (Or.inr (Or.inl h))
      simp only
      rw [if_pos hrev, if_pos hc, Out.bind_ok, if_pos hkn]
      unfold column
      rw [if_pos hrev]
      rfl
    · by_cases hpr : r.joints[k'].model.isPrismatic = true
      · have hkn : Known r.joints[k'] := Or.inr (Or.inr (Or.inr ((isPrismatic_iff _).1 hpr)))
        simp only
        rw [if_neg hrev, if_pos hpr, if_pos hc, Out.bind_ok, if_pos hkn]
        unfold column
        rw [if_neg hrev]
        rfl
      · have hkn : ¬ Known r.joints[k'] := by
          rintro (h | h | h | h)
          · exact hf h
          · exact hrev ((isRevolute_iff _).2 (Or.inl h))
          · exact hrev ((isRevolute_iff _).2 (Or.inr h))
          · exact hpr ((isPrismatic_iff _).2 h)
        rw [if_neg hrev, if_neg hpr, if_pos (by simpa using hn3), if_neg hkn]
        rfl

theorem desc_parent {n : Nat} {js : List RobotJoint} (t : Tree n (edges js)) {k : Nat} (hk : k < js.length) {c : Int} :
    Tree.Desc (edges js) c js[k].child ↔ c = js[k].child ∨ Tree.Desc (edges js) c js[k].parent := by
  have he : (js[k].parent, js[k].child) ∈ edges js := mem_edges.2 ⟨_, List.getElem_mem hk, rfl, rfl⟩
  constructor
  · intro h
    rcases Relation.ReflTransGen.cases_tail h with h | ⟨b, h1, h2⟩
    · exact Or.inl h.symm
    · rw [t.parent_unique h2 he] at h1
      exact Or.inr h1
  · rintro (rfl | h)
    · exact .refl
    · exact h.tail he

theorem not_desc_parent {n : Nat} {js : List RobotJoint} (t : Tree n (edges js)) {k : Nat} (hk : k < js.length) :
    ¬ Tree.Desc (edges js) js[k].child js[k].parent := by
  intro h
  have he : (js[k].parent, js[k].child) ∈ edges js := mem_edges.2 ⟨_, List.getElem_mem hk, rfl, rfl⟩
  have h1 := t.depth_le h
  have h2 := t.depth_step he
  omega

theorem not_desc_root {n : Nat} {js : List RobotJoint} (t : Tree n (edges js)) {k : Nat} (hk : k < js.length) :
    ¬ Tree.Desc (edges js) js[k].child 0 := by
  intro h
  have he : (js[k].parent, js[k].child) ∈ edges js := mem_edges.2 ⟨_, List.getElem_mem hk, rfl, rfl⟩
  rcases Relation.ReflTransGen.cases_tail h with h | ⟨b, h1, h2⟩
  · exact t.nonroot _ he h.symm
  · exact t.nonroot _ h2 rfl

theorem jacobianLoop_root (r : Robot) (world : Fin 3 → ℝ) (steps : Nat) (m : Jacobian) :
    jacobianLoop r world (steps + 1) 0 m = .ok m := by
  unfold jacobianLoop; rw [if_neg (by omega)]

theorem jacobianLoop_spec {r : Robot} (h : Built r) (world : Fin 3 → ℝ) (steps : Nat) (i : Int) (h0 : 0 ≤ i)
    (h1 : i < r.links.length) (hs : Tree.depth (edges r.joints) i < steps) (m : Jacobian)
    (hkn : ∀ k (hk : k < r.joints.length), Tree.Desc (edges r.joints) r.joints[k].child i → Known r.joints[k]) :
    ∃ m', jacobianLoop r world steps i m = .ok m' ∧
      (∀ k (hk : k < r.joints.length), r.joints[k].model.type ≠ FIXED → Tree.Desc (edges r.joints) r.joints[k].child i →
        m' (col r.joints k) = column r.joints[k] (poses r.links r.joints[k].child) world (m (col r.joints k)).rot) ∧
      (∀ c, (∀ k (hk : k < r.joints.length), r.joints[k].model.type ≠ FIXED → col r.joints k = c →
        ¬ Tree.Desc (edges r.joints) r.joints[k].child i) → m' c = m c) := by
  have t := h.tree
  induction steps generalizing i m with
  | zero => omega
  | succ steps ih =>
    by_cases hi : i = 0
    · subst hi
      exact ⟨m, jacobianLoop_root .., fun k hk _ hd => absurd hd (not_desc_root t hk), fun _ _ => rfl⟩
    · obtain ⟨k, hk, rfl, -⟩ := parent_joint t hi h0 h1
      have he : (r.joints[k].parent, r.joints[k].child) ∈ edges r.joints := mem_edges.2 ⟨_, List.getElem_mem hk, rfl, rfl⟩
      have hr := (t.range _ he).1
      have hd := t.depth_step he
      simp only at hr
      rw [jacobianLoop_step h world steps hk m, if_pos (hkn k hk .refl)]
      obtain ⟨m', a1, a2, a3⟩ := ih r.joints[k].parent hr.1 hr.2 (by omega)
        (if r.joints[k].model.type = FIXED then m else m.write (col r.joints k)
            (column r.joints[k] (poses r.links r.joints[k].child) world (m (col r.joints k)).rot))
        (fun k' hk' hd' => hkn k' hk' ((desc_parent t hk).2 (Or.inr hd')))
      refine ⟨m', a1, fun k' hk' hf hd' => ?_, fun c hc => ?_⟩
      · rcases (desc_parent t hk).1 hd' with e | e
        · obtain rfl := child_inj t hk' hk e
          rw [a3 _ fun k'' hk'' hf'' hc'' => ?_, if_neg hf]
          · simp [Jacobian.write]
          · obtain rfl := col_inj hk'' hk' hf'' hf hc''
            exact not_desc_parent t hk
        · rw [a2 k' hk' hf e]
          congr 1
          split
          · rfl
          · next hfk =>
            unfold Jacobian.write
            rw [if_neg]
            intro hcc
            obtain rfl := col_inj hk' hk hf hfk hcc
            exact not_desc_parent t hk e
      · rw [a3 c fun k' hk' hf' hc' hd' => hc k' hk' hf' hc' ((desc_parent t hk).2 (Or.inr hd'))]
        split
        · rfl
        · next hfk =>
          unfold Jacobian.write
          rw [if_neg]
          rintro rfl
          exact hc k hk hfk rfl .refl

theorem jacobianLoop_unknown {r : Robot} (h : Built r) (world : Fin 3 → ℝ) (steps : Nat) (i : Int) (h0 : 0 ≤ i)
    (h1 : i < r.links.length) (hs : Tree.depth (edges r.joints) i < steps) (m : Jacobian)
    (hkn : ∃ k, ∃ hk : k < r.joints.length, Tree.Desc (edges r.joints) r.joints[k].child i ∧ ¬ Known r.joints[k]) :
    jacobianLoop r world steps i m = .throws .runtimeError := by
  have t := h.tree
  induction steps generalizing i m with
  | zero => omega
  | succ steps ih =>
    obtain ⟨k', hk', hd', hn⟩ := hkn
    by_cases hi : i = 0
    · subst hi
      exact absurd hd' (not_desc_root t hk')
    · obtain ⟨k, hk, rfl, -⟩ := parent_joint t hi h0 h1
      have he : (r.joints[k].parent, r.joints[k].child) ∈ edges r.joints := mem_edges.2 ⟨_, List.getElem_mem hk, rfl, rfl⟩
      have hr := (t.range _ he).1
      have hd := t.depth_step he
      simp only at hr
      rw [jacobianLoop_step h world steps hk m]
      split
      · next hkn =>
        refine ih r.joints[k].parent hr.1 hr.2 (by omega) _ ⟨k', hk', ?_, hn⟩
        rcases (desc_parent t hk).1 hd' with e | e
        · obtain rfl := child_inj t hk' hk e
          exact absurd hkn hn
        · exact e
      · rfl

/-! ### The index of a link -/

theorem linkIndex_spec (links : List Link) (hn : (links.map (·.name)).Nodup) (start i : Nat) (hi : i < links.length) :
    linkIndex links[i].name start links = ((start + i : Nat) : Int) := by
  induction links generalizing start i with
  | nil => simp at hi
  | cons l ls ih =>
    unfold linkIndex
    cases i with
    | zero => simp
    | succ i =>
      simp only [List.getElem_cons_succ]
      have hi' : i < ls.length := by simpa using hi
      simp only [List.map_cons, List.nodup_cons] at hn
      rw [if_neg fun e : l.name = _ => hn.1 (e ▸ List.mem_map.2 ⟨_, List.getElem_mem hi', rfl⟩), ih hn.2 _ _ hi']
      congr 1
      omega

end Verif.LinkedRobot
