import Verif.Spec.RobotMotion
import Verif.Lemmas.LinkedRobotCheck
import Verif.Props.LinkedRobotCheck
import Verif.Props.RobotJoint
import Verif.Props.Pose

/-!
# Lemmas about making and moving linked robots
-/
namespace Verif.LinkedRobot
open Verif Matrix Verif.Kinematics Verif.Pose

/-! ### Motions -/

theorem isRevolute_iff (j : Joint) : j.isRevolute = true ↔ j.type = REVOLUTE ∨ j.type = CONTINUOUS := by
  unfold Joint.isRevolute; split <;> simp_all

theorem isPrismatic_iff (j : Joint) : j.isPrismatic = true ↔ j.type = PRISMATIC := by
  unfold Joint.isPrismatic; split <;> simp_all

theorem isFixed_iff (j : Joint) : j.isFixed = true ↔ j.type = FIXED := by
  unfold Joint.isFixed; split <;> simp_all

theorem turn_matrix (a : ℝ) (u v : Fin 3 → ℝ) (hu : ∑ i, u i ^ 2 = 1) :
    toRotationMatrix (ofAngleAxis a u) *ᵥ v = turn u a v := by
  have hu' : u 0 ^ 2 + u 1 ^ 2 + u 2 ^ 2 = 1 := by rw [← hu, Fin.sum_univ_three]
  have hc : Real.cos a = Real.cos (1 / 2 * a) ^ 2 - Real.sin (1 / 2 * a) ^ 2 := by
    have := Real.cos_sq' (1 / 2 * a)
    have h2 := Real.cos_two_mul (1 / 2 * a)
    rw [show 2 * (1 / 2 * a) = a by ring] at h2
    have h3 := Real.sin_sq_add_cos_sq (1 / 2 * a)
    linarith
  have hs : Real.sin a = 2 * Real.sin (1 / 2 * a) * Real.cos (1 / 2 * a) := by
    rw [← Real.sin_two_mul, show 2 * (1 / 2 * a) = a by ring]
  have h1 := Real.sin_sq_add_cos_sq (1 / 2 * a)
  ext i
  fin_cases i <;>
    simp only [turn, hc, hs, toRotationMatrix, ofAngleAxis, cross_apply, mulVec, dotProduct, Fin.sum_univ_three, of_apply,
      Fin.zero_eta, Fin.mk_one, Fin.reduceFinMk, cons_val', cons_val_zero, cons_val_one, cons_val, Pi.add_apply,
      Pi.smul_apply, smul_eq_mul]
  · linear_combination (-(v 0 - (u 0 * v 0 + u 1 * v 1 + u 2 * v 2) * u 0)) * h1 - 2 * Real.sin (1 / 2 * a) ^ 2 * v 0 * hu'
  · linear_combination (-(v 1 - (u 0 * v 0 + u 1 * v 1 + u 2 * v 2) * u 1)) * h1 - 2 * Real.sin (1 / 2 * a) ^ 2 * v 1 * hu'
  · linear_combination (-(v 2 - (u 0 * v 0 + u 1 * v 1 + u 2 * v 2) * u 2)) * h1 - 2 * Real.sin (1 / 2 * a) ^ 2 * v 2 * hu'

theorem point_mul (T S : Transform) (v : Fin 3 → ℝ) : point (T.mul S) v = point T (point S v) := by
  unfold point Transform.mul
  simp only
  rw [mulVec_add, ← mulVec_mulVec, add_assoc]

theorem point_inj {T S : Transform} (h : ∀ v, point T v = point S v) : T = S := by
  have h0 : T.translation = S.translation := by
    have := h 0
    unfold point at this
    simpa using this
  have h1 : T.rotation = S.rotation := by
    apply Matrix.ext_of_mulVec_single
    intro i
    have := h (Pi.single i 1)
    unfold point at this
    rw [h0] at this
    exact add_right_cancel this
  exact Transform.ext h1 h0

theorem childTransform_point (j : RobotJoint) (hu : ∑ i, j.axis i ^ 2 = 1) (T : Transform) (v : Fin 3 → ℝ) :
    point (childTransform j T) v = point T (motion j.model.type j.axis j.model.value v) := by
  unfold childTransform motion
  by_cases h1 : j.model.type = REVOLUTE ∨ j.model.type = CONTINUOUS
  · rw [if_pos ((isRevolute_iff _).2 h1), if_pos h1, point_mul]
    congr 1
    unfold point
    rw [turn_matrix _ _ _ hu, add_zero]
  · rw [if_neg (fun h => h1 ((isRevolute_iff _).1 h)), if_neg h1]
    by_cases h2 : j.model.type = PRISMATIC
    · rw [if_pos ((isPrismatic_iff _).2 h2), if_pos h2, point_mul]
      congr 1
      unfold point
      have : toRotationMatrix ⟨1, 0, 0, 0⟩ = 1 := by
        ext i j; fin_cases i <;> fin_cases j <;> simp [toRotationMatrix]
      rw [this, one_mulVec]
    · rw [if_neg (fun h => h2 ((isPrismatic_iff _).1 h)), if_neg h2]

/-! ### Robots that differ in the values only -/

/-- The joints differ in their values only. -/
def Same (a b : RobotJoint) : Prop := b = { a with model := { a.model with value := b.model.value } }

theorem Same.refl (a : RobotJoint) : Same a a := rfl

theorem Same.trans {a b c : RobotJoint} (h1 : Same a b) (h2 : Same b c) : Same a c := by
  unfold Same at *
  rw [h2]
  simp only
  rw [h1]

theorem same_map {α : Type} {f : RobotJoint → α} (hf : ∀ a b, Same a b → f a = f b) {js js' : List RobotJoint}
    (h : List.Forall₂ Same js js') : js'.map f = js.map f := by
  induction h with
  | nil => rfl
  | cons h _ ih => rw [List.map_cons, List.map_cons, ih, hf _ _ h]

theorem same_edges {js js' : List RobotJoint} (h : List.Forall₂ Same js js') : edges js' = edges js :=
  same_map (fun a b h => by rw [h]) h

theorem element_congr (i : Int) {js js' : List RobotJoint} (h : edges js' = edges js) (idx : Nat) (e : Element) :
    element i idx js' e = element i idx js e := by
  induction js generalizing js' idx e with
  | nil =>
    cases js' with
    | nil => rfl
    | cons a b => simp [edges] at h
  | cons j js ih =>
    cases js' with
    | nil => simp [edges] at h
    | cons j' js' =>
      simp only [edges, List.map_cons, List.cons.injEq, Prod.mk.injEq] at h
      unfold element
      rw [show elementStep i idx j' e = elementStep i idx j e by unfold elementStep; rw [h.1.1, h.1.2]]
      exact ih h.2 _ _

theorem skeletonOf_congr (n : Nat) {js js' : List RobotJoint} (h : edges js' = edges js) :
    skeletonOf n js' = skeletonOf n js := by
  unfold skeletonOf
  congr 1
  funext i e
  exact element_congr i h 0 e

theorem activeLoop_congr {js js' : List RobotJoint} (h : List.Forall₂ Same js js') (n : Nat) :
    activeLoop n js' = activeLoop n js := by
  induction h generalizing n with
  | nil => rfl
  | cons h _ ih =>
    unfold activeLoop
    have hf : ∀ a b : RobotJoint, Same a b → b.model.isFixed = a.model.isFixed := fun a b h => by rw [h]; rfl
    rw [hf _ _ h]
    simp only [ih]

/-! ### The configuration -/

theorem activeJoints_fixed {j : RobotJoint} (js : List RobotJoint) (h : j.model.isFixed = true) :
    activeJoints (j :: js) = activeJoints js := by
  unfold activeJoints
  rw [List.filter_cons_of_neg]
  simpa using (isFixed_iff _).1 h

theorem activeJoints_active {j : RobotJoint} (js : List RobotJoint) (h : ¬ j.model.isFixed = true) :
    activeJoints (j :: js) = j :: activeJoints js := by
  unfold activeJoints
  rw [List.filter_cons_of_pos]
  simpa using fun h' => h ((isFixed_iff _).2 h')

theorem setValue_same {j : RobotJoint} {v : Option ℝ} {m : Joint} (h : j.model.setValue v = .ok m) :
    Same j { j with model := m } := by
  unfold Joint.setValue at h
  obtain ⟨x, -, h2⟩ := Out.bind_eq_ok.1 h
  simp only [Out.ok.injEq] at h2
  unfold Same
  rw [← h2]

theorem setLoop_same (js : List RobotJoint) (values : List (Option ℝ)) :
    List.Forall₂ Same js (setLoop js values).2.1 := by
  have hrefl : ∀ l : List RobotJoint, List.Forall₂ Same l l := fun l => List.forall₂_same.2 fun a _ => Same.refl a
  induction js generalizing values with
  | nil => exact .nil
  | cons j js ih =>
    unfold setLoop
    split
    · exact .cons (Same.refl _) (ih _)
    · cases values with
      | nil => exact hrefl _
      | cons v vs =>
        simp only
        cases h : j.model.setValue v with
        | ok m => exact .cons (setValue_same h) (ih vs)
        | throws e => exact hrefl _
        | abort => exact hrefl _
        | ub => exact hrefl _

/-- Setting as many values as there are joints that are not fixed. -/
theorem setLoop_ok (js : List RobotJoint) (values : List ℝ) (hv : ∀ j ∈ js, Valid j.model)
    (hl : values.length = (activeJoints js).length) :
    ∃ js' config, setLoop js (values.map some) = (.ok (), js', config) ∧ (∀ j ∈ js', Valid j.model) ∧
      config = (activeJoints js').map (·.model) ∧ List.Forall₂ SetTo config values := by
  induction js generalizing values with
  | nil =>
    have : values = [] := by simpa [activeJoints] using hl
    subst this
    exact ⟨[], [], rfl, by simp, rfl, .nil⟩
  | cons j js ih =>
    have hvj := hv j List.mem_cons_self
    have hvs := fun x hx => hv x (List.mem_cons_of_mem _ hx)
    by_cases h : j.model.isFixed = true
    · rw [activeJoints_fixed js h] at hl
      obtain ⟨js', config, h1, h2, h3, h4⟩ := ih values hvs hl
      refine ⟨j :: js', config, ?_, ?_, ?_, h4⟩
      · unfold setLoop; rw [if_pos h, h1]
      · intro x hx
        rcases List.mem_cons.1 hx with rfl | hx
        · exact hvj
        · exact h2 x hx
      · rw [activeJoints_fixed js' h]; exact h3
    · rw [activeJoints_active js h] at hl
      cases values with
      | nil => simp at hl
      | cons v vs =>
        obtain ⟨m, m1, m2, m3, m4, -⟩ := (C95_set j.model hvj).2.1 v
        obtain ⟨js', config, h1, h2, h3, h4⟩ := ih vs hvs (by simpa using hl)
        refine ⟨{ j with model := m } :: js', m :: config, ?_, ?_, ?_, .cons m3 h4⟩
        · unfold setLoop; rw [if_neg h, List.map_cons]; simp only; rw [m1]; simp only; rw [h1]
        · intro x hx
          rcases List.mem_cons.1 hx with rfl | hx
          · exact m2
          · exact h2 x hx
        · rw [activeJoints_active, List.map_cons, h3]
          rw [isFixed_iff] at h ⊢
          simp only; rw [m4]; exact h

/-- A value that is not finite ends the loop: the joints before it have been set. -/
theorem setLoop_throws (js : List RobotJoint) (before : List ℝ) (after : List (Option ℝ)) (hv : ∀ j ∈ js, Valid j.model)
    (hl : before.length + 1 + after.length = (activeJoints js).length) :
    ∃ js' config, setLoop js (before.map some ++ none :: after) = (.throws .invalidArgument, js', config) ∧
      (∀ j ∈ js', Valid j.model) ∧ config = ((activeJoints js').map (·.model)).take before.length ∧
      ((activeJoints js').drop before.length = (activeJoints js).drop before.length) ∧ List.Forall₂ SetTo config before := by
  induction js generalizing before with
  | nil => simp [activeJoints] at hl
  | cons j js ih =>
    have hvj := hv j List.mem_cons_self
    have hvs := fun x hx => hv x (List.mem_cons_of_mem _ hx)
    by_cases h : j.model.isFixed = true
    · rw [activeJoints_fixed js h] at hl
      obtain ⟨js', config, h1, h2, h3, h5, h4⟩ := ih before hvs hl
      refine ⟨j :: js', config, ?_, ?_, ?_, ?_, h4⟩
      · unfold setLoop; rw [if_pos h, h1]
      · intro x hx
        rcases List.mem_cons.1 hx with rfl | hx
        · exact hvj
        · exact h2 x hx
      · rw [activeJoints_fixed js' h]; exact h3
      · rw [activeJoints_fixed js' h, activeJoints_fixed js h]; exact h5
    · rw [activeJoints_active js h] at hl
      cases before with
      | nil =>
        refine ⟨j :: js, [], ?_, hv, rfl, rfl, .nil⟩
        unfold setLoop; rw [if_neg h]; rfl
      | cons v vs =>
        obtain ⟨m, m1, m2, m3, m4, -⟩ := (C95_set j.model hvj).2.1 v
        obtain ⟨js', config, h1, h2, h3, h5, h4⟩ := ih vs hvs (by simp at hl; omega)
        have hm : ¬ m.isFixed = true := by
          rw [isFixed_iff] at h ⊢
          rw [m4]; exact h
        refine ⟨{ j with model := m } :: js', m :: config, ?_, ?_, ?_, ?_, .cons m3 h4⟩
        · unfold setLoop; rw [if_neg h, List.map_cons, List.cons_append]; simp only; rw [m1]; simp only; rw [h1]
        · intro x hx
          rcases List.mem_cons.1 hx with rfl | hx
          · exact m2
          · exact h2 x hx
        · rw [activeJoints_active _ hm, List.map_cons, List.length_cons, List.take_succ_cons, h3]
        · rw [activeJoints_active _ hm, activeJoints_active _ h, List.length_cons, List.drop_succ_cons,
            List.drop_succ_cons, h5]

theorem activeLoop_count (js : List RobotJoint) (n : Nat) : (activeLoop n js).1 = n + (activeJoints js).length := by
  induction js generalizing n with
  | nil => rfl
  | cons j js ih =>
    unfold activeLoop
    by_cases h : j.model.isFixed = true
    · rw [if_neg (by simp [h]), activeJoints_fixed js h]; exact ih n
    · rw [if_pos (by simpa using h), activeJoints_active js h, List.length_cons]
      simp only
      rw [ih]; omega

theorem activeLoop_get (js : List RobotJoint) (n : Nat) (k : Nat) (hk : k < js.length) :
    (activeLoop n js).2[k]? =
      some (if js[k].model.isFixed = true then -1 else ((n + (activeJoints (js.take k)).length : Nat) : Int)) := by
  induction js generalizing n k with
  | nil => simp at hk
  | cons j js ih =>
    unfold activeLoop
    by_cases h : j.model.isFixed = true
    · rw [if_neg (by simp [h])]
      cases k with
      | zero => simp [h]
      | succ k =>
        simp only [List.getElem?_cons_succ, List.getElem_cons_succ, List.take_succ_cons]
        rw [ih n k (by simpa using hk), activeJoints_fixed _ h]
    · rw [if_pos (by simpa using h)]
      cases k with
      | zero => simp [h, activeJoints]
      | succ k =>
        simp only [List.getElem?_cons_succ, List.getElem_cons_succ, List.take_succ_cons]
        rw [ih (n + 1) k (by simpa using hk), activeJoints_active _ h]
        congr 2
        simp only [List.length_cons]
        omega

/-! ### The poses -/

theorem poses_change {links : List Link} {i : Int} (h0 : 0 ≤ i) (h1 : i < links.length) (T : Transform) :
    ∃ links', change links i (fun l => { l with transform := T }) = .ok links' ∧ links'.map (·.name) = links.map (·.name) ∧
      links'.length = links.length ∧ poses links' i = T ∧ ∀ k, 0 ≤ k → k ≠ i → poses links' k = poses links k := by
  refine ⟨_, change_eq h0 h1 _, ?_, by simp, ?_, ?_⟩
  · apply List.ext_getElem
    · simp
    · intro k h1 h2
      simp only [List.getElem_map, List.getElem_mapIdx]
      split <;> rfl
  · unfold poses
    rw [List.getElem?_map, List.getElem?_mapIdx, List.getElem?_eq_getElem (by omega)]
    simp [Int.toNat_of_nonneg h0]
  · intro k hk hki
    unfold poses
    rw [List.getElem?_map, List.getElem?_mapIdx, List.getElem?_map]
    cases links[k.toNat]? with
    | none => rfl
    | some l => simp [Int.toNat_of_nonneg hk, hki]

theorem read_poses {links : List Link} {i : Int} (h0 : 0 ≤ i) (h1 : i < links.length) :
    ∃ l, read links i = .ok l ∧ l.transform = poses links i := by
  refine ⟨_, read_eq h0 h1, ?_⟩
  unfold poses
  rw [List.getElem?_map, List.getElem?_eq_getElem (by omega)]
  rfl

theorem updateLoop_ok (js : List RobotJoint) (links : List Link) (hr : ∀ j ∈ js, InRange links.length j) :
    ∃ links', updateLoop js links = .ok links' ∧ links'.map (·.name) = links.map (·.name) ∧
      links'.length = links.length ∧ ∀ i, 0 ≤ i → (∀ j ∈ js, j.child ≠ i) → poses links' i = poses links i := by
  induction js generalizing links with
  | nil => exact ⟨links, rfl, rfl, rfl, fun _ _ _ => rfl⟩
  | cons j js ih =>
    obtain ⟨hp, hc⟩ := hr j List.mem_cons_self
    obtain ⟨l, hl, hlt⟩ := read_poses hp.1 hp.2
    obtain ⟨l1, a1, a2, a3, a4, a5⟩ := poses_change hc.1 hc.2 (childTransform j (l.transform.mul j.transform))
    obtain ⟨l2, b1, b2, b3, b4⟩ := ih l1 fun x hx => by rw [a3]; exact hr x (List.mem_cons_of_mem _ hx)
    refine ⟨l2, ?_, b2.trans a2, b3.trans a3, fun i hi h => ?_⟩
    · unfold updateLoop; rw [hl, Out.bind_ok, a1, Out.bind_ok, b1]
    · rw [b4 i hi fun x hx => h x (List.mem_cons_of_mem _ hx), a5 i hi (h j List.mem_cons_self).symm]

theorem updateLoop_spec (js : List RobotJoint) (links : List Link) (hr : ∀ j ∈ js, InRange links.length j)
    (hu : (js.map (·.child)).Nodup)
    (ho : ∀ k i (hk : k < js.length) (hi : i < js.length), k ≤ i → js[i].child ≠ js[k].parent) (links' : List Link)
    (h : updateLoop js links = .ok links') :
    ∀ j ∈ js, poses links' j.child = childTransform j ((poses links' j.parent).mul j.transform) := by
  induction js generalizing links with
  | nil => simp
  | cons j js ih =>
    obtain ⟨hp, hc⟩ := hr j List.mem_cons_self
    obtain ⟨l, hl, hlt⟩ := read_poses hp.1 hp.2
    obtain ⟨l1, a1, a2, a3, a4, a5⟩ := poses_change hc.1 hc.2 (childTransform j (l.transform.mul j.transform))
    have hr1 : ∀ x ∈ js, InRange l1.length x := fun x hx => by rw [a3]; exact hr x (List.mem_cons_of_mem _ hx)
    obtain ⟨l2, b1, b2, b3, b4⟩ := updateLoop_ok js l1 hr1
    unfold updateLoop at h
    rw [hl, Out.bind_ok, a1, Out.bind_ok] at h
    have := ih l1 hr1 (List.nodup_cons.1 hu).2 (fun k i hk hi hki => ho (k + 1) (i + 1) (by simpa using hk) (by simpa using hi) (by omega)) h
    rw [b1] at h
    simp only [Out.ok.injEq] at h
    subst h
    intro x hx
    rcases List.mem_cons.1 hx with rfl | hx
    · have hnc : ∀ y ∈ js, y.child ≠ x.child := fun y hy he =>
        (List.nodup_cons.1 hu).1 (List.mem_map.2 ⟨y, hy, he⟩)
      have hnp : ∀ y ∈ js, y.child ≠ x.parent := by
        intro y hy
        obtain ⟨i, hi, rfl⟩ := List.getElem_of_mem hy
        exact ho 0 (i + 1) (by simp) (by simpa using hi) (by omega)
      have hself : x.child ≠ x.parent := ho 0 0 (by simp) (by simp) (le_refl _)
      rw [b4 _ hc.1 hnc, b4 _ hp.1 hnp, a4, a5 _ hp.1 hself.symm, hlt]
    · exact this x hx

/-! ### Made robots -/

/-- What stays true of a robot, whatever is called -/
structure Built (r : Robot) : Prop where
  range : ∀ j ∈ r.joints, InRange r.links.length j
  tree : Tree r.links.length (edges r.joints)
  skeleton : r.skeleton = skeletonOf r.links.length r.joints
  active : (r.numActive, r.active) = makeActiveJointIndexMap r.joints
  valid : ∀ j ∈ r.joints, Valid j.model
  weights : r.weights.length = r.numActive ∧ ∀ w ∈ r.weights, 0 ≤ w
  names : (r.links.map (·.name)).Nodup

theorem Built.count {r : Robot} (h : Built r) : r.numActive = (activeJoints r.joints).length := by
  have := congrArg Prod.fst h.active
  simp only [makeActiveJointIndexMap] at this
  rw [this, activeLoop_count, Nat.zero_add]

theorem Built.change {r r' : Robot} (h : Built r) (hj : List.Forall₂ Same r.joints r'.joints)
    (hv : ∀ j ∈ r'.joints, Valid j.model) (hn : r'.links.map (·.name) = r.links.map (·.name))
    (hs : r'.skeleton = r.skeleton) (ha : r'.active = r.active) (hw : r'.weights = r.weights)
    (hc : r'.numActive = r.numActive) : Built r' := by
  have hl : r'.links.length = r.links.length := by
    have := congrArg List.length hn
    simpa using this
  have he := same_edges hj
  refine ⟨?_, ?_, ?_, ?_, hv, ?_, by rw [hn]; exact h.names⟩
  · intro j hj'
    have : (j.parent, j.child) ∈ edges r'.joints := mem_edges.2 ⟨j, hj', rfl, rfl⟩
    rw [he] at this
    obtain ⟨i, hi, hp, hc⟩ := mem_edges.1 this
    have := h.range i hi
    unfold InRange at *
    rw [hl, ← hp, ← hc]
    exact this
  · rw [hl, he]; exact h.tree
  · rw [hs, hl, skeletonOf_congr _ he]; exact h.skeleton
  · rw [hc, ha, h.active]
    exact (activeLoop_congr hj 0).symm
  · rw [hw, hc]; exact h.weights

theorem updateTransforms_ok {base : Transform} {joints : List RobotJoint} {links : List Link} (hp : 0 < links.length)
    (hr : ∀ j ∈ joints, InRange links.length j) :
    ∃ links', updateTransforms base joints links = .ok links' ∧ links'.map (·.name) = links.map (·.name) ∧
      ((∀ j ∈ joints, j.child ≠ 0) → poses links' 0 = base) := by
  obtain ⟨l1, a1, a2, a3, a4, a5⟩ := poses_change (links := links) (le_refl 0) (by omega) base
  obtain ⟨l2, b1, b2, b3, b4⟩ := updateLoop_ok joints l1 (by rw [a3]; exact hr)
  refine ⟨l2, ?_, b2.trans a2, fun h => ?_⟩
  · unfold updateTransforms; rw [a1, Out.bind_ok, b1]
  · rw [b4 0 (le_refl _) h, a4]

theorem ordered_later {n : Nat} {js : List RobotJoint} (t : Tree n (edges js)) (ho : Ordered js) (k i : Nat)
    (hk : k < js.length) (hi : i < js.length) (hki : k ≤ i) : js[i].child ≠ js[k].parent := by
  have hu : (js.map (·.child)).Nodup := by
    have := t.unique
    simpa [edges, Function.comp_def] using this
  rcases ho k hk with h | ⟨m, hm, h⟩
  · rw [h]
    exact t.nonroot _ (mem_edges.2 ⟨js[i], List.getElem_mem hi, rfl, rfl⟩)
  · rw [← h]
    intro he
    have := (List.Nodup.getElem_inj_iff hu (i := i) (j := m) (hi := by simpa using hi) (hj := by simp; omega)).1 (by
      simpa using he)
    omega

theorem updateTransforms_placed {base : Transform} {joints : List RobotJoint} {links links' : List Link}
    (hr : ∀ j ∈ joints, InRange links.length j) (t : Tree links.length (edges joints)) (ho : Ordered joints)
    (hx : UnitAxes joints) (h : updateTransforms base joints links = .ok links') : Placed base joints (poses links') := by
  have hc : ∀ j ∈ joints, j.child ≠ 0 := fun j hj => t.nonroot _ (mem_edges.2 ⟨j, hj, rfl, rfl⟩)
  obtain ⟨l, h1, -, h2⟩ := updateTransforms_ok (base := base) t.pos hr
  rw [h] at h1
  simp only [Out.ok.injEq] at h1
  subst h1
  refine ⟨h2 hc, fun j hj v => ?_⟩
  unfold updateTransforms at h
  obtain ⟨l1, a1, a2, a3, a4, a5⟩ := poses_change (links := links) (le_refl 0) (by have := t.pos; omega) base
  rw [a1, Out.bind_ok] at h
  have hu : (joints.map (·.child)).Nodup := by
    have := t.unique
    simpa [edges, Function.comp_def] using this
  rw [updateLoop_spec joints l1 (by rw [a3]; exact hr) hu (fun k i hk hi hki => ordered_later t ho k i hk hi hki) links' h j hj,
    childTransform_point j (hx j hj), point_mul]

end Verif.LinkedRobot
