import Verif.Lemmas.RobotJacobian
import Verif.Props.LinkedRobot

/-!
# The Jacobian of linked robots (C100)
-/
namespace Verif.LinkedRobot
open Verif Matrix Verif.Kinematics Verif.Pose

theorem point_apply (T : Transform) (q : Fin 3 → ℝ) : apply T ![q 0, q 1, q 2, 1] = point T q := by
  unfold apply point
  have : ![q 0, q 1, q 2] = q := by ext i; fin_cases i <;> rfl
  simp [this]

/-- The columns as derivatives -/
theorem column_deriv {n : Nat} {js : List RobotJoint} {base : Transform} {T : Int → Transform} (t : Tree n (edges js))
    (hx : UnitAxes js) (hb : IsRotationMatrix base.rotation) (hj : ∀ j ∈ js, IsRotationMatrix j.transform.rotation)
    (hT : Placed base js T) {k : Nat} {hk : k < js.length} {F : ℝ → Int → Transform}
    (hF : ∀ θ, Placed base (js.set k (js[k].withValue θ)) (F θ)) {w : Int}
    (hd : Tree.Desc (edges js) js[k].child w) (hw : Reach (edges js) w) (q : Fin 3 → ℝ) :
    ((js[k].model.type = REVOLUTE ∨ js[k].model.type = CONTINUOUS) →
      HasDerivAt (fun θ => point (F θ w) q)
        (((T js[k].child).rotation *ᵥ js[k].axis) ⨯₃ (point (T w) q - (T js[k].child).translation)) js[k].model.value) ∧
    (js[k].model.type = PRISMATIC →
      HasDerivAt (fun θ => point (F θ w) q) ((T js[k].child).rotation *ᵥ js[k].axis) js[k].model.value) := by
  have he : (js[k].parent, js[k].child) ∈ edges js := mem_edges.2 ⟨_, List.getElem_mem hk, rfl, rfl⟩
  have hr := t.range _ he
  simp only at hr
  have rp : Reach (edges js) js[k].parent := t.reach _ hr.1.1 hr.1.2
  have rc : Reach (edges js) js[k].child := t.reach _ hr.2.1 hr.2.2
  obtain ⟨S, hS⟩ := fam_below t hx hF hd
  have hxk := hx js[k] (List.getElem_mem hk)
  have hA : IsRotationMatrix ((T js[k].parent).rotation * js[k].transform.rotation) :=
    rotation_mul (placed_rotation hT hx hb hj rp) (hj _ (List.getElem_mem hk))
  have hab : ∀ v, point (T js[k].parent) (point js[k].transform v) =
      ((T js[k].parent).rotation * js[k].transform.rotation) *ᵥ v + point (T js[k].parent) js[k].transform.translation := by
    intro v
    unfold point
    rw [mulVec_add, mulVec_mulVec, add_assoc]
  have hp : ∀ θ, F θ js[k].parent = T js[k].parent := fun θ => by
    rw [fam_const hF rp (not_desc_parent t hk) θ js[k].model.value, fam_here hT hF rp]
  have hself : ∀ θ v, point (F θ js[k].child) v =
      ((T js[k].parent).rotation * js[k].transform.rotation) *ᵥ (motion js[k].model.type js[k].axis θ v) +
        point (T js[k].parent) js[k].transform.translation := by
    intro θ v
    rw [fam_self hF, hp, hab]
  have hchild : ∀ v, point (T js[k].child) v =
      ((T js[k].parent).rotation * js[k].transform.rotation) *ᵥ (motion js[k].model.type js[k].axis js[k].model.value v) +
        point (T js[k].parent) js[k].transform.translation := by
    intro v
    rw [hT.2 _ (List.getElem_mem hk) v, hab]
  have hworld : ∀ θ, point (F θ w) q =
      ((T js[k].parent).rotation * js[k].transform.rotation) *ᵥ (motion js[k].model.type js[k].axis θ (point S q)) +
        point (T js[k].parent) js[k].transform.translation := fun θ => by rw [hS, hself]
  have hTw : point (T w) q =
      ((T js[k].parent).rotation * js[k].transform.rotation) *ᵥ
          (motion js[k].model.type js[k].axis js[k].model.value (point S q)) +
        point (T js[k].parent) js[k].transform.translation := by
    rw [← fam_here hT hF hw, hworld]
  have htr : point (T js[k].child) 0 = (T js[k].child).translation := by simp [point]
  have hrot : ∀ v, (T js[k].child).rotation *ᵥ v = point (T js[k].child) v - point (T js[k].child) 0 := by
    intro v; simp [point]
  generalize (T js[k].parent).rotation * js[k].transform.rotation = A at *
  generalize point (T js[k].parent) js[k].transform.translation = b at *
  constructor
  · intro hty
    have hm : ∀ θ v, motion js[k].model.type js[k].axis θ v = turn js[k].axis θ v := fun θ v => by
      unfold motion; rw [if_pos hty]
    simp only [hm] at *
    have h0 : (T js[k].child).translation = b := by rw [← htr, hchild, turn_zero]; simp
    have hax : (T js[k].child).rotation *ᵥ js[k].axis = A *ᵥ js[k].axis := by
      rw [hrot, hchild, hchild, turn_axis hxk, turn_zero]; simp
    rw [h0, hax, hTw, add_sub_cancel_right, cross_mulVec hA]
    have h1 := (mulVec_deriv A (turn_deriv hxk (point S q) js[k].model.value)).add_const b
    have h2 : (fun θ => point (F θ w) q) = fun θ => A *ᵥ turn js[k].axis θ (point S q) + b := funext hworld
    rw [h2]
    exact h1
  · intro hty
    have hm : ∀ θ v, motion js[k].model.type js[k].axis θ v = v + θ • js[k].axis := fun θ v => by
      unfold motion
      rw [if_neg (by rw [hty]; decide), if_pos hty]
    simp only [hm] at *
    have hax : (T js[k].child).rotation *ᵥ js[k].axis = A *ᵥ js[k].axis := by
      rw [hrot, hchild, hchild]
      simp only [mulVec_add, zero_add]
      abel
    rw [hax]
    have h1 := (mulVec_deriv A (((hasDerivAt_id js[k].model.value).smul_const js[k].axis).const_add (point S q))).add_const b
    have h2 : (fun θ => point (F θ w) q) = fun θ => A *ᵥ (point S q + θ • js[k].axis) + b := funext hworld
    rw [h2]
    refine HasDerivAt.congr_deriv (f' := A *ᵥ ((1 : ℝ) • js[k].axis)) h1 ?_
    rw [one_smul]

/-- The columns of joints that do not move the link -/
theorem still_deriv {n : Nat} {js : List RobotJoint} {base : Transform} (_ : Tree n (edges js)) {k : Nat}
    {hk : k < js.length} {F : ℝ → Int → Transform} (hF : ∀ θ, Placed base (js.set k (js[k].withValue θ)) (F θ)) {w : Int}
    (hd : ¬ Tree.Desc (edges js) js[k].child w) (hw : Reach (edges js) w) (q : Fin 3 → ℝ) :
    HasDerivAt (fun θ => point (F θ w) q) 0 js[k].model.value := by
  have : (fun θ => point (F θ w) q) = fun _ => point (F 0 w) q := by
    funext θ; rw [fam_const hF hw hd θ 0]
  rw [this]
  exact hasDerivAt_const _ _

/-- The Jacobian computed for a link -/
theorem jacobian_eq {r : Robot} (h : Built r) {i : Nat} (hi : i < r.links.length) (p : Fin 4 → ℝ)
    (hkn : ∀ k (hk : k < r.joints.length), Tree.Desc (edges r.joints) r.joints[k].child i → Known r.joints[k]) :
    ∃ J, linkPointJacobian r r.links[i].name p = .ok J ∧
      linkPointTranslationJacobian r r.links[i].name p = .ok (fun k => (J k).trans) ∧
      (∀ k (hk : k < r.joints.length), r.joints[k].model.type ≠ FIXED → Tree.Desc (edges r.joints) r.joints[k].child i →
        J (col r.joints k) =
          column r.joints[k] (poses r.links r.joints[k].child) (apply (poses r.links i) p) 0) ∧
      (∀ c, (∀ k (hk : k < r.joints.length), r.joints[k].model.type ≠ FIXED → col r.joints k = c →
        ¬ Tree.Desc (edges r.joints) r.joints[k].child i) → J c = ⟨0, 0⟩) := by
  have hT : linkTransform r r.links[i].name = .ok (poses r.links i) := by
    have key : ∀ (ls : List Link) (i : Nat) (hi : i < ls.length), (ls.map (·.name)).Nodup →
        linkTransformLoop ls[i].name ls = .ok ls[i].transform := by
      intro ls
      induction ls with
      | nil => intro i hi; simp at hi
      | cons l ls ih =>
        intro i hi hn
        unfold linkTransformLoop
        cases i with
        | zero => simp
        | succ i =>
          have hi' : i < ls.length := by simpa using hi
          simp only [List.map_cons, List.nodup_cons] at hn
          simp only [List.getElem_cons_succ]
          rw [if_neg fun e : l.name = _ => hn.1 (e ▸ List.mem_map.2 ⟨_, List.getElem_mem hi', rfl⟩)]
          exact ih i hi' hn.2
    unfold linkTransform
    rw [key r.links i hi h.names]
    simp [poses, hi]
  have hidx := linkIndex_spec r.links h.names 0 i hi
  rw [Nat.zero_add] at hidx
  have t := h.tree
  have hdep := t.depth_lt (i := (i : Int)) (by omega) (by omega)
  obtain ⟨m', a1, a2, a3⟩ := jacobianLoop_spec h (apply (poses r.links i) p) (r.links.length + 1) i (by omega) (by omega)
    (by omega) (fun _ => ⟨0, 0⟩) hkn
  have hJ : linkPointJacobian r r.links[i].name p = .ok m' := by
    unfold linkPointJacobian
    rw [hT, Out.bind_ok, hidx]
    simp only
    rw [if_neg (by omega)]
    split
    · next h0 =>
      rw [h0, jacobianLoop_root] at a1
      exact a1
    · exact a1
  exact ⟨m', hJ, by unfold linkPointTranslationJacobian; rw [hJ, Out.bind_ok], a2, a3⟩

/-! ### What changing values keeps -/

theorem same_trans {a b c : List RobotJoint} (hab : List.Forall₂ Same a b) (hbc : List.Forall₂ Same b c) :
    List.Forall₂ Same a c := by
  induction hab generalizing c with
  | nil => exact hbc
  | cons h _ ih =>
    cases hbc with
    | cons h1 h2 => exact .cons (h.trans h1) (ih h2)

theorem same_all {P : RobotJoint → Prop} (hP : ∀ a b, Same a b → P a → P b) {js js' : List RobotJoint}
    (h : List.Forall₂ Same js js') (hj : ∀ j ∈ js, P j) : ∀ j ∈ js', P j := by
  induction h with
  | nil => simp
  | cons h _ ih =>
    intro j hj'
    rcases List.mem_cons.1 hj' with rfl | hj'
    · exact hP _ _ h (hj _ List.mem_cons_self)
    · exact ih (fun j hj'' => hj j (List.mem_cons_of_mem _ hj'')) j hj'

theorem same_unit {js js' : List RobotJoint} (h : List.Forall₂ Same js js') (hx : UnitAxes js) : UnitAxes js' :=
  same_all (P := fun j => ∑ i, j.axis i ^ 2 = 1) (fun a b h ha => by rw [h]; exact ha) h hx

theorem same_rotation {js js' : List RobotJoint} (h : List.Forall₂ Same js js')
    (hx : ∀ j ∈ js, IsRotationMatrix j.transform.rotation) : ∀ j ∈ js', IsRotationMatrix j.transform.rotation :=
  same_all (P := fun j => IsRotationMatrix j.transform.rotation) (fun a b h ha => by rw [h]; exact ha) h hx

theorem same_ordered {js js' : List RobotJoint} (h : List.Forall₂ Same js js') (ho : Ordered js) : Ordered js' := by
  have e1 := same_edges h
  have hlen : js'.length = js.length := h.length_eq.symm
  have hget : ∀ k (hk : k < js'.length), js'[k].parent = (js[k]'(by omega)).parent ∧
      js'[k].child = (js[k]'(by omega)).child := by
    intro k hk
    have a : (edges js')[k]'(by simpa [edges] using hk) = (edges js)[k]'(by simp [edges]; omega) := by simp only [e1]
    simpa [edges] using a
  intro k hk
  rcases ho k (by omega) with h | ⟨i, hi, h⟩
  · left; rw [(hget k hk).1, h]
  · right; exact ⟨i, hi, by rw [(hget k hk).1, (hget i (by omega)).2, h]⟩

theorem same_set (js : List RobotJoint) (k : Nat) (hk : k < js.length) (θ : ℝ) :
    List.Forall₂ Same js (js.set k (js[k].withValue θ)) := by
  rw [List.forall₂_iff_get]
  refine ⟨by simp, fun i h1 h2 => ?_⟩
  simp only [List.get_eq_getElem, List.getElem_set]
  split
  · next h => subst h; rfl
  · exact Same.refl _

/-! ### The theorems -/

variable (base : Transform) (links : List Link) (joints : List RobotJoint) (initial : List (Option ℝ)) (weights : List ℝ)

/-- C100: the Jacobian has a column for each joint that is not fixed, in order. The column of a revolute or continuous joint
has the derivative of the point in the world by the value of this joint, and the angular velocity of the link; the same
holds of a joint that does not move the link. -/
theorem C100_jacobian_partial (hr : ∀ j ∈ joints, InRange links.length j) (hv : ∀ j ∈ joints, Valid j.model) (r0 : Robot)
    (hm : make base links joints initial weights = .ok r0) (calls : List Call) (hx : UnitAxes joints)
    (hj : ∀ j ∈ joints, IsRotationMatrix j.transform.rotation) :
    let r := after r0 calls
    Placed r.base r.joints (poses r.links) → IsRotationMatrix r.base.rotation →
    ∀ (i : Nat) (l : Link), links[i]? = some l → (∀ j ∈ r.joints, Moves r.joints j i → Known j) → ∀ q : Fin 3 → ℝ,
    ∃ J, linkPointJacobian r l.name ![q 0, q 1, q 2, 1] = .ok J ∧
      linkPointTranslationJacobian r l.name ![q 0, q 1, q 2, 1] = .ok (fun k => (J k).trans) ∧
      (∀ c, (activeJoints joints).length ≤ c → J c = ⟨0, 0⟩) ∧
      ∀ k (hk : k < r.joints.length), r.joints[k].model.type ≠ FIXED →
        (r.joints[k].model.type = PRISMATIC → ¬ Moves r.joints r.joints[k] i) →
        ∀ F : ℝ → Int → Transform, (∀ θ, Placed r.base (r.joints.set k (r.joints[k].withValue θ)) (F θ)) →
          HasDerivAt (fun θ => point (F θ i) q) (J (activeJoints (r.joints.take k)).length).trans r.joints[k].model.value ∧
          ∀ v, HasDerivAt (fun θ => (F θ i).rotation *ᵥ v)
            ((J (activeJoints (r.joints.take k)).length).rot ⨯₃ ((poses r.links i).rotation *ᵥ v))
            r.joints[k].model.value := by
  intro r hP hb i l hl hkn q
  obtain ⟨h1, h2, h3, -⟩ := (make_cases hr hv).1 r0 hm
  obtain ⟨g1, g2, g3, -⟩ : Built r ∧ List.Forall₂ Same r0.joints r.joints ∧ r.links.map (·.name) = r0.links.map (·.name) ∧
    r.inverseBase = r0.inverseBase := after_cases r0 h1 calls
  have hx := same_unit (same_trans h2 g2) hx
  have hj := same_rotation (same_trans h2 g2) hj
  have hcount : (activeJoints r.joints).length = (activeJoints joints).length := by
    have := (C99_set base links joints initial weights hr hv r0 hm calls).1
    rw [← this, ← g1.count]
  clear_value r
  have hn : r.links.map (·.name) = links.map (·.name) := g3.trans h3
  have hlen : r.links.length = links.length := by simpa using congrArg List.length hn
  have hi : i < r.links.length := by rw [hlen]; exact (List.getElem?_eq_some_iff.1 hl).1
  have hname : r.links[i].name = l.name := by
    have := congrArg (·[i]?) hn
    simp only [List.getElem?_map, hl, List.getElem?_eq_getElem hi, Option.map_some, Option.some.injEq] at this
    exact this
  have t := g1.tree
  have hre : Reach (edges r.joints) i := t.reach i (Int.natCast_nonneg _) (by exact_mod_cast hi)
  obtain ⟨J, b1, b2, b3, b4⟩ := jacobian_eq g1 hi ![q 0, q 1, q 2, 1] fun k hk hd => hkn _ (List.getElem_mem hk) hd
  rw [hname] at b1 b2
  refine ⟨J, b1, b2, fun c hc => b4 c fun k hk hf hkc => ?_, fun k hk hf hpr F hF => ?_⟩
  · have : col r.joints k < (activeJoints r.joints).length := col_lt_count hk hf
    rw [hcount] at this
    omega
  · have hrotF : ∀ v, (fun θ => (F θ i).rotation *ᵥ v) = fun θ => point (F θ i) v - point (F θ i) 0 := by
      intro v; funext θ; simp [point]
    by_cases hd : Tree.Desc (edges r.joints) r.joints[k].child i
    · have hrev : r.joints[k].model.type = REVOLUTE ∨ r.joints[k].model.type = CONTINUOUS := by
        rcases hkn _ (List.getElem_mem hk) hd with h | h | h | h
        · exact absurd h hf
        · exact Or.inl h
        · exact Or.inr h
        · exact absurd hd (hpr h)
      have hJ := b3 k hk hf hd
      unfold column at hJ
      rw [if_pos ((isRevolute_iff _).2 hrev), point_apply] at hJ
      have hd' := fun u => (column_deriv t hx hb hj hP hF hd hre u).1 hrev
      have hcol : (activeJoints (r.joints.take k)).length = col r.joints k := rfl
      rw [hcol, hJ]
      refine ⟨hd' q, fun v => ?_⟩
      rw [hrotF]
      refine ((hd' v).sub (hd' 0)).congr_deriv ?_
      rw [← map_sub]
      congr 1
      simp [point]
    · have hJ : J (col r.joints k) = ⟨0, 0⟩ := b4 _ fun k' hk' hf' hc' => by
        obtain rfl := col_inj hk' hk hf' hf hc'
        exact hd
      have hcol : (activeJoints (r.joints.take k)).length = col r.joints k := rfl
      rw [hcol, hJ]
      have hd' := fun u => still_deriv t hF hd hre u
      refine ⟨hd' q, fun v => ?_⟩
      rw [hrotF]
      refine ((hd' v).sub (hd' 0)).congr_deriv ?_
      simp

/-- C100: the column of a prismatic joint that moves the link is wrong: it is the derivative of the point plus the position
of the child of the joint in the world. -/
theorem C100_prismatic_wrong (hr : ∀ j ∈ joints, InRange links.length j) (hv : ∀ j ∈ joints, Valid j.model) (r0 : Robot)
    (hm : make base links joints initial weights = .ok r0) (calls : List Call) (hx : UnitAxes joints)
    (hj : ∀ j ∈ joints, IsRotationMatrix j.transform.rotation) :
    let r := after r0 calls
    Placed r.base r.joints (poses r.links) → IsRotationMatrix r.base.rotation →
    ∀ (i : Nat) (l : Link), links[i]? = some l → (∀ j ∈ r.joints, Moves r.joints j i → Known j) → ∀ q : Fin 3 → ℝ,
    ∃ J, linkPointJacobian r l.name ![q 0, q 1, q 2, 1] = .ok J ∧
      ∀ k (hk : k < r.joints.length), r.joints[k].model.type = PRISMATIC → Moves r.joints r.joints[k] i →
        (J (activeJoints (r.joints.take k)).length).rot = 0 ∧
        ∀ F : ℝ → Int → Transform, (∀ θ, Placed r.base (r.joints.set k (r.joints[k].withValue θ)) (F θ)) →
          HasDerivAt (fun θ => point (F θ i) q) ((J (activeJoints (r.joints.take k)).length).trans -
            (poses r.links r.joints[k].child).translation) r.joints[k].model.value := by
  intro r hP hb i l hl hkn q
  obtain ⟨h1, h2, h3, -⟩ := (make_cases hr hv).1 r0 hm
  obtain ⟨g1, g2, g3, -⟩ : Built r ∧ List.Forall₂ Same r0.joints r.joints ∧ r.links.map (·.name) = r0.links.map (·.name) ∧
    r.inverseBase = r0.inverseBase := after_cases r0 h1 calls
  have hx := same_unit (same_trans h2 g2) hx
  have hj := same_rotation (same_trans h2 g2) hj
  clear_value r
  have hn : r.links.map (·.name) = links.map (·.name) := g3.trans h3
  have hlen : r.links.length = links.length := by simpa using congrArg List.length hn
  have hi : i < r.links.length := by rw [hlen]; exact (List.getElem?_eq_some_iff.1 hl).1
  have hname : r.links[i].name = l.name := by
    have := congrArg (·[i]?) hn
    simp only [List.getElem?_map, hl, List.getElem?_eq_getElem hi, Option.map_some, Option.some.injEq] at this
    exact this
  have t := g1.tree
  have hre : Reach (edges r.joints) i := t.reach i (Int.natCast_nonneg _) (by exact_mod_cast hi)
  obtain ⟨J, b1, b2, b3, b4⟩ := jacobian_eq g1 hi ![q 0, q 1, q 2, 1] fun k hk hd => hkn _ (List.getElem_mem hk) hd
  rw [hname] at b1
  refine ⟨J, b1, fun k hk hpr hd => ?_⟩
  have hJ := b3 k hk (by rw [hpr]; decide) hd
  unfold column at hJ
  rw [if_neg (by rw [isRevolute_iff, hpr]; decide)] at hJ
  have hcol : (activeJoints (r.joints.take k)).length = col r.joints k := rfl
  rw [hcol, hJ]
  refine ⟨rfl, fun F hF => ?_⟩
  simp only [add_sub_cancel_right]
  exact (column_deriv t hx hb hj hP hF hd hre q).2 hpr

/-- C100: for each value of a joint there is a way to place the links, so that the derivatives above are of something. -/
theorem C100_family (hr : ∀ j ∈ joints, InRange links.length j) (hv : ∀ j ∈ joints, Valid j.model) (r0 : Robot)
    (hm : make base links joints initial weights = .ok r0) (calls : List Call) (hx : UnitAxes joints) (ho : Ordered joints) :
    let r := after r0 calls
    ∀ k (hk : k < r.joints.length), ∃ F : ℝ → Int → Transform,
      ∀ θ, Placed r.base (r.joints.set k (r.joints[k].withValue θ)) (F θ) := by
  intro r k hk
  obtain ⟨h1, h2, h3, -⟩ := (make_cases hr hv).1 r0 hm
  obtain ⟨g1, g2, g3, -⟩ : Built r ∧ List.Forall₂ Same r0.joints r.joints ∧ r.links.map (·.name) = r0.links.map (·.name) ∧
    r.inverseBase = r0.inverseBase := after_cases r0 h1 calls
  have key : ∀ θ, ∃ T, Placed r.base (r.joints.set k (r.joints[k].withValue θ)) T := by
    intro θ
    have hs := same_set r.joints k hk θ
    have hs' := same_trans (same_trans h2 g2) hs
    have hrange : ∀ j ∈ r.joints.set k (r.joints[k].withValue θ), InRange r.links.length j :=
      same_all (P := InRange r.links.length) (fun a b h ha => by rw [h]; exact ha) hs g1.range
    have ht : Tree r.links.length (edges (r.joints.set k (r.joints[k].withValue θ))) := by rw [same_edges hs]; exact g1.tree
    obtain ⟨links', e, -⟩ := updateTransforms_ok (base := r.base) ht.pos hrange
    exact ⟨_, updateTransforms_placed hrange ht (same_ordered hs' ho) (same_unit hs' hx) e⟩
  choose F hF using key
  exact ⟨F, hF⟩

/-- C100: for an unknown name the Jacobian throws, and so it does if a joint that moves the link is of no known type. -/
theorem C100_errors (hr : ∀ j ∈ joints, InRange links.length j) (hv : ∀ j ∈ joints, Valid j.model) (r0 : Robot)
    (hm : make base links joints initial weights = .ok r0) (calls : List Call) (p : Fin 4 → ℝ) :
    let r := after r0 calls
    (∀ name, name ∉ links.map (·.name) → linkPointJacobian r name p = .throws .invalidArgument ∧
      linkPointTranslationJacobian r name p = .throws .invalidArgument) ∧
    ∀ (i : Nat) (l : Link), links[i]? = some l → (∃ j ∈ r.joints, Moves r.joints j i ∧ ¬ Known j) →
      linkPointJacobian r l.name p = .throws .runtimeError ∧
      linkPointTranslationJacobian r l.name p = .throws .runtimeError := by
  intro r
  obtain ⟨k1, k2, k3, k4⟩ := C98_lookup base links joints initial weights hr hv r0 hm calls
  obtain ⟨h1, h2, h3, -⟩ := (make_cases hr hv).1 r0 hm
  obtain ⟨g1, g2, g3, -⟩ : Built r ∧ List.Forall₂ Same r0.joints r.joints ∧ r.links.map (·.name) = r0.links.map (·.name) ∧
    r.inverseBase = r0.inverseBase := after_cases r0 h1 calls
  clear k1 k2
  have k3 : ∀ (i : Nat) (l : Link), links[i]? = some l → linkTransform r l.name = .ok (poses r.links i) :=
    fun i l h => (k3 i l h).1
  have k4 : ∀ name, name ∉ links.map (·.name) → linkTransform r name = .throws .invalidArgument := fun n h => (k4 n h).1
  clear_value r
  have hn : r.links.map (·.name) = links.map (·.name) := g3.trans h3
  have hlen : r.links.length = links.length := by simpa using congrArg List.length hn
  constructor
  · intro name hname
    have : linkPointJacobian r name p = .throws .invalidArgument := by
      unfold linkPointJacobian
      rw [k4 name hname]
      rfl
    exact ⟨this, by unfold linkPointTranslationJacobian; rw [this]; rfl⟩
  · intro i l hl ⟨j, hj, hd, hkn⟩
    have hi : i < r.links.length := by rw [hlen]; exact (List.getElem?_eq_some_iff.1 hl).1
    have hname : r.links[i].name = l.name := by
      have := congrArg (·[i]?) hn
      simp only [List.getElem?_map, hl, List.getElem?_eq_getElem hi, Option.map_some, Option.some.injEq] at this
      exact this
    have hidx := linkIndex_spec r.links g1.names 0 i hi
    rw [Nat.zero_add, hname] at hidx
    have t := g1.tree
    have hdep := t.depth_lt (i := (i : Int)) (by omega) (by omega)
    obtain ⟨k, hk, rfl⟩ := List.getElem_of_mem hj
    have hloop := fun m => jacobianLoop_unknown g1 (apply (poses r.links i) p) (r.links.length + 1) i (by omega) (by omega)
      (by omega) m ⟨k, hk, hd, hkn⟩
    have : linkPointJacobian r l.name p = .throws .runtimeError := by
      unfold linkPointJacobian
      rw [k3 i l hl, Out.bind_ok, hidx]
      simp only
      rw [if_neg (by omega), if_neg, hloop]
      intro h0
      have hd' : Tree.Desc (edges r.joints) r.joints[k].child i := hd
      rw [h0] at hd'
      exact not_desc_root t hk hd'
    exact ⟨this, by unfold linkPointTranslationJacobian; rw [this]; rfl⟩

/-- The conditions are met by the arm, for all initial values: its hand is moved by the shoulder and by the slide. -/
example (a b : ℝ) : ∃ r0, make ⟨1, 0⟩ exampleLinks exampleJoints [some a, some b] [1, 1] = .ok r0 ∧
    (∀ j ∈ exampleJoints, IsRotationMatrix j.transform.rotation) ∧ UnitAxes exampleJoints ∧ Ordered exampleJoints ∧
    Placed (after r0 []).base (after r0 []).joints (poses (after r0 []).links) ∧
    IsRotationMatrix (after r0 []).base.rotation ∧ ∀ j ∈ exampleJoints, Known j ∧ Moves exampleJoints j 2 := by
  obtain ⟨h1, h2, h3, r, hm⟩ := example_robot a b
  have hp := (C98_poses_partial _ _ _ _ _ example_range example_valid h1 h2 r hm).1
  have hb : r.base = ⟨1, 0⟩ := ((make_cases example_range example_valid).1 r hm).2.2.2.1
  refine ⟨r, hm, ?_, h2, h1, by rw [show after r [] = r from rfl, hb]; exact hp, ?_, ?_⟩
  · intro j hj
    simp only [exampleJoints, List.mem_cons, List.not_mem_nil, or_false] at hj
    rcases hj with rfl | rfl <;> exact rotation_one
  · rw [show after r [] = r from rfl, hb]; exact rotation_one
  · intro j hj
    simp only [exampleJoints, List.mem_cons, List.not_mem_nil, or_false] at hj
    rcases hj with rfl | rfl
    · exact ⟨Or.inr (Or.inl rfl), .single (by simp [exampleJoints])⟩
    · exact ⟨Or.inr (Or.inr (Or.inr rfl)), .refl⟩

/-- The wrong column: with the slide at 0 the hand is at (1, 0, 0), and the position is added to the axis (1, 0, 0). -/
example : ∃ r0 J, make ⟨1, 0⟩ exampleLinks exampleJoints [some 0, some 0] [1, 1] = .ok r0 ∧
    linkPointJacobian r0 "hand" ![0, 0, 0, 1] = .ok J ∧ (J 1).trans ≠ ![1, 0, 0] := by
  obtain ⟨h1, h2, h3, r, hm⟩ := example_robot 0 0
  have hp := (C98_poses_partial _ _ _ _ _ example_range example_valid h1 h2 r hm).1
  obtain ⟨g1, g2, g3, g4, -, -, g7, g8, -⟩ := (make_cases example_range example_valid).1 r hm
  have hrot : ∀ j ∈ exampleJoints, IsRotationMatrix j.transform.rotation := by
    intro j hj
    simp only [exampleJoints, List.mem_cons, List.not_mem_nil, or_false] at hj
    rcases hj with rfl | rfl <;> exact rotation_one
  have hjs : r.joints = exampleJoints := by
    have hset := g8 [0, 0] rfl
    rw [g7] at hset
    generalize r.joints = js at g2 hset
    unfold exampleJoints at g2
    cases g2 with
    | cons e1 l =>
      cases l with
      | cons e2 l =>
        cases l
        next b1 b2 =>
        have t1 : b1.model.type = REVOLUTE := by rw [e1]
        have t2 : b2.model.type = PRISMATIC := by rw [e2]
        have ha : activeJoints [b1, b2] = [b1, b2] := by
          simp [activeJoints, t1, t2, REVOLUTE, PRISMATIC, FIXED]
        rw [ha] at hset
        simp only [List.map_cons, List.map_nil, List.forall₂_cons] at hset
        obtain ⟨s1, s2, -⟩ := hset
        have v1 : b1.model.value = 0 := by
          have := s1.2 (by rw [t1]; decide) 0 ⟨fun l hl => by rw [e1] at hl; simp at hl; linarith,
            fun u hu => by rw [e1] at hu; simp at hu; linarith⟩
          simpa using this
        have v2 : b2.model.value = 0 := by
          have := s2.2 (by rw [t2]; decide) 0 ⟨fun l hl => by rw [e2] at hl; simp at hl; linarith,
            fun u hu => by rw [e2] at hu; simp at hu; linarith⟩
          simpa using this
        rw [e1, e2, v1, v2]
        rfl
  have hlen : r.links.length = 3 := by
    have := congrArg List.length g3
    simpa [exampleLinks] using this
  have hname : (r.links[2]'(by omega)).name = "hand" := by
    have := congrArg (·[2]?) g3
    simp only [List.getElem?_map, List.getElem?_eq_getElem (show 2 < r.links.length by omega), Option.map_some] at this
    simpa [exampleLinks] using this
  have hkn : ∀ k (hk : k < r.joints.length), Known r.joints[k] := by
    intro k hk
    have hmem := List.getElem_mem hk
    generalize r.joints[k] = j at hmem
    rw [hjs] at hmem
    simp only [exampleJoints, List.mem_cons, List.not_mem_nil, or_false] at hmem
    rcases hmem with rfl | rfl
    · exact Or.inr (Or.inl rfl)
    · exact Or.inr (Or.inr (Or.inr rfl))
  obtain ⟨J, b1, -, b3, -⟩ := jacobian_eq g1 (show 2 < r.links.length by omega) ![0, 0, 0, 1] fun k hk _ => hkn k hk
  rw [hname] at b1
  refine ⟨r, J, hm, b1, ?_⟩
  have hj1 : r.joints[1]'(by rw [hjs]; decide) =
      ⟨⟨1, ![1, 0, 0]⟩, ![1, 0, 0], 1, 2, ⟨some 0, some 1, 0, PRISMATIC⟩, "slide"⟩ := by simp only [hjs]; rfl
  have hcol : col r.joints 1 = 1 := by
    rw [hjs]
    simp [col, activeJoints, exampleJoints, REVOLUTE, FIXED]
  have hJ := b3 1 (by rw [hjs]; decide) (by rw [hj1]; decide) (by rw [hj1]; exact .refl)
  rw [hcol, hj1] at hJ
  unfold column at hJ
  rw [if_neg (by rw [isRevolute_iff]; decide)] at hJ
  rw [hjs] at hp
  have p1 := fun v => hp.2 _ (List.mem_cons_self : _ ∈ exampleJoints) v
  have p2 := hp.2 _ (List.mem_cons_of_mem _ List.mem_cons_self : _ ∈ exampleJoints) ![1, 0, 0]
  simp only [p1] at p2
  rw [hp.1] at p2
  rw [hJ]
  intro h
  have h' := congrFun h 0
  have h2 : ((poses r.links 2).rotation *ᵥ ![1, 0, 0] + (poses r.links 2).translation) 0 = 1 := h'
  have h3 := congrFun p2 0
  unfold point at h3
  simp only at h3
  rw [h2] at h3
  simp [motion, turn, REVOLUTE, PRISMATIC, CONTINUOUS, cross_apply] at h3

end Verif.LinkedRobot
