import Verif.Model.FkFast
import Verif.Spec.FkFast
import Verif.Props.RandomEuler
import Mathlib.Tactic.NormNum

/-!
# C124: the links of the four robot arms
-/
namespace Verif.FkFast
open Verif Matrix Verif.Kinematics Verif.Pose

/-- `GetLinkTransforms` of the header of an arm, for a vector -/
noncomputable def Arm.getLinkTransforms : Arm → List ℝ → Transform → Out (List Transform)
  | .ur10 => Ur10.getLinkTransforms
  | .iiwa7 => Iiwa7.getLinkTransforms
  | .iiwa14 => Iiwa14.getLinkTransforms
  | .abb => Abb.getLinkTransforms

/-- `GetLinkTransforms` of the header of an arm, for a map -/
noncomputable def Arm.getLinkTransformsOfMap : Arm → (String → Option ℝ) → Transform → Out (List Transform)
  | .ur10 => Ur10.getLinkTransformsOfMap
  | .iiwa7 => Iiwa7.getLinkTransformsOfMap
  | .iiwa14 => Iiwa14.getLinkTransformsOfMap
  | .abb => Abb.getLinkTransformsOfMap

/-- `GetLinkTransformsMap` of the header of an arm, for a vector -/
noncomputable def Arm.getLinkTransformsMap : Arm → List ℝ → Transform → Out (String → Option Transform)
  | .ur10 => Ur10.getLinkTransformsMap
  | .iiwa7 => Iiwa7.getLinkTransformsMap
  | .iiwa14 => Iiwa14.getLinkTransformsMap
  | .abb => Abb.getLinkTransformsMap

/-- `GetLinkTransformsMap` of the header of an arm, for a map -/
noncomputable def Arm.getLinkTransformsMapOfMap :
    Arm → (String → Option ℝ) → Transform → Out (String → Option Transform)
  | .ur10 => Ur10.getLinkTransformsMapOfMap
  | .iiwa7 => Iiwa7.getLinkTransformsMapOfMap
  | .iiwa14 => Iiwa14.getLinkTransformsMapOfMap
  | .abb => Abb.getLinkTransformsMapOfMap

/-- The vector along an axis -/
def Axis.vector : Axis → Fin 3 → ℝ
  | .x => ![1, 0, 0]
  | .y => ![0, 1, 0]
  | .z => ![0, 0, 1]

theorem turn_matrix (ax : Axis) (v : ℝ) : toRotationMatrix (ofAngleAxis v ax.vector) = ax.turn v := by
  cases ax
  · exact matrix_x v
  · exact matrix_y v
  · exact matrix_z v

theorem turn_rotation (ax : Axis) (v : ℝ) : IsRotationMatrix (ax.turn v) := by
  cases ax
  · exact aboutX_rotation v
  · exact RandomRotation.aboutY_rotation v
  · exact RandomRotation.aboutZ_rotation v

theorem at_rotation (j : Joint) (v : ℝ) : IsRotationMatrix (j.at v).rotation :=
  rotation_mul (rotation_mul (rotation_mul (RandomRotation.aboutZ_rotation _) (RandomRotation.aboutY_rotation _))
    (aboutX_rotation _)) (turn_rotation _ _)

theorem linkJoint_rotation (t : Fin 3 → ℝ) (q : Quat) (ax : Axis) (v : ℝ) :
    linkJoint t q ax.vector v = ⟨toRotationMatrix q * ax.turn v, t⟩ := by
  have h0 : (![0, 0, 0] : Fin 3 → ℝ) = 0 := by ext i; fin_cases i <;> rfl
  simp [linkJoint, ofTranslationQuat, Transform.mul, turn_matrix, h0]

theorem linkJoint_at (t : Fin 3 → ℝ) (r p y : ℝ) (ax : Axis) (v : ℝ) :
    linkJoint t (quaternionFromUrdfRPY r p y) ax.vector v = (Joint.mk t ![r, p, y] ax).at v := by
  rw [linkJoint_rotation, (C91_rpy r p y).2.2.2]
  rfl

theorem linkJoint_identity (t : Fin 3 → ℝ) (ax : Axis) (v : ℝ) :
    linkJoint t ⟨1, 0, 0, 0⟩ ax.vector v = (Joint.mk t ![0, 0, 0] ax).at v := by
  rw [← linkJoint_at, linkJoint_rotation, linkJoint_rotation, (C91_rpy 0 0 0).2.2.2]
  congr 2
  simp only [toRotationMatrix, aboutX, aboutY, aboutZ]
  ext i j
  fin_cases i <;> fin_cases j <;> simp

theorem links_cons (base : Transform) (j : Joint) (v : ℝ) (js : List (Joint × ℝ)) :
    links base ((j, v) :: js) = base :: links (base.mul (j.at v)) js := rfl

theorem length_six {l : List ℝ} (h : l.length = 6) : ∃ a b c d e f, l = [a, b, c, d, e, f] := by
  match l, h with
  | [a, b, c, d, e, f], _ => exact ⟨a, b, c, d, e, f, rfl⟩

theorem length_seven {l : List ℝ} (h : l.length = 7) : ∃ a b c d e f g, l = [a, b, c, d, e, f, g] := by
  match l, h with
  | [a, b, c, d, e, f, g], _ => exact ⟨a, b, c, d, e, f, g, rfl⟩

/-- C124: on a configuration with one value for every joint, the result holds the frames of the links of the robot
description, from the base on. On a configuration of any other length the assertion stops the program. -/
theorem C124_links (a : Arm) (ha : a ≠ .abb) (configuration : List ℝ) (base : Transform) :
    a.getLinkTransforms configuration base =
      if configuration.length = a.joints.length then .ok (links base (a.joints.zip configuration)) else .abort := by
  split
  · rename_i h
    cases a
    case abb => exact absurd rfl ha
    case ur10 =>
      obtain ⟨c0, c1, c2, c3, c4, c5, rfl⟩ := length_six h
      show Out.ok _ = _
      simp only [Ur10.joint1, Ur10.joint2, Ur10.joint3, Ur10.joint4, Ur10.joint5, Ur10.joint6,
        show (![0, 1, 0] : Fin 3 → ℝ) = Axis.y.vector from rfl,
        show (![0, 0, 1] : Fin 3 → ℝ) = Axis.z.vector from rfl, linkJoint_at]
      rfl
    case iiwa7 =>
      obtain ⟨c0, c1, c2, c3, c4, c5, c6, rfl⟩ := length_seven h
      show Out.ok _ = _
      simp only [Iiwa7.joint1, Iiwa7.joint2, Iiwa7.joint3, Iiwa7.joint4, Iiwa7.joint5, Iiwa7.joint6, Iiwa7.joint7,
        show (![0, 0, 1] : Fin 3 → ℝ) = Axis.z.vector from rfl, linkJoint_at]
      rfl
    case iiwa14 =>
      obtain ⟨c0, c1, c2, c3, c4, c5, c6, rfl⟩ := length_seven h
      show Out.ok _ = _
      simp only [Iiwa14.joint1, Iiwa14.joint2, Iiwa14.joint3, Iiwa14.joint4, Iiwa14.joint5, Iiwa14.joint6,
        Iiwa14.joint7, show (![0, 0, 1] : Fin 3 → ℝ) = Axis.z.vector from rfl, linkJoint_at]
      rfl
  · rename_i h
    cases a
    case abb => exact absurd rfl ha
    all_goals
      simp only [Arm.getLinkTransforms, Ur10.getLinkTransforms, Iiwa7.getLinkTransforms, Iiwa14.getLinkTransforms]
      split
      · exact absurd rfl h
      · rfl

example : (Arm.ur10.getLinkTransforms [0, 0, 0, 0, 0, 0] ⟨1, 0⟩) =
    .ok (links ⟨1, 0⟩ (ur10Joints.zip [0, 0, 0, 0, 0, 0])) := by
  exact (C124_links _ (by simp) _ _).trans (if_pos rfl)

/-- C124, the ABB IRB 1600: the first seven frames are those of the robot description. The eighth, of the tool, is
0.065 along the x axis of the seventh; its rotation is that of the seventh times a matrix whose every entry is within
3/10^16 of that of a quarter turn about y. -/
theorem C124_abb_partial (configuration : List ℝ) (base : Transform) :
    (configuration.length = 6 → ∃ (wrist : Transform) (turn : Mat3),
      (links base (abbJoints.zip configuration)).getLast? = some wrist ∧
      Abb.getLinkTransforms configuration base = .ok (links base (abbJoints.zip configuration) ++
        [⟨wrist.rotation * turn, wrist.rotation *ᵥ ![0.065, 0, 0] + wrist.translation⟩]) ∧
      ∀ i j, |turn i j - aboutY (Real.pi / 2) i j| < 3 / 10 ^ 16) ∧
    (configuration.length ≠ 6 → Abb.getLinkTransforms configuration base = .abort) := by
  constructor
  · intro h
    obtain ⟨c0, c1, c2, c3, c4, c5, rfl⟩ := length_six h
    refine ⟨((((((base.mul (Abb.joint1 c0)).mul (Abb.joint2 c1)).mul (Abb.joint3 c2)).mul (Abb.joint4 c3)).mul
      (Abb.joint5 c4)).mul (Abb.joint6 c5)), toRotationMatrix ⟨0.7071067811865476, 0, 0.7071067811865476, 0⟩,
      ?_, ?_, ?_⟩
    · simp only [Abb.joint1, Abb.joint2, Abb.joint3, Abb.joint4, Abb.joint5, Abb.joint6,
        show (![1, 0, 0] : Fin 3 → ℝ) = Axis.x.vector from rfl, show (![0, 1, 0] : Fin 3 → ℝ) = Axis.y.vector from rfl,
        show (![0, 0, 1] : Fin 3 → ℝ) = Axis.z.vector from rfl, linkJoint_identity]
      rfl
    · show Out.ok _ = _
      simp only [Abb.joint1, Abb.joint2, Abb.joint3, Abb.joint4, Abb.joint5, Abb.joint6,
        show (![1, 0, 0] : Fin 3 → ℝ) = Axis.x.vector from rfl, show (![0, 1, 0] : Fin 3 → ℝ) = Axis.y.vector from rfl,
        show (![0, 0, 1] : Fin 3 → ℝ) = Axis.z.vector from rfl, linkJoint_identity]
      rfl
    · intro i j
      rw [abs_lt]
      fin_cases i <;> fin_cases j <;> norm_num [toRotationMatrix, aboutY]
  · intro h
    simp only [Abb.getLinkTransforms]
    split
    · exact absurd rfl h
    · rfl

example : ([0, 0, 0, 0, 0, 0] : List ℝ).length = 6 := rfl

/-- C124 is false of the tool of the ABB arm: the rotation its header gives is not a rotation matrix. -/
theorem C124_abb_tool_not_rotation : ¬ IsRotationMatrix Abb.tool.rotation := by
  rintro ⟨h, -⟩
  have := congrFun (congrFun h 0) 0
  rw [Matrix.mul_apply, Fin.sum_univ_three] at this
  change (1 - ((2 * 0.7071067811865476) * 0.7071067811865476 + (2 * 0) * 0) : ℝ) *
      (1 - ((2 * 0.7071067811865476) * 0.7071067811865476 + (2 * 0) * 0)) + _ * _ + _ * _ = 1 at this
  simp only [Matrix.transpose_apply, Abb.tool, ofTranslationQuat, toRotationMatrix, Matrix.of_apply, Matrix.cons_val] at this
  norm_num at this

theorem links_rotation : ∀ (js : List (Joint × ℝ)) (base : Transform), IsRotationMatrix base.rotation →
    ∀ T ∈ links base js, IsRotationMatrix T.rotation
  | [], base, hb, T, hT => by
    rw [links, List.mem_singleton] at hT; exact hT ▸ hb
  | (j, v) :: js, base, hb, T, hT => by
    rw [links_cons, List.mem_cons] at hT
    rcases hT with rfl | hT
    · exact hb
    · exact links_rotation js _ (rotation_mul hb (at_rotation j v)) T hT

theorem getLinkTransforms_links {a : Arm} {configuration : List ℝ} {base : Transform} {L : List Transform}
    (h : a.getLinkTransforms configuration base = .ok L) :
    configuration.length = a.joints.length ∧
    L.take (a.joints.length + 1) = links base (a.joints.zip configuration) := by
  have hl : ∀ (js : List (Joint × ℝ)) (b : Transform), (links b js).length = js.length + 1 := by
    intro js
    induction js with
    | nil => intro b; rfl
    | cons x js ih => intro b; obtain ⟨j, v⟩ := x; rw [links_cons, List.length_cons, ih, List.length_cons]
  by_cases hc : configuration.length = a.joints.length
  · refine ⟨hc, ?_⟩
    have hlen : (links base (a.joints.zip configuration)).length = a.joints.length + 1 := by
      rw [hl, List.length_zip, hc, Nat.min_self]
    by_cases ha : a = .abb
    · subst ha
      obtain ⟨w, t, -, h2, -⟩ := (C124_abb_partial configuration base).1 hc
      rw [Arm.getLinkTransforms, h2] at h
      cases h
      rw [← hlen]
      exact List.take_left
    · rw [C124_links a ha, if_pos hc] at h
      cases h
      rw [← hlen, List.take_length]
  · exfalso
    by_cases ha : a = .abb
    · subst ha
      rw [Arm.getLinkTransforms, (C124_abb_partial configuration base).2 hc] at h
      cases h
    · rw [C124_links a ha, if_neg hc] at h
      cases h

/-- C124: when the base has a rotation matrix, so have all links up to the last joint. -/
theorem C124_rigid {a : Arm} {configuration : List ℝ} {base : Transform} {L : List Transform}
    (hb : IsRotationMatrix base.rotation) (h : a.getLinkTransforms configuration base = .ok L) :
    ∀ T ∈ L.take (a.joints.length + 1), IsRotationMatrix T.rotation := by
  rw [(getLinkTransforms_links h).2]
  exact links_rotation _ _ hb

example : IsRotationMatrix (⟨aboutZ 1, ![1, 2, 3]⟩ : Transform).rotation := RandomRotation.aboutZ_rotation 1

theorem length_rotation {R : Mat3} (hR : IsRotationMatrix R) (v : Fin 3 → ℝ) : length (R *ᵥ v) = length v := by
  unfold length
  congr 1
  have h : ∀ w : Fin 3 → ℝ, w 0 ^ 2 + w 1 ^ 2 + w 2 ^ 2 = w ⬝ᵥ w := by
    intro w; simp [dotProduct, Fin.sum_univ_three]; ring
  rw [h, h, Matrix.dotProduct_mulVec, Matrix.vecMul_mulVec, hR.1, Matrix.vecMul_one]

theorem links_step : ∀ (js : List (Joint × ℝ)) (base : Transform), IsRotationMatrix base.rotation →
    ∀ (i : Nat) (S T : Transform) (x : Joint × ℝ), (links base js)[i]? = some S → (links base js)[i + 1]? = some T →
      js[i]? = some x → T.translation - S.translation = S.rotation *ᵥ x.1.place
  | [], base, hb, i, S, T, x, _, _, hx => by simp at hx
  | (j, v) :: js, base, hb, 0, S, T, x, hS, hT, hx => by
    rw [links_cons] at hS hT
    have hh : (links (base.mul (j.at v)) js)[0]? = some (base.mul (j.at v)) := by
      cases js with
      | nil => rfl
      | cons y js => rfl
    simp only [List.getElem?_cons_zero, List.getElem?_cons_succ, Option.some.injEq] at hS hT hx
    rw [hh, Option.some.injEq] at hT
    subst hS hT hx
    simp [Transform.mul, Joint.at]
  | (j, v) :: js, base, hb, i + 1, S, T, x, hS, hT, hx => by
    rw [links_cons] at hS hT
    simp only [List.getElem?_cons_succ] at hS hT hx
    exact links_step js _ (rotation_mul hb (at_rotation j v)) i S T x hS hT hx

/-- C124: for every configuration, the distance between the origins of two links on both sides of a joint is the
length the robot description gives. -/
theorem C124_distance {a : Arm} {configuration : List ℝ} {base : Transform} {L : List Transform}
    (hb : IsRotationMatrix base.rotation) (h : a.getLinkTransforms configuration base = .ok L)
    {i : Nat} {j : Joint} (hj : a.joints[i]? = some j) :
    ∃ S T, L[i]? = some S ∧ L[i + 1]? = some T ∧ T.translation = S.rotation *ᵥ j.place + S.translation ∧
      length (T.translation - S.translation) = length j.place := by
  obtain ⟨hc, hL⟩ := getLinkTransforms_links h
  have hi : i < a.joints.length := (List.getElem?_eq_some_iff.mp hj).1
  have hl : a.joints.length + 1 ≤ L.length := by
    by_contra hlt
    have : (links base (a.joints.zip configuration)).length ≤ L.length := by
      rw [← hL, List.length_take]; omega
    have hlk : ∀ (js : List (Joint × ℝ)) (b : Transform), (links b js).length = js.length + 1 := by
      intro js
      induction js with
      | nil => intro b; rfl
      | cons x js ih => intro b; obtain ⟨j, v⟩ := x; rw [links_cons, List.length_cons, ih, List.length_cons]
    rw [hlk, List.length_zip, hc, Nat.min_self] at this
    omega
  have hS : L[i]? = some (L[i]'(by omega)) := List.getElem?_eq_getElem _
  have hT : L[i + 1]? = some (L[i + 1]'(by omega)) := List.getElem?_eq_getElem _
  have hS' : (links base (a.joints.zip configuration))[i]? = some (L[i]'(by omega)) := by
    rw [← hL, List.getElem?_take_of_lt (by omega)]; exact hS
  have hT' : (links base (a.joints.zip configuration))[i + 1]? = some (L[i + 1]'(by omega)) := by
    rw [← hL, List.getElem?_take_of_lt (by omega)]; exact hT
  have hx : (a.joints.zip configuration)[i]? = some (j, configuration[i]'(by omega)) := by
    rw [List.getElem?_zip_eq_some]
    exact ⟨hj, List.getElem?_eq_getElem _⟩
  have hs := links_step _ base hb i _ _ _ hS' hT' hx
  refine ⟨_, _, hS, hT, ?_, ?_⟩
  · rw [← hs, sub_add_cancel]
  · rw [hs]
    exact length_rotation (links_rotation _ _ hb _ (List.mem_of_getElem? hS')) _

example : length (ur10Joints.getD 3 ⟨0, 0, .x⟩).place = 0.5723 := by
  change √((0 : ℝ) ^ 2 + 0 ^ 2 + 0.5723 ^ 2) = 0.5723
  rw [show (0 : ℝ) ^ 2 + 0 ^ 2 + 0.5723 ^ 2 = 0.5723 ^ 2 by norm_num]
  exact Real.sqrt_sq (by norm_num)

/-- C124: a link depends only on the base and on the joints before it. -/
theorem C124_prefix {a : Arm} {c c' : List ℝ} {base : Transform} {L L' : List Transform}
    (h : a.getLinkTransforms c base = .ok L) (h' : a.getLinkTransforms c' base = .ok L')
    {i : Nat} (hi : i ≤ a.joints.length) (hcc : c.take i = c'.take i) : L[i]? = L'[i]? := by
  have key : ∀ (n : Nat) (js : List Joint) (c c' : List ℝ) (b : Transform), c.length = js.length →
      c'.length = js.length → c.take n = c'.take n → (links b (js.zip c))[n]? = (links b (js.zip c'))[n]? := by
    intro n
    induction n with
    | zero =>
      intro js c c' b _ _ _
      have hh : ∀ (l : List (Joint × ℝ)), (links b l)[0]? = some b := by
        intro l; cases l with
        | nil => rfl
        | cons y l => rfl
      rw [hh, hh]
    | succ n ih =>
      intro js c c' b h1 h2 h3
      match js, c, c' with
      | [], [], [] => rfl
      | j :: js, v :: c, v' :: c' =>
        simp only [List.take_succ_cons, List.cons.injEq] at h3
        obtain ⟨rfl, h3⟩ := h3
        simp only [List.zip_cons_cons, links_cons, List.getElem?_cons_succ]
        exact ih js c c' _ (by simpa using h1) (by simpa using h2) h3
      | [], _ :: _, _ => simp at h1
      | [], [], _ :: _ => simp at h2
      | _ :: _, [], _ => simp at h1
      | _ :: _, _ :: _, [] => simp at h2
  obtain ⟨hc, hL⟩ := getLinkTransforms_links h
  obtain ⟨hc', hL'⟩ := getLinkTransforms_links h'
  have := key i a.joints c c' base hc hc' hcc
  rwa [← hL, ← hL', List.getElem?_take_of_lt (by omega), List.getElem?_take_of_lt (by omega)] at this

example : ([1, 2, 3, 4, 5, 6] : List ℝ).take 3 = [1, 2, 3, 0, 0, 0].take 3 := rfl

/-- C124: a configuration given as a map has the values its joint names have there; a joint that is not in the map
has value zero, and names that are not joints of the arm are of no effect. -/
theorem C124_joint_names (a : Arm) (configuration : String → Option ℝ) (base : Transform) :
    a.getLinkTransformsOfMap configuration base =
      a.getLinkTransforms (a.jointNames.map fun n => (configuration n).getD 0) base := by
  cases a <;> rfl

example : Arm.abb.jointNames.length = Arm.abb.joints.length := rfl

theorem assignAll_spec : ∀ (es : List (String × Transform)), (es.map Prod.fst).Nodup →
    (∀ e ∈ es, assignAll es e.1 = some e.2) ∧ ∀ n ∉ es.map Prod.fst, assignAll es n = none := by
  have gen : ∀ (es : List (String × Transform)) (m : String → Option Transform), (es.map Prod.fst).Nodup →
      (∀ e ∈ es, es.foldl (fun m e n => if n = e.1 then some e.2 else m n) m e.1 = some e.2) ∧
      ∀ n ∉ es.map Prod.fst, es.foldl (fun m e n => if n = e.1 then some e.2 else m n) m n = m n := by
    intro es
    induction es with
    | nil => intro m _; exact ⟨by simp, by simp⟩
    | cons e es ih =>
      intro m hnd
      rw [List.map_cons, List.nodup_cons] at hnd
      obtain ⟨h1, h2⟩ := ih (fun n => if n = e.1 then some e.2 else m n) hnd.2
      refine ⟨?_, ?_⟩
      · intro f hf
        rw [List.foldl_cons]
        rcases List.mem_cons.mp hf with rfl | hf
        · rw [h2 _ hnd.1, if_pos rfl]
        · exact h1 f hf
      · intro n hn
        rw [List.map_cons, List.mem_cons, not_or] at hn
        rw [List.foldl_cons, h2 n hn.2, if_neg hn.1]
  intro es h
  exact gen es _ h

theorem links_map {a : Arm} {L : List Transform} (hl : L.length = a.linkNames.length) :
    (∀ (i : Nat) (n : String), a.linkNames[i]? = some n → assignAll (a.linkNames.zip L) n = L[i]?) ∧
    ∀ n ∉ a.linkNames, assignAll (a.linkNames.zip L) n = none := by
  have hnd : a.linkNames.Nodup := by cases a <;> decide +kernel
  have hm : (a.linkNames.zip L).map Prod.fst = a.linkNames := List.map_fst_zip (by omega)
  obtain ⟨h1, h2⟩ := assignAll_spec (a.linkNames.zip L) (by rw [hm]; exact hnd)
  refine ⟨?_, ?_⟩
  · intro i n hn
    have hi : i < L.length := by rw [hl]; exact (List.getElem?_eq_some_iff.mp hn).1
    have hz : (a.linkNames.zip L)[i]? = some (n, L[i]) := by
      rw [List.getElem?_zip_eq_some]; exact ⟨hn, List.getElem?_eq_getElem _⟩
    rw [List.getElem?_eq_getElem hi]
    exact h1 (n, L[i]) (List.mem_of_getElem? hz)
  · intro n hn
    exact h2 n (by rw [hm]; exact hn)

theorem getLinkTransforms_length {a : Arm} {configuration : List ℝ} {base : Transform} {L : List Transform}
    (h : a.getLinkTransforms configuration base = .ok L) : L.length = a.linkNames.length := by
  cases a <;>
    simp only [Arm.getLinkTransforms, Ur10.getLinkTransforms, Iiwa7.getLinkTransforms, Iiwa14.getLinkTransforms,
      Abb.getLinkTransforms] at h <;> split at h <;> cases h <;> rfl

/-- C124: the map of the links has the transform of every link under its name and nothing else, for a configuration
given as a vector or as a map. It stops the program just when the vector of the links does. -/
theorem C124_link_names (a : Arm) (configuration : List ℝ) (values : String → Option ℝ) (base : Transform) :
    (∀ L, a.getLinkTransforms configuration base = .ok L → ∃ m, a.getLinkTransformsMap configuration base = .ok m ∧
      (∀ (i : Nat) (n : String), a.linkNames[i]? = some n → m n = L[i]?) ∧ ∀ n ∉ a.linkNames, m n = none) ∧
    (a.getLinkTransforms configuration base = .abort → a.getLinkTransformsMap configuration base = .abort) ∧
    ∃ L m, a.getLinkTransformsOfMap values base = .ok L ∧ a.getLinkTransformsMapOfMap values base = .ok m ∧
      L.length = a.linkNames.length ∧
      (∀ (i : Nat) (n : String), a.linkNames[i]? = some n → m n = L[i]?) ∧ ∀ n ∉ a.linkNames, m n = none := by
  refine ⟨?_, ?_, ?_⟩
  · intro L h
    refine ⟨assignAll (a.linkNames.zip L), ?_, links_map (getLinkTransforms_length h)⟩
    cases a <;>
      simp only [Arm.getLinkTransforms] at h <;>
      simp only [Arm.getLinkTransformsMap, Ur10.getLinkTransformsMap, Iiwa7.getLinkTransformsMap,
        Iiwa14.getLinkTransformsMap, Abb.getLinkTransformsMap, h, Out.bind_ok] <;> rfl
  · intro h
    cases a <;>
      simp only [Arm.getLinkTransforms] at h <;>
      simp only [Arm.getLinkTransformsMap, Ur10.getLinkTransformsMap, Iiwa7.getLinkTransformsMap,
        Iiwa14.getLinkTransformsMap, Abb.getLinkTransformsMap, h, Out.bind_abort]
  · have : ∃ L, a.getLinkTransformsOfMap values base = .ok L := by
      rw [C124_joint_names]
      cases a <;> exact ⟨_, rfl⟩
    obtain ⟨L, h⟩ := this
    have hlen : L.length = a.linkNames.length := by
      rw [C124_joint_names] at h; exact getLinkTransforms_length h
    refine ⟨L, assignAll (a.linkNames.zip L), h, ?_, hlen, links_map hlen⟩
    cases a <;>
      simp only [Arm.getLinkTransformsOfMap] at h <;>
      simp only [Arm.getLinkTransformsMapOfMap, Ur10.getLinkTransformsMapOfMap, Iiwa7.getLinkTransformsMapOfMap,
        Iiwa14.getLinkTransformsMapOfMap, Abb.getLinkTransformsMapOfMap, h, Out.bind_ok] <;> rfl

example : Arm.ur10.linkNames[3]? = some "forearm_link" := rfl

end Verif.FkFast
