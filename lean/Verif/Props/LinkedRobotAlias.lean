import Verif.Model.LinkedRobotAlias
import Verif.Props.LinkedRobot
import Verif.Props.Angles

/-!
# Giving a robot its own position (C206)
-/
namespace Verif.LinkedRobotAlias
open Verif Verif.LinkedRobot Verif.Kinematics Verif.Pose

/-- The calls that change a robot; the argument of `SetPosition` may be the position of the robot itself. -/
inductive Call
  | position (s : Source)
  | base (T : Transform)

/-- The robot after a call, whether it succeeds or fails -/
noncomputable def Call.run : Call → Robot → Robot
  | .position s => fun r => (setPosition s r).2
  | .base T => fun r => (updateBaseTransform T r).2

/-- The robot after some calls, whether they succeed or fail -/
noncomputable def after (r : Robot) (calls : List Call) : Robot := calls.foldl (fun r c => c.run r) r

theorem setLoop_separate (values : List (Option ℝ)) (js : List RobotJoint) (i : Nat) (config : List Joint) :
    setLoop (.separate values) js i config =
      ((LinkedRobot.setLoop js (values.drop i)).1, (LinkedRobot.setLoop js (values.drop i)).2.1,
        config ++ (LinkedRobot.setLoop js (values.drop i)).2.2) := by
  induction js generalizing i config with
  | nil => simp [setLoop, LinkedRobot.setLoop]
  | cons j js ih =>
    unfold setLoop LinkedRobot.setLoop
    by_cases hf : j.model.isFixed = true
    · rw [if_pos hf, if_pos hf]
      simp only [ih]
    · rw [if_neg hf, if_neg hf]
      simp only [Source.read]
      by_cases hi : i < values.length
      · rw [List.getElem?_eq_getElem hi, List.drop_eq_getElem_cons hi]
        simp only
        cases hs : j.model.setValue values[i] with
        | ok m => simp only [ih, List.append_assoc, List.singleton_append]
        | throws e => simp
        | abort => simp
        | ub => simp
      · rw [List.getElem?_eq_none (by omega), List.drop_eq_nil_of_le (by omega)]
        simp

theorem setLoop_own_none (js : List RobotJoint) (h : activeJoints js = []) :
    setLoop .own js 0 [] = (.ok (), js, []) := by
  induction js with
  | nil => rfl
  | cons j js ih =>
    unfold setLoop
    by_cases hf : j.model.isFixed = true
    · rw [activeJoints_fixed _ hf] at h
      rw [if_pos hf, ih h]
    · rw [activeJoints_active _ hf] at h
      simp at h

theorem setLoop_own_some (js : List RobotJoint) (h : activeJoints js ≠ []) :
    setLoop .own js 0 [] = (.throws .runtimeError, js, []) := by
  induction js with
  | nil => simp [activeJoints] at h
  | cons j js ih =>
    unfold setLoop
    by_cases hf : j.model.isFixed = true
    · rw [activeJoints_fixed _ hf] at h
      rw [if_pos hf, ih h]
    · rw [if_neg hf]
      simp [Source.read]

/-- C206: with a configuration of the caller `SetPosition` does what C98 and C99 say. -/
theorem C206_separate (values : List (Option ℝ)) (r : Robot) :
    setPosition (.separate values) r = LinkedRobot.setPosition values r := by
  unfold setPosition LinkedRobot.setPosition
  simp only [Source.read, setLoop_separate, List.drop_zero, List.nil_append]
  by_cases hl : values.length = r.numActive
  · rw [if_pos hl, if_pos hl]
    cases (LinkedRobot.setLoop r.joints values).1 with
    | ok _ =>
      simp only
      cases updateTransforms r.base (LinkedRobot.setLoop r.joints values).2.1 r.links <;> rfl
    | throws e => rfl
    | abort => rfl
    | ub => rfl
  · rw [if_neg hl, if_neg hl]

theorem own_cases (r : Robot) (h : Built r) :
    (r.config.length ≠ (activeJoints r.joints).length → setPosition .own r = (.throws .invalidArgument, r)) ∧
    (r.config.length = (activeJoints r.joints).length → activeJoints r.joints ≠ [] →
      setPosition .own r = (.throws .runtimeError, { r with config := [] })) ∧
    (r.config.length = (activeJoints r.joints).length → activeJoints r.joints = [] →
      ∃ links, updateTransforms r.base r.joints r.links = .ok links ∧
        links.map (·.name) = r.links.map (·.name) ∧
        setPosition .own r = (.ok [], { r with config := [], links := links })) := by
  refine ⟨fun hl => ?_, fun hl ha => ?_, fun hl ha => ?_⟩
  · unfold setPosition
    rw [if_neg (by rw [h.count]; simpa [Source.read] using hl)]
  · unfold setPosition
    rw [if_pos (by rw [h.count]; simpa [Source.read] using hl), setLoop_own_some _ ha]
  · obtain ⟨links', l1, l2, -⟩ :=
      updateTransforms_ok (base := r.base) (joints := r.joints) (links := r.links) h.tree.pos h.range
    refine ⟨links', l1, l2, ?_⟩
    unfold setPosition
    rw [if_pos (by rw [h.count]; simpa [Source.read] using hl), setLoop_own_none _ ha]
    simp only
    rw [l1]

theorem same_trans {a b c : List RobotJoint} (hab : List.Forall₂ Same a b) (hbc : List.Forall₂ Same b c) :
    List.Forall₂ Same a c := by
  induction hab generalizing c with
  | nil => exact hbc
  | cons h _ ih =>
    cases hbc with
    | cons h1 h2 => exact .cons (h.trans h1) (ih h2)

theorem same_active {js js' : List RobotJoint} (h : List.Forall₂ Same js js') :
    List.Forall₂ Same (activeJoints js) (activeJoints js') := by
  induction h with
  | nil => exact .nil
  | @cons a b l1 l2 h _ ih =>
    have hf : b.model.isFixed = a.model.isFixed := by rw [h]; rfl
    by_cases c : a.model.isFixed = true
    · rw [activeJoints_fixed _ c, activeJoints_fixed _ (hf.trans c)]; exact ih
    · rw [activeJoints_active _ c, activeJoints_active _ (by rw [hf]; exact c)]; exact .cons h ih

theorem same_refl (l : List RobotJoint) : List.Forall₂ Same l l := List.forall₂_same.2 fun a _ => Same.refl a

theorem split_values (values : List (Option ℝ)) :
    (∃ vs : List ℝ, values = vs.map some) ∨
    ∃ (before : List ℝ) (rest : List (Option ℝ)), values = before.map some ++ none :: rest := by
  induction values with
  | nil => exact Or.inl ⟨[], rfl⟩
  | cons v vs ih =>
    cases v with
    | none => exact Or.inr ⟨[], vs, rfl⟩
    | some x =>
      rcases ih with ⟨ws, h⟩ | ⟨b, a, h⟩
      · exact Or.inl ⟨x :: ws, by rw [h]; rfl⟩
      · exact Or.inr ⟨x :: b, a, by rw [h]; rfl⟩

/-- The position is that of the first joints that move. -/
def Begins (r : Robot) : Prop := r.config <+: (activeJoints r.joints).map (·.model)

theorem run_begins (r : Robot) (h : Built r) (hp : Begins r) (c : Call) : Begins (c.run r) := by
  cases c with
  | position s =>
    cases s with
    | separate values =>
      simp only [Call.run, C206_separate]
      obtain ⟨-, -, -, -, -, h6, h7, h8⟩ := setPosition_cases r h values
      by_cases hl : values.length = (activeJoints r.joints).length
      · rcases split_values values with ⟨vs, hvs⟩ | ⟨before, rest, hvs⟩
        · unfold Begins
          rw [(h8 vs hvs (by rw [← hl, hvs]; simp)).2.1]
        · unfold Begins
          rw [((h7 hl ⟨none, by rw [hvs]; simp, rfl⟩).2.2 before rest hvs).1]
          exact List.take_prefix _ _
      · rw [h6 hl]; exact hp
    | own =>
      obtain ⟨h1, h2, h3⟩ := own_cases r h
      simp only [Call.run]
      by_cases hl : r.config.length = (activeJoints r.joints).length
      · by_cases ha : activeJoints r.joints = []
        · obtain ⟨links, -, -, he⟩ := h3 hl ha
          rw [he]
          exact List.nil_prefix
        · rw [h2 hl ha]
          exact List.nil_prefix
      · rw [h1 hl]; exact hp
  | base T =>
    simp only [Call.run, Begins]
    have := updateBase_cases r h T
    rw [this.2.2.1, this.2.2.2.1]; exact hp

theorem run_built (r : Robot) (h : Built r) (c : Call) :
    Built (c.run r) ∧ List.Forall₂ Same r.joints (c.run r).joints := by
  cases c with
  | position s =>
    cases s with
    | separate values =>
      simp only [Call.run, C206_separate]
      have := setPosition_cases r h values
      exact ⟨this.1, this.2.1⟩
    | own =>
      obtain ⟨h1, h2, h3⟩ := own_cases r h
      simp only [Call.run]
      by_cases hl : r.config.length = (activeJoints r.joints).length
      · by_cases ha : activeJoints r.joints = []
        · obtain ⟨links, -, hn, he⟩ := h3 hl ha
          rw [he]
          exact ⟨h.change (same_refl _) h.valid hn rfl rfl rfl rfl, same_refl _⟩
        · rw [h2 hl ha]
          exact ⟨h.change (same_refl _) h.valid rfl rfl rfl rfl rfl, same_refl _⟩
      · rw [h1 hl]
        exact ⟨h, same_refl _⟩
  | base T =>
    simp only [Call.run]
    have := updateBase_cases r h T
    exact ⟨this.1, by rw [this.2.2.1]; exact same_refl _⟩

theorem after_built (r : Robot) (h : Built r) (calls : List Call) :
    Built (after r calls) ∧ List.Forall₂ Same r.joints (after r calls).joints := by
  induction calls generalizing r with
  | nil => exact ⟨h, same_refl _⟩
  | cons c cs ih =>
    obtain ⟨h1, h2⟩ := run_built r h c
    obtain ⟨g1, g2⟩ := ih _ h1
    exact ⟨g1, same_trans h2 g2⟩

theorem after_begins (r : Robot) (h : Built r) (hp : Begins r) (calls : List Call) : Begins (after r calls) := by
  induction calls generalizing r with
  | nil => exact hp
  | cons c cs ih => exact ih _ (run_built r h c).1 (run_begins r h hp c)

theorem made {base : Transform} {links : List Link} {joints : List RobotJoint} {initial : List (Option ℝ)}
    {weights : List ℝ} (hr : ∀ j ∈ joints, InRange links.length j) (hv : ∀ j ∈ joints, Valid j.model)
    {r0 : Robot} (hm : make base links joints initial weights = .ok r0) (calls : List Call) :
    Built (after r0 calls) ∧ List.Forall₂ Same joints (after r0 calls).joints ∧
    (activeJoints (after r0 calls).joints).length = (activeJoints joints).length := by
  obtain ⟨h1, h2, -⟩ := (make_cases hr hv).1 r0 hm
  obtain ⟨g1, g2⟩ := after_built r0 h1 calls
  have hs := same_trans h2 g2
  exact ⟨g1, hs, (same_active hs).length_eq.symm⟩

/-- C206: whatever was called, the position that `GetPosition` returns has the joints that move as they are now, in
order, but after a call that failed maybe only the first of them. -/
theorem C206_position (base : Transform) (links : List Link) (joints : List RobotJoint) (initial : List (Option ℝ))
    (weights : List ℝ) (hr : ∀ j ∈ joints, InRange links.length j) (hv : ∀ j ∈ joints, Valid j.model)
    (r0 : Robot) (hm : make base links joints initial weights = .ok r0) (calls : List Call) :
    (after r0 calls).config <+: (activeJoints (after r0 calls).joints).map (·.model) := by
  obtain ⟨h1, -, -, -, -, -, h7, -⟩ := (make_cases hr hv).1 r0 hm
  exact after_begins r0 h1 (by unfold Begins; rw [h7]) calls

/-- C206: `SetPosition` with the position of the robot itself, as `GetPosition` returns it, never succeeds for a robot
with a joint that moves. If the position is complete, it throws, and the position of the robot is empty from then on; joints,
poses and base stay as they are. If it is not complete it throws and nothing changes. For a robot without joints that move
it succeeds, and computes the poses of the links again. -/
theorem C206_own (base : Transform) (links : List Link) (joints : List RobotJoint) (initial : List (Option ℝ))
    (weights : List ℝ) (hr : ∀ j ∈ joints, InRange links.length j) (hv : ∀ j ∈ joints, Valid j.model)
    (r0 : Robot) (hm : make base links joints initial weights = .ok r0) (calls : List Call) :
    let r := after r0 calls
    let moving := (activeJoints joints).length
    (0 < moving → r.config.length = moving →
      setPosition .own r = (.throws .runtimeError, { r with config := [] })) ∧
    (r.config.length ≠ moving → setPosition .own r = (.throws .invalidArgument, r)) ∧
    (moving = 0 → ∃ links', updateTransforms r.base r.joints r.links = .ok links' ∧
      setPosition .own r = (.ok [], { r with config := [], links := links' })) := by
  intro r moving
  obtain ⟨hb, -, hc⟩ := made hr hv hm calls
  have hp := (C206_position base links joints initial weights hr hv r0 hm calls).length_le
  obtain ⟨h1, h2, h3⟩ := own_cases _ hb
  refine ⟨fun hp hl => h2 (hl.trans hc.symm) ?_, fun hl => h1 (by rw [hc]; exact hl), fun hz => ?_⟩
  · intro hn
    rw [hn] at hc
    have : (0 : Nat) = moving := hc
    omega
  · have hn : activeJoints r.joints = [] := List.length_eq_zero_iff.1 (hc.trans hz)
    rw [List.length_map, hc] at hp
    obtain ⟨links', e1, -, e2⟩ := h3 (by rw [hc]; omega) hn
    exact ⟨links', e1, e2⟩

/-- C206: after such a call `SetPosition` with the position of the robot keeps throwing, and a configuration of the caller
with a finite value for each joint that moves does just what it would have done without the call. -/
theorem C206_recovers (base : Transform) (links : List Link) (joints : List RobotJoint) (initial : List (Option ℝ))
    (weights : List ℝ) (hr : ∀ j ∈ joints, InRange links.length j) (hv : ∀ j ∈ joints, Valid j.model)
    (r0 : Robot) (hm : make base links joints initial weights = .ok r0) (calls : List Call)
    (hp : 0 < (activeJoints joints).length) :
    let r := after r0 calls
    let s := (setPosition .own r).2
    setPosition .own s = (.throws .invalidArgument, s) ∧
    ∀ values : List (Option ℝ), values.length = (activeJoints joints).length →
      setPosition (.separate values) s = setPosition (.separate values) r := by
  intro r s
  obtain ⟨hb, -, hc⟩ := made hr hv hm calls
  obtain ⟨h1, h2, -⟩ := own_cases _ hb
  by_cases hl : r.config.length = (activeJoints r.joints).length
  · have hne : activeJoints r.joints ≠ [] := by
      intro hn
      have : (activeJoints r.joints).length = (activeJoints joints).length := hc
      rw [hn] at this
      simp at this
      omega
    have hs : s = { r with config := [] } := congrArg Prod.snd (h2 hl hne)
    have hbs : Built s := (run_built r hb (.position .own)).1
    refine ⟨(own_cases s hbs).1 ?_, fun values hv => ?_⟩
    · rw [hs]
      show (0 : Nat) ≠ (activeJoints r.joints).length
      rw [hc]; omega
    · rw [hs]
      have hn : values.length = r.numActive := by rw [hb.count, hc, hv]
      unfold setPosition
      simp only [Source.read, hn, ↓reduceIte]
  · have hs : s = r := congrArg Prod.snd (h1 hl)
    rw [hs]
    exact ⟨h1 hl, fun _ _ => rfl⟩

theorem setTo_self {m m' : Joint} (hm : Valid m) (hm' : Valid m') (ht : m'.type = m.type) (hl : m'.lower = m.lower)
    (hu : m'.upper = m.upper) (h : SetTo m' m.value) : m' = m := by
  have hv : m'.value = m.value := by
    by_cases hc : m.type = CONTINUOUS
    · exact (Angles.principal_unique Real.pi_pos (hm.continuous hc).2.2 (hm'.continuous (ht.trans hc)).2.2
        (h.1 (ht.trans hc))).symm
    · have hw : Within m' m.value := by
        have := hm.other hc
        unfold Within at *
        rw [hl, hu]; exact this
      have := h.2 (by rw [ht]; exact hc) m.value hw
      rw [sub_self, abs_zero] at this
      have := abs_eq_zero.1 (le_antisymm this (abs_nonneg _))
      linarith
  exact Joint.ext hl hu hv ht

theorem setLoop_self (js : List RobotJoint) (hv : ∀ j ∈ js, Valid j.model) :
    LinkedRobot.setLoop js ((activeJoints js).map fun j => some j.model.value) =
      (.ok (), js, (activeJoints js).map (·.model)) := by
  induction js with
  | nil => rfl
  | cons j js ih =>
    have ih := ih fun i hi => hv i (List.mem_cons_of_mem _ hi)
    have hj := hv j List.mem_cons_self
    unfold LinkedRobot.setLoop
    by_cases hf : j.model.isFixed = true
    · rw [if_pos hf, activeJoints_fixed _ hf, ih]
    · rw [if_neg hf, activeJoints_active _ hf]
      obtain ⟨m, h1, h2, h3, h4, h5, h6⟩ := setValue_spec j.model hj.limits
        (fun hc => ⟨(hj.continuous hc).1, (hj.continuous hc).2.1⟩) j.model.value
      have := setTo_self hj h2 h4 h5 h6 h3
      subst this
      simp only [List.map_cons]
      rw [h1]
      simp only [ih]

/-- C206: a copy of a complete position can be given back: `SetPosition` succeeds and changes no joint, and computes the
poses of the links again. -/
theorem C206_copy (base : Transform) (links : List Link) (joints : List RobotJoint) (initial : List (Option ℝ))
    (weights : List ℝ) (hr : ∀ j ∈ joints, InRange links.length j) (hv : ∀ j ∈ joints, Valid j.model)
    (r0 : Robot) (hm : make base links joints initial weights = .ok r0) (calls : List Call)
    (hl : (after r0 calls).config.length = (activeJoints joints).length) :
    let r := after r0 calls
    ∃ links', updateTransforms r.base r.joints r.links = .ok links' ∧
      setPosition (.separate (r.config.map fun j => some j.value)) r = (.ok r.config, { r with links := links' }) := by
  intro r
  obtain ⟨hb, -, hc⟩ := made hr hv hm calls
  have hp := C206_position base links joints initial weights hr hv r0 hm calls
  have hcfg : r.config = (activeJoints r.joints).map (·.model) := hp.eq_of_length (by rw [hl, List.length_map, hc])
  obtain ⟨links', l1, -⟩ :=
    updateTransforms_ok (base := r.base) (joints := r.joints) (links := r.links) hb.tree.pos hb.range
  refine ⟨links', l1, ?_⟩
  have hvals : (r.config.map fun j => some j.value) = (activeJoints r.joints).map fun j => some j.model.value := by
    rw [hcfg, List.map_map]; rfl
  have hs := setLoop_self r.joints hb.valid
  rw [C206_separate, hvals]
  unfold LinkedRobot.setPosition
  rw [if_pos (by rw [List.length_map, hb.count]), hs]
  simp only
  rw [l1, ← hcfg]

/-- C206: with the arm of the examples: giving it its own position throws and empties the position; its joints do not
change, and afterwards it can be set to new values as before. -/
example (a b c d : ℝ) : ∃ r, make ⟨1, 0⟩ exampleLinks exampleJoints [some a, some b] [1, 1] = .ok r ∧
    r.config.length = 2 ∧ setPosition .own r = (.throws .runtimeError, { r with config := [] }) ∧
    setPosition .own (setPosition .own r).2 = (.throws .invalidArgument, { r with config := [] }) ∧
    setPosition (.separate [some c, some d]) (setPosition .own r).2 = setPosition (.separate [some c, some d]) r := by
  obtain ⟨-, -, h2, r, hm⟩ := example_robot a b
  have h7 := ((make_cases example_range example_valid).1 r hm)
  have hlen : r.config.length = 2 := by
    rw [h7.2.2.2.2.2.2.1, List.length_map, ← (same_active h7.2.1).length_eq, h2]
  have ho := (C206_own _ _ _ _ _ example_range example_valid r hm []).1 (by rw [h2]; omega) (by rw [h2]; exact hlen)
  have hrec := C206_recovers _ _ _ _ _ example_range example_valid r hm [] (by rw [h2]; omega)
  have ho' : setPosition .own r = (.throws .runtimeError, { r with config := [] }) := ho
  refine ⟨r, hm, hlen, ho, ?_, hrec.2 [some c, some d] (by rw [h2]; rfl)⟩
  have := hrec.1
  simp only [after, List.foldl_nil] at this
  rw [this, ho']

end Verif.LinkedRobotAlias
