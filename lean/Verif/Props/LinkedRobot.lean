import Verif.Lemmas.LinkedRobotBuild

/-!
# Making and moving linked robots (C98, C99)
-/
namespace Verif.LinkedRobot
open Verif Matrix Verif.Kinematics Verif.Pose

/-- The calls that change a robot -/
inductive Call
  | position (values : List (Option ℝ))
  | base (T : Transform)

/-- One call -/
noncomputable def Call.run : Call → M Robot Unit
  | .position values => fun r => match setPosition values r with
    | (.ok _, r') => (.ok (), r')
    | (.throws e, r') => (.throws e, r')
    | (.abort, r') => (.abort, r')
    | (.ub, r') => (.ub, r')
  | .base T => updateBaseTransform T

/-- The robot after some calls, whether they succeed or fail -/
noncomputable def after (r : Robot) (calls : List Call) : Robot := calls.foldl (fun r c => (c.run r).2) r

theorem run_position (values : List (Option ℝ)) (r : Robot) : Call.run (.position values) r =
    match setPosition values r with
    | (.ok _, r') => (.ok (), r')
    | (.throws e, r') => (.throws e, r')
    | (.abort, r') => (.abort, r')
    | (.ub, r') => (.ub, r') := rfl

/-- What `setPosition` does to a robot -/
theorem setPosition_cases (r : Robot) (h : Built r) (values : List (Option ℝ)) :
    Built (setPosition values r).2 ∧ List.Forall₂ Same r.joints (setPosition values r).2.joints ∧
    (setPosition values r).2.links.map (·.name) = r.links.map (·.name) ∧
    (setPosition values r).2.base = r.base ∧ (setPosition values r).2.inverseBase = r.inverseBase ∧
    (values.length ≠ (activeJoints r.joints).length → setPosition values r = (.throws .invalidArgument, r)) ∧
    (values.length = (activeJoints r.joints).length → (∃ v ∈ values, v = none) →
      (setPosition values r).1 = .throws .invalidArgument ∧ (setPosition values r).2.links = r.links ∧
      ∀ (before : List ℝ) (rest : List (Option ℝ)), values = before.map some ++ none :: rest →
        (setPosition values r).2.config =
          ((activeJoints (setPosition values r).2.joints).map (·.model)).take before.length ∧
        (activeJoints (setPosition values r).2.joints).drop before.length = (activeJoints r.joints).drop before.length ∧
        List.Forall₂ SetTo (setPosition values r).2.config before) ∧
    (∀ vs : List ℝ, values = vs.map some → vs.length = (activeJoints r.joints).length →
      (setPosition values r).1 = .ok (setPosition values r).2.config ∧
      (setPosition values r).2.config = (activeJoints (setPosition values r).2.joints).map (·.model) ∧
      List.Forall₂ SetTo (setPosition values r).2.config vs ∧
      updateTransforms r.base (setPosition values r).2.joints r.links = .ok (setPosition values r).2.links) := by
  have hrefl : ∀ l : List RobotJoint, List.Forall₂ Same l l := fun l => List.forall₂_same.2 fun a _ => Same.refl a
  have hc := h.count
  by_cases hl : values.length = (activeJoints r.joints).length
  · by_cases hn : ∃ v ∈ values, v = none
    · obtain ⟨before, rest, hvs⟩ : ∃ (before : List ℝ) (rest : List (Option ℝ)), values = before.map some ++ none :: rest := by
        clear hl
        induction values with
        | nil => simp at hn
        | cons v vs ih =>
          cases v with
          | none => exact ⟨[], vs, rfl⟩
          | some x =>
            obtain ⟨b, a, hba⟩ := ih (by simpa using hn)
            exact ⟨x :: b, a, by rw [hba]; rfl⟩
      have key : ∀ (before : List ℝ) (rest : List (Option ℝ)), values = before.map some ++ none :: rest →
          ∃ js' config, setPosition values r = (.throws .invalidArgument, { r with joints := js', config := config }) ∧
            List.Forall₂ Same r.joints js' ∧
            (∀ j ∈ js', Valid j.model) ∧ config = ((activeJoints js').map (·.model)).take before.length ∧
            ((activeJoints js').drop before.length = (activeJoints r.joints).drop before.length) ∧
            List.Forall₂ SetTo config before := by
        intro before rest hvs
        obtain ⟨js', config, h1, h2, h3, h4, h5⟩ := setLoop_throws r.joints before rest h.valid (by
          rw [← hl, hvs]; simp; omega)
        refine ⟨js', config, ?_, ?_, h2, h3, h4, h5⟩
        · unfold setPosition
          rw [if_pos (by rw [hl, hc]), hvs, h1]
        · have := setLoop_same r.joints (before.map some ++ none :: rest)
          rw [h1] at this
          exact this
      obtain ⟨js', config, h1, h2, h3, h4, h5, h6⟩ := key before rest hvs
      rw [h1]
      refine ⟨h.change h2 h3 rfl rfl rfl rfl rfl, h2, rfl, rfl, rfl, fun hh => absurd hl hh, fun _ _ => ⟨rfl, rfl, ?_⟩, ?_⟩
      · intro b a hba
        obtain ⟨js2, config2, g1, g2, g3, g4, g5, g6⟩ := key b a hba
        rw [h1] at g1
        simp only [Prod.mk.injEq, Robot.mk.injEq, true_and] at g1
        obtain ⟨e1, e2⟩ : config = config2 ∧ js' = js2 := by tauto
        exact ⟨e1.trans (by rw [g4, e2]), by simp only; rw [e2]; exact g5, by simp only; rw [e1]; exact g6⟩
      · intro vs hv
        rw [hv] at hn
        simp at hn
    · obtain ⟨vs, hvs⟩ : ∃ vs : List ℝ, values = vs.map some := by
        clear hl
        induction values with
        | nil => exact ⟨[], rfl⟩
        | cons v vs ih =>
          cases v with
          | none => simp at hn
          | some x =>
            obtain ⟨b, hb⟩ := ih (by simpa using hn)
            exact ⟨x :: b, by rw [hb]; rfl⟩
      obtain ⟨js', config, h1, h2, h3, h4⟩ := setLoop_ok r.joints vs h.valid (by rw [← hl, hvs]; simp)
      have hsame : List.Forall₂ Same r.joints js' := by
        have := setLoop_same r.joints (vs.map some)
        rw [h1] at this
        exact this
      have hb := h.change (r' := { r with joints := js', config := config }) hsame h2 rfl rfl rfl rfl rfl
      obtain ⟨links', l1, l2, -⟩ := updateTransforms_ok (base := r.base) (joints := js') (links := r.links) h.tree.pos hb.range
      have hs : setPosition values r = (.ok config, { r with joints := js', config := config, links := links' }) := by
        unfold setPosition
        rw [if_pos (by rw [hl, hc]), hvs, h1]
        simp only
        rw [l1]
      rw [hs]
      refine ⟨hb.change (hrefl _) h2 l2 rfl rfl rfl rfl, hsame, l2, rfl, rfl, fun hh => absurd hl hh, fun _ hh => absurd hh hn, ?_⟩
      intro ws hw _
      have : ws = vs := by
        rw [hvs] at hw
        exact (List.map_injective_iff.2 (Option.some_injective ℝ) hw).symm
      subst this
      exact ⟨rfl, h3, h4, l1⟩
  · have hs : setPosition values r = (.throws .invalidArgument, r) := by
      unfold setPosition
      rw [if_neg (by rw [hc]; exact hl)]
    rw [hs]
    refine ⟨h, hrefl _, rfl, rfl, rfl, fun _ => rfl, fun hh => absurd hh hl, ?_⟩
    intro vs hv hh
    exact absurd (by rw [hv]; simpa using hh) hl

theorem updateBase_cases (r : Robot) (h : Built r) (T : Transform) :
    Built (updateBaseTransform T r).2 ∧ (updateBaseTransform T r).1 = .ok () ∧
    (updateBaseTransform T r).2.joints = r.joints ∧ (updateBaseTransform T r).2.config = r.config ∧
    (updateBaseTransform T r).2.links.map (·.name) = r.links.map (·.name) ∧
    (updateBaseTransform T r).2.base = T ∧ (updateBaseTransform T r).2.inverseBase = r.inverseBase ∧
    updateTransforms T r.joints r.links = .ok (updateBaseTransform T r).2.links := by
  obtain ⟨links', l1, l2, -⟩ := updateTransforms_ok (base := T) (joints := r.joints) (links := r.links) h.tree.pos h.range
  have hs : updateBaseTransform T r = (.ok (), { r with base := T, links := links' }) := by
    unfold updateBaseTransform
    simp only
    rw [l1]
  rw [hs]
  exact ⟨h.change (List.forall₂_same.2 fun a _ => Same.refl a) h.valid l2 rfl rfl rfl rfl, rfl, rfl, rfl, l2, rfl, rfl, l1⟩

theorem run_cases (r : Robot) (h : Built r) (c : Call) :
    Built (c.run r).2 ∧ List.Forall₂ Same r.joints (c.run r).2.joints ∧
    (c.run r).2.links.map (·.name) = r.links.map (·.name) ∧
    (c.run r).2.inverseBase = r.inverseBase ∧ ((c.run r).1 = .ok () ∨ (c.run r).1 = .throws .invalidArgument) ∧
    ((c.run r).1 = .ok () →
      updateTransforms (c.run r).2.base (c.run r).2.joints r.links = .ok (c.run r).2.links ∧
      (r.config = (activeJoints r.joints).map (·.model) →
        (c.run r).2.config = (activeJoints (c.run r).2.joints).map (·.model))) := by
  cases c with
  | position values =>
    obtain ⟨h1, h2, h3, h4, h5, h6, h7, h8⟩ := setPosition_cases r h values
    have e : (Call.run (.position values) r).2 = (setPosition values r).2 := by
      rw [run_position]
      rcases hs : setPosition values r with ⟨o, r'⟩
      cases o <;> rfl
    have e1 : ∀ e, (setPosition values r).1 = .throws e → (Call.run (.position values) r).1 = .throws e := by
      intro x hx
      rw [run_position]
      rcases hs : setPosition values r with ⟨o, r'⟩
      rw [hs] at hx
      simp only at hx
      subst hx
      rfl
    have e2 : ∀ x, (setPosition values r).1 = .ok x → (Call.run (.position values) r).1 = .ok () := by
      intro x hx
      rw [run_position]
      rcases hs : setPosition values r with ⟨o, r'⟩
      rw [hs] at hx
      simp only at hx
      subst hx
      rfl
    refine ⟨e ▸ h1, e ▸ h2, e ▸ h3, e ▸ h5, ?_⟩
    by_cases hl : values.length = (activeJoints r.joints).length
    · by_cases hn : ∃ v ∈ values, v = none
      · have := e1 _ (h7 hl hn).1
        exact ⟨Or.inr this, fun h => by rw [this] at h; simp at h⟩
      · obtain ⟨vs, hvs⟩ : ∃ vs : List ℝ, values = vs.map some := by
          clear hl h1 h2 h3 h4 h5 h6 h7 h8 e e1 e2
          induction values with
          | nil => exact ⟨[], rfl⟩
          | cons v vs ih =>
            cases v with
            | none => simp at hn
            | some x =>
              obtain ⟨b, hb⟩ := ih (by simpa using hn)
              exact ⟨x :: b, by rw [hb]; rfl⟩
        obtain ⟨g1, g2, g3, g4⟩ := h8 vs hvs (by rw [← hl, hvs]; simp)
        exact ⟨Or.inl (e2 _ g1), fun _ => ⟨by rw [e, h4]; exact g4, fun _ => by rw [e]; exact g2⟩⟩
    · have := h6 hl
      have := e1 .invalidArgument (by rw [this])
      exact ⟨Or.inr this, fun h => by rw [this] at h; simp at h⟩
  | base T =>
    obtain ⟨h1, h2, h3, h4, h5, h6, h7, h8⟩ := updateBase_cases r h T
    show Built (updateBaseTransform T r).2 ∧ List.Forall₂ Same r.joints (updateBaseTransform T r).2.joints ∧
      (updateBaseTransform T r).2.links.map (·.name) = r.links.map (·.name) ∧
      (updateBaseTransform T r).2.inverseBase = r.inverseBase ∧ ((updateBaseTransform T r).1 = .ok () ∨ _) ∧
      ((updateBaseTransform T r).1 = .ok () → updateTransforms (updateBaseTransform T r).2.base
        (updateBaseTransform T r).2.joints r.links = .ok (updateBaseTransform T r).2.links ∧ _)
    refine ⟨h1, h3 ▸ List.forall₂_same.2 fun a _ => Same.refl a, h5, h7, Or.inl h2, fun _ => ⟨?_, fun hc => ?_⟩⟩
    · rw [h6, h3]; exact h8
    · show (updateBaseTransform T r).2.config = (activeJoints (updateBaseTransform T r).2.joints).map (·.model)
      rw [h4, h3, hc]

theorem after_cases (r : Robot) (h : Built r) (calls : List Call) :
    Built (after r calls) ∧ List.Forall₂ Same r.joints (after r calls).joints ∧
    (after r calls).links.map (·.name) = r.links.map (·.name) ∧ (after r calls).inverseBase = r.inverseBase := by
  induction calls generalizing r with
  | nil => exact ⟨h, List.forall₂_same.2 fun a _ => Same.refl a, rfl, rfl⟩
  | cons c cs ih =>
    obtain ⟨h1, h2, h3, h4, -⟩ := run_cases r h c
    obtain ⟨g1, g2, g3, g4⟩ := ih _ h1
    refine ⟨g1, ?_, g3.trans h3, g4.trans h4⟩
    have : ∀ (a b c : List RobotJoint), List.Forall₂ Same a b → List.Forall₂ Same b c → List.Forall₂ Same a c := by
      intro a b c hab
      induction hab generalizing c with
      | nil => intro h; exact h
      | cons h _ ih =>
        intro h'
        cases h' with
        | cons h1 h2 => exact .cons (h.trans h1) (ih _ h2)
    exact this _ _ _ h2 g2

/-- What a constructed robot is like -/
theorem make_cases {base : Transform} {links : List Link} {joints : List RobotJoint} {initial : List (Option ℝ)}
    {weights : List ℝ} (hr : ∀ j ∈ joints, InRange links.length j) (hv : ∀ j ∈ joints, Valid j.model) :
    (∀ r, make base links joints initial weights = .ok r → Built r ∧ List.Forall₂ Same joints r.joints ∧
      r.links.map (·.name) = links.map (·.name) ∧ r.base = base ∧ r.inverseBase = base.inverse ∧
      r.weights = weights.map (|·|) ∧ r.config = (activeJoints r.joints).map (·.model) ∧
      (∀ vs : List ℝ, initial = vs.map some → List.Forall₂ SetTo r.config vs) ∧
      updateTransforms r.base r.joints links = .ok r.links) ∧
    (make base links joints initial weights = .throws .invalidArgument ∨
      ∃ r, make base links joints initial weights = .ok r) ∧
    ((∃ r, make base links joints initial weights = .ok r) ↔
      (∃ s, sanityCheck links joints = .ok (s, true)) ∧ weights.length = (activeJoints joints).length ∧
      initial.length = (activeJoints joints).length ∧ ∀ v ∈ initial, v ≠ none) := by
  obtain ⟨⟨b, s, h1, h2⟩, h3⟩ := sanityCheck_cases links joints hr
  have hcount : (makeActiveJointIndexMap joints).1 = (activeJoints joints).length := by
    unfold makeActiveJointIndexMap
    rw [activeLoop_count, Nat.zero_add]
  have unf : make base links joints initial weights =
      (if b = false then .throws .invalidArgument
       else if weights.length ≠ (makeActiveJointIndexMap joints).1 then .throws .invalidArgument
       else match setPosition initial ⟨[], base, base.inverse, links, joints, s, (makeActiveJointIndexMap joints).2,
          weights.map (|·|), (makeActiveJointIndexMap joints).1⟩ with
        | (.ok _, r) => .ok r
        | (.throws e, _) => .throws e
        | (.abort, _) => .abort
        | (.ub, _) => .ub) := by
    unfold make
    rw [h1, Out.bind_ok]
    rfl
  cases b with
  | false =>
    rw [if_pos rfl] at unf
    rw [unf]
    refine ⟨fun r h => by simp at h, Or.inl rfl, ⟨fun ⟨r, h⟩ => by simp at h, fun ⟨⟨s', h⟩, _⟩ => ?_⟩⟩
    rw [h1] at h
    simp at h
  | true =>
    rw [if_neg (by simp)] at unf
    obtain ⟨a1, a2, a3, a4, a5, a6⟩ := h2 rfl
    by_cases hw : weights.length = (makeActiveJointIndexMap joints).1
    · rw [if_neg (by simpa using hw)] at unf
      have t : Tree links.length (edges joints) := tree_of_reach (by rw [a1]; simp [edges]) (edges_range hr) a5
      generalize hr0 : (⟨[], base, base.inverse, links, joints, s, (makeActiveJointIndexMap joints).2,
          weights.map (|·|), (makeActiveJointIndexMap joints).1⟩ : Robot) = r0 at unf
      have hb : Built r0 := by
        subst hr0
        exact ⟨hr, t, a6, rfl, hv, by simpa using hw, a2⟩
      obtain ⟨c1, c2, c3, c4, c5, c6, c7, c8⟩ := setPosition_cases r0 hb initial
      have hj : r0.joints = joints := by rw [← hr0]
      rw [hj] at c6 c7 c8 c2
      by_cases hl : initial.length = (activeJoints joints).length
      · by_cases hn : ∃ v ∈ initial, v = none
        · have hm : make base links joints initial weights = .throws .invalidArgument := by
            rw [unf]
            have := (c7 hl hn).1
            rcases hs : setPosition initial r0 with ⟨o, r'⟩
            rw [hs] at this
            simp only at this
            subst this
            rfl
          rw [hm]
          refine ⟨fun r h => by simp at h, Or.inl rfl, ⟨fun ⟨r, h⟩ => by simp at h, fun ⟨_, _, _, h⟩ => ?_⟩⟩
          obtain ⟨v, hv1, hv2⟩ := hn
          exact absurd hv2 (h v hv1)
        · obtain ⟨vs, hvs⟩ : ∃ vs : List ℝ, initial = vs.map some := by
            clear c1 c2 c3 c4 c5 c6 c7 c8 unf hl
            induction initial with
            | nil => exact ⟨[], rfl⟩
            | cons v vs ih =>
              cases v with
              | none => simp at hn
              | some x =>
                obtain ⟨b, hb⟩ := ih (by simpa using hn)
                exact ⟨x :: b, by rw [hb]; rfl⟩
          obtain ⟨g1, g2, g3, g4⟩ := c8 vs hvs (by rw [← hl, hvs]; simp)
          have hm : make base links joints initial weights = .ok (setPosition initial r0).2 := by
            rw [unf]
            rcases hs : setPosition initial r0 with ⟨o, r'⟩
            rw [hs] at g1
            simp only at g1
            subst g1
            rfl
          have hw0 : (setPosition initial r0).2.weights = r0.weights := by
            have hlr : initial.length = r0.numActive := by rw [hl, hb.count, hj]
            unfold setPosition
            rw [if_pos hlr]
            simp only
            cases (setLoop r0.joints initial).1 <;> simp only
            cases updateTransforms r0.base (setLoop r0.joints initial).2.1 r0.links <;> rfl
          refine ⟨fun r h => ?_, Or.inr ⟨_, hm⟩, ⟨fun _ => ⟨⟨s, h1⟩, by rw [hw, hcount], hl, fun v hv h => hn ⟨v, hv, h⟩⟩,
            fun _ => ⟨_, hm⟩⟩⟩
          rw [hm] at h
          simp only [Out.ok.injEq] at h
          subst h
          refine ⟨c1, c2, ?_, ?_, ?_, ?_, g2, ?_, ?_⟩
          · rw [c3, ← hr0]
          · rw [c4, ← hr0]
          · rw [c5, ← hr0]
          · rw [hw0, ← hr0]
          · intro ws hws
            have : ws = vs := by
              rw [hvs] at hws
              exact (List.map_injective_iff.2 (Option.some_injective ℝ) hws).symm
            rw [this]; exact g3
          · rw [c4, show links = r0.links by rw [← hr0]]; exact g4
      · have hm : make base links joints initial weights = .throws .invalidArgument := by
          rw [unf, c6 hl]
        rw [hm]
        exact ⟨fun r h => by simp at h, Or.inl rfl, ⟨fun ⟨r, h⟩ => by simp at h, fun ⟨_, _, h, _⟩ => absurd h hl⟩⟩
    · rw [if_pos hw] at unf
      rw [unf]
      refine ⟨fun r h => by simp at h, Or.inl rfl, ⟨fun ⟨r, h⟩ => by simp at h, fun ⟨_, h, _⟩ => ?_⟩⟩
      rw [← hcount] at h
      exact absurd h hw

/-! ### The theorems -/

/-- C99: a robot is constructed if the model is accepted by the check, there is a weight and an initial value for each
joint that is not fixed, and all values are finite; otherwise the constructor throws. -/
theorem C99_construct (base : Transform) (links : List Link) (joints : List RobotJoint) (initial : List (Option ℝ))
    (weights : List ℝ) (hr : ∀ j ∈ joints, InRange links.length j) (hv : ∀ j ∈ joints, Valid j.model) :
    ((∃ r, make base links joints initial weights = .ok r) ↔
      (∃ s, sanityCheck links joints = .ok (s, true)) ∧ weights.length = (activeJoints joints).length ∧
      initial.length = (activeJoints joints).length ∧ ∀ v ∈ initial, v ≠ none) ∧
    ((¬ ∃ r, make base links joints initial weights = .ok r) →
      make base links joints initial weights = .throws .invalidArgument) :=
  ⟨(make_cases hr hv).2.2, fun h => (make_cases hr hv).2.1.resolve_right h⟩

/-- C98: the poses of the links of a constructed robot agree with the base and the values of the joints, and so they do
after every call that succeeds, whatever was called before, if each joint comes after the joint that moves its parent
link. -/
theorem C98_poses_partial (base : Transform) (links : List Link) (joints : List RobotJoint) (initial : List (Option ℝ))
    (weights : List ℝ) (hr : ∀ j ∈ joints, InRange links.length j) (hv : ∀ j ∈ joints, Valid j.model)
    (ho : Ordered joints) (hx : UnitAxes joints) (r : Robot) (hm : make base links joints initial weights = .ok r) :
    Placed base r.joints (poses r.links) ∧
    ∀ (calls : List Call) (c : Call), (c.run (after r calls)).1 = .ok () →
      Placed (c.run (after r calls)).2.base (c.run (after r calls)).2.joints (poses (c.run (after r calls)).2.links) ∧
      ∀ T, c = .base T → (c.run (after r calls)).2.base = T := by
  obtain ⟨h1, h2, h3, h4, h5, h6, h7, h8, h9⟩ := (make_cases hr hv).1 r hm
  have hord : ∀ js : List RobotJoint, List.Forall₂ Same joints js → Ordered js ∧ UnitAxes js := by
    intro js h
    have e1 := same_edges h
    have hax : js.map (·.axis) = joints.map (·.axis) := same_map (fun a b h => by rw [h]) h
    have hlen : js.length = joints.length := h.length_eq.symm
    have hget : ∀ k (hk : k < js.length), js[k].parent = (joints[k]'(by omega)).parent ∧
        js[k].child = (joints[k]'(by omega)).child := by
      intro k hk
      have a : (edges js)[k]'(by simpa [edges] using hk) = (edges joints)[k]'(by simp [edges]; omega) := by simp only [e1]
      simpa [edges] using a
    constructor
    · intro k hk
      rcases ho k (by omega) with h | ⟨i, hi, h⟩
      · left; rw [(hget k hk).1, h]
      · right; exact ⟨i, hi, by rw [(hget k hk).1, (hget i (by omega)).2, h]⟩
    · intro j hj
      have : j.axis ∈ joints.map (·.axis) := by rw [← hax]; exact List.mem_map.2 ⟨j, hj, rfl⟩
      obtain ⟨i, hi, he⟩ := List.mem_map.1 this
      rw [← he]; exact hx i hi
  have hn := congrArg List.length h3
  simp only [List.length_map] at hn
  constructor
  · rw [← h4]
    exact updateTransforms_placed (by rw [← hn]; exact h1.range) (by rw [← hn]; exact h1.tree) (hord _ h2).1 (hord _ h2).2 h9
  · intro calls c hc
    obtain ⟨g1, g2, g3, g4⟩ := after_cases r h1 calls
    obtain ⟨k1, k2, k3, k4, k5, k6⟩ := run_cases _ g1 c
    have htrans : ∀ (a b c : List RobotJoint), List.Forall₂ Same a b → List.Forall₂ Same b c → List.Forall₂ Same a c := by
      intro a b c hab
      induction hab generalizing c with
      | nil => intro h; exact h
      | cons h _ ih =>
        intro h'
        cases h' with
        | cons h1 h2 => exact .cons (h.trans h1) (ih _ h2)
    have hs := htrans _ _ _ h2 (htrans _ _ _ g2 k2)
    have hl := congrArg List.length k3
    simp only [List.length_map] at hl
    refine ⟨updateTransforms_placed (by rw [← hl]; exact k1.range) (by rw [← hl]; exact k1.tree) (hord _ hs).1 (hord _ hs).2
      (k6 hc).1, fun T hT => ?_⟩
    subst hT
    exact (updateBase_cases _ g1 T).2.2.2.2.2.1

/-- C98: only one way of placing the links agrees with the base and the values of the joints: the poses are the transforms
and motions of the joints from link 0 on, multiplied. -/
theorem C98_unique (base : Transform) (joints : List RobotJoint) (T S : Int → Transform) (hT : Placed base joints T)
    (hS : Placed base joints S) (i : Int) (hi : Reach (joints.map fun j => (j.parent, j.child)) i) : T i = S i := by
  induction hi with
  | root => rw [hT.1, hS.1]
  | step h _ ih =>
    obtain ⟨j, hj, he⟩ := List.mem_map.1 h
    simp only [Prod.mk.injEq] at he
    apply point_inj
    intro v
    rw [← he.2, hT.2 j hj v, hS.2 j hj v, he.1, ih]

/-- C98: the poses are found by the names of the links, and an unknown name makes the lookup throw. -/
theorem C98_lookup (base : Transform) (links : List Link) (joints : List RobotJoint) (initial : List (Option ℝ))
    (weights : List ℝ) (hr : ∀ j ∈ joints, InRange links.length j) (hv : ∀ j ∈ joints, Valid j.model)
    (r0 : Robot) (hm : make base links joints initial weights = .ok r0) (calls : List Call) :
    let r := after r0 calls
    linkNames r = links.map (·.name) ∧
    linkTransforms r = (List.range links.length).map (fun i : Nat => poses r.links i) ∧
    (∀ (i : Nat) (l : Link), links[i]? = some l →
      linkTransform r l.name = .ok (poses r.links i) ∧ linkTransformsMap r l.name = some (poses r.links i)) ∧
    (∀ name, name ∉ links.map (·.name) → linkTransform r name = .throws .invalidArgument ∧ linkTransformsMap r name = none) := by
  intro r
  obtain ⟨h1, h2, h3, -⟩ := (make_cases hr hv).1 r0 hm
  obtain ⟨g1, -, g3, -⟩ := after_cases r0 h1 calls
  have hn : r.links.map (·.name) = links.map (·.name) := g3.trans h3
  have hl : r.links.length = links.length := by simpa using congrArg List.length hn
  have hnd := g1.names
  have loop_none : ∀ (ls : List Link) name, name ∉ ls.map (·.name) → linkTransformLoop name ls = .throws .invalidArgument := by
    intro ls name
    induction ls with
    | nil => intro _; rfl
    | cons l ls ih =>
      intro h
      simp only [List.map_cons, List.mem_cons, not_or] at h
      unfold linkTransformLoop
      rw [if_neg (fun e => h.1 e.symm), ih h.2]
  have loop_some : ∀ (ls : List Link), (ls.map (·.name)).Nodup → ∀ (i : Nat) (l : Link), ls[i]? = some l →
      linkTransformLoop l.name ls = .ok l.transform := by
    intro ls
    induction ls with
    | nil => intro _ i l h; simp at h
    | cons a ls ih =>
      intro hd i l h
      simp only [List.map_cons, List.nodup_cons] at hd
      unfold linkTransformLoop
      cases i with
      | zero => simp at h; subst h; rw [if_pos rfl]
      | succ i =>
        rw [List.getElem?_cons_succ] at h
        rw [if_neg, ih hd.2 i l h]
        intro e
        exact hd.1 (e ▸ List.mem_map.2 ⟨l, List.mem_of_getElem? h, rfl⟩)
  have fold_none : ∀ (ls : List Link) name m, name ∉ ls.map (·.name) →
      ls.foldl (fun m l => if l.name = name then some l.transform else m) m = m := by
    intro ls name
    induction ls with
    | nil => intro m _; rfl
    | cons l ls ih =>
      intro m h
      simp only [List.map_cons, List.mem_cons, not_or] at h
      rw [List.foldl_cons, if_neg (fun e => h.1 e.symm), ih _ h.2]
  have fold_some : ∀ (ls : List Link), (ls.map (·.name)).Nodup → ∀ (i : Nat) (l : Link) m, ls[i]? = some l →
      ls.foldl (fun m x => if x.name = l.name then some x.transform else m) m = some l.transform := by
    intro ls
    induction ls with
    | nil => intro _ i l m h; simp at h
    | cons a ls ih =>
      intro hd i l m h
      simp only [List.map_cons, List.nodup_cons] at hd
      rw [List.foldl_cons]
      cases i with
      | zero => simp at h; subst h; rw [if_pos rfl, fold_none _ _ _ hd.1]
      | succ i => rw [List.getElem?_cons_succ] at h; exact ih hd.2 i l _ h
  have hpose : ∀ (i : Nat) (l : Link), r.links[i]? = some l → poses r.links i = l.transform := by
    intro i l h
    unfold poses
    simp [h]
  refine ⟨hn, ?_, fun i l hi => ?_, fun name h => ?_⟩
  · unfold linkTransforms
    apply List.ext_getElem
    · simp [hl]
    · intro k a b
      simp only [List.getElem_map, List.getElem_range]
      rw [hpose k _ (List.getElem?_eq_getElem (by simpa using a))]
  · have : (r.links.map (·.name))[i]? = some l.name := by rw [hn]; simp [hi]
    rw [List.getElem?_map] at this
    cases hl' : r.links[i]? with
    | none => rw [hl'] at this; simp at this
    | some l' =>
      rw [hl'] at this
      simp only [Option.map_some, Option.some.injEq] at this
      rw [← this, hpose i l' hl']
      exact ⟨loop_some _ hnd i l' hl', fold_some _ hnd i l' none hl'⟩
  · rw [← hn] at h
    exact ⟨loop_none _ _ h, fold_none _ _ _ h⟩

/-- C99: `SetPosition` with the wrong number of values throws and changes nothing. With a finite value for each joint that
is not fixed it succeeds: the joints are set to the values in order, and the configuration is that of these joints. -/
theorem C99_set (base : Transform) (links : List Link) (joints : List RobotJoint) (initial : List (Option ℝ))
    (weights : List ℝ) (hr : ∀ j ∈ joints, InRange links.length j) (hv : ∀ j ∈ joints, Valid j.model)
    (r0 : Robot) (hm : make base links joints initial weights = .ok r0) (calls : List Call) :
    let r := after r0 calls
    r.numActive = (activeJoints joints).length ∧
    activeJointNames r = .ok ((activeJoints joints).map (·.name)) ∧
    (∀ values, values.length ≠ (activeJoints joints).length → setPosition values r = (.throws .invalidArgument, r)) ∧
    (∀ values : List ℝ, values.length = (activeJoints joints).length →
      let s := setPosition (values.map some) r
      s.1 = .ok s.2.config ∧ s.2.config = (activeJoints s.2.joints).map (·.model) ∧ List.Forall₂ SetTo s.2.config values ∧
      (∀ m ∈ s.2.config, Valid m) ∧ s.2.config.map (·.type) = (activeJoints joints).map (·.model.type) ∧
      s.2.config.map (·.lower) = (activeJoints joints).map (·.model.lower) ∧
      s.2.config.map (·.upper) = (activeJoints joints).map (·.model.upper) ∧
      s.2.base = r.base) := by
  intro r
  obtain ⟨h1, h2, -⟩ := (make_cases hr hv).1 r0 hm
  obtain ⟨g1, g2, -⟩ := after_cases r0 h1 calls
  have htrans : ∀ (a b c : List RobotJoint), List.Forall₂ Same a b → List.Forall₂ Same b c → List.Forall₂ Same a c := by
    intro a b c hab
    induction hab generalizing c with
    | nil => intro h; exact h
    | cons h _ ih =>
      intro h'
      cases h' with
      | cons h1 h2 => exact .cons (h.trans h1) (ih _ h2)
  have hs : List.Forall₂ Same joints r.joints := htrans _ _ _ h2 g2
  have hact : ∀ js js' : List RobotJoint, List.Forall₂ Same js js' → List.Forall₂ Same (activeJoints js) (activeJoints js') := by
    intro js js' h
    induction h with
    | nil => exact .nil
    | @cons a b l1 l2 h _ ih =>
      have hf : b.model.isFixed = a.model.isFixed := by rw [h]; rfl
      by_cases c : a.model.isFixed = true
      · rw [activeJoints_fixed _ c, activeJoints_fixed _ (hf.trans c)]; exact ih
      · rw [activeJoints_active _ c, activeJoints_active _ (by rw [hf]; exact c)]; exact .cons h ih
  have hla : (activeJoints r.joints).length = (activeJoints joints).length := (hact _ _ hs).length_eq.symm
  refine ⟨g1.count.trans hla, ?_, fun values h => ?_, fun values h => ?_⟩
  · unfold activeJointNames
    have e : (r.joints.filter fun j => !j.model.isFixed) = activeJoints r.joints := by
      unfold activeJoints
      apply List.filter_congr
      intro j _
      rw [Bool.eq_iff_iff]
      simp only [Bool.not_eq_true', decide_eq_true_eq, ne_eq, ← isFixed_iff]
      simp
    simp only [e, List.length_map]
    rw [if_pos g1.count.symm, same_map (fun a b h => by rw [h]) (hact _ _ hs)]
  · exact (setPosition_cases r g1 values).2.2.2.2.2.1 (by rw [hla]; exact h)
  · obtain ⟨c1, c2, c3, c4, c5, c6, c7, c8⟩ := setPosition_cases r g1 (values.map some)
    obtain ⟨d1, d2, d3, d4⟩ := c8 values rfl (by rw [hla]; exact h)
    have hs' := hact _ _ (htrans _ _ _ hs c2)
    refine ⟨d1, d2, d3, fun m hm => ?_, ?_, ?_, ?_, c4⟩
    · rw [d2] at hm
      obtain ⟨j, hj, rfl⟩ := List.mem_map.1 hm
      exact c1.valid j (List.mem_of_mem_filter hj)
    · rw [d2, List.map_map]; exact same_map (f := fun j => j.model.type) (fun a b h => by rw [h]) hs'
    · rw [d2, List.map_map]; exact same_map (f := fun j => j.model.lower) (fun a b h => by rw [h]) hs'
    · rw [d2, List.map_map]; exact same_map (f := fun j => j.model.upper) (fun a b h => by rw [h]) hs'

/-- C99: `SetPosition` with a value that is not finite throws, but the robot has been changed: the joints before have new
values and the configuration has them only, while the poses of the links are still the old ones. -/
theorem C99_failed_set (base : Transform) (links : List Link) (joints : List RobotJoint) (initial : List (Option ℝ))
    (weights : List ℝ) (hr : ∀ j ∈ joints, InRange links.length j) (hv : ∀ j ∈ joints, Valid j.model)
    (r0 : Robot) (hm : make base links joints initial weights = .ok r0) (calls : List Call) (before : List ℝ)
    (rest : List (Option ℝ)) (hl : before.length + 1 + rest.length = (activeJoints joints).length) :
    let r := after r0 calls
    let s := setPosition (before.map some ++ none :: rest) r
    s.1 = .throws .invalidArgument ∧ s.2.links = r.links ∧
    s.2.config.length = before.length ∧ s.2.config = ((activeJoints s.2.joints).map (·.model)).take before.length ∧
    List.Forall₂ SetTo s.2.config before ∧
    (activeJoints s.2.joints).drop before.length = (activeJoints r.joints).drop before.length := by
  intro r s
  obtain ⟨h1, h2, -⟩ := (make_cases hr hv).1 r0 hm
  obtain ⟨g1, g2, -⟩ := after_cases r0 h1 calls
  have hcount : (activeJoints r.joints).length = (activeJoints joints).length := by
    have := (C99_set base links joints initial weights hr hv r0 hm calls).1
    rw [← this, ← g1.count]
  obtain ⟨c1, c2, c3, c4, c5, c6, c7, c8⟩ := setPosition_cases r g1 (before.map some ++ none :: rest)
  obtain ⟨d1, d2, d3⟩ := c7 (by rw [hcount, ← hl]; simp; omega) ⟨none, by simp, rfl⟩
  obtain ⟨e1, e2, e3⟩ := d3 before rest rfl
  exact ⟨d1, d2, e3.length_eq, e1, e3, e2⟩

/-- C98: changing the base does not change the inverse of the base, which stays the inverse of the base at construction. -/
theorem C98_inverse_base_wrong (base : Transform) (links : List Link) (joints : List RobotJoint)
    (initial : List (Option ℝ)) (weights : List ℝ) (hr : ∀ j ∈ joints, InRange links.length j)
    (hv : ∀ j ∈ joints, Valid j.model) (r0 : Robot) (hm : make base links joints initial weights = .ok r0)
    (calls : List Call) : r0.inverseBase = base.inverse ∧ (after r0 calls).inverseBase = base.inverse := by
  obtain ⟨h1, h2, -, -, h5, -⟩ := (make_cases hr hv).1 r0 hm
  exact ⟨h5, (after_cases r0 h1 calls).2.2.2.trans h5⟩

/-! ### Examples -/

theorem example_valid : ∀ j ∈ exampleJoints, Valid j.model := by
  intro j hj
  simp only [exampleJoints, List.mem_cons, List.not_mem_nil, or_false] at hj
  rcases hj with rfl | rfl
  · exact ⟨⟨0, by simp [Within]⟩, fun h => absurd h (by decide), fun _ => by simp [Within]⟩
  · exact ⟨⟨0, by simp [Within]⟩, fun h => absurd h (by decide), fun _ => by simp [Within]⟩

/-- The arm meets the conditions of the theorems. -/
theorem example_robot (a b : ℝ) : Ordered exampleJoints ∧ UnitAxes exampleJoints ∧ (activeJoints exampleJoints).length = 2 ∧
    ∃ r, make ⟨1, 0⟩ exampleLinks exampleJoints [some a, some b] [1, 1] = .ok r := by
  have hc : (activeJoints exampleJoints).length = 2 := by
    simp [activeJoints, exampleJoints, REVOLUTE, PRISMATIC, FIXED]
  refine ⟨?_, ?_, hc, ?_⟩
  · intro k hk
    have : k < 2 := hk
    interval_cases k
    · left; rfl
    · right; exact ⟨0, by omega, rfl⟩
  · intro j hj
    simp only [exampleJoints, List.mem_cons, List.not_mem_nil, or_false] at hj
    rcases hj with rfl | rfl <;> simp [Fin.sum_univ_three]
  · exact (C99_construct _ _ _ _ _ example_range example_valid).1.2 ⟨example_accepted, by rw [hc]; rfl, by rw [hc]; rfl,
      by simp⟩

/-- The joints of the arm in the other order, and fixed: the slide before the shoulder that moves it -/
noncomputable def disordered : List RobotJoint :=
  [⟨⟨1, 0⟩, ![1, 0, 0], 1, 2, ⟨some 0, some 0, 0, FIXED⟩, "slide"⟩,
   ⟨⟨1, 0⟩, ![0, 0, 1], 0, 1, ⟨some 0, some 0, 0, FIXED⟩, "shoulder"⟩]

/-- C98: the check accepts joints in any order, but the poses are computed in the order of the joints: for a joint before the
one that moves its parent link they come from an old pose of the parent, at construction from one that was never set. -/
theorem C98_unordered_wrong : ∃ r, make ⟨1, 0⟩ exampleLinks disordered [] [] = .ok r ∧
    ¬ Placed r.base r.joints (poses r.links) := by
  have hr : ∀ j ∈ disordered, InRange exampleLinks.length j := by
    intro j hj
    simp only [disordered, List.mem_cons, List.not_mem_nil, or_false] at hj
    rcases hj with rfl | rfl <;> simp [InRange, exampleLinks]
  have hv : ∀ j ∈ disordered, Valid j.model := by
    intro j hj
    simp only [disordered, List.mem_cons, List.not_mem_nil, or_false] at hj
    rcases hj with rfl | rfl <;>
      exact ⟨⟨0, by simp [Within]⟩, fun h => absurd h (by decide), fun _ => by simp [Within]⟩
  have hc : (activeJoints disordered).length = 0 := by
    simp [activeJoints, disordered]
  have hacc : ∃ s, sanityCheck exampleLinks disordered = .ok (s, true) := by
    obtain ⟨s, b, h1, h2⟩ := C97_check exampleLinks disordered hr
    refine ⟨s, ?_⟩
    rw [h1, h2.2]
    refine ⟨rfl, by simp [exampleLinks], by simp [disordered], ?_, ?_⟩
    · intro j hj
      simp only [disordered, List.mem_cons, List.not_mem_nil, or_false] at hj
      rcases hj with rfl | rfl
      · exact unit_x
      · exact unit_z
    · intro i hi
      have h1 : Reach (disordered.map fun j => (j.parent, j.child)) 1 := .step (p := 0) (by simp [disordered]) .root
      have h2 : Reach (disordered.map fun j => (j.parent, j.child)) 2 := .step (p := 1) (by simp [disordered]) h1
      have hi' : i < 3 := hi
      interval_cases i
      · exact .root
      · exact h1
      · exact h2
  obtain ⟨r, hm⟩ := (C99_construct ⟨1, 0⟩ exampleLinks disordered [] [] hr hv).1.2 ⟨hacc, by rw [hc]; rfl, by rw [hc]; rfl, by simp⟩
  refine ⟨r, hm, ?_⟩
  obtain ⟨h1, h2, h3, h4, h5, h6, h7, h8, h9⟩ := (make_cases hr hv).1 r hm
  have hj : r.joints = disordered := by
    have hu : ∀ a b : RobotJoint, Same a b → a.model.type = FIXED → Valid b.model → a.model.lower = some 0 →
        a.model.upper = some 0 → a.model.value = 0 → b = a := by
      intro a b hab ht hb hlo hup hva
      unfold Same at hab
      have hw := hb.other (by rw [hab]; simp only; rw [ht]; decide)
      have h0 : b.model.value = 0 := by
        have e1 : b.model.lower = some 0 := by rw [hab]; exact hlo
        have e2 : b.model.upper = some 0 := by rw [hab]; exact hup
        exact le_antisymm (hw.2 0 e2) (hw.1 0 e1)
      rw [hab, h0, ← hva]
    have hval := h1.valid
    generalize r.joints = js at h2 hval
    unfold disordered at h2
    cases h2 with
    | cons a l =>
      cases l with
      | cons b l =>
        cases l
        rw [hu _ _ a rfl (hval _ (by simp)) rfl rfl rfl, hu _ _ b rfl (hval _ (by simp)) rfl rfl rfl]
        rfl
  rw [hj, h4] at h9 ⊢
  intro hp
  have hlinks : r.links = [⟨⟨1, 0⟩, "base"⟩, ⟨(⟨1, 0⟩ : Transform).mul ⟨1, 0⟩, "arm"⟩,
      ⟨(⟨1, ![1, 0, 0]⟩ : Transform).mul ⟨1, 0⟩, "hand"⟩] := by
    have : ∀ x, updateTransforms ⟨1, 0⟩ disordered exampleLinks = .ok x → x = [⟨⟨1, 0⟩, "base"⟩,
        ⟨(⟨1, 0⟩ : Transform).mul ⟨1, 0⟩, "arm"⟩, ⟨(⟨1, ![1, 0, 0]⟩ : Transform).mul ⟨1, 0⟩, "hand"⟩] := by
      intro x hx
      unfold updateTransforms disordered exampleLinks at hx
      simp [updateLoop, read, change, at?, childTransform, Joint.isRevolute, Joint.isPrismatic, FIXED, REVOLUTE, CONTINUOUS,
        PRISMATIC] at hx
      exact hx.symm
    exact this _ h9
  have hq := hp.2 _ (List.mem_cons_self : _ ∈ disordered) 0
  rw [hlinks] at hq
  have := congrFun hq 0
  simp [poses, point, Transform.mul, motion, FIXED, REVOLUTE, CONTINUOUS, PRISMATIC] at this

end Verif.LinkedRobot
