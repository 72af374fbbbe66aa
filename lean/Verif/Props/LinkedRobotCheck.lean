import Verif.Lemmas.LinkedRobotCheck
import Verif.Props.Projection
import Mathlib.Tactic.IntervalCases

/-!
# The check of robot models (C97)
-/
namespace Verif.LinkedRobot
open Verif Matrix

/-- The indices of the joints are those of links. -/
def InRange (n : Nat) (j : RobotJoint) : Prop := (0 ≤ j.parent ∧ j.parent < n) ∧ (0 ≤ j.child ∧ j.child < n)

theorem edges_range {n : Nat} {js : List RobotJoint} (h : ∀ j ∈ js, InRange n j) :
    ∀ e ∈ edges js, (0 ≤ e.1 ∧ e.1 < n) ∧ (0 ≤ e.2 ∧ e.2 < n) := by
  intro e he
  obtain ⟨j, hj, rfl⟩ := List.mem_map.1 he
  exact h j hj

theorem axis_iff (a : Fin 3 → ℝ) : ¬ axisBad a ↔ |Projection.length a - 1| ≤ 1 / 2 ^ 52 := by
  unfold axisBad
  rw [Projection.length_eq, not_lt]
  rfl

theorem sanityCheck_cases (links : List Link) (joints : List RobotJoint) (hr : ∀ j ∈ joints, InRange links.length j) :
    (∃ b s, sanityCheck links joints = .ok (s, b) ∧
      (b = true → links.length = joints.length + 1 ∧ (links.map (·.name)).Nodup ∧ (joints.map (·.name)).Nodup ∧
        (∀ j ∈ joints, ¬ axisBad j.axis) ∧ (∀ i : Nat, i < links.length → Reach (edges joints) i) ∧
        s = skeletonOf links.length joints)) ∧
    (links.length = joints.length + 1 → (links.map (·.name)).Nodup → (joints.map (·.name)).Nodup →
      (∀ j ∈ joints, ¬ axisBad j.axis) → (∀ i : Nat, i < links.length → Reach (edges joints) i) →
      sanityCheck links joints = .ok (skeletonOf links.length joints, true)) := by
  have hs := skeletonLoop_eq links.length joints 0 (List.replicate links.length Element.empty) (by simp) hr
  have hro : 0 < links.length → read (skeletonOf links.length joints) 0 = .ok (element 0 0 joints Element.empty) :=
    fun h => skeletonOf_read joints (le_refl _) (by omega)
  constructor
  · unfold sanityCheck
    by_cases h1 : links.length ≠ joints.length + 1
    · rw [if_pos h1]; exact ⟨false, [], rfl, by simp⟩
    rw [if_neg h1]
    push Not at h1
    by_cases h2 : namesUnique [] (links.map (·.name)) = false
    · rw [if_pos h2]; exact ⟨false, [], rfl, by simp⟩
    rw [if_neg h2]
    by_cases h3 : namesUnique [] (joints.map (·.name)) = false
    · rw [if_pos h3]; exact ⟨false, [], rfl, by simp⟩
    rw [if_neg h3, hs]
    by_cases h4 : ∀ j ∈ joints, ¬ axisBad j.axis
    · rw [if_pos h4, Out.bind_ok]
      simp only
      rw [show (List.replicate links.length Element.empty).mapIdx (fun i e => element i 0 joints e) =
        skeletonOf links.length joints from rfl, hro (by omega), Out.bind_ok]
      split
      · exact ⟨false, [], rfl, by simp⟩
      · obtain ⟨b, hb⟩ := checkSkeleton_ok (js := joints) (show 0 < links.length by omega) (edges_range hr)
        rw [hb, Out.bind_ok]
        refine ⟨b, _, rfl, fun ht => ⟨h1, ?_, ?_, h4, ?_, rfl⟩⟩
        · exact ((namesUnique_iff [] _).1 (by simpa using h2)).1
        · exact ((namesUnique_iff [] _).1 (by simpa using h3)).1
        · rw [ht] at hb
          unfold checkSkeleton at hb
          obtain ⟨l, hl1, hl2⟩ := Out.bind_eq_ok.1 hb
          split at hl2
          · simp at hl2
          · obtain ⟨r, hr1, hr2⟩ := Out.bind_eq_ok.1 hl2
            split at hr2
            · simp at hr2
            · simp only [Out.ok.injEq, List.all_eq_true, List.mem_range, decide_eq_true_eq, skeletonOf_length] at hr2
              intro i hi
              refine (explore_reach links.length joints _).1 0 _ r .root (by simp) hr1 i ?_
              rw [hr2 i hi]; simp
    · rw [if_neg h4, Out.bind_ok]
      exact ⟨false, [], rfl, by simp⟩
  · intro h1 h2 h3 h4 h5
    have t : Tree links.length (edges joints) := tree_of_reach (by rw [h1]; simp [edges]) (edges_range hr) h5
    unfold sanityCheck
    rw [if_neg (by simpa using h1), if_neg, if_neg, hs, if_pos h4, Out.bind_ok]
    · simp only
      rw [show (List.replicate links.length Element.empty).mapIdx (fun i e => element i 0 joints e) =
        skeletonOf links.length joints from rfl, hro t.pos, Out.bind_ok,
        if_neg (by rw [(root_element t).1, (root_element t).2]; simp), checkSkeleton_tree t, Out.bind_ok]
    · rw [(namesUnique_iff [] _).2 ⟨h3, by simp⟩]; simp
    · rw [(namesUnique_iff [] _).2 ⟨h2, by simp⟩]; simp

/-- C97: when the indices of the joints are those of links, the check of a robot model ends with a verdict; it accepts
exactly the models with one link more than joints, with link names all different and joint names all different, axes of
length one (up to 2^-52), and all links reached from link 0 by the joints. -/
theorem C97_check (links : List Link) (joints : List RobotJoint) (hr : ∀ j ∈ joints, InRange links.length j) :
    ∃ s valid, sanityCheck links joints = .ok (s, valid) ∧
      (valid = true ↔ links.length = joints.length + 1 ∧ (links.map (·.name)).Nodup ∧ (joints.map (·.name)).Nodup ∧
        (∀ j ∈ joints, |Projection.length j.axis - 1| ≤ 1 / 2 ^ 52) ∧
        ∀ i : Nat, i < links.length → Reach (joints.map fun j => (j.parent, j.child)) i) := by
  obtain ⟨⟨b, s, h1, h2⟩, h3⟩ := sanityCheck_cases links joints hr
  refine ⟨s, b, h1, fun h => ?_, fun ⟨a1, a2, a3, a4, a5⟩ => ?_⟩
  · obtain ⟨a1, a2, a3, a4, a5, -⟩ := h2 h
    exact ⟨a1, a2, a3, fun j hj => (axis_iff _).1 (a4 j hj), a5⟩
  · rw [h3 a1 a2 a3 (fun j hj => (axis_iff _).2 (a4 j hj)) a5] at h1
    simp only [Out.ok.injEq, Prod.mk.injEq] at h1
    exact h1.2.symm

/-- C97: in an accepted model every link but link 0 is the child of exactly one joint, link 0 of none, and there are no
cycles: links can be given depths such that the child of a joint is one deeper than its parent. -/
theorem C97_tree (links : List Link) (joints : List RobotJoint) (hr : ∀ j ∈ joints, InRange links.length j)
    (s : List Element) (h : sanityCheck links joints = .ok (s, true)) :
    (∀ i : Nat, 0 < i → i < links.length → ∃ j ∈ joints, j.child = i ∧ ∀ j' ∈ joints, j'.child = i → j' = j) ∧
    (∀ j ∈ joints, j.child ≠ 0) ∧
    ∃ depth : Int → Nat, ∀ j ∈ joints, depth j.child = depth j.parent + 1 := by
  obtain ⟨⟨b, s', h1, h2⟩, -⟩ := sanityCheck_cases links joints hr
  rw [h] at h1
  simp only [Out.ok.injEq, Prod.mk.injEq] at h1
  obtain ⟨a1, a2, a3, a4, a5, -⟩ := h2 h1.2.symm
  have t : Tree links.length (edges joints) := tree_of_reach (by rw [a1]; simp [edges]) (edges_range hr) a5
  have hu : (joints.map (·.child)).Nodup := by
    have := t.unique
    simpa [edges, Function.comp_def] using this
  refine ⟨fun i h0 hi => ?_, fun j hj => t.nonroot _ (mem_edges.2 ⟨j, hj, rfl, rfl⟩), Tree.depth (edges joints),
    fun j hj => t.depth_step (mem_edges.2 ⟨j, hj, rfl, rfl⟩)⟩
  obtain ⟨k, hk, hc, -⟩ := parent_joint t (i := (i : Int)) (by omega) (by omega) (by omega)
  exact ⟨_, List.getElem_mem hk, hc, fun j' hj' hc' => List.inj_on_of_nodup_map hu hj' (List.getElem_mem hk) (by
    rw [hc, hc'])⟩

/-- C97: the indices are not checked: a joint with an index that is not of a link is undefined behaviour, if the names and
the axes up to it are accepted. -/
theorem C97_index_undefined (links : List Link) (before after : List RobotJoint) (j : RobotJoint)
    (hl : links.length = (before ++ j :: after).length + 1) (h1 : (links.map (·.name)).Nodup)
    (h2 : ((before ++ j :: after).map (·.name)).Nodup)
    (h3 : ∀ i ∈ before, InRange links.length i ∧ |Projection.length i.axis - 1| ≤ 1 / 2 ^ 52)
    (h4 : |Projection.length j.axis - 1| ≤ 1 / 2 ^ 52) (h5 : ¬ InRange links.length j) :
    sanityCheck links (before ++ j :: after) = .ub := by
  have key : ∀ (before : List RobotJoint) (idx : Nat) (s : List Element), s.length = links.length →
      (∀ i ∈ before, InRange links.length i ∧ |Projection.length i.axis - 1| ≤ 1 / 2 ^ 52) →
      skeletonLoop idx (before ++ j :: after) s = .ub := by
    intro before
    induction before with
    | nil =>
      intro idx s hs _
      rw [List.nil_append]
      unfold skeletonLoop
      rw [if_neg ((axis_iff _).2 h4)]
      by_cases hc : 0 ≤ j.child ∧ j.child < links.length
      · rw [change_eq hc.1 (by omega), Out.bind_ok, change_ub]
        · rfl
        · rw [List.length_mapIdx, hs]
          by_contra hp
          push Not at hp
          exact h5 ⟨hp, hc⟩
      · rw [change_ub]
        · rfl
        · rw [hs]
          by_contra hp
          push Not at hp
          exact hc hp
    | cons b bs ih =>
      intro idx s hs hb
      rw [List.cons_append]
      unfold skeletonLoop
      obtain ⟨r, a⟩ := hb b List.mem_cons_self
      rw [if_neg ((axis_iff _).2 a), change_eq r.2.1 (by have := r.2.2; omega), Out.bind_ok,
        change_eq r.1.1 (by rw [List.length_mapIdx]; have := r.1.2; omega), Out.bind_ok]
      exact ih _ _ (by simpa using hs) fun i hi => hb i (List.mem_cons_of_mem _ hi)
  unfold sanityCheck
  rw [if_neg (by simpa using hl), if_neg, if_neg, key before 0 _ (by simp) h3]
  · rfl
  · rw [(namesUnique_iff [] _).2 ⟨h2, by simp⟩]; simp
  · rw [(namesUnique_iff [] _).2 ⟨h1, by simp⟩]; simp

/-! ### Examples -/

/-- An arm of three links -/
noncomputable def exampleLinks : List Link := [⟨⟨1, 0⟩, "base"⟩, ⟨⟨1, ![1, 0, 0]⟩, "arm"⟩, ⟨⟨1, 0⟩, "hand"⟩]

/-- Its joints: a shoulder and a slide -/
noncomputable def exampleJoints : List RobotJoint :=
  [⟨⟨1, 0⟩, ![0, 0, 1], 0, 1, ⟨some (-1), some 1, 0, REVOLUTE⟩, "shoulder"⟩,
   ⟨⟨1, ![1, 0, 0]⟩, ![1, 0, 0], 1, 2, ⟨some 0, some 1, 0, PRISMATIC⟩, "slide"⟩]

theorem example_range : ∀ j ∈ exampleJoints, InRange exampleLinks.length j := by
  intro j hj
  simp only [exampleJoints, List.mem_cons, List.not_mem_nil, or_false] at hj
  rcases hj with rfl | rfl <;> simp [InRange, exampleLinks]

theorem unit_z : |Projection.length ![0, 0, 1] - 1| ≤ 1 / 2 ^ 52 := by
  simp [Projection.length, Fin.sum_univ_three]

theorem unit_x : |Projection.length ![1, 0, 0] - 1| ≤ 1 / 2 ^ 52 := by
  simp [Projection.length, Fin.sum_univ_three]

theorem example_accepted : ∃ s, sanityCheck exampleLinks exampleJoints = .ok (s, true) := by
  obtain ⟨s, b, h1, h2⟩ := C97_check exampleLinks exampleJoints example_range
  refine ⟨s, ?_⟩
  rw [h1, h2.2]
  refine ⟨rfl, by simp [exampleLinks], by simp [exampleJoints], ?_, ?_⟩
  · intro j hj
    simp only [exampleJoints, List.mem_cons, List.not_mem_nil, or_false] at hj
    rcases hj with rfl | rfl
    · exact unit_z
    · exact unit_x
  · intro i hi
    have h1 : Reach (exampleJoints.map fun j => (j.parent, j.child)) 1 := .step (p := 0) (by simp [exampleJoints]) .root
    have h2 : Reach (exampleJoints.map fun j => (j.parent, j.child)) 2 := .step (p := 1) (by simp [exampleJoints]) h1
    have hi' : i < 3 := hi
    interval_cases i
    · exact .root
    · exact h1
    · exact h2

/-- A model with a loop is in range too, and rejected: link 2 is never reached from link 0. -/
example : ∃ s, sanityCheck exampleLinks (exampleJoints.map fun j => { j with parent := 2, child := j.parent + 1 }) = .ok (s, false) := by
  obtain ⟨s, b, h1, h2⟩ := C97_check exampleLinks (exampleJoints.map fun j => { j with parent := 2, child := j.parent + 1 }) (by
    intro j hj
    simp only [exampleJoints, List.map_cons, List.map_nil, List.mem_cons, List.not_mem_nil, or_false] at hj
    rcases hj with rfl | rfl <;> simp [InRange, exampleLinks])
  refine ⟨s, ?_⟩
  cases b with
  | false => exact h1
  | true =>
    exfalso
    have hR := (h2.1 rfl).2.2.2.2 2 (by simp [exampleLinks])
    have key : ∀ i, Reach ((exampleJoints.map fun j => { j with parent := 2, child := j.parent + 1 }).map
        fun j => (j.parent, j.child)) i → i = 0 := by
      intro i hi
      induction hi with
      | root => rfl
      | step h _ ih => simp [exampleJoints] at h; omega
    have := key _ hR
    simp at this

/-- An index that is not of a link, as in the theorem above -/
example : sanityCheck exampleLinks (exampleJoints.map fun j => { j with child := j.child + 1 }) = .ub := by
  refine C97_index_undefined exampleLinks [{ (exampleJoints[0]'(by simp [exampleJoints])) with child := 2 }] []
    { (exampleJoints[1]'(by simp [exampleJoints])) with child := 3 } (by rfl) (by simp [exampleLinks])
    (by simp [exampleJoints]) ?_ ?_ ?_
  · intro i hi
    simp only [List.mem_cons, List.not_mem_nil, or_false] at hi
    subst hi
    exact ⟨by simp [InRange, exampleLinks, exampleJoints], unit_z⟩
  · exact unit_x
  · simp [InRange, exampleLinks, exampleJoints]

end Verif.LinkedRobot
