import Verif.Model.JointNames

/-!
# Property C210 (simple_linked_robot_model.hpp): the names of joint types
-/
namespace Verif.JointNames
open Verif Verif.LinkedRobot

/-- The types of joints and their names. -/
def names : List (JointType × String) := [(0, "Fixed"), (1, "Revolute"), (2, "Continuous"), (4, "Prismatic")]

/-- **C210.** The name of a joint is that of its type; a joint whose type is none of the four, as a damaged buffer can give,
has none, and asking for it is an exception. -/
theorem C210_name (j : Joint) :
    (∀ s, j.getTypeString = .ok s ↔ (j.type, s) ∈ names) ∧
    (j.getTypeString = .throws .runtimeError ↔ ∀ s, (j.type, s) ∉ names) := by
  unfold Joint.getTypeString Joint.isContinuous Joint.isRevolute Joint.isPrismatic Joint.isFixed names
  simp only [PRISMATIC, REVOLUTE, CONTINUOUS, FIXED, List.mem_cons, Prod.mk.injEq, List.not_mem_nil, or_false]
  by_cases h2 : j.type = 2
  · simp [h2, eq_comm]
  · by_cases h1 : j.type = 1
    · simp [h1, eq_comm]
    · by_cases h4 : j.type = 4
      · simp [h4, eq_comm]
      · by_cases h0 : j.type = 0
        · simp [h0, eq_comm]
        · have k0 : ¬ j.type = 0#32 := h0
          have k1 : ¬ j.type = 1#32 := h1
          have k2 : ¬ j.type = 2#32 := h2
          have k4 : ¬ j.type = 4#32 := h4
          simp [k0, k1, k2, k4]

theorem names_inj {t1 t2 : JointType} {s1 s2 : String} (h1 : (t1, s1) ∈ names) (h2 : (t2, s2) ∈ names) :
    s1 = s2 ↔ t1 = t2 := by
  simp only [names, List.mem_cons, Prod.mk.injEq, List.not_mem_nil, or_false] at h1 h2
  rcases h1 with ⟨rfl, rfl⟩ | ⟨rfl, rfl⟩ | ⟨rfl, rfl⟩ | ⟨rfl, rfl⟩ <;>
    rcases h2 with ⟨rfl, rfl⟩ | ⟨rfl, rfl⟩ | ⟨rfl, rfl⟩ | ⟨rfl, rfl⟩ <;> decide

/-- **C210.** Two joints that have names have the same one exactly when they are of the same type, and exactly then there
is a distance between them. -/
theorem C210_same (j other : Joint) (s1 s2 : String) (h1 : j.getTypeString = .ok s1)
    (h2 : other.getTypeString = .ok s2) :
    (s1 = s2 ↔ j.isSameType other = true) ∧ (s1 = s2 ↔ ∃ d, j.distance other = .ok d) := by
  have h := names_inj ((C210_name j).1 s1 |>.1 h1) ((C210_name other).1 s2 |>.1 h2)
  have hs : (s1 = s2 ↔ j.isSameType other = true) := by
    rw [h]; unfold Joint.isSameType; split <;> simp_all
  refine ⟨hs, hs.trans ?_⟩
  unfold Joint.distance Joint.signedDistance
  by_cases c : j.isSameType other = true
  · simp only [c, if_true, Out.bind_ok, Out.ok.injEq, exists_eq', iff_true]
  · simp only [c]
    simp only [Bool.false_eq_true, if_false, false_iff, not_exists]
    intro d hd
    cases hd

theorem setValue_type {j j' : Joint} {v : Option ℝ} (h : j.setValue v = .ok j') : j'.type = j.type := by
  unfold Joint.setValue at h
  obtain ⟨v, -, h⟩ := Out.bind_eq_ok.1 h
  simp only [Out.ok.injEq] at h
  rw [← h]

/-- **C210.** A joint that was made as one of the four types has the name of that type, whatever its limits and value
are, and keeps it when it gets another value. -/
theorem C210_made (limits : Option ℝ × Option ℝ) (value value' : Option ℝ) (t : JointType) (s : String)
    (h : (t, s) ∈ names) (j j' : Joint) (hj : Joint.make limits value t = .ok j) :
    j.getTypeString = .ok s ∧ (j.copyWithNewValue value' = .ok j' → j'.getTypeString = .ok s) ∧
    (j.setValue value' = .ok j' → j'.getTypeString = .ok s) := by
  have mk : ∀ {l : Option ℝ × Option ℝ} {v : Option ℝ} {t : JointType} {j : Joint}, Joint.make l v t = .ok j → j.type = t := by
    intro l v t j h
    unfold Joint.make at h
    split at h
    · exact setValue_type h
    · split at h
      · cases h
      · exact setValue_type h
  have ht := mk hj
  refine ⟨((C210_name j).1 s).2 (ht ▸ h), fun hc => ?_, fun hc => ?_⟩
  · exact ((C210_name j').1 s).2 ((mk hc).trans ht ▸ h)
  · exact ((C210_name j').1 s).2 ((setValue_type hc).trans ht ▸ h)

/-- A revolute joint, a joint of an unknown type, and two joints that can be compared. -/
example : (⟨some 0, some 1, 0, 1⟩ : Joint).getTypeString = .ok "Revolute" ∧
    (⟨some 0, some 1, 0, 3⟩ : Joint).getTypeString = .throws .runtimeError ∧
    (⟨none, none, 0, 2⟩ : Joint).getTypeString = .ok "Continuous" := by
  refine ⟨?_, ?_, ?_⟩ <;>
    simp [Joint.getTypeString, Joint.isContinuous, Joint.isRevolute, Joint.isPrismatic, Joint.isFixed, PRISMATIC, REVOLUTE,
      CONTINUOUS, FIXED]

/-- Such a joint can be made. -/
example : Joint.make (some 0, some 1) (some (1 / 2)) 1 = .ok ⟨some 0, some 1, 1 / 2, 1⟩ ∧
    ((1 : JointType), "Revolute") ∈ names := by
  refine ⟨?_, by decide⟩
  have h : ¬ ((1 : JointType) = CONTINUOUS) := by decide
  have h1 : ¬ Joint.crossed (some 0, some 1) := by simp [Joint.crossed]
  unfold Joint.make Joint.setValue Joint.enforceLimits Joint.isContinuous
  rw [if_neg h, if_neg h1]
  have h2 : ¬ Joint.belowLower ⟨some 0, some 1, 0, 1⟩ (1 / 2) := by simp [Joint.belowLower]
  have h3 : ¬ Joint.aboveUpper ⟨some 0, some 1, 0, 1⟩ (1 / 2) := by simp [Joint.aboveUpper]; norm_num
  simp only [h, h2, h3, if_false, Bool.false_eq_true, Out.bind_ok]

end Verif.JointNames
