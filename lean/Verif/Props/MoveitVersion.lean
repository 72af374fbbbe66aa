import Verif.Model.MoveitVersion
import Mathlib.Data.Prod.Lex

/-!
# Property C209 (moveit_pose_type.hpp): comparing versions
-/
namespace Verif.MoveitVersion

/-- Versions in the order of their release: the numbers are compared from left to right. -/
def Version.key (v : Version) : Int ×ₗ (Int ×ₗ Int) := toLex (v.major, toLex (v.minor, v.patch))

/-- **C209.** `MOVEIT_VERSION_AT_LEAST(x, y, z)` holds exactly when the version is not before x.y.z in the order that
compares the numbers from left to right. -/
theorem C209_order (v : Version) (x y z : Int) :
    versionAtLeast v x y z = true ↔ (⟨x, y, z⟩ : Version).key ≤ v.key := by
  unfold versionAtLeast Version.key
  rw [Prod.Lex.toLex_le_toLex, Prod.Lex.toLex_le_toLex]
  simp only [Bool.or_eq_true, Bool.and_eq_true, decide_eq_true_eq]
  omega

/-- **C209.** A version is at least itself; of two versions one is at least the other, both only when they are the same;
and a later version is at least all that an earlier one is. -/
theorem C209_total (v w : Version) :
    versionAtLeast v v.major v.minor v.patch = true ∧
    (versionAtLeast v w.major w.minor w.patch = true ∨ versionAtLeast w v.major v.minor v.patch = true) ∧
    (versionAtLeast v w.major w.minor w.patch = true → versionAtLeast w v.major v.minor v.patch = true → v = w) ∧
    (versionAtLeast v w.major w.minor w.patch = true →
      ∀ x y z, versionAtLeast w x y z = true → versionAtLeast v x y z = true) := by
  refine ⟨(C209_order _ _ _ _).2 le_rfl, ?_, ?_, ?_⟩
  · rw [C209_order, C209_order]; exact le_total _ _
  · rw [C209_order, C209_order]
    intro h1 h2
    have e := le_antisymm h2 h1
    simp only [Version.key, EmbeddingLike.apply_eq_iff_eq, Prod.mk.injEq] at e
    cases v; cases w
    simp only at e
    rw [e.1, e.2.1, e.2.2]
  · intro h x y z h2
    rw [C209_order] at h h2 ⊢
    exact h2.trans h

/-- **C209.** Poses are isometries from version 1.0.1 on, and affine transforms before. -/
theorem C209_pose (v : Version) :
    (poseType v = .isometry ↔ (⟨1, 0, 1⟩ : Version).key ≤ v.key) ∧ (poseType v = .affine ↔ v.key < (⟨1, 0, 1⟩ : Version).key) := by
  have h := C209_order v 1 0 1
  rw [← not_le, ← h]
  unfold poseType
  cases versionAtLeast v 1 0 1 <;> simp

/-- Versions on both sides. -/
example : poseType ⟨1, 0, 0⟩ = .affine ∧ poseType ⟨1, 0, 1⟩ = .isometry ∧ poseType ⟨0, 10, 8⟩ = .affine ∧
    poseType ⟨2, 0, 0⟩ = .isometry ∧ poseType ⟨1, 1, 0⟩ = .isometry := by decide

end Verif.MoveitVersion
