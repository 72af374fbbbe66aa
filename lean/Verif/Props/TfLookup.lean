import Verif.Model.TfLookup
import Verif.Props.TransformationHelper
/-!
# C145: looking transforms up and sending them
-/
namespace Verif.TfLookup
open Verif Verif.Conversions Verif.Kinematics Verif.TransformationHelper Verif.Pose Matrix

theorem msg_from {α : Type} (can down : Nat → Bool) (look : Nat → Except TfExc α) (rounds i k : Nat) (hk : k < rounds)
    (hw : ∀ j, j < k → can (i + j) = false ∧ down (i + j) = false) :
    (can (i + k) = true → getTransformMsg can down look rounds i = some (look (i + k))) ∧
    (can (i + k) = false → down (i + k) = true →
      getTransformMsg can down look rounds i = some (.error (.other .keyboardInterrupt))) := by
  induction k generalizing rounds i with
  | zero =>
    obtain ⟨r, rfl⟩ : ∃ r, rounds = r + 1 := ⟨rounds - 1, by omega⟩
    rw [Nat.add_zero, getTransformMsg]
    refine ⟨fun h => by simp [h], fun h h' => by simp [h, h']⟩
  | succ k ih =>
    obtain ⟨r, rfl⟩ : ∃ r, rounds = r + 1 := ⟨rounds - 1, by omega⟩
    have h0 := hw 0 (by omega)
    rw [Nat.add_zero] at h0
    have := ih r (i + 1) (by omega) (fun j hj => by
      have := hw (j + 1) (by omega)
      rwa [show i + (j + 1) = i + 1 + j by omega] at this)
    rw [getTransformMsg, show i + (k + 1) = i + 1 + k by omega]
    simpa [h0.1, h0.2] using this

theorem msg_none {α : Type} (can down : Nat → Bool) (look : Nat → Except TfExc α) (rounds i : Nat)
    (hw : ∀ j, j < rounds → can (i + j) = false ∧ down (i + j) = false) : getTransformMsg can down look rounds i = none := by
  induction rounds generalizing i with
  | zero => rfl
  | succ r ih =>
    have h0 := hw 0 (by omega)
    rw [Nat.add_zero] at h0
    rw [getTransformMsg]
    simp only [h0.1, h0.2, Bool.false_eq_true, not_false_eq_true, if_true, if_false]
    exact ih (i + 1) fun j hj => by
      have := hw (j + 1) (by omega)
      rwa [show i + (j + 1) = i + 1 + j by omega] at this

/-- C145: `get_transform_msg` ends in the first round in which the transform can be had or ROS is shut down: with the lookup
of that round if the transform can be had, even when ROS is shut down, and with `KeyboardInterrupt` otherwise. If there is
no such round it waits for ever. -/
theorem C145_waits {α : Type} (can down : Nat → Bool) (look : Nat → Except TfExc α) :
    (∀ k rounds, k < rounds → (∀ j, j < k → can j = false ∧ down j = false) →
      (can k = true → getTransformMsg can down look rounds 0 = some (look k)) ∧
      (can k = false → down k = true →
        getTransformMsg can down look rounds 0 = some (.error (.other .keyboardInterrupt)))) ∧
    ((∀ j, can j = false ∧ down j = false) ↔ ∀ rounds, getTransformMsg can down look rounds 0 = none) := by
  refine ⟨fun k rounds hk hw => ?_, fun h rounds => ?_, fun h => ?_⟩
  · have := msg_from can down look rounds 0 k hk (by simpa using hw)
    simpa using this
  · exact msg_none can down look rounds 0 fun j _ => by simpa using h j
  · intro j
    induction j using Nat.strongRecOn with
    | ind j ih =>
      have h1 := msg_from can down look (j + 1) 0 j (by omega) (by simpa using ih)
      rw [Nat.zero_add, h (j + 1)] at h1
      have hc : can j = false := by
        cases hc : can j with
        | false => rfl
        | true => exact absurd (h1.1 hc) (by simp)
      refine ⟨hc, ?_⟩
      cases hd : down j with
      | false => rfl
      | true => exact absurd (h1.2 hc hd) (by simp)

/-- C145: the matrix of `get_transform` takes the coordinates of a point in the child frame to those in the parent frame,
as the message of the lookup does. `None` comes exactly of the three exceptions of tf; every other exception is raised. -/
theorem C145_matrix {tf : Tf} (h : IsTf tf) (can down : Nat → Bool) (look : Nat → Except TfExc (TransformMsg ℝ)) (rounds : Nat) :
    (∀ t, getTransformMsg can down look rounds 0 = some (.ok t) → Unit t →
      ∃ m, getTransform tf can down look rounds = some (.ok (some m)) ∧
        ∀ p, coords (pointFromVector (m.mulVec (pointToVector p))) = act t (coords p)) ∧
    (getTransform tf can down look rounds = some (.ok none) ↔
      getTransformMsg can down look rounds 0 ∈
        [some (.error .lookup), some (.error .connectivity), some (.error .extrapolation)]) ∧
    (∀ e, getTransform tf can down look rounds = some (.error (.other e)) ↔
      getTransformMsg can down look rounds 0 = some (.error (.other e))) ∧
    (getTransform tf can down look rounds = none ↔ getTransformMsg can down look rounds 0 = none) := by
  refine ⟨fun t ht hu => ?_, ?_, fun e => ?_, ?_⟩
  · refine ⟨buildMatrixRos tf t.translation t.rotation, by unfold getTransform; rw [ht], fun p => ?_⟩
    rw [(C133_matrix h).2.2.2.2 t]
    exact (C133_point h t hu p).1
  · unfold getTransform
    rcases getTransformMsg can down look rounds 0 with _ | (_ | _ | _ | e) | t <;> simp
  · unfold getTransform
    rcases getTransformMsg can down look rounds 0 with _ | (_ | _ | _ | e) | t <;> simp
  · unfold getTransform
    rcases getTransformMsg can down look rounds 0 with _ | (_ | _ | _ | e) | t <;> simp

/-- The hypotheses are met: the transform can be had in the second round. -/
example : ∃ tf, ∃ m, getTransform tf (fun i => i = 1) (fun _ => false) (fun _ => .ok ⟨⟨1, 2, 3⟩, ⟨0, 0, 1, 0⟩⟩) 5 = some (.ok (some m)) ∧
    ∀ p, coords (pointFromVector (m.mulVec (pointToVector p))) = act ⟨⟨1, 2, 3⟩, ⟨0, 0, 1, 0⟩⟩ (coords p) := by
  obtain ⟨tf, h⟩ := exists_tf
  exact ⟨tf, (C145_matrix h _ _ _ 5).1 ⟨⟨1, 2, 3⟩, ⟨0, 0, 1, 0⟩⟩
    (((C145_waits _ _ _).1 1 5 (by omega) (by intro j hj; simp; omega)).1 (by simp)) (by simp [TransformationHelper.Unit, TransformationHelper.quat, Quat.squaredNorm])⟩

/-- C145: a pose is sent as its position and orientation; a rigid matrix as a message that moves points as the matrix does.
The stamp is the time given, or now. -/
theorem C145_send {tf : Tf} (h : IsTf tf) (w : Wrapper) (now : ℝ) (parent child : String) (isStatic : Bool)
    (time : Option ℝ) :
    (∀ p : Conversions.Pose ℝ, w.sendTransformFromPose now p parent child isStatic time =
      w.sendTransform now ![p.position.x, p.position.y, p.position.z]
        ⟨p.orientation.w, p.orientation.x, p.orientation.y, p.orientation.z⟩ parent child isStatic time) ∧
    (∀ R u, IsRotationMatrix R → ∃ t : TransformMsg ℝ, Unit t ∧ (∀ v, act t v = R.mulVec v + u) ∧
      w.sendTransformMatrix tf now (rigid R u) parent child isStatic time =
        w.publish ⟨time.getD now, parent, child, t⟩ isStatic) ∧
    (∀ (x y z : ℝ) (q : Quat), w.sendTransform now ![x, y, z] q parent child isStatic time =
      w.publish ⟨time.getD now, parent, child, ⟨⟨x, y, z⟩, ⟨q.x, q.y, q.z, q.w⟩⟩⟩ isStatic) := by
  refine ⟨fun p => rfl, fun R u hR => ?_, fun x y z q => rfl⟩
  obtain ⟨hu, ha⟩ := fromMatrix_eq h hR u
  exact ⟨transformFromMatrix tf (rigid R u), hu, ha, rfl⟩

/-- A call that sends: the message, and whether it is static -/
abbrev Sending := TransformStamped × Bool

/-- C145: after any number of calls, the messages on `/tf` are the transforms that are not static in their order, one by
one. On `/tf_static` there is one message for each static transform; it has all static transforms so far in their order,
older ones of the same frame as well. -/
theorem C145_static (calls : List Sending) :
    let w := calls.foldl (fun w c => w.publish c.1 c.2) (Wrapper.mk [] [] [])
    let dynamic := (calls.filter fun c => c.2 = false).map Prod.fst
    let static := (calls.filter fun c => c.2 = true).map Prod.fst
    w.sent = dynamic ∧ w.statics = static ∧ w.sentStatic.length = static.length ∧
      ∀ i, i < static.length → w.sentStatic[i]? = some (static.take (i + 1)) := by
  have key : ∀ (calls : List Sending) (w : Wrapper),
      w.sentStatic.length = w.statics.length →
      (∀ i, i < w.statics.length → w.sentStatic[i]? = some (w.statics.take (i + 1))) →
      let w' := calls.foldl (fun w c => w.publish c.1 c.2) w
      w'.sent = w.sent ++ (calls.filter fun c => c.2 = false).map Prod.fst ∧
      w'.statics = w.statics ++ (calls.filter fun c => c.2 = true).map Prod.fst ∧
      w'.sentStatic.length = w'.statics.length ∧
      ∀ i, i < w'.statics.length → w'.sentStatic[i]? = some (w'.statics.take (i + 1)) := by
    intro calls
    induction calls with
    | nil => intro w h1 h2; simpa using ⟨h1, h2⟩
    | cons c cs ih =>
      intro w h1 h2
      obtain ⟨t, b⟩ := c
      rw [List.foldl_cons]
      cases b with
      | false =>
        have := ih (w.publish t false) (by simpa [Wrapper.publish] using h1) (by simpa [Wrapper.publish] using h2)
        refine ⟨?_, ?_, this.2.2.1, this.2.2.2⟩
        · rw [this.1]; simp [Wrapper.publish]
        · rw [this.2.1]; simp [Wrapper.publish]
      | true =>
        have := ih (w.publish t true) (by simpa [Wrapper.publish] using h1) (by
          intro i hi
          simp only [Wrapper.publish, if_true, List.length_append, List.length_cons, List.length_nil] at hi ⊢
          by_cases hl : i < w.statics.length
          · rw [List.getElem?_append_left (by omega), h2 i hl, List.take_append_of_le_length (by omega)]
          · have : i = w.statics.length := by omega
            subst this
            rw [List.getElem?_append_right (by omega), h1, Nat.sub_self, List.take_of_length_le (by simp)]
            rfl)
        refine ⟨?_, ?_, this.2.2.1, this.2.2.2⟩
        · rw [this.1]; simp [Wrapper.publish]
        · rw [this.2.1]; simp [Wrapper.publish]
  obtain ⟨h1, h2, h3, h4⟩ := key calls ⟨[], [], []⟩ rfl (by simp)
  simp only [List.nil_append] at h1 h2
  refine ⟨h1, h2, ?_, ?_⟩
  · rw [h3, h2]
  · rw [h2] at h4; exact h4

end Verif.TfLookup
