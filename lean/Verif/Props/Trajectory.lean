import Verif.Model.Trajectory
import Verif.Spec.Trajectory

/-!
# C58: appending trajectories
-/
namespace Verif.Trajectory
open Verif

variable {P : Type}

theorem fits_iff (t : Int) : Fits t ↔ Representable t := by
  unfold Fits Representable
  omega

theorem equalNames_spec (a b : List String) :
    (a <+: b → equalNames a b = .ok true) ∧
    (b <+: a → b ≠ a → equalNames a b = .ub) ∧
    (¬ a <+: b → ¬ b <+: a → equalNames a b = .ok false) := by
  induction a generalizing b with
  | nil =>
    refine ⟨fun _ => rfl, fun h hn => ?_, fun h => ?_⟩
    · exact absurd (List.prefix_nil.1 h) hn
    · exact absurd (List.nil_prefix) h
  | cons x a ih =>
    cases b with
    | nil =>
      refine ⟨fun h => ?_, fun _ _ => rfl, fun _ h => ?_⟩
      · simp at h
      · exact absurd (List.nil_prefix) h
    | cons y b =>
      rw [equalNames]
      by_cases hxy : x = y
      · subst hxy
        rw [if_pos rfl]
        simp only [List.cons_prefix_cons, true_and]
        obtain ⟨h1, h2, h3⟩ := ih b
        exact ⟨h1, fun h hn => h2 h (fun e => hn (by rw [e])), h3⟩
      · rw [if_neg hxy]
        simp only [List.cons_prefix_cons, hxy, false_and, Ne.symm hxy, not_false_eq_true]
        exact ⟨False.elim, False.elim, fun _ _ => trivial⟩

/-- the time of a point shifted by the time the first trajectory takes -/
def shift (last : Int) (p : Point P) : Point P := { p with time := last + p.time }

theorem appendLoop_spec (last : Int) (ps : List (Point P)) (t : Traj P) :
    ((∀ p ∈ ps, Fits (last + p.time)) →
      appendLoop last ps t = (.ok (), { t with points := t.points ++ ps.map (shift last) })) ∧
    (∀ front p back, ps = front ++ p :: back → (∀ q ∈ front, Fits (last + q.time)) →
      ¬ Fits (last + p.time) →
      appendLoop last ps t = (.throws .runtimeError, { t with points := t.points ++ front.map (shift last) })) := by
  induction ps generalizing t with
  | nil =>
    refine ⟨fun _ => by simp [appendLoop], ?_⟩
    intro front p back h
    simp at h
  | cons q ps ih =>
    constructor
    · intro h
      rw [appendLoop]
      have e : addDuration last q.time = .ok (last + q.time) := by
        unfold addDuration; rw [if_pos (h q (List.mem_cons_self ..))]
      rw [e, M.bind_lift_ok, M.bind_modify, (ih _).1 (fun p hp => h p (List.mem_cons_of_mem _ hp))]
      simp [shift]
    · intro front p back h hf hp
      cases front with
      | nil =>
        injection h with h1 h2
        subst h1
        rw [appendLoop]
        have e : addDuration last q.time = .throws .runtimeError := by
          unfold addDuration; rw [if_neg hp]
        rw [e, M.bind_lift_throws]
        simp
      | cons r front =>
        injection h with h1 h2
        subst h1
        rw [appendLoop]
        have e : addDuration last q.time = .ok (last + q.time) := by
          unfold addDuration; rw [if_pos (hf q (List.mem_cons_self ..))]
        rw [e, M.bind_lift_ok, M.bind_modify,
          (ih _).2 front p back h2 (fun x hx => hf x (List.mem_cons_of_mem _ hx)) hp]
        simp [shift]

/-- the trajectory once names and frame are settled -/
def settled (t1 t2 : Traj P) : Traj P :=
  { names := if t1.names = [] then t2.names else t1.names
    frame := if t1.frame = "" then t2.frame else t1.frame
    points := t1.points }

theorem append_accept (t1 t2 : Traj P) (h : t1.names <+: t2.names) :
    append t2 t1 = appendLoop (lastTime t1) t2.points (settled t1 t2) := by
  have e : checkNames t2 t1 =
      (.ok (), { t1 with names := if t1.names = [] then t2.names else t1.names }) := by
    unfold checkNames
    rw [M.bind_get]
    by_cases hn : t1.names = []
    · rw [if_pos hn, if_pos hn]; rfl
    · rw [if_neg hn, if_neg hn, (equalNames_spec t1.names t2.names).1 h, M.bind_lift_ok]
      rfl
  unfold append
  rw [M.bind_apply, e]
  dsimp only
  rw [M.bind_modify, M.bind_get]
  unfold settled lastTime
  by_cases hf : t1.frame = ""
  · simp only [hf, if_pos]
  · simp only [hf, if_false]

/-- Appending to a trajectory without joint names or with the same joint names keeps its points and adds those
of the second, their times shifted by the time of its last point (0 if it has none); joint names and frame are
taken from the second if the first has none. -/
theorem C58_append (t1 t2 : Traj P) (hn : t1.names = [] ∨ t1.names = t2.names)
    (ht : ∀ p ∈ t2.points, Representable (lastTime t1 + p.time)) :
    append t2 t1 = (.ok (),
      { names := t2.names
        frame := if t1.frame = "" then t2.frame else t1.frame
        points := t1.points ++ t2.points.map fun p =>
          { p with time := (match t1.points.getLast? with | some q => q.time | none => 0) + p.time } }) := by
  have hp : t1.names <+: t2.names := by
    rcases hn with h | h
    · rw [h]; exact List.nil_prefix
    · rw [h]; exact List.prefix_rfl
  rw [append_accept t1 t2 hp, (appendLoop_spec _ _ _).1 (fun p hp => (fits_iff _).2 (ht p hp))]
  unfold settled
  have : (if t1.names = [] then t2.names else t1.names) = t2.names := by
    split
    · rfl
    · next h => exact hn.resolve_left h
  rw [this]
  rfl

/-- Joint names of which neither list starts with the other are refused and nothing changes. -/
theorem C58_refuse_partial (t1 t2 : Traj P) (h1 : ¬ t1.names <+: t2.names) (h2 : ¬ t2.names <+: t1.names) :
    append t2 t1 = (.throws .runtimeError, t1) := by
  have hne : t1.names ≠ [] := fun h => h1 (h ▸ List.nil_prefix)
  have e : checkNames t2 t1 = (.throws .runtimeError, t1) := by
    unfold checkNames
    rw [M.bind_get, if_neg hne, (equalNames_spec t1.names t2.names).2.2 h1 h2, M.bind_lift_ok]
    rfl
  unfold append
  rw [M.bind_apply, e]

/-- Different joint names are accepted when the second trajectory has more of them, and undefined behaviour
when it has fewer. -/
theorem C58_prefix_wrong (t1 t2 : Traj P) (hd : t1.names ≠ t2.names) :
    (t1.names <+: t2.names → t1.names ≠ [] → (∀ p ∈ t2.points, Representable (lastTime t1 + p.time)) →
      (append t2 t1).1 = .ok () ∧ (append t2 t1).2.names = t1.names) ∧
    (t2.names <+: t1.names → append t2 t1 = (.ub, t1)) := by
  constructor
  · intro h hne ht
    rw [append_accept t1 t2 h, (appendLoop_spec _ _ _).1 (fun p hp => (fits_iff _).2 (ht p hp))]
    exact ⟨rfl, by unfold settled; simp [hne]⟩
  · intro h
    have hne : t1.names ≠ [] := by
      intro e
      rw [e] at h hd
      exact hd (List.prefix_nil.1 h).symm
    have e : checkNames t2 t1 = (.ub, t1) := by
      unfold checkNames
      rw [M.bind_get, if_neg hne, (equalNames_spec t1.names t2.names).2.1 h (Ne.symm hd)]
      rfl
    unfold append
    rw [M.bind_apply, e]

/-- A time that does not fit makes the call throw after the points before it have been added. -/
theorem C58_overflow (t1 t2 : Traj P) (hn : t1.names = [] ∨ t1.names = t2.names) (front back : List (Point P))
    (p : Point P) (hp : t2.points = front ++ p :: back) (hf : ∀ q ∈ front, Representable (lastTime t1 + q.time))
    (ho : ¬ Representable (lastTime t1 + p.time)) :
    append t2 t1 = (.throws .runtimeError,
      { names := t2.names
        frame := if t1.frame = "" then t2.frame else t1.frame
        points := t1.points ++ front.map fun p => { p with time := lastTime t1 + p.time } }) := by
  have hpre : t1.names <+: t2.names := by
    rcases hn with h | h
    · rw [h]; exact List.nil_prefix
    · rw [h]; exact List.prefix_rfl
  rw [append_accept t1 t2 hpre, (appendLoop_spec _ _ _).2 front p back hp (fun q hq => (fits_iff _).2 (hf q hq))
    (fun h => ho ((fits_iff _).1 h))]
  unfold settled
  have : (if t1.names = [] then t2.names else t1.names) = t2.names := by
    split
    · rfl
    · next h => exact hn.resolve_left h
  rw [this]
  rfl

example : append ⟨["a", "b"], "w", [⟨1, 7⟩, ⟨3, 8⟩]⟩ ⟨["a", "b"], "", [⟨0, 5⟩, ⟨2, 6⟩]⟩ =
      (.ok (), (⟨["a", "b"], "w", [⟨0, 5⟩, ⟨2, 6⟩, ⟨3, 7⟩, ⟨5, 8⟩]⟩ : Traj Nat)) ∧
    append ⟨["a", "c"], "w", [⟨1, 7⟩]⟩ ⟨["a", "b"], "", [⟨0, 5⟩]⟩ =
      (.throws .runtimeError, (⟨["a", "b"], "", [⟨0, 5⟩]⟩ : Traj Nat)) ∧
    append ⟨["a"], "w", [⟨1, 7⟩]⟩ ⟨["a", "b"], "", [⟨0, 5⟩]⟩ =
      (.ub, (⟨["a", "b"], "", [⟨0, 5⟩]⟩ : Traj Nat)) ∧
    append ⟨["a", "b"], "w", [⟨1, 7⟩]⟩ ⟨["a"], "", [⟨4, 5⟩]⟩ =
      (.ok (), (⟨["a"], "w", [⟨4, 5⟩, ⟨5, 7⟩]⟩ : Traj Nat)) := by
  decide +kernel

/-- Appending a trajectory to itself: nothing happens without points. With points it is undefined behaviour,
unless the first new time does not fit, in which case nothing is changed and it throws. -/
theorem C58_self (t : Traj P) :
    (t.points = [] → appendSelf t = (.ok (), t)) ∧
    (∀ p ps, t.points = p :: ps → Representable (lastTime t + p.time) → (appendSelf t).1 = .ub) ∧
    (∀ p ps, t.points = p :: ps → ¬ Representable (lastTime t + p.time) →
      appendSelf t = (.throws .runtimeError, t)) := by
  have e : checkNames t t = (.ok (), t) := by
    unfold checkNames
    rw [M.bind_get]
    by_cases hn : t.names = []
    · rw [if_pos hn]; rfl
    · rw [if_neg hn, (equalNames_spec t.names t.names).1 List.prefix_rfl, M.bind_lift_ok]
      rfl
  have hs : appendSelf t = appendSelfLoop (lastTime t) t.points t := by
    unfold appendSelf
    rw [M.bind_get, M.bind_apply, e]
    dsimp only
    rw [M.bind_apply]
    have : (if t.frame = "" then { t with frame := t.frame } else t) = t := by
      by_cases hf : t.frame = "" <;> simp [hf]
    simp only [M.modify, this]
    rw [M.bind_get]
  refine ⟨?_, ?_, ?_⟩
  · intro h; rw [hs, h]; rfl
  · intro p ps h hr
    rw [hs, h]
    unfold appendSelfLoop addDuration
    dsimp only
    rw [if_pos ((fits_iff _).2 hr), M.bind_lift_ok]
    rfl
  · intro p ps h hr
    rw [hs, h]
    unfold appendSelfLoop addDuration
    dsimp only
    rw [if_neg (fun hf => hr ((fits_iff _).1 hf))]
    rfl

example : (appendSelf (⟨["a"], "f", [⟨1000000000, 5⟩]⟩ : Traj Nat)).1 = .ub := by decide +kernel

end Verif.Trajectory
