import Verif.Model.Listener

/-!
# Specification: what calls on a listener may return

Stated on histories of calls alone; only the type of histories is shared with the model.
-/
namespace Verif.Listener

variable {μ : Type}

/-- The message stored after a history: the last one delivered, unless a `waitForNew` has cleared it
since. -/
def latest (h : List (Event μ)) : Option μ :=
  h.foldl (fun v e => match e with
    | .delivered _ m => some m
    | .cleared _ => none
    | _ => v) none

/-- The call `c` of thread `t` began at position `since` of a history and the thread has begun no
other since. -/
def Running (h : List (Event μ)) (t : Nat) (c : Call μ) (since : Nat) : Prop :=
  h[since]? = some (.began t c) ∧ ∀ i c', since < i → h[i]? ≠ some (.began t c')

/-- The results a call may end with after a history. -/
def MayEnd (h : List (Event μ)) (t : Nat) (since : Nat) : Call μ → Result μ → Prop
  /- a callback has delivered its message during the call -/
  | .callback m, .done => ∃ j, since < j ∧ h[j]? = some (.delivered t m)
  /- get returns what was stored at some moment of the call -/
  | .get, .value v => ∃ j, since < j ∧ j ≤ h.length ∧ v = latest (h.take j)
  /- waitForNew returns a message that was delivered during the call, after it cleared the old one -/
  | .waitForNew, .message m => ∃ i j u, since < i ∧ i < j ∧ h[i]? = some (.cleared t) ∧
      h[j]? = some (.delivered u m)
  /- waitForNew throws only when the node has been shut down -/
  | .waitForNew, .interrupted => ∃ j : Nat, h[j]? = some .shutdown
  | _, _ => False

end Verif.Listener
