import Verif.Base.Python
import Mathlib.Data.Real.Basic
/-!
# Model of `src/arc_utilities/xbox.py` and of the helpers of `src/arc_utilities/ros_helpers.py`

Numbers of axes are exact. A call of `get` of the listener is an argument: what each call returns, `none` for nothing.
-/
namespace Verif.Joystick
open Verif

/-- `sensor_msgs/Joy`. Used for ros_helpers.py:28-56 and xbox.py:34-40. -/
structure Joy where
  buttons : List Int
  axes : List ℝ

/-- The value of an attribute. Used for xbox.py:40, 34-40. -/
inductive Value where
  | button (b : Int)
  | axis (a : ℝ)

/-- The object made by `joy_to_xbox`; the last four buttons are there only for one of the drivers. Used for
ros_helpers.py:28-56 and xbox.py:40. -/
structure Xbox where
  A : Int
  B : Int
  X : Int
  Y : Int
  LB : Int
  RB : Int
  back : Int
  start : Int
  power : Int
  stickLeft : Int
  stickRight : Int
  pad : Option (Int × Int × Int × Int)
  LH : ℝ
  LV : ℝ
  LT : ℝ
  RH : ℝ
  RV : ℝ
  RT : ℝ
  DH : ℝ
  DV : ℝ

/-- `joy_to_xbox` (src/arc_utilities/ros_helpers.py:28-56). Taking a tuple of the wrong length apart raises `ValueError`;
`None` has no buttons. -/
def joyToXbox (joy : Option Joy) (xpad : Bool) : Except PyExc Xbox :=
  match joy with
  | none => .error .attributeError
  | some joy =>
    if xpad then
      match joy.buttons with
      | [a, b, x, y, lb, rb, back, start, power, sl, sr, dl, dr, du, dd] =>
        match joy.axes with
        | [lh, lv, lt, rh, rv, rt, dh, dv] =>
          .ok ⟨a, b, x, y, lb, rb, back, start, power, sl, sr, some (dl, dr, du, dd), lh, lv, lt, rh, rv, rt, dh, dv⟩
        | _ => .error .valueError
      | _ => .error .valueError
    else
      match joy.buttons with
      | [a, b, x, y, lb, rb, back, start, power, sl, sr] =>
        match joy.axes with
        | [lh, lv, lt, rh, rv, rt, dh, dv] =>
          .ok ⟨a, b, x, y, lb, rb, back, start, power, sl, sr, none, lh, lv, lt, rh, rv, rt, dh, dv⟩
        | _ => .error .valueError
      | _ => .error .valueError

/-- `getattr(x, button)` (src/arc_utilities/xbox.py:40), for the attributes set by `joy_to_xbox` -/
def getAttr (x : Xbox) (name : String) : Except PyExc Value :=
  match name with
  | "A" => .ok (.button x.A)
  | "B" => .ok (.button x.B)
  | "X" => .ok (.button x.X)
  | "Y" => .ok (.button x.Y)
  | "LB" => .ok (.button x.LB)
  | "RB" => .ok (.button x.RB)
  | "back" => .ok (.button x.back)
  | "start" => .ok (.button x.start)
  | "power" => .ok (.button x.power)
  | "stick_button_left" => .ok (.button x.stickLeft)
  | "stick_button_right" => .ok (.button x.stickRight)
  | "DL" => match x.pad with | some p => .ok (.button p.1) | none => .error .attributeError
  | "DR" => match x.pad with | some p => .ok (.button p.2.1) | none => .error .attributeError
  | "DU" => match x.pad with | some p => .ok (.button p.2.2.1) | none => .error .attributeError
  | "DD" => match x.pad with | some p => .ok (.button p.2.2.2) | none => .error .attributeError
  | "LH" => .ok (.axis x.LH)
  | "LV" => .ok (.axis x.LV)
  | "LT" => .ok (.axis x.LT)
  | "RH" => .ok (.axis x.RH)
  | "RV" => .ok (.axis x.RV)
  | "RT" => .ok (.axis x.RT)
  | "DH" => .ok (.axis x.DH)
  | "DV" => .ok (.axis x.DV)
  | _ => .error .attributeError

/-- `get_button` (src/arc_utilities/xbox.py:34-40) with `get_buttons_state` (28-32) -/
def getButton (joy : Option Joy) (xpad : Bool) (name : String) : Except PyExc Value := do
  let x ← joyToXbox joy xpad
  getAttr x name

open Classical in
/-- `deadzone` (src/arc_utilities/xbox.py:10-13) -/
noncomputable def deadzone (x : ℝ) : ℝ := if |x| < 0.05 then 0 else x

/-- An axis of a message (`joy_msg.axes[axis]`). Used for xbox.py:59-72. -/
def axisOf (joy : Option Joy) (i : Nat) : Except PyExc ℝ :=
  match joy with
  | none => .error .attributeError
  | some j => match j.axes[i]? with
    | some a => .ok a
    | none => .error .indexError

/-- `get_axis_normalized` (src/arc_utilities/xbox.py:59-72) -/
noncomputable def getAxisNormalized (joy : Option Joy) (axis : Int) : Except PyExc ℝ :=
  if axis = 0 then do let a ← axisOf joy 0; return deadzone (-a)
  else if axis = 1 then do let a ← axisOf joy 1; return deadzone a
  else if axis = 2 then do let a ← axisOf joy 2; return deadzone a
  else if axis = 4 then do let a ← axisOf joy 4; return deadzone a
  else if axis = 5 then do let a ← axisOf joy 5; return deadzone a
  else .error .notImplementedError

/-- `get_3d_delta` (src/arc_utilities/xbox.py:74-86): the listener is asked three times, and `joy i` is its answer -/
noncomputable def get3dDelta (joy : Nat → Option Joy) : Except PyExc (ℝ × ℝ × ℝ) := do
  let x ← getAxisNormalized (joy 0) 0
  let y ← getAxisNormalized (joy 1) 1
  let z ← getAxisNormalized (joy 2) 4
  return (x, y, z)

/-- How a wait ends: in a round, or by an exception of the function in a round; `none` while it goes on. Used for
ros_helpers.py:10-25 and xbox.py:42-54. -/
inductive Ending where
  | done (round : Nat)
  | raised (round : Nat) (e : PyExc)

/-- `wait_for` (src/arc_utilities/ros_helpers.py:10-25) from a round on: `f i` is what the function gives in round `i`,
`down i` whether ROS is shut down then; the rounds in which it warns are listed. `late i` is whether more than the given
time has passed in round `i`. -/
def waitFor (f : Nat → Except PyExc Bool) (down late : Nat → Bool) : (fuel i : Nat) → List Nat × Option Ending
  | 0, _ => ([], none)
  | fuel + 1, i =>
    match f i with
    | .error e => ([], some (.raised i e))
    | .ok true => ([], some (.done i))
    | .ok false =>
      if down i then ([], some (.done i))
      else
        let r := waitFor f down late fuel (i + 1)
        (if late i then i :: r.1 else r.1, r.2)

/-- Whether a value is not equal to 0. Used for xbox.py:42-54. -/
noncomputable def Value.pressed : Value → Bool
  | .button b => b ≠ 0
  | .axis a => open Classical in decide (a ≠ 0)

/-- `wait_for_button` (src/arc_utilities/xbox.py:42-54) -/
noncomputable def waitForButton (joy : Nat → Option Joy) (xpad : Bool) (name : String) (down late : Nat → Bool) (fuel : Nat) :
    List Nat × Option Ending :=
  waitFor (fun i => do let v ← getButton (joy i) xpad name; return v.pressed) down late fuel 0

/-- `get_connected_publisher` (src/arc_utilities/ros_helpers.py:64-73): `subs` is the number of subscribers counted
before, `conns i` the number of connections in round `i`; the result is the round in which it returns -/
def getConnectedPublisher (subs : Nat) (conns : Nat → Nat) : Except PyExc Nat :=
  match (List.range 5).find? fun i => conns i = subs with
  | some i => .ok i
  | none => .error .runtimeError

/-- `_get_subscribers` (src/arc_utilities/ros_helpers.py:76-84): the nodes of all entries of the topic -/
def getSubscribers (topic : String) (state : List (String × List String)) : List String :=
  state.foldl (fun subs sub => if sub.1 = topic then subs ++ sub.2 else subs) []

/-- What `try_to_connect` does. Used for ros_helpers.py:87-99. -/
inductive Tried where
  | connected (round : Nat)
  | silent
  | warned (names : List String)
  | raised (names : List String)

/-- `try_to_connect` (src/arc_utilities/ros_helpers.py:87-99): `conns i p` is the number of connections of publisher
number `p` in round `i`; round 5 is the list of those that failed -/
def tryToConnect (pubs : List String) (conns : Nat → Nat → Nat) (raiseOnFail : Bool) : Tried :=
  match (List.range 5).find? fun i => (List.range pubs.length).all fun p => decide (0 < conns i p) with
  | some i => .connected i
  | none =>
    let names := (pubs.zipIdx.filter fun p => conns 5 p.2 = 0).map Prod.fst
    if names = [] then .silent
    else if raiseOnFail then .raised names
    else .warned names

end Verif.Joystick
