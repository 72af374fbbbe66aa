import Verif.Model.Joystick
import Verif.Spec.Joystick
import Mathlib.Tactic.Linarith
/-!
# C138: the joystick, waiting, and connecting
-/
namespace Verif.Joystick
open Verif

theorem list8 {α : Type} {l : List α} (h : l.length = 8) : ∃ a b c d e f g i, l = [a, b, c, d, e, f, g, i] := by
  match l, h with
  | [a, b, c, d, e, f, g, i], _ => exact ⟨a, b, c, d, e, f, g, i, rfl⟩

theorem list11 {α : Type} {l : List α} (h : l.length = 11) :
    ∃ a b c d e f g i j k m, l = [a, b, c, d, e, f, g, i, j, k, m] := by
  match l, h with
  | [a, b, c, d, e, f, g, i, j, k, m], _ => exact ⟨a, b, c, d, e, f, g, i, j, k, m, rfl⟩

theorem list15 {α : Type} {l : List α} (h : l.length = 15) :
    ∃ a b c d e f g i j k m n o p q, l = [a, b, c, d, e, f, g, i, j, k, m, n, o, p, q] := by
  match l, h with
  | [a, b, c, d, e, f, g, i, j, k, m, n, o, p, q], _ => exact ⟨a, b, c, d, e, f, g, i, j, k, m, n, o, p, q, rfl⟩

/-- A message with a number of buttons or axes other than that of the driver raises `ValueError`, whatever is asked for -/
theorem C138_counts (j : Joy) (xpad : Bool) (name : String)
    (h : j.buttons.length ≠ (buttonNames xpad).length ∨ j.axes.length ≠ axisNames.length) :
    getButton (some j) xpad name = .error .valueError := by
  have key : joyToXbox (some j) xpad = .error .valueError := by
    obtain ⟨bs, ax⟩ := j
    rcases xpad with _ | _
    · simp only [joyToXbox, Bool.false_eq_true, if_false]
      split
      · split
        · simp [buttonNames, xboxdrvButtons, axisNames] at h
        · rfl
      · rfl
    · simp only [joyToXbox, if_true]
      split
      · split
        · simp [buttonNames, xpadButtons, axisNames] at h
        · rfl
      · rfl
  unfold getButton
  rw [key]
  rfl

/-- With the right numbers, asking for a button by its name gives the button in its place, and asking for an axis gives
the axis in its place -/
theorem C138_names (j : Joy) (xpad : Bool) (hb : j.buttons.length = (buttonNames xpad).length)
    (ha : j.axes.length = axisNames.length) :
    (∀ (i : Nat) (h : i < (buttonNames xpad).length),
      getButton (some j) xpad (buttonNames xpad)[i] = .ok (.button (j.buttons[i]'(by omega)))) ∧
    (∀ (i : Nat) (h : i < axisNames.length), getButton (some j) xpad axisNames[i] = .ok (.axis (j.axes[i]'(by omega)))) := by
  obtain ⟨bs, ax⟩ := j
  obtain ⟨a0, a1, a2, a3, a4, a5, a6, a7, rfl⟩ := list8 (l := ax) ha
  rcases xpad with _ | _
  · obtain ⟨b0, b1, b2, b3, b4, b5, b6, b7, b8, b9, b10, rfl⟩ := list11 (l := bs) hb
    constructor
    · intro i h
      simp only [buttonNames, xboxdrvButtons, Bool.false_eq_true, if_false, List.length_cons, List.length_nil] at h
      match i, h with
      | 0, _ | 1, _ | 2, _ | 3, _ | 4, _ | 5, _ | 6, _ | 7, _ | 8, _ | 9, _ | 10, _ => rfl
    · intro i h
      simp only [axisNames, List.length_cons, List.length_nil] at h
      match i, h with
      | 0, _ | 1, _ | 2, _ | 3, _ | 4, _ | 5, _ | 6, _ | 7, _ => rfl
  · obtain ⟨b0, b1, b2, b3, b4, b5, b6, b7, b8, b9, b10, b11, b12, b13, b14, rfl⟩ := list15 (l := bs) hb
    constructor
    · intro i h
      simp only [buttonNames, xpadButtons, if_true, List.length_cons, List.length_nil] at h
      match i, h with
      | 0, _ | 1, _ | 2, _ | 3, _ | 4, _ | 5, _ | 6, _ | 7, _ | 8, _ | 9, _ | 10, _ | 11, _ | 12, _ | 13, _ | 14, _ => rfl
    · intro i h
      simp only [axisNames, List.length_cons, List.length_nil] at h
      match i, h with
      | 0, _ | 1, _ | 2, _ | 3, _ | 4, _ | 5, _ | 6, _ | 7, _ => rfl

/-- Any other name raises `AttributeError`, and so does every name if the listener has nothing because ROS was shut down -/
theorem C138_no_name (j : Joy) (xpad : Bool) (hb : j.buttons.length = (buttonNames xpad).length)
    (ha : j.axes.length = axisNames.length) (name : String) (h1 : name ∉ buttonNames xpad) (h2 : name ∉ axisNames) :
    getButton (some j) xpad name = .error .attributeError ∧
    ∀ name', getButton none xpad name' = .error .attributeError := by
  refine ⟨?_, fun _ => rfl⟩
  obtain ⟨bs, ax⟩ := j
  obtain ⟨a0, a1, a2, a3, a4, a5, a6, a7, rfl⟩ := list8 (l := ax) ha
  rcases xpad with _ | _
  · obtain ⟨b0, b1, b2, b3, b4, b5, b6, b7, b8, b9, b10, rfl⟩ := list11 (l := bs) hb
    show getAttr _ _ = _
    unfold getAttr
    split <;> first | rfl | exact absurd (by decide) h1 | exact absurd (by decide) h2
  · obtain ⟨b0, b1, b2, b3, b4, b5, b6, b7, b8, b9, b10, b11, b12, b13, b14, rfl⟩ := list15 (l := bs) hb
    show getAttr _ _ = _
    unfold getAttr
    split <;> first | rfl | exact absurd (by decide) h1 | exact absurd (by decide) h2

/-- Values within a twentieth of zero become zero, others stay -/
theorem C138_deadzone (x : ℝ) : (|x| < 1 / 20 → deadzone x = 0) ∧ (1 / 20 ≤ |x| → deadzone x = x) := by
  have e : (0.05 : ℝ) = 1 / 20 := by norm_num
  unfold deadzone
  rw [e]
  exact ⟨fun h => if_pos h, fun h => if_neg (not_lt.mpr h)⟩

/-- The axes that can be asked for are 0, 1, 2, 4 and 5; only the first is turned round -/
theorem C138_axis (j : Joy) (axis : Int) : getAxisNormalized (some j) axis =
    if axis ∈ [0, 1, 2, 4, 5] then
      match j.axes[axis.toNat]? with
      | some a => .ok (deadzone (if axis = 0 then -a else a))
      | none => .error .indexError
    else .error .notImplementedError := by
  unfold getAxisNormalized
  by_cases h0 : axis = 0
  · subst h0
    rcases h : j.axes[0]? with _ | a
    · simp [axisOf, h, bind, Except.bind]
    · simp [axisOf, h, bind, Except.bind, pure, Except.pure]
  by_cases h1 : axis = 1
  · subst h1
    rcases h : j.axes[1]? with _ | a
    · simp [axisOf, h, bind, Except.bind]
    · simp [axisOf, h, bind, Except.bind, pure, Except.pure]
  by_cases h2 : axis = 2
  · subst h2
    rcases h : j.axes[2]? with _ | a
    · simp [axisOf, h, bind, Except.bind]
    · simp [axisOf, h, bind, Except.bind, pure, Except.pure]
  by_cases h4 : axis = 4
  · subst h4
    rcases h : j.axes[4]? with _ | a
    · simp [axisOf, h, bind, Except.bind]
    · simp [axisOf, h, bind, Except.bind, pure, Except.pure]
  by_cases h5 : axis = 5
  · subst h5
    rcases h : j.axes[5]? with _ | a
    · simp [axisOf, h, bind, Except.bind]
    · simp [axisOf, h, bind, Except.bind, pure, Except.pure]
  simp [h0, h1, h2, h4, h5]

/-- The direction of motion: if the message stays the same during the call, it is the left stick, its first axis turned
round, and the second axis of the right stick, each with its dead zone, and within one of zero if the axes are -/
theorem C138_delta (j : Joy) (ha : j.axes.length = axisNames.length) (hr : ∀ a ∈ j.axes, |a| ≤ 1) :
    ∃ lh lv rv : ℝ, j.axes[axisNames.idxOf "LH"]? = some lh ∧ j.axes[axisNames.idxOf "LV"]? = some lv ∧
      j.axes[axisNames.idxOf "RV"]? = some rv ∧
      get3dDelta (fun _ => some j) = .ok (deadzone (-lh), deadzone lv, deadzone rv) ∧
      |deadzone (-lh)| ≤ 1 ∧ |deadzone lv| ≤ 1 ∧ |deadzone rv| ≤ 1 := by
  obtain ⟨bs, ax⟩ := j
  obtain ⟨a0, a1, a2, a3, a4, a5, a6, a7, rfl⟩ := list8 (l := ax) ha
  have hd : ∀ x : ℝ, |x| ≤ 1 → |deadzone x| ≤ 1 := by
    intro x hx
    unfold deadzone
    split
    · simp
    · exact hx
  refine ⟨a0, a1, a4, rfl, rfl, rfl, rfl, hd _ ?_, hd _ (hr a1 (by simp)), hd _ (hr a4 (by simp))⟩
  rw [abs_neg]
  exact hr a0 (by simp)

/-- The three parts may come from different messages: two messages, neither of which is the direction returned -/
theorem C138_delta_mixed : ∃ joy : Nat → Joy, (∀ i, joy i = joy 0 ∨ joy i = joy 1) ∧
    ∃ d, get3dDelta (fun i => some (joy i)) = .ok d ∧ get3dDelta (fun _ => some (joy 0)) ≠ .ok d ∧
      get3dDelta (fun _ => some (joy 1)) ≠ .ok d := by
  have h0 : deadzone 0 = 0 := (C138_deadzone 0).1 (by norm_num)
  have h1 : deadzone 1 = 1 := (C138_deadzone 1).2 (by norm_num)
  have hm : deadzone (-1) = -1 := (C138_deadzone (-1)).2 (by norm_num)
  refine ⟨fun i => if i = 0 then ⟨[], [1, 0, 0, 0, 0, 0, 0, 0]⟩ else ⟨[], [0, 1, 0, 0, 0, 0, 0, 0]⟩, ?_, (-1, 1, 0), ?_, ?_, ?_⟩
  · intro i
    by_cases h : i = 0
    · left; simp [h]
    · right; simp [h]
  · show Except.ok (deadzone (-1), deadzone 1, deadzone 0) = _
    rw [hm, h1, h0]
  · show Except.ok (deadzone (-1), deadzone 0, deadzone 0) ≠ _
    rw [hm, h0]
    intro h
    have := congrArg (fun e : Except PyExc (ℝ × ℝ × ℝ) => match e with | .ok d => d.2.1 | .error _ => 0) h
    norm_num at this
  · show Except.ok (deadzone (-0), deadzone 1, deadzone 0) ≠ _
    rw [neg_zero, h1, h0]
    intro h
    have := congrArg (fun e : Except PyExc (ℝ × ℝ × ℝ) => match e with | .ok d => d.1 | .error _ => 0) h
    norm_num at this

/-! ## Waiting -/

/-- Waiting ends in a round exactly if the function has been false and ROS running in all rounds before, and in this
one the function is true, or raises, or is false while ROS is shut down; it warns in the late rounds before -/
theorem waitFor_iff (f : Nat → Except PyExc Bool) (down late : Nat → Bool) (fuel i n : Nat) (hn : n < fuel)
    (hb : ∀ k < n, f (i + k) = .ok false ∧ down (i + k) = false) :
    (∀ e, f (i + n) = .error e → waitFor f down late fuel i =
      ((List.range n).filterMap fun k => if late (i + k) then some (i + k) else none, some (.raised (i + n) e))) ∧
    ((f (i + n) = .ok true ∨ (f (i + n) = .ok false ∧ down (i + n) = true)) → waitFor f down late fuel i =
      ((List.range n).filterMap fun k => if late (i + k) then some (i + k) else none, some (.done (i + n)))) := by
  induction n generalizing i fuel with
  | zero =>
    obtain ⟨fuel, rfl⟩ : ∃ m, fuel = m + 1 := ⟨fuel - 1, by omega⟩
    constructor
    · intro e he
      rw [Nat.add_zero] at he
      simp only [waitFor, he]; rfl
    · rintro (h | ⟨h, hd⟩)
      · rw [Nat.add_zero] at h
        simp only [waitFor, h]; rfl
      · rw [Nat.add_zero] at h hd
        simp only [waitFor, h, hd, if_true]; rfl
  | succ n ih =>
    obtain ⟨fuel, rfl⟩ : ∃ m, fuel = m + 1 := ⟨fuel - 1, by omega⟩
    obtain ⟨h1, h2⟩ := hb 0 (by omega)
    rw [Nat.add_zero] at h1 h2
    have hrec : waitFor f down late (fuel + 1) i = (if late i then i :: (waitFor f down late fuel (i + 1)).1
        else (waitFor f down late fuel (i + 1)).1, (waitFor f down late fuel (i + 1)).2) := by
      rw [waitFor]
      simp only [h1, h2, Bool.false_eq_true, if_false]
    have ih' := ih fuel (i + 1) (by omega) (fun k hk => by
      have := hb (k + 1) (by omega)
      rw [show i + (k + 1) = i + 1 + k by omega] at this
      exact this)
    rw [show i + 1 + n = i + (n + 1) by omega] at ih'
    have hl : ((List.range (n + 1)).filterMap fun k => if late (i + k) then some (i + k) else none) =
        if late i then i :: (List.range n).filterMap (fun k => if late (i + 1 + k) then some (i + 1 + k) else none)
        else (List.range n).filterMap (fun k => if late (i + 1 + k) then some (i + 1 + k) else none) := by
      rw [List.range_succ_eq_map, List.filterMap_cons, List.filterMap_map]
      have : ((fun k => if late (i + k) then some (i + k) else none) ∘ Nat.succ) =
          fun k => if late (i + 1 + k) then some (i + 1 + k) else none := by
        funext k
        simp only [Function.comp]
        rw [show i + Nat.succ k = i + 1 + k by omega]
      rw [this]
      rcases late i with _ | _ <;> simp
    constructor
    · intro e he
      rw [hrec, ih'.1 e he, hl]
    · intro h
      rw [hrec, ih'.2 h, hl]

/-- C138: waiting ends with the first round in which the function is true or ROS is shut down, or with the exception of
the function if that comes first, and warns in exactly the rounds before that are late -/
theorem C138_wait (f : Nat → Except PyExc Bool) (down late : Nat → Bool) (n fuel : Nat) (hn : n < fuel)
    (hb : ∀ k < n, f k = .ok false ∧ down k = false) :
    (∀ e, f n = .error e → waitFor f down late fuel 0 = ((List.range n).filter late, some (.raised n e))) ∧
    ((f n = .ok true ∨ (f n = .ok false ∧ down n = true)) →
      waitFor f down late fuel 0 = ((List.range n).filter late, some (.done n))) := by
  have h := waitFor_iff f down late fuel 0 n hn (by simpa using hb)
  simp only [Nat.zero_add] at h
  have e : ((List.range n).filterMap fun k => if late k then some k else none) = (List.range n).filter late := by
    induction List.range n with
    | nil => rfl
    | cons a l ih =>
      rw [List.filterMap_cons, List.filter_cons]
      rcases late a with _ | _ <;> simp [ih]
  rw [e] at h
  exact h

/-- C138: waiting goes on as long as the function is false and ROS runs -/
theorem C138_wait_on (f : Nat → Except PyExc Bool) (down late : Nat → Bool) (fuel : Nat)
    (hb : ∀ k < fuel, f k = .ok false ∧ down k = false) : (waitFor f down late fuel 0).2 = none := by
  have : ∀ fuel i, (∀ k < fuel, f (i + k) = .ok false ∧ down (i + k) = false) → (waitFor f down late fuel i).2 = none := by
    intro fuel
    induction fuel with
    | zero => intro i _; rfl
    | succ fuel ih =>
      intro i h
      obtain ⟨h1, h2⟩ := h 0 (by omega)
      rw [Nat.add_zero] at h1 h2
      rw [waitFor]
      simp only [h1, h2, Bool.false_eq_true, if_false]
      exact ih (i + 1) fun k hk => by
        have := h (k + 1) (by omega)
        rw [show i + (k + 1) = i + 1 + k by omega] at this
        exact this
  exact this fuel 0 (by simpa using hb)

/-- C138: waiting for a button ends with the first message in which it is not zero -/
theorem C138_wait_button (joy : Nat → Joy) (xpad : Bool) (b n fuel : Nat) (down late : Nat → Bool)
    (hb : ∀ i, (joy i).buttons.length = (buttonNames xpad).length) (ha : ∀ i, (joy i).axes.length = axisNames.length)
    (h : b < (buttonNames xpad).length) (hn : n < fuel) (hd : ∀ k < n, down k = false)
    (h0 : ∀ k < n, (joy k).buttons[b]? = some 0) (h1 : (joy n).buttons[b]? ≠ some 0) :
    (waitForButton (fun i => some (joy i)) xpad (buttonNames xpad)[b] down late fuel).2 = some (.done n) := by
  have val : ∀ i, (do let v ← getButton (some (joy i)) xpad (buttonNames xpad)[b]; return v.pressed : Except PyExc Bool) =
      .ok (decide ((joy i).buttons[b]? ≠ some 0)) := by
    intro i
    rw [(C138_names (joy i) xpad (hb i) (ha i)).1 b h]
    have hlt : b < (joy i).buttons.length := by rw [hb i]; exact h
    rw [List.getElem?_eq_getElem hlt]
    simp [bind, Except.bind, pure, Except.pure, Value.pressed]
  unfold waitForButton
  simp only [val]
  rw [(C138_wait _ down late n fuel hn ?_).2 ?_]
  · intro k hk
    exact ⟨by simp [h0 k hk], hd k hk⟩
  · left
    simp [h1]

/-- C138: waiting for an axis ends with the first message in which it is not exactly zero; there is no dead zone -/
theorem C138_wait_axis (joy : Nat → Joy) (xpad : Bool) (b n fuel : Nat) (down late : Nat → Bool)
    (hb : ∀ i, (joy i).buttons.length = (buttonNames xpad).length) (ha : ∀ i, (joy i).axes.length = axisNames.length)
    (h : b < axisNames.length) (hn : n < fuel) (hd : ∀ k < n, down k = false)
    (h0 : ∀ k < n, (joy k).axes[b]? = some 0) (h1 : (joy n).axes[b]? ≠ some 0) :
    (waitForButton (fun i => some (joy i)) xpad axisNames[b] down late fuel).2 = some (.done n) := by
  have val : ∀ i, ∃ r, (do let v ← getButton (some (joy i)) xpad axisNames[b]; return v.pressed : Except PyExc Bool) = .ok r ∧
      (r = true ↔ (joy i).axes[b]? ≠ some 0) := by
    intro i
    rw [(C138_names (joy i) xpad (hb i) (ha i)).2 b h]
    have hlt : b < (joy i).axes.length := by rw [ha i]; exact h
    rw [List.getElem?_eq_getElem hlt]
    refine ⟨_, rfl, ?_⟩
    simp [Value.pressed]
  unfold waitForButton
  rw [(C138_wait _ down late n fuel hn ?_).2 ?_]
  · intro k hk
    obtain ⟨r, e, hr⟩ := val k
    refine ⟨?_, hd k hk⟩
    rw [e]
    cases r with
    | false => rfl
    | true => exact absurd (h0 k hk) (hr.mp rfl)
  · left
    obtain ⟨r, e, hr⟩ := val n
    rw [e, hr.mpr h1]

/-- C138: shutting ROS down before the first message makes the wait for a button raise `AttributeError` -/
theorem C138_wait_button_shutdown (xpad : Bool) (name : String) (down late : Nat → Bool) (fuel : Nat) :
    waitForButton (fun _ => none) xpad name down late (fuel + 1) = ([], some (.raised 0 .attributeError)) := by
  unfold waitForButton
  exact (C138_wait _ down late 0 (fuel + 1) (by omega) (by simp)).1 .attributeError rfl

/-! ## Connecting -/

/-- C138: a publisher is returned with the first of five rounds in which it has exactly as many connections as there were
subscribers, and otherwise the call raises -/
theorem C138_publisher (subs : Nat) (conns : Nat → Nat) :
    (∀ i, getConnectedPublisher subs conns = .ok i ↔ i < 5 ∧ conns i = subs ∧ ∀ k < i, conns k ≠ subs) ∧
    (getConnectedPublisher subs conns = .error .runtimeError ↔ ∀ i < 5, conns i ≠ subs) := by
  unfold getConnectedPublisher
  rcases h : (List.range 5).find? fun i => decide (conns i = subs) with _ | j
  · rw [List.find?_eq_none] at h
    have h' : ∀ i < 5, conns i ≠ subs := fun i hi => by simpa using h i (List.mem_range.mpr hi)
    constructor
    · intro i
      constructor
      · intro e; cases e
      · rintro ⟨h1, h2, -⟩; exact absurd h2 (h' i h1)
    · exact ⟨fun _ => h', fun _ => rfl⟩
  · have hj := List.find?_range_eq_some.mp h
    simp only [decide_eq_true_eq, List.mem_range, Bool.not_eq_eq_eq_not, Bool.not_true, decide_eq_false_iff_not] at hj
    constructor
    · intro i
      constructor
      · intro e
        cases e
        exact ⟨hj.2.1, hj.1, hj.2.2⟩
      · rintro ⟨h1, h2, h3⟩
        rcases Nat.lt_trichotomy i j with hl | hl | hl
        · exact absurd h2 (hj.2.2 i hl)
        · rw [hl]
        · exact absurd hj.1 (h3 j hl)
    · constructor
      · intro e; cases e
      · intro e; exact absurd hj.1 (e j hj.2.1)

/-- C138: with more connections than subscribers were counted, because another one came, it raises though all are
connected -/
theorem C138_publisher_wrong (subs more : Nat) (h : 0 < more) :
    getConnectedPublisher subs (fun _ => subs + more) = .error .runtimeError :=
  (C138_publisher subs _).2.mpr fun i _ => by omega

/-- C138: the subscribers are the nodes of the entries of the topic, in order -/
theorem C138_subscribers (topic : String) (state : List (String × List String)) :
    getSubscribers topic state = ((state.filter fun e => e.1 = topic).map Prod.snd).flatten := by
  have : ∀ (acc : List String), state.foldl (fun subs sub => if sub.1 = topic then subs ++ sub.2 else subs) acc =
      acc ++ ((state.filter fun e => e.1 = topic).map Prod.snd).flatten := by
    induction state with
    | nil => intro acc; simp
    | cons e es ih =>
      intro acc
      rw [List.foldl_cons, ih]
      by_cases h : e.1 = topic <;> simp [h]
  exact (this []).trans (List.nil_append _)

/-- C138: connecting ends with the first of five rounds in which all publishers are connected at once -/
theorem C138_connect (pubs : List String) (conns : Nat → Nat → Nat) (raiseOnFail : Bool) (i : Nat) (hi : i < 5)
    (h : ∀ p < pubs.length, 0 < conns i p) (hb : ∀ k < i, ∃ p < pubs.length, conns k p = 0) :
    tryToConnect pubs conns raiseOnFail = .connected i := by
  unfold tryToConnect
  have : ((List.range 5).find? fun i => (List.range pubs.length).all fun p => decide (0 < conns i p)) = some i := by
    refine List.find?_range_eq_some.mpr ⟨?_, List.mem_range.mpr hi, ?_⟩
    · simpa using h
    · intro k hk
      obtain ⟨p, hp, h0⟩ := hb k hk
      simp only [Bool.not_eq_true', List.all_eq_false, List.mem_range]
      exact ⟨p, hp, by simp [h0]⟩
  rw [this]

/-- C138: if no round has all publishers connected at once, those without a connection after the last round are named, in
an exception or a warning; if each has one then, nothing is said -/
theorem C138_connect_fails (pubs : List String) (conns : Nat → Nat → Nat) (raiseOnFail : Bool)
    (hb : ∀ k < 5, ∃ p < pubs.length, conns k p = 0) :
    tryToConnect pubs conns raiseOnFail =
      if ∀ p < pubs.length, conns 5 p ≠ 0 then .silent
      else if raiseOnFail then .raised ((pubs.zipIdx.filter fun p => conns 5 p.2 = 0).map Prod.fst)
      else .warned ((pubs.zipIdx.filter fun p => conns 5 p.2 = 0).map Prod.fst) := by
  have h1 : ((List.range 5).find? fun i => (List.range pubs.length).all fun p => decide (0 < conns i p)) = none := by
    refine List.find?_eq_none.mpr fun k hk => ?_
    obtain ⟨p, hp, h0⟩ := hb k (List.mem_range.mp hk)
    simp only [List.all_eq_true, List.mem_range]
    intro h
    have := h p hp
    simp [h0] at this
  have h2 : (pubs.zipIdx.filter fun p => decide (conns 5 p.2 = 0)).map Prod.fst = [] ↔ ∀ p < pubs.length, conns 5 p ≠ 0 := by
    rw [List.map_eq_nil_iff, List.filter_eq_nil_iff]
    constructor
    · intro h p hp h0
      exact h (pubs[p], p) (by simp [List.mem_zipIdx_iff_getElem?, hp]) (by simp [h0])
    · rintro h ⟨a, p⟩ hp
      have hp' : pubs[p]? = some a := List.mem_zipIdx_iff_getElem?.mp hp
      have := h p (List.getElem?_eq_some_iff.mp hp').1
      simpa using this
  unfold tryToConnect
  rw [h1]
  simp only [h2]

example : getSubscribers "/a" [("/a", ["n", "m"]), ("/b", ["k"]), ("/a", ["l"])] = ["n", "m", "l"] := by decide

example : getConnectedPublisher 2 (fun i => i) = .ok 2 := (C138_publisher 2 _).1 2 |>.mpr ⟨by omega, rfl, by intro k hk; show k ≠ 2; omega⟩

end Verif.Joystick
