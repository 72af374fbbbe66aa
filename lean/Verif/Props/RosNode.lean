import Verif.Model.RosNode
/-!
# C142: parameters and the start of a node
-/
namespace Verif.RosNode
open Verif

/-- C142: a parameter that is on the server is returned by each of the functions; otherwise the default, nothing, or
`invalid_argument` for one that is required. The functions for debugging differ only in what they log. -/
theorem C142_params {T : Type} (server : String → Option T) (name : String) (default : T) :
    (getParam server name default).result = .ok ((server name).getD default) ∧
    (getParamDebugLog server name default).result = .ok ((server name).getD default) ∧
    (getParamOptional server name).result = .ok (server name) ∧
    ((∃ v, server name = some v ∧ (getParamRequired server name).result = .ok v ∧
        (getParamRequiredDebugLog server name).result = .ok v) ∨
      (server name = none ∧ (getParamRequired server name).result = .throws .invalidArgument ∧
        (getParamRequiredDebugLog server name).result = .throws .invalidArgument)) := by
  unfold getParam getParamDebugLog getParamOptional getParamRequired getParamRequiredDebugLog
  cases server name <;> simp

/-- C142: a default that is used is warned of, except by the function for debugging, which never logs above debugging; only
a missing required parameter is fatal. -/
theorem C142_logged {T : Type} (server : String → Option T) (name : String) (default : T) :
    (Severity.warn ∈ (getParam server name default).logged ↔ server name = none) ∧
    (∀ s ∈ (getParamDebugLog server name default).logged, s = .debug) ∧
    (Severity.fatal ∈ (getParamRequired server name).logged ↔ server name = none) ∧
    (Severity.fatal ∈ (getParamRequiredDebugLog server name).logged ↔ server name = none) ∧
    (∀ s ∈ (getParamOptional server name).logged, s = .debug ∨ s = .info) := by
  unfold getParam getParamDebugLog getParamOptional getParamRequired getParamRequiredDebugLog
  cases server name <;> simp

/-- C142: a node is started exactly for the log levels 0 to 4, with its name, its arguments and its level; for others the
call throws before anything is done. -/
theorem C142_start (p : Process) (name : String) (argv : List (List Char)) (logLevel : Int) (a r s : Bool)
    (hz : ∀ x ∈ argv, '\x00' ∉ x) :
    (0 ≤ logLevel ∧ logLevel ≤ 4 → ∃ i : Init, ∃ l : Level,
      initNode p name argv logLevel a r s = .ok ⟨p.levels ++ [(name, l)], p.inits ++ [i], true, p.down⟩ ∧
      i.argv = argv ∧ i.name = name ∧
      [Level.debug, .info, .warn, .error, .fatal][logLevel.toNat]? = some l) ∧
    (¬ (0 ≤ logLevel ∧ logLevel ≤ 4) → initNode p name argv logLevel a r s = .throws .invalidArgument) := by
  have hargs : (argv.map fun s => s.takeWhile (· ≠ '\x00')) = argv := by
    refine (List.map_congr_left (g := id) fun x hx => ?_).trans (List.map_id argv)
    have h0 := hz x hx
    clear hx
    show x.takeWhile (· ≠ '\x00') = x
    induction x with
    | nil => rfl
    | cons c x ih =>
      have hc : c ≠ '\x00' := fun e => h0 (e ▸ List.mem_cons_self)
      rw [List.takeWhile_cons_of_pos (by simpa using hc), ih fun hm => h0 (List.mem_cons_of_mem _ hm)]
  constructor
  · rintro ⟨h1, h2⟩
    have : logLevel = 0 ∨ logLevel = 1 ∨ logLevel = 2 ∨ logLevel = 3 ∨ logLevel = 4 := by omega
    rcases this with rfl | rfl | rfl | rfl | rfl
    · exact ⟨_, .debug, rfl, hargs, rfl, rfl⟩
    · exact ⟨_, .info, rfl, hargs, rfl, rfl⟩
    · exact ⟨_, .warn, rfl, hargs, rfl, rfl⟩
    · exact ⟨_, .error, rfl, hargs, rfl, rfl⟩
    · exact ⟨_, .fatal, rfl, hargs, rfl, rfl⟩
  · intro h
    unfold initNode
    split <;> first | rfl | (exfalso; apply h; decide)

/-- C142: the options are gathered as the caller asks: bit 0 for no signal handler, bit 1 for an anonymous name, bit 2 for no
rosout, and no other bit. -/
theorem C142_gathered (a r s : Bool) (k : Nat) : (gatherOptions a r s).testBit k = true ↔
    (k = 0 ∧ s = true) ∨ (k = 1 ∧ a = true) ∨ (k = 2 ∧ r = true) := by
  match k with
  | 0 | 1 | 2 => cases a <;> cases r <;> cases s <;> decide
  | k + 3 =>
    have : gatherOptions a r s < 2 ^ 3 := by cases a <;> cases r <;> cases s <;> decide
    have h : (gatherOptions a r s).testBit (k + 3) = false :=
      Nat.testBit_lt_two_pow (Nat.lt_of_lt_of_le this (Nat.pow_le_pow_right (by decide) (by omega)))
    rw [h]
    simp

/-- C142: the options a caller asks for never take effect: whatever is asked, ROS is started with none of them. So with
`disable_signals` the handler for an interrupt is installed all the same. -/
theorem C142_options_wrong (p q : Process) (name : String) (argv : List (List Char)) (logLevel : Int) (a r s : Bool)
    (h : initNode p name argv logLevel a r s = .ok q) :
    (∀ a' r' s', initNode p name argv logLevel a' r' s' = .ok q) ∧ ∃ i, q.inits = p.inits ++ [i] ∧ i.options = 0 := by
  unfold initNode at h ⊢
  split at h <;> first | (cases h; done) | (cases h; exact ⟨fun a' r' s' => rfl, _, rfl, rfl⟩)

example : ∃ q, initNode ⟨[], [], false, false⟩ "cpp_node" [] 2 false false true = .ok q ∧ q.levels = [("cpp_node", .warn)] :=
  ⟨_, rfl, rfl⟩

/-- C142: an argument with a zero in it is cut there. -/
theorem C142_argument_cut : ∃ q, initNode ⟨[], [], false, false⟩ "n" [['a', '\x00', 'b']] 2 false false false = .ok q ∧
    q.inits.map (·.argv) = [[['a']]] := ⟨_, rfl, rfl⟩

/-- C142: shutting down ends the node and nothing else. -/
theorem C142_shutdown (p : Process) : (shutdown p).down = true ∧ (shutdown p).inits = p.inits ∧
    (shutdown p).levels = p.levels ∧ (shutdown p).spinning = p.spinning := ⟨rfl, rfl, rfl, rfl⟩

end Verif.RosNode
