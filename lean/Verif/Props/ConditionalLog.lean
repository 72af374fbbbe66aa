import Verif.Model.ConditionalLog

/-!
# Property C214 (log.hpp): conditional logging as a statement
-/
namespace Verif.ConditionalLog

/-- **C214.** As a statement of its own, and as one in braces, the macro logs its message exactly when its condition holds
and does nothing else; the unconditional one always does. -/
theorem C214_alone (c m : Nat) (holds : Nat → Bool) :
    execute (arcLogCond c m ++ [.semicolon]) holds = some (if holds c then [.logged m] else []) ∧
    execute (.open :: arcLogCond c m ++ [.semicolon, .close]) holds = some (if holds c then [.logged m] else []) ∧
    execute (arcLog m ++ [.semicolon]) holds = some [.logged m] := by
  refine ⟨?_, ?_, ?_⟩
  · simp [execute, arcLogCond, arcLog, parse, run, runElse]
  · simp [execute, arcLogCond, arcLog, parse, parseBody, run, runElse, runBody]
  · simp [execute, arcLog, parse, run]

/-- **C214.** Before an `else`, and without braces, the macro takes the `else` for itself: what should be done when the
outer condition does not hold is done when it holds and that of the macro does not, and otherwise never. -/
theorem C214_before_else (a c m n : Nat) (holds : Nat → Bool) :
    execute (.cond a :: arcLogCond c m ++ [.semicolon, .else', .call n, .semicolon]) holds =
      some (if holds a = true then (if holds c = true then [.logged m] else [.called n]) else []) := by
  simp [execute, arcLogCond, arcLog, parse, run, runElse]

/-- **C214.** With braces around the macro, or with the unconditional macro, the `else` belongs to the outer condition. -/
theorem C214_braces (a c m n : Nat) (holds : Nat → Bool) :
    execute (.cond a :: .open :: arcLogCond c m ++ [.semicolon, .close, .else', .call n, .semicolon]) holds =
      some (if holds a = true then (if holds c = true then [.logged m] else []) else [.called n]) ∧
    execute (.cond a :: arcLog m ++ [.semicolon, .else', .call n, .semicolon]) holds =
      some (if holds a = true then [.logged m] else [.called n]) := by
  constructor
  · simp [execute, arcLogCond, arcLog, parse, parseBody, run, runElse, runBody]
  · simp [execute, arcLog, parse, run, runElse]

/-- **C214.** So braces matter exactly when the outer condition fails or that of the macro does. -/
theorem C214_braces_matter (a c m n : Nat) (holds : Nat → Bool) :
    execute (.cond a :: arcLogCond c m ++ [.semicolon, .else', .call n, .semicolon]) holds =
      execute (.cond a :: .open :: arcLogCond c m ++ [.semicolon, .close, .else', .call n, .semicolon]) holds ↔
    holds a = true ∧ holds c = true := by
  rw [C214_before_else, (C214_braces a c m n holds).1]
  cases holds a <;> cases holds c <;> simp

/-- **C214.** The same for any statement after the `else`: without braces it is run when the outer condition holds and that
of the macro does not, with braces when the outer condition does not hold. -/
theorem C214_any_else (a c m fuel : Nat) (tokens : List Token) (s : Stmt) (h : parse (fuel + 4) tokens = some (s, [])) :
    (∃ s', parse (fuel + 6) (.cond a :: arcLogCond c m ++ .semicolon :: .else' :: tokens) = some (s', []) ∧
      ∀ holds, run holds s' = if holds a = true then (if holds c = true then [.logged m] else run holds s) else []) ∧
    (∃ s', parse (fuel + 5) (.cond a :: .open :: arcLogCond c m ++ .semicolon :: .close :: .else' :: tokens) =
        some (s', []) ∧
      ∀ holds, run holds s' = if holds a = true then (if holds c = true then [.logged m] else []) else run holds s) := by
  constructor
  · refine ⟨.ite a (.ite c (.log m) (some s)) none, ?_, ?_⟩
    · simp [arcLogCond, arcLog, parse, h]
    · intro holds; simp [run, runElse]
  · refine ⟨.ite a (.block [.ite c (.log m) none]) (some s), ?_, ?_⟩
    · simp [arcLogCond, arcLog, parse, parseBody, h]
    · intro holds; simp [run, runElse, runBody]

/-- **C214.** In the `else` branch, and after another statement in braces, the macro takes nothing from what is around
it. -/
theorem C214_in_else (a c m n k : Nat) (holds : Nat → Bool) :
    execute (.cond a :: .call n :: .semicolon :: .else' :: arcLogCond c m ++ [.semicolon]) holds =
      some (if holds a = true then [.called n] else if holds c = true then [.logged m] else []) ∧
    execute (.open :: .call n :: .semicolon :: arcLogCond c m ++ [.semicolon, .call k, .semicolon, .close]) holds =
      some ([.called n] ++ (if holds c = true then [.logged m] else []) ++ [.called k]) := by
  constructor
  · simp [execute, arcLogCond, arcLog, parse, run, runElse]
  · simp [execute, arcLogCond, arcLog, parse, parseBody, run, runElse, runBody]

/-- An outer condition that fails: the call is missing. -/
example : execute (.cond 0 :: arcLogCond 1 5 ++ [.semicolon, .else', .call 7, .semicolon]) (fun _ => false) = some [] ∧
    execute (.cond 0 :: .open :: arcLogCond 1 5 ++ [.semicolon, .close, .else', .call 7, .semicolon]) (fun _ => false) =
      some [.called 7] := by
  rw [C214_before_else, (C214_braces _ _ _ _ _).1]; simp

end Verif.ConditionalLog
