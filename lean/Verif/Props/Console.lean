import Verif.Model.Console
import Verif.Props.Debugger

/-!
# Property C154 (arc_helpers.hpp): asking and telling the user
-/
namespace Verif.Console
open Verif Verif.Timestamps Verif.Debugger

/-- **C154.** `GetChar` on a terminal gives the next character and removes it. At the end of the input, and when an
earlier read has failed, it gives none and removes nothing. In every case the stream can be read again afterwards, the
terminal has the flags it had before, and nothing is written. While it waits, line buffering is switched off. -/
theorem C154_get_char (s : Console) (flags : BitVec 32) (h : s.terminal = some flags) :
    getChar s = (.ok (if s.eof = false ∧ s.fail = false then s.input.head? else none),
      { s with
        input := if s.eof = false ∧ s.fail = false then s.input.tail else s.input
        eof := false
        fail := false
        waited := s.waited ++ [flags &&& ~~~(2#32)] }) := by
  obtain ⟨input, eof, fail, out, err, terminal, waited⟩ := s
  simp only at h
  subst h
  cases eof <;> cases fail <;> cases input <;>
    simp [getChar, peek, ignoreOne, clear, Console.good, ICANON]

/-- Only the flag for line buffering, number 1, is cleared while waiting. -/
theorem C154_flags (flags : BitVec 32) (i : Nat) :
    (flags &&& ~~~(2#32)).getLsbD i = (flags.getLsbD i && decide (i ≠ 1)) := by
  by_cases hi : i < 32
  · have h2 : (2#32).getLsbD i = decide (i = 1) := by
      have : ∀ k : Fin 32, (2#32).getLsbD k = decide ((k : Nat) = 1) := by decide
      exact this ⟨i, hi⟩
    rw [BitVec.getLsbD_and, BitVec.getLsbD_not, h2]
    simp [hi]
  · rw [BitVec.getLsbD_of_ge _ _ (by omega), BitVec.getLsbD_of_ge flags _ (by omega)]
    rfl

/-- `n` calls of `GetChar` -/
def getChars : Nat → M Console (List (Option Char))
  | 0 => pure []
  | n + 1 => do
    let c ← getChar
    let cs ← getChars n
    pure (c :: cs)

/-- **C154.** Calls in a row give the characters typed, in order, each once, and then none. -/
theorem C154_get_chars (n : Nat) (s : Console) (flags : BitVec 32) (h : s.terminal = some flags)
    (he : s.eof = false) (hf : s.fail = false) :
    getChars n s = (.ok ((List.range n).map (fun i => s.input[i]?)),
      { s with input := s.input.drop n, waited := s.waited ++ List.replicate n (flags &&& ~~~(2#32)) }) := by
  induction n generalizing s with
  | zero => simp [getChars]
  | succ n ih =>
    unfold getChars
    rw [M.bind_apply, C154_get_char s flags h]
    simp only [he, hf, and_self, if_true]
    have hk := ih { s with
      input := s.input.tail, eof := false, fail := false, waited := s.waited ++ [flags &&& ~~~(2#32)] } h rfl rfl
    rw [M.bind_apply, hk]
    simp only [M.pure_apply, List.range_succ_eq_map, List.map_cons, List.map_map]
    congr 1
    · congr 2
      · cases s.input <;> rfl
      · apply List.map_congr_left
        intro i _
        cases s.input <;> simp
    · cases hin : s.input <;> simp [List.replicate_succ]

/-- **C154.** Without a terminal the flags are read although they were never set. -/
theorem C154_no_terminal (s : Console) (h : s.terminal = none) : getChar s = (.ub, s) := by
  unfold getChar; rw [h]

/-- **C154.** `WaitForInput` writes its message and gives the next line without its end. The last line may lack its
end. After that, and after a failed read, it gives an empty line and the stream stays unreadable. -/
theorem C154_line (message line rest : List Char) (s : Console) :
    ('\n' ∉ line → s.input = line ++ '\n' :: rest → s.eof = false → s.fail = false →
      waitForInput message s = (line, { s with input := rest, out := s.out ++ message })) ∧
    ('\n' ∉ s.input → s.eof = false → s.fail = false →
      waitForInput message s = (s.input,
        { s with input := [], eof := true, fail := decide (s.input = []), out := s.out ++ message })) ∧
    (s.eof = true ∨ s.fail = true →
      waitForInput message s = ([], { s with fail := true, out := s.out ++ message })) := by
  have hall : ∀ l : List Char, '\n' ∉ l → ∀ c ∈ l, (decide (c ≠ '\n')) = true := by
    intro l hl c hc
    have : c ≠ '\n' := fun e => hl (e ▸ hc)
    simpa using this
  have htake : ∀ l r : List Char, '\n' ∉ l → (l ++ '\n' :: r).takeWhile (· ≠ '\n') = l := by
    intro l r hl
    rw [List.takeWhile_append_of_pos (hall l hl)]
    simp
  have hdrop : ∀ l r : List Char, '\n' ∉ l → (l ++ '\n' :: r).dropWhile (· ≠ '\n') = '\n' :: r := by
    intro l r hl
    rw [List.dropWhile_append_of_pos (hall l hl)]
    simp
  refine ⟨?_, ?_, ?_⟩
  · intro hl hi he hf
    unfold waitForInput getline
    simp only [Console.good, he, hf, hi, htake line rest hl, hdrop line rest hl]
    simp
  · intro hl he hf
    have e1 : s.input.takeWhile (· ≠ '\n') = s.input := by
      have h1 := htake s.input [] hl
      have h2 := List.takeWhile_append_of_pos (l₂ := []) (hall s.input hl)
      simpa using h2
    have e2 : s.input.dropWhile (· ≠ '\n') = [] := by
      have h2 := List.dropWhile_append_of_pos (l₂ := []) (hall s.input hl)
      simpa using h2
    unfold waitForInput getline
    simp only [Console.good, he, hf, e1, e2]
    cases s.input <;> simp
  · rintro (h | h)
    · unfold waitForInput getline; simp [Console.good, h]
    · unfold waitForInput getline; simp [Console.good, h]

/-- `n` calls of `InteractiveWaitToContinue` -/
def waits (status : Option (List Char)) : Nat → Console → Console
  | 0, s => s
  | n + 1, s => waits status n (interactiveWaitToContinue status s)

/-- **C154.** Under a debugger `InteractiveWaitToContinue` does not wait: no input is used. -/
theorem C154_debugged (status : Option (List Char)) (h : isDebuggerPresent status = true) (n : Nat) (s : Console) :
    (waits status n s).input = s.input ∧ (waits status n s).eof = s.eof ∧ (waits status n s).fail = s.fail := by
  induction n generalizing s with
  | zero => exact ⟨rfl, rfl, rfl⟩
  | succ n ih =>
    have e : interactiveWaitToContinue status s = { s with out := s.out ++
        "Process is under debugger, use breakpoints for interactive flow control instead\n".toList } := by
      unfold interactiveWaitToContinue; simp [h]
    unfold waits
    obtain ⟨h1, h2, h3⟩ := ih (interactiveWaitToContinue status s)
    rw [h1, h2, h3, e]
    exact ⟨rfl, rfl, rfl⟩

/-- **C154: the prompt is wrong.** It asks for ENTER, but any character will do, and only one is used: a line of `k`
characters and ENTER lets the next `k` calls through, each with its own prompt, before one waits again. -/
theorem C154_any_key_wrong (status : Option (List Char)) (h : isDebuggerPresent status = false) (n : Nat)
    (s : Console) (he : s.eof = false) (hf : s.fail = false) (hn : n ≤ s.input.length) :
    waits status n s = { s with
      input := s.input.drop n
      out := s.out ++ (List.replicate n "Press ENTER to continue...\n".toList).flatten } := by
  induction n generalizing s with
  | zero => simp [waits]
  | succ n ih =>
    cases hi : s.input with
    | nil => rw [hi] at hn; simp at hn
    | cons c rest =>
      have e : interactiveWaitToContinue status s = { s with
          input := rest, out := s.out ++ "Press ENTER to continue...\n".toList } := by
        unfold interactiveWaitToContinue get
        simp [h, Console.good, he, hf, hi]
      unfold waits
      have hk := ih { s with input := rest, out := s.out ++ "Press ENTER to continue...\n".toList } he hf
        (by rw [hi] at hn; simpa using hn)
      rw [e, hk]
      simp [List.replicate_succ]

/-- **C154.** Once the input is at its end, waiting returns at once. -/
theorem C154_wait_end (status : Option (List Char)) (h : isDebuggerPresent status = false) (s : Console)
    (hi : s.input = [] ∨ s.eof = true ∨ s.fail = true) :
    interactiveWaitToContinue status s = { s with
      out := s.out ++ "Press ENTER to continue...\n".toList
      fail := true
      eof := s.eof || !s.fail } := by
  unfold interactiveWaitToContinue get
  rw [if_pos h]
  rcases hi with hi | hi | hi
  · cases he : s.eof <;> cases hf : s.fail <;> simp [Console.good, he, hf, hi]
  · simp [Console.good, hi]
  · simp [Console.good, hi]

/-- A text is split at the first occurrence of a character in one way only. -/
theorem split_unique {x : Char} : ∀ {l l' r r' : List Char}, x ∉ l → x ∉ l' → l ++ x :: r = l' ++ x :: r' →
    l = l' ∧ r = r'
  | [], [], _, _, _, _, h => ⟨rfl, by simpa using h⟩
  | [], c :: l', _, _, _, h', h => by
    simp only [List.nil_append, List.cons_append, List.cons.injEq] at h
    exact absurd (h.1 ▸ List.mem_cons_self) h'
  | c :: l, [], _, _, hl, _, h => by
    simp only [List.nil_append, List.cons_append, List.cons.injEq] at h
    exact absurd (h.1.symm ▸ List.mem_cons_self) hl
  | c :: l, c' :: l', r, r', hl, hl', h => by
    simp only [List.cons_append, List.cons.injEq] at h
    obtain ⟨h1, h2⟩ := split_unique (fun hm => hl (List.mem_cons_of_mem _ hm))
      (fun hm => hl' (List.mem_cons_of_mem _ hm)) h.2
    exact ⟨by rw [h.1, h1], h2⟩

theorem decimal_not_mem {x : Char} (hx : isDigit x = false) (n : Nat) : x ∉ decimal n := by
  intro hm
  obtain ⟨d, hd, rfl⟩ := decimal_all n x hm
  have := (digit_isDigit d hd).1
  rw [this] at hx; cases hx

theorem integerText_not_mem {x : Char} (hx : isDigit x = false) (hm : x ≠ '-') (i : Int) : x ∉ integerText i := by
  unfold integerText
  split
  · intro h
    rcases List.mem_cons.1 h with h | h
    · exact hm h
    · exact decimal_not_mem hx _ h
  · exact decimal_not_mem hx _

theorem decimal_inj {m n : Nat} (h : decimal m = decimal n) : m = n := by
  have h1 := decimal_value m
  have h2 := decimal_value n
  rw [h] at h1
  omega

theorem integerText_inj {i j : Int} (h : integerText i = integerText j) : i = j := by
  unfold integerText at h
  have hd : ∀ n, '-' ∉ decimal n := decimal_not_mem (by decide)
  by_cases hi : i < 0 <;> by_cases hj : j < 0
  · rw [if_pos hi, if_pos hj] at h
    have := decimal_inj (List.cons.inj h).2
    omega
  · rw [if_pos hi, if_neg hj] at h
    exact absurd (h ▸ List.mem_cons_self) (hd j.natAbs)
  · rw [if_neg hi, if_pos hj] at h
    exact absurd (h.symm ▸ List.mem_cons_self) (hd i.natAbs)
  · rw [if_neg hi, if_neg hj] at h
    have := decimal_inj h
    omega

/-- **C154.** A message is printed exactly when its level is at most the level asked for, once, to the stream of the
function, with nothing else changed. -/
theorem C154_levels (msg : List Char) (a b : Int) (s : Console) :
    (a ≤ b → conditionalPrint msg a b s = { s with out := s.out ++ printStr msg a b } ∧
      conditionalError msg a b s = { s with err := s.err ++ printStr msg a b }) ∧
    (b < a → conditionalPrint msg a b s = s ∧ conditionalError msg a b s = s ∧
      ∀ status, conditionalPrintWait status msg a b s = s) ∧
    (a ≤ b → ∀ status, conditionalPrintWait status msg a b s =
      interactiveWaitToContinue status (conditionalPrint msg a b s)) := by
  unfold conditionalPrint conditionalError conditionalPrintWait
  refine ⟨fun h => ?_, fun h => ?_, fun h status => ?_⟩
  · rw [if_pos h, if_pos h]; exact ⟨rfl, rfl⟩
  · rw [if_neg (by omega), if_neg (by omega)]
    exact ⟨rfl, rfl, fun _ => by rw [if_neg (by omega)]⟩
  · rw [if_pos h, if_pos h]

/-- **C154.** What is printed tells the message and both levels, and ends its line. -/
theorem C154_text (msg msg' : List Char) (a b a' b' : Int) :
    (printStr msg a b = printStr msg' a' b' ↔ msg = msg' ∧ a = a' ∧ b = b') ∧
    (printStr msg a b).getLast? = some '\n' ∧ msg <:+: printStr msg a b := by
  refine ⟨⟨?_, ?_⟩, ?_, ?_⟩
  · intro h
    unfold printStr at h
    have h := (List.cons.inj h).2
    obtain ⟨h1, h2⟩ := split_unique (integerText_not_mem (by decide) (by decide) a)
      (integerText_not_mem (by decide) (by decide) a') h
    obtain ⟨h3, h4⟩ := split_unique (integerText_not_mem (by decide) (by decide) b)
      (integerText_not_mem (by decide) (by decide) b') h2
    have h5 := (List.cons.inj h4).2
    exact ⟨List.append_cancel_right h5, integerText_inj h1, integerText_inj h3⟩
  · rintro ⟨rfl, rfl, rfl⟩; rfl
  · have : printStr msg a b = ('[' :: (integerText a ++ '/' :: (integerText b ++ ']' :: ' ' :: msg))) ++ ['\n'] := by
      simp [printStr]
    rw [this, List.getLast?_concat]
  · refine ⟨'[' :: (integerText a ++ '/' :: (integerText b ++ [']', ' '])), ['\n'], ?_⟩
    simp [printStr]

/-- A terminal at which "yes" and ENTER are typed -/
def sample : Console := ⟨"yes\n".toList, false, false, [], [], some 0x8a3b#32, []⟩

example : getChar sample = (.ok (some 'y'), { sample with input := "es\n".toList, waited := [0x8a39#32] }) := by
  decide

example : (waits none 4 sample).input = [] ∧ (waits none 4 sample).fail = false := by decide

example : printStr "hello".toList 1 (-2) = "[1/-2] hello\n".toList := by decide +kernel

end Verif.Console
