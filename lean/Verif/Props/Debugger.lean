import Verif.Model.Debugger
import Verif.Props.Timestamps
/-!
# C150: whether a debugger is present
-/
namespace Verif.Debugger
open Verif.Timestamps (decimal digit decimal_small decimal_large)

/-- The text of lines, each with its end -/
def text (lines : List (List Char)) : List Char := (lines.map (· ++ ['\n'])).flatten

/-- A line that can be before the one looked for: it has no end of line or zero in it, and not the words looked for. -/
def Other (line : List Char) : Prop := '\n' ∉ line ∧ '\x00' ∉ line ∧ ¬ tracerPid <:+: line

theorem strstr_skip (l s : List Char) (hn : '\n' ∉ l) (h : ¬ tracerPid <:+: l) :
    strstr tracerPid (l ++ '\n' :: s) = strstr tracerPid s := by
  have hnl : '\n' ∉ tracerPid := by decide
  induction l with
  | nil =>
    show (if tracerPid.isPrefixOf ('\n' :: s) then some ('\n' :: s) else strstr tracerPid s) = _
    rfl
  | cons c l ih =>
    rw [List.mem_cons, not_or] at hn
    have hi : ¬ tracerPid <:+: l := fun h' => h (h'.trans (List.suffix_cons c l).isInfix)
    show (if tracerPid.isPrefixOf (c :: (l ++ '\n' :: s)) then _ else strstr tracerPid (l ++ '\n' :: s)) = _
    rw [if_neg, ih hn.2 hi]
    rw [List.isPrefixOf_iff_prefix]
    intro hp
    have hp' : tracerPid <+: (c :: l) ++ '\n' :: s := hp
    rcases Nat.lt_or_ge (c :: l).length tracerPid.length with hlt | hge
    · have hq : (c :: l) ++ ['\n'] <+: tracerPid := by
        apply List.prefix_of_prefix_length_le (l₃ := (c :: l) ++ '\n' :: s)
        · exact ⟨s, by simp⟩
        · exact hp'
        · simp only [List.length_append, List.length_singleton]; omega
      exact hnl (hq.subset (by simp))
    · have hq : tracerPid <+: c :: l :=
        List.prefix_of_prefix_length_le hp' ⟨'\n' :: s, rfl⟩ hge
      exact h hq.isInfix

theorem strstr_lines (lines : List (List Char)) (h : ∀ l ∈ lines, Other l) (s : List Char) :
    strstr tracerPid (text lines ++ s) = strstr tracerPid s := by
  induction lines with
  | nil => rfl
  | cons l lines ih =>
    have : text (l :: lines) ++ s = l ++ '\n' :: (text lines ++ s) := by
      simp [text]
    rw [this, strstr_skip l _ (h l List.mem_cons_self).1 (h l List.mem_cons_self).2.2]
    exact ih fun l hl => h l (List.mem_cons_of_mem _ hl)

theorem digit_isDigit : ∀ d < 10, isDigit (digit d) = true ∧ (digit d).toNat - 48 = d ∧ digit d ≠ '\x00' ∧
    space (digit d) = false ∧ digit d ≠ '-' ∧ digit d ≠ '+' := by decide

theorem decimal_all (n : Nat) : ∀ c ∈ decimal n, ∃ d, d < 10 ∧ c = digit d := by
  induction n using Nat.strongRecOn with
  | ind n ih =>
    intro c hc
    by_cases hn : n < 10
    · rw [decimal_small n hn] at hc
      exact ⟨n, hn, List.mem_singleton.mp hc⟩
    · rw [decimal_large n hn] at hc
      rcases List.mem_append.mp hc with hc | hc
      · exact ih (n / 10) (by omega) c hc
      · exact ⟨n % 10, by omega, List.mem_singleton.mp hc⟩

theorem decimal_value (n : Nat) : (decimal n).foldl (fun n c => 10 * n + (c.toNat - 48)) 0 = n := by
  induction n using Nat.strongRecOn with
  | ind n ih =>
    by_cases hn : n < 10
    · rw [decimal_small n hn]
      simp [(digit_isDigit n hn).2.1]
    · rw [decimal_large n hn, List.foldl_append, ih (n / 10) (by omega)]
      simp only [List.foldl_cons, List.foldl_nil, (digit_isDigit (n % 10) (by omega)).2.1]
      omega

theorem takeWhile_append_all {p : Char → Bool} : ∀ (l s : List Char), (∀ c ∈ l, p c = true) →
    (l ++ s).takeWhile p = l ++ s.takeWhile p
  | [], _, _ => rfl
  | a :: l, s, h => by
    rw [List.cons_append, List.takeWhile_cons_of_pos (h a List.mem_cons_self),
      takeWhile_append_all l s fun c hc => h c (List.mem_cons_of_mem _ hc)]
    rfl

theorem number_decimal (n : Nat) (s : List Char) (hs : ∀ c, s.head? = some c → isDigit c = false) :
    number (decimal n ++ s) = n := by
  unfold number
  rw [takeWhile_append_all _ _ fun c hc => by
    obtain ⟨d, hd, rfl⟩ := decimal_all n c hc
    exact (digit_isDigit d hd).1]
  have : s.takeWhile isDigit = [] := by
    cases s with
    | nil => rfl
    | cons c s => rw [List.takeWhile_cons, hs c rfl]; rfl
  rw [this, List.append_nil, decimal_value]

/-- The characters that are white space in C -/
def whiteSpace : List Char := [' ', '\t', '\n', '\x0b', '\x0c', '\r']

theorem dropWhile_blank : ∀ (blank s : List Char), (∀ c ∈ blank, c ∈ whiteSpace) →
    (blank ++ s).dropWhile space = s.dropWhile space
  | [], _, _ => rfl
  | a :: l, s, h => by
    have : ∀ c ∈ whiteSpace, space c = true := by decide
    rw [List.cons_append, List.dropWhile_cons_of_pos (this a (h a List.mem_cons_self)),
      dropWhile_blank l s fun c hc => h c (List.mem_cons_of_mem _ hc)]

theorem atoi_decimal (blank : List Char) (hb : ∀ c ∈ blank, c ∈ whiteSpace) (n : Nat) (s : List Char) (hs : ∀ c, s.head? = some c → isDigit c = false) :
    atoi (blank ++ (decimal n ++ s)) = n := by
  have hd : ∃ d rest, d < 10 ∧ decimal n = digit d :: rest := by
    have hpos := Verif.Timestamps.decimal_pos n
    cases h : decimal n with
    | nil => rw [h] at hpos; simp at hpos
    | cons c rest =>
      obtain ⟨d, hd, rfl⟩ := decimal_all n c (by rw [h]; exact List.mem_cons_self)
      exact ⟨d, rest, hd, rfl⟩
  obtain ⟨d, rest, hd, hdec⟩ := hd
  have hdrop : (blank ++ (decimal n ++ s)).dropWhile space = decimal n ++ s := by
    rw [dropWhile_blank _ _ hb, hdec, List.cons_append,
      List.dropWhile_cons_of_neg (by rw [(digit_isDigit d hd).2.2.2.1]; simp)]
  have hnum := number_decimal n s hs
  unfold atoi
  rw [hdrop]
  split
  · rename_i r heq
    rw [hdec, List.cons_append] at heq
    exact absurd (List.cons.inj heq).1 (digit_isDigit d hd).2.2.2.2.1
  · rename_i r heq
    rw [hdec, List.cons_append] at heq
    exact absurd (List.cons.inj heq).1 (digit_isDigit d hd).2.2.2.2.2
  · rw [hnum]

theorem other_zero (lines : List (List Char)) (h : ∀ l ∈ lines, Other l) : ∀ c ∈ text lines, c ≠ '\x00' := by
  intro c hc e
  subst e
  simp only [text, List.mem_flatten, List.mem_map] at hc
  obtain ⟨l', ⟨l, hl, rfl⟩, hc⟩ := hc
  rcases List.mem_append.mp hc with hc | hc
  · exact (h l hl).2.1 hc
  · simp at hc

/-- C150: if the file has a line `TracerPid:` with white space and a number, no line before it has these words in it, and this line is within
the first 1023 characters, then a debugger is reported exactly if the number is not zero, whatever follows. -/
theorem C150_traced (lines : List (List Char)) (h : ∀ l ∈ lines, Other l) (blank : List Char)
    (hb : ∀ c ∈ blank, c ∈ whiteSpace) (pid : Nat) (rest : List Char)
    (hlen : (text lines).length + 10 + blank.length + (decimal pid).length ≤ 1023) :
    isDebuggerPresent (some (text lines ++ "TracerPid:".toList ++ blank ++ decimal pid ++ '\n' :: rest)) = true ↔ pid ≠ 0 := by
  have htake : (text lines ++ "TracerPid:".toList ++ blank ++ decimal pid ++ '\n' :: rest).take 1023 =
      text lines ++ "TracerPid:".toList ++ blank ++ decimal pid ++
        ('\n' :: rest).take (1023 - (text lines ++ "TracerPid:".toList ++ blank ++ decimal pid).length) := by
    rw [List.take_append]
    congr 1
    apply List.take_of_length_le
    have : "TracerPid:".toList.length = 10 := rfl
    rw [List.length_append, List.length_append, List.length_append, this]
    omega
  generalize 1023 - (text lines ++ "TracerPid:".toList ++ blank ++ decimal pid).length = k at htake
  have hc : cString ((text lines ++ "TracerPid:".toList ++ blank ++ decimal pid ++ '\n' :: rest).take 1023) =
      text lines ++ (tracerPid ++ (blank ++ (decimal pid ++ cString (('\n' :: rest).take k)))) := by
    rw [htake]
    unfold cString
    rw [takeWhile_append_all]
    · have : "TracerPid:".toList = tracerPid := rfl
      rw [this]
      simp only [List.append_assoc]
    · intro c hc
      rcases List.mem_append.mp hc with hc | hc
      · rcases List.mem_append.mp hc with hc | hc
        · rcases List.mem_append.mp hc with hc | hc
          · simpa using other_zero lines h c hc
          · have : ∀ c ∈ "TracerPid:".toList, decide (c ≠ '\x00') = true := by decide
            exact this c hc
        · have : ∀ c ∈ whiteSpace, decide (c ≠ '\x00') = true := by decide
          exact this c (hb c hc)
      · obtain ⟨d, hd, rfl⟩ := decimal_all pid c hc
        simpa using (digit_isDigit d hd).2.2.1
  have hhead : ∀ c, (cString (('\n' :: rest).take k)).head? = some c → isDigit c = false := by
    intro c hcc
    cases k with
    | zero => simp [cString] at hcc
    | succ k =>
      simp only [List.take_succ_cons, cString] at hcc
      rw [List.takeWhile_cons_of_pos (by decide)] at hcc
      simp only [List.head?_cons, Option.some.injEq] at hcc
      subst hcc
      rfl
  unfold isDebuggerPresent
  simp only
  rw [if_pos, hc, strstr_lines lines h]
  · have hfind : strstr tracerPid (tracerPid ++ (blank ++ (decimal pid ++ cString (('\n' :: rest).take k)))) =
        some (tracerPid ++ (blank ++ (decimal pid ++ cString (('\n' :: rest).take k)))) := rfl
    rw [hfind]
    have hdrop : (tracerPid ++ (blank ++ (decimal pid ++ cString (('\n' :: rest).take k)))).drop 10 =
        blank ++ (decimal pid ++ cString (('\n' :: rest).take k)) := rfl
    simp only [hdrop, atoi_decimal blank hb pid _ hhead]
    simp
  · rw [htake]
    have : "TracerPid:".toList.length = 10 := rfl
    simp only [List.length_append, this]
    omega

theorem strstr_none (lines : List (List Char)) (h : ∀ l ∈ lines, Other l) : strstr tracerPid (text lines) = none := by
  have := strstr_lines lines h []
  rw [List.append_nil] at this
  rw [this]
  rfl

/-- C150: without the file, with an empty file and without these words no debugger is reported. -/
theorem C150_absent (lines : List (List Char)) (h : ∀ l ∈ lines, Other l) (hlen : (text lines).length ≤ 1023) :
    isDebuggerPresent none = false ∧ isDebuggerPresent (some []) = false ∧
    isDebuggerPresent (some (text lines)) = false := by
  refine ⟨rfl, rfl, ?_⟩
  unfold isDebuggerPresent
  simp only
  rw [List.take_of_length_le hlen]
  have : cString (text lines) = text lines := by
    have := takeWhile_append_all (p := fun c => decide (c ≠ '\x00')) (text lines) []
      (by simpa using other_zero lines h)
    simpa [cString] using this
  rw [this, strstr_none lines h]
  split <;> rfl

/-- C150: a process whose name has the words in it is reported as debugged although it is not. -/
theorem C150_name_wrong (rest : List Char) :
    isDebuggerPresent (some ("Name:\tTracerPid:1\nUmask:\t0022\nTracerPid:\t0\n".toList ++ rest)) = true := by
  have hc : ∃ s, cString (("Name:\tTracerPid:1\nUmask:\t0022\nTracerPid:\t0\n".toList ++ rest).take 1023) =
      "Name:\t".toList ++ (tracerPid ++ '1' :: '\n' :: s) := by
    refine ⟨"Umask:\t0022\nTracerPid:\t0\n".toList ++ cString (rest.take 980), ?_⟩
    have htake : ("Name:\tTracerPid:1\nUmask:\t0022\nTracerPid:\t0\n".toList ++ rest).take 1023 =
        "Name:\tTracerPid:1\nUmask:\t0022\nTracerPid:\t0\n".toList ++ rest.take 980 := by
      rw [List.take_append]
      rfl
    rw [htake]
    unfold cString
    rw [takeWhile_append_all]
    · rfl
    · decide
  obtain ⟨s, hs⟩ := hc
  unfold isDebuggerPresent
  simp only
  rw [if_pos, hs]
  · rfl
  · rw [List.length_take, List.length_append]
    have : ("Name:\tTracerPid:1\nUmask:\t0022\nTracerPid:\t0\n".toList).length = 43 := rfl
    omega

/-- C150: what is after the first 1023 characters is not looked at. -/
theorem C150_cut (lines : List (List Char)) (h : ∀ l ∈ lines, Other l) (hlen : (text lines).length = 1023)
    (rest : List Char) : isDebuggerPresent (some (text lines ++ rest)) = false := by
  have := (C150_absent lines h (by omega)).2.2
  unfold isDebuggerPresent at this ⊢
  simp only at this ⊢
  rw [List.take_of_length_le (by omega)] at this
  rw [List.take_append_of_le_length (by omega), List.take_of_length_le (by omega)]
  exact this

/-- The hypotheses are met. -/
theorem other_example : ∀ l ∈ ["Name:\tplanner".toList, "Umask:\t0022".toList, "State:\tR (running)".toList], Other l := by
  have key : ∀ l : List Char, ('\n' ∉ l ∧ '\x00' ∉ l ∧ 'P' ∉ l) → Other l :=
    fun l h => ⟨h.1, h.2.1, fun hi => h.2.2 (hi.subset (by decide))⟩
  intro l hl
  apply key
  revert l
  decide

example : isDebuggerPresent (some (text ["Name:\tplanner".toList, "Umask:\t0022".toList, "State:\tR (running)".toList] ++
    "TracerPid:".toList ++ ['\t'] ++ decimal 4711 ++ '\n' :: "Uid:\t0".toList)) = true :=
  (C150_traced _ other_example ['\t'] (by decide) 4711 _ (by
    have := Verif.Timestamps.decimal_length 4711 3 (by decide) (by decide)
    rw [this]
    decide)).mpr (by decide)

/-- A file for `C150_cut`. -/
example : ∃ lines, (∀ l ∈ lines, Other l) ∧ (text lines).length = 1023 := by
  refine ⟨[List.replicate 1022 'x'], ?_, ?_⟩
  · intro l hl
    rw [List.mem_singleton.mp hl]
    have : ∀ c, c ∈ List.replicate 1022 'x' → c = 'x' := fun c hc => (List.mem_replicate.mp hc).2
    refine ⟨fun h => ?_, fun h => ?_, fun h => ?_⟩
    · have := this _ h; revert this; decide
    · have := this _ h; revert this; decide
    · have := this 'P' (h.subset (by decide)); revert this; decide
  · simp only [text, List.map_cons, List.map_nil, List.flatten_cons, List.flatten_nil, List.append_nil,
      List.length_append, List.length_replicate, List.length_singleton]

end Verif.Debugger
