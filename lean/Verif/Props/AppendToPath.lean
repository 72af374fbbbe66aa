import Verif.Model.AppendToPath
/-!
# C215: a text appended to a path

`path t` is the path made from the text `t`, and every path is made from a text.
-/
namespace Verif.AppendToPath

theorem splitSlash_ne_nil (s : List Char) : splitSlash s ≠ [] := by
  cases s with
  | nil => simp [splitSlash]
  | cons c cs =>
    unfold splitSlash
    by_cases h : c = '/'
    · simp [h]
    · simp only [h, if_false]
      split <;> simp

theorem splitSlash_noSlash : ∀ (s : List Char) (w), w ∈ splitSlash s → '/' ∉ w := by
  intro s
  induction s with
  | nil => intro w hw; simp [splitSlash] at hw; simp [hw]
  | cons c cs ih =>
    intro w hw
    unfold splitSlash at hw
    by_cases h : c = '/'
    · simp only [h, if_true, List.mem_cons] at hw
      rcases hw with hw | hw
      · simp [hw]
      · exact ih w hw
    · simp only [h, if_false] at hw
      cases hs : splitSlash cs with
      | nil => exact absurd hs (splitSlash_ne_nil cs)
      | cons v vs =>
        rw [hs] at hw
        simp only [List.mem_cons] at hw
        rcases hw with hw | hw
        · have := ih v (by rw [hs]; simp)
          rw [hw]; simp only [List.mem_cons, not_or]
          exact ⟨fun e => h e.symm, this⟩
        · exact ih w (by rw [hs]; simp [hw])

theorem splitSlash_of_noSlash : ∀ (s : List Char), '/' ∉ s → splitSlash s = [s] := by
  intro s
  induction s with
  | nil => intro _; rfl
  | cons c cs ih =>
    intro h
    simp only [List.mem_cons, not_or] at h
    unfold splitSlash
    rw [if_neg (fun e => h.1 e.symm), ih h.2]

theorem splitSlash_append : ∀ (s t : List Char), '/' ∉ s → splitSlash (s ++ '/' :: t) = s :: splitSlash t := by
  intro s
  induction s with
  | nil => intro t _; simp [splitSlash]
  | cons c cs ih =>
    intro t h
    simp only [List.mem_cons, not_or] at h
    rw [List.cons_append, splitSlash, if_neg (fun e => h.1 e.symm), ih t h.2]

/-- A name: not empty, not a single dot, without slashes -/
def IsName (w : List Char) : Prop := w ≠ [] ∧ w ≠ ['.'] ∧ '/' ∉ w

theorem namesOf_isName (s w : List Char) (h : w ∈ namesOf s) : IsName w := by
  simp only [namesOf, List.mem_filter, decide_eq_true_eq] at h
  exact ⟨h.2.1, h.2.2, splitSlash_noSlash s w h.1⟩

theorem namesOf_name (w : List Char) (h : IsName w) : namesOf w = [w] := by
  unfold namesOf
  rw [splitSlash_of_noSlash w h.2.2]
  simp [h.1, h.2.1]

theorem IsName.append {w s : List Char} (h : IsName w) (hs : '/' ∉ s) : IsName (w ++ s) := by
  refine ⟨by simp [h.1], ?_, by simp [h.2.2, hs]⟩
  intro e
  obtain ⟨h1, h2, -⟩ := h
  cases w with
  | nil => exact h1 rfl
  | cons c cs =>
    simp only [List.cons_append, List.cons.injEq, List.append_eq_nil_iff] at e
    exact h2 (by rw [e.1, e.2.1])

theorem IsName.head {w s : List Char} (h : IsName w) : (w ++ s).head? ≠ some '/' := by
  obtain ⟨h1, -, h3⟩ := h
  cases w with
  | nil => exact absurd rfl h1
  | cons c cs =>
    simp only [List.cons_append, List.head?_cons, ne_eq, Option.some.injEq]
    intro e
    exact h3 (by simp [e])

/-- The names of a path are those before the last and the last -/
theorem names_eq (p : PurePath) (h : p.name ≠ []) : p.names = p.parent.names ++ [p.name] := by
  unfold PurePath.name PurePath.parent at *
  rcases List.eq_nil_or_concat p.names with e | ⟨l, a, e⟩
  · simp [e] at h
  · simp [e]

theorem name_isName (t : List Char) (h : (path t).name ≠ []) : IsName (path t).name := by
  apply namesOf_isName t
  have := names_eq _ h
  show (path t).name ∈ (path t).names
  rw [this]; simp

theorem append_general (t s : List Char) (h : (path t).name ≠ []) :
    appendStrToPath (path t) s = { (path t).parent with
      names := (path t).parent.names ++ namesOf ((path t).name ++ s) } := by
  unfold appendStrToPath PurePath.div
  rw [if_neg (name_isName t h).head]

theorem append_eq (t s : List Char) (h : (path t).name ≠ []) (hs : '/' ∉ s) :
    appendStrToPath (path t) s = { (path t).parent with
      names := (path t).parent.names ++ [(path t).name ++ s] } := by
  rw [append_general t s h, namesOf_name _ ((name_isName t h).append hs)]

theorem between_concat : ∀ (l : List (List Char)) (w s : List Char),
    between (l ++ [w ++ s]) = between (l ++ [w]) ++ s := by
  intro l
  induction l with
  | nil => intro w s; rfl
  | cons a l ih =>
    intro w s
    cases l with
    | nil => simp [between]
    | cons b l =>
      have := ih w s
      simp only [List.cons_append] at this ⊢
      show a ++ '/' :: between (b :: (l ++ [w ++ s])) = a ++ '/' :: between (b :: (l ++ [w])) ++ s
      rw [this]
      simp

theorem namesOf_slashes (n : Nat) (u : List Char) : namesOf (List.replicate n '/' ++ u) = namesOf u := by
  induction n with
  | zero => rfl
  | succ n ih =>
    rw [List.replicate_succ, List.cons_append, ← ih]
    simp [namesOf, splitSlash]

theorem takeWhile_slashes (n : Nat) (u : List Char) (hu : u.head? ≠ some '/') :
    ((List.replicate n '/' ++ u).takeWhile (· = '/')).length = n := by
  induction n with
  | zero =>
    cases u with
    | nil => rfl
    | cons c cs =>
      have hc : c ≠ '/' := by simpa using hu
      simp [hc]
  | succ n ih =>
    rw [List.replicate_succ, List.cons_append, List.takeWhile_cons_of_pos (by simp), List.length_cons, ih]

/-- **C215 (the root).** A path is relative when its text does not begin with a slash. One slash is the root, as are three
or more; two are kept. The rest of the text gives the names. -/
theorem C215_root (n : Nat) (u : List Char) (hu : u.head? ≠ some '/') :
    path (List.replicate n '/' ++ u) =
      { slashes := match n with | 0 => 0 | 1 => 1 | 2 => 2 | _ => 1, names := (path u).names } := by
  have h1 := takeWhile_slashes n u hu
  have h2 : path (List.replicate n '/' ++ u) = { slashes := if n ≤ 2 then n else 1, names := namesOf u } := by
    unfold path
    simp only [h1, namesOf_slashes]
  rw [h2]
  match n with
  | 0 => rfl
  | 1 => rfl
  | 2 => rfl
  | k + 3 => rw [if_neg (by omega)]; rfl

theorem namesOf_between : ∀ (ws : List (List Char)), (∀ w ∈ ws, IsName w) → namesOf (between ws) = ws := by
  intro ws
  induction ws with
  | nil => intro _; rfl
  | cons w ws ih =>
    intro h
    cases ws with
    | nil => exact namesOf_name w (h w (by simp))
    | cons v vs =>
      have hw := h w (by simp)
      have ih := ih (fun x hx => h x (by simp [List.mem_cons.1 hx]))
      show namesOf (w ++ '/' :: between (v :: vs)) = _
      unfold namesOf at ih ⊢
      rw [splitSlash_append _ _ hw.2.2, List.filter_cons_of_pos, ih]
      exact decide_eq_true ⟨hw.1, hw.2.1⟩

theorem between_head (ws : List (List Char)) (h : ∀ w ∈ ws, IsName w) : (between ws).head? ≠ some '/' := by
  cases ws with
  | nil => simp [between]
  | cons w ws =>
    have hw := h w (by simp)
    cases ws with
    | nil => simpa [between] using hw.head (s := [])
    | cons v vs => exact hw.head

theorem path_slashes (t : List Char) : (path t).slashes ≤ 2 := by
  unfold path
  dsimp only
  split <;> omega

/-- **C215 (text and path).** The text of a path gives the path back, so that paths are the same exactly when their texts
are. -/
theorem C215_same (t t' : List Char) :
    path (path t).str = path t ∧ ((path t).str = (path t').str ↔ path t = path t') := by
  have key : ∀ t, path (path t).str = path t := by
    intro t
    have hn : ∀ w ∈ (path t).names, IsName w := fun w hw => namesOf_isName t w hw
    have hs := path_slashes t
    unfold PurePath.str
    cases hp : path t with
    | mk k l =>
      rw [hp] at hn hs
      simp only at hn hs ⊢
      by_cases h0 : k = 0 ∧ l = []
      · rw [if_pos h0, h0.1, h0.2]; decide
      · rw [if_neg h0, C215_root k _ (between_head l hn)]
        have : (path (between l)).names = l := namesOf_between l hn
        rw [this]
        match k, hs with
        | 0, _ => rfl
        | 1, _ => rfl
        | 2, _ => rfl
  refine ⟨key t, ?_, fun e => by rw [e]⟩
  intro e
  rw [← key t, ← key t', e]

/-- **C215 (the text).** For a path with a name and a text without slashes, the text of the result is that of the path
followed by the text. -/
theorem C215_text (t s : List Char) (h : (path t).name ≠ []) (hs : '/' ∉ s) :
    (appendStrToPath (path t) s).str = (path t).str ++ s := by
  rw [append_eq t s h hs]
  have hn := names_eq _ h
  unfold PurePath.str
  have h1 : ¬ ((path t).slashes = 0 ∧ (path t).names = []) := by rw [hn]; simp
  rw [if_neg (by simp), if_neg h1]
  show List.replicate (path t).slashes '/' ++ between ((path t).parent.names ++ [(path t).name ++ s]) =
    List.replicate (path t).slashes '/' ++ between (path t).names ++ s
  rw [between_concat, ← hn, List.append_assoc]

/-- **C215 (the same directory).** The result is in the same directory, and its name is that of the path followed by the
text. -/
theorem C215_sibling (t s : List Char) (h : (path t).name ≠ []) (hs : '/' ∉ s) :
    (appendStrToPath (path t) s).parent = (path t).parent ∧
    (appendStrToPath (path t) s).name = (path t).name ++ s := by
  rw [append_eq t s h hs]
  constructor
  · simp [PurePath.parent]
  · simp [PurePath.name]

/-- **C215 (nothing).** The empty text changes no path, with or without a name. -/
theorem C215_nothing (t : List Char) : appendStrToPath (path t) [] = path t := by
  by_cases h : (path t).name = []
  · have hn : (path t).names = [] := by
      rcases List.eq_nil_or_concat (path t).names with e | ⟨l, a, e⟩
      · exact e
      · exfalso
        have hm : IsName a := namesOf_isName t a (by show a ∈ (path t).names; rw [e]; simp)
        apply hm.1
        simpa [PurePath.name, e] using h
    unfold appendStrToPath PurePath.div
    rw [h]
    simp only [List.append_nil, List.head?_nil, reduceCtorEq, if_false]
    unfold PurePath.parent
    rw [hn]
    cases hp : path t with
    | mk k l => rw [hp] at hn; simp only at hn; subst hn; rfl
  · rw [append_eq t [] h (by simp), List.append_nil, ← names_eq _ h]
    rfl

/-- **C215 (distinct).** Different paths with a name stay different, and different texts make different paths. -/
theorem C215_distinct (t t' s s' : List Char) (h : (path t).name ≠ []) (h' : (path t').name ≠ [])
    (hs : '/' ∉ s) (hs' : '/' ∉ s') :
    (appendStrToPath (path t) s = appendStrToPath (path t') s ↔ path t = path t') ∧
    (appendStrToPath (path t) s = appendStrToPath (path t) s' ↔ s = s') := by
  constructor
  · constructor
    · intro e
      have hp := (C215_sibling t s h hs).1
      have hp' := (C215_sibling t' s h' hs).1
      have hq := (C215_sibling t s h hs).2
      have hq' := (C215_sibling t' s h' hs).2
      rw [e] at hp hq
      have e1 : (path t).parent = (path t').parent := hp.symm.trans hp'
      have e2 : (path t).name = (path t').name := List.append_cancel_right (hq.symm.trans hq')
      have n1 := names_eq _ h
      have n2 := names_eq _ h'
      have e3 : (path t).names = (path t').names := by rw [n1, n2, e1, e2]
      have e4 : (path t).slashes = (path t').slashes := by
        simpa [PurePath.parent] using congrArg PurePath.slashes e1
      cases hpt : path t; cases hpt' : path t'
      rw [hpt, hpt'] at e3 e4
      simp only at e3 e4
      rw [e3, e4]
    · intro e; rw [e]
  · constructor
    · intro e
      have hq := (C215_sibling t s h hs).2
      have hq' := (C215_sibling t s' h hs').2
      rw [e] at hq
      exact List.append_cancel_left (hq.symm.trans hq')
    · intro e; rw [e]

/-- **C215 (slashes).** A text with a slash makes a path below the one whose name has what is before the slash: the
directory of a path with a name is never left out, even if the text begins with a slash. -/
theorem C215_slash (t s u : List Char) (h : (path t).name ≠ []) (hs : '/' ∉ s) :
    appendStrToPath (path t) (s ++ '/' :: u) =
      { appendStrToPath (path t) s with names := (appendStrToPath (path t) s).names ++ (path u).names } := by
  rw [append_general t _ h, append_eq t s h hs]
  have hw := (name_isName t h).append hs
  have : namesOf ((path t).name ++ (s ++ '/' :: u)) = ((path t).name ++ s) :: namesOf u := by
    unfold namesOf
    rw [← List.append_assoc, splitSlash_append _ _ hw.2.2, List.filter_cons_of_pos]
    exact decide_eq_true ⟨hw.1, hw.2.1⟩
  rw [this]
  simp [path]

/-- **C215 (paths without a name).** The path of the current directory has no name: the result is the path of the text
alone, which an absolute text makes absolute, and the dot of the current directory is not in it. -/
theorem C215_no_name (s : List Char) :
    (path ['.']).name = [] ∧ appendStrToPath (path ['.']) s = path s := by
  refine ⟨by decide, ?_⟩
  unfold appendStrToPath PurePath.div
  have h0 : (path ['.']).name = [] := by decide
  rw [h0, List.nil_append]
  by_cases h : s.head? = some '/'
  · rw [if_pos h]
  · rw [if_neg h]
    have h1 : (path ['.']).parent = ⟨0, []⟩ := by decide
    rw [h1]
    unfold path
    cases s with
    | nil => rfl
    | cons c cs =>
      have hc : c ≠ '/' := by simpa using h
      simp [hc]

/-- A file in a directory, given with superfluous slashes and dots -/
example : (path "/data//./a.txt/".toList).name = "a.txt".toList ∧ '/' ∉ "_v2".toList ∧
    (appendStrToPath (path "/data//./a.txt/".toList) "_v2".toList).str = "/data/a.txt_v2".toList := by decide +kernel

/-- With a slash in the text -/
example : (appendStrToPath (path "out/a".toList) "_x/../b".toList).str = "out/a_x/../b".toList ∧
    (appendStrToPath (path ".".toList) "/etc".toList).str = "/etc".toList ∧
    (appendStrToPath (path ".".toList) ".txt".toList).str = ".txt".toList := by decide +kernel

end Verif.AppendToPath
