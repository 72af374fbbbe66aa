import Verif.Spec.PrettyPrint
/-!
# C141: printed values
-/
namespace Verif.PrettyPrint

theorem elements_false {α : Type} (p : α → Text) (sep : Text) (l : List α) :
    elements p sep false l = (l.map fun x => sep ++ p x).flatten := by
  induction l with
  | nil => rfl
  | cons x xs ih => simp [elements, ih]

theorem elements_true {α : Type} (p : α → Text) (sep : Text) (l : List α) :
    elements p sep true l = sep.intercalate (l.map p) := by
  cases l with
  | nil => simp [elements]
  | cons x xs =>
    simp only [elements, if_true, elements_false, List.map_cons]
    induction xs generalizing x with
    | nil => simp [List.intercalate]
    | cons y ys ih => rw [List.map_cons, List.map_cons, List.intercalate_cons_cons, ← ih y]; simp

/-- What may follow a value: nothing, or a text that starts with a separating or a closing character -/
def Follow (s : Text) : Prop := ∀ c, s.head? = some c → c ∈ [' ', ',', ':', '>', ']', ')', '}']

theorem follow_nil : Follow [] := by intro c h; simp at h

theorem follow_cons {c : Char} (h : c ∈ [' ', ',', ':', '>', ']', ')', '}']) (s : Text) : Follow (c :: s) := by
  intro d hd; simp only [List.head?_cons, Option.some.injEq] at hd; subst hd; exact h

theorem follow_lit {l : Text} (h : l.head?.any (fun c => c ∈ [' ', ',', ':', '>', ']', ')', '}']) = true) (s : Text) :
    Follow (l ++ s) := by
  cases l with
  | nil => simp at h
  | cons c l => exact follow_cons (by simpa using h) _

theorem follow_not_plain {c : Char} {s : Text} (h : Follow (c :: s)) {t : Text} (ht : Plain t) : c ∉ t := by
  intro hc
  have h1 := h c rfl
  have h2 := ht c hc
  simp only [List.mem_cons, List.not_mem_nil, or_false, not_or] at h1 h2
  obtain ⟨a1, a2, a3, a4, a5, a6, a7, a8, a9, a10, a11⟩ := h2
  rcases h1 with h | h | h | h | h | h | h <;> contradiction

theorem plain_cancel : ∀ {x y s t : Text}, Plain x → Plain y → Follow s → Follow t → x ++ s = y ++ t → x = y ∧ s = t
  | [], [], _, _, _, _, _, _, h => ⟨rfl, h⟩
  | [], d :: y, s, t, _, hy, hs, _, h => by
    simp only [List.nil_append, List.cons_append] at h
    subst h
    exact absurd (List.mem_cons_self ..) (follow_not_plain hs hy)
  | c :: x, [], s, t, hx, _, _, ht, h => by
    simp only [List.nil_append, List.cons_append] at h
    subst h
    exact absurd (List.mem_cons_self ..) (follow_not_plain ht hx)
  | c :: x, d :: y, s, t, hx, hy, hs, ht, h => by
    simp only [List.cons_append, List.cons.injEq] at h
    obtain ⟨h1, h2⟩ := plain_cancel (x := x) (y := y) (fun a ha => hx a (List.mem_cons_of_mem _ ha))
      (fun a ha => hy a (List.mem_cons_of_mem _ ha)) hs ht h.2
    exact ⟨by rw [h.1, h1], h2⟩

/-- A way of writing values from which the value can be read off again, whatever follows it -/
def Readable {α : Type} (G : α → Prop) (p : α → Text) : Prop :=
  ∀ v w s t, G v → G w → Follow s → Follow t → p v ++ s = p w ++ t → v = w ∧ s = t

theorem readable_pair {α β : Type} {G : α → Prop} {H : β → Prop} {p : α → Text} {q : β → Text} (hp : Readable G p)
    (hq : Readable H q) : Readable (fun e : α × β => G e.1 ∧ H e.2) (fun e => pairText true (p e.1) (q e.2)) := by
  rintro ⟨v1, v2⟩ ⟨w1, w2⟩ s t ⟨g1, g2⟩ ⟨k1, k2⟩ hs ht h
  simp only [pairText, if_true, List.append_assoc] at h
  have h := List.append_cancel_left h
  obtain ⟨h1, h⟩ := hp v1 w1 _ _ g1 k1 (follow_lit rfl _) (follow_lit rfl _) h
  have h := List.append_cancel_left h
  obtain ⟨h2, h⟩ := hq v2 w2 _ _ g2 k2 (follow_lit rfl _) (follow_lit rfl _) h
  have h := List.append_cancel_left h
  exact ⟨by rw [h1, h2], h⟩

theorem elements_follow {α : Type} (p : α → Text) {sep : Text} (hsep : sep.head? = some ',') {closing : Char}
    (hc : closing ∈ [' ', ',', ':', '>', ']', ')', '}']) (l : List α) (s : Text) :
    Follow (elements p sep false l ++ closing :: s) := by
  cases l with
  | nil => exact follow_cons hc _
  | cons x xs =>
    cases sep with
    | nil => simp at hsep
    | cons a b =>
      simp only [List.head?_cons, Option.some.injEq] at hsep
      subst hsep
      exact follow_cons (by simp) _

theorem elements_read {α : Type} {G : α → Prop} {p : α → Text} (hp : Readable G p) {sep : Text}
    (hsep : sep.head? = some ',') {closing : Char} (hc : closing ∈ [']', ')', '}']) :
    ∀ (v w : List α) (s t : Text), (∀ x ∈ v, G x) → (∀ x ∈ w, G x) →
      elements p sep false v ++ closing :: s = elements p sep false w ++ closing :: t → v = w ∧ s = t := by
  have hc' : closing ∈ [' ', ',', ':', '>', ']', ')', '}'] := by
    simp only [List.mem_cons, List.not_mem_nil, or_false] at hc ⊢; simp [hc]
  have hne : closing ≠ ',' := by
    rintro rfl; simp at hc
  obtain ⟨b, rfl⟩ : ∃ b, sep = ',' :: b := by
    cases sep with
    | nil => simp at hsep
    | cons a b => simp at hsep; exact ⟨b, by rw [hsep]⟩
  intro v
  induction v with
  | nil =>
    intro w s t _ _ h
    cases w with
    | nil => simp [elements] at h; exact ⟨rfl, h⟩
    | cons y ys => simp [elements] at h; exact absurd h.1 hne
  | cons x xs ih =>
    intro w s t hv hw h
    cases w with
    | nil => simp [elements] at h; exact absurd h.1.symm hne
    | cons y ys =>
      simp only [elements, Bool.false_eq_true, if_false, List.append_assoc] at h
      have h := List.append_cancel_left h
      obtain ⟨h1, h⟩ := hp x y _ _ (hv x (by simp)) (hw y (by simp)) (elements_follow p hsep hc' xs s)
        (elements_follow p hsep hc' ys t) h
      obtain ⟨h2, h⟩ := ih ys s t (fun a ha => hv a (by simp [ha])) (fun a ha => hw a (by simp [ha])) h
      exact ⟨by rw [h1, h2], h⟩

theorem readable_container {α : Type} {G : α → Prop} {p : α → Text} (hp : Readable G p) {sep : Text}
    (hsep : sep.head? = some ',') {opening closing : Char} (ho : opening ∈ ['[', '(', '{'])
    (hc : closing ∈ [']', ')', '}']) :
    Readable (fun l : List α => ∀ x ∈ l, G x) (container p opening closing true sep) := by
  have hc' : closing ∈ [' ', ',', ':', '>', ']', ')', '}'] := by
    simp only [List.mem_cons, List.not_mem_nil, or_false] at hc ⊢; simp [hc]
  have hopen : ∀ s t : Text, Follow s → s ≠ opening :: t := by
    rintro s t hs rfl
    have := hs opening rfl
    simp only [List.mem_cons, List.not_mem_nil, or_false] at ho this
    rcases ho with rfl | rfl | rfl <;> simp at this
  intro v w s t hv hw hs ht h
  cases v with
  | nil =>
    cases w with
    | nil => simp [container] at h; exact ⟨rfl, h⟩
    | cons y ys =>
      simp only [container, List.length_nil, List.length_cons, gt_iff_lt, Nat.lt_irrefl, if_false, List.nil_append,
        Nat.zero_lt_succ, if_true, List.cons_append] at h
      exact absurd h (hopen _ _ hs)
  | cons x xs =>
    cases w with
    | nil =>
      simp only [container, List.length_nil, List.length_cons, gt_iff_lt, Nat.lt_irrefl, if_false, List.nil_append,
        Nat.zero_lt_succ, if_true, List.cons_append] at h
      exact absurd h.symm (hopen _ _ ht)
    | cons y ys =>
      simp only [container, List.length_cons, gt_iff_lt, Nat.zero_lt_succ, if_true, List.cons_append, List.cons.injEq,
        true_and, elements, List.append_assoc, List.nil_append] at h
      obtain ⟨h1, h⟩ := hp x y _ _ (hv x (by simp)) (hw y (by simp)) (elements_follow p hsep hc' xs s)
        (elements_follow p hsep hc' ys t) h
      obtain ⟨h2, h⟩ := elements_read hp hsep hc xs ys s t (fun a ha => hv a (by simp [ha]))
        (fun a ha => hw a (by simp [ha])) h
      exact ⟨by rw [h1, h2], h⟩

theorem readable {sep : Text} (hsep : sep.head? = some ',') (ty : Ty) :
    Readable (AllPlain ty) (prettyPrint true sep ty) := by
  induction ty with
  | atom => intro v w s t hv hw hs ht h; exact plain_cancel hv hw hs ht h
  | bool =>
    intro v w s t _ _ _ _ h
    cases v <;> cases w <;> simp [prettyPrint, boolText] at h <;> exact ⟨rfl, h⟩
  | vector2 =>
    rintro ⟨x, y⟩ ⟨x', y'⟩ s t ⟨p1, p2⟩ ⟨q1, q2⟩ hs ht h
    simp only [prettyPrint, if_true, List.append_assoc] at h
    have h := List.append_cancel_left h
    obtain ⟨e1, h⟩ := plain_cancel p1 q1 (follow_lit rfl _) (follow_lit rfl _) h
    have h := List.append_cancel_left h
    obtain ⟨e2, h⟩ := plain_cancel p2 q2 (follow_lit rfl _) (follow_lit rfl _) h
    have h := List.append_cancel_left h
    exact ⟨by rw [e1, e2], h⟩
  | vector3 =>
    rintro ⟨x, y, z⟩ ⟨x', y', z'⟩ s t ⟨p1, p2, p3⟩ ⟨q1, q2, q3⟩ hs ht h
    simp only [prettyPrint, if_true, List.append_assoc] at h
    have h := List.append_cancel_left h
    obtain ⟨e1, h⟩ := plain_cancel p1 q1 (follow_lit rfl _) (follow_lit rfl _) h
    have h := List.append_cancel_left h
    obtain ⟨e2, h⟩ := plain_cancel p2 q2 (follow_lit rfl _) (follow_lit rfl _) h
    have h := List.append_cancel_left h
    obtain ⟨e3, h⟩ := plain_cancel p3 q3 (follow_lit rfl _) (follow_lit rfl _) h
    have h := List.append_cancel_left h
    exact ⟨by rw [e1, e2, e3], h⟩
  | vector4 =>
    rintro ⟨x, y, z, w⟩ ⟨x', y', z', w'⟩ s t ⟨p1, p2, p3, p4⟩ ⟨q1, q2, q3, q4⟩ hs ht h
    simp only [prettyPrint, if_true, List.append_assoc] at h
    have h := List.append_cancel_left h
    obtain ⟨e1, h⟩ := plain_cancel p1 q1 (follow_lit rfl _) (follow_lit rfl _) h
    have h := List.append_cancel_left h
    obtain ⟨e2, h⟩ := plain_cancel p2 q2 (follow_lit rfl _) (follow_lit rfl _) h
    have h := List.append_cancel_left h
    obtain ⟨e3, h⟩ := plain_cancel p3 q3 (follow_lit rfl _) (follow_lit rfl _) h
    have h := List.append_cancel_left h
    obtain ⟨e4, h⟩ := plain_cancel p4 q4 (follow_lit rfl _) (follow_lit rfl _) h
    have h := List.append_cancel_left h
    exact ⟨by rw [e1, e2, e3, e4], h⟩
  | quaternion =>
    rintro ⟨x, y, z, w⟩ ⟨x', y', z', w'⟩ s t ⟨p1, p2, p3, p4⟩ ⟨q1, q2, q3, q4⟩ hs ht h
    simp only [prettyPrint, if_true, List.append_assoc] at h
    have h := List.append_cancel_left h
    obtain ⟨e1, h⟩ := plain_cancel p1 q1 (follow_lit rfl _) (follow_lit rfl _) h
    have h := List.append_cancel_left h
    obtain ⟨e2, h⟩ := plain_cancel p2 q2 (follow_lit rfl _) (follow_lit rfl _) h
    have h := List.append_cancel_left h
    obtain ⟨e3, h⟩ := plain_cancel p3 q3 (follow_lit rfl _) (follow_lit rfl _) h
    have h := List.append_cancel_left h
    obtain ⟨e4, h⟩ := plain_cancel p4 q4 (follow_lit rfl _) (follow_lit rfl _) h
    have h := List.append_cancel_left h
    exact ⟨by rw [e1, e2, e3, e4], h⟩
  | isometry =>
    rintro ⟨⟨x, y, z⟩, a, b, c, d⟩ ⟨⟨x', y', z'⟩, a', b', c', d'⟩ s t ⟨p1, p2, p3, p4, p5, p6, p7⟩
      ⟨q1, q2, q3, q4, q5, q6, q7⟩ hs ht h
    simp only [prettyPrint, if_true, List.append_assoc] at h
    have h := List.append_cancel_left h
    obtain ⟨e1, h⟩ := plain_cancel p1 q1 (follow_lit rfl _) (follow_lit rfl _) h
    have h := List.append_cancel_left h
    obtain ⟨e2, h⟩ := plain_cancel p2 q2 (follow_lit rfl _) (follow_lit rfl _) h
    have h := List.append_cancel_left h
    obtain ⟨e3, h⟩ := plain_cancel p3 q3 (follow_lit rfl _) (follow_lit rfl _) h
    have h := List.append_cancel_left h
    obtain ⟨e4, h⟩ := plain_cancel p4 q4 (follow_lit rfl _) (follow_lit rfl _) h
    have h := List.append_cancel_left h
    obtain ⟨e5, h⟩ := plain_cancel p5 q5 (follow_lit rfl _) (follow_lit rfl _) h
    have h := List.append_cancel_left h
    obtain ⟨e6, h⟩ := plain_cancel p6 q6 (follow_lit rfl _) (follow_lit rfl _) h
    have h := List.append_cancel_left h
    obtain ⟨e7, h⟩ := plain_cancel p7 q7 (follow_lit rfl _) (follow_lit rfl _) h
    have h := List.append_cancel_left h
    exact ⟨by rw [e1, e2, e3, e4, e5, e6, e7], h⟩
  | pair a b iha ihb =>
    rintro ⟨v1, v2⟩ ⟨w1, w2⟩ s t hv hw hs ht h
    exact readable_pair iha ihb (v1, v2) (w1, w2) s t hv hw hs ht h
  | seq a ih => exact readable_container ih hsep (by simp) (by simp)
  | map a b iha ihb => exact readable_container (readable_pair iha ihb) hsep (by simp) (by simp)
  | set a ih => exact readable_container ih hsep (by simp) (by simp)

/-- C141: with delimiters two values of one type with the same text are the same, however containers and pairs are nested,
if the texts of their numbers have none of the delimiting characters and the separator starts with a comma -/
theorem C141_unambiguous (sep : Text) (hsep : sep.head? = some ',') (ty : Ty) (v w : Val ty) (hv : AllPlain ty v)
    (hw : AllPlain ty w) (h : prettyPrint true sep ty v = prettyPrint true sep ty w) : v = w :=
  (readable hsep ty v w [] [] hv hw follow_nil follow_nil (by rw [h])).1

/-- C141: the text of a container is its elements' with the separator between, in the brackets of its kind if delimiters
are wanted; that of an empty container is empty even so. -/
theorem C141_container (d : Bool) (sep : Text) (a b : Ty) (l : List (Val a)) (m : List (Val a × Val b)) :
    prettyPrint d sep (.seq a) l =
      (if l = [] then [] else (if d then ['['] else []) ++ sep.intercalate (l.map (prettyPrint d sep a)) ++
        (if d then [']'] else [])) ∧
    prettyPrint d sep (.set a) l =
      (if l = [] then [] else (if d then ['('] else []) ++ sep.intercalate (l.map (prettyPrint d sep a)) ++
        (if d then [')'] else [])) ∧
    prettyPrint d sep (.map a b) m =
      (if m = [] then [] else (if d then ['{'] else []) ++
        sep.intercalate (m.map (fun e => prettyPrint d sep (.pair a b) e)) ++ (if d then ['}'] else [])) := by
  have key : ∀ {α : Type} (p : α → Text) (o c : Char) (l : List α), container p o c d sep l =
      if l = [] then [] else (if d then [o] else []) ++ sep.intercalate (l.map p) ++ (if d then [c] else []) := by
    intro α p o c l
    unfold container
    rw [elements_true]
    cases l with
    | nil => simp
    | cons x xs => cases d <;> simp
  exact ⟨key _ _ _ _, key _ _ _ _, key _ _ _ _⟩

/-- C141: pairs and the geometric types, with delimiters and without -/
theorem C141_fixed (sep : Text) (a b : Ty) (p : Val a × Val b) (x y z w i j k : Text) :
    prettyPrint true sep (.pair a b) p =
      '<' :: prettyPrint true sep a p.1 ++ [':', ' '] ++ prettyPrint true sep b p.2 ++ ['>'] ∧
    prettyPrint false sep (.pair a b) p = prettyPrint false sep a p.1 ++ [':', ' '] ++ prettyPrint false sep b p.2 ∧
    prettyPrint true sep .vector2 (x, y) = "Vector2d: <x: ".toList ++ x ++ " y: ".toList ++ y ++ ['>'] ∧
    prettyPrint false sep .vector2 (x, y) = [',', ' '].intercalate [x, y] ∧
    prettyPrint true sep .vector3 (x, y, z) =
      "Vector3d: <x: ".toList ++ x ++ " y: ".toList ++ y ++ " z: ".toList ++ z ++ ['>'] ∧
    prettyPrint false sep .vector3 (x, y, z) = [',', ' '].intercalate [x, y, z] ∧
    prettyPrint true sep .vector4 (x, y, z, w) =
      "Vector4d: <x: ".toList ++ x ++ " y: ".toList ++ y ++ " z: ".toList ++ z ++ " w: ".toList ++ w ++ ['>'] ∧
    prettyPrint false sep .vector4 (x, y, z, w) = [',', ' '].intercalate [x, y, z, w] ∧
    prettyPrint true sep .quaternion (x, y, z, w) =
      "Quaterniond <x: ".toList ++ x ++ " y: ".toList ++ y ++ " z: ".toList ++ z ++ " w: ".toList ++ w ++ ['>'] ∧
    prettyPrint false sep .quaternion (x, y, z, w) = [',', ' '].intercalate [x, y, z, w] ∧
    prettyPrint true sep .isometry ((i, j, k), (x, y, z, w)) =
      "Isometry3d <x: ".toList ++ i ++ " y: ".toList ++ j ++ " z: ".toList ++ k ++ ">, <x: ".toList ++ x ++
        " y: ".toList ++ y ++ " z: ".toList ++ z ++ " w: ".toList ++ w ++ ['>'] ∧
    prettyPrint false sep .isometry ((i, j, k), (x, y, z, w)) =
      [',', ' '].intercalate [i, j, k] ++ " : ".toList ++ [',', ' '].intercalate [x, y, z, w] ∧
    prettyPrint true sep .bool (show Bool from true) = "true".toList ∧
    prettyPrint true sep .bool (show Bool from false) = "false".toList := by
  refine ⟨?_, ?_, ?_, ?_, ?_, ?_, ?_, ?_, ?_, ?_, ?_, ?_, rfl, rfl⟩ <;>
    simp [prettyPrint, pairText, List.intercalate, List.intersperse]

/-- C141: without delimiters the text does not say how the elements are grouped; with them, the empty container and an
element that is an empty container are told apart only by the brackets of the outer one. -/
theorem C141_ambiguous :
    prettyPrint false [',', ' '] (.seq (.seq .atom)) [[['1']], [['2']]] =
      prettyPrint false [',', ' '] (.seq (.seq .atom)) [[['1'], ['2']]] ∧
    prettyPrint false [',', ' '] (.seq (.seq .atom)) [] = prettyPrint false [',', ' '] (.seq (.seq .atom)) [[]] ∧
    prettyPrint true [',', ' '] (.seq (.seq .atom)) [] = [] ∧
    prettyPrint true [',', ' '] (.seq (.seq .atom)) [[]] = ['[', ']'] ∧
    prettyPrint true [',', ' '] (.seq (.seq .atom)) [[], []] = ['[', ',', ' ', ']'] := ⟨rfl, rfl, rfl, rfl, rfl⟩

/-- A nested value with plain texts, and its text -/
example : AllPlain (.map .atom (.seq .vector2)) [(['a'], [(['1'], ['2'])]), (['b'], [])] ∧
    prettyPrint true [',', ' '] (.map .atom (.seq .vector2)) [(['a'], [(['1'], ['2'])]), (['b'], [])] =
      "{<a: [Vector2d: <x: 1 y: 2>]>, <b: >}".toList := by
  refine ⟨?_, rfl⟩
  intro x hx
  simp only [List.mem_cons, List.not_mem_nil, or_false] at hx
  rcases hx with rfl | rfl
  · refine ⟨fun c hc => ?_, fun y hy => ?_⟩
    · simp only [List.mem_singleton] at hc; subst hc; decide
    · cases List.mem_singleton.mp hy
      constructor <;> intro c hc <;> simp only [List.mem_singleton] at hc <;> subst hc <;> decide
  · refine ⟨fun c hc => ?_, fun y hy => ?_⟩
    · simp only [List.mem_singleton] at hc; subst hc; decide
    · simp at hy

end Verif.PrettyPrint
