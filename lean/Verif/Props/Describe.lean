import Verif.Model.Describe
import Verif.Props.Console

/-!
# Property C155 (graph.hpp, voxel_grid.hpp, ostream_operators.hpp, moveit_ostream_operators.hpp): what texts tell
-/
namespace Verif.Describe
open Verif Verif.Console Verif.Timestamps Verif.Debugger

variable {ν W : Type}

/-- What can be in the text of a number: nothing that separates the parts of the description. -/
def Plain (text : List Char) : Prop := ∀ c ∈ text, c ≠ ' ' ∧ c ≠ ',' ∧ c ≠ 'O' ∧ c ≠ '\n'

/-- What the text of an edge tells. -/
def edgeView (weightText : W → List Char) (e : Graph.Edge W) : Int × Int × List Char :=
  (e.fromIndex, e.toIndex, weightText e.weight)

/-- What the text of a node tells. -/
def nodeView (weightText distanceText : W → List Char) (n : Graph.Node ν W) :
    List Char × List (Int × Int × List Char) × List (Int × Int × List Char) :=
  (distanceText n.distance, n.inEdges.map (edgeView weightText), n.outEdges.map (edgeView weightText))

/-- Digits end where the separator begins. -/
theorem decimal_then {m n : Nat} {r r' : List Char} (h : decimal m ++ '-' :: r = decimal n ++ '-' :: r') :
    m = n ∧ r = r' := by
  obtain ⟨h1, h2⟩ := split_unique (decimal_not_mem (by decide) m) (decimal_not_mem (by decide) n) h
  exact ⟨decimal_inj h1, h2⟩

theorem decimal_head (n : Nat) : ∃ c r, decimal n = c :: r ∧ c ≠ '-' := by
  cases h : decimal n with
  | nil => have := decimal_pos n; rw [h] at this; simp at this
  | cons c r =>
    refine ⟨c, r, rfl, ?_⟩
    rintro rfl
    exact decimal_not_mem (by decide) n (h ▸ List.mem_cons_self)

theorem integer_then {i j : Int} {r r' : List Char}
    (h : integerText i ++ '-' :: r = integerText j ++ '-' :: r') : i = j ∧ r = r' := by
  unfold integerText at h
  by_cases hi : i < 0 <;> by_cases hj : j < 0
  · rw [if_pos hi, if_pos hj] at h
    obtain ⟨h1, h2⟩ := decimal_then (List.cons.inj h).2
    exact ⟨by omega, h2⟩
  · rw [if_pos hi, if_neg hj] at h
    obtain ⟨c, t, hc, hne⟩ := decimal_head j.natAbs
    rw [hc] at h
    exact absurd (List.cons.inj h).1.symm hne
  · rw [if_neg hi, if_pos hj] at h
    obtain ⟨c, t, hc, hne⟩ := decimal_head i.natAbs
    rw [hc] at h
    exact absurd (List.cons.inj h).1 hne
  · rw [if_neg hi, if_neg hj] at h
    obtain ⟨h1, h2⟩ := decimal_then h
    exact ⟨by omega, h2⟩

/-- **C155.** The text of an edge tells both its nodes and the text of its weight, and nothing else. -/
theorem C155_edge (weightText : W → List Char) (e e' : Graph.Edge W) :
    printEdge weightText e = printEdge weightText e' ↔
      e.fromIndex = e'.fromIndex ∧ e.toIndex = e'.toIndex ∧ weightText e.weight = weightText e'.weight := by
  constructor
  · intro h
    unfold printEdge at h
    obtain ⟨h1, h2⟩ := integer_then (List.cons.inj h).2
    have h3 := (List.cons.inj h2).2
    obtain ⟨h4, h5⟩ := split_unique (integerText_not_mem (by decide) (by decide) e.toIndex)
      (integerText_not_mem (by decide) (by decide) e'.toIndex) h3
    refine ⟨h1, integerText_inj h4, ?_⟩
    simpa using h5
  · rintro ⟨h1, h2, h3⟩
    unfold printEdge
    rw [h1, h2, h3]

theorem edge_no {x : Char} (hd : isDigit x = false) (h : x ∉ "(->) :".toList) {weightText : W → List Char}
    {e : Graph.Edge W} (hw : x ∉ weightText e.weight) : x ∉ printEdge weightText e := by
  have h' : x ≠ '(' ∧ x ≠ '-' ∧ x ≠ '>' ∧ x ≠ ')' ∧ x ≠ ' ' ∧ x ≠ ':' := by
    simpa using h
  obtain ⟨n1, n2, n3, n4, n5, n6⟩ := h'
  have hi := integerText_not_mem hd n2
  simp [printEdge, n1, n2, n3, n4, n5, n6, hi, hw]

/-- Items without the separator's first character, none of them empty, can be told from the joined text. -/
theorem join_inj {α : Type} {x : Char} {sep : List Char} {text : α → List Char} :
    ∀ {l l' : List α}, (∀ a ∈ l, x ∉ text a ∧ text a ≠ []) → (∀ a ∈ l', x ∉ text a ∧ text a ≠ []) →
      join (x :: sep) text l = join (x :: sep) text l' → l.map text = l'.map text := by
  have key : ∀ (l l' : List α) (a a' : α), x ∉ text a → x ∉ text a' → (∀ b ∈ l, x ∉ text b) →
      (∀ b ∈ l', x ∉ text b) →
      text a ++ (l.map fun b => (x :: sep) ++ text b).flatten =
        text a' ++ (l'.map fun b => (x :: sep) ++ text b).flatten →
      (a :: l).map text = (a' :: l').map text := by
    intro l
    induction l with
    | nil =>
      intro l' a a' ha ha' _ hl' h
      cases l' with
      | nil => simp at h; simp [h]
      | cons b l' =>
        exfalso
        simp at h
        apply ha
        rw [h]; simp
    | cons b l ih =>
      intro l' a a' ha ha' hl hl' h
      cases l' with
      | nil =>
        exfalso
        simp at h
        apply ha'
        rw [← h]; simp
      | cons b' l' =>
        simp only [List.map_cons, List.flatten_cons, List.cons_append, List.append_assoc] at h
        obtain ⟨h1, h2⟩ := split_unique ha ha' h
        have h3 := List.append_cancel_left h2
        have h4 := ih l' b b' (hl b List.mem_cons_self) (hl' b' List.mem_cons_self)
          (fun c hc => hl c (List.mem_cons_of_mem _ hc)) (fun c hc => hl' c (List.mem_cons_of_mem _ hc)) h3
        simp only [List.map_cons, List.cons.injEq] at h4 ⊢
        exact ⟨h1, h4⟩
  intro l l' hl hl' h
  cases l with
  | nil =>
    cases l' with
    | nil => rfl
    | cons b l' =>
      exfalso
      have : text b = [] := by
        have := h.symm
        simp [join] at this
        exact this.1
      exact (hl' b List.mem_cons_self).2 this
  | cons a l =>
    cases l' with
    | nil =>
      exfalso
      have : text a = [] := by
        simp [join] at h
        exact h.1
      exact (hl a List.mem_cons_self).2 this
    | cons a' l' =>
      exact key l l' a a' (hl a List.mem_cons_self).1 (hl' a' List.mem_cons_self).1
        (fun b hb => (hl b (List.mem_cons_of_mem _ hb)).1) (fun b hb => (hl' b (List.mem_cons_of_mem _ hb)).1) h

theorem join_no {α : Type} {x : Char} {sep : List Char} {text : α → List Char} (hs : x ∉ sep) :
    ∀ {l : List α}, (∀ a ∈ l, x ∉ text a) → x ∉ join sep text l
  | [], _ => by simp [join]
  | a :: l, h => by
    have h1 := h a List.mem_cons_self
    have h2 : ∀ b ∈ l, x ∉ text b := fun b hb => h b (List.mem_cons_of_mem _ hb)
    simp only [join, List.mem_append, List.mem_flatten, List.mem_map, not_or, not_exists, not_and]
    refine ⟨h1, ?_⟩
    rintro t ⟨b, hb, rfl⟩ hx
    rcases List.mem_append.1 hx with hx | hx
    · exact hs hx
    · exact h2 b hb hx

theorem edges_inj {weightText : W → List Char} (hw : ∀ w, Plain (weightText w)) {l l' : List (Graph.Edge W)}
    (h : join ", ".toList (printEdge weightText) l = join ", ".toList (printEdge weightText) l') :
    l.map (edgeView weightText) = l'.map (edgeView weightText) := by
  have hno : ∀ e : Graph.Edge W, ',' ∉ printEdge weightText e ∧ printEdge weightText e ≠ [] := by
    intro e
    refine ⟨edge_no (by decide) (by decide) (fun hm => (hw _ _ hm).2.1 rfl), ?_⟩
    simp [printEdge]
  have h1 := join_inj (x := ',') (sep := [' ']) (text := printEdge weightText) (fun e _ => hno e)
    (fun e _ => hno e) h
  clear h
  induction l generalizing l' with
  | nil => cases l' with
    | nil => rfl
    | cons _ _ => simp at h1
  | cons e l ih =>
    cases l' with
    | nil => simp at h1
    | cons e' l' =>
      simp only [List.map_cons, List.cons.injEq] at h1 ⊢
      refine ⟨?_, ih h1.2⟩
      obtain ⟨a, b, c⟩ := (C155_edge weightText e e').1 h1.1
      simp [edgeView, a, b, c]

/-- **C155.** The text of a node tells the text of its distance and, in order, what the texts of its edges tell, and
nothing else. -/
theorem C155_node (weightText distanceText : W → List Char) (hw : ∀ w, Plain (weightText w))
    (hd : ∀ w, Plain (distanceText w)) (n n' : Graph.Node ν W) :
    printNode weightText distanceText n = printNode weightText distanceText n' ↔
      nodeView weightText distanceText n = nodeView weightText distanceText n' := by
  have hsp : ∀ w, ' ' ∉ distanceText w := fun w hm => (hd w _ hm).1 rfl
  have hO : ∀ l : List (Graph.Edge W), 'O' ∉ join ", ".toList (printEdge weightText) l := fun l =>
    join_no (by decide) (fun e _ => edge_no (by decide) (by decide) (fun hm => (hw _ _ hm).2.2.1 rfl))
  constructor
  · intro h
    unfold printNode at h
    have h1 := List.append_cancel_left h
    rw [show " In Edges : ".toList = ' ' :: "In Edges : ".toList from rfl] at h1
    simp only [List.cons_append] at h1
    obtain ⟨h2, h3⟩ := split_unique (hsp _) (hsp _) h1
    have h4 := List.append_cancel_left h3
    rw [show " Out Edges : ".toList = [' '] ++ 'O' :: "ut Edges : ".toList from rfl] at h4
    simp only [List.append_assoc, List.cons_append, List.nil_append] at h4
    have hO' : ∀ l : List (Graph.Edge W), 'O' ∉ join ", ".toList (printEdge weightText) l ++ [' '] := by
      intro l hm
      rcases List.mem_append.1 hm with hm | hm
      · exact hO l hm
      · exact absurd hm (by decide)
    have h5 : (join ", ".toList (printEdge weightText) n.inEdges ++ [' ']) ++ 'O' :: ("ut Edges : ".toList ++
        join ", ".toList (printEdge weightText) n.outEdges) =
        (join ", ".toList (printEdge weightText) n'.inEdges ++ [' ']) ++ 'O' :: ("ut Edges : ".toList ++
        join ", ".toList (printEdge weightText) n'.outEdges) := by
      simpa only [List.append_assoc, List.cons_append, List.nil_append] using h4
    obtain ⟨h6, h7⟩ := split_unique (hO' _) (hO' _) h5
    have h8 := edges_inj hw (List.append_cancel_right h6)
    have h9 := edges_inj hw (List.append_cancel_left h7)
    unfold nodeView
    rw [h2, h8, h9]
  · intro h
    simp only [nodeView, Prod.mk.injEq] at h
    obtain ⟨h1, h2, h3⟩ := h
    have hj : ∀ l l' : List (Graph.Edge W), l.map (edgeView weightText) = l'.map (edgeView weightText) →
        l.map (printEdge weightText) = l'.map (printEdge weightText) := by
      intro l
      induction l with
      | nil => intro l' h; cases l' with
        | nil => rfl
        | cons _ _ => simp at h
      | cons e l ih =>
        intro l' h
        cases l' with
        | nil => simp at h
        | cons e' l' =>
          simp only [List.map_cons, List.cons.injEq] at h ⊢
          refine ⟨(C155_edge weightText e e').2 ?_, ih l' h.2⟩
          simpa [edgeView] using h.1
    have hjoin : ∀ l l' : List (Graph.Edge W), l.map (printEdge weightText) = l'.map (printEdge weightText) →
        join ", ".toList (printEdge weightText) l = join ", ".toList (printEdge weightText) l' := by
      intro l l' h
      have hm : ∀ l : List (Graph.Edge W), (l.map fun b => ", ".toList ++ printEdge weightText b).flatten =
          ((l.map (printEdge weightText)).map fun t => ", ".toList ++ t).flatten := by
        intro l; rw [List.map_map]; rfl
      cases l with
      | nil => cases l' with
        | nil => rfl
        | cons _ _ => simp at h
      | cons e l => cases l' with
        | nil => simp at h
        | cons e' l' =>
          simp only [List.map_cons, List.cons.injEq] at h
          simp only [join]
          rw [hm, hm, h.1, h.2]
    unfold printNode
    rw [h1, hjoin _ _ (hj _ _ h2), hjoin _ _ (hj _ _ h3)]

/-- **C155.** The text of a graph tells, in order, what the texts of its nodes tell. -/
theorem C155_graph (weightText distanceText : W → List Char) (hw : ∀ w, Plain (weightText w))
    (hd : ∀ w, Plain (distanceText w)) (g g' : Graph.Graph ν W)
    (h : printGraph weightText distanceText g = printGraph weightText distanceText g') :
    g.map (nodeView weightText distanceText) = g'.map (nodeView weightText distanceText) := by
  have hno : ∀ n : Graph.Node ν W, '\n' ∉ printNode weightText distanceText n ∧
      printNode weightText distanceText n ≠ [] := by
    intro n
    have h1 : ∀ l : List (Graph.Edge W), '\n' ∉ join ", ".toList (printEdge weightText) l := fun l =>
      join_no (by decide) (fun e _ => edge_no (by decide) (by decide) (fun hm => (hw _ _ hm).2.2.2 rfl))
    have h2 : '\n' ∉ distanceText n.distance := fun hm => (hd _ _ hm).2.2.2 rfl
    have a1 : '\n' ∉ "Node : ".toList := by decide
    have a2 : '\n' ∉ " In Edges : ".toList := by decide
    have a3 : '\n' ∉ " Out Edges : ".toList := by decide
    have a4 : "Node : ".toList ≠ [] := by decide
    unfold printNode
    generalize "Node : ".toList = t1 at *
    generalize " In Edges : ".toList = t2 at *
    generalize " Out Edges : ".toList = t3 at *
    refine ⟨?_, fun he => a4 (List.append_eq_nil_iff.1 he).1⟩
    rw [List.mem_append, List.mem_append, List.mem_append, List.mem_append, List.mem_append]
    rintro (hm | hm | hm | hm | hm | hm)
    · exact a1 hm
    · exact h2 hm
    · exact a2 hm
    · exact h1 _ hm
    · exact a3 hm
    · exact h1 _ hm
  have h1 := join_inj (x := '\n') (sep := []) (text := printNode weightText distanceText) (fun n _ => hno n)
    (fun n _ => hno n) (List.append_cancel_left h)
  clear h
  induction g generalizing g' with
  | nil => cases g' with
    | nil => rfl
    | cons _ _ => simp at h1
  | cons n g ih =>
    cases g' with
    | nil => simp at h1
    | cons n' g' =>
      simp only [List.map_cons, List.cons.injEq] at h1 ⊢
      exact ⟨(C155_node weightText distanceText hw hd n n').1 h1.1, ih g' h1.2⟩

/-- **C155.** Not in the text of a graph: the values of the nodes and the validity of the edges. -/
theorem C155_not_shown (weightText distanceText : W → List Char) (n : Graph.Node ν W) (v : ν)
    (e : Graph.Edge W) (b : Graph.Validity) :
    printNode weightText distanceText { n with value := v } = printNode weightText distanceText n ∧
    printEdge weightText { e with validity := b } = printEdge weightText e := ⟨rfl, rfl⟩

/-- **C155.** The text of a grid index tells the index. -/
theorem C155_index (x y z x' y' z' : Int) :
    printIndex x y z = printIndex x' y' z' ↔ x = x' ∧ y = y' ∧ z = z' := by
  constructor
  · intro h
    unfold printIndex at h
    have h1 := List.append_cancel_left h
    have hc : ∀ i, ',' ∉ integerText i := integerText_not_mem (by decide) (by decide)
    have hp : ∀ i, ')' ∉ integerText i := integerText_not_mem (by decide) (by decide)
    obtain ⟨h2, h3⟩ := split_unique (hc _) (hc _) h1
    obtain ⟨h4, h5⟩ := split_unique (hc _) (hc _) h3
    obtain ⟨h6, _⟩ := split_unique (hp _) (hp _) h5
    exact ⟨integerText_inj h2, integerText_inj h4, integerText_inj h6⟩
  · rintro ⟨rfl, rfl, rfl⟩; rfl

/-- **C155.** The text of a list of whole numbers tells the numbers. -/
theorem C155_numbers (l l' : List Int) : printNumbers l = printNumbers l' ↔ l = l' := by
  constructor
  · intro h
    have hc : ∀ i, ' ' ∉ integerText i := integerText_not_mem (by decide) (by decide)
    induction l generalizing l' with
    | nil => cases l' with
      | nil => rfl
      | cons a l' => exfalso; simp [printNumbers] at h
    | cons a l ih =>
      cases l' with
      | nil => exfalso; simp [printNumbers] at h
      | cons b l' =>
        unfold printNumbers at h
        rw [show " ".toList = [' '] from rfl] at h
        simp only [List.cons_append, List.nil_append] at h
        obtain ⟨h1, h2⟩ := split_unique (hc _) (hc _) h
        rw [integerText_inj h1, ih l' h2]
  · rintro rfl; rfl

/-- **C155.** The text of a list of strings tells them if they are single lines; otherwise it does not. -/
theorem C155_strings :
    (∀ l l' : List (List Char), (∀ s ∈ l, '\n' ∉ s) → (∀ s ∈ l', '\n' ∉ s) →
      (printStrings l = printStrings l' ↔ l = l')) ∧
    ∃ l l' : List (List Char), l ≠ l' ∧ printStrings l = printStrings l' := by
  refine ⟨?_, ["a\nb".toList], ["a".toList, "b".toList], by decide, by decide⟩
  intro l l' hl hl'
  constructor
  · intro h
    induction l generalizing l' with
    | nil => cases l' with
      | nil => rfl
      | cons a l' => exfalso; simp [printStrings] at h
    | cons a l ih =>
      cases l' with
      | nil => exfalso; simp [printStrings] at h
      | cons b l' =>
        unfold printStrings at h
        rw [show "\n".toList = ['\n'] from rfl] at h
        simp only [List.cons_append, List.nil_append] at h
        obtain ⟨h1, h2⟩ := split_unique (hl a List.mem_cons_self) (hl' b List.mem_cons_self) h
        rw [h1, ih l' (fun s hs => hl s (List.mem_cons_of_mem _ hs))
          (fun s hs => hl' s (List.mem_cons_of_mem _ hs)) h2]
  · rintro rfl; rfl

/-- **C155.** What is said of a collision: that there is none; that there is one without contacts; the first contact,
with a remark exactly when there are more contacts or more pairs of bodies. Nothing at all is said when the first
pair has no contacts. -/
theorem C155_collision (pairs : List (List (List Char × List Char))) (a b : List Char)
    (more : List (List Char × List Char)) :
    printCollision ⟨false, pairs⟩ = "no collision".toList ∧
    printCollision ⟨true, []⟩ = "collision found but no contacts reported".toList ∧
    printCollision ⟨true, [] :: pairs⟩ = [] ∧
    (more = [] ∧ pairs = [] → printCollision ⟨true, ((a, b) :: more) :: pairs⟩ =
      "collision between ".toList ++ a ++ " and ".toList ++ b) ∧
    (¬ (more = [] ∧ pairs = []) → printCollision ⟨true, ((a, b) :: more) :: pairs⟩ =
      "collision between ".toList ++ a ++ " and ".toList ++ b ++ " among others...\n".toList) := by
  refine ⟨by simp [printCollision], by simp [printCollision], by simp [printCollision], ?_, ?_⟩
  · rintro ⟨rfl, rfl⟩; simp [printCollision]
  · intro h
    have : pairs ≠ [] ∨ more ≠ [] := by
      cases pairs <;> cases more <;> simp_all
    have hm : ((((a, b) :: more) :: pairs).length > 1 ∨ ((a, b) :: more).length > 1) := by
      rcases this with h | h
      · left
        have := List.length_pos_iff.2 h
        simp only [List.length_cons]; omega
      · right
        have := List.length_pos_iff.2 h
        simp only [List.length_cons]; omega
    simp only [printCollision]
    rw [if_neg (by simp), if_pos hm]
    simp

example : printEdge (fun _ => "0.500000".toList) (⟨3, -1, (), Graph.VALID⟩ : Graph.Edge Unit) =
    "(3->-1) : 0.500000".toList := by decide +kernel

example : printGraph (fun _ : Unit => "1.000000".toList) (fun _ => "0".toList)
    ([⟨(), (), [], [⟨0, 1, (), Graph.VALID⟩]⟩, ⟨(), (), [⟨0, 1, (), Graph.VALID⟩], []⟩] : Graph.Graph Unit Unit) =
    "Graph - Nodes : Node : 0 In Edges :  Out Edges : (0->1) : 1.000000\nNode : 0 In Edges : (0->1) : 1.000000 Out Edges : ".toList := by
  decide +kernel

/-- The texts of numbers are plain. -/
example : Plain "-1.500000".toList ∧ Plain "1.5e+10".toList ∧ Plain "inf".toList ∧ Plain "-nan".toList := by
  unfold Plain; decide

end Verif.Describe
