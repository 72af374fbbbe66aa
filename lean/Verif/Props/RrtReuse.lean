import Verif.Model.RrtReuse
import Verif.Props.Rrt

/-!
# Property C168 (simple_rrt_planner.hpp): planning again, and the child indices of a state
-/
namespace Verif.Rrt
open Verif

variable {T : Type}

/-- C168: with a start state of the caller's own, nothing of the tree passed matters: both planners do what
they do without one, and the tree they leave is rooted at the start state. -/
theorem C168_own_start (env : Env T) (fuel : Nat) (nodes : Tree T) (v : T) :
    planMultiPathIn env false fuel nodes (.own v) = planMultiPathFrom env fuel v ∧
    planIn env fuel nodes (.own v) = plan env fuel v ∧
    (∀ o tree', planMultiPathIn env false fuel nodes (.own v) = some (o, tree') →
      WellFormed tree' ∧ RootedAt v tree') := by
  refine ⟨rfl, ?_, ?_⟩
  · unfold planIn plan
    rfl
  · intro o tree' h
    exact ⟨(C23_growth env false fuel _ (wf_start v) (by simp) o tree' h).1, C24_root env false fuel v o tree' h⟩

/-- C168, false of the code: planning again from a state of the tree that is passed. The tree is cleared
before the start state is read, so the call has undefined behaviour, for every tree and every state of it. -/
theorem C168_start_in_tree (env : Env T) (single : Bool) (fuel : Nat) (nodes : Tree T) (i : Nat) :
    planMultiPathIn env single fuel nodes (.ofTree i) = some (.ub, []) ∧
    planIn env fuel nodes (.ofTree i) = some (.ub, []) := by
  constructor
  · simp [planMultiPathIn, Start.read]
  · simp [planIn, planMultiPathIn, Start.read]

/-- What was meant is defined: reading the state first. -/
example (env : Env T) (fuel : Nat) (nodes : Tree T) (i : Nat) (s : State T) (h : nodes[i]? = some s) :
    (Start.ofTree i).read nodes = .ok s.value ∧
      planMultiPathIn env false fuel nodes (.own s.value) = planMultiPathFrom env fuel s.value := by
  exact ⟨by simp [Start.read, h], rfl⟩

/-- C168: after every history of calls the value, the parent and the mark are as before; an index is a child
index exactly if it was added, or there from the beginning, and neither removed nor cleared since. -/
theorem C168_children (s : State T) (ops : List ChildOp) :
    (childHistory s ops).value = s.value ∧ (childHistory s ops).parent = s.parent ∧
    (childHistory s ops).initialized = s.initialized ∧
    ∀ c : Int, c ∈ (childHistory s ops).children ↔
      (c ∈ s.children ∧ ∀ op ∈ ops, op ≠ .remove c ∧ op ≠ .clear) ∨
      ∃ before after, ops = before ++ .add c :: after ∧ ∀ op ∈ after, op ≠ .remove c ∧ op ≠ .clear := by
  unfold childHistory
  induction ops generalizing s with
  | nil => simp
  | cons op ops ih =>
    obtain ⟨h1, h2, h3, h4⟩ := ih (ChildOp.run s op)
    have hs : (ChildOp.run s op).value = s.value ∧ (ChildOp.run s op).parent = s.parent ∧
        (ChildOp.run s op).initialized = s.initialized := by
      cases op with
      | add c =>
        simp only [ChildOp.run, State.addChild]
        split <;> exact ⟨rfl, rfl, rfl⟩
      | remove c => exact ⟨rfl, rfl, rfl⟩
      | clear => exact ⟨rfl, rfl, rfl⟩
    rw [List.foldl_cons]
    refine ⟨h1.trans hs.1, h2.trans hs.2.1, h3.trans hs.2.2, ?_⟩
    intro c
    rw [h4 c]
    have hc : c ∈ (ChildOp.run s op).children ↔
        (c ∈ s.children ∧ op ≠ .remove c ∧ op ≠ .clear) ∨ op = .add c := by
      cases op with
      | add d =>
        simp only [ChildOp.run, State.addChild]
        split
        · next hd =>
          simp
          rintro rfl
          exact hd
        · simp [Eq.comm (a := c) (b := d)]
      | remove d => simp [ChildOp.run, State.removeChild, Eq.comm (a := c) (b := d)]
      | clear => simp [ChildOp.run, State.clearChildren]
    rw [hc]
    constructor
    · rintro (⟨(⟨a, b⟩ | rfl), hall⟩ | ⟨before, after, rfl, hall⟩)
      · refine Or.inl ⟨a, ?_⟩
        intro x hx
        rcases List.mem_cons.1 hx with rfl | hx
        · exact b
        · exact hall x hx
      · exact Or.inr ⟨[], ops, rfl, hall⟩
      · exact Or.inr ⟨op :: before, after, rfl, hall⟩
    · rintro (⟨a, hall⟩ | ⟨before, after, he, hall⟩)
      · exact Or.inl ⟨Or.inl ⟨a, hall op List.mem_cons_self⟩, fun x hx => hall x (List.mem_cons_of_mem _ hx)⟩
      · cases before with
        | nil =>
          simp only [List.nil_append, List.cons.injEq] at he
          obtain ⟨rfl, rfl⟩ := he
          exact Or.inl ⟨Or.inr rfl, hall⟩
        | cons b before =>
          simp only [List.cons_append, List.cons.injEq] at he
          exact Or.inr ⟨before, after, he.2, hall⟩

/-- C168: no index is listed twice if none was, and an added index that was not there comes last, the others
keeping their order. -/
theorem C168_no_duplicates (s : State T) (ops : List ChildOp) (h : s.children.Nodup) :
    (childHistory s ops).children.Nodup ∧
    ∀ c : Int, c ∉ s.children → (ChildOp.run s (.add c)).children = s.children ++ [c] ∧
      (ChildOp.run s (.remove c)).children = s.children := by
  refine ⟨?_, ?_⟩
  · unfold childHistory
    induction ops generalizing s with
    | nil => exact h
    | cons op ops ih =>
      rw [List.foldl_cons]
      apply ih
      cases op with
      | add c =>
        simp only [ChildOp.run, State.addChild]
        split
        · exact h
        · next hc =>
          rw [List.nodup_append]
          refine ⟨h, by simp, ?_⟩
          intro a ha b hb
          simp at hb
          subst hb
          intro hab
          exact hc (hab ▸ ha)
      | remove c => exact h.filter _
      | clear => exact List.nodup_nil
  · intro c hc
    refine ⟨by simp [ChildOp.run, State.addChild, hc], ?_⟩
    simp only [ChildOp.run, State.removeChild]
    rw [List.filter_eq_self]
    intro a ha
    simp
    rintro rfl
    exact hc ha

/-- A history that adds twice, removes and adds again. -/
example : (childHistory (State.root (0 : Nat)) [.add 3, .add 5, .add 3, .remove 3, .add 4, .add 3]).children =
    [5, 4, 3] := by decide
example : (State.root (0 : Nat)).children.Nodup := by decide
/-- `RemoveChildIndex` removes every copy of an index a state was constructed with. -/
example : (ChildOp.run (⟨0, [2, 7, 2], -1, true⟩ : State Nat) (.remove 2)).children = [7] := by decide

end Verif.Rrt
