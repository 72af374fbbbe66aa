import Mathlib.Data.Fintype.Card
import Mathlib.Data.List.Nodup
import Mathlib.Data.List.Perm.Subperm
import Mathlib.Logic.Relation
import Verif.Spec.LinkedRobot

/-!
# Lemmas about trees of links
-/
namespace Verif.LinkedRobot

/-- Links of which all but link 0 have exactly one parent, and all are reached -/
structure Tree (n : Nat) (es : List (Int × Int)) : Prop where
  range : ∀ e ∈ es, (0 ≤ e.1 ∧ e.1 < n) ∧ (0 ≤ e.2 ∧ e.2 < n)
  pos : 0 < n
  unique : (es.map Prod.snd).Nodup
  nonroot : ∀ e ∈ es, e.2 ≠ 0
  reach : ∀ i : Int, 0 ≤ i → i < n → Reach es i

theorem tree_of_reach {n : Nat} {es : List (Int × Int)} (hn : n = es.length + 1)
    (hr : ∀ e ∈ es, (0 ≤ e.1 ∧ e.1 < n) ∧ (0 ≤ e.2 ∧ e.2 < n))
    (h : ∀ i : Nat, i < n → Reach es i) : Tree n es := by
  have hsub : (List.range' 1 (n - 1)).map (fun k : Nat => (k : Int)) ⊆ es.map Prod.snd := by
    intro x hx
    obtain ⟨k, hk, rfl⟩ := List.mem_map.1 hx
    rw [List.mem_range'_1] at hk
    have hR : ∀ x, Reach es x → x = 0 ∨ x ∈ es.map Prod.snd := by
      intro x hx
      cases hx with
      | root => exact Or.inl rfl
      | step h _ => exact Or.inr (List.mem_map.2 ⟨_, h, rfl⟩)
    rcases hR _ (h k (by omega)) with h0 | h0
    · exfalso; omega
    · exact h0
  have hnd : ((List.range' 1 (n - 1)).map (fun k : Nat => (k : Int))).Nodup :=
    List.Nodup.map (fun a b hab => by simpa using hab) List.nodup_range'
  have hperm : ((List.range' 1 (n - 1)).map (fun k : Nat => (k : Int))).Perm (es.map Prod.snd) :=
    (List.subperm_of_subset hnd hsub).perm_of_length_le (by simp; omega)
  refine ⟨hr, by omega, hperm.nodup_iff.1 hnd, ?_, ?_⟩
  · intro e he h0
    have := hperm.mem_iff.2 (List.mem_map_of_mem (f := Prod.snd) he)
    obtain ⟨k, hk, hk'⟩ := List.mem_map.1 this
    rw [List.mem_range'_1] at hk
    omega
  · intro i h0 h1
    have := h i.toNat (by omega)
    rwa [Int.toNat_of_nonneg h0] at this

namespace Tree
variable {n : Nat} {es : List (Int × Int)}

theorem parent_unique (t : Tree n es) {p p' c : Int} (h : (p, c) ∈ es) (h' : (p', c) ∈ es) : p = p' := by
  have := List.inj_on_of_nodup_map t.unique h h' rfl
  exact congrArg Prod.fst this

/-- Reached in a number of steps -/
inductive ReachN (es : List (Int × Int)) : Nat → Int → Prop
  | root : ReachN es 0 0
  | step {k : Nat} {p c : Int} : (p, c) ∈ es → ReachN es k p → ReachN es (k + 1) c

theorem reachN_unique (t : Tree n es) {k k' : Nat} {i : Int} (h : ReachN es k i) (h' : ReachN es k' i) : k = k' := by
  induction h generalizing k' with
  | root =>
    cases h' with
    | root => rfl
    | step h _ => exact absurd rfl (t.nonroot _ h)
  | step h _ ih =>
    cases h' with
    | root => exact absurd rfl (t.nonroot _ h)
    | step h2 h3 =>
      rw [t.parent_unique h2 h] at h3
      rw [ih h3]

theorem reachN_of_reach {i : Int} (h : Reach es i) : ∃ k, ReachN es k i := by
  induction h with
  | root => exact ⟨0, .root⟩
  | step h _ ih => obtain ⟨k, hk⟩ := ih; exact ⟨k + 1, .step h hk⟩

theorem reachN_range (t : Tree n es) {k : Nat} {i : Int} (h : ReachN es k i) : 0 ≤ i ∧ i < n := by
  cases h with
  | root => have := t.pos; omega
  | step h _ => exact (t.range _ h).2

theorem reachN_lt (t : Tree n es) {k : Nat} {i : Int} (h : ReachN es k i) : k < n := by
  have key : ∀ l, l ≤ k → ∃ v, ReachN es l v := by
    clear t
    induction h with
    | root => intro l hl; obtain rfl : l = 0 := by omega
              exact ⟨0, .root⟩
    | @step k' p c h h2 ih =>
      intro l hl
      by_cases hl' : l ≤ k'
      · exact ih l hl'
      · obtain rfl : l = k' + 1 := by omega
        exact ⟨c, .step h h2⟩
  choose v hv using key
  have hinj : Function.Injective (fun l : Fin (k + 1) =>
      (⟨(v l (by omega)).toNat, by have := t.reachN_range (hv l (by omega)); omega⟩ : Fin n)) := by
    intro a b hab
    have ha := hv a (by omega)
    have hb := hv b (by omega)
    have ra := t.reachN_range ha
    have rb := t.reachN_range hb
    have : v a (by omega) = v b (by omega) := by
      have := congrArg Fin.val hab
      simp only at this
      omega
    rw [this] at ha
    exact Fin.ext (t.reachN_unique ha hb)
  have := Fintype.card_le_of_injective _ hinj
  simp at this
  omega

/-- The number of joints from link 0 -/
noncomputable def depth (es : List (Int × Int)) (i : Int) : Nat := by
  classical exact if h : ∃ k, ReachN es k i then h.choose else 0

theorem depth_spec (t : Tree n es) {i : Int} (h0 : 0 ≤ i) (h1 : i < n) : ReachN es (depth es i) i := by
  have h := reachN_of_reach (t.reach i h0 h1)
  unfold depth
  rw [dif_pos h]
  exact h.choose_spec

theorem depth_lt (t : Tree n es) {i : Int} (h0 : 0 ≤ i) (h1 : i < n) : depth es i < n :=
  t.reachN_lt (t.depth_spec h0 h1)

theorem depth_step (t : Tree n es) {p c : Int} (h : (p, c) ∈ es) : depth es c = depth es p + 1 := by
  have hr := t.range _ h
  exact t.reachN_unique (t.depth_spec hr.2.1 hr.2.2) (.step h (t.depth_spec hr.1.1 hr.1.2))

/-- A link and those below it -/
abbrev Desc (es : List (Int × Int)) : Int → Int → Prop := Relation.ReflTransGen fun p c => (p, c) ∈ es

theorem depth_le (t : Tree n es) {i w : Int} (h : Desc es i w) : depth es i ≤ depth es w := by
  induction h with
  | refl => exact le_refl _
  | tail _ h ih => rw [t.depth_step h]; omega

theorem desc_of_reach {i : Int} (h : Reach es i) : Desc es 0 i := by
  induction h with
  | root => exact .refl
  | step h _ ih => exact ih.tail h

theorem desc_antisymm (t : Tree n es) {a b : Int} (h : Desc es a b) (hd : depth es a = depth es b) : a = b := by
  rcases Relation.ReflTransGen.cases_tail h with h | ⟨c, h1, h2⟩
  · exact h.symm
  · have := t.depth_le h1
    have := t.depth_step h2
    omega

/-- Links at the same depth have nothing below in common -/
theorem desc_disjoint (t : Tree n es) {a b w : Int} (hd : depth es a = depth es b) (ha : Desc es a w) (hb : Desc es b w) :
    a = b := by
  induction ha with
  | refl => exact (t.desc_antisymm hb hd.symm).symm
  | @tail c d h1 h2 ih =>
    rcases Relation.ReflTransGen.cases_tail hb with h | ⟨c', h3, h4⟩
    · subst h
      have := t.depth_le h1
      have := t.depth_step h2
      omega
    · rw [t.parent_unique h4 h2] at h3
      exact ih h3

theorem desc_iff (i w : Int) : Desc es i w ↔ w = i ∨ ∃ c, (i, c) ∈ es ∧ Desc es c w := by
  constructor
  · intro h
    rcases Relation.ReflTransGen.cases_head h with h | ⟨c, h1, h2⟩
    · exact Or.inl h.symm
    · exact Or.inr ⟨c, h1, h2⟩
  · rintro (rfl | ⟨c, h1, h2⟩)
    · exact .refl
    · exact .head h1 h2

theorem not_self (t : Tree n es) {p c : Int} (h : (p, c) ∈ es) : p ≠ c := by
  rintro rfl
  have := t.depth_step h
  omega

end Tree

end Verif.LinkedRobot
