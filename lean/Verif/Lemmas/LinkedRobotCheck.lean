import Verif.Lemmas.LinkTree
import Verif.Model.LinkedRobot

/-!
# Lemmas about the check of robot models
-/
namespace Verif.LinkedRobot
open Verif Matrix

/-- Parents and children -/
def edges (joints : List RobotJoint) : List (Int × Int) := joints.map fun j => (j.parent, j.child)

theorem mem_edges {joints : List RobotJoint} {p c : Int} :
    (p, c) ∈ edges joints ↔ ∃ j ∈ joints, j.parent = p ∧ j.child = c := by
  simp [edges, Prod.ext_iff]

theorem at?_eq {α : Type} {v : List α} {i : Int} (h0 : 0 ≤ i) (h1 : i < v.length) :
    at? v i = some (v[i.toNat]'(by omega)) := by
  unfold at?
  rw [if_pos h0, List.getElem?_eq_getElem]

theorem at?_none {α : Type} {v : List α} {i : Int} (h : i < 0 ∨ v.length ≤ i) : at? v i = none := by
  unfold at?
  split
  · rw [List.getElem?_eq_none]; omega
  · rfl

theorem at?_some {α : Type} {v : List α} {i : Int} {x : α} (h : at? v i = some x) :
    0 ≤ i ∧ i < v.length ∧ v[i.toNat]? = some x := by
  unfold at? at h
  split at h
  · have := (List.getElem?_eq_some_iff.1 h).1
    exact ⟨by assumption, by omega, h⟩
  · cases h

theorem read_eq {α : Type} {v : List α} {i : Int} (h0 : 0 ≤ i) (h1 : i < v.length) :
    read v i = .ok (v[i.toNat]'(by omega)) := by
  unfold read; rw [at?_eq h0 h1]

theorem read_nat {α : Type} {v : List α} {i : Nat} (h1 : i < v.length) : read v (i : Int) = .ok v[i] := by
  rw [read_eq (by omega) (by omega)]; rfl

theorem change_eq {α : Type} {v : List α} {i : Int} (h0 : 0 ≤ i) (h1 : i < v.length) (f : α → α) :
    change v i f = .ok (v.mapIdx fun k x => if (k : Int) = i then f x else x) := by
  unfold change
  rw [at?_eq h0 h1]
  simp only
  congr 1
  apply List.ext_getElem
  · simp
  · intro k hk hk'
    rw [List.getElem_set, List.getElem_mapIdx]
    by_cases h : i.toNat = k
    · rw [if_pos h, if_pos (by omega)]; subst h; rfl
    · rw [if_neg h, if_neg (by omega)]

theorem change_ub {α : Type} {v : List α} {i : Int} (h : i < 0 ∨ v.length ≤ i) (f : α → α) : change v i f = .ub := by
  unfold change; rw [at?_none h]

/-! ### The names -/

theorem namesUnique_iff (seen names : List String) :
    namesUnique seen names = true ↔ names.Nodup ∧ ∀ n ∈ names, n ∉ seen := by
  induction names generalizing seen with
  | nil => simp [namesUnique]
  | cons n ns ih =>
    unfold namesUnique
    split
    · next h => simp [h]
    · next h =>
      rw [ih, List.nodup_cons]
      simp only [List.mem_cons, not_or, forall_eq_or_imp]
      constructor
      · rintro ⟨h1, h2⟩
        exact ⟨⟨fun hc => (h2 n hc).1 rfl, h1⟩, h, fun m hm => (h2 m hm).2⟩
      · rintro ⟨⟨h1, h2⟩, h3, h4⟩
        exact ⟨h2, fun m hm => ⟨fun hc => h1 (hc ▸ hm), h4 m hm⟩⟩

/-! ### The skeleton -/

/-- What a joint does to the element of link `i` -/
def elementStep (i : Int) (idx : Nat) (j : RobotJoint) (e : Element) : Element :=
  let e := if i = j.child then { e with parentLink := j.parent, parentJoint := (idx : Int) } else e
  if i = j.parent then { e with childLinks := e.childLinks ++ [j.child], childJoints := e.childJoints ++ [(idx : Int)] }
  else e

/-- What the joints do to the element of link `i` -/
def element (i : Int) : Nat → List RobotJoint → Element → Element
  | _, [], e => e
  | idx, j :: js, e => element i (idx + 1) js (elementStep i idx j e)

theorem mapIdx_comp {α : Type} (f g : Nat → α → α) (v : List α) :
    (v.mapIdx f).mapIdx g = v.mapIdx fun k x => g k (f k x) := by
  apply List.ext_getElem
  · simp
  · intro k _ _; simp

theorem skeletonLoop_eq (n : Nat) (js : List RobotJoint) (idx : Nat) (skeleton : List Element) (hl : skeleton.length = n)
    (hr : ∀ j ∈ js, (0 ≤ j.parent ∧ j.parent < n) ∧ (0 ≤ j.child ∧ j.child < n)) :
    skeletonLoop idx js skeleton =
      if ∀ j ∈ js, ¬ axisBad j.axis then .ok (some (skeleton.mapIdx fun i e => element i idx js e)) else .ok none := by
  induction js generalizing idx skeleton with
  | nil =>
    have : skeleton.mapIdx (fun _ e => e) = skeleton := by
      apply List.ext_getElem
      · simp
      · intro k _ _; simp
    simp [skeletonLoop, element, this]
  | cons j js ih =>
    unfold skeletonLoop
    have hj := hr j List.mem_cons_self
    by_cases h : axisBad j.axis
    · rw [if_pos h, if_neg (by simp [h])]
    · rw [if_neg h, change_eq hj.2.1 (by omega), Out.bind_ok, change_eq hj.1.1 (by simp; omega), Out.bind_ok, mapIdx_comp,
        ih _ _ (by simpa using hl) (fun j' hj' => hr j' (List.mem_cons_of_mem _ hj')), mapIdx_comp]
      by_cases ha : ∀ j ∈ js, ¬ axisBad j.axis
      · rw [if_pos ha, if_pos (by simpa [h] using ha)]
        rfl
      · rw [if_neg ha, if_neg (by simpa [h] using ha)]

theorem element_children (i : Int) (js : List RobotJoint) (idx : Nat) (e : Element) :
    (element i idx js e).childLinks = e.childLinks ++ (js.filter fun j => decide (i = j.parent)).map (·.child) := by
  induction js generalizing idx e with
  | nil => simp [element]
  | cons j js ih =>
    rw [element, ih]
    unfold elementStep
    by_cases h : i = j.parent
    · rw [if_pos h, List.filter_cons_of_pos (by simpa using h)]
      split <;> simp
    · rw [if_neg h, List.filter_cons_of_neg (by simpa using h)]
      split <;> simp

theorem elementStep_other {i : Int} {idx : Nat} {j : RobotJoint} (e : Element) (h : i ≠ j.child) :
    (elementStep i idx j e).parentLink = e.parentLink ∧ (elementStep i idx j e).parentJoint = e.parentJoint := by
  unfold elementStep
  rw [if_neg h]
  simp only
  split <;> simp

theorem element_no_parent (i : Int) (js : List RobotJoint) (idx : Nat) (e : Element) (h : ∀ j ∈ js, i ≠ j.child) :
    (element i idx js e).parentLink = e.parentLink ∧ (element i idx js e).parentJoint = e.parentJoint := by
  induction js generalizing idx e with
  | nil => simp [element]
  | cons j js ih =>
    rw [element]
    have := ih (idx + 1) (elementStep i idx j e) fun j' hj' => h j' (List.mem_cons_of_mem _ hj')
    rw [this.1, this.2]
    exact elementStep_other e (h j List.mem_cons_self)

theorem element_parent (i : Int) (js : List RobotJoint) (idx : Nat) (e : Element)
    (hu : (js.map (·.child)).Nodup) (k : Nat) (hk : k < js.length) (h : js[k].child = i) :
    (element i idx js e).parentLink = js[k].parent ∧ (element i idx js e).parentJoint = ((idx + k : Nat) : Int) := by
  induction js generalizing idx e k with
  | nil => simp at hk
  | cons j js ih =>
    rw [element]
    rw [List.map_cons, List.nodup_cons] at hu
    cases k with
    | zero =>
      simp only [List.getElem_cons_zero] at h ⊢
      have := element_no_parent i js (idx + 1) (elementStep i idx j e) (fun j' hj' hc => hu.1 (by
        rw [h, hc]; exact List.mem_map_of_mem (f := (·.child)) hj'))
      rw [this.1, this.2]
      unfold elementStep
      rw [if_pos h.symm]
      simp only
      split <;> simp
    | succ k =>
      simp only [List.getElem_cons_succ] at h ⊢
      have := ih (idx + 1) (elementStep i idx j e) hu.2 k (by simpa using hk) h
      rw [this.1, this.2]
      exact ⟨rfl, by push_cast; ring⟩

/-- The skeleton of the joints -/
def skeletonOf (n : Nat) (js : List RobotJoint) : List Element :=
  (List.replicate n Element.empty).mapIdx fun i e => element i 0 js e

theorem skeletonOf_length (n : Nat) (js : List RobotJoint) : (skeletonOf n js).length = n := by simp [skeletonOf]

theorem skeletonOf_get (n : Nat) (js : List RobotJoint) (k : Nat) (h : k < (skeletonOf n js).length) :
    (skeletonOf n js)[k] = element k 0 js Element.empty := by simp [skeletonOf]

theorem skeletonOf_read {n : Nat} (js : List RobotJoint) {i : Int} (h0 : 0 ≤ i) (h1 : i < n) :
    read (skeletonOf n js) i = .ok (element i 0 js Element.empty) := by
  rw [read_eq h0 (by rw [skeletonOf_length]; exact h1), skeletonOf_get, Int.toNat_of_nonneg h0]

theorem mem_childLinks {i c : Int} {js : List RobotJoint} :
    c ∈ (element i 0 js Element.empty).childLinks ↔ (i, c) ∈ edges js := by
  rw [element_children, mem_edges]
  simp only [Element.empty, List.nil_append, List.mem_map, List.mem_filter, decide_eq_true_eq]
  constructor
  · rintro ⟨j, ⟨h1, h2⟩, h3⟩; exact ⟨j, h1, h2.symm, h3⟩
  · rintro ⟨j, h1, h2, h3⟩; exact ⟨j, ⟨h1, h2.symm⟩, h3⟩

/-! ### A check that succeeds -/

theorem explore_reach (n : Nat) (js : List RobotJoint) (d : Nat) :
    (∀ i m r, Reach (edges js) i → (∀ k, m k ≠ 0 → Reach (edges js) k) → explore (skeletonOf n js) d i m = .ok r →
      ∀ k, r.2 k ≠ 0 → Reach (edges js) k) ∧
    (∀ cs m r, (∀ c ∈ cs, Reach (edges js) c) → (∀ k, m k ≠ 0 → Reach (edges js) k) →
      exploreAll (skeletonOf n js) d cs m = .ok r → ∀ k, r.2 k ≠ 0 → Reach (edges js) k) := by
  induction d with
  | zero =>
    have h1 : ∀ i m r, explore (skeletonOf n js) 0 i m ≠ .ok r := by intro i m r h; simp [explore] at h
    refine ⟨fun i m r _ _ h => absurd h (h1 i m r), fun cs m r hc hm h => ?_⟩
    cases cs with
    | nil =>
      simp only [exploreAll, Out.ok.injEq] at h
      subst h; exact hm
    | cons c cs => simp [exploreAll, explore] at h
  | succ d ih =>
    have he : ∀ i m r, Reach (edges js) i → (∀ k, m k ≠ 0 → Reach (edges js) k) →
        explore (skeletonOf n js) (d + 1) i m = .ok r → ∀ k, r.2 k ≠ 0 → Reach (edges js) k := by
      intro i m r hi hm h
      unfold explore at h
      have hm' : ∀ k, (fun k => if k = i then (m i + 1) % 256 else m k) k ≠ 0 → Reach (edges js) k := by
        intro k hk
        simp only at hk
        by_cases hki : k = i
        · rw [hki]; exact hi
        · rw [if_neg hki] at hk; exact hm k hk
      simp only [if_true] at h
      split at h
      · simp only [Out.ok.injEq] at h
        subst h
        exact hm'
      · obtain ⟨e, h1, h2⟩ := Out.bind_eq_ok.1 h
        have hi' : 0 ≤ i ∧ i < n := by
          unfold read at h1
          split at h1
          · next hx => have := at?_some hx; rw [skeletonOf_length] at this; exact ⟨this.1, this.2.1⟩
          · cases h1
        rw [skeletonOf_read js hi'.1 hi'.2] at h1
        simp only [Out.ok.injEq] at h1
        subst h1
        exact ih.2 _ _ _ (fun c hc => .step (mem_childLinks.1 hc) hi) hm' h2
    refine ⟨he, ?_⟩
    intro cs
    induction cs with
    | nil =>
      intro m r _ hm h
      simp only [exploreAll, Out.ok.injEq] at h
      subst h; exact hm
    | cons c cs ihc =>
      intro m r hc hm h
      unfold exploreAll at h
      obtain ⟨q, h1, h2⟩ := Out.bind_eq_ok.1 h
      have hq := he c m q (hc c List.mem_cons_self) hm h1
      split at h2
      · simp only [Out.ok.injEq] at h2
        subst h2; exact hq
      · exact ihc _ _ (fun c' hc' => hc c' (List.mem_cons_of_mem _ hc')) hq h2

/-! ### A tree passes the check -/

theorem parent_joint {n : Nat} {js : List RobotJoint} (t : Tree n (edges js)) {i : Int} (h0 : i ≠ 0) (h1 : 0 ≤ i)
    (h2 : i < n) : ∃ k, ∃ hk : k < js.length, js[k].child = i ∧
      (element i 0 js Element.empty).parentLink = js[k].parent ∧
      (element i 0 js Element.empty).parentJoint = (k : Int) := by
  have hu : (js.map (·.child)).Nodup := by
    have := t.unique
    simpa [edges, Function.comp_def] using this
  have hR := t.reach i h1 h2
  have : ∃ p, (p, i) ∈ edges js := by
    cases hR with
    | root => exact absurd rfl h0
    | step h _ => exact ⟨_, h⟩
  obtain ⟨p, hp⟩ := this
  obtain ⟨j, hj, -, hc⟩ := mem_edges.1 hp
  obtain ⟨k, hk, rfl⟩ := List.getElem_of_mem hj
  have := element_parent i js 0 Element.empty hu k hk hc
  exact ⟨k, hk, hc, this.1, by rw [this.2]; simp⟩

theorem root_element {n : Nat} {js : List RobotJoint} (t : Tree n (edges js)) :
    (element 0 0 js Element.empty).parentLink = -1 ∧ (element 0 0 js Element.empty).parentJoint = -1 := by
  have := element_no_parent 0 js 0 Element.empty fun j hj hc =>
    t.nonroot (j.parent, j.child) (mem_edges.2 ⟨j, hj, rfl, rfl⟩) hc.symm
  exact this

theorem edge_parentLink {n : Nat} {js : List RobotJoint} (t : Tree n (edges js)) {p c : Int} (h : (p, c) ∈ edges js) :
    (element c 0 js Element.empty).parentLink = p := by
  have hr := t.range _ h
  obtain ⟨k, hk, h1, h2, -⟩ := parent_joint t (t.nonroot _ h) hr.2.1 hr.2.2
  rw [h2]
  exact t.parent_unique (mem_edges.2 ⟨_, List.getElem_mem hk, rfl, h1⟩) h

theorem checkParent_tree {n : Nat} {js : List RobotJoint} (t : Tree n (edges js)) (k : Nat) (hk : k < n) :
    checkParent (skeletonOf n js) k (element k 0 js Element.empty) = .ok true := by
  unfold checkParent
  rw [skeletonOf_length]
  by_cases h0 : (k : Int) = 0
  · rw [h0, (root_element t).1]
    rfl
  · obtain ⟨l, hl, h1, h2, -⟩ := parent_joint t h0 (by omega) (by omega)
    have he : (js[l].parent, (k : Int)) ∈ edges js := mem_edges.2 ⟨_, List.getElem_mem hl, rfl, h1⟩
    have hr := t.range _ he
    rw [h2, if_pos hr.1, if_pos (t.not_self he), skeletonOf_read js hr.1.1 hr.1.2, Out.bind_ok]
    rw [decide_eq_true (mem_childLinks.2 he)]

theorem checkChildren_tree {n : Nat} {js : List RobotJoint} (t : Tree n (edges js)) (k : Nat) (cs : List Int)
    (h : ∀ c ∈ cs, ((k : Int), c) ∈ edges js) : checkChildren (skeletonOf n js) k cs = .ok true := by
  induction cs with
  | nil => rfl
  | cons c cs ih =>
    have he := h c List.mem_cons_self
    have hr := (t.range _ he).2
    have hn := t.nonroot _ he
    simp only at hr hn
    unfold checkChildren
    rw [skeletonOf_length, if_pos ⟨by omega, hr.2⟩, if_pos (t.not_self he).symm, skeletonOf_read js hr.1 hr.2, Out.bind_ok,
      edge_parentLink t he, if_neg (by simp)]
    exact ih fun c' hc' => h c' (List.mem_cons_of_mem _ hc')

theorem linkageLoop_tree {n : Nat} {js : List RobotJoint} (t : Tree n (edges js)) (idx : Nat) (es : List Element)
    (hes : es = (skeletonOf n js).drop idx) : linkageLoop (skeletonOf n js) idx es = .ok true := by
  induction es generalizing idx with
  | nil => rfl
  | cons e es ih =>
    have hidx : idx < n := by
      by_contra h
      rw [List.drop_eq_nil_of_le (by rw [skeletonOf_length]; omega)] at hes
      cases hes
    rw [List.drop_eq_getElem_cons (by rw [skeletonOf_length]; exact hidx)] at hes
    injection hes with h1 h2
    rw [skeletonOf_get] at h1
    subst h1
    unfold linkageLoop
    rw [checkParent_tree t idx hidx, Out.bind_ok, if_neg (by simp),
      checkChildren_tree t idx _ (fun c hc => mem_childLinks.1 hc), Out.bind_ok, if_neg (by simp)]
    exact ih _ h2

open Classical in
theorem explore_tree {n : Nat} {js : List RobotJoint} (t : Tree n (edges js)) (d : Nat) :
    (∀ (i : Int) m, 0 ≤ i → i < n → n < d + Tree.depth (edges js) i + 1 → (∀ w, Tree.Desc (edges js) i w → m w = 0) →
      explore (skeletonOf n js) d i m = .ok (false, fun w => if Tree.Desc (edges js) i w then 1 else m w)) := by
  induction d with
  | zero =>
    intro i m h0 h1 h2 _
    have := t.depth_lt h0 h1
    omega
  | succ d ih =>
    intro i m h0 h1 h2 hm
    have hall : ∀ (cs : List Int) m, (∀ c ∈ cs, (i, c) ∈ edges js) → cs.Nodup →
        (∀ c ∈ cs, ∀ w, Tree.Desc (edges js) c w → m w = 0) →
        exploreAll (skeletonOf n js) d cs m =
          .ok (false, fun w => if ∃ c ∈ cs, Tree.Desc (edges js) c w then 1 else m w) := by
      intro cs
      induction cs with
      | nil => intro m _ _ _; simp [exploreAll]
      | cons c cs ihc =>
        intro m hc hnd hz
        have he := hc c List.mem_cons_self
        have hr := t.range _ he
        have hd := t.depth_step he
        rw [List.nodup_cons] at hnd
        unfold exploreAll
        rw [ih c m hr.2.1 hr.2.2 (by omega) (hz c List.mem_cons_self), Out.bind_ok, if_neg (by simp)]
        simp only
        rw [ihc _ (fun c' hc' => hc c' (List.mem_cons_of_mem _ hc')) hnd.2]
        · congr 2
          funext w
          by_cases hw : ∃ c' ∈ cs, Tree.Desc (edges js) c' w
          · rw [if_pos hw, if_pos]
            obtain ⟨c', h1, h2⟩ := hw
            exact ⟨c', List.mem_cons_of_mem _ h1, h2⟩
          · rw [if_neg hw]
            by_cases hcw : Tree.Desc (edges js) c w
            · rw [if_pos hcw, if_pos ⟨c, List.mem_cons_self, hcw⟩]
            · rw [if_neg hcw, if_neg]
              rintro ⟨c', h1, h2⟩
              rcases List.mem_cons.1 h1 with rfl | h1
              · exact hcw h2
              · exact hw ⟨c', h1, h2⟩
        · intro c' hc' w hw
          rw [if_neg]
          · exact hz c' (List.mem_cons_of_mem _ hc') w hw
          · intro hcw
            have he' := hc c' (List.mem_cons_of_mem _ hc')
            have := t.desc_disjoint (by rw [hd, t.depth_step he']) hcw hw
            subst this
            exact hnd.1 hc'
    unfold explore
    have hmi := hm i .refl
    simp only [hmi, if_true]
    rw [if_neg (by simp), skeletonOf_read js h0 h1, Out.bind_ok, hall _ _ (fun c hc => mem_childLinks.1 hc)]
    · congr 2
      funext w
      rw [Tree.desc_iff i w]
      have hiff : (∃ c ∈ (element i 0 js Element.empty).childLinks, Tree.Desc (edges js) c w) ↔
          ∃ c, (i, c) ∈ edges js ∧ Tree.Desc (edges js) c w := by
        constructor
        · rintro ⟨c, h1, h2⟩; exact ⟨c, mem_childLinks.1 h1, h2⟩
        · rintro ⟨c, h1, h2⟩; exact ⟨c, mem_childLinks.2 h1, h2⟩
      rw [if_congr hiff rfl rfl]
      by_cases hc : ∃ c, (i, c) ∈ edges js ∧ Tree.Desc (edges js) c w
      · rw [if_pos hc, if_pos (Or.inr hc)]
      · rw [if_neg hc]
        by_cases hw : w = i
        · rw [if_pos hw, if_pos (Or.inl hw)]
        · rw [if_neg hw, if_neg (by rintro (h | h); exacts [hw h, hc h])]
    · rw [element_children]
      have hu : (js.map (·.child)).Nodup := by
        have := t.unique
        simpa [edges, Function.comp_def] using this
      simp only [Element.empty, List.nil_append]
      exact hu.sublist ((List.filter_sublist).map _)
    · intro c hc w hw
      have he := mem_childLinks.1 hc
      rw [if_neg]
      · exact hm w (.head he hw)
      · rintro rfl
        have := t.depth_le hw
        have := t.depth_step he
        omega

theorem checkSkeleton_tree {n : Nat} {js : List RobotJoint} (t : Tree n (edges js)) :
    checkSkeleton (skeletonOf n js) = .ok true := by
  have hp := t.pos
  unfold checkSkeleton
  rw [linkageLoop_tree t 0 (skeletonOf n js) rfl, Out.bind_ok, if_neg (by simp), skeletonOf_length,
    explore_tree t (n + 1) 0 _ (le_refl _) (by omega) (by omega) (fun _ _ => rfl), Out.bind_ok, if_neg (by simp)]
  congr 1
  rw [List.all_eq_true]
  intro i hi
  rw [List.mem_range] at hi
  simp only [decide_eq_true_eq]
  rw [if_pos (Tree.desc_of_reach (t.reach i (by omega) (by omega)))]

/-! ### The check always ends -/

theorem checkParent_ok (skeleton : List Element) (idx : Nat) (e : Element) : ∃ b, checkParent skeleton idx e = .ok b := by
  unfold checkParent
  split
  · next h =>
    split
    · rw [read_eq h.1 h.2]; exact ⟨_, rfl⟩
    · exact ⟨_, rfl⟩
  · split <;> exact ⟨_, rfl⟩

theorem checkChildren_ok (skeleton : List Element) (idx : Nat) (cs : List Int) :
    ∃ b, checkChildren skeleton idx cs = .ok b := by
  induction cs with
  | nil => exact ⟨_, rfl⟩
  | cons c cs ih =>
    unfold checkChildren
    split
    · next h =>
      split
      · rw [read_eq (by omega) h.2, Out.bind_ok]
        split
        · exact ⟨_, rfl⟩
        · exact ih
      · exact ⟨_, rfl⟩
    · exact ⟨_, rfl⟩

theorem linkageLoop_ok (skeleton : List Element) (idx : Nat) (es : List Element) :
    ∃ b, linkageLoop skeleton idx es = .ok b := by
  induction es generalizing idx with
  | nil => exact ⟨_, rfl⟩
  | cons e es ih =>
    unfold linkageLoop
    obtain ⟨b, hb⟩ := checkParent_ok skeleton idx e
    rw [hb, Out.bind_ok]
    split
    · exact ⟨_, rfl⟩
    · obtain ⟨c, hc⟩ := checkChildren_ok skeleton idx e.childLinks
      rw [hc, Out.bind_ok]
      split
      · exact ⟨_, rfl⟩
      · exact ih _

/-- The links not seen so far -/
def unseen (n : Nat) (m : Counts) : Nat := ((Finset.range n).filter fun k : Nat => m (k : Int) = 0).card

theorem explore_ok {n : Nat} {js : List RobotJoint} (hr : ∀ e ∈ edges js, (0 ≤ e.1 ∧ e.1 < n) ∧ (0 ≤ e.2 ∧ e.2 < n))
    (d : Nat) : ∀ (i : Int) m, 0 ≤ i → i < n → (∀ k, m k ≤ 1) → unseen n m < d →
      ∃ r, explore (skeletonOf n js) d i m = .ok r ∧
        (r.1 = false → (∀ k, r.2 k ≤ 1) ∧ unseen n r.2 ≤ unseen n m) := by
  induction d with
  | zero => intro i m _ _ _ h; omega
  | succ d ih =>
    intro i m h0 h1 hm hu
    have hall : ∀ (cs : List Int) m, (∀ c ∈ cs, 0 ≤ c ∧ c < n) → (∀ k, m k ≤ 1) → unseen n m < d →
        ∃ r, exploreAll (skeletonOf n js) d cs m = .ok r ∧
          (r.1 = false → (∀ k, r.2 k ≤ 1) ∧ unseen n r.2 ≤ unseen n m) := by
      intro cs
      induction cs with
      | nil => intro m _ hm _; exact ⟨(false, m), by unfold exploreAll; rfl, fun _ => ⟨hm, le_refl _⟩⟩
      | cons c cs ihc =>
        intro m hc hm hu
        unfold exploreAll
        have hcc := hc c List.mem_cons_self
        obtain ⟨r, hr1, hr2⟩ := ih c m hcc.1 hcc.2 hm hu
        rw [hr1, Out.bind_ok]
        split
        · next ht => exact ⟨_, rfl, fun h => by simp at h⟩
        · next ht =>
          obtain ⟨h1, h2⟩ := hr2 (by simpa using ht)
          obtain ⟨r', hr3, hr4⟩ := ihc r.2 (fun c' hc' => hc c' (List.mem_cons_of_mem _ hc')) h1 (by omega)
          refine ⟨r', hr3, fun h => ?_⟩
          obtain ⟨h3, h4⟩ := hr4 h
          exact ⟨h3, by omega⟩
    unfold explore
    simp only [if_true]
    by_cases hmi : m i = 0
    · rw [if_neg (by simp [hmi]), skeletonOf_read js h0 h1, Out.bind_ok]
      have hm' : ∀ k, (fun k => if k = i then (m i + 1) % 256 else m k) k ≤ 1 := by
        intro k
        simp only
        split
        · rw [hmi]
        · exact hm k
      have hlt : unseen n (fun k => if k = i then (m i + 1) % 256 else m k) < unseen n m := by
        apply Finset.card_lt_card
        rw [Finset.ssubset_iff_of_subset]
        · refine ⟨i.toNat, ?_, ?_⟩
          · simp only [Finset.mem_filter, Finset.mem_range]
            rw [Int.toNat_of_nonneg h0]
            exact ⟨by omega, hmi⟩
          · simp only [Finset.mem_filter, Finset.mem_range]
            rw [Int.toNat_of_nonneg h0]
            simp [hmi]
        · intro k hk
          simp only [Finset.mem_filter, Finset.mem_range] at hk ⊢
          refine ⟨hk.1, ?_⟩
          by_cases hki : (k : Int) = i
          · rw [hki]; exact hmi
          · rw [if_neg hki] at hk; exact hk.2
      obtain ⟨r, hr1, hr2⟩ := hall _ (fun k => if k = i then (m i + 1) % 256 else m k)
        (fun c hc => (hr _ (mem_childLinks.1 hc)).2) hm' (by omega)
      refine ⟨r, hr1, fun h => ?_⟩
      obtain ⟨h3, h4⟩ := hr2 h
      exact ⟨h3, by omega⟩
    · have h1 : m i = 1 := by have := hm i; omega
      rw [if_pos (by rw [h1]; decide)]
      exact ⟨_, rfl, fun h => by simp at h⟩

theorem checkSkeleton_ok {n : Nat} {js : List RobotJoint} (hn : 0 < n)
    (hr : ∀ e ∈ edges js, (0 ≤ e.1 ∧ e.1 < n) ∧ (0 ≤ e.2 ∧ e.2 < n)) :
    ∃ b, checkSkeleton (skeletonOf n js) = .ok b := by
  unfold checkSkeleton
  obtain ⟨b, hb⟩ := linkageLoop_ok (skeletonOf n js) 0 (skeletonOf n js)
  rw [hb, Out.bind_ok]
  split
  · exact ⟨_, rfl⟩
  · have hu : unseen n (fun _ => 0) ≤ n := by
      have := Finset.card_filter_le (Finset.range n) (fun k : Nat => (fun _ : Int => 0) (k : Int) = 0)
      rw [Finset.card_range] at this
      exact this
    obtain ⟨r, hr1, -⟩ := explore_ok hr (n + 1) 0 (fun _ => 0) (le_refl _) (by omega) (by simp) (by omega)
    rw [skeletonOf_length, hr1, Out.bind_ok]
    split <;> exact ⟨_, rfl⟩

end Verif.LinkedRobot
