import Verif.Spec.GeometrySharing

/-!
# Property C175 (simple_robot_models.hpp): clones share their points, and points live as long as they are needed
-/
namespace Verif.GeometrySharing
open Verif

variable {P C : Type}

/-! ## Counting pointers -/

/-- the pointers of the caller to a vector -/
def refsP : List (Option Nat) → Nat → Nat
  | [], _ => 0
  | p :: ps, a => (if p = some a then 1 else 0) + refsP ps a

/-- the pointers of a robot to a vector -/
def refsOf : Option (Robot C) → Nat → Nat
  | none, _ => 0
  | some r, a => (r.geometries.map (·.2)).count a

/-- the pointers of robots to a vector -/
def refsR : List (Option (Robot C)) → Nat → Nat
  | [], _ => 0
  | r :: rs, a => refsOf r a + refsR rs a

theorem refsP_append (l m : List (Option Nat)) (a : Nat) : refsP (l ++ m) a = refsP l a + refsP m a := by
  induction l with
  | nil => simp [refsP]
  | cons x l ih => rw [List.cons_append, refsP, refsP, ih]; omega

theorem refsR_append (l m : List (Option (Robot C))) (a : Nat) : refsR (l ++ m) a = refsR l a + refsR m a := by
  induction l with
  | nil => simp [refsR]
  | cons x l ih => rw [List.cons_append, refsR, refsR, ih]; omega

theorem refsP_set (l : List (Option Nat)) (i : Nat) (x y : Option Nat) (a : Nat) (h : l[i]? = some x) :
    refsP (l.set i y) a + (if x = some a then 1 else 0) = refsP l a + (if y = some a then 1 else 0) := by
  induction l generalizing i with
  | nil => simp at h
  | cons z l ih =>
    cases i with
    | zero => simp at h; subst h; simp only [List.set_cons_zero, refsP]; omega
    | succ i => simp at h; have := ih i h; simp only [List.set_cons_succ, refsP]; omega

theorem refsR_set (l : List (Option (Robot C))) (i : Nat) (x y : Option (Robot C)) (a : Nat) (h : l[i]? = some x) :
    refsR (l.set i y) a + refsOf x a = refsR l a + refsOf y a := by
  induction l generalizing i with
  | nil => simp at h
  | cons z l ih =>
    cases i with
    | zero => simp at h; subst h; simp only [List.set_cons_zero, refsR]; omega
    | succ i => simp at h; have := ih i h; simp only [List.set_cons_succ, refsR]; omega

theorem refsP_ne (l : List (Option Nat)) (a : Nat) : refsP l a ≠ 0 ↔ some a ∈ l := by
  induction l with
  | nil => simp [refsP]
  | cons x l ih =>
    rw [refsP, List.mem_cons, ← ih]
    by_cases h : x = some a
    · simp [h]
    · simp [h, Ne.symm h]

theorem refsR_ne (l : List (Option (Robot C))) (a : Nat) :
    refsR l a ≠ 0 ↔ ∃ r, some r ∈ l ∧ a ∈ r.geometries.map (·.2) := by
  induction l with
  | nil => simp [refsR]
  | cons x l ih =>
    rw [refsR]
    constructor
    · intro h
      by_cases hx : refsOf x a = 0
      · obtain ⟨r, h1, h2⟩ := ih.1 (by omega)
        exact ⟨r, List.mem_cons_of_mem _ h1, h2⟩
      · cases x with
        | none => exact absurd rfl hx
        | some r =>
          refine ⟨r, List.mem_cons_self, ?_⟩
          exact List.count_pos_iff.1 (Nat.pos_of_ne_zero hx)
    · rintro ⟨r, h1, h2⟩
      rcases List.mem_cons.1 h1 with h | h
      · subst h
        have : 0 < refsOf (some r) a := List.count_pos_iff.2 h2
        omega
      · have := ih.2 ⟨r, h, h2⟩
        omega

/-- The heap holds the vectors with the counts `f`. -/
structure Holds (cells : List (Option (List P × Nat))) (points : List (List P)) (f : Nat → Nat) : Prop where
  length : cells.length = points.length
  cell : ∀ (a : Nat) (x : List P), points[a]? = some x → cells[a]? = some (if f a = 0 then none else some (x, f a))
  bound : ∀ a, f a ≠ 0 → a < points.length

theorem Holds.get {cells : List (Option (List P × Nat))} {points : List (List P)} {f : Nat → Nat}
    (h : Holds cells points f) {a : Nat} (ha : f a ≠ 0) :
    ∃ x, points[a]? = some x ∧ cells[a]? = some (some (x, f a)) := by
  have hb := h.bound a ha
  refine ⟨points[a], List.getElem?_eq_getElem hb, ?_⟩
  rw [h.cell a _ (List.getElem?_eq_getElem hb), if_neg ha]

theorem Holds.set {cells : List (Option (List P × Nat))} {points : List (List P)} {f g : Nat → Nat}
    (h : Holds cells points f) {a : Nat} {x : List P} (hx : points[a]? = some x) (hg : ∀ b, b ≠ a → g b = f b) :
    Holds (cells.set a (if g a = 0 then none else some (x, g a))) points g := by
  have ha : a < points.length := (List.getElem?_eq_some_iff.1 hx).1
  refine ⟨by rw [List.length_set, h.length], ?_, ?_⟩
  · intro b y hy
    by_cases hb : b = a
    · subst hb
      rw [hx] at hy
      cases hy
      rw [List.getElem?_set_self (by rw [h.length]; exact ha)]
    · rw [List.getElem?_set_ne (Ne.symm hb), h.cell b y hy, hg b hb]
  · intro b hb
    by_cases hba : b = a
    · subst hba; exact ha
    · rw [hg b hba] at hb; exact h.bound b hb

theorem Holds.congr {cells : List (Option (List P × Nat))} {points : List (List P)} {f g : Nat → Nat}
    (h : Holds cells points f) (e : ∀ a, g a = f a) : Holds cells points g := by
  have : g = f := funext e
  rw [this]; exact h

theorem acquire_ok {w : World P C} {points : List (List P)} {f : Nat → Nat} (h : Holds w.cells points f) {a : Nat}
    (ha : f a ≠ 0) : ∃ cells, acquire a w = .ok { w with cells := cells } ∧
      Holds cells points (fun b => f b + if b = a then 1 else 0) := by
  obtain ⟨x, hx, hc⟩ := h.get ha
  refine ⟨w.cells.set a (some (x, f a + 1)), by unfold acquire; rw [hc], ?_⟩
  have := h.set (g := fun b => f b + if b = a then 1 else 0) hx (fun b hb => by simp [hb])
  simpa using this

theorem release_ok {w : World P C} {points : List (List P)} {f : Nat → Nat} (h : Holds w.cells points f) {a : Nat}
    (ha : f a ≠ 0) : ∃ cells, release a w = .ok { w with cells := cells } ∧
      Holds cells points (fun b => f b - if b = a then 1 else 0) := by
  obtain ⟨x, hx, hc⟩ := h.get ha
  refine ⟨w.cells.set a (if f a = 1 then none else some (x, f a - 1)), by unfold release; rw [hc], ?_⟩
  have := h.set (g := fun b => f b - if b = a then 1 else 0) hx (fun b hb => by simp [hb])
  have e : (if f a = 1 then none else some (x, f a - 1)) =
      (if (f a - if a = a then 1 else 0) = 0 then none else some (x, f a - if a = a then 1 else 0)) := by
    rw [if_pos rfl]
    by_cases h1 : f a = 1
    · rw [if_pos h1, if_pos (by omega)]
    · rw [if_neg h1, if_neg (by omega)]
  rw [e]
  exact this

theorem acquireAll_ok : ∀ (l : List Nat) {w : World P C} {points : List (List P)} {f : Nat → Nat},
    Holds w.cells points f → (∀ a ∈ l, f a ≠ 0) →
    ∃ cells, acquireAll l w = .ok { w with cells := cells } ∧ Holds cells points (fun b => f b + l.count b) := by
  intro l
  induction l with
  | nil => intro w points f h _; exact ⟨w.cells, rfl, h.congr (by simp)⟩
  | cons a l ih =>
    intro w points f h hl
    obtain ⟨cells, h1, h2⟩ := acquire_ok (w := w) h (hl a List.mem_cons_self)
    obtain ⟨cells', h3, h4⟩ := ih (w := { w with cells := cells }) h2 (fun b hb => by
      have := hl b (List.mem_cons_of_mem _ hb)
      omega)
    refine ⟨cells', ?_, h4.congr ?_⟩
    · rw [acquireAll, h1]; exact h3
    · intro b
      rw [List.count_cons]
      by_cases hb : b = a
      · subst hb; simp; omega
      · simp [hb, Ne.symm hb]

theorem releaseAll_ok : ∀ (l : List Nat) {w : World P C} {points : List (List P)} {f : Nat → Nat},
    Holds w.cells points f → (∀ a, l.count a ≤ f a) →
    ∃ cells, releaseAll l w = .ok { w with cells := cells } ∧ Holds cells points (fun b => f b - l.count b) := by
  intro l
  induction l with
  | nil => intro w points f h _; exact ⟨w.cells, rfl, h.congr (by simp)⟩
  | cons a l ih =>
    intro w points f h hl
    have cc : ∀ b, (a :: l).count b = l.count b + if b = a then 1 else 0 := by
      intro b
      rw [List.count_cons]
      by_cases hb : b = a
      · subst hb; simp
      · simp [hb, Ne.symm hb]
    have ha : f a ≠ 0 := by
      have := hl a
      rw [cc, if_pos rfl] at this
      omega
    obtain ⟨cells, h1, h2⟩ := release_ok (w := w) h ha
    obtain ⟨cells', h3, h4⟩ := ih (w := { w with cells := cells }) h2 (fun b => by
      have := hl b
      rw [cc] at this
      show l.count b ≤ f b - _
      omega)
    refine ⟨cells', ?_, h4.congr ?_⟩
    · rw [releaseAll, h1]; exact h3
    · intro b
      show f b - _ = f b - _ - _
      rw [cc]
      omega

/-! ## The heap with counts behaves as the one that frees nothing -/

/-- A world and an ideal one. -/
structure Rel (w : World P C) (s : Ideal P C) : Prop where
  robots : w.robots = s.robots
  pointers : w.pointers = s.pointers
  holds : Holds w.cells s.points (fun a => refsP s.pointers a + refsR s.robots a)

theorem pointersAt_mem {pointers : List (Option Nat)} : ∀ {l m : List (String × Nat)},
    pointersAt pointers l = .ok m → ∀ a ∈ m.map (·.2), some a ∈ pointers := by
  intro l
  induction l with
  | nil => intro m h; cases h; simp
  | cons x l ih =>
    obtain ⟨name, p⟩ := x
    intro m h
    rw [pointersAt] at h
    cases hp : pointers[p]? with
    | none => rw [hp] at h; cases h
    | some q =>
      cases q with
      | none => rw [hp] at h; cases h
      | some a =>
        rw [hp] at h
        dsimp only at h
        cases ho : pointersAt pointers l with
        | ok others =>
          rw [ho] at h
          cases h
          intro b hb
          rcases List.mem_cons.1 hb with rfl | hb
          · exact List.mem_of_getElem? hp
          · exact ih ho b hb
        | _ => rw [ho] at h; cases h

theorem robotAt_mem {robots : List (Option (Robot C))} {i : Nat} {r : Robot C} (h : robotAt robots i = .ok r) :
    robots[i]? = some (some r) := by
  unfold robotAt at h
  cases hr : robots[i]? with
  | none => rw [hr] at h; cases h
  | some o =>
    cases o with
    | none => rw [hr] at h; cases h
    | some r' => rw [hr] at h; cases h; rfl

theorem refsOf_le {robots : List (Option (Robot C))} {i : Nat} {r : Robot C} (h : robots[i]? = some (some r)) (a : Nat) :
    (r.geometries.map (·.2)).count a ≤ refsR robots a := by
  have := refsR_set robots i (some r) none a h
  simp only [refsOf] at this
  omega

/-- what the two heaps give belongs together -/
def Same (x : Out (Res P C × World P C)) (y : Out (Res P C × Ideal P C)) : Prop :=
  match x, y with
  | .ok (r, w), .ok (r', s) => r = r' ∧ Rel w s
  | .ub, .ub => True
  | _, _ => False

theorem robotAt_ub {robots : List (Option (Robot C))} {i : Nat} :
    (∃ r, robotAt robots i = .ok r) ∨ robotAt robots i = .ub := by
  unfold robotAt
  cases robots[i]? with
  | none => exact .inr rfl
  | some o => cases o with
    | none => exact .inr rfl
    | some r => exact .inl ⟨r, rfl⟩

theorem pointersAt_ub {pointers : List (Option Nat)} : ∀ (l : List (String × Nat)),
    (∃ m, pointersAt pointers l = .ok m) ∨ pointersAt pointers l = .ub := by
  intro l
  induction l with
  | nil => exact .inl ⟨[], rfl⟩
  | cons x l ih =>
    obtain ⟨name, p⟩ := x
    rw [pointersAt]
    cases pointers[p]? with
    | none => exact .inr rfl
    | some q =>
      cases q with
      | none => exact .inr rfl
      | some a =>
        rcases ih with ⟨m, h⟩ | h
        · rw [h]; exact .inl ⟨_, rfl⟩
        · rw [h]; exact .inr rfl

theorem step_same (op : Op P C) {w : World P C} {s : Ideal P C} (h : Rel w s) : Same (step op w) (ideal op s) := by
  obtain ⟨cells, robots, pointers⟩ := w
  obtain ⟨h1, h2, h3⟩ := h
  dsimp only at h1 h2 h3
  subst h1; subst h2
  cases op with
  | newPoints points =>
    refine ⟨rfl, rfl, ?_, ?_⟩
    · show s.pointers ++ [some cells.length] = s.pointers ++ [some s.points.length]
      rw [h3.length]
    · dsimp only
      refine ⟨by simp [h3.length], ?_, ?_⟩
      · intro a x hx
        rw [refsP_append, refsP, refsP]
        by_cases ha : a < s.points.length
        · rw [List.getElem?_append_left ha] at hx
          rw [List.getElem?_append_left (by rw [h3.length]; exact ha), h3.cell a x hx,
            if_neg (show ¬ some s.points.length = some a by intro e; cases e; omega)]
          simp
        · have hlen := (List.getElem?_eq_some_iff.1 hx).1
          rw [List.length_append] at hlen
          simp only [List.length_cons, List.length_nil] at hlen
          have ha' : a = s.points.length := by omega
          subst ha'
          have hz : refsP s.pointers s.points.length + refsR s.robots s.points.length = 0 :=
            Classical.byContradiction fun hn => by
              have := h3.bound _ hn
              omega
          rw [List.getElem?_append_right (Nat.le_refl _)] at hx
          simp at hx
          subst hx
          rw [← h3.length, List.getElem?_append_right (Nat.le_refl _), h3.length]
          simp
          omega
      · intro a ha
        rw [List.length_append]
        rw [refsP_append, refsP, refsP] at ha
        by_cases e : some s.points.length = some a
        · cases e; simp
        · rw [if_neg e] at ha
          have := h3.bound a (by omega)
          simp
          omega
  | dropPoints p =>
    show Same (dropPoints p _) _
    unfold dropPoints ideal
    dsimp only
    cases hp : s.pointers[p]? with
    | none => trivial
    | some o =>
      cases o with
      | none => trivial
      | some a =>
        dsimp only
        have ha : refsP s.pointers a ≠ 0 := (refsP_ne _ _).2 (List.mem_of_getElem? hp)
        obtain ⟨c, e1, e2⟩ := release_ok (w := ⟨cells, s.robots, s.pointers⟩) h3 (a := a)
          (show refsP s.pointers a + refsR s.robots a ≠ 0 by omega)
        rw [e1]
        refine ⟨rfl, rfl, rfl, e2.congr ?_⟩
        intro b
        show refsP (s.pointers.set p none) b + refsR s.robots b = _
        have := refsP_set s.pointers p (some a) none b hp
        by_cases hb : b = a
        · subst hb; simp at this ⊢; omega
        · have hne : ¬ (some a = some b) := by intro e; cases e; exact hb rfl
          simp [hb, hne] at this ⊢
          omega
  | newRobot config geometries =>
    show Same (newRobot config geometries _) _
    unfold newRobot ideal
    dsimp only
    rcases pointersAt_ub (pointers := s.pointers) geometries with ⟨m, hm⟩ | hm
    · rw [hm]
      have hmem := pointersAt_mem hm
      obtain ⟨c, e1, e2⟩ := acquireAll_ok (m.map (·.2)) (w := ⟨cells, s.robots, s.pointers⟩) h3 (fun a ha => by
        have := (refsP_ne s.pointers a).2 (hmem a ha)
        omega)
      show Same (acquireAll _ _ >>= _) _
      rw [e1]
      refine ⟨rfl, rfl, rfl, e2.congr ?_⟩
      intro b
      show refsP s.pointers b + refsR (s.robots ++ [some ⟨config, m⟩]) b = _
      rw [refsR_append]
      simp only [refsR, refsOf]
      omega
    · rw [hm]; trivial
  | clone i =>
    show Same (clone i _) _
    unfold clone ideal
    dsimp only
    rcases robotAt_ub (robots := s.robots) (i := i) with ⟨r, hr⟩ | hr
    · rw [hr]
      have hm := robotAt_mem hr
      obtain ⟨c, e1, e2⟩ := acquireAll_ok (r.geometries.map (·.2)) (w := ⟨cells, s.robots, s.pointers⟩) h3
        (fun a ha => by
          have := (refsR_ne s.robots a).2 ⟨r, List.mem_of_getElem? hm, ha⟩
          omega)
      show Same (acquireAll _ _ >>= _) _
      rw [e1]
      refine ⟨rfl, rfl, rfl, e2.congr ?_⟩
      intro b
      show refsP s.pointers b + refsR (s.robots ++ [some r]) b = _
      rw [refsR_append]
      simp only [refsR, refsOf]
      omega
    · rw [hr]; trivial
  | delete i =>
    show Same (delete i _) _
    unfold delete ideal
    dsimp only
    rcases robotAt_ub (robots := s.robots) (i := i) with ⟨r, hr⟩ | hr
    · rw [hr]
      have hm := robotAt_mem hr
      obtain ⟨c, e1, e2⟩ := releaseAll_ok (r.geometries.map (·.2)) (w := ⟨cells, s.robots, s.pointers⟩) h3
        (fun a => by
          have := refsOf_le hm a
          omega)
      show Same (releaseAll _ _ >>= _) _
      rw [e1]
      refine ⟨rfl, rfl, rfl, e2.congr ?_⟩
      intro b
      show refsP s.pointers b + refsR (s.robots.set i none) b = refsP s.pointers b + refsR s.robots b - _
      have := refsR_set s.robots i (some r) none b hm
      simp only [refsOf] at this
      omega
    · rw [hr]; trivial
  | setPosition i config =>
    show Same (setPosition i config _) _
    unfold setPosition ideal
    dsimp only
    rcases robotAt_ub (robots := s.robots) (i := i) with ⟨r, hr⟩ | hr
    · rw [hr]
      have hm := robotAt_mem hr
      refine ⟨rfl, rfl, rfl, h3.congr ?_⟩
      intro b
      show refsP s.pointers b + refsR (s.robots.set i (some { r with config := config })) b = _
      have := refsR_set s.robots i (some r) (some { r with config := config }) b hm
      simp only [refsOf] at this
      omega
    · rw [hr]; trivial
  | getPosition i =>
    show Same (getPosition i _) _
    unfold getPosition ideal
    dsimp only
    rcases robotAt_ub (robots := s.robots) (i := i) with ⟨r, hr⟩ | hr
    · rw [hr]; exact ⟨rfl, rfl, rfl, h3⟩
    · rw [hr]; trivial
  | write i k points =>
    show Same (write i k points _) _
    unfold write ideal Ideal.vector
    dsimp only
    rcases robotAt_ub (robots := s.robots) (i := i) with ⟨r, hr⟩ | hr
    · rw [hr]
      have hm := robotAt_mem hr
      unfold pointerOf
      cases hk : r.geometries[k]? with
      | none => simp only [Out.bind_ok, hk]; trivial
      | some g =>
        obtain ⟨name, a⟩ := g
        have ha : refsR s.robots a ≠ 0 :=
          (refsR_ne s.robots a).2 ⟨r, List.mem_of_getElem? hm, List.mem_map.2 ⟨_, List.mem_of_getElem? hk, rfl⟩⟩
        obtain ⟨x, hx, hc⟩ := h3.get (a := a) (by omega)
        simp only [Out.bind_ok, hk, hc]
        have hb : a < s.points.length := (List.getElem?_eq_some_iff.1 hx).1
        refine ⟨rfl, rfl, rfl, ?_⟩
        dsimp only
        refine ⟨by simp [h3.length], ?_, ?_⟩
        · intro b y hy
          by_cases hba : b = a
          · subst hba
            rw [List.getElem?_set_self hb] at hy
            cases hy
            rw [List.getElem?_set_self (by rw [h3.length]; exact hb), if_neg (by omega)]
          · rw [List.getElem?_set_ne (Ne.symm hba)] at hy
            rw [List.getElem?_set_ne (Ne.symm hba), h3.cell b y hy]
        · intro b hb'
          rw [List.length_set]
          exact h3.bound b hb'
    · rw [hr]; trivial
  | read i k =>
    show Same (read i k _) _
    unfold read ideal Ideal.vector
    dsimp only
    rcases robotAt_ub (robots := s.robots) (i := i) with ⟨r, hr⟩ | hr
    · rw [hr]
      have hm := robotAt_mem hr
      unfold pointerOf
      cases hk : r.geometries[k]? with
      | none => simp only [Out.bind_ok, hk]; trivial
      | some g =>
        obtain ⟨name, a⟩ := g
        have ha : refsR s.robots a ≠ 0 :=
          (refsR_ne s.robots a).2 ⟨r, List.mem_of_getElem? hm, List.mem_map.2 ⟨_, List.mem_of_getElem? hk, rfl⟩⟩
        obtain ⟨x, hx, hc⟩ := h3.get (a := a) (by omega)
        simp only [Out.bind_ok, hk, hc]
        refine ⟨?_, rfl, rfl, h3⟩
        rw [List.getD_eq_getElem?_getD, hx]
        rfl
    · rw [hr]; trivial

theorem run_same : ∀ (ops : List (Op P C)) {w : World P C} {s : Ideal P C}, Rel w s →
    (∃ rs w' s', run ops w = .ok (rs, w') ∧ runIdeal ops s = .ok (rs, s') ∧ Rel w' s') ∨
    run ops w = .ub ∧ runIdeal ops s = .ub := by
  intro ops
  induction ops with
  | nil => intro w s h; exact .inl ⟨[], w, s, rfl, rfl, h⟩
  | cons op ops ih =>
    intro w s h
    have hs := step_same op h
    rw [run, runIdeal]
    cases hx : step op w with
    | ok p =>
      cases hy : ideal op s with
      | ok q =>
        rw [hx, hy] at hs
        obtain ⟨e, hr⟩ := hs
        rcases ih hr with ⟨rs, w', s', a, b, c⟩ | ⟨a, b⟩
        · refine .inl ⟨p.1 :: rs, w', s', ?_, ?_, c⟩
          · simp only [Out.bind_ok, a]
          · simp only [Out.bind_ok, b, ← e]
        · refine .inr ⟨?_, ?_⟩
          · simp only [Out.bind_ok, a, Out.bind_ub]
          · simp only [Out.bind_ok, b, Out.bind_ub]
      | _ => rw [hx, hy] at hs; cases hs
    | ub =>
      cases hy : ideal op s with
      | ub => exact .inr ⟨rfl, rfl⟩
      | _ => rw [hx, hy] at hs; cases hs
    | throws e => rw [hx] at hs; cases hs
    | abort => rw [hx] at hs; cases hs

theorem rel_empty : Rel (World.empty : World P C) Ideal.empty :=
  ⟨rfl, rfl, rfl, fun a x h => by simp [Ideal.empty] at h, fun a h => absurd rfl h⟩

/-- **C175.** Every history gives the results it would give if no points were ever freed: the points of a robot that is
still there can always be read and changed, whatever became of the robot it was cloned from and of the pointers it was
made with. -/
theorem C175_alive (ops : List (Op P C)) : results (run ops World.empty) = results (runIdeal ops Ideal.empty) := by
  rcases run_same ops (rel_empty (P := P) (C := C)) with ⟨rs, w, s, a, b, _⟩ | ⟨a, b⟩ <;> rw [a, b] <;> rfl

/-- **C175.** Points are freed exactly when no robot and no pointer refers to them any more. -/
theorem C175_freed (ops : List (Op P C)) (rs : List (Res P C)) (w : World P C) (h : run ops World.empty = .ok (rs, w))
    (a : Nat) (ha : a < w.cells.length) : w.cells[a]? = some none ↔ ¬ Referred w.robots w.pointers a := by
  rcases run_same ops (rel_empty (P := P) (C := C)) with ⟨rs', w', s, h1, h2, h3⟩ | ⟨h1, _⟩
  · rw [h] at h1
    cases h1
    obtain ⟨e1, e2, hh⟩ := h3
    have hp : a < s.points.length := by rw [← hh.length]; exact ha
    rw [hh.cell a _ (List.getElem?_eq_getElem hp), e1, e2]
    have key : Referred s.robots s.pointers a ↔ refsP s.pointers a + refsR s.robots a ≠ 0 := by
      unfold Referred
      rw [← refsP_ne, ← refsR_ne]
      omega
    rw [key]
    by_cases hz : refsP s.pointers a + refsR s.robots a = 0
    · simp [hz]
    · rw [if_neg hz]
      exact ⟨fun e => (by cases e), fun e => absurd hz e⟩
  · rw [h] at h1; cases h1

/-! ## Clones -/

theorem acquire_robots {a : Nat} {w w' : World P C} (h : acquire a w = .ok w') : w'.robots = w.robots := by
  unfold acquire at h
  split at h
  · cases h; rfl
  · cases h

theorem release_robots {a : Nat} {w w' : World P C} (h : release a w = .ok w') : w'.robots = w.robots := by
  unfold release at h
  split at h
  · cases h; rfl
  · cases h

theorem acquireAll_robots : ∀ (l : List Nat) {w w' : World P C}, acquireAll l w = .ok w' → w'.robots = w.robots := by
  intro l
  induction l with
  | nil => intro w w' h; cases h; rfl
  | cons a l ih =>
    intro w w' h
    rw [acquireAll] at h
    cases ha : acquire a w with
    | ok v => rw [ha] at h; rw [ih h, acquire_robots ha]
    | _ => rw [ha] at h; cases h

theorem releaseAll_robots : ∀ (l : List Nat) {w w' : World P C}, releaseAll l w = .ok w' → w'.robots = w.robots := by
  intro l
  induction l with
  | nil => intro w w' h; cases h; rfl
  | cons a l ih =>
    intro w w' h
    rw [releaseAll] at h
    cases ha : release a w with
    | ok v => rw [ha] at h; rw [ih h, release_robots ha]
    | _ => rw [ha] at h; cases h

theorem append_at {robots : List (Option (Robot C))} {i : Nat} {x : Option (Robot C)} (y : Option (Robot C))
    (h : robots[i]? = some x) : (robots ++ [y])[i]? = some x := by
  rw [List.getElem?_append_left (List.getElem?_eq_some_iff.1 h).1, h]

theorem bind_ok_of {α β : Type} {x : Out α} {f : α → Out β} {b : β} (h : (x >>= f) = .ok b) :
    ∃ a, x = .ok a ∧ f a = .ok b := by
  cases x with
  | ok a => exact ⟨a, rfl, h⟩
  | throws e => cases h
  | abort => cases h
  | ub => cases h

/-- what becomes of a robot in one step -/
theorem step_robots {op : Op P C} {w w' : World P C} {res : Res P C} (h : step op w = .ok (res, w')) (i : Nat)
    (r : Robot C) (hr : w.robots[i]? = some (some r)) :
    (∃ r', w'.robots[i]? = some (some r') ∧ r'.geometries = r.geometries ∧ (¬ Concerns i op → r' = r)) ∨
      w'.robots[i]? = some none ∧ Concerns i op := by
  have keep : w'.robots[i]? = some (some r) →
      (∃ r', w'.robots[i]? = some (some r') ∧ r'.geometries = r.geometries ∧ (¬ Concerns i op → r' = r)) ∨
      w'.robots[i]? = some none ∧ Concerns i op := fun e => .inl ⟨r, e, rfl, fun _ => rfl⟩
  cases op with
  | newPoints points => cases h; exact keep hr
  | dropPoints p =>
    replace h : dropPoints p w = _ := h
    unfold dropPoints at h
    split at h
    · obtain ⟨v, h1, h2⟩ := bind_ok_of h
      cases h2
      refine keep ?_
      dsimp only
      rw [release_robots h1, hr]
    · cases h
  | newRobot config geometries =>
    replace h : newRobot config geometries w = _ := h
    unfold newRobot at h
    obtain ⟨g, _, h⟩ := bind_ok_of h
    obtain ⟨v, h1, h2⟩ := bind_ok_of h
    cases h2
    refine keep ?_
    dsimp only
    rw [acquireAll_robots _ h1, append_at _ hr]
  | clone j =>
    replace h : clone j w = _ := h
    unfold clone at h
    obtain ⟨g, _, h⟩ := bind_ok_of h
    obtain ⟨v, h1, h2⟩ := bind_ok_of h
    cases h2
    refine keep ?_
    dsimp only
    rw [acquireAll_robots _ h1, append_at _ hr]
  | delete j =>
    replace h : delete j w = _ := h
    unfold delete at h
    obtain ⟨g, _, h⟩ := bind_ok_of h
    obtain ⟨v, h1, h2⟩ := bind_ok_of h
    cases h2
    by_cases hj : j = i
    · subst hj
      refine .inr ⟨?_, rfl⟩
      dsimp only
      rw [releaseAll_robots _ h1, List.getElem?_set_self (List.getElem?_eq_some_iff.1 hr).1]
    · refine keep ?_
      dsimp only
      rw [releaseAll_robots _ h1, List.getElem?_set_ne hj, hr]
  | setPosition j config =>
    replace h : setPosition j config w = _ := h
    unfold setPosition at h
    obtain ⟨g, hg, h⟩ := bind_ok_of h
    cases h
    by_cases hj : j = i
    · subst hj
      have := robotAt_mem hg
      rw [hr] at this
      cases this
      refine .inl ⟨{ r with config := config }, ?_, rfl, fun hn => absurd rfl hn⟩
      dsimp only
      rw [List.getElem?_set_self (List.getElem?_eq_some_iff.1 hr).1]
    · refine keep ?_
      dsimp only
      rw [List.getElem?_set_ne hj, hr]
  | getPosition j =>
    replace h : getPosition j w = _ := h
    unfold getPosition at h
    obtain ⟨g, hg, h⟩ := bind_ok_of h
    cases h
    exact keep hr
  | write j k points =>
    replace h : write j k points w = _ := h
    unfold write at h
    obtain ⟨g, hg, h⟩ := bind_ok_of h
    obtain ⟨a, ha, h⟩ := bind_ok_of h
    split at h
    · cases h; exact keep hr
    · cases h
  | read j k =>
    replace h : read j k w = _ := h
    unfold read at h
    obtain ⟨g, hg, h⟩ := bind_ok_of h
    obtain ⟨a, ha, h⟩ := bind_ok_of h
    split at h
    · cases h; exact keep hr
    · cases h

theorem step_deleted {op : Op P C} {w w' : World P C} {res : Res P C} (h : step op w = .ok (res, w')) (i : Nat)
    (hr : w.robots[i]? = some none) : w'.robots[i]? = some none := by
  cases op with
  | newPoints points => cases h; exact hr
  | dropPoints p =>
    replace h : dropPoints p w = _ := h
    unfold dropPoints at h
    split at h
    · obtain ⟨v, h1, h2⟩ := bind_ok_of h
      cases h2
      dsimp only
      rw [release_robots h1, hr]
    · cases h
  | newRobot config geometries =>
    replace h : newRobot config geometries w = _ := h
    unfold newRobot at h
    obtain ⟨g, _, h⟩ := bind_ok_of h
    obtain ⟨v, h1, h2⟩ := bind_ok_of h
    cases h2
    dsimp only
    rw [acquireAll_robots _ h1, append_at _ hr]
  | clone j =>
    replace h : clone j w = _ := h
    unfold clone at h
    obtain ⟨g, _, h⟩ := bind_ok_of h
    obtain ⟨v, h1, h2⟩ := bind_ok_of h
    cases h2
    dsimp only
    rw [acquireAll_robots _ h1, append_at _ hr]
  | delete j =>
    replace h : delete j w = _ := h
    unfold delete at h
    obtain ⟨g, hg, h⟩ := bind_ok_of h
    obtain ⟨v, h1, h2⟩ := bind_ok_of h
    cases h2
    have hj : j ≠ i := by
      intro e; subst e
      have := robotAt_mem hg
      rw [hr] at this; cases this
    dsimp only
    rw [releaseAll_robots _ h1, List.getElem?_set_ne hj, hr]
  | setPosition j config =>
    replace h : setPosition j config w = _ := h
    unfold setPosition at h
    obtain ⟨g, hg, h⟩ := bind_ok_of h
    cases h
    have hj : j ≠ i := by
      intro e; subst e
      have := robotAt_mem hg
      rw [hr] at this; cases this
    dsimp only
    rw [List.getElem?_set_ne hj, hr]
  | getPosition j =>
    replace h : getPosition j w = _ := h
    unfold getPosition at h
    obtain ⟨g, hg, h⟩ := bind_ok_of h
    cases h
    exact hr
  | write j k points =>
    replace h : write j k points w = _ := h
    unfold write at h
    obtain ⟨g, hg, h⟩ := bind_ok_of h
    obtain ⟨a, ha, h⟩ := bind_ok_of h
    split at h
    · cases h; exact hr
    · cases h
  | read j k =>
    replace h : read j k w = _ := h
    unfold read at h
    obtain ⟨g, hg, h⟩ := bind_ok_of h
    obtain ⟨a, ha, h⟩ := bind_ok_of h
    split at h
    · cases h; exact hr
    · cases h

theorem run_deleted : ∀ (ops : List (Op P C)) {w w' : World P C} {rs : List (Res P C)}, run ops w = .ok (rs, w') →
    ∀ (i : Nat), w.robots[i]? = some none → w'.robots[i]? = some none := by
  intro ops
  induction ops with
  | nil => intro w w' rs h i hr; cases h; exact hr
  | cons op ops ih =>
    intro w w' rs h i hr
    rw [run] at h
    obtain ⟨⟨x, v⟩, h1, h2⟩ := bind_ok_of h
    obtain ⟨⟨xs, u⟩, h3, h4⟩ := bind_ok_of h2
    cases h4
    exact ih h3 i (step_deleted h1 i hr)

/-- what becomes of a robot in a history -/
theorem run_robots : ∀ (ops : List (Op P C)) {w w' : World P C} {rs : List (Res P C)}, run ops w = .ok (rs, w') →
    ∀ (i : Nat) (r : Robot C), w.robots[i]? = some (some r) →
    (∃ r', w'.robots[i]? = some (some r') ∧ r'.geometries = r.geometries ∧ ((∀ op ∈ ops, ¬ Concerns i op) → r' = r)) ∨
      w'.robots[i]? = some none ∧ ∃ op ∈ ops, Concerns i op := by
  intro ops
  induction ops with
  | nil => intro w w' rs h i r hr; cases h; exact .inl ⟨r, hr, rfl, fun _ => rfl⟩
  | cons op ops ih =>
    intro w w' rs h i r hr
    rw [run] at h
    obtain ⟨⟨x, v⟩, h1, h2⟩ := bind_ok_of h
    obtain ⟨⟨xs, u⟩, h3, h4⟩ := bind_ok_of h2
    cases h4
    rcases step_robots h1 i r hr with ⟨r', e1, e2, e3⟩ | ⟨e, hc⟩
    · rcases ih h3 i r' e1 with ⟨r2, f1, f2, f3⟩ | ⟨f1, o, f2, f3⟩
      · refine .inl ⟨r2, f1, f2.trans e2, fun hn => ?_⟩
        rw [f3 (fun o ho => hn o (List.mem_cons_of_mem _ ho)), e3 (hn op List.mem_cons_self)]
      · exact .inr ⟨f1, o, List.mem_cons_of_mem _ f2, f3⟩
    · refine .inr ⟨?_, op, List.mem_cons_self, hc⟩
      exact run_deleted ops h3 i e

/-! ## The theorems about clones -/

/-- what `Clone` does -/
theorem clone_inv {i : Nat} {w w' : World P C} {res : Res P C} (h : step (.clone i) w = .ok (res, w')) :
    ∃ r, w.robots[i]? = some (some r) ∧ res = .made w.robots.length ∧ w'.robots = w.robots ++ [some r] := by
  replace h : clone i w = _ := h
  unfold clone at h
  obtain ⟨r, hr, h⟩ := bind_ok_of h
  obtain ⟨v, h1, h2⟩ := bind_ok_of h
  cases h2
  exact ⟨r, robotAt_mem hr, by rw [acquireAll_robots _ h1], by dsimp only; rw [acquireAll_robots _ h1]⟩

theorem clone_later {ops : List (Op P C)} {i j : Nat} {w w1 w2 : World P C} {rs : List (Res P C)}
    (h : step (.clone i) w = .ok (.made j, w1)) (h2 : run ops w1 = .ok (rs, w2)) {ri rj : Robot C}
    (hi : w2.robots[i]? = some (some ri)) (hj : w2.robots[j]? = some (some rj)) : ri.geometries = rj.geometries := by
  obtain ⟨r, e1, e2, e3⟩ := clone_inv h
  cases e2
  have gi : w1.robots[i]? = some (some r) := by rw [e3]; exact append_at _ e1
  have gj : w1.robots[w.robots.length]? = some (some r) := by
    rw [e3, List.getElem?_append_right (Nat.le_refl _)]; simp
  rcases run_robots ops h2 i r gi with ⟨r', f1, f2, _⟩ | ⟨f1, _⟩
  · rcases run_robots ops h2 _ r gj with ⟨r'', g1, g2, _⟩ | ⟨g1, _⟩
    · rw [hi] at f1; cases f1
      rw [hj] at g1; cases g1
      rw [f2, g2]
    · rw [hj] at g1; cases g1
  · rw [hi] at f1; cases f1

theorem robotAt_of {robots : List (Option (Robot C))} {i : Nat} {r : Robot C} (h : robots[i]? = some (some r)) :
    robotAt robots i = .ok r := by unfold robotAt; rw [h]

/-- **C175.** However long after the cloning, a robot and its clone have the same points: reading link `k` of one gives
what reading link `k` of the other gives. -/
theorem C175_shared (ops : List (Op P C)) (i j k : Nat) (w w1 w2 : World P C) (rs : List (Res P C))
    (h : step (.clone i) w = .ok (.made j, w1)) (h2 : run ops w1 = .ok (rs, w2)) (hi : Alive w2 i) (hj : Alive w2 j) :
    step (.read i k) w2 = step (.read j k) w2 := by
  obtain ⟨ri, hi⟩ := hi
  obtain ⟨rj, hj⟩ := hj
  have e := clone_later h h2 hi hj
  show read i k w2 = read j k w2
  unfold read
  rw [robotAt_of hi, robotAt_of hj]
  simp only [Out.bind_ok, pointerOf, e]

/-- **C175.** What is written to the points of a robot is then read from those of its clone, and the other way round. -/
theorem C175_written (ops : List (Op P C)) (i j k : Nat) (w w1 w2 w3 : World P C) (rs : List (Res P C))
    (h : step (.clone i) w = .ok (.made j, w1)) (h2 : run ops w1 = .ok (rs, w2)) (hi : Alive w2 i) (hj : Alive w2 j)
    (points : List P) (a b : Nat) (hab : (a = i ∧ b = j) ∨ (a = j ∧ b = i))
    (hw : step (.write a k points) w2 = .ok (.done, w3)) : step (.read b k) w3 = .ok (.points points, w3) := by
  obtain ⟨ri, hi⟩ := hi
  obtain ⟨rj, hj⟩ := hj
  have e := clone_later h h2 hi hj
  have : ∃ ra rb, w2.robots[a]? = some (some ra) ∧ w2.robots[b]? = some (some rb) ∧ ra.geometries = rb.geometries := by
    rcases hab with ⟨rfl, rfl⟩ | ⟨rfl, rfl⟩
    · exact ⟨ri, rj, hi, hj, e⟩
    · exact ⟨rj, ri, hj, hi, e.symm⟩
  obtain ⟨ra, rb, ha, hb, eab⟩ := this
  replace hw : write a k points w2 = _ := hw
  unfold write at hw
  rw [robotAt_of ha] at hw
  simp only [Out.bind_ok] at hw
  obtain ⟨v, hv, hw⟩ := bind_ok_of hw
  split at hw
  · rename_i pts n hc
    cases hw
    show read b k _ = _
    unfold read
    dsimp only
    rw [robotAt_of hb]
    have hv' : pointerOf rb k = .ok v := by rw [← hv]; simp only [pointerOf, eab]
    simp only [Out.bind_ok, hv']
    rw [List.getElem?_set_self (List.getElem?_eq_some_iff.1 hc).1]
  · cases hw

/-- **C175.** A clone starts at the position of the robot it was cloned from. -/
theorem C175_starts (i j : Nat) (w w1 : World P C) (h : step (.clone i) w = .ok (.made j, w1)) (c : C)
    (hc : step (.getPosition i) w = .ok (.position c, w)) :
    step (.getPosition i) w1 = .ok (.position c, w1) ∧ step (.getPosition j) w1 = .ok (.position c, w1) := by
  obtain ⟨r, e1, e2, e3⟩ := clone_inv h
  cases e2
  have gi : w1.robots[i]? = some (some r) := by rw [e3]; exact append_at _ e1
  have gj : w1.robots[w.robots.length]? = some (some r) := by
    rw [e3, List.getElem?_append_right (Nat.le_refl _)]; simp
  replace hc : getPosition i w = _ := hc
  unfold getPosition at hc
  rw [robotAt_of e1] at hc
  cases hc
  refine ⟨?_, ?_⟩
  · show getPosition i w1 = _
    unfold getPosition; rw [robotAt_of gi]; rfl
  · show getPosition _ w1 = _
    unfold getPosition; rw [robotAt_of gj]; rfl

/-- **C175.** The position of a robot changes only when it is set on this robot: not by anything done to clones of it,
to the robot it was cloned from or to the points. -/
theorem C175_position (ops : List (Op P C)) (i : Nat) (w w' : World P C) (rs : List (Res P C)) (c : C)
    (hc : step (.getPosition i) w = .ok (.position c, w)) (h : run ops w = .ok (rs, w'))
    (hn : ∀ op ∈ ops, ¬ Concerns i op) : step (.getPosition i) w' = .ok (.position c, w') := by
  replace hc : getPosition i w = _ := hc
  unfold getPosition at hc
  obtain ⟨r, hr, hc⟩ := bind_ok_of hc
  cases hc
  rcases run_robots ops h i r (robotAt_mem hr) with ⟨r', f1, _, f3⟩ | ⟨_, o, ho, hc⟩
  · rw [f3 hn] at f1
    show getPosition i w' = _
    unfold getPosition; rw [robotAt_of f1]; rfl
  · exact absurd hc (hn o ho)

/-- **C175.** Setting the position is what `GetPosition` then gives. -/
theorem C175_set (i : Nat) (c : C) (w w' : World P C) (h : step (.setPosition i c) w = .ok (.done, w')) :
    step (.getPosition i) w' = .ok (.position c, w') := by
  replace h : setPosition i c w = _ := h
  unfold setPosition at h
  obtain ⟨r, hr, h⟩ := bind_ok_of h
  cases h
  show getPosition i _ = _
  unfold getPosition robotAt
  dsimp only
  rw [List.getElem?_set_self (List.getElem?_eq_some_iff.1 (robotAt_mem hr)).1]
  rfl

/-- Points `[1, 2]`, a robot with them at position 5, and a clone; the pointer and the first robot are given up. The clone
still has its points, and once it is deleted they are freed. A write through a clone is read through the robot. -/
example :
    results (run [.newPoints [1, 2], .newRobot 5 [("base", 0)], .clone 0, .setPosition 1 7, .write 1 0 [3],
      .read 0 0, .getPosition 0, .dropPoints 0, .delete 0, .read 1 0, .getPosition 1] (World.empty : World Nat Nat)) =
      .ok [.made 0, .made 0, .made 1, .done, .done, .points [3], .position 5, .done, .done, .points [3], .position 7] := by
  decide +kernel

example : ∃ rs w, run [.newPoints [1, 2], .newRobot 5 [("base", 0)], .clone 0, .dropPoints 0, .delete 0]
      (World.empty : World Nat Nat) = .ok (rs, w) ∧ w.cells = [some ([1, 2], 1)] ∧
    ∃ w', step (.delete 1) w = .ok (.done, w') ∧ w'.cells = [none] :=
  ⟨_, _, rfl, rfl, _, rfl, rfl⟩

/-- the hypotheses of the theorems about clones are met -/
example : ∃ (w w1 w2 w3 : World Nat Nat) (rs : List (Res Nat Nat)),
    step (.clone 0) w = .ok (.made 1, w1) ∧ run [.setPosition 1 7] w1 = .ok (rs, w2) ∧ Alive w2 0 ∧ Alive w2 1 ∧
    step (.write 1 0 [3]) w2 = .ok (.done, w3) ∧ step (.getPosition 0) w1 = .ok (.position 5, w1) :=
  ⟨⟨[some ([1, 2], 2)], [some ⟨5, [("base", 0)]⟩], [some 0]⟩, _, _, _, _, rfl, rfl, ⟨_, rfl⟩, ⟨_, rfl⟩, rfl, rfl⟩

end Verif.GeometrySharing
