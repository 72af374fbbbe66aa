import Verif.Model.RobotGeometry
import Verif.Props.LinkedRobot

/-!
# Geometry and allowed self collisions (C103)
-/
namespace Verif.RobotGeometry
open Verif Verif.Kinematics
open Verif.LinkedRobot (InRange Valid)

variable {G : Type}

theorem checkNames_eq (l g : List String) (h : l.length = g.length) :
    checkNames l g = if l = g then .ok () else .throws .invalidArgument := by
  induction l generalizing g with
  | nil =>
    cases g with
    | nil => rfl
    | cons y ys => simp at h
  | cons x xs ih =>
    cases g with
    | nil => simp at h
    | cons y ys =>
      unfold checkNames
      by_cases hxy : x = y
      · rw [if_neg (by simpa using hxy), ih ys (by simpa using h)]
        simp [hxy]
      · rw [if_pos hxy, if_neg (by simp [hxy])]

theorem allowLoop_eq (n : Nat) (allowed : List (Nat × Nat)) (m : Map) :
    ((∀ p ∈ allowed, p.1 < n ∧ p.2 < n) → ∃ m', allowLoop n allowed m = .ok m' ∧
      ∀ i j, m' i j = if (i, j) ∈ allowed ∨ (j, i) ∈ allowed then 1 else m i j) ∧
    ((¬ ∀ p ∈ allowed, p.1 < n ∧ p.2 < n) → allowLoop n allowed m = .throws .invalidArgument) := by
  induction allowed generalizing m with
  | nil => exact ⟨fun _ => ⟨m, rfl, fun i j => by simp⟩, fun h => absurd (by simp) h⟩
  | cons p ps ih =>
    unfold allowLoop
    by_cases hp : p.1 < n ∧ p.2 < n
    · simp only
      rw [if_neg (by omega)]
      constructor
      · intro h
        obtain ⟨m', h1, h2⟩ := (ih _).1 fun q hq => h q (List.mem_cons_of_mem _ hq)
        refine ⟨m', h1, fun i j => ?_⟩
        rw [h2]
        by_cases h3 : (i, j) ∈ ps ∨ (j, i) ∈ ps
        · rw [if_pos h3, if_pos]
          rcases h3 with h3 | h3
          · exact Or.inl (List.mem_cons_of_mem _ h3)
          · exact Or.inr (List.mem_cons_of_mem _ h3)
        · rw [if_neg h3]
          by_cases h4 : i = p.2 ∧ j = p.1
          · rw [if_pos h4, if_pos (Or.inr (by rw [h4.1, h4.2]; exact List.mem_cons_self))]
          · rw [if_neg h4]
            by_cases h5 : i = p.1 ∧ j = p.2
            · rw [if_pos h5, if_pos (Or.inl (by rw [h5.1, h5.2]; exact List.mem_cons_self))]
            · rw [if_neg h5, if_neg]
              rintro (h6 | h6)
              · rcases List.mem_cons.1 h6 with h6 | h6
                · exact h5 ⟨congrArg Prod.fst h6, congrArg Prod.snd h6⟩
                · exact h3 (Or.inl h6)
              · rcases List.mem_cons.1 h6 with h6 | h6
                · exact h4 ⟨congrArg Prod.snd h6, congrArg Prod.fst h6⟩
                · exact h3 (Or.inr h6)
      · intro h
        refine (ih _).2 fun h' => h fun q hq => ?_
        rcases List.mem_cons.1 hq with rfl | hq
        · exact hp
        · exact h' q hq
    · simp only
      rw [if_pos (by omega)]
      exact ⟨fun h => absurd (h p List.mem_cons_self) hp, fun _ => rfl⟩

variable {base : Transform} {links : List LinkedRobot.Link} {joints : List LinkedRobot.RobotJoint}
  {initial : List (Option ℝ)} {weights : List ℝ}

/-- C103: a robot with geometry is constructed exactly if the robot is, the geometries have the names of the links in order,
and the allowed self collisions are between links; otherwise the constructor throws. It keeps the geometries. -/
theorem C103_construct (hr : ∀ j ∈ joints, InRange links.length j) (hv : ∀ j ∈ joints, Valid j.model)
    (geometries : List (String × G)) (allowed : List (Nat × Nat)) :
    (∀ robot, LinkedRobot.make base links joints initial weights = .ok robot →
      (geometries.map (·.1) = links.map (·.name) ∧ (∀ p ∈ allowed, p.1 < links.length ∧ p.2 < links.length) →
        ∃ r, make base links joints initial weights geometries allowed = .ok r ∧ r.robot = robot ∧
          linkGeometries r = geometries) ∧
      (¬ (geometries.map (·.1) = links.map (·.name) ∧ ∀ p ∈ allowed, p.1 < links.length ∧ p.2 < links.length) →
        make base links joints initial weights geometries allowed = .throws .invalidArgument)) ∧
    (∀ e, LinkedRobot.make base links joints initial weights = .throws e →
      make base links joints initial weights geometries allowed = .throws e) := by
  constructor
  · intro robot hm
    have hlen : robot.links.length = links.length := by
      have := congrArg List.length ((LinkedRobot.make_cases hr hv).1 robot hm).2.2.1
      simpa using this
    unfold make
    rw [hm, Out.bind_ok]
    constructor
    · rintro ⟨hn, ha⟩
      have hl : links.length = geometries.length := by simpa using congrArg List.length hn.symm
      obtain ⟨m, h1, -⟩ := (allowLoop_eq links.length allowed fun i j => if i = j then 1 else 0).1 ha
      refine ⟨⟨robot, geometries, m⟩, ?_, rfl, rfl⟩
      rw [if_pos hl, checkNames_eq _ _ (by simpa using hl), if_pos hn.symm, Out.bind_ok]
      unfold generateMap
      rw [hlen, h1, Out.bind_ok]
    · intro h
      by_cases hl : links.length = geometries.length
      · rw [if_pos hl, checkNames_eq _ _ (by simpa using hl)]
        by_cases hn : links.map (·.name) = geometries.map (·.1)
        · rw [if_pos hn, Out.bind_ok]
          unfold generateMap
          rw [hlen, (allowLoop_eq links.length allowed fun i j => if i = j then 1 else 0).2
            fun ha => h ⟨hn.symm, ha⟩]
          rfl
        · rw [if_neg hn]; rfl
      · rw [if_neg hl]
  · intro e he
    unfold make
    rw [he]
    rfl

/-- C103: a self collision is allowed exactly for equal links and for pairs that were given in one of the two orders; the
query throws for indices that are not of links. Positions and base do not matter. -/
theorem C103_allowed (hr : ∀ j ∈ joints, InRange links.length j) (hv : ∀ j ∈ joints, Valid j.model)
    (geometries : List (String × G)) (allowed : List (Nat × Nat)) (r : Robot G)
    (hm : make base links joints initial weights geometries allowed = .ok r) (calls : List LinkedRobot.Call) (i j : Nat) :
    let r' : Robot G := { r with robot := LinkedRobot.after r.robot calls }
    (i < links.length → j < links.length → (i = j ∨ (i, j) ∈ allowed ∨ (j, i) ∈ allowed) →
      selfCollisionAllowed r' i j = .ok true) ∧
    (i < links.length → j < links.length → ¬ (i = j ∨ (i, j) ∈ allowed ∨ (j, i) ∈ allowed) →
      selfCollisionAllowed r' i j = .ok false) ∧
    (¬ (i < links.length ∧ j < links.length) → selfCollisionAllowed r' i j = .throws .invalidArgument) := by
  intro r'
  obtain ⟨robot, h1, h2⟩ := Out.bind_eq_ok.1 hm
  have hb := (LinkedRobot.make_cases hr hv).1 robot h1
  have hlen : robot.links.length = links.length := by simpa using congrArg List.length hb.2.2.1
  split at h2
  · next hl =>
    obtain ⟨-, -, h3⟩ := Out.bind_eq_ok.1 h2
    obtain ⟨m, h4, h5⟩ := Out.bind_eq_ok.1 h3
    have h6 : r = ⟨robot, geometries, m⟩ := (Out.ok.inj h5).symm
    have ha : ∀ p ∈ allowed, p.1 < links.length ∧ p.2 < links.length := by
      by_contra hn
      unfold generateMap at h4
      rw [hlen, (allowLoop_eq links.length allowed fun i j => if i = j then 1 else 0).2 hn] at h4
      cases h4
    obtain ⟨m', h7, h8⟩ := (allowLoop_eq links.length allowed fun i j => if i = j then 1 else 0).1 ha
    unfold generateMap at h4
    rw [hlen, h7] at h4
    have h9 : m = m' := (Out.ok.inj h4).symm
    have hlen' : r'.robot.links.length = links.length := by
      have := (LinkedRobot.after_cases robot hb.1 calls).2.2.1
      have := congrArg List.length this
      simp only [List.length_map] at this
      show (LinkedRobot.after r.robot calls).links.length = _
      rw [h6]
      exact this.trans hlen
    have hmap : ∀ a b, r'.map a b = if (a, b) ∈ allowed ∨ (b, a) ∈ allowed then 1 else if a = b then 1 else 0 := by
      intro a b
      show r.map a b = _
      rw [h6, h9]
      exact h8 a b
    clear_value r'
    unfold selfCollisionAllowed
    rw [hlen']
    refine ⟨fun hi hj h => ?_, fun hi hj h => ?_, fun h => if_neg h⟩
    · rw [if_pos ⟨hi, hj⟩]
      by_cases hij : i = j
      · rw [if_pos hij]
      · rw [if_neg hij]
        simp only
        rw [hmap, if_pos (h.resolve_left hij), if_pos (by decide)]
    · rw [if_pos ⟨hi, hj⟩, if_neg fun e => h (Or.inl e)]
      simp only
      rw [hmap, if_neg fun e => h (Or.inr e), if_neg fun e => h (Or.inl e), if_neg (by decide)]
  · cases h2

/-- C103: robots with a single link keep their geometry under the name of the link, and all collisions are allowed. -/
theorem C103_single (name : String) (g : G) (i j : Nat) :
    singleGeometries name g = [(name, g)] ∧ selfCollisionAllowedSingle i j = true := ⟨rfl, rfl⟩

/-- The arm of three links, with one pair allowed -/
example : ∃ r : Robot Nat, ∃ base links joints initial weights, ∃ geometries : List (String × Nat),
    (∀ j ∈ joints, InRange links.length j) ∧ (∀ j ∈ joints, Valid j.model) ∧
    make base links joints initial weights geometries [(2, 0)] = .ok r ∧ selfCollisionAllowed r 0 2 = .ok true ∧
    selfCollisionAllowed r 0 1 = .ok false ∧ selfCollisionAllowed r 0 3 = .throws .invalidArgument := by
  obtain ⟨-, -, -, robot, hm⟩ := LinkedRobot.example_robot 0 0
  have hlen : LinkedRobot.exampleLinks.length = 3 := rfl
  obtain ⟨r, h1, h2, h3⟩ := ((C103_construct (G := Nat) LinkedRobot.example_range LinkedRobot.example_valid
    (LinkedRobot.exampleLinks.map fun l => (l.name, 0)) [(2, 0)]).1 robot hm).1 ⟨by simp, by simp [hlen]⟩
  have := fun i j => C103_allowed LinkedRobot.example_range LinkedRobot.example_valid _ _ r h1 [] i j
  refine ⟨r, _, _, _, _, _, _, LinkedRobot.example_range, LinkedRobot.example_valid, h1, ?_, ?_, ?_⟩
  · exact (this 0 2).1 (by simp [hlen]) (by simp [hlen]) (by simp)
  · exact (this 0 1).2.1 (by simp [hlen]) (by simp [hlen]) (by simp)
  · exact (this 0 3).2.2 (by simp [hlen])

end Verif.RobotGeometry
