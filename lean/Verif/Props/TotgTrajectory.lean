import Verif.Lemmas.TotgBackward
import Verif.Lemmas.TotgQuery
import Verif.Props.TotgPath
import Verif.Spec.TotgQuery

/-!
# Construction of a trajectory (C111)

A trajectory under construction is a list of points in the phase plane, the last one first.
-/
namespace Verif.Totg
open Verif
open Verif.Projection (length distance)
namespace Problem
variable {n : Nat} (P : Problem n)

/-- The limits are not negative and time does not run backwards. -/
structure Sound : Prop where
  length : 0 ≤ P.length
  velocity : ∀ i, 0 ≤ P.maxVelocity i
  acceleration : ∀ i, 0 ≤ P.maxAcceleration i
  timeStep : 0 ≤ P.timeStep
  largest : 0 ≤ P.largest

/-- At the point every joint keeps its velocity limit, and some acceleration on the path keeps every joint
within its acceleration limit. -/
def Feasible (p : ℝ × ℝ) : Prop :=
  0 ≤ p.2 ∧ VelocityOk P.maxVelocity (P.first p.1) p.2 ∧
    ∃ a, AccelerationOk P.maxAcceleration (P.first p.1) (P.second p.1) p.2 a

variable {P}

theorem Sound.limit (h : P.Sound) : ∀ s, 0 ≤ P.velocityLimit s :=
  P.velocityLimit_nonneg h.largest h.velocity

theorem within_iff (h : P.Sound) (p : ℝ × ℝ) : P.Within p ↔ P.Feasible p ∧ p.2 ≤ P.largest := by
  unfold Within Exceeds Feasible
  rw [not_or, not_lt, not_lt]
  constructor
  · rintro ⟨⟨h1, h2⟩, h3⟩
    have := (C109_velocity P.largest P.maxVelocity (P.first p.1) p.2 h3 h.velocity).1 h1
    exact ⟨⟨h3, this.2, (C109_feasible P.maxAcceleration (P.first p.1) (P.second p.1) p.2 h3 h.acceleration).1 h2⟩,
      this.1⟩
  · rintro ⟨⟨h3, h1, h2⟩, h4⟩
    exact ⟨⟨(C109_velocity P.largest P.maxVelocity (P.first p.1) p.2 h3 h.velocity).2 ⟨h4, h1⟩,
      (C109_feasible P.maxAcceleration (P.first p.1) (P.second p.1) p.2 h3 h.acceleration).2 h2⟩, h3⟩

/-- **C111.** Forward integration only adds points, each not before the one before it. The joints keep their
limits at every added point, except at one beyond the end of the path (which is then the last), and copies of
the point where the integration started. -/
theorem C111_forward (hs : P.Sound) (fuel : Nat) (acceleration : ℝ) (start : ℝ × ℝ) (below out : List (ℝ × ℝ))
    (reached : Bool) (h0 : 0 ≤ start.2) (h1 : start.1 ≤ P.length)
    (h : P.forward fuel P.switching acceleration start (start :: below) = some (.ok (reached, out))) :
    ∃ final new, out = final :: (new ++ start :: below) ∧
      (final :: (new ++ [start])).IsChain (fun a b => b.1 ≤ a.1) ∧
      (∀ p ∈ new, p = start ∨ P.Feasible p) ∧
      (reached = true → P.length < final.1) ∧
      (reached = false → final.1 ≤ P.length ∧ (final = start ∨ P.Feasible final)) := by
  obtain ⟨head, new, e, k1, k2, k3, k4⟩ := P.forward_spec hs.limit hs.timeStep
    (Q := fun p => p = start ∨ P.Within p) (R := fun a b => b.1 ≤ a.1) (fun p hp => Or.inr hp) (fun _ _ h => h)
    fuel P.switching acceleration start start below reached out le_rfl h0 h0 h1 (Or.inl rfl) h
  have conv : ∀ p, p = start ∨ P.Within p → p = start ∨ P.Feasible p := fun p hp =>
    hp.imp id fun hp => ((within_iff hs p).1 hp).1
  exact ⟨head, new, e, k1, fun p hp => conv p (k2 p hp), k3, fun hr => ⟨(k4 hr).2.2, conv _ (k4 hr).1⟩⟩

/-- **C111.** One step of forward integration lasts one time step, with the highest acceleration, as long as no
limit, no discontinuity and not the end of the path are met. -/
theorem C111_step (hs : P.Sound) (fuel : Nat) (disc : List (ℝ × Bool)) (acceleration : ℝ) (old : ℝ × ℝ)
    (rev : List (ℝ × ℝ)) :
    let new := later P.timeStep acceleration old
    (∀ d ∈ disc.head?, old.1 < d.1 ∧ d.2 = true ∧ new.1 ≤ d.1) → new.1 ≤ P.length → P.Feasible new →
    new.2 ≤ P.largest →
    P.forward (fuel + 1) disc acceleration old rev =
      P.forward fuel disc (P.acceleration new.1 new.2 true) new (new :: rev) := by
  intro new hd hl hf hb
  rw [forward]
  have hdrop : disc.dropWhile (fun d => decide (d.1 ≤ old.1) || !d.2) = disc := by
    cases disc with
    | nil => rfl
    | cons d rest =>
      obtain ⟨h1, h2, -⟩ := hd d rfl
      rw [List.dropWhile_cons, if_neg]
      simp [not_le.2 h1, h2]
  have hstep : P.stepped disc acceleration old = new := by
    have e : (old.1 + P.timeStep * (1 / 2) * (old.2 + (old.2 + P.timeStep * acceleration)),
        old.2 + P.timeStep * acceleration) = new := by
      refine Prod.ext ?_ rfl
      change _ = old.1 + P.timeStep * ((old.2 + (old.2 + P.timeStep * acceleration)) / 2)
      simp only
      ring
    unfold stepped
    cases disc with
    | nil => exact e
    | cons d rest =>
      simp only
      rw [if_neg, e]
      have h1 := (hd d rfl).2.2
      rw [← e] at h1
      exact not_lt.2 h1
  have hw := (within_iff hs new).2 ⟨hf, hb⟩
  have hclamp : P.clamped old.1 new.1 new.2 = new.2 := by
    unfold clamped
    rw [if_neg]
    rintro ⟨h, -⟩
    exact hw.1 (Or.inl h)
  simp only [hdrop, hstep, hclamp]
  rw [if_neg (not_lt.2 hl), if_neg (not_lt.2 hf.1)]
  split
  · rename_i hx
    rw [hdrop, hstep, hclamp] at hx
    exact absurd hx hw.1
  · rfl

/-- **C111.** Backward integration steps back from the given point with the lowest acceleration, one time step
at a time, until the line between its last two points meets a line between two points of the trajectory (up to
1e-6). The trajectory is cut there, continued with the point where the lines meet and then with the points of
the backward integration up to the given one. It fails if the velocity would become negative or the
trajectory is not met, or if the given point is before the last but one of the trajectory; it never leaves the
list. -/
theorem C111_backward (fuel : Nat) (rev : List (ℝ × ℝ)) (start : ℝ × ℝ) (before : ℝ)
    (h2 : 2 ≤ rev.length) (hlast : ∀ p ∈ rev.getLast?, p.1 ≤ 0) :
    let b := back P.timeStep (fun p => P.acceleration p.1 p.2 false) start before
    (P.backward fuel rev start before = none) ∨
    (P.backward fuel rev start before = some (.throws .runtimeError)) ∨
    ((∃ s, rev[1]? = some s ∧ start.1 < s.1) ∧ P.backward fuel rev start before = some (.throws .invalidArgument)) ∨
    ∃ m s2 s1 below x, (s2 :: s1 :: below) <:+ rev ∧
      P.backward fuel rev start before = some (.ok ((List.range (m + 1)).map b ++ x :: s1 :: below)) ∧
      OnLine s1 s2 x ∧ OnLine (b (m + 1)) (b m) x ∧ max s1.1 (b (m + 1)).1 - 1 / 10 ^ 6 ≤ x.1 ∧
      x.1 ≤ min s2.1 (b m).1 + 1 / 10 ^ 6 ∧ ∀ k, 1 ≤ k → k ≤ m + 1 → 0 ≤ (b k).2 := by
  intro b
  rcases P.backward_spec rev start before hlast h2 fuel with h | h | h | ⟨out, h, m, s2, s1, below, x, r1, r2, r3, r4,
    r5, r6, r7⟩
  · exact Or.inl h
  · exact Or.inr (Or.inl h)
  · exact Or.inr (Or.inr (Or.inl h))
  · refine Or.inr (Or.inr (Or.inr ⟨m, s2, s1, below, x, r1, ?_, r3, r4, r5, ?_, r7⟩))
    · rw [h, r2]; rfl
    · rw [add_comm]; exact r6

/-! ## The switching points -/

theorem accelerationLimit_nonneg (hs : P.Sound) (s : ℝ) : ((0 : ℝ) : WithTop ℝ) ≤ P.accelerationLimit s :=
  (C109_feasible P.maxAcceleration (P.first s) (P.second s) 0 le_rfl hs.acceleration).2
    ⟨0, fun i => by simpa using hs.acceleration i⟩

theorem untopD_nonneg {v : WithTop ℝ} (h : ((0 : ℝ) : WithTop ℝ) ≤ v) : 0 ≤ v.untopD 0 := by
  cases v with
  | top => simp
  | coe v => simpa using h

theorem nextAcceleration_spec (hs : P.Sound) (fuel : Nat) : ∀ (pos : ℝ) (s : Switch),
    P.nextAcceleration fuel pos = some (some s) → s.pos ≤ P.length ∧ ((0 : ℝ) : WithTop ℝ) ≤ s.vel := by
  induction fuel with
  | zero => intro pos s h; cases h
  | succ fuel ih =>
    intro pos s h
    rw [nextAcceleration] at h
    simp only at h
    split at h
    · cases h
    · rename_i hle
      have hle : (P.nextOnPath pos).1 ≤ P.length := by linarith [not_lt.1 hle, eps_pos]
      split at h
      · split at h
        · cases h
          exact ⟨hle, le_min (accelerationLimit_nonneg hs _) (accelerationLimit_nonneg hs _)⟩
        · exact ih _ _ h
      · split at h
        · cases h
          exact ⟨hle, accelerationLimit_nonneg hs _⟩
        · exact ih _ _ h

theorem refine_spec (fuel : Nat) : ∀ (before after b a : ℝ), before ≤ after →
    P.refine fuel before after = some (b, a) → before ≤ b ∧ b ≤ a ∧ a ≤ after := by
  induction fuel with
  | zero => intro _ _ _ _ _ h; cases h
  | succ fuel ih =>
    intro before after b a hle h
    rw [refine] at h
    split at h
    · simp only at h
      split at h
      · obtain ⟨h1, h2, h3⟩ := ih _ _ b a (by linarith) h
        exact ⟨by linarith, h2, h3⟩
      · obtain ⟨h1, h2, h3⟩ := ih _ _ b a (by linarith) h
        exact ⟨h1, h2, by linarith⟩
    · cases h
      exact ⟨le_rfl, hle, le_rfl⟩

theorem nextVelocity_spec (fuel : Nat) (pos : ℝ) (s : Switch)
    (h : P.nextVelocity fuel pos = some (some s)) : s.pos ≤ P.length ∧ s.vel = (P.velocityLimit s.pos : ℝ) := by
  unfold nextVelocity at h
  cases hscan : P.scan fuel false (pos - 1 / 1000) with
  | none => rw [hscan] at h; simp at h
  | some found =>
    rw [hscan] at h
    simp only [Option.bind_eq_bind, Option.bind_some] at h
    split at h
    · cases h
    · rename_i hlt
      cases hr : P.refine fuel (found - 1 / 1000) found with
      | none => rw [hr] at h; simp at h
      | some r =>
        obtain ⟨b, a⟩ := r
        rw [hr] at h
        simp only [Option.bind_some, Option.some.injEq] at h
        obtain ⟨-, -, h3⟩ := refine_spec fuel _ _ b a (by linarith) hr
        subst h
        exact ⟨h3.trans (not_le.1 hlt).le, rfl⟩

theorem usableAcceleration_spec (hs : P.Sound) (fuel : Nat) : ∀ (pos : ℝ) (s : Switch) (x : ℝ),
    P.usableAcceleration fuel pos = some (some s, x) →
      s.pos ≤ P.length ∧ ((0 : ℝ) : WithTop ℝ) ≤ s.vel ∧ s.vel ≤ (P.velocityLimit s.pos : ℝ) := by
  induction fuel with
  | zero => intro pos s x h; cases h
  | succ fuel ih =>
    intro pos s x h
    rw [usableAcceleration] at h
    cases hn : P.nextAcceleration fuel pos with
    | none => rw [hn] at h; simp at h
    | some r =>
      rw [hn] at h
      simp only [Option.bind_eq_bind, Option.bind_some] at h
      cases r with
      | none => simp at h
      | some s' =>
        simp only at h
        split at h
        · exact ih _ _ _ h
        · rename_i hv
          simp only [Option.some.injEq, Prod.mk.injEq] at h
          obtain ⟨rfl, -⟩ := h
          obtain ⟨h1, h2⟩ := nextAcceleration_spec hs fuel pos s' hn
          exact ⟨h1, h2, not_lt.1 hv⟩

theorem usableVelocity_spec (x : ℝ) (fuel : Nat) : ∀ (pos : ℝ) (s : Switch),
    P.usableVelocity x fuel pos = some (some s) →
      s.pos ≤ P.length ∧ s.vel = (P.velocityLimit s.pos : ℝ) := by
  induction fuel with
  | zero => intro pos s h; cases h
  | succ fuel ih =>
    intro pos s h
    rw [usableVelocity] at h
    cases hn : P.nextVelocity fuel pos with
    | none => rw [hn] at h; simp at h
    | some r =>
      rw [hn] at h
      simp only [Option.bind_eq_bind, Option.bind_some] at h
      cases r with
      | none => simp at h
      | some s' =>
        simp only at h
        split at h
        · exact ih _ _ h
        · simp only [Option.some.injEq] at h
          subst h
          exact nextVelocity_spec fuel pos s' hn

/-- **C111.** The switching point at which backward integration starts lies on the path, and there the joints
keep their velocity limits. -/
theorem C111_switch (hs : P.Sound) (fuel : Nat) (pos : ℝ) (s : Switch)
    (h : P.nextSwitch fuel pos = some (some s)) :
    s.pos ≤ P.length ∧ 0 ≤ s.vel.untopD 0 ∧ s.vel ≠ ⊤ ∧
      VelocityOk P.maxVelocity (P.first s.pos) (s.vel.untopD 0) := by
  have main : s.pos ≤ P.length ∧ ((0 : ℝ) : WithTop ℝ) ≤ s.vel ∧ s.vel ≤ (P.velocityLimit s.pos : ℝ) := by
    unfold nextSwitch at h
    cases ha : P.usableAcceleration fuel pos with
    | none => rw [ha] at h; simp at h
    | some r =>
      obtain ⟨a, x⟩ := r
      rw [ha] at h
      simp only [Option.bind_eq_bind, Option.bind_some] at h
      cases hv : P.usableVelocity x fuel pos with
      | none => rw [hv] at h; simp at h
      | some v =>
        rw [hv] at h
        simp only [Option.bind_some] at h
        have velocity : ∀ v', v = some v' →
            v'.pos ≤ P.length ∧ ((0 : ℝ) : WithTop ℝ) ≤ v'.vel ∧ v'.vel ≤ (P.velocityLimit v'.pos : ℝ) := by
          intro v' e
          obtain ⟨h1, h2⟩ := usableVelocity_spec x fuel pos v' (by rw [hv, e])
          refine ⟨h1, ?_, h2.le⟩
          rw [h2]
          exact WithTop.coe_le_coe.2 (hs.limit _)
        cases a with
        | none =>
          cases v with
          | none => simp at h
          | some v' => simp only [Option.some.injEq] at h; subst h; exact velocity _ rfl
        | some a' =>
          have acc := usableAcceleration_spec hs fuel pos a' x ha
          cases v with
          | none => simp only [Option.some.injEq] at h; subst h; exact acc
          | some v' =>
            simp only at h
            split at h
            · simp only [Option.some.injEq] at h; subst h; exact acc
            · simp only [Option.some.injEq] at h; subst h; exact velocity _ rfl
  obtain ⟨h1, h2, h3⟩ := main
  refine ⟨h1, untopD_nonneg h2, ?_, ?_⟩
  · intro e
    rw [e] at h3
    exact absurd h3 (by simp)
  · refine ((C109_velocity P.largest P.maxVelocity (P.first s.pos) _ (untopD_nonneg h2) hs.velocity).1 ?_).2
    cases hv : s.vel with
    | top => rw [hv] at h3; exact absurd h3 (by simp)
    | coe v =>
      rw [hv] at h3
      exact WithTop.coe_le_coe.1 h3

/-! ## The whole construction -/

/-- Each point is at most 1e-6 before the one it follows. -/
def NearlySorted (rev : List (ℝ × ℝ)) : Prop := rev.IsChain fun a b => b.1 ≤ a.1 + 1 / 10 ^ 6

theorem back_sorted (hs : P.Sound) (rev out : List (ℝ × ℝ)) (start : ℝ × ℝ) (before : ℝ) (h0 : 0 ≤ start.2)
    (hrev : NearlySorted rev) (hout : P.BackResult rev start before out) :
    NearlySorted out ∧ out.head? = some start ∧ out.getLast? = rev.getLast? ∧ 2 ≤ out.length := by
  obtain ⟨m, s2, s1, below, x, r1, r2, r3, r4, r5, r6, r7⟩ := hout
  set b := back P.timeStep P.lowest start before with hb
  have hv : ∀ k, k ≤ m + 1 → 0 ≤ (b k).2 := by
    intro k hk
    cases k with
    | zero => exact h0
    | succ k => exact r7 _ (by omega) hk
  have hstep : ∀ k, k ≤ m → (b (k + 1)).1 ≤ (b k).1 := by
    intro k hk
    have e1 : (b (k + 1)).1 = (b k).1 - P.timeStep * (((b k).2 + (b (k + 1)).2) / 2) := rfl
    rw [e1]
    have : 0 ≤ P.timeStep * (((b k).2 + (b (k + 1)).2) / 2) :=
      mul_nonneg hs.timeStep (by linarith [hv k (by omega), hv (k + 1) (by omega)])
    linarith
  have hchain : ∀ j, j ≤ m + 1 → NearlySorted ((List.range (j + 1)).map b) := by
    intro j
    induction j with
    | zero => intro _; exact List.isChain_singleton _
    | succ j ih =>
      intro hj
      have := ih (by omega)
      unfold NearlySorted at this ⊢
      rw [List.range_succ, List.map_append, List.isChain_append]
      refine ⟨this, List.isChain_singleton _, ?_⟩
      intro y hy z hz
      simp only [List.map_cons, List.map_nil, List.head?_cons, Option.mem_some_iff] at hz
      rw [List.range_succ, List.map_append] at hy
      simp only [List.map_cons, List.map_nil, List.getLast?_concat, Option.mem_some_iff] at hy
      subst hy; subst hz
      have := hstep j (by omega)
      linarith
  obtain ⟨pre, hpre⟩ := r1
  refine ⟨?_, ?_, ?_, ?_⟩
  · rw [r2]
    unfold NearlySorted
    rw [List.isChain_append]
    refine ⟨hchain m (by omega), ?_, ?_⟩
    · rw [List.isChain_cons_cons]
      constructor
      · have := le_max_left s1.1 (b (m + 1)).1
        have e : eps = 1 / 10 ^ 6 := rfl
        rw [e] at r5
        linarith
      · unfold NearlySorted at hrev
        rw [← hpre, List.isChain_append] at hrev
        exact (List.isChain_cons_cons.1 hrev.2.1).2
    · intro y hy z hz
      simp only [List.head?_cons, Option.mem_some_iff] at hz
      rw [List.range_succ, List.map_append] at hy
      simp only [List.map_cons, List.map_nil, List.getLast?_concat, Option.mem_some_iff] at hy
      subst hy; subst hz
      have := min_le_right s2.1 (b m).1
      have e : eps = 1 / 10 ^ 6 := rfl
      rw [e] at r6
      linarith
  · rw [r2, List.range_succ_eq_map]
    rfl
  · rw [r2, ← hpre, List.getLast?_append, List.getLast?_append, List.getLast?_cons_cons,
      List.getLast?_cons_cons]
    cases hg : (s1 :: below).getLast? with
    | none => simp at hg
    | some y => rfl
  · rw [r2]
    simp
    omega

/-- What holds of the trajectory between the rounds of the construction. -/
def Inv (P : Problem n) (rev : List (ℝ × ℝ)) : Prop :=
  ∃ back below, rev = back :: below ∧ rev.getLast? = some (0, 0) ∧ NearlySorted rev ∧ back.1 ≤ P.length ∧ 0 ≤ back.2

theorem forward_inv (hs : P.Sound) (fuel : Nat) (acceleration : ℝ) (start : ℝ × ℝ) (below out : List (ℝ × ℝ))
    (reached : Bool) (hi : P.Inv (start :: below))
    (h : P.forward fuel P.switching acceleration start (start :: below) = some (.ok (reached, out))) :
    2 ≤ out.length ∧ out.getLast? = some (0, 0) ∧ NearlySorted out := by
  obtain ⟨back, below', e, hl, hsort, h1, h2⟩ := hi
  cases e
  obtain ⟨head, new, e, k1, -⟩ := P.forward_spec hs.limit hs.timeStep
    (Q := fun p => True) (R := fun a b => b.1 ≤ a.1 + 1 / 10 ^ 6) (fun p hp => trivial)
    (fun a b h => by have : (0 : ℝ) < 1 / 10 ^ 6 := by norm_num
                     linarith)
    fuel P.switching acceleration start start below reached out le_rfl h2 h2 h1 trivial h
  refine ⟨by rw [e]; simp; omega, by rw [e, ← List.cons_append, List.getLast?_append, hl]; simp, ?_⟩
  rw [e]
  unfold NearlySorted at hsort ⊢
  have := List.isChain_split (l₁ := head :: new).2 ⟨k1, hsort⟩
  simpa using this

theorem alternate_inv (hs : P.Sound) (fuel : Nat) : ∀ (acceleration : ℝ) (rev : List (ℝ × ℝ)), P.Inv rev →
    (∀ out, P.alternate fuel acceleration rev = some (.ok out) →
      2 ≤ out.length ∧ out.getLast? = some (0, 0) ∧ NearlySorted out) ∧
    (∀ e, P.alternate fuel acceleration rev = some (.throws e) → e = .runtimeError ∨ e = .invalidArgument) ∧
    P.alternate fuel acceleration rev ≠ some .abort := by
  induction fuel with
  | zero => intro _ _ _; simp [alternate]
  | succ fuel ih =>
    intro acceleration rev hi
    have hi' := hi
    obtain ⟨start, below, rfl, hl, hsort, h1, h2⟩ := hi
    rw [alternate.eq_def]
    simp only
    cases hf : P.forward fuel P.switching acceleration start (start :: below) with
    | none => simp
    | some r =>
      simp only [Option.bind_eq_bind, Option.bind_some]
      cases r with
      | throws e =>
        have := (P.forward_throws fuel _ _ _ _).1 e hf
        simp [this]
      | abort => exact absurd hf (P.forward_throws fuel _ _ _ _).2
      | ub => simp
      | ok r =>
        obtain ⟨reached, out⟩ := r
        obtain ⟨k1, k2, k3⟩ := forward_inv hs fuel acceleration start below out reached hi' hf
        have done : (∀ out', some (Out.ok out) = some (Out.ok out') →
            2 ≤ out'.length ∧ out'.getLast? = some (0, 0) ∧ NearlySorted out') ∧
            (∀ e, some (Out.ok out) = some (.throws e) → e = .runtimeError ∨ e = .invalidArgument) ∧
            some (Out.ok out) ≠ some .abort := by
          refine ⟨fun out' h => ?_, fun e h => by simp at h, by simp⟩
          simp only [Option.some.injEq, Out.ok.injEq] at h
          subst h
          exact ⟨k1, k2, k3⟩
        cases reached with
        | true => exact done
        | false =>
          simp only
          cases out with
          | nil => simp at k1
          | cons b rest =>
            simp only
            cases hn : P.nextSwitch fuel b.1 with
            | none => simp
            | some s =>
              simp only [Option.bind_some]
              cases s with
              | none => exact done
              | some s =>
                simp only
                obtain ⟨s1, s2, -, -⟩ := C111_switch hs fuel b.1 s hn
                have hz : ∀ p ∈ (b :: rest).getLast?, p.1 ≤ 0 := by
                  intro p hp; rw [k2] at hp; simp at hp; rw [← hp]
                rcases P.backward_spec (b :: rest) (s.pos, s.vel.untopD 0) s.before hz k1 fuel with
                  h | h | ⟨-, h⟩ | ⟨out, h, hres⟩
                · rw [h]; simp
                · rw [h]; simp
                · rw [h]; simp
                · rw [h]
                  simp only [Option.bind_some]
                  obtain ⟨b1, b2, b3, b4⟩ := back_sorted hs _ out _ s.before s2 k3 hres
                  cases out with
                  | nil => simp at b4
                  | cons x xs =>
                    simp only [List.head?_cons, Option.some.injEq] at b2
                    refine ih _ _ ⟨x, xs, rfl, by rw [b3, k2], b1, ?_, ?_⟩
                    · rw [b2]; exact s1
                    · rw [b2]; exact s2

/-- **C111.** If the construction finishes it gives a trajectory that starts at rest at the start of the path
and ends at rest at its end, and along which the position never goes back by more than 1e-6 from one point to
the next. If it fails with an exception this is a runtime error or an invalid argument. -/
theorem C111_ends (hs : P.Sound) (fuel : Nat) :
    (∀ rev, P.integrate fuel = some (.ok rev) →
      rev.getLast? = some (0, 0) ∧ rev.head? = some (P.length, 0) ∧ NearlySorted rev ∧ 2 ≤ rev.length) ∧
    (∀ e, P.integrate fuel = some (.throws e) → e = .runtimeError ∨ e = .invalidArgument) ∧
    P.integrate fuel ≠ some .abort := by
  have hi : P.Inv [(0, 0)] := ⟨(0, 0), [], rfl, rfl, List.isChain_singleton _, hs.length, le_rfl⟩
  obtain ⟨a1, a2, a3⟩ := alternate_inv hs fuel (P.acceleration 0 0 true) [(0, 0)] hi
  unfold integrate
  cases ha : P.alternate fuel (P.acceleration 0 0 true) [(0, 0)] with
  | none => simp
  | some r =>
    simp only [Option.bind_eq_bind, Option.bind_some]
    cases r with
    | throws e =>
      have := a2 e ha
      simpa using this
    | abort => exact absurd ha a3
    | ub => simp
    | ok rev =>
      simp only
      obtain ⟨k1, k2, k3⟩ := a1 rev ha
      have hz : ∀ p ∈ rev.getLast?, p.1 ≤ 0 := by
        intro p hp; rw [k2] at hp; simp at hp; rw [← hp]
      rcases P.backward_spec rev (P.length, 0) (P.acceleration P.length 0 false) hz k1 fuel with
        h | h | ⟨-, h⟩ | ⟨out, h, hres⟩
      · rw [h]; simp
      · rw [h]; simp
      · rw [h]; simp
      · rw [h]
        obtain ⟨b1, b2, b3, b4⟩ := back_sorted hs _ out _ _ le_rfl k3 hres
        refine ⟨fun r hr => ?_, fun e he => by simp at he, by simp⟩
        simp only [Option.some.injEq, Out.ok.injEq] at hr
        subst hr
        exact ⟨by rw [b3, k2], b2, b1, b4⟩

end Problem

/-- **C111.** A trajectory through waypoints, if its constructor returns, starts at time zero at rest at the
first waypoint and ends at rest at the last waypoint. -/
theorem C111_trajectory {n : Nat} (first second : Fin (n + 1) → ℝ) (rest : List (Fin (n + 1) → ℝ))
    (dev timeStep largest : ℝ) (maxVelocity maxAcceleration : Fin (n + 1) → ℝ) (fuel : Nat) (steps : List Step)
    (hdev : 0 < dev) (hap : Apart (2 / 10 ^ 6) (first :: second :: rest))
    (hnr : NoReversal (first :: second :: rest)) (hv : ∀ i, 0 ≤ maxVelocity i) (ha : ∀ i, 0 ≤ maxAcceleration i)
    (ht : 0 ≤ timeStep) (hl : 0 ≤ largest)
    (h : makeTrajectory (makePath (first :: second :: rest) dev) maxVelocity maxAcceleration timeStep largest fuel =
      some (.ok steps)) :
    let p := makePath (first :: second :: rest) dev
    steps.head? = some ⟨0, 0, 0⟩ ∧ p.config 0 = .ok first ∧
    (∃ final, steps.getLast? = some final ∧ final.vel = 0 ∧
      p.config final.pos = .ok ((second :: rest).getLast (List.cons_ne_nil _ _))) ∧
    steps.IsChain (fun a b => a.pos ≤ b.pos + 1 / 10 ^ 6) ∧ 2 ≤ steps.length := by
  intro p
  obtain ⟨config, tangent, curvature, h1, h2, h3, h4, -⟩ := C108_blended first second rest dev hdev hap hnr
  unfold makeTrajectory at h
  split at h
  · cases h
  · simp only at h
    generalize hP : (Problem.mk (n := n) p.length p.switching (fun s => match p.tangent s with | .ok t => t | _ => 0)
      (fun s => match p.curvature s with | .ok t => t | _ => 0) maxVelocity maxAcceleration timeStep largest) = P at h
    have hs : P.Sound := by
      subst hP
      exact ⟨h2.le, hv, ha, ht, hl⟩
    have hlen : P.length = p.length := by subst hP; rfl
    obtain ⟨e1, -, -⟩ := Problem.C111_ends hs fuel
    cases hi : P.integrate fuel with
    | none => rw [hi] at h; simp at h
    | some r =>
      rw [hi] at h
      simp only [Option.bind_eq_bind, Option.bind_some] at h
      cases r with
      | throws e => simp at h
      | abort => simp at h
      | ub => simp at h
      | ok rev =>
        simp only [Option.some.injEq, Out.ok.injEq] at h
        obtain ⟨k1, k2, k3, k4⟩ := e1 rev hi
        have hpts := timed_point rev.reverse
        rw [h] at hpts
        refine ⟨?_, ?_, ?_, ?_, ?_⟩
        · have : rev.reverse.head? = some (0, 0) := by rw [List.head?_reverse, k1]
          cases hr : rev.reverse with
          | nil => rw [hr] at this; cases this
          | cons x xs =>
            rw [hr] at this h
            simp only [List.head?_cons, Option.some.injEq] at this
            rw [← h, this]
            rfl
        · rw [(h1 0).1, h3]
        · have : (steps.map fun a => (a.pos, a.vel)).getLast? = some (P.length, 0) := by
            rw [hpts, List.getLast?_reverse, k2]
          rw [List.getLast?_map] at this
          cases hf : steps.getLast? with
          | none => rw [hf] at this; cases this
          | some final =>
            rw [hf] at this
            simp only [Option.map_some, Option.some.injEq, Prod.mk.injEq] at this
            refine ⟨final, rfl, this.2, ?_⟩
            rw [this.1, hlen, (h1 _).1, h4]
        · have hc : rev.reverse.IsChain fun a b => a.1 ≤ b.1 + 1 / 10 ^ 6 := by
            rw [List.isChain_reverse]
            exact k3
          rw [← hpts, List.isChain_map] at hc
          exact hc
        · rw [← h, timed_length, List.length_reverse]
          exact k4

/-- **C111.** Without two waypoints the constructor reads a path that has no segments. -/
theorem C111_short {n : Nat} (waypoints : List (Fin (n + 1) → ℝ)) (dev timeStep largest : ℝ)
    (maxVelocity maxAcceleration : Fin (n + 1) → ℝ) (fuel : Nat) (h : waypoints.length < 2) :
    makeTrajectory (makePath waypoints dev) maxVelocity maxAcceleration timeStep largest fuel = some .ub := by
  unfold makeTrajectory
  rw [if_pos]
  rcases waypoints with _ | ⟨a, _ | ⟨b, l⟩⟩
  · rfl
  · rfl
  · simp at h

end Verif.Totg
