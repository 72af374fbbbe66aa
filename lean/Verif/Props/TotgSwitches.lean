import Verif.Lemmas.TotgSwitch
import Verif.Props.TotgTrajectoryExamples
import Verif.Props.TotgSwitching

/-! # C117: where forward integration ends and where it is taken up again -/
namespace Verif.Totg
open Verif
namespace Problem
variable {n : Nat} {P : Problem n}

/-- **C117.** The search for a switching point of the acceleration limits finishes within one round more than there are
switching points on the path, and finds the first of these, after the given position and before the end, at which a
trajectory may touch the limit; with the lower of the limits nearby as its velocity, and the lowest acceleration before
and the highest after it (none where the limit is smooth). It finds none only if there is none. -/
theorem C117_acceleration (hs : P.switching.Pairwise fun a b => a.1 ≤ b.1) (fuel : Nat) (pos : ℝ) :
    (P.switching.length < fuel → P.nextAcceleration fuel pos ≠ none) ∧
    (P.nextAcceleration fuel pos = some none → ∀ q, P.Candidate pos q → ¬ P.Touches q) ∧
    (∀ s, P.nextAcceleration fuel pos = some (some s) → ∃ q, P.IsFirst P.Touches pos q ∧ s = P.switchAt q) := by
  refine ⟨fun h => ?_, (nextAcceleration_first hs fuel pos).1, (nextAcceleration_first hs fuel pos).2⟩
  obtain ⟨r, hr⟩ := nextAcceleration_total hs fuel pos (lt_of_le_of_lt (List.length_filter_le _ _) h)
  rw [hr]
  simp

/-- **C117.** The search for a switching point of the velocity limits walks in steps of 1/1000 to the first step that
ends it, and there finds the place where the trajectory stops leaving the limit, up to 1/1000000. It finishes. -/
theorem C117_velocity (fuel : Nat) (pos : ℝ) :
    (11 ≤ fuel → P.length ≤ pos + (fuel - 1) / 1000 → P.nextVelocity fuel pos ≠ none) ∧
    ∀ r, P.nextVelocity fuel pos = some r → P.NextVelocity pos r :=
  ⟨nextVelocity_total fuel pos, nextVelocity_found fuel pos⟩

/-- **C117.** The next switching point is the earlier of two: the first of the acceleration limits that keeps the
velocity limits, and the first of the velocity limits that keeps the acceleration limits nearby (only checked up to the
position of the former, or of the last one found if none keeps the velocity limits). -/
theorem C117_switch (hs : P.switching.Pairwise fun a b => a.1 ≤ b.1) (fuel : Nat) (pos : ℝ) (r : Option Switch)
    (h : P.nextSwitch fuel pos = some r) :
    ∃ limit v, P.FirstVelocity limit pos v ∧
      ((∃ q, P.IsFirst (fun q => P.Touches q ∧ P.Slow q) pos q ∧ limit = q.1 ∧
          ((r = some (P.switchAt q) ∧ ∀ w, v = some w → q.1 ≤ w.pos) ∨ ∃ w, v = some w ∧ r = some w ∧ w.pos < q.1)) ∨
       ((∀ q, P.Candidate pos q → P.Touches q → ¬ P.Slow q) ∧ r = v ∧
          ((limit = pos ∧ ∀ q, P.Candidate pos q → ¬ P.Touches q) ∨
            ∃ q, P.Candidate pos q ∧ P.Touches q ∧ limit = q.1 ∧
              ∀ p, P.Candidate pos p → P.Touches p → p.1 ≤ q.1))) := by
  have hpos : ∀ q, (P.switchAt q).pos = q.1 := by
    intro q; unfold switchAt; split <;> rfl
  unfold nextSwitch at h
  cases ha : P.usableAcceleration fuel pos with
  | none => rw [ha] at h; simp at h
  | some x =>
    obtain ⟨a, limit⟩ := x
    rw [ha] at h
    simp only [Option.bind_eq_bind, Option.bind_some] at h
    cases hv : P.usableVelocity limit fuel pos with
    | none => rw [hv] at h; simp at h
    | some v =>
      rw [hv] at h
      simp only [Option.bind_some] at h
      refine ⟨limit, v, usableVelocity_first limit fuel pos v hv, ?_⟩
      obtain ⟨h1, h2⟩ := usableAcceleration_first hs fuel pos a limit ha
      cases a with
      | none =>
        refine Or.inr ⟨(h1 rfl).1, ?_, (h1 rfl).2⟩
        cases v <;> (simp only [Option.some.injEq] at h; exact h.symm)
      | some s =>
        obtain ⟨q, q1, rfl, q3⟩ := h2 s rfl
        refine Or.inl ⟨q, q1, q3, ?_⟩
        cases v with
        | none =>
          simp only [Option.some.injEq] at h
          exact Or.inl ⟨h.symm, by simp⟩
        | some w =>
          simp only [hpos] at h
          split at h
          · rename_i hle
            simp only [Option.some.injEq] at h
            refine Or.inl ⟨h.symm, ?_⟩
            intro w' hw
            simp only [Option.some.injEq] at hw
            rw [← hw]; exact hle
          · rename_i hle
            simp only [Option.some.injEq] at h
            exact Or.inr ⟨w, rfl, h.symm, not_le.1 hle⟩

theorem exceeds_above (p : ℝ × ℝ) : P.Exceeds p ↔ P.Above p := Iff.rfl

theorem stepped_le (disc : List (ℝ × Bool)) (acceleration : ℝ) (old : Point) :
    ∀ d ∈ disc.head?, (P.stepped disc acceleration old).1 ≤ d.1 := by
  intro d hd
  cases disc with
  | nil => simp at hd
  | cons e rest =>
    simp only [List.head?_cons, Option.mem_some_iff] at hd
    subst hd
    unfold stepped
    simp only
    split
    · exact le_rfl
    · rename_i h; exact not_lt.1 h

open Classical in
/-- What the code does after the bisection, given that a discontinuity is never passed -/
theorem decide_stop (disc : List (ℝ × Bool)) (before after : Point)
    (stop go : Option (Out (Bool × List Point))) : (∀ d ∈ disc.head?, after.1 ≤ d.1) →
    (if P.accelerationLimit after.1 < (P.velocityLimit after.1 : ℝ) then
      match disc with
      | [] => some .ub
      | d :: _ =>
        if after.1 > d.1 then stop
        else if (P.slope before.1 before.2 true).gt (P.accelerationLimitDeriv before.1) = true then stop
        else go
     else if (P.slope before.1 before.2 false).gt (P.velocityLimitDeriv before.1) = true then stop else go) =
    if P.accelerationLimit after.1 < (P.velocityLimit after.1 : ℝ) ∧ disc = [] then some .ub
    else if P.Trapped before after.1 then stop else go := by
  intro hd
  unfold Trapped
  by_cases h : P.accelerationLimit after.1 < (P.velocityLimit after.1 : ℝ)
  · simp only [h, true_and, if_true]
    cases disc with
    | nil => simp
    | cons d rest =>
      simp only [reduceCtorEq, if_false]
      rw [if_neg (not_lt.2 (hd d rfl))]
      simp only [gt_greater (P.slope_denotes _ _ _) (P.accelerationLimitDeriv_denotes _)]
  · simp only [h, false_and, if_false]
    simp only [gt_greater (P.slope_denotes _ _ _) (P.velocityLimitDeriv_denotes _)]

theorem forward_stops (hl : ∀ s, 0 ≤ P.velocityLimit s) (ht : 0 ≤ P.timeStep) (fuel : Nat) :
    ∀ (disc : List (ℝ × Bool)) (acceleration : ℝ) (old back : Point) (below out : List Point),
    back.1 ≤ old.1 → 0 ≤ old.2 → 0 ≤ back.2 →
    P.forward fuel disc acceleration old (back :: below) = some (.ok (false, out)) →
    ∃ final rest after, out = final :: rest ∧ final.1 ≤ after.1 ∧ after.1 ≤ final.1 + near ∧ P.Above after ∧
      P.Trapped final after.1 := by
  induction fuel with
  | zero => intro _ _ _ _ _ _ _ _ _ h; cases h
  | succ fuel ih =>
    intro disc acceleration old back below out h1 h2 h3 h
    rw [forward] at h
    simp only at h
    have hd := dropped_head disc old.1
    generalize disc.dropWhile (fun d => decide (d.1 ≤ old.1) || !d.2) = disc at h hd
    have hge := P.stepped_ge ht disc acceleration old h2 hd
    have hle := stepped_le (P := P) disc acceleration old
    generalize P.stepped disc acceleration old = new at h hge hle
    split at h
    · simp at h
    · split at h
      · simp at h
      · rename_i hneg
        have hnew := hge (not_lt.1 hneg)
        have hv := P.clamped_nonneg hl old.1 new.1 new.2 (not_lt.1 hneg)
        generalize P.clamped old.1 new.1 new.2 = v at h hv
        split at h
        · rename_i hex
          cases ho : P.overshoot fuel back (new.1, v) with
          | none => rw [ho] at h; simp at h
          | some r =>
            obtain ⟨b, a⟩ := r
            rw [ho] at h
            simp only [Option.bind_eq_bind, Option.bind_some] at h
            obtain ⟨o1, o2, o3, o4, o5, o6, o7⟩ := P.overshoot_spec hl fuel back (new.1, v) b a (h1.trans hnew) h3 hv hex ho
            simp only at o3
            have key := decide_stop (P := P) disc b a (some (.ok (false, b :: back :: below)))
              (P.forward fuel disc (P.acceleration new.1 v true) (new.1, v) (b :: back :: below))
              (fun d hd' => o3.trans (hle d hd'))
            replace h := key.symm.trans h
            split at h
            · simp at h
            · split at h
              · rename_i ht'
                simp only [Option.some.injEq, Out.ok.injEq, Prod.mk.injEq, true_and] at h
                refine ⟨b, back :: below, a, h.symm, o2, ?_, o6, ht'⟩
                rw [eps_near] at o4
                linarith
              · exact ih _ _ (new.1, v) _ _ _ (o2.trans o3) hv o5 h
        · exact ih _ _ (new.1, v) (new.1, v) _ _ le_rfl hv hv h

/-- **C117.** Forward integration ends before the end of the path only at a point, up to 1/1000000 before one above a
limit, where the trajectory is steeper than the limit: it cannot get below the limit again. It never ends at a
discontinuity for its own sake. -/
theorem C117_stops (hs : P.Sound) (fuel : Nat) (acceleration : ℝ) (start : ℝ × ℝ) (below out : List (ℝ × ℝ))
    (h0 : 0 ≤ start.2)
    (h : P.forward fuel P.switching acceleration start (start :: below) = some (.ok (false, out))) :
    ∃ final rest after, out = final :: rest ∧ final.1 ≤ after.1 ∧ after.1 ≤ final.1 + near ∧ P.Above after ∧
      P.Trapped final after.1 :=
  forward_stops hs.limit hs.timeStep fuel P.switching acceleration start start below out le_rfl h0 h0 h

/-- **C117.** A step that would pass the next discontinuity ends at it, with the velocity on the line from the old
point to the point one time step later, when it is within the limits there. -/
theorem C117_discontinuity (hs : P.Sound) (fuel : Nat) (d : ℝ × Bool) (disc : List (ℝ × Bool)) (acceleration : ℝ)
    (old : ℝ × ℝ) (rev : List (ℝ × ℝ)) (vel : ℝ) :
    let new := later P.timeStep acceleration old
    old.1 < d.1 → d.2 = true → d.1 < new.1 → d.1 ≤ P.length →
    (vel - old.2) / (d.1 - old.1) = (new.2 - old.2) / (new.1 - old.1) →
    P.Feasible (d.1, vel) → vel ≤ P.largest →
    P.forward (fuel + 1) (d :: disc) acceleration old rev =
      P.forward fuel (d :: disc) (P.acceleration d.1 vel true) (d.1, vel) ((d.1, vel) :: rev) := by
  intro new h1 h2 h3 hl hline hf hb
  rw [forward]
  have hdrop : (d :: disc).dropWhile (fun d => decide (d.1 ≤ old.1) || !d.2) = d :: disc := by
    rw [List.dropWhile_cons, if_neg]
    simp [not_le.2 h1, h2]
  have e : (old.1 + P.timeStep * (1 / 2) * (old.2 + (old.2 + P.timeStep * acceleration)),
      old.2 + P.timeStep * acceleration) = new := by
    refine Prod.ext ?_ rfl
    change _ = old.1 + P.timeStep * ((old.2 + (old.2 + P.timeStep * acceleration)) / 2)
    simp only
    ring
  have hstep : P.stepped (d :: disc) acceleration old = (d.1, vel) := by
    unfold stepped
    simp only
    have e1 := congrArg Prod.fst e
    have e2 := congrArg Prod.snd e
    simp only at e1 e2
    rw [e1, e2, if_pos h3]
    refine Prod.ext rfl ?_
    simp only
    have n1 : d.1 - old.1 ≠ 0 := by linarith
    have n2 : new.1 - old.1 ≠ 0 := by linarith
    rw [div_eq_div_iff n1 n2] at hline
    rw [eq_comm, ← sub_eq_iff_eq_add', eq_div_iff n2, hline]
    ring
  have hw := (within_iff hs (d.1, vel)).2 ⟨hf, hb⟩
  have hclamp : P.clamped old.1 d.1 vel = vel := by
    unfold clamped
    rw [if_neg]
    rintro ⟨h, -⟩
    exact hw.1 (Or.inl h)
  simp only [hdrop, hstep, hclamp]
  rw [if_neg (not_lt.2 hl), if_neg (not_lt.2 hf.1)]
  split
  · rename_i hx
    rw [hdrop, hstep, hclamp] at hx
    exact absurd hx hw.1
  · rfl

theorem overshoot_total (fuel : Nat) : ∀ (k : Nat) (before after : Point), after.1 - before.1 ≤ 2 ^ k * near → k < fuel →
    P.overshoot fuel before after ≠ none := by
  induction fuel with
  | zero => intro k _ _ _ h; omega
  | succ fuel ih =>
    intro k before after h hk
    rw [overshoot]
    split
    · rename_i hc
      rw [eps_near] at hc
      cases k with
      | zero => rw [pow_zero, one_mul] at h; exact absurd hc (not_lt.2 h)
      | succ k =>
        rw [pow_succ] at h
        simp only
        split
        · exact ih k _ _ (by simp only; linarith) (by omega)
        · exact ih k _ _ (by simp only; linarith) (by omega)
    · simp

/-- One round of forward integration in which the acceleration limits are exceeded -/
theorem forward_crosses (fuel : Nat) (disc : List (ℝ × Bool)) (acceleration : ℝ) (old back : ℝ × ℝ)
    (below : List (ℝ × ℝ)) (d : ℝ × Bool) :
    let new := later P.timeStep acceleration old
    disc.head? = some d → old.1 < d.1 → d.2 = true → new.1 ≤ d.1 → new.1 ≤ P.length → 0 ≤ new.2 →
    new.2 ≤ P.velocityLimit new.1 → P.accelerationLimit new.1 < ((new.2 : ℝ) : WithTop ℝ) →
    P.forward (fuel + 1) disc acceleration old (back :: below) = (do
      let (before, after) ← P.overshoot fuel back new
      if P.accelerationLimit after.1 < (P.velocityLimit after.1 : ℝ) then
        match disc with
        | [] => some .ub
        | d :: _ =>
          if after.1 > d.1 then some (.ok (false, before :: back :: below))
          else if (P.slope before.1 before.2 true).gt (P.accelerationLimitDeriv before.1) = true then
            some (.ok (false, before :: back :: below))
          else P.forward fuel disc (P.acceleration new.1 new.2 true) new (before :: back :: below)
      else if (P.slope before.1 before.2 false).gt (P.velocityLimitDeriv before.1) = true then
        some (.ok (false, before :: back :: below))
      else P.forward fuel disc (P.acceleration new.1 new.2 true) new (before :: back :: below)) := by
  intro new hd d1 d2 d3 hl hn hv ha
  have hdrop : disc.dropWhile (fun d => decide (d.1 ≤ old.1) || !d.2) = disc := by
    cases disc with
    | nil => rfl
    | cons e rest =>
      simp only [List.head?_cons, Option.some.injEq] at hd
      subst hd
      rw [List.dropWhile_cons, if_neg]
      simp [not_le.2 d1, d2]
  have hstep : P.stepped disc acceleration old = new := by
    have e : (old.1 + P.timeStep * (1 / 2) * (old.2 + (old.2 + P.timeStep * acceleration)),
        old.2 + P.timeStep * acceleration) = new := by
      refine Prod.ext ?_ rfl
      change _ = old.1 + P.timeStep * ((old.2 + (old.2 + P.timeStep * acceleration)) / 2)
      simp only
      ring
    unfold stepped
    cases disc with
    | nil => exact e
    | cons e' rest =>
      simp only [List.head?_cons, Option.some.injEq] at hd
      subst hd
      simp only
      rw [if_neg, e]
      rw [← e] at d3
      exact not_lt.2 d3
  have hclamp : P.clamped old.1 new.1 new.2 = new.2 := by
    unfold clamped
    rw [if_neg]
    rintro ⟨h, -⟩
    exact absurd h (not_lt.2 hv)
  have hex : P.Exceeds new := Or.inr ha
  conv_lhs => rw [forward]
  simp only [hdrop, hstep, hclamp]
  rw [if_neg (not_lt.2 hl), if_neg (not_lt.2 hn)]
  split
  · rfl
  · rename_i hx
    rw [hdrop, hstep, hclamp] at hx
    exact absurd hex hx

/-- **C117.** A step of the length of the time step to a point within the velocity limits but above the acceleration
limits: the integration ends exactly if the trajectory, at a point just before it gets above a limit, is steeper than
the limit. Otherwise that point is added, and the integration goes on from the point above the limit. The point is found within as many rounds as the
step can be halved until it is 1/1000000 long. -/
theorem C117_crosses (hs : P.Sound) (fuel : Nat) (disc : List (ℝ × Bool)) (acceleration : ℝ) (old back : ℝ × ℝ)
    (below : List (ℝ × ℝ)) (k : Nat) :
    let new := later P.timeStep acceleration old
    (∃ d, disc.head? = some d ∧ old.1 < d.1 ∧ d.2 = true ∧ new.1 ≤ d.1) → new.1 ≤ P.length → back.1 ≤ old.1 →
    0 ≤ old.2 → 0 ≤ new.2 → 0 ≤ back.2 → new.2 ≤ P.velocityLimit new.1 →
    P.accelerationLimit new.1 < ((new.2 : ℝ) : WithTop ℝ) →
    new.1 - back.1 ≤ 2 ^ k * near → k < fuel →
    ∃ before after : ℝ × ℝ, back.1 ≤ before.1 ∧ before.1 ≤ after.1 ∧ after.1 ≤ new.1 ∧ after.1 ≤ before.1 + near ∧
      P.Above after ∧ (before = back ∨ ¬ P.Above before) ∧
      (P.Trapped before after.1 → P.forward (fuel + 1) disc acceleration old (back :: below) =
        some (.ok (false, before :: back :: below))) ∧
      (¬ P.Trapped before after.1 → P.forward (fuel + 1) disc acceleration old (back :: below) =
        P.forward fuel disc (P.acceleration new.1 new.2 true) new (before :: back :: below)) := by
  intro new ⟨d, hd, d1, d2, d3⟩ hl hb ho hn hbn hv ha hk hf
  have hge : old.1 ≤ new.1 := by
    have : 0 ≤ P.timeStep * ((old.2 + (old.2 + P.timeStep * acceleration)) / 2) :=
      mul_nonneg hs.timeStep (div_nonneg (add_nonneg ho hn) zero_le_two)
    change old.1 ≤ old.1 + P.timeStep * ((old.2 + (old.2 + P.timeStep * acceleration)) / 2)
    linarith
  have hex : P.Exceeds new := Or.inr ha
  have unf := P.forward_crosses fuel disc acceleration old back below d hd d1 d2 d3 hl hn hv ha
  simp only at unf
  rw [unf]
  cases ho' : P.overshoot fuel back new with
  | none => exact absurd ho' (overshoot_total fuel k _ _ hk hf)
  | some r =>
    obtain ⟨b, a⟩ := r
    simp only [Option.bind_eq_bind, Option.bind_some]
    obtain ⟨o1, o2, o3, o4, o5, o6, o7⟩ := P.overshoot_spec hs.limit fuel back new b a (hb.trans hge) hbn hn hex ho'
    refine ⟨b, a, o1, o2, o3, ?_, o6, ?_, ?_, ?_⟩
    · rw [eps_near] at o4; linarith
    · exact o7.imp id fun h => h.1
    · intro ht
      rw [decide_stop disc b a _ _ (fun e he => by rw [hd] at he; simp only [Option.mem_some_iff] at he; subst he; exact o3.trans d3),
        if_neg, if_pos ht]
      rintro ⟨-, e⟩
      rw [e] at hd; cases hd
    · intro ht
      rw [decide_stop disc b a _ _ (fun e he => by rw [hd] at he; simp only [Option.mem_some_iff] at he; subst he; exact o3.trans d3),
        if_neg, if_neg ht]
      rintro ⟨-, e⟩
      rw [e] at hd; cases hd

end Problem

/-! ### The hypotheses are met -/

/-- One joint whose tangent is zero in the middle of the path, where it is curved -/
noncomputable def dip : Problem 0 where
  length := 1
  switching := [(1 / 2, false)]
  first := fun s => ![if s = 1 / 2 then 0 else 1]
  second := fun _ => ![1]
  maxVelocity := ![10]
  maxAcceleration := ![1]
  timeStep := 1
  largest := 100

theorem dip_limit (s : ℝ) : dip.accelerationLimit s = if s = 1 / 2 then ((1 : ℝ) : WithTop ℝ) else ⊤ := by
  unfold Problem.accelerationLimit accelerationMaxVelocity
  by_cases h : s = 1 / 2
  · simp [dip, h, List.finRange]
  · have : s ≠ 2⁻¹ := by simpa using h
    simp [dip, this, List.finRange, pairLimits]

theorem dip_touches : dip.Touches (1 / 2, false) := by
  unfold Problem.Touches
  rw [if_neg (by simp)]
  have hn : (0 : ℝ) < near := by unfold near; norm_num
  constructor
  · refine ⟨0, ⊥, rfl, Or.inr (Or.inr ⟨?_, ?_, rfl⟩), EReal.bot_lt_zero⟩
    · rw [dip_limit, if_neg (by simp only; linarith)]
    · rw [dip_limit, if_pos (by simp)]; simp
  · refine ⟨⊤, 0, Or.inr (Or.inl ⟨?_, ?_, rfl⟩), rfl, EReal.zero_lt_top⟩
    · rw [dip_limit, if_pos (by simp)]; simp
    · rw [dip_limit, if_neg (by simp only; linarith)]

example : ∃ s, dip.nextAcceleration 2 0 = some (some s) ∧ s.pos = 1 / 2 ∧ s.vel = ((1 : ℝ) : WithTop ℝ) := by
  obtain ⟨h1, h2, h3⟩ := Problem.C117_acceleration (P := dip) (by simp [dip]) 2 0
  have hc : dip.Candidate 0 (1 / 2, false) :=
    ⟨by norm_num, by simp only [dip, near]; norm_num, [], [], rfl, by simp⟩
  cases h : dip.nextAcceleration 2 0 with
  | none => exact absurd h (h1 (by simp [dip]))
  | some r =>
    cases r with
    | none => exact absurd dip_touches (h2 h _ hc)
    | some s =>
      obtain ⟨q, ⟨⟨-, -, l, r, e, -⟩, -⟩, rfl⟩ := h3 s h
      have hq : q = (1 / 2, false) := by
        have : q ∈ dip.switching := by rw [e]; simp
        simpa [dip] using this
      refine ⟨_, rfl, ?_⟩
      rw [hq]
      simp [Problem.switchAt, dip_limit]

/-- The search for a switching point of the velocity limits of this path -/
example : ∃ r, dip.nextVelocity 1001 0 = some r ∧ dip.NextVelocity 0 r := by
  obtain ⟨h1, h2⟩ := Problem.C117_velocity (P := dip) 1001 0
  cases h : dip.nextVelocity 1001 0 with
  | none => exact absurd h (h1 (by norm_num) (by simp only [dip]; norm_num))
  | some r => exact ⟨r, rfl, h2 r h⟩

/-- Two joints that curve apart, four times as much after the start: the limit of the accelerations falls from 1 to
1/2 -/
noncomputable def cliff : Problem 1 where
  length := 2
  switching := [(1, true)]
  first := fun _ => ![1, 1]
  second := fun s => if s ≤ 0 then ![1, -1] else ![4, -4]
  maxVelocity := ![10, 10]
  maxAcceleration := ![1, 1]
  timeStep := 1 / 10 ^ 7
  largest := 100

theorem cliff_sound : cliff.Sound := by
  constructor <;> simp [cliff, Fin.forall_fin_two]

theorem cliff_limit (s : ℝ) : cliff.accelerationLimit s = if s ≤ 0 then ((1 : ℝ) : WithTop ℝ) else ((1 / 2 : ℝ) : WithTop ℝ) := by
  have hf : List.finRange 2 = [0, 1] := by decide
  unfold Problem.accelerationLimit accelerationMaxVelocity
  by_cases h : s ≤ 0
  · simp [cliff, h, hf, pairLimits]
    norm_num
  · simp [cliff, h, hf, pairLimits]
    norm_num
    rw [show (8 : ℝ) = 2 ^ 2 * 2 by norm_num, Real.sqrt_mul (by norm_num), Real.sqrt_sq (by norm_num)]
    field_simp

theorem cliff_velocity (s : ℝ) : cliff.velocityLimit s = 10 := by
  have hf : List.finRange 2 = [0, 1] := by decide
  unfold Problem.velocityLimit velocityMaxVelocity
  simp [cliff, hf]
  norm_num

/-- At the start, on the limit, the highest acceleration is 0 but the limit falls. -/
theorem cliff_trapped (after : ℝ) : cliff.Trapped (0, 1) after := by
  have hn : (0 : ℝ) < near := by unfold near; norm_num
  unfold Problem.Trapped
  rw [if_pos]
  · refine ⟨0, (((1 / 2 - 1) / (2 * near) : ℝ) : EReal), Or.inl ⟨1, rfl, Or.inl ⟨one_ne_zero, ?_⟩⟩,
      Or.inl ⟨1, 1 / 2, ?_, ?_, rfl⟩, ?_⟩
    · have hf : List.finRange 2 = [0, 1] := by decide
      have : cliff.acceleration 0 1 true = 0 := by
        unfold Problem.acceleration minMaxAcceleration
        simp [cliff, hf]
      simp [this]
    · rw [cliff_limit, if_pos (by simp only; linarith)]
    · rw [cliff_limit, if_neg (by simp only; linarith)]
    · have : (1 / 2 - 1) / (2 * near) < 0 := div_neg_of_neg_of_pos (by norm_num) (by linarith)
      exact_mod_cast this
  · rw [cliff_limit, cliff_velocity]
    split <;> (norm_cast <;> norm_num)

/-- One short step from the start gets above the limit, and the integration ends at the start. -/
theorem cliff_forward : cliff.forward 2 cliff.switching 1 (0, 1) [(0, 1)] = some (.ok (false, [(0, 1), (0, 1)])) := by
  obtain ⟨t, t0, t1, ht⟩ : ∃ t : ℝ, 0 < t ∧ t ≤ 1 / 10000000 ∧ cliff.timeStep = t :=
    ⟨_, by simp only [cliff]; norm_num, by simp only [cliff]; norm_num, rfl⟩
  have := Problem.forward_crosses (P := cliff) 1 cliff.switching 1 (0, 1) (0, 1) [] (1, true)
  simp only [later, ht, zero_add, mul_one] at this
  have p0 : 0 < t * ((1 + (1 + t)) / 2) := by positivity
  have p1 : t * ((1 + (1 + t)) / 2) ≤ 1 / 1000000 := by nlinarith
  generalize t * ((1 + (1 + t)) / 2) = p at this p0 p1
  rw [this rfl one_pos trivial (by linarith) (by simp only [cliff]; linarith) (by linarith)
    (by rw [cliff_velocity]; linarith)
    (by rw [cliff_limit, if_neg (not_le.2 p0)]; exact WithTop.coe_lt_coe.2 (by linarith))]
  rw [Problem.overshoot, if_neg (by rw [eps_near]; unfold near; simp only; linarith)]
  simp only [Option.bind_eq_bind, Option.bind_some]
  refine (Problem.decide_stop (P := cliff) cliff.switching (0, 1) (p, 1 + t) _ _ ?_).trans ?_
  · intro d hd
    simp only [cliff, List.head?_cons, Option.mem_some_iff] at hd
    subst hd
    simp only
    linarith
  · rw [if_neg (by simp [cliff]), if_pos (cliff_trapped _)]

/-- The hypotheses of `C117_stops` and `C117_crosses` are met. -/
example : ∃ after : ℝ × ℝ, cliff.Above after ∧ after.1 ≤ near := by
  obtain ⟨final, rest, after, e, h1, h2, h3, h4⟩ := Problem.C117_stops cliff_sound 2 1 (0, 1) [] _ zero_le_one cliff_forward
  simp only [List.cons.injEq] at e
  rw [← e.1] at h2
  exact ⟨after, h3, by simpa using h2⟩

/-- The hypotheses of `C117_discontinuity` are met: a step over 1/2 that is cut at 1/4. -/
example : straight.forward 2 [(1 / 4, true)] 1 (0, 0) [(0, 0)] =
    straight.forward 1 [(1 / 4, true)] 1 (1 / 4, 1 / 2) [(1 / 4, 1 / 2), (0, 0)] := by
  have := Problem.C117_discontinuity straight_sound 1 (1 / 4, true) [] 1 (0, 0) [(0, 0)] (1 / 2)
    (by norm_num) rfl (by simp [later, straight]; norm_num) (by simp [straight]; norm_num)
    (by simp [later, straight]; norm_num) (straight_feasible _ _ (by norm_num) (by norm_num)) (by simp [straight]; norm_num)
  rw [this, straight_max]

end Verif.Totg
