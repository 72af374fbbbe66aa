import Verif.Spec.BiRrt
import Verif.Lemmas.Rrt

namespace Verif.BiRrt
open Verif Verif.Rrt

variable {T : Type}

/-- the relation along the links, where `found` says whether there is a bridge -/
def Rel (env : Env T) (found : Prop) (u v : T) : Prop :=
  ∃ (k : Nat) (w target : T), PropagatedFrom (env.propagate k w target) w u v ∧
    (env.fromTree k = true → env.connected v target = true → found)

def BridgeOk (env : Env T) (start goal : Tree T) (b : Int × Int) : Prop :=
  ∃ (i j : Nat) (a c : State T), b = ((i : Int), (j : Int)) ∧ start[i]? = some a ∧ goal[j]? = some c ∧
    Joined env a.value c.value

theorem BridgeOk.lift {env : Env T} {s g s' g' : Tree T} {b : Int × Int} (h : BridgeOk env s g b)
    (hs : Extends s s') (hg : Extends g g') : BridgeOk env s' g' b := by
  obtain ⟨i, j, a, c, rfl, ha, hc, hj⟩ := h
  obtain ⟨a', ha', hav, -⟩ := hs i a ha
  obtain ⟨c', hc', hcv, -⟩ := hg j c hc
  exact ⟨i, j, a', c', rfl, ha', hc', by rw [hav, hcv]; exact hj⟩

/-- what holds of the planner's variables at any time -/
structure Inv (env : Env T) (start0 goal0 : Tree T) (s : Planner T) : Prop where
  wfS : WellFormed s.start
  wfG : WellFormed s.goal
  extS : Extends start0 s.start
  extG : Extends goal0 s.goal
  total : s.total = s.successful + s.failed
  linkS : LinkedBy (Rel env (s.bridges ≠ [])) start0.length s.start
  linkG : LinkedBy (Rel env (s.bridges ≠ [])) goal0.length s.goal
  bridges : ∀ b ∈ s.bridges, BridgeOk env s.start s.goal b
  pre : initialBridges env.connected start0 goal0 <+: s.bridges

/-- what holds between rounds -/
structure Between (start0 goal0 : Tree T) (s : Planner T) : Prop where
  length : start0.length + goal0.length + s.successful ≤ s.start.length + s.goal.length
  none : s.successful = 0 → s.start = start0 ∧ s.goal = goal0

theorem Inv.turn {env : Env T} {start0 goal0 : Tree T} {s : Planner T} (h : Inv env start0 goal0 s)
    (b : Bool) : Inv env start0 goal0 (s.turn b) := by
  unfold Planner.turn
  split
  · exact ⟨h.wfS, h.wfG, h.extS, h.extG, h.total, h.linkS, h.linkG, h.bridges, h.pre⟩
  · exact h

theorem Between.turn {start0 goal0 : Tree T} {s : Planner T} (h : Between start0 goal0 s)
    (b : Bool) : Between start0 goal0 (s.turn b) := by
  unfold Planner.turn
  split
  · exact ⟨h.length, h.none⟩
  · exact h

theorem turn_total (s : Planner T) (b : Bool) : (s.turn b).total = s.total := by
  unfold Planner.turn; split <;> rfl

theorem extends_ne_nil {a b : Tree T} (h : Extends a b) (hne : a ≠ []) : b ≠ [] := by
  rintro rfl
  cases a with
  | nil => exact hne rfl
  | cons x t =>
    obtain ⟨s', hs', -⟩ := h 0 x (by simp)
    simp at hs'

theorem targetState_ok (env : Env T) (k : Nat) (s : Planner T) (hne : s.target ≠ []) :
    ∃ target, targetState env k s = .ok target ∧
      (env.fromTree k = true → ∃ (q : Nat) (n : State T), targetIndex env k s = (q : Int) ∧
        s.target[q]? = some n ∧ n.value = target) := by
  unfold targetState targetIndex
  cases hf : env.fromTree k with
  | false => exact ⟨env.sample k, by simp, by simp⟩
  | true =>
    have hlt : env.pick k % s.target.length < s.target.length :=
      Nat.mod_lt _ (List.length_pos_iff.2 hne)
    have hg : s.target[env.pick k % s.target.length]? = some s.target[env.pick k % s.target.length] := by
      simp [hlt]
    refine ⟨s.target[env.pick k % s.target.length].value, ?_, ?_⟩
    · simp only [if_true]
      rw [stateAt_nat, hg]
    · intro _
      exact ⟨_, _, by simp, hg, rfl⟩

theorem reached_rel {env : Env T} {k : Nat} {n : State T} {target : T} {ps ps' : List (T × Int)}
    {base : Nat} {old : List (Int × Int)} {f : Int → Int × Int}
    (hps : env.propagate k n.value target = ps) (u v : T) (m : Nat) (hm : ps.take m = ps')
    (h : PropagatedFrom ps' n.value u v) :
    Rel env (old ++ (hitsOf (fun v => env.fromTree k && env.connected v target) base ps').map f ≠ []) u v := by
  refine ⟨k, n.value, target, by rw [hps]; subst hm; exact h.take, ?_⟩
  intro h1 h2
  obtain ⟨j, rel, hj, -⟩ := h
  have := ((hitsOf_spec (fun v => env.fromTree k && env.connected v target) base ps').2
    ((base + j : Nat) : Int)).2 ⟨j, v, rel, rfl, hj, by simp [h1, h2]⟩
  intro hnil
  rw [List.append_eq_nil_iff, List.map_eq_nil_iff] at hnil
  rw [hnil.2] at this
  simp at this

theorem Inv.grow {env : Env T} {start0 goal0 : Tree T} {s : Planner T} (inv : Inv env start0 goal0 s)
    {k : Nat} {target : T} {nn : Nat} {n : State T} {ps : List (T × Int)} {tree' : Tree T}
    (hidx : env.fromTree k = true → ∃ (q : Nat) (n : State T), targetIndex env k s = (q : Int) ∧
        s.target[q]? = some n ∧ n.value = target)
    (hn : s.active[nn]? = some n) (hps : env.propagate k n.value target = ps)
    (hg : Grown s.active nn (ps.take (attachLen 0 ps)) tree') (hwf : WellFormed tree') :
    Inv env start0 goal0 (s.grown (targetIndex env k s) tree'
      (hitsOf (fun v => env.fromTree k && env.connected v target) s.active.length
        (ps.take (attachLen 0 ps)))) := by
  have hmono : ∀ (l : List (Int × Int)) (u v : T), Rel env (s.bridges ≠ []) u v →
      Rel env (s.bridges ++ l ≠ []) u v := by
    rintro l u v ⟨k, w, t, h1, h2⟩
    exact ⟨k, w, t, h1, fun a b => by have := h2 a b; simp [this]⟩
  -- what a hit means
  have hhit : ∀ h ∈ hitsOf (fun v => env.fromTree k && env.connected v target) s.active.length
      (ps.take (attachLen 0 ps)), ∃ (i q : Nat) (x y : State T), h = (i : Int) ∧
        targetIndex env k s = (q : Int) ∧ tree'[i]? = some x ∧ s.target[q]? = some y ∧
        env.connected x.value y.value = true := by
    intro h hh
    obtain ⟨j, v, rel, rfl, hj, hv⟩ := ((hitsOf_spec _ _ _).2 h).1 hh
    simp at hv
    obtain ⟨q, y, hq, hy, hyv⟩ := hidx hv.1
    obtain ⟨x, hx, hxv, -⟩ := hg.added j v rel hj
    exact ⟨_, q, x, y, rfl, hq, hx, hy, by rw [hxv, hyv]; exact hv.2⟩
  have htot := inv.total
  cases hsa : s.startActive with
  | true =>
    have ha : s.active = s.start := by simp [Planner.active, hsa]
    have ht : s.target = s.goal := by simp [Planner.target, hsa]
    rw [ha] at hn hg hhit ⊢
    rw [ht] at hhit
    unfold Planner.grown
    simp only [hsa, if_true]
    refine ⟨hwf, inv.wfG, inv.extS.trans hg.kept, inv.extG, by simp; omega, ?_, ?_, ?_, ?_⟩
    · refine LinkedBy.grow (inv.linkS.mono (hmono _)) hn hg ?_
      intro u v h
      exact reached_rel hps u v _ rfl h
    · exact inv.linkG.mono (hmono _)
    · intro b hb
      rw [List.mem_append] at hb
      rcases hb with hb | hb
      · exact (inv.bridges b hb).lift hg.kept (Extends.refl _)
      · rw [List.mem_map] at hb
        obtain ⟨h, hh, rfl⟩ := hb
        obtain ⟨i, q, x, y, rfl, hq, hx, hy, hc⟩ := hhit h hh
        exact ⟨i, q, x, y, by simp [bridge, hq], hx, hy, Or.inl hc⟩
    · exact inv.pre.trans (List.prefix_append _ _)
  | false =>
    have ha : s.active = s.goal := by simp [Planner.active, hsa]
    have ht : s.target = s.start := by simp [Planner.target, hsa]
    rw [ha] at hn hg hhit ⊢
    rw [ht] at hhit
    unfold Planner.grown
    simp only [hsa, Bool.false_eq_true, if_false]
    refine ⟨inv.wfS, hwf, inv.extS, inv.extG.trans hg.kept, by simp; omega, ?_, ?_, ?_, ?_⟩
    · exact inv.linkS.mono (hmono _)
    · refine LinkedBy.grow (inv.linkG.mono (hmono _)) hn hg ?_
      intro u v h
      exact reached_rel hps u v _ rfl h
    · intro b hb
      rw [List.mem_append] at hb
      rcases hb with hb | hb
      · exact (inv.bridges b hb).lift (Extends.refl _) hg.kept
      · rw [List.mem_map] at hb
        obtain ⟨h, hh, rfl⟩ := hb
        obtain ⟨i, q, x, y, rfl, hq, hx, hy, hc⟩ := hhit h hh
        exact ⟨q, i, y, x, by simp [bridge, hq], hy, hx, Or.inr hc⟩
    · exact inv.pre.trans (List.prefix_append _ _)

/-- why the loop ended -/
def Ended (env : Env T) (single : Bool) (o : Out Unit) (s : Planner T) : Prop :=
  (o = .ok () ∧ ((single = true ∧ s.bridges ≠ []) ∨ env.terminate s.total = true ∨
      ∃ (tree : Tree T) (t : T), (tree = s.start ∨ tree = s.goal) ∧ env.nearest s.total tree t < 0)) ∨
  (o = .throws .outOfRange ∧
    ∃ (k : Nat) (tree : Tree T) (t : T), tree ≠ [] ∧ (tree.length : Int) ≤ env.nearest k tree t) ∨
  (o = .throws .invalidArgument ∧ ∃ (k : Nat) (w t : T), ¬ Attachable (env.propagate k w t))

theorem active_cases (s : Planner T) : s.active = s.start ∨ s.active = s.goal := by
  unfold Planner.active; split <;> simp

theorem planLoop_spec (env : Env T) (single : Bool) (start0 goal0 : Tree T) (hs0 : start0 ≠ [])
    (hg0 : goal0 ≠ []) :
    ∀ (fuel : Nat) (s : Planner T), Inv env start0 goal0 s → Between start0 goal0 s →
      ∀ o s', planLoop env single fuel s.total s = some (o, s') →
        Inv env start0 goal0 s' ∧ Ended env single o s' ∧
          (o = .ok () → Between start0 goal0 s' ∧ s.total ≤ s'.total ∧
            ∀ k, s.total ≤ k → k < s'.total → env.terminate k = false)
  | 0, s, _, _, o, s', h => by simp [planLoop] at h
  | fuel + 1, s, inv, btw, o, s', h => by
    have hsne := extends_ne_nil inv.extS hs0
    have hgne := extends_ne_nil inv.extG hg0
    have htne : s.target ≠ [] := by unfold Planner.target; split <;> assumption
    have hane : s.active ≠ [] := by unfold Planner.active; split <;> assumption
    unfold planLoop at h
    split at h
    · next hc =>
      simp at h; obtain ⟨rfl, rfl⟩ := h
      refine ⟨inv, Or.inl ⟨rfl, ?_⟩, fun _ => ⟨btw, Nat.le_refl _, by intro k h1 h2; omega⟩⟩
      simp at hc
      rcases hc with ⟨h1, h2⟩ | h1
      · exact Or.inl ⟨h1, h2⟩
      · exact Or.inr (Or.inl h1)
    next hc =>
    have hterm : env.terminate s.total = false := by
      simp at hc; exact hc.2
    obtain ⟨target, htgt, hidx⟩ := targetState_ok env s.total s htne
    rw [htgt] at h
    simp only at h
    split at h
    · next hn =>
      simp at h; obtain ⟨rfl, rfl⟩ := h
      exact ⟨inv, Or.inl ⟨rfl, Or.inr (Or.inr ⟨_, _, active_cases s, hn⟩)⟩,
        fun _ => ⟨btw, Nat.le_refl _, by intro k h1 h2; omega⟩⟩
    next hn =>
    split at h
    · next hat =>
      simp at h; obtain ⟨rfl, rfl⟩ := h
      refine ⟨inv, Or.inr (Or.inl ⟨rfl, s.total, s.active, target, hane, ?_⟩), by simp⟩
      obtain ⟨q, hq⟩ : ∃ q : Nat, env.nearest s.total s.active target = (q : Int) :=
        ⟨(env.nearest s.total s.active target).toNat, by omega⟩
      rw [hq, stateAt_nat] at hat
      rw [hq]
      have := List.getElem?_eq_none_iff.1 hat
      omega
    next n hat =>
    obtain ⟨nn, hnn, hn'⟩ := stateAt_some hat
    have hlt := getElem?_lt hn'
    have hwfa : WellFormed s.active := by
      rcases active_cases s with h | h <;> rw [h]
      · exact inv.wfS
      · exact inv.wfG
    have glue : ∀ s1 : Planner T, s1.total = s.total + 1 → Inv env start0 goal0 s1 →
        Between start0 goal0 s1 → planLoop env single fuel (s.total + 1) (s1.turn (env.switch s.total)) = some (o, s') →
        Inv env start0 goal0 s' ∧ Ended env single o s' ∧
          (o = .ok () → Between start0 goal0 s' ∧ s.total ≤ s'.total ∧
            ∀ k, s.total ≤ k → k < s'.total → env.terminate k = false) := by
      intro s1 ht hi hb hrun
      have htt : (s1.turn (env.switch s.total)).total = s.total + 1 := by rw [turn_total, ht]
      rw [← htt] at hrun
      obtain ⟨r1, r2, r3⟩ := planLoop_spec env single start0 goal0 hs0 hg0 fuel _ (hi.turn _)
        (hb.turn _) o s' hrun
      refine ⟨r1, r2, fun ho => ?_⟩
      obtain ⟨b, l, t⟩ := r3 ho
      rw [htt] at l t
      refine ⟨b, by omega, ?_⟩
      intro k h1 h2
      rcases Nat.eq_or_lt_of_le h1 with rfl | h1
      · exact hterm
      · exact t k h1 h2
    split at h
    · next hp =>
      exact glue { s with total := s.total + 1, failed := s.failed + 1 } rfl ⟨inv.wfS, inv.wfG, inv.extS, inv.extG, by have := inv.total; simp; omega,
        inv.linkS, inv.linkG, inv.bridges, inv.pre⟩ ⟨btw.length, btw.none⟩ h
    · next p ps hp =>
      obtain ⟨tree', hrun, hg, hwf⟩ := growLoop_start
        (fun v => env.fromTree s.total && env.connected v target) s.active nn hlt (p :: ps) [] hwfa
      have inv' := inv.grow hidx hn' hp hg hwf
      rw [hnn, hrun] at h
      by_cases ha : attachLen 0 (p :: ps) = (p :: ps).length
      · rw [if_pos ha] at h
        simp only [List.nil_append] at h
        have hgl := hg.length
        rw [ha] at hgl
        simp at hgl
        refine glue _ rfl inv' ⟨?_, by simp [Planner.grown]⟩ h
        have hbl := btw.length
        unfold Planner.grown Planner.active at *
        cases hsa : s.startActive
        · simp only [hsa, Bool.false_eq_true, if_false] at hgl ⊢; omega
        · simp only [hsa, if_true] at hgl ⊢; omega
      · rw [if_neg ha] at h
        simp only [List.nil_append, Option.some.injEq, Prod.mk.injEq] at h
        obtain ⟨rfl, rfl⟩ := h
        refine ⟨inv', Or.inr (Or.inr ⟨rfl, s.total, n.value, target, ?_⟩), by simp⟩
        rw [hp, ← attachable_iff]; exact ha

theorem mem_initialBridges (connected : T → T → Bool) (start goal : Tree T) (b : Int × Int) :
    b ∈ initialBridges connected start goal ↔
      ∃ (i j : Nat) (a c : State T), b = ((i : Int), (j : Int)) ∧ start[i]? = some a ∧ goal[j]? = some c ∧
        connected a.value c.value = true := by
  unfold initialBridges
  simp only [List.mem_flatMap, List.mem_range, List.mem_filterMap]
  constructor
  · rintro ⟨i, hi, j, hj, h⟩
    have h1 : start[i]? = some start[i] := by simp
    have h2 : goal[j]? = some goal[j] := by simp
    rw [h1, h2] at h
    simp only at h
    split at h
    · next hc => simp at h; exact ⟨i, j, _, _, h.symm, h1, h2, hc⟩
    · simp at h
  · rintro ⟨i, j, a, c, rfl, ha, hc, h⟩
    refine ⟨i, getElem?_lt ha, j, getElem?_lt hc, ?_⟩
    rw [ha, hc]
    simp [h]

theorem inv_start (env : Env T) {start goal : Tree T} (wfs : WellFormed start) (wfg : WellFormed goal) :
    Inv env start goal ⟨start, goal, initialBridges env.connected start goal, true, 0, 0, 0, 0⟩ := by
  refine ⟨wfs, wfg, Extends.refl _, Extends.refl _, rfl, ?_, ?_, ?_, List.prefix_refl _⟩
  · intro i s hi hs
    have : i < start.length := getElem?_lt hs
    omega
  · intro i s hi hs
    have : i < goal.length := getElem?_lt hs
    omega
  · intro b hb
    obtain ⟨i, j, a, c, rfl, ha, hc, h⟩ := (mem_initialBridges _ _ _ _).1 hb
    exact ⟨i, j, a, c, rfl, ha, hc, Or.inl h⟩

theorem extractPaths_wf {start goal : Tree T} (wfs : WellFormed start) (wfg : WellFormed goal)
    (fuel : Nat) (hf : start.length + goal.length ≤ fuel) : ∀ bridges : List (Int × Int),
    (∀ b ∈ bridges, ∃ i j : Nat, b = ((i : Int), (j : Int)) ∧ i < start.length ∧ j < goal.length) →
    ∃ paths, extractPaths fuel start goal bridges = some (.ok paths) ∧ paths.length = bridges.length ∧
      ∀ (n i j : Nat) (p : List T), bridges[n]? = some ((i : Int), (j : Int)) → paths[n]? = some p →
        ∃ sp gp, p = sp ++ gp.reverse ∧ PathTo start i sp ∧ PathTo goal j gp
  | [], _ => ⟨[], rfl, rfl, by simp⟩
  | b :: bs, h => by
    obtain ⟨i, j, rfl, hi, hj⟩ := h b (by simp)
    obtain ⟨sp, hsp, hs⟩ := extractSolutionPath_wf wfs.parent i hi
    obtain ⟨gp, hgp, hg⟩ := extractSolutionPath_wf wfg.parent j hj
    obtain ⟨paths, h1, h2, h3⟩ := extractPaths_wf wfs wfg fuel hf bs (fun b hb => h b (by simp [hb]))
    refine ⟨(sp ++ gp.reverse) :: paths, ?_, by simp [h2], ?_⟩
    · unfold extractPaths
      simp only [hs fuel (by omega), hg fuel (by omega), h1]
    · intro n i' j' p hn hp
      cases n with
      | zero =>
        simp at hn hp
        have hii : i' = i := by omega
        have hjj : j' = j := by omega
        subst hii; subst hjj
        exact ⟨sp, gp, hp.symm, hsp, hgp⟩
      | succ n => exact h3 n i' j' p (by simpa using hn) (by simpa using hp)

theorem finish_spec {env : Env T} {start0 goal0 : Tree T} {s : Planner T} (inv : Inv env start0 goal0 s) :
    ∃ paths, finish s = some (.ok ⟨paths, s.total, s.successful, s.failed, s.swaps,
        s.start.length + s.goal.length, paths.length⟩) ∧
      paths.length = s.bridges.length ∧
      ∀ (n i j : Nat) (p : List T), s.bridges[n]? = some ((i : Int), (j : Int)) → paths[n]? = some p →
        ∃ sp gp, p = sp ++ gp.reverse ∧ PathTo s.start i sp ∧ PathTo s.goal j gp := by
  obtain ⟨paths, h1, h2, h3⟩ := extractPaths_wf inv.wfS inv.wfG (s.start.length + s.goal.length + 1)
    (by omega) s.bridges (by
      intro b hb
      obtain ⟨i, j, a, c, rfl, ha, hc, -⟩ := inv.bridges b hb
      exact ⟨i, j, rfl, getElem?_lt ha, getElem?_lt hc⟩)
  refine ⟨paths, ?_, h2, h3⟩
  unfold finish
  rw [wf_linkage inv.wfS, wf_linkage inv.wfG, h1]
  simp

/-- everything about one run on well-formed trees -/
theorem planMultiPath_spec (env : Env T) (single : Bool) (fuel : Nat) (start goal : Tree T)
    (wfs : WellFormed start) (wfg : WellFormed goal) (hs0 : start ≠ []) (hg0 : goal ≠ [])
    (o : Out (Result T)) (start' goal' : Tree T)
    (h : planMultiPath env single fuel start goal = some (o, start', goal')) :
    ∃ s : Planner T, s.start = start' ∧ s.goal = goal' ∧ Inv env start goal s ∧
      ((∃ paths, o = .ok ⟨paths, s.total, s.successful, s.failed, s.swaps,
            s.start.length + s.goal.length, paths.length⟩ ∧
          Ended env single (.ok ()) s ∧ Between start goal s ∧ (∀ k, k < s.total → env.terminate k = false) ∧
          paths.length = s.bridges.length ∧
          ∀ (n i j : Nat) (p : List T), s.bridges[n]? = some ((i : Int), (j : Int)) → paths[n]? = some p →
            ∃ sp gp, p = sp ++ gp.reverse ∧ PathTo s.start i sp ∧ PathTo s.goal j gp) ∨
        (∃ e, o = .throws e ∧ Ended env single (.throws e) s)) := by
  unfold planMultiPath at h
  rw [wf_linkage wfs, wf_linkage wfg] at h
  have h1 : start.isEmpty = false := by simpa using hs0
  have h2 : goal.isEmpty = false := by simpa using hg0
  simp only [h1, h2, Bool.false_eq_true, if_false, Bool.true_eq_false] at h
  have spec := planLoop_spec env single start goal hs0 hg0 fuel _ (inv_start env wfs wfg)
    ⟨Nat.le_refl _, fun _ => ⟨rfl, rfl⟩⟩
  split at h
  · simp at h
  · next s hs =>
    obtain ⟨inv, hend, hok⟩ := spec _ _ hs
    obtain ⟨paths, h1, h2, h3⟩ := finish_spec inv
    rw [h1] at h
    simp at h
    obtain ⟨rfl, rfl, rfl⟩ := h
    obtain ⟨hb, -, ht⟩ := hok rfl
    exact ⟨s, rfl, rfl, inv, Or.inl ⟨paths, rfl, hend, hb, fun k hk => ht k (Nat.zero_le _) hk, h2, h3⟩⟩
  · next e s hs =>
    obtain ⟨inv, hend, -⟩ := spec _ _ hs
    simp at h
    obtain ⟨rfl, rfl, rfl⟩ := h
    exact ⟨s, rfl, rfl, inv, Or.inr ⟨e, rfl, hend⟩⟩
  · next s hs =>
    obtain ⟨inv, hend, -⟩ := spec _ _ hs
    simp [Ended] at hend
  · next s hs =>
    obtain ⟨inv, hend, -⟩ := spec _ _ hs
    simp [Ended] at hend

theorem rooted {env : Env T} {start0 : T} {tree : Tree T} {P : Prop}
    (ext : Extends [State.root start0] tree)
    (link : LinkedBy (Rel env P) [State.root start0].length tree) : RootedAt start0 tree := by
  intro i t ht
  rcases Nat.eq_zero_or_pos i with rfl | hi
  · obtain ⟨t', ht', hv, hp⟩ := ext 0 (State.root start0) (by simp)
    rw [ht] at ht'; simp at ht'; subst ht'
    exact ⟨⟨fun _ => rfl, fun _ => by rw [hp]; rfl⟩, fun _ => by rw [hv]; rfl⟩
  · obtain ⟨q, u, hq, -, -⟩ := link i t (by simp; omega) ht
    refine ⟨⟨fun h => ?_, fun h => by omega⟩, fun h => by omega⟩
    rw [hq] at h; omega

theorem made_links {env : Env T} {start0 : T} {tree : Tree T} {P : Prop}
    (ext : Extends [State.root start0] tree)
    (link : LinkedBy (Rel env P) [State.root start0].length tree)
    (i q : Nat) (a b : State T) (ha : tree[i]? = some a) (hb : tree[q]? = some b)
    (hq : a.parent = (q : Int)) : Made env b.value a.value := by
  have hi : 0 < i := by
    rcases Nat.eq_zero_or_pos i with rfl | hi
    · have := ((rooted ext link) 0 a ha).1.2 rfl
      rw [hq] at this; omega
    · exact hi
  obtain ⟨q', u, hq', hu, k, w, t, hm, -⟩ := link i a (by simp; omega) ha
  have : q' = q := by rw [hq] at hq'; omega
  subst this
  rw [hb] at hu; simp at hu; subst hu; exact ⟨k, w, t, hm⟩

end Verif.BiRrt
