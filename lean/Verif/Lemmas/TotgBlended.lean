import Verif.Lemmas.TotgChain

/-! # The segments between waypoints -/
namespace Verif.Totg
open Verif Matrix
open Verif.Projection (normalized length distance length_eq distance_eq norm_sq normalized_of_ne
  normalized_dot_self dot_self_pos)

variable {n : Nat}

/-- what the segments from a start on the first edge satisfy -/
structure Blended (dev ε : ℝ) (start dir final : Fin n → ℝ) (whole visited : List (Fin n → ℝ)) (exact : Prop)
    (l : List (Segment n)) : Prop where
  nonneg : ∀ g ∈ l, 0 ≤ g.length
  last : ∃ h : l ≠ [], 0 < (l.getLast h).length ∧ (l.getLast h).config (l.getLast h).length = final
  regular : ∀ g ∈ live l, Regular g
  chain : (live l).IsChain (Joins ε)
  head : ∃ g rest, live l = g :: rest ∧ distance start (g.config 0) ≤ ε ∧ g.tangent 0 = dir ∧
    (exact → g.config 0 = start)
  near : ∀ g ∈ live l, ∀ s, 0 ≤ s → s ≤ g.length → ∃ x, OnPolyline whole x ∧ distance (g.config s) x ≤ dev
  visits : ∀ x ∈ visited, ∃ g ∈ live l, ∃ s, 0 ≤ s ∧ s < g.length ∧ distance (g.config s) x ≤ dev

theorem half_way {a b : Fin n → ℝ} (h : 0 < distance a b) :
    (1 / 2 : ℝ) • (a + b) = a + (distance a b / 2) • direction a b := by
  rw [div_eq_inv_mul (distance a b), ← smul_smul, walk h]
  funext i; simp only [Pi.add_apply, Pi.sub_apply, Pi.smul_apply, smul_eq_mul]; ring

theorem midpoint_left {a b : Fin n → ℝ} (h : 0 < distance a b) :
    distance ((1 / 2 : ℝ) • (a + b)) b = distance a b / 2 ∧ direction ((1 / 2 : ℝ) • (a + b)) b = direction a b := by
  have hv := direction_dot h
  have e1 := half_way h
  have e2 : b = a + distance a b • direction a b := by rw [walk h, add_sub_cancel]
  have hb : ∀ P : (Fin n → ℝ) → (Fin n → ℝ) → Prop,
      P (a + (distance a b / 2) • direction a b) (a + distance a b • direction a b) →
      P ((1 / 2 : ℝ) • (a + b)) b := by
    intro P hP
    rw [e1]
    rwa [← e2] at hP
  constructor
  · refine hb (fun p q => distance p q = distance a b / 2) ?_
    rw [distance_along hv, abs_of_pos] <;> linarith
  · refine hb (fun p q => direction p q = direction a b) ?_
    exact direction_along hv _ (by linarith)

theorem midpoint_right {a b : Fin n → ℝ} (h : 0 < distance a b) :
    distance a ((1 / 2 : ℝ) • (a + b)) = distance a b / 2 ∧ direction a ((1 / 2 : ℝ) • (a + b)) = direction a b := by
  have hv := direction_dot h
  have e1 := half_way h
  have e0 : a = a + (0 : ℝ) • direction a b := by rw [zero_smul, add_zero]
  rw [e1]
  constructor
  · have := distance_along hv a 0 (distance a b / 2)
    rw [← e0] at this
    rw [this, abs_of_pos] <;> linarith
  · have := direction_along hv a (s := 0) (t := distance a b / 2) (by linarith)
    rwa [← e0] at this

/-- a point of the edge is on the polyline -/
theorem on_edge {a b : Fin n → ℝ} {whole : List (Fin n → ℝ)} (hw : [a, b] <:+: whole) (h : 0 < distance a b)
    {t : ℝ} (t0 : 0 ≤ t) (t1 : t ≤ distance a b) : OnPolyline whole (a + t • direction a b) := by
  refine ⟨a, b, hw, t / distance a b, div_nonneg t0 h.le, (div_le_one h).2 t1, ?_⟩
  rw [← walk h, smul_smul, div_mul_cancel₀ _ h.ne']

theorem segments_blended (dev : ℝ) (hdev : 0 < dev) (whole : List (Fin n → ℝ)) (hnr : NoReversal whole)
    (hap : Apart (2 / 10 ^ 6) whole) (c1 c2 : Fin n → ℝ) (rest : List (Fin n → ℝ))
    (hwhole : c1 :: c2 :: rest <:+: whole) (t : ℝ) (t0 : 0 ≤ t) (t1 : t ≤ distance c1 c2 / 2) :
    Blended dev (1 / 10 ^ 6) (c1 + t • direction c1 c2) (direction c1 c2) ((c2 :: rest).getLast (List.cons_ne_nil _ _))
      whole ((c2 :: rest).dropLast) (t = 0)
      (segmentsFrom dev (c1 + t • direction c1 c2) (c1 :: c2 :: rest)) := by
  have small : (0 : ℝ) ≤ 1 / 10 ^ 6 := by norm_num
  induction rest generalizing c1 c2 t with
  | nil =>
    have hD : 2 / 10 ^ 6 < distance c1 c2 := hap c1 c2 hwhole
    have hD0 : 0 < distance c1 c2 := lt_of_le_of_lt (by norm_num) hD
    have hv := direction_dot hD0
    have e2 : c1 + distance c1 c2 • direction c1 c2 = c2 := by rw [walk hD0, add_sub_cancel]
    set start := c1 + t • direction c1 c2 with hstart
    have hlen : distance start c2 = distance c1 c2 - t := by
      conv_lhs => rw [← e2]
      rw [hstart, distance_along hv, abs_of_pos]; linarith
    have hdir : direction start c2 = direction c1 c2 := by
      have := direction_along hv c1 (s := t) (t := distance c1 c2) (by linarith)
      rwa [e2] at this
    have hpos : 0 < distance start c2 := by rw [hlen]; linarith
    obtain ⟨hl, hc, h0, h1, -, -, ht, -⟩ := C107_line start c2 hpos
    have hs : segmentsFrom dev start [c1, c2] = [Segment.line start c2] := rfl
    have hlp : 0 < (Segment.line start c2).length := by rw [hl]; exact hpos
    have hlive : live [Segment.line start c2] = [Segment.line start c2] := live_cons_pos hlp []
    rw [hs]
    refine ⟨?_, ⟨List.cons_ne_nil _ _, hlp, h1⟩, ?_, ?_, ?_, ?_, ?_⟩
    · intro g hg; rw [List.mem_singleton] at hg; subst hg; exact hlp.le
    · intro g hg; rw [hlive, List.mem_singleton] at hg; subst hg; exact regular_line hpos
    · rw [hlive]; exact List.isChain_singleton _
    · refine ⟨_, _, hlive, ?_, ?_, fun _ => h0⟩
      · rw [h0, distance_self]; exact small
      · rw [ht, hdir]
    · intro g hg s s0 s1
      rw [hlive, List.mem_singleton] at hg; subst hg
      refine ⟨_, on_edge hwhole hD0 (t := t + s) (by linarith) (by rw [hl, hlen] at s1; linarith), ?_⟩
      rw [hc s s0 s1, hdir, hstart, add_smul, ← add_assoc, distance_self]
      exact hdev.le
    · intro x hx; simp at hx
  | cons c3 rest ih =>
    have hw12 : [c1, c2] <:+: whole := List.IsInfix.trans ⟨[], c3 :: rest, rfl⟩ hwhole
    have hw23 : c2 :: c3 :: rest <:+: whole := List.IsInfix.trans ⟨[c1], [], by simp⟩ hwhole
    have hw23' : [c2, c3] <:+: whole := List.IsInfix.trans ⟨[], rest, rfl⟩ hw23
    have hw123 : [c1, c2, c3] <:+: whole := List.IsInfix.trans ⟨[], rest, rfl⟩ hwhole
    have hD : 2 / 10 ^ 6 < distance c1 c2 := hap c1 c2 hw12
    have hE : 2 / 10 ^ 6 < distance c2 c3 := hap c2 c3 hw23'
    have two : (2 : ℝ) / 10 ^ 6 = 2 * (1 / 10 ^ 6) := by ring
    have hD0 : 0 < distance c1 c2 := lt_of_le_of_lt (by norm_num) hD
    have hE0 : 0 < distance c2 c3 := lt_of_le_of_lt (by norm_num) hE
    have hv := direction_dot hD0
    have hw := direction_dot hE0
    have e2 : c1 + distance c1 c2 • direction c1 c2 = c2 := by rw [walk hD0, add_sub_cancel]
    obtain ⟨m1, m2⟩ := midpoint_left hD0
    obtain ⟨m3, m4⟩ := midpoint_right hE0
    set start := c1 + t • direction c1 c2 with hstart
    set a := blend ((1 / 2 : ℝ) • (c1 + c2)) c2 ((1 / 2 : ℝ) • (c2 + c3)) dev with ha
    set line := (if Projection.norm (a.config 0 - start) > 1 / 10 ^ 6 then [Segment.line start (a.config 0)] else [])
      with hline
    set tl := segmentsFrom dev (a.config a.length) (c2 :: c3 :: rest) with htl
    have hs : segmentsFrom dev start (c1 :: c2 :: c3 :: rest) = line ++ a :: tl := by
      rw [segmentsFrom, if_pos hdev]
    have lastEq : (c2 :: c3 :: rest).getLast (List.cons_ne_nil _ _) =
        (c3 :: rest).getLast (List.cons_ne_nil _ _) := List.getLast_cons (List.cons_ne_nil _ _)
    have dropEq : (c2 :: c3 :: rest).dropLast = c2 :: (c3 :: rest).dropLast := rfl
    rw [hs, lastEq, dropEq]
    by_cases hpar : distance (direction c1 c2) (direction c2 c3) < 1 / 10 ^ 6
    · -- the two edges are nearly parallel: no blend
      have hne1 : c2 ≠ (1 / 2 : ℝ) • (c1 + c2) := by
        intro h; rw [← h, distance_self] at m1; linarith
      have hne2 : (1 / 2 : ℝ) • (c2 + c3) ≠ c2 := by
        intro h; rw [h, distance_self] at m3; linarith
      obtain ⟨al, ac⟩ := C107_no_blend ((1 / 2 : ℝ) • (c1 + c2)) c2 ((1 / 2 : ℝ) • (c2 + c3)) dev
        (Or.inr (Or.inr ⟨hne1, hne2, by rw [m2, m4]; exact hpar⟩))
      rw [← ha] at al ac
      have hd : distance start c2 = distance c1 c2 - t := by
        conv_lhs => rw [← e2]
        rw [hstart, distance_along hv, abs_of_pos]; linarith
      have hpos : 0 < distance start c2 := by rw [hd]; linarith
      have hl : line = [Segment.line start c2] := by
        rw [hline, ac, ← distance_eq', if_pos]; rw [hd]; linarith
      have hdir : direction start c2 = direction c1 c2 := by
        have := direction_along hv c1 (s := t) (t := distance c1 c2) (by linarith)
        rwa [e2] at this
      obtain ⟨ll, lc, l0, l1, -, -, lt, -⟩ := C107_line start c2 hpos
      have hlp : 0 < (Segment.line start c2).length := by rw [ll]; exact hpos
      have IH := ih c2 c3 hw23 0 le_rfl (by linarith)
      rw [zero_smul, add_zero, show segmentsFrom dev c2 (c2 :: c3 :: rest) = tl by rw [htl, ac]] at IH
      have hlive : live (line ++ a :: tl) = Segment.line start c2 :: live tl := by
        rw [hl, List.singleton_append, live_cons_pos hlp, live_cons_zero al]
      obtain ⟨hnil, lpos, lcfg⟩ := IH.last
      obtain ⟨g, gr, ge, -, gt, gx⟩ := IH.head
      have gx := gx rfl
      have glast : ∀ h, (line ++ a :: tl).getLast h = tl.getLast hnil := by
        intro h
        rw [List.getLast_append_of_ne_nil _ (List.cons_ne_nil _ _), List.getLast_cons hnil]
      refine ⟨?_, ⟨by simp, ?_, ?_⟩, ?_, ?_, ?_, ?_, ?_⟩
      · intro k hk
        rw [hl, List.singleton_append] at hk
        rcases List.mem_cons.1 hk with rfl | hk
        · exact hlp.le
        · rcases List.mem_cons.1 hk with rfl | hk
          · exact al.ge
          · exact IH.nonneg k hk
      · rw [glast]; exact lpos
      · rw [glast]; exact lcfg
      · intro k hk
        rw [hlive] at hk
        rcases List.mem_cons.1 hk with rfl | hk
        · exact regular_line hpos
        · exact IH.regular k hk
      · rw [hlive, ge, List.isChain_cons_cons, ← ge]
        refine ⟨⟨?_, ?_⟩, IH.chain⟩
        · rw [l1, gx, distance_self]; exact small
        · rw [lt, gt, hdir]; exact hpar.le
      · refine ⟨_, _, hlive, ?_, ?_, fun _ => l0⟩
        · rw [l0, distance_self]; exact small
        · rw [lt, hdir]
      · intro k hk s s0 s1
        rw [hlive] at hk
        rcases List.mem_cons.1 hk with rfl | hk
        · refine ⟨_, on_edge hw12 hD0 (t := t + s) (by linarith) (by rw [ll, hd] at s1; linarith), ?_⟩
          rw [lc s s0 s1, hdir, hstart, add_smul, ← add_assoc, distance_self]
          exact hdev.le
        · exact IH.near k hk s s0 s1
      · intro x hx
        rw [hlive]
        rcases List.mem_cons.1 hx with rfl | hx
        · refine ⟨g, by rw [ge]; simp, 0, le_rfl, (IH.regular g (by rw [ge]; simp)).pos, ?_⟩
          rw [gx, distance_self]; exact hdev.le
        · obtain ⟨k, hk, s, hs⟩ := IH.visits x hx
          exact ⟨k, List.mem_cons_of_mem _ hk, s, hs⟩
    · -- a blend
      obtain ⟨al, ad, d, d0, d1, d2, ac0, ac1, at0, at1, amid, -, anear⟩ :=
        C107_blend ((1 / 2 : ℝ) • (c1 + c2)) c2 ((1 / 2 : ℝ) • (c2 + c3)) dev hdev
        (by rw [m1]; linarith) (by rw [m3]; linarith) (by rw [m2, m4]; exact not_lt.1 hpar)
        (by rw [m2, m4]; exact hnr c1 c2 c3 hw123)
      rw [← ha] at al ad ac0 ac1 at0 at1 amid anear
      rw [m1] at d1
      rw [m3] at d2
      rw [m2] at ac0 at0 anear
      rw [m4] at ac1 at1 anear
      have IH := ih c2 c3 hw23 d d0.le d2
      rw [← ac1] at IH
      have areg := regular_of_deriv al ad
      obtain ⟨hnil, lpos, lcfg⟩ := IH.last
      obtain ⟨g, gr, ge, gs, gt, -⟩ := IH.head
      have back : ∀ x : ℝ, c2 - x • direction c1 c2 = c1 + (distance c1 c2 - x) • direction c1 c2 := by
        intro x
        have : c2 = c1 + distance c1 c2 • direction c1 c2 := e2.symm
        rw [sub_smul, ← add_sub_assoc, ← this]
      have aon : ∀ s, 0 ≤ s → s ≤ a.length → ∃ x, OnPolyline whole x ∧ distance (a.config s) x ≤ dev := by
        intro s s0 s1
        obtain ⟨q, q0, q1, hq⟩ := anear s s0 s1
        rcases hq with hq | hq
        · exact ⟨_, by rw [back]; exact on_edge hw12 hD0 (by linarith) (by linarith), hq⟩
        · exact ⟨_, on_edge hw23' hE0 q0 (by linarith), hq⟩
      have hd : distance start (a.config 0) = distance c1 c2 - d - t := by
        rw [ac0, back, hstart, distance_along hv, abs_of_nonneg]; linarith
      have glast : ∀ h, (line ++ a :: tl).getLast h = tl.getLast hnil := by
        intro h
        rw [List.getLast_append_of_ne_nil _ (List.cons_ne_nil _ _), List.getLast_cons hnil]
      have ajoin : (a :: live tl).IsChain (Joins (1 / 10 ^ 6)) := by
        rw [ge, List.isChain_cons_cons, ← ge]
        refine ⟨⟨gs, ?_⟩, IH.chain⟩
        rw [at1, gt, distance_self]; exact small
      have amid' : ∃ s, 0 ≤ s ∧ s < a.length ∧ distance (a.config s) c2 ≤ dev :=
        ⟨a.length / 2, by linarith, by linarith, amid⟩
      by_cases hlong : Projection.norm (a.config 0 - start) > 1 / 10 ^ 6
      · -- with a line before it
        have hl : line = [Segment.line start (a.config 0)] := by rw [hline, if_pos hlong]
        have hlong' : 1 / 10 ^ 6 < distance start (a.config 0) := by rw [distance_eq']; exact hlong
        have hpos : 0 < distance start (a.config 0) := lt_of_le_of_lt small hlong'
        have hdir : direction start (a.config 0) = direction c1 c2 := by
          rw [ac0, back, hstart]
          exact direction_along hv c1 (by rw [hd] at hpos; linarith)
        obtain ⟨ll, lc, l0, l1, -, -, lt, -⟩ := C107_line start (a.config 0) hpos
        have hlp : 0 < (Segment.line start (a.config 0)).length := by rw [ll]; exact hpos
        have hlive : live (line ++ a :: tl) = Segment.line start (a.config 0) :: a :: live tl := by
          rw [hl, List.singleton_append, live_cons_pos hlp, live_cons_pos al]
        refine ⟨?_, ⟨by simp, ?_, ?_⟩, ?_, ?_, ?_, ?_, ?_⟩
        · intro k hk
          rw [hl, List.singleton_append] at hk
          rcases List.mem_cons.1 hk with rfl | hk
          · exact hlp.le
          · rcases List.mem_cons.1 hk with rfl | hk
            · exact al.le
            · exact IH.nonneg k hk
        · rw [glast]; exact lpos
        · rw [glast]; exact lcfg
        · intro k hk
          rw [hlive] at hk
          rcases List.mem_cons.1 hk with rfl | hk
          · exact regular_line hpos
          · rcases List.mem_cons.1 hk with rfl | hk
            · exact areg
            · exact IH.regular k hk
        · rw [hlive, List.isChain_cons_cons]
          refine ⟨⟨?_, ?_⟩, ajoin⟩
          · rw [l1, distance_self]; exact small
          · rw [lt, at0, hdir, distance_self]; exact small
        · refine ⟨_, _, hlive, ?_, ?_, fun _ => l0⟩
          · rw [l0, distance_self]; exact small
          · rw [lt, hdir]
        · intro k hk s s0 s1
          rw [hlive] at hk
          rcases List.mem_cons.1 hk with rfl | hk
          · refine ⟨_, on_edge hw12 hD0 (t := t + s) (by linarith) (by rw [ll, hd] at s1; linarith), ?_⟩
            rw [lc s s0 s1, hdir, hstart, add_smul, ← add_assoc, distance_self]
            exact hdev.le
          · rcases List.mem_cons.1 hk with rfl | hk
            · exact aon s s0 s1
            · exact IH.near k hk s s0 s1
        · intro x hx
          rw [hlive]
          rcases List.mem_cons.1 hx with rfl | hx
          · exact ⟨a, by simp, amid'⟩
          · obtain ⟨k, hk, s, hs⟩ := IH.visits x hx
            exact ⟨k, List.mem_cons_of_mem _ (List.mem_cons_of_mem _ hk), s, hs⟩
      · have hl : line = [] := by rw [hline, if_neg hlong]
        have hshort : distance start (a.config 0) ≤ 1 / 10 ^ 6 := by rw [distance_eq']; exact not_lt.1 hlong
        have hlive : live (line ++ a :: tl) = a :: live tl := by
          rw [hl, List.nil_append, live_cons_pos al]
        refine ⟨?_, ⟨by simp, ?_, ?_⟩, ?_, ?_, ?_, ?_, ?_⟩
        · intro k hk
          rw [hl, List.nil_append] at hk
          rcases List.mem_cons.1 hk with rfl | hk
          · exact al.le
          · exact IH.nonneg k hk
        · rw [glast]; exact lpos
        · rw [glast]; exact lcfg
        · intro k hk
          rw [hlive] at hk
          rcases List.mem_cons.1 hk with rfl | hk
          · exact areg
          · exact IH.regular k hk
        · rw [hlive]; exact ajoin
        · refine ⟨_, _, hlive, hshort, at0, fun h => ?_⟩
          exfalso
          rw [hd] at hshort
          linarith
        · intro k hk s s0 s1
          rw [hlive] at hk
          rcases List.mem_cons.1 hk with rfl | hk
          · exact aon s s0 s1
          · exact IH.near k hk s s0 s1
        · intro x hx
          rw [hlive]
          rcases List.mem_cons.1 hx with rfl | hx
          · exact ⟨a, by simp, amid'⟩
          · obtain ⟨k, hk, s, hs⟩ := IH.visits x hx
            exact ⟨k, List.mem_cons_of_mem _ hk, s, hs⟩

end Verif.Totg
