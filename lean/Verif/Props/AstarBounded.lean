import Verif.Spec.AstarBounded
import Verif.Props.Astar

/-!
# Property C162 (SimpleGraphAstar, GenericAstarSearch): heuristics that overestimate, and rounded costs
-/
namespace Verif.Astar
open Verif Verif.Graph

variable {ν W : Type} [Cost W] {succ : Succ W} {h : Int → W} {start goal : Int}

theorem Below.congr {s1 s2 : Int → Int → W → Prop} (hs : ∀ u v w, s1 u v w → s2 u v w) {B : W} {u t : Int} {c : W}
    (hb : Below s1 h B u c t) : Below s2 h B u c t := by
  induction hb with
  | here u c => exact .here _ _
  | cons h1 h2 _ ih => exact .cons (hs _ _ _ h1) h2 ih

/-- As long as the goal is not explored, a queue entry has a value of at most the bound. -/
theorem frontier_below {q : List (Elem W)} {ex : Explored W} (hi : Inv succ h start goal q ex) {B : W}
    {u t : Int} {c : W} (hp : Below succ.step h B u c t) (ht : t = goal) :
    (∃ b k, ex.lookup u = some (b, k) ∧ k ≤ c) → ∃ e ∈ q, e.value ≤ B := by
  induction hp with
  | here u c =>
    rintro ⟨b, k, h1, _⟩
    rw [ht, hi.goalNot] at h1
    cases h1
  | @cons u v t w c hs hB hp ih =>
    rintro ⟨b, k, h1, h2⟩
    rcases hi.closed u b k h1 v w hs with ⟨bv, kv, h3, h4⟩ | ⟨e, he, h3, h4⟩
    · exact ih ht ⟨bv, kv, h3, le_trans h4 (Cost.add_mono w h2)⟩
    · refine ⟨e, he, ?_⟩
      rw [(hi.queue e he).1, h3]
      exact le_trans (Cost.add_mono _ (le_trans h4 (Cost.add_mono w h2))) hB

theorem search_bounded (hne : start ≠ goal) (h0 : 0 ≤ h goal)
    {pick : Nat → Nat} {fuel fuel' : Nat} {x : W} {ex' : Explored W}
    (hr : coreLoop succ h goal pick fuel 0 [⟨start, -1, 0, x⟩] [] = some ex')
    {path : List Int} {cost : W}
    (he : extractAstarResult fuel' ex' start goal = some (.ok (path, cost))) {B : W}
    (hB : Below succ.step h B start 0 goal) : cost ≤ B := by
  obtain ⟨q0, ex0, hi, hcase⟩ := search_result hne hr
  obtain ⟨b, c, g1, g2⟩ := hi.hist.start_le
  obtain ⟨y, hy, hyB⟩ := frontier_below hi hB rfl ⟨b, c, g1, g2⟩
  rcases hcase with ⟨hq, rfl⟩ | ⟨e, heq, hid, hmin, rfl⟩
  · rw [hq] at hy; cases hy
  · have h5 : e.cost ≤ e.value := by
      rw [(hi.queue e heq).1, hid]; exact Cost.le_add _ h0
    have h6 : e.cost ≤ B := le_trans h5 (le_trans (hmin y hy) hyB)
    unfold extractAstarResult at he
    rw [lookup_cons_eq, if_pos rfl] at he
    dsimp only at he
    split at he
    · cases he
    · injection he with he; injection he with he; injection he with _ he
      rw [← he]; exact h6
    all_goals cases he

/-- **C162.** Whatever the heuristic, as long as it is not negative at the goal: the call returns, a path exactly when
there is one, and if there is a path along which cost so far plus heuristic never exceed a bound, the cost reported does
not exceed this bound. -/
theorem C162_bounded (g : Graph ν W) (start goal : Int) (cb : Callbacks ν W) (hl : Linked g)
    (ha : cb.Answers g) (hn : NonNegative (GraphStep g cb)) (h0 : 0 ≤ nodeHeuristic g cb goal goal)
    (hs : 0 ≤ start ∧ start < (g.length : Int)) (hg : 0 ≤ goal ∧ goal < (g.length : Int))
    (hne : start ≠ goal) :
    ∃ N, ∀ pick fuel limit, N ≤ fuel → ∃ path cost,
      performLazyAstar fuel pick g start goal cb limit = some (.ok (path, cost)) ∧
      Complete (GraphStep g cb) start goal path cost ∧
      ∀ B, Below (GraphStep g cb) (nodeHeuristic g cb goal) B start 0 goal → cost ≤ B := by
  obtain ⟨N, hN⟩ := graph_core hl ha hn hs hg hne
  refine ⟨N, ?_⟩
  intro pick fuel limit hf
  obtain ⟨x, ex', path, cost, h1, h2, h3⟩ := hN pick fuel limit hf
  exact ⟨path, cost, h3, complete_congr (fun u v w => graphSucc_step)
    (search_complete (graphSucc_ids g cb start) hne (nonNegative_succ hn) h1 h2),
    fun B hB => search_bounded hne h0 h1 h2 (hB.congr fun u v w => graphSucc_step.2)⟩

/-- C162 for the generic search. -/
theorem C162_bounded_generic (G : Generic W) (start goal : Int) (hne : start ≠ goal)
    (hn : NonNegative G.Step) (h0 : 0 ≤ G.heuristic goal goal) (S : List Int) (hs : start ∈ S)
    (hS : ∀ u v w, u ∈ S → G.Step u v w → v ∈ S) (hids : ∀ u ∈ S, 0 ≤ u) :
    ∃ N, ∀ pick fuel limit, N ≤ fuel → ∃ path cost,
      genericAstarSearch fuel pick G start goal limit = some (.ok (path, cost)) ∧
      Complete G.Step start goal path cost ∧
      ∀ B, Below G.Step (fun u => G.heuristic u goal) B start 0 goal → cost ≤ B := by
  obtain ⟨N, hN⟩ := generic_core hne hn hs hS hids
  refine ⟨N, ?_⟩
  intro pick fuel limit hf
  obtain ⟨x, ex', path, cost, h1, h2, h3⟩ := hN pick fuel limit hf
  have hP : NonNegIds (genericSucc G) start (fun u => u ∈ S) :=
    ⟨hs, fun u v w hu h => hS u v w hu (genericSucc_step.1 h), fun u hu _ => hids u hu⟩
  exact ⟨path, cost, h3, complete_congr (fun u v w => genericSucc_step)
    (search_complete hP hne (fun u v w h => hn u v w (genericSucc_step.1 h)) h1 h2),
    fun B hB => search_bounded (h := fun u => G.heuristic u goal) hne h0 h1 h2
      (hB.congr fun u v w => genericSucc_step.2)⟩

/-! ## Doubles -/

section Doubles
variable {F : Format}

theorem ExactPath.nonneg {step : Int → Int → Double F → Prop} {u t : Int} {p : List Int} {c : ℝ}
    (h : ExactPath step u p t c) : 0 ≤ c := by
  induction h with
  | here => exact le_refl _
  | @cons u v t p w c fp nn le hs h ih => linarith

theorem ExactPath.length_pos {step : Int → Int → Double F → Prop} {u t : Int} {p : List Int} {c : ℝ}
    (h : ExactPath step u p t c) : 1 ≤ p.length := by
  cases h <;> simp

theorem le_fin {a : Double F} {y : ℝ} {f n l} (h : a ≤ .fin y f n l) :
    ∃ x fp nn le, a = .fin x fp nn le ∧ x ≤ y := by
  cases a with
  | inf => rw [Double.le_def] at h; simp [Double.value] at h
  | fin x fp nn le => exact ⟨x, fp, nn, le, rfl, Double.fin_le_fin.1 h⟩

/-- The larger of two numbers below a bound is below the bound. -/
theorem max_fin {x y z : ℝ} {a b c d e f} (hx : x ≤ z) (hy : y ≤ z) :
    ∃ m fp nn le, (Double.fin x a b c : Double F) ≤ .fin m fp nn le ∧
      (Double.fin y d e f : Double F) ≤ .fin m fp nn le ∧ m ≤ z := by
  rcases le_total x y with h | h
  · exact ⟨y, d, e, f, Double.fin_le_fin.2 h, le_refl _, hy⟩
  · exact ⟨x, a, b, c, le_refl _, Double.fin_le_fin.2 h, hx⟩

theorem Below.mono {step : Int → Int → W → Prop} {B B' : W} (hB : B ≤ B') {u t : Int} {c : W}
    (h' : Below step h B u c t) : Below step h B' u c t := by
  induction h' with
  | here u c => exact .here _ _
  | cons h1 h2 _ ih => exact .cons h1 (le_trans h2 hB) ih

theorem one_le_growth (k : Nat) : 1 ≤ (1 + unit) ^ k := one_le_pow₀ (by linarith [Rounding.unit_pos])

/-- Along an exact path the rounded values stay below the bound. -/
theorem ExactPath.stays_below {step : Int → Int → Double F → Prop} {h : Int → Double F} {goal : Int} {ε : ℝ}
    (hε : 1 ≤ ε) (hw : Within step h goal ε) {u t : Int} {p : List Int} {c : ℝ} (hp : ExactPath step u p t c)
    (ht : t = goal) : ∀ (i : Nat) (P x : ℝ) (fp : F.Fp x) (nn : 0 ≤ x) (le : x ≤ F.big), 0 ≤ P →
      x ≤ ε * P * (1 + unit) ^ i → ε * (P + c) * (1 + unit) ^ (i + (p.length - 1)) ≤ F.big →
      ∃ m fm nm lm, Below step h (.fin m fm nm lm) u (.fin x fp nn le) t ∧
        m ≤ ε * (P + c) * (1 + unit) ^ (i + (p.length - 1)) := by
  have hu := Rounding.unit_pos
  induction hp with
  | here u =>
    intro i P x fp nn le hP hx hb
    exact ⟨x, fp, nn, le, .here _ _, by simpa using hx⟩
  | @cons u v t p w c fw nw lw hs hp ih =>
    intro i P x fp nn le hP hx hb
    have c0 := hp.nonneg
    have l1 := hp.length_pos
    have g1 := one_le_growth i
    have hεP : 0 ≤ ε * P := mul_nonneg (by linarith) hP
    -- the cost so far
    have hww : w ≤ ε * w * (1 + unit) ^ i := by
      have a1 := mul_le_mul_of_nonneg_right hε nw
      have a2 := mul_le_mul_of_nonneg_left g1 (show 0 ≤ ε * w from mul_nonneg (by linarith) nw)
      linarith
    have hup := F.upper (add_nonneg nn nw)
    have hstep : F.rd (x + w) ≤ ε * (P + w) * (1 + unit) ^ (i + 1) := by
      refine le_trans hup ?_
      rw [pow_succ, ← mul_assoc]
      refine mul_le_mul_of_nonneg_right ?_ (by linarith)
      rw [mul_add, add_mul]
      linarith
    have hidx : i + ((u :: p).length - 1) = (i + 1) + (p.length - 1) := by
      rw [List.length_cons]; omega
    rw [hidx] at hb ⊢
    have htot : P + (w + c) = (P + w) + c := by ring
    rw [htot] at hb ⊢
    have hbig : ∀ a : ℝ, 0 ≤ a → a ≤ ε * ((P + w) + c) * (1 + unit) ^ (i + 1) →
        a ≤ ε * ((P + w) + c) * (1 + unit) ^ ((i + 1) + (p.length - 1)) := by
      intro a _ h1
      refine le_trans h1 ?_
      rw [pow_add _ (i + 1), ← mul_assoc]
      refine le_mul_of_one_le_right ?_ (one_le_growth _)
      exact mul_nonneg (mul_nonneg (by linarith) (by linarith)) (by linarith [one_le_growth (i + 1)])
    have hq : F.rd (x + w) ≤ ε * ((P + w) + c) * (1 + unit) ^ ((i + 1) + (p.length - 1)) := by
      refine hbig _ (F.nonneg (add_nonneg nn nw)) (le_trans hstep ?_)
      refine mul_le_mul_of_nonneg_right ?_ (by linarith [one_le_growth (i + 1)])
      exact mul_le_mul_of_nonneg_left (by linarith) (by linarith)
    have hadd := Double.add_fin (a := fp) (b := nn) (c := le) (d := fw) (e := nw) (f := lw) (le_trans hq hb)
    obtain ⟨m, fm, nm, lm, h1, h2⟩ := ih ht (i + 1) (P + w) (F.rd (x + w)) (F.fp_rd _)
      (F.nonneg (add_nonneg nn nw)) (le_trans hq hb) (by linarith) hstep hb
    -- the value of the node
    subst ht
    obtain ⟨y, fy, ny, ly, hy, hyc⟩ := hw v p c hp
    have hval : F.rd (F.rd (x + w) + y) ≤ ε * ((P + w) + c) * (1 + unit) ^ ((i + 1) + (p.length - 1)) := by
      have n1 := F.nonneg (add_nonneg nn nw)
      cases hp with
      | here =>
        have y0 : y = 0 := by
          have : y ≤ 0 := by simpa using hyc
          exact le_antisymm this ny
        subst y0
        rw [add_zero, F.idem]
        exact hq
      | @cons _ v' _ p' w' c' _ _ _ hs' hp' =>
        have l2 := hp'.length_pos
        refine le_trans (F.upper (add_nonneg n1 ny)) ?_
        have e1 : (i + 1) + ((v :: p').length - 1) = (i + 1) + (p'.length - 1) + 1 := by
          rw [List.length_cons]; omega
        rw [e1, pow_succ, ← mul_assoc]
        refine mul_le_mul_of_nonneg_right ?_ (by linarith)
        have g2 := one_le_growth (i + 1)
        have g3 := one_le_growth (p'.length - 1)
        have c0' : 0 ≤ ε * (w' + c') := mul_nonneg (by linarith) c0
        have k1 : F.rd (x + w) + y ≤ ε * (P + w + (w' + c')) * (1 + unit) ^ (i + 1) := by
          have := mul_le_mul_of_nonneg_left g2 c0'
          rw [mul_add, add_mul]
          linarith
        refine le_trans k1 ?_
        rw [pow_add _ (i + 1), ← mul_assoc]
        refine le_mul_of_one_le_right ?_ g3
        exact mul_nonneg (mul_nonneg (by linarith) (by linarith)) (by linarith)
    have hadd2 := Double.add_fin (a := F.fp_rd (x + w)) (b := F.nonneg (add_nonneg nn nw)) (c := le_trans hq hb)
      (d := fy) (e := ny) (f := ly) (le_trans hval hb)
    obtain ⟨M, fM, nM, lM, b1, b2, b3⟩ := max_fin (a := fm) (b := nm) (c := lm) (d := F.fp_rd (F.rd (x + w) + y))
      (e := F.nonneg (add_nonneg (F.nonneg (add_nonneg nn nw)) ny)) (f := le_trans hval hb) h2 hval
    refine ⟨M, fM, nM, lM, .cons hs ?_ ?_, b3⟩
    · rw [hadd, hy, hadd2]; exact b2
    · rw [hadd]; exact h1.mono b1

theorem Path.le_end {step : Int → Int → Double F → Prop} {u t : Int} {p : List Int} {a b : Double F}
    (hp : Path step u a p t b) : a ≤ b := by
  induction hp with
  | here => exact le_refl _
  | @cons u v t w a b p hs hp ih => exact le_trans (Cost.le_add a (Double.zero_le w)) ih

/-- A path of finite rounded cost has an exact cost that is not much larger. -/
theorem Path.exact {step : Int → Int → Double F → Prop} {u t : Int} {p : List Int} {a b : Double F}
    (hp : Path step u a p t b) : ∀ x f1 n1 l1 z f2 n2 l2, a = .fin x f1 n1 l1 → b = .fin z f2 n2 l2 →
      ∃ c, ExactPath step u p t c ∧ (x + c) * (1 - unit) ^ (p.length - 1) ≤ z := by
  have hu := Rounding.unit_pos
  have hu1 := Rounding.unit_lt_one
  induction hp with
  | here u c =>
    rintro x f1 n1 l1 z f2 n2 l2 rfl hb
    injection hb with hb
    exact ⟨0, .here _, by simp [hb]⟩
  | @cons u v t w a b p hs hp ih =>
    rintro x f1 n1 l1 z f2 n2 l2 rfl rfl
    have hmono : Double.fin x f1 n1 l1 + w ≤ .fin z f2 n2 l2 := hp.le_end
    obtain ⟨y, fy, ny, ly, hy, _⟩ := le_fin hmono
    obtain ⟨x', w', a1, a2, a3, b1, b2, b3, hx', rfl, rfl⟩ := Double.add_eq_fin hy
    injection hx' with hx'
    subst hx'
    obtain ⟨c, h1, h2⟩ := ih _ _ _ _ _ _ _ _ hy rfl
    have c0 := h1.nonneg
    have l1 := h1.length_pos
    refine ⟨w' + c, .cons hs h1, le_trans ?_ h2⟩
    have e1 : (u :: p).length - 1 = (p.length - 1) + 1 := by rw [List.length_cons]; omega
    rw [e1, pow_succ, mul_comm _ (1 - unit), ← mul_assoc]
    refine mul_le_mul_of_nonneg_right ?_ (pow_nonneg (by linarith) _)
    have lo := F.lower (add_nonneg n1 b2)
    have := mul_nonneg c0 hu.le
    linarith

theorem nearly_optimal {step : Int → Int → Double F → Prop} {h : Int → Double F} {start goal : Int} {ε : ℝ}
    (hε : 1 ≤ ε) (hw : Within step h goal ε) {path : List Int} {cost : Double F}
    (hc : Complete step start goal path cost)
    (hB : ∀ B, Below step h B start 0 goal → cost ≤ B) : NearlyOptimal step start goal ε path cost := by
  have key : ∀ p c, ExactPath step start p goal c → ε * c * (1 + unit) ^ (p.length - 1) ≤ F.big →
      ∃ x fp nn le, cost = .fin x fp nn le ∧ x ≤ ε * c * (1 + unit) ^ (p.length - 1) := by
    intro p c hp hb
    obtain ⟨m, fm, nm, lm, h1, h2⟩ := hp.stays_below hε hw rfl 0 0 0 F.fp_zero (le_refl _) F.big_nonneg (le_refl _)
      (by simp) (by simpa using hb)
    obtain ⟨x, fp, nn, le, h3, h4⟩ := le_fin (hB _ h1)
    exact ⟨x, fp, nn, le, h3, le_trans h4 (by simpa using h2)⟩
  refine ⟨hc, ?_, ?_⟩
  · rintro x fp nn le rfl
    refine ⟨?_, fun p c hp => ?_⟩
    · rcases hc with ⟨_, h1, _⟩ | ⟨C, h1, h2⟩
      · cases h1
      · obtain ⟨z, f, n, l, rfl, hz⟩ := le_fin h2
        obtain ⟨c, h3, h4⟩ := h1.exact _ _ _ _ _ _ _ _ rfl rfl
        exact ⟨c, h3, by rw [zero_add] at h4; linarith⟩
    · by_cases hb : ε * c * (1 + unit) ^ (p.length - 1) ≤ F.big
      · obtain ⟨y, f, n, l, h1, h2⟩ := key p c hp hb
        injection h1 with h1
        rw [h1]; exact h2
      · linarith [not_le.1 hb]
  · rintro rfl p c hp
    by_contra hb
    obtain ⟨y, f, n, l, h1, h2⟩ := key p c hp (not_lt.1 hb)
    cases h1

/-- **C162 with doubles.** If costs are non-negative doubles and the heuristic overestimates the exact cost to the goal
at most by the factor `ε` (`1` for an admissible one), the path returned is nearly optimal: its exact cost, up to
rounding, is at most `ε` times that of any other. -/
theorem C162_doubles (g : Graph ν (Double F)) (start goal : Int) (cb : Callbacks ν (Double F)) (hl : Linked g)
    (ha : cb.Answers g) (ε : ℝ) (hε : 1 ≤ ε) (hw : Within (GraphStep g cb) (nodeHeuristic g cb goal) goal ε)
    (hs : 0 ≤ start ∧ start < (g.length : Int)) (hg : 0 ≤ goal ∧ goal < (g.length : Int))
    (hne : start ≠ goal) :
    ∃ N, ∀ pick fuel limit, N ≤ fuel → ∃ path cost,
      performLazyAstar fuel pick g start goal cb limit = some (.ok (path, cost)) ∧
      NearlyOptimal (GraphStep g cb) start goal ε path cost := by
  obtain ⟨N, hN⟩ := C162_bounded g start goal cb hl ha (fun _ _ w _ => Double.zero_le w) (Double.zero_le _) hs hg hne
  refine ⟨N, ?_⟩
  intro pick fuel limit hf
  obtain ⟨path, cost, h1, h2, h3⟩ := hN pick fuel limit hf
  exact ⟨path, cost, h1, nearly_optimal hε hw h2 h3⟩

/-- C162 with doubles for the generic search. -/
theorem C162_doubles_generic (G : Generic (Double F)) (start goal : Int) (hne : start ≠ goal) (ε : ℝ) (hε : 1 ≤ ε)
    (hw : Within G.Step (fun u => G.heuristic u goal) goal ε) (S : List Int) (hs : start ∈ S)
    (hS : ∀ u v w, u ∈ S → G.Step u v w → v ∈ S) (hids : ∀ u ∈ S, 0 ≤ u) :
    ∃ N, ∀ pick fuel limit, N ≤ fuel → ∃ path cost,
      genericAstarSearch fuel pick G start goal limit = some (.ok (path, cost)) ∧
      NearlyOptimal G.Step start goal ε path cost := by
  obtain ⟨N, hN⟩ := C162_bounded_generic G start goal hne (fun _ _ w _ => Double.zero_le w) (Double.zero_le _)
    S hs hS hids
  refine ⟨N, ?_⟩
  intro pick fuel limit hf
  obtain ⟨path, cost, h1, h2, h3⟩ := hN pick fuel limit hf
  exact ⟨path, cost, h1, nearly_optimal hε hw h2 h3⟩

end Doubles

/-! ## Concrete cases -/

/-- A heuristic that overestimates: 0 → 1 → 2 costs 5, the direct edge costs 9, and node 1 is said to be 6 away from
the goal instead of 3. The bound is 8, the cost 5. -/
example : Below (WeightStep sample) (fun u => if u = 1 then (6 : Dist) else 0) (8 : Dist) 0 0 2 :=
  .cons (v := 1) (w := 2) ⟨_, ⟨by decide, rfl⟩, ⟨0, 1, 2, UNKNOWN⟩, by decide, rfl, by decide, by decide, rfl⟩ (by decide)
    (.cons (v := 2) (w := 3) ⟨_, ⟨by decide, rfl⟩, ⟨1, 2, 3, UNKNOWN⟩, by decide, rfl, by decide, by decide, rfl⟩ (by decide)
      (.here _ _))

example : performAstar 20 (fun _ => 0) sample 0 2 (fun u _ => if u = 1 then 6 else 0) true =
    some (.ok ([0, 1, 2], 5)) := by decide +kernel

/-- With an overestimate of 10 the direct edge is returned, although it is not the cheapest way. -/
example : performAstar 20 (fun _ => 0) sample 0 2 (fun u _ => if u = 1 then 10 else 0) true =
    some (.ok ([0, 2], 9)) := by decide +kernel

/-- Doubles: the zero heuristic is within the factor one. -/
example (F : Format) (step : Int → Int → Double F → Prop) (goal : Int) : Within step (fun _ => 0) goal 1 :=
  fun _ _ _ hp => ⟨0, _, _, _, rfl, by linarith [hp.nonneg]⟩

end Verif.Astar
