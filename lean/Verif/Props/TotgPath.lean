import Verif.Lemmas.TotgBlended

/-!
# C108: the path through the waypoints
-/
namespace Verif.Totg
open Verif Matrix
open Verif.Projection (normalized length distance length_eq distance_eq norm_sq normalized_of_ne
  normalized_dot_self dot_self_pos)
open Filter Topology

variable {n : Nat}

theorem makePath_eq (a b : Fin n → ℝ) (rest : List (Fin n → ℝ)) (dev : ℝ) (g : Segment n) (l : List (Segment n))
    (h : segmentsFrom dev a (a :: b :: rest) = g :: l) :
    (makePath (a :: b :: rest) dev).length = total (g :: l) ∧
    (∀ s, (makePath (a :: b :: rest) dev).segmentAt s = .ok (locate g l s)) := by
  obtain ⟨h1, h2⟩ := fold_add (g :: l) (⟨0, [], []⟩ : Path n)
  have e1 : (makePath (a :: b :: rest) dev).length = ((g :: l).foldl Path.add ⟨0, [], []⟩).length := by
    rw [← h]; rfl
  have e2 : (makePath (a :: b :: rest) dev).segments = ((g :: l).foldl Path.add ⟨0, [], []⟩).segments := by
    rw [← h]; rfl
  refine ⟨by rw [e1, h1]; exact zero_add _, fun s => ?_⟩
  unfold Path.segmentAt
  rw [e2, h2]
  show Out.ok ((findSegment s (0, g) (positioned (0 + g.length) l)).2,
    s - (findSegment s (0, g) (positioned (0 + g.length) l)).1) = _
  rw [findSegment_locate, sub_zero]

/-- The path with blends, for waypoints that are more than 2e-6 apart and nowhere turn back exactly. It
begins at the first and ends at the last waypoint and can be evaluated everywhere. The tangent is the
derivative of the configuration, the curvature that of the tangent (from the right), and the tangent has unit
length. Where segments join, configuration and tangent jump by at most 1e-6. Every point of the path is
within the deviation of the polyline and every waypoint is within the deviation of the path. -/
theorem C108_blended (first second : Fin n → ℝ) (rest : List (Fin n → ℝ)) (dev : ℝ) (hdev : 0 < dev)
    (hap : Apart (2 / 10 ^ 6) (first :: second :: rest)) (hnr : NoReversal (first :: second :: rest)) :
    let waypoints := first :: second :: rest
    let p := makePath waypoints dev
    ∃ config tangent curvature : ℝ → Fin n → ℝ,
      (∀ s, p.config s = .ok (config s) ∧ p.tangent s = .ok (tangent s) ∧ p.curvature s = .ok (curvature s)) ∧
      0 < p.length ∧ config 0 = first ∧ config p.length = (second :: rest).getLast (List.cons_ne_nil _ _) ∧
      (∀ s, 0 ≤ s → s < p.length → HasDerivWithinAt config (tangent s) (Set.Ici s) s ∧
        HasDerivWithinAt tangent (curvature s) (Set.Ici s) s) ∧
      (∀ s, 0 ≤ s → s ≤ p.length → length (tangent s) = 1) ∧
      (∀ s, 0 < s → s ≤ p.length → ∃ c t, Tendsto config (𝓝[<] s) (𝓝 c) ∧ Tendsto tangent (𝓝[<] s) (𝓝 t) ∧
        distance c (config s) ≤ 1 / 10 ^ 6 ∧ distance t (tangent s) ≤ 1 / 10 ^ 6) ∧
      (∀ s, 0 ≤ s → s ≤ p.length → ∃ x, OnPolyline waypoints x ∧ distance (config s) x ≤ dev) ∧
      (∀ x ∈ waypoints, ∃ s, 0 ≤ s ∧ s ≤ p.length ∧ distance (config s) x ≤ dev) := by
  intro waypoints p
  have small : (0 : ℝ) ≤ 1 / 10 ^ 6 := by norm_num
  have hD : 2 / 10 ^ 6 < distance first second := hap first second ⟨[], rest, rfl⟩
  have hD0 : 0 < distance first second := lt_of_le_of_lt (by norm_num) hD
  have B := segments_blended dev hdev waypoints hnr hap first second rest (List.infix_refl _) 0 le_rfl (by linarith)
  rw [zero_smul, add_zero] at B
  obtain ⟨hnil, lpos, lcfg⟩ := B.last
  obtain ⟨g, l, hl⟩ := List.exists_cons_of_ne_nil hnil
  obtain ⟨plen, pseg⟩ := makePath_eq first second rest dev g l hl
  have B : Blended dev (1 / 10 ^ 6) first (direction first second) ((second :: rest).getLast (List.cons_ne_nil _ _))
      waypoints ((second :: rest).dropLast) ((0 : ℝ) = 0) (g :: l) := by
    rw [← hl]; exact B
  obtain ⟨hnil, lpos, lcfg⟩ := B.last
  obtain ⟨g', l', hlive, -, ht, hx⟩ := B.head
  have hx := hx rfl
  have reg : ∀ k ∈ g' :: l', Regular k := by rw [← hlive]; exact B.regular
  have chain : (g' :: l').IsChain (Joins (1 / 10 ^ 6)) := by rw [← hlive]; exact B.chain
  have tot : total (g' :: l') = p.length := by
    show _ = (makePath (first :: second :: rest) dev).length
    rw [plen, ← hlive, total_live B.nonneg]
  have same : ∀ s, 0 ≤ s → locate g l s = locate g' l' s := by
    intro s hs
    obtain ⟨g'', l'', e, q⟩ := locate_live g l B.nonneg lpos hs
    rw [hlive] at e
    obtain ⟨rfl, rfl⟩ := List.cons.inj e
    exact q
  have hg := (reg g' List.mem_cons_self).pos
  have hp : 0 < p.length := by
    rw [← tot, total_cons]
    linarith [total_pos (l := l') fun k hk => reg k (List.mem_cons_of_mem _ hk)]
  have hit0 : (locate g l 0) = (g', 0) := by rw [same 0 le_rfl, locate_zero hg]
  have hlast : (g' :: l').getLast (List.cons_ne_nil _ _) = (g :: l).getLast hnil := by
    have key : ∀ (m : List (Segment n)) (hm : m ≠ []), 0 < (m.getLast hm).length →
        ∀ hm', (live m).getLast hm' = m.getLast hm := by
      intro m hm hpos hm'
      have e : m = m.dropLast ++ [m.getLast hm] := (List.dropLast_append_getLast hm).symm
      have e' : live m = live m.dropLast ++ [m.getLast hm] := by
        conv_lhs => rw [e]
        simp [live, hpos]
      simp only [e', List.getLast_append_singleton]
    have := key (g :: l) hnil lpos (by rw [hlive]; simp)
    simpa only [hlive] using this
  have hend : locate g l p.length = ((g :: l).getLast hnil, ((g :: l).getLast hnil).length) := by
    rw [same _ hp.le, ← tot, chain_end g' l' reg, hlast]
  refine ⟨fun s => (locate g l s).1.config (locate g l s).2, fun s => (locate g l s).1.tangent (locate g l s).2,
    fun s => (locate g l s).1.curvature (locate g l s).2, ?_, hp, ?_, ?_, ?_, ?_, ?_, ?_, ?_⟩
  · intro s
    have : p.segmentAt s = .ok (locate g l s) := pseg s
    refine ⟨?_, ?_, ?_⟩
    · unfold Path.config; rw [this]; rfl
    · unfold Path.tangent; rw [this]; rfl
    · unfold Path.curvature; rw [this]; rfl
  · simp only [hit0]; exact hx
  · simp only [hend]; exact lcfg
  · intro s s0 s1
    obtain ⟨d1, d2⟩ := chain_right g' l' reg s s0 (by rw [tot]; exact s1)
    simp only [same s s0]
    constructor
    · refine d1.congr_of_mem ?_ Set.self_mem_Ici
      intro t ht
      simp only [same t (s0.trans ht)]
    · refine d2.congr_of_mem ?_ Set.self_mem_Ici
      intro t ht
      simp only [same t (s0.trans ht)]
  · intro s s0 s1
    obtain ⟨hm, -⟩ := chain_mem g' l' s s0 (by rw [tot]; exact s1)
    simp only [same s s0]
    exact (reg _ hm).unit _
  · intro s s0 s1
    obtain ⟨c, t, l1, l2, b1, b2⟩ := chain_left (1 / 10 ^ 6) small g' l' reg chain s s0 (by rw [tot]; exact s1)
    refine ⟨c, t, l1.congr' ?_, l2.congr' ?_, ?_, ?_⟩
    · filter_upwards [Ioo_mem_nhdsLT s0] with t ht
      rw [same t ht.1.le]
    · filter_upwards [Ioo_mem_nhdsLT s0] with t ht
      rw [same t ht.1.le]
    · simp only [same s s0.le]; exact b1
    · simp only [same s s0.le]; exact b2
  · intro s s0 s1
    obtain ⟨hm, q0, q1⟩ := chain_mem g' l' s s0 (by rw [tot]; exact s1)
    simp only [same s s0]
    exact B.near _ (by rw [hlive]; exact hm) _ q0 q1
  · intro x hxm
    rcases List.mem_cons.1 hxm with rfl | hxm
    · refine ⟨0, le_rfl, hp.le, ?_⟩
      simp only [hit0]
      rw [hx, distance_self]
      exact hdev.le
    · rw [← List.dropLast_append_getLast (List.cons_ne_nil second rest), List.mem_append, List.mem_singleton] at hxm
      rcases hxm with hxm | rfl
      · obtain ⟨k, hk, t, t0, t1, hd⟩ := B.visits x hxm
        rw [hlive] at hk
        obtain ⟨s, s0, s1, e⟩ := chain_hit g' l' reg k hk t t0 t1
        refine ⟨s, s0, by rw [← tot]; exact s1, ?_⟩
        simp only [same s s0, e]
        exact hd
      · refine ⟨p.length, hp.le, le_rfl, ?_⟩
        simp only [hend]
        rw [lcfg, distance_self]
        exact hdev.le

/-! ## Without blends -/

theorem segmentsFrom_lines (dev : ℝ) (hdev : dev ≤ 0) (a b : Fin n → ℝ) (rest : List (Fin n → ℝ)) :
    segmentsFrom dev a (a :: b :: rest) = Segment.line a b :: segmentsFrom dev b (b :: rest) := by
  cases rest with
  | nil => simp [segmentsFrom]
  | cons c rest => rw [segmentsFrom, if_neg (not_lt.2 hdev)]

theorem locate_lt {g : Segment n} {s : ℝ} (h : s < g.length) (k : Segment n) (rest : List (Segment n)) :
    locate g (k :: rest) s = (g, s) := by
  rw [locate, if_pos h]

theorem locate_ge {g : Segment n} {s : ℝ} (h : ¬ s < g.length) (k : Segment n) (rest : List (Segment n)) :
    locate g (k :: rest) s = locate k rest (s - g.length) := by
  rw [locate, if_neg h]

theorem lines_locate (dev : ℝ) (hdev : dev ≤ 0) (a b : Fin n → ℝ) (rest : List (Fin n → ℝ))
    (hap : Apart 0 (a :: b :: rest)) (k : Nat) (x y : Fin n → ℝ) (hx : (a :: b :: rest)[k]? = some x)
    (hy : (a :: b :: rest)[k + 1]? = some y) (t : ℝ) (t0 : 0 ≤ t) (t1 : t ≤ distance x y) :
    let f := locate (Segment.line a b) (segmentsFrom dev b (b :: rest)) (travelled (a :: b :: rest) k + t)
    f.1.config f.2 = x + t • direction x y ∧ (t < distance x y → f.1.tangent f.2 = direction x y) := by
  induction rest generalizing a b k x y t with
  | nil =>
    have : k = 0 := by
      rcases k with - | k
      · rfl
      · simp at hy
    subst this
    obtain rfl : a = x := by simpa using hx
    obtain rfl : b = y := by simpa using hy
    have h : 0 < distance a b := hap a b (List.infix_refl _)
    obtain ⟨hl, hc, -, -, -, -, ht, -⟩ := C107_line a b h
    simp only [segmentsFrom, travelled, zero_add, locate]
    exact ⟨hc t t0 (by rw [hl]; exact t1), fun _ => ht t⟩
  | cons c rest ih =>
    have h : 0 < distance a b := hap a b ⟨[], c :: rest, rfl⟩
    have h' : 0 < distance b c := hap b c ⟨[a], rest, rfl⟩
    have hap' : Apart 0 (b :: c :: rest) := fun p q hpq => hap p q (List.IsInfix.trans hpq ⟨[a], [], by simp⟩)
    obtain ⟨hl, hc, -, h1, -, -, ht, -⟩ := C107_line a b h
    rw [segmentsFrom_lines dev hdev b c rest]
    have e2 : a + distance a b • direction a b = b := by rw [walk h, add_sub_cancel]
    rcases k with - | k
    · obtain rfl : a = x := by simpa using hx
      obtain rfl : b = y := by simpa using hy
      simp only [travelled, zero_add]
      by_cases hlt : t < distance a b
      · rw [locate_lt (by rw [hl]; exact hlt)]
        exact ⟨hc t t0 (by rw [hl]; exact t1), fun _ => ht t⟩
      · have : t = distance a b := le_antisymm t1 (not_lt.1 hlt)
        subst this
        rw [locate_ge (by rw [hl]; exact lt_irrefl _), hl, sub_self, e2]
        obtain ⟨q, -⟩ := ih b c hap' 0 b c rfl rfl 0 le_rfl h'.le
        simp only [travelled, zero_smul, add_zero] at q
        exact ⟨q, fun h => absurd h (lt_irrefl _)⟩
    · have q := ih b c hap' k x y (by simpa using hx) (by simpa using hy) t t0 t1
      have hn : ¬ distance a b + travelled (b :: c :: rest) k + t < distance a b := by
        have : 0 ≤ travelled (b :: c :: rest) k := by
          have nn : ∀ (l : List (Fin n → ℝ)) k, 0 ≤ travelled l k := by
            intro l
            induction l with
            | nil => intro k; simp [travelled]
            | cons a l ih =>
              intro k
              rcases l with - | ⟨b, l⟩
              · simp [travelled]
              · rcases k with - | k
                · simp [travelled]
                · simp only [travelled]
                  have := Projection.norm_nonneg (a - b)
                  rw [distance_eq]
                  linarith [ih k]
          exact nn _ _
        linarith
      simp only [travelled]
      rw [locate_ge (by rw [hl]; exact hn), show distance a b + travelled (b :: c :: rest) k + t -
        (Segment.line a b).length = travelled (b :: c :: rest) k + t by rw [hl]; ring]
      exact q

theorem lines_total (dev : ℝ) (hdev : dev ≤ 0) (a b : Fin n → ℝ) (rest : List (Fin n → ℝ)) :
    total (segmentsFrom dev a (a :: b :: rest)) = travelled (a :: b :: rest) (rest.length + 1) := by
  induction rest generalizing a b with
  | nil => simp [segmentsFrom, total, travelled, Segment.length, distance_eq']
  | cons c rest ih =>
    rw [segmentsFrom_lines dev hdev, total_cons, ih]
    simp only [travelled, List.length_cons]
    rw [distance_eq' a b]
    rfl

/-- Without a permitted deviation the path is the polyline through the waypoints, traversed with unit speed:
at the length of the polyline up to a waypoint plus `t` it is `t` beyond the waypoint towards the next. -/
theorem C108_polyline (first second : Fin n → ℝ) (rest : List (Fin n → ℝ)) (dev : ℝ) (hdev : dev ≤ 0)
    (hap : Apart 0 (first :: second :: rest)) :
    let waypoints := first :: second :: rest
    let p := makePath waypoints dev
    p.length = travelled waypoints (waypoints.length - 1) ∧
    ∀ k x y, waypoints[k]? = some x → waypoints[k + 1]? = some y → ∀ t, 0 ≤ t → t ≤ distance x y →
      p.config (travelled waypoints k + t) = .ok (x + t • direction x y) ∧
      (t < distance x y → p.tangent (travelled waypoints k + t) = .ok (direction x y)) := by
  intro waypoints p
  obtain ⟨plen, pseg⟩ := makePath_eq first second rest dev _ _ (segmentsFrom_lines dev hdev first second rest)
  refine ⟨?_, ?_⟩
  · show (makePath (first :: second :: rest) dev).length = _
    rw [plen, ← segmentsFrom_lines dev hdev, lines_total dev hdev]
    rfl
  · intro k x y hx hy t t0 t1
    have q := lines_locate dev hdev first second rest hap k x y hx hy t t0 t1
    have e : p.segmentAt (travelled waypoints k + t) = _ := pseg (travelled waypoints k + t)
    constructor
    · unfold Path.config; rw [e]; exact congrArg Out.ok q.1
    · intro h; unfold Path.tangent; rw [e]; exact congrArg Out.ok (q.2 h)

/-- With fewer than two waypoints the path has length 0 and evaluating it reads past an empty list. -/
theorem C108_short (waypoints : List (Fin n → ℝ)) (dev s : ℝ) (h : waypoints.length < 2) :
    let p := makePath waypoints dev
    p.length = 0 ∧ p.config s = .ub ∧ p.tangent s = .ub ∧ p.curvature s = .ub := by
  rcases waypoints with - | ⟨a, - | ⟨b, rest⟩⟩
  · exact ⟨rfl, rfl, rfl, rfl⟩
  · exact ⟨rfl, rfl, rfl, rfl⟩
  · simp at h

end Verif.Totg
