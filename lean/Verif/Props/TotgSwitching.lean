import Verif.Lemmas.TotgSwitching

/-!
# C110: the switching points of a path
-/
namespace Verif.Totg
open Verif Matrix
open Verif.Projection (normalized length distance)

variable {n : Nat}

theorem C110_sorted (waypoints : List (Fin n → ℝ)) (dev : ℝ) :
    let p := makePath waypoints dev
    p.switching.Pairwise (fun a b => a.1 ≤ b.1) ∧ ∀ q ∈ p.switching, 0 ≤ q.1 ∧ q.1 < p.length := by
  rcases waypoints with - | ⟨a, - | ⟨b, rest⟩⟩
  · exact ⟨List.Pairwise.nil, fun q hq => by simp [makePath] at hq⟩
  · exact ⟨List.Pairwise.nil, fun q hq => by simp [makePath] at hq⟩
  · obtain ⟨g, l, plain, plen, -, -, sorted, mem⟩ := path_shape a b rest dev
    refine ⟨sorted.imp Before.le, fun q hq => ?_⟩
    obtain ⟨h1, k, hk, hm⟩ := (mem q).1 hq
    refine ⟨?_, by rw [plen]; exact h1⟩
    obtain ⟨k1, k2, -⟩ := positioned_mem (fun k hk => (plain k hk).listable.1) hk
    have hl := (plain _ k1).listable
    rcases hm with ⟨t, ht, rfl⟩ | rfl
    · exact add_nonneg k2 (hl.2.2 t ht).1
    · exact add_nonneg k2 hl.1

/-- The positions that are flagged are those at which a segment begins. -/
theorem C110_boundaries (waypoints : List (Fin n → ℝ)) (dev s : ℝ) :
    let p := makePath waypoints dev
    0 < s → s < p.length → ((s, true) ∈ p.switching ↔ ∃ g, (s, g) ∈ p.segments) := by
  rcases waypoints with - | ⟨a, - | ⟨b, rest⟩⟩
  · intro p s0 s1; exact absurd (s0.trans s1) (lt_irrefl _)
  · intro p s0 s1; exact absurd (s0.trans s1) (lt_irrefl _)
  · intro p s0 s1
    obtain ⟨g, l, plain, plen, -, pseg, -, mem⟩ := path_shape a b rest dev
    have h0 : ∀ k ∈ g :: l, 0 ≤ k.length := fun k hk => (plain k hk).listable.1
    rw [show p.length = total (g :: l) from plen] at s1
    rw [show p.segments = positioned 0 (g :: l) from pseg]
    refine (mem (s, true)).trans ?_
    have hb := boundary_iff g l 0 s h0 s0 (by rw [zero_add]; exact s1)
    constructor
    · rintro ⟨-, k, hk, hm⟩
      rcases hm with ⟨t, -, e⟩ | e
      · exact absurd (congrArg Prod.snd e) (by simp)
      · obtain ⟨k', hk', e'⟩ := hb.1 ⟨k, hk, congrArg Prod.fst e⟩
        exact ⟨k'.2, by rw [e']; exact hk'⟩
    · rintro ⟨k, hk⟩
      obtain ⟨k', hk', e'⟩ := hb.2 ⟨(s, k), hk, rfl⟩
      exact ⟨s1, k', hk', Or.inr (Prod.ext e' rfl)⟩

theorem plain_continuous {g : Segment n} : Continuous g.config ∧ Continuous g.tangent ∧ Continuous g.curvature := by
  rcases g with ⟨a, b⟩ | ⟨len, r, z, x, y⟩
  · refine ⟨?_, continuous_const, continuous_const⟩
    have : Segment.config (.line a b) = fun s => (1 - min 1 (max 0 (s / Projection.norm (b - a)))) • a +
        min 1 (max 0 (s / Projection.norm (b - a))) • b := by
      funext s
      simp only [Segment.config, Angles.unit_eq]
    rw [this]
    fun_prop
  · have hd : Continuous fun s : ℝ => s / r := continuous_id.div_const r
    refine ⟨?_, ?_, ?_⟩
    · show Continuous fun s => z + r • (Real.cos (s / r) • x + Real.sin (s / r) • y)
      have : Continuous fun s : ℝ => r • (Real.cos (s / r) • x + Real.sin (s / r) • y) :=
        ((((Real.continuous_cos.comp hd).smul continuous_const)).add
          ((Real.continuous_sin.comp hd).smul continuous_const)).const_smul r
      exact continuous_const.add this
    · show Continuous fun s => -Real.sin (s / r) • x + Real.cos (s / r) • y
      have h1 : Continuous fun s : ℝ => -Real.sin (s / r) := (Real.continuous_sin.comp hd).neg
      have h2 : Continuous fun s : ℝ => Real.cos (s / r) := Real.continuous_cos.comp hd
      exact (h1.smul continuous_const).add (h2.smul continuous_const)
    · show Continuous fun s => (-1 / r) • (Real.cos (s / r) • x + Real.sin (s / r) • y)
      have : Continuous fun s : ℝ => Real.cos (s / r) • x + Real.sin (s / r) • y :=
        (((Real.continuous_cos.comp hd).smul continuous_const)).add
          ((Real.continuous_sin.comp hd).smul continuous_const)
      exact this.const_smul (-1 / r : ℝ)

/-- Away from flagged positions the configuration, its tangent and its curvature are continuous. -/
theorem C110_smooth (waypoints : List (Fin n → ℝ)) (dev s : ℝ) (config tangent curvature : ℝ → Fin n → ℝ)
    (hc : ∀ s, (makePath waypoints dev).config s = .ok (config s))
    (ht : ∀ s, (makePath waypoints dev).tangent s = .ok (tangent s))
    (hk : ∀ s, (makePath waypoints dev).curvature s = .ok (curvature s))
    (s0 : 0 < s) (s1 : s < (makePath waypoints dev).length)
    (hs : (s, true) ∉ (makePath waypoints dev).switching) :
    ContinuousAt config s ∧ ContinuousAt tangent s ∧ ContinuousAt curvature s := by
  rw [C110_boundaries waypoints dev s s0 s1] at hs
  rcases waypoints with - | ⟨a, - | ⟨b, rest⟩⟩
  · exact absurd (s0.trans s1) (lt_irrefl _)
  · exact absurd (s0.trans s1) (lt_irrefl _)
  · obtain ⟨g, l, plain, plen, pat, pseg, -, -⟩ := path_shape a b rest dev
    have h0 : ∀ k ∈ g :: l, 0 ≤ k.length := fun k hk => (plain k hk).listable.1
    rw [plen] at s1
    rw [pseg] at hs
    obtain ⟨m, t0, t1⟩ := locate_position g l h0 0 s s0.le (by rw [zero_add]; exact s1)
    rw [sub_zero] at m t0 t1
    set k := (locate g l s).1 with hkd
    set t := (locate g l s).2 with htd
    have t0' : 0 < t := by
      refine lt_of_le_of_ne t0 fun h => hs ⟨k, ?_⟩
      rw [← h, sub_zero] at m
      exact m
    have near : ∀ᶠ s' in nhds s, locate g l s' = (k, s' - (s - t)) := by
      have : Set.Ioo (s - t) (s - t + k.length) ∈ nhds s := Ioo_mem_nhds (by linarith) (by linarith)
      filter_upwards [this] with s' hs'
      have := locate_on g l h0 0 _ m (s' - (s - t)) (by linarith [hs'.1]) (by show _ < k.length; linarith [hs'.2])
      rwa [show s - t + (s' - (s - t)) - 0 = s' by ring] at this
    have ec : ∀ s, config s = (locate g l s).1.config (locate g l s).2 := by
      intro s
      have := hc s
      unfold Path.config at this
      rw [pat s] at this
      exact (Out.ok.inj this).symm
    have et : ∀ s, tangent s = (locate g l s).1.tangent (locate g l s).2 := by
      intro s
      have := ht s
      unfold Path.tangent at this
      rw [pat s] at this
      exact (Out.ok.inj this).symm
    have ek : ∀ s, curvature s = (locate g l s).1.curvature (locate g l s).2 := by
      intro s
      have := hk s
      unfold Path.curvature at this
      rw [pat s] at this
      exact (Out.ok.inj this).symm
    obtain ⟨p1, p2, p3⟩ := plain_continuous (g := k)
    have sh : Continuous fun s' : ℝ => s' - (s - t) := continuous_id.sub continuous_const
    refine ⟨(p1.comp sh).continuousAt.congr ?_, (p2.comp sh).continuousAt.congr ?_,
      (p3.comp sh).continuousAt.congr ?_⟩
    · filter_upwards [near] with s' hs'
      rw [ec, hs']; rfl
    · filter_upwards [near] with s' hs'
      rw [et, hs']; rfl
    · filter_upwards [near] with s' hs'
      rw [ek, hs']; rfl

theorem switchingPoint_eq (r x y φ : ℝ) (h0 : 0 < φ) (h1 : φ < Real.pi)
    (hz : -Real.sin φ * x + Real.cos φ * y = 0) (hne : Real.cos φ * x + Real.sin φ * y ≠ 0) :
    Segment.switchingPoint r x y = φ * r := by
  set ρ := Real.cos φ * x + Real.sin φ * y with hρ
  have hsc := Real.sin_sq_add_cos_sq φ
  have hx : x = ρ * Real.cos φ := by rw [hρ]; linear_combination (-Real.sin φ) * hz + (-x) * hsc
  have hy : y = ρ * Real.sin φ := by rw [hρ]; linear_combination (Real.cos φ) * hz + (-y) * hsc
  unfold Segment.switchingPoint Pose.atan2
  simp only
  rcases lt_or_gt_of_ne hne with hneg | hpos
  · have e : (⟨x, y⟩ : ℂ) = ((-ρ : ℝ) : ℂ) * (Complex.cos ((φ - Real.pi : ℝ) : ℂ) +
        Complex.sin ((φ - Real.pi : ℝ) : ℂ) * Complex.I) := by
      rw [← Complex.ofReal_cos, ← Complex.ofReal_sin, Real.cos_sub_pi, Real.sin_sub_pi]
      apply Complex.ext
      · simp [hx, -Complex.ofReal_cos, -Complex.ofReal_sin]
      · simp [hy, -Complex.ofReal_cos, -Complex.ofReal_sin]
    rw [e, Complex.arg_mul_cos_add_sin_mul_I (by linarith) ⟨by linarith, by linarith⟩, if_pos (by linarith),
      sub_add_cancel]
  · have e : (⟨x, y⟩ : ℂ) = ((ρ : ℝ) : ℂ) * (Complex.cos ((φ : ℝ) : ℂ) + Complex.sin ((φ : ℝ) : ℂ) * Complex.I) := by
      rw [← Complex.ofReal_cos, ← Complex.ofReal_sin]
      apply Complex.ext
      · simp [hx, -Complex.ofReal_cos, -Complex.ofReal_sin]
      · simp [hy, -Complex.ofReal_cos, -Complex.ofReal_sin]
    rw [e, Complex.arg_mul_cos_add_sin_mul_I hpos ⟨by linarith, h1.le⟩, if_neg (by linarith)]

/-- Wherever a coordinate of the tangent passes through zero there is a switching point. -/
theorem C110_zeros (waypoints : List (Fin n → ℝ)) (dev s : ℝ) (tangent curvature : Fin n → ℝ) (i : Fin n)
    (ht : (makePath waypoints dev).tangent s = .ok tangent)
    (hk : (makePath waypoints dev).curvature s = .ok curvature)
    (s0 : 0 < s) (s1 : s < (makePath waypoints dev).length) (hz : tangent i = 0) (hne : curvature i ≠ 0) :
    (s, true) ∈ (makePath waypoints dev).switching ∨ (s, false) ∈ (makePath waypoints dev).switching := by
  have hb := C110_boundaries waypoints dev s s0 s1
  rcases waypoints with - | ⟨a, - | ⟨b, rest⟩⟩
  · exact absurd (s0.trans s1) (lt_irrefl _)
  · exact absurd (s0.trans s1) (lt_irrefl _)
  · obtain ⟨g, l, plain, plen, pat, pseg, -, mem⟩ := path_shape a b rest dev
    have h0 : ∀ k ∈ g :: l, 0 ≤ k.length := fun k hk => (plain k hk).listable.1
    rw [plen] at s1
    obtain ⟨m, t0, t1⟩ := locate_position g l h0 0 s s0.le (by rw [zero_add]; exact s1)
    rw [sub_zero] at m t0 t1
    unfold Path.tangent at ht
    unfold Path.curvature at hk
    rw [pat s] at ht hk
    have ht := Out.ok.inj ht
    have hk := Out.ok.inj hk
    set k := (locate g l s).1 with hkd
    set t := (locate g l s).2 with htd
    rcases t0.lt_or_eq with t0' | t0'
    · right
      rw [mem]
      refine ⟨s1, _, m, Or.inl ⟨t, ?_, by show _ = (s - t + t, false); rw [sub_add_cancel]⟩⟩
      obtain ⟨km, -⟩ := positioned_mem h0 m
      rcases plain k km with ⟨p, q, e⟩ | ⟨len, r, z, x, y, e, e0, er, ep⟩
      · rw [e] at hk
        exact absurd (by rw [← hk]; rfl) hne
      · show t ∈ k.switchingPoints
        rw [e] at ht hk t1 ⊢
        have t1 : t < len := t1
        have hr : 0 < r := by
          rcases er.lt_or_eq with h | h
          · exact h
          · rw [← h, mul_zero] at ep; linarith
        have hz' : -Real.sin (t / r) * x i + Real.cos (t / r) * y i = 0 := by rw [← ht] at hz; exact hz
        have hne' : Real.cos (t / r) * x i + Real.sin (t / r) * y i ≠ 0 := by
          intro h
          apply hne
          rw [← hk]
          show -1 / r * (Real.cos (t / r) * x i + Real.sin (t / r) * y i) = 0
          rw [h, mul_zero]
        have hφ := switchingPoint_eq r (x i) (y i) (t / r) (div_pos t0' hr)
          (by rw [div_lt_iff₀ hr]; linarith) hz' hne'
        rw [div_mul_cancel₀ _ hr.ne'] at hφ
        unfold Segment.switchingPoints
        rw [List.mem_mergeSort, List.mem_filter, List.mem_map, decide_eq_true_eq]
        exact ⟨⟨i, List.mem_finRange i, hφ⟩, t1⟩
    · left
      refine hb.2 ⟨k, ?_⟩
      rw [← t0', sub_zero] at m
      rw [pseg]
      exact m

theorem switchingPoint_zero (r x y : ℝ) (hr : r ≠ 0) :
    -Real.sin (Segment.switchingPoint r x y / r) * x + Real.cos (Segment.switchingPoint r x y / r) * y = 0 := by
  have h1 := Complex.norm_mul_cos_arg (⟨x, y⟩ : ℂ)
  have h2 := Complex.norm_mul_sin_arg (⟨x, y⟩ : ℂ)
  unfold Segment.switchingPoint Pose.atan2
  simp only at h1 h2 ⊢
  rw [mul_div_cancel_right₀ _ hr]
  generalize Complex.arg ⟨x, y⟩ = φ at *
  generalize ‖(⟨x, y⟩ : ℂ)‖ = ρ at *
  split
  · rw [Real.sin_add_pi, Real.cos_add_pi, ← h1, ← h2]; ring
  · rw [← h1, ← h2]; ring

/-- At a switching point that is not flagged a coordinate of the tangent is zero. -/
theorem C110_unflagged (waypoints : List (Fin n → ℝ)) (dev s : ℝ) (tangent : Fin n → ℝ)
    (ht : (makePath waypoints dev).tangent s = .ok tangent)
    (hs : (s, false) ∈ (makePath waypoints dev).switching) : ∃ i, tangent i = 0 := by
  rcases waypoints with - | ⟨a, - | ⟨b, rest⟩⟩
  · simp [makePath] at hs
  · simp [makePath] at hs
  · obtain ⟨g, l, plain, plen, pat, pseg, -, mem⟩ := path_shape a b rest dev
    have h0 : ∀ k ∈ g :: l, 0 ≤ k.length := fun k hk => (plain k hk).listable.1
    obtain ⟨s1, k, hk, hm⟩ := (mem _).1 hs
    rcases hm with ⟨t, htm, e⟩ | e
    · obtain ⟨km, -⟩ := positioned_mem h0 hk
      have hlist := (plain k.2 km).listable.2.2 t htm
      have hloc := locate_on g l h0 0 k hk t hlist.1 hlist.2
      have es : s = k.1 + t := congrArg Prod.fst e
      rw [sub_zero, ← es] at hloc
      unfold Path.tangent at ht
      rw [pat s, hloc] at ht
      have ht : k.2.tangent t = tangent := Out.ok.inj ht
      rcases plain k.2 km with ⟨p, q, e⟩ | ⟨len, r, z, x, y, e, e0, er, ep⟩
      · rw [e] at htm; simp [Segment.switchingPoints] at htm
      · rw [e] at ht htm hlist
        have t1 : t < len := hlist.2
        have hr : 0 < r := by
          rcases er.lt_or_eq with h | h
          · exact h
          · rw [← h, mul_zero] at ep; linarith
        unfold Segment.switchingPoints at htm
        rw [List.mem_mergeSort, List.mem_filter, List.mem_map, decide_eq_true_eq] at htm
        obtain ⟨⟨i, -, hi⟩, -⟩ := htm
        refine ⟨i, ?_⟩
        rw [← ht, ← hi]
        exact switchingPoint_zero r (x i) (y i) hr.ne'
    · exact absurd (congrArg Prod.snd e) (by simp)

/-- The next switching point after a position: the nearest one beyond it, flagged if a flagged one is there;
the end of the path if there is none. -/
theorem C110_next (waypoints : List (Fin n → ℝ)) (dev s : ℝ) :
    let p := makePath waypoints dev
    let q := p.nextSwitchingPoint s
    ((∀ k ∈ p.switching, k.1 ≤ s) ∧ q = (p.length, true)) ∨
    (q ∈ p.switching ∧ s < q.1 ∧ (∀ k ∈ p.switching, s < k.1 → q.1 ≤ k.1) ∧
      (q.2 = true ↔ (q.1, true) ∈ p.switching)) := by
  intro p q
  have sorted : p.switching.Pairwise Before := by
    rcases waypoints with - | ⟨a, - | ⟨b, rest⟩⟩
    · exact List.Pairwise.nil
    · exact List.Pairwise.nil
    · obtain ⟨g, l, -, -, -, -, sorted, -⟩ := path_shape a b rest dev
      exact sorted
  have hq : q = match p.switching.dropWhile fun k => decide (k.1 ≤ s) with
    | [] => (p.length, true)
    | k :: _ => k := rfl
  have split := List.takeWhile_append_dropWhile (p := fun k : ℝ × Bool => decide (k.1 ≤ s)) (l := p.switching)
  have before : ∀ k ∈ p.switching.takeWhile (fun k => decide (k.1 ≤ s)), k.1 ≤ s := by
    intro k hk
    have := List.all_eq_true.1 (List.all_takeWhile (p := fun k : ℝ × Bool => decide (k.1 ≤ s)) (l := p.switching)) k hk
    exact of_decide_eq_true this
  rcases hd : p.switching.dropWhile (fun k => decide (k.1 ≤ s)) with - | ⟨k, rest⟩
  · left
    rw [hd, List.append_nil] at split
    refine ⟨fun k hk => before k (by rw [split]; exact hk), by rw [hq, hd]⟩
  · right
    have e : q = k := by rw [hq, hd]
    have hk : s < k.1 := by
      have := List.head_dropWhile_not (fun k : ℝ × Bool => decide (k.1 ≤ s)) (l := p.switching) (by rw [hd]; simp)
      simp only [hd, List.head_cons, decide_eq_false_iff_not, not_le] at this
      exact this
    rw [hd] at split
    have hsort : (k :: rest).Pairwise Before := by
      rw [← split] at sorted
      exact (List.pairwise_append.1 sorted).2.1
    rw [List.pairwise_cons] at hsort
    have hmem : k ∈ p.switching := by rw [← split]; simp
    have later : ∀ j ∈ p.switching, s < j.1 → j = k ∨ Before k j := by
      intro j hj hs
      rw [← split, List.mem_append, List.mem_cons] at hj
      rcases hj with hj | rfl | hj
      · exact absurd (before j hj) (not_le.2 hs)
      · exact Or.inl rfl
      · exact Or.inr (hsort.1 j hj)
    rw [e]
    refine ⟨hmem, hk, ?_, ?_⟩
    · intro j hj hs
      rcases later j hj hs with rfl | h
      · exact le_rfl
      · exact h.le
    · constructor
      · intro h; rw [show (k.1, true) = k from Prod.ext rfl h.symm]; exact hmem
      · intro h
        rcases later _ h hk with h | h
        · exact (congrArg Prod.snd h).symm
        · rcases h with h | ⟨-, h | h⟩
          · exact absurd h (lt_irrefl _)
          · exact h
          · exact absurd h (by simp)

end Verif.Totg
