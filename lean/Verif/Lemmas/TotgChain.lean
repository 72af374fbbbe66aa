import Verif.Props.TotgArc
import Verif.Props.Angles

/-! # Chains of path segments -/
namespace Verif.Totg
open Verif Matrix
open Verif.Projection (normalized length distance length_eq distance_eq norm_sq normalized_of_ne
  normalized_dot_self dot_self_pos)
open Filter Topology

variable {n : Nat}

theorem distance_comm (a b : Fin n → ℝ) : distance a b = distance b a := by
  rw [distance_eq, distance_eq, ← Projection.norm_neg, neg_sub]

theorem distance_self (a : Fin n → ℝ) : distance a a = 0 := by
  rw [distance_eq, sub_self]
  simp [Projection.norm, Projection.squaredNorm]

theorem distance_eq' (a b : Fin n → ℝ) : distance a b = Projection.norm (b - a) := by
  rw [distance_comm, distance_eq]

theorem direction_dot {a b : Fin n → ℝ} (h : 0 < distance a b) : direction a b ⬝ᵥ direction a b = 1 := by
  have hn : b - a ≠ 0 := norm_ne (by rw [← distance_eq']; exact h)
  rw [direction_eq hn]
  exact normalized_dot_self hn

theorem direction_norm {a b : Fin n → ℝ} (h : 0 < distance a b) : Projection.norm (direction a b) = 1 :=
  unit_norm (direction_dot h)

/-- from `a` the distance to `b` in the direction of `b` leads to `b` -/
theorem walk {a b : Fin n → ℝ} (h : 0 < distance a b) : distance a b • direction a b = b - a := by
  rw [direction, length_eq, ← distance_eq', smul_smul, mul_one_div_cancel h.ne', one_smul]

theorem distance_along {v : Fin n → ℝ} (hv : v ⬝ᵥ v = 1) (c : Fin n → ℝ) (s t : ℝ) :
    distance (c + s • v) (c + t • v) = |t - s| := by
  rw [distance_eq', show c + t • v - (c + s • v) = (t - s) • v by
    funext i; simp only [Pi.add_apply, Pi.sub_apply, Pi.smul_apply, smul_eq_mul]; ring, norm_scaled hv]

theorem direction_along {v : Fin n → ℝ} (hv : v ⬝ᵥ v = 1) (c : Fin n → ℝ) {s t : ℝ} (h : s < t) :
    direction (c + s • v) (c + t • v) = v := by
  rw [direction, length_eq, show c + t • v - (c + s • v) = (t - s) • v by
    funext i; simp only [Pi.add_apply, Pi.sub_apply, Pi.smul_apply, smul_eq_mul]; ring, norm_scaled hv,
    abs_of_pos (by linarith), smul_smul, one_div_mul_cancel (by linarith), one_smul]

/-- A line is traversed with unit speed. -/
theorem C107_line (start stop : Fin n → ℝ) (h : 0 < distance start stop) :
    let a := Segment.line start stop
    a.length = distance start stop ∧
    (∀ s, 0 ≤ s → s ≤ a.length → a.config s = start + s • direction start stop) ∧
    a.config 0 = start ∧ a.config a.length = stop ∧
    (∀ s, s ≤ 0 → a.config s = start) ∧ (∀ s, a.length ≤ s → a.config s = stop) ∧
    (∀ s, a.tangent s = direction start stop) ∧ length (direction start stop) = 1 ∧
    (∀ s, a.curvature s = 0) := by
  intro a
  have e : Projection.norm (stop - start) = distance start stop := (distance_eq' _ _).symm
  have hl : a.length = distance start stop := e
  have hc : ∀ s, a.config s = (1 - min 1 (max 0 (s / distance start stop))) • start +
      min 1 (max 0 (s / distance start stop)) • stop := by
    intro s
    show (1 - (Angles.safetyCheckUnitInterval (s / Projection.norm (stop - start))).1) • start +
      (Angles.safetyCheckUnitInterval (s / Projection.norm (stop - start))).1 • stop = _
    rw [Angles.unit_eq, e]
  have hstop : stop = start + distance start stop • direction start stop := by
    rw [walk h, add_sub_cancel]
  have lo : ∀ s, s ≤ 0 → a.config s = start := by
    intro s hs
    rw [hc, max_eq_left (div_nonpos_of_nonpos_of_nonneg hs h.le), min_eq_right zero_le_one]
    simp
  have hi : ∀ s, a.length ≤ s → a.config s = stop := by
    intro s hs
    have : 1 ≤ s / distance start stop := by rw [le_div_iff₀ h, one_mul, ← hl]; exact hs
    rw [hc, max_eq_right (by linarith), min_eq_left this]
    simp
  refine ⟨hl, ?_, lo 0 le_rfl, hi _ le_rfl, lo, hi, ?_, by rw [length_eq]; exact direction_norm h,
    fun _ => rfl⟩
  · intro s s0 s1
    have h1 : s / distance start stop ≤ 1 := by rw [div_le_one h, ← hl]; exact s1
    rw [hc, max_eq_right (div_nonneg s0 h.le), min_eq_right h1]
    conv_lhs => rw [hstop]
    rw [smul_add, ← add_assoc, ← add_smul, sub_add_cancel, one_smul, smul_smul]
    rw [← hstop, div_mul_cancel₀ _ h.ne']
  · intro s
    show (1 / Projection.norm (stop - start)) • (stop - start) = _
    rw [direction, length_eq]

/-! ## Finding the segment at a position -/

/-- the segment at a position, and the position on it -/
noncomputable def locate : Segment n → List (Segment n) → ℝ → Segment n × ℝ
  | g, [], s => (g, s)
  | g, g' :: rest, s => if s < g.length then (g, s) else locate g' rest (s - g.length)

/-- segments with their positions -/
noncomputable def positioned : ℝ → List (Segment n) → List (ℝ × Segment n)
  | _, [] => []
  | p, g :: rest => (p, g) :: positioned (p + g.length) rest

noncomputable def total (l : List (Segment n)) : ℝ := (l.map Segment.length).sum

theorem fold_add (l : List (Segment n)) (p : Path n) :
    (l.foldl Path.add p).length = p.length + total l ∧
    (l.foldl Path.add p).segments = p.segments ++ positioned p.length l := by
  induction l generalizing p with
  | nil => simp [total, positioned]
  | cons g rest ih =>
    rw [List.foldl_cons]
    obtain ⟨h1, h2⟩ := ih (p.add g)
    rw [h1, h2]
    have e1 : (p.add g).length = p.length + g.length := rfl
    have e2 : (p.add g).segments = p.segments ++ [(p.length, g)] := rfl
    rw [e1, e2]
    constructor
    · simp only [total, List.map_cons, List.sum_cons]; ring
    · rw [List.append_assoc]; rfl

theorem findSegment_locate (s p : ℝ) (g : Segment n) (rest : List (Segment n)) :
    ((findSegment s (p, g) (positioned (p + g.length) rest)).2,
      s - (findSegment s (p, g) (positioned (p + g.length) rest)).1) = locate g rest (s - p) := by
  induction rest generalizing p g with
  | nil => rfl
  | cons g' rest ih =>
    simp only [positioned, findSegment, locate]
    by_cases h : s ≥ p + g.length
    · rw [if_pos h, if_neg (by linarith), ih, sub_sub]
    · rw [if_neg h, if_pos (by linarith [not_le.1 h])]

/-- the segments with a positive length -/
noncomputable def live (l : List (Segment n)) : List (Segment n) := l.filter fun g => decide (0 < g.length)

theorem live_cons_pos {g : Segment n} (h : 0 < g.length) (l : List (Segment n)) : live (g :: l) = g :: live l := by
  simp [live, h]

theorem live_cons_zero {g : Segment n} (h : g.length = 0) (l : List (Segment n)) : live (g :: l) = live l := by
  simp [live, h]

theorem total_live {l : List (Segment n)} (h0 : ∀ g ∈ l, 0 ≤ g.length) : total (live l) = total l := by
  induction l with
  | nil => rfl
  | cons g rest ih =>
    have ih' := ih fun k hk => h0 k (List.mem_cons_of_mem _ hk)
    rcases (h0 g List.mem_cons_self).lt_or_eq with h | h
    · rw [live_cons_pos h]
      simp only [total, List.map_cons, List.sum_cons] at ih' ⊢
      rw [ih']
    · rw [live_cons_zero h.symm, ih']
      simp only [total, List.map_cons, List.sum_cons]
      rw [← h, zero_add]

theorem locate_live (g : Segment n) (rest : List (Segment n)) (h0 : ∀ k ∈ g :: rest, 0 ≤ k.length)
    (hlast : 0 < ((g :: rest).getLast (List.cons_ne_nil _ _)).length) {s : ℝ} (hs : 0 ≤ s) :
    ∃ g' rest', live (g :: rest) = g' :: rest' ∧ locate g rest s = locate g' rest' s := by
  induction rest generalizing g s with
  | nil => exact ⟨g, [], live_cons_pos hlast [], rfl⟩
  | cons k rest ih =>
    have h0' : ∀ j ∈ k :: rest, 0 ≤ j.length := fun j hj => h0 j (List.mem_cons_of_mem _ hj)
    have hlast' : 0 < ((k :: rest).getLast (List.cons_ne_nil _ _)).length := by
      rwa [List.getLast_cons (List.cons_ne_nil _ _)] at hlast
    rcases (h0 g List.mem_cons_self).lt_or_eq with h | h
    · obtain ⟨g', rest', e, -⟩ := ih k h0' hlast' hs
      refine ⟨g, g' :: rest', by rw [live_cons_pos h, e], ?_⟩
      simp only [locate]
      by_cases hlt : s < g.length
      · rw [if_pos hlt, if_pos hlt]
      · rw [if_neg hlt, if_neg hlt]
        obtain ⟨g'', rest'', e', q⟩ := ih k h0' hlast' (s := s - g.length) (by linarith [not_lt.1 hlt])
        rw [e] at e'
        obtain ⟨rfl, rfl⟩ := List.cons.inj e'
        exact q
    · obtain ⟨g', rest', e, q⟩ := ih k h0' hlast' hs
      refine ⟨g', rest', by rw [live_cons_zero h.symm, e], ?_⟩
      rw [← q]
      simp only [locate]
      rw [if_neg (by linarith), ← h, sub_zero]

/-! ## Smooth chains -/

/-- a segment that is traversed with unit speed -/
structure Regular (g : Segment n) : Prop where
  pos : 0 < g.length
  deriv : ∀ s, 0 ≤ s → s < g.length → HasDerivWithinAt g.config (g.tangent s) (Set.Ici s) s ∧
    HasDerivWithinAt g.tangent (g.curvature s) (Set.Ici s) s
  left : ∀ s, 0 < s → s ≤ g.length → Tendsto g.config (𝓝[<] s) (𝓝 (g.config s)) ∧
    Tendsto g.tangent (𝓝[<] s) (𝓝 (g.tangent s))
  unit : ∀ s, length (g.tangent s) = 1

theorem regular_line {start stop : Fin n → ℝ} (h : 0 < distance start stop) : Regular (Segment.line start stop) := by
  obtain ⟨hl, hc, -, -, -, -, ht, hu, hk⟩ := C107_line start stop h
  refine ⟨by rw [hl]; exact h, ?_, ?_, fun s => by rw [ht, hu]⟩
  · intro s s0 s1
    refine ⟨?_, ?_⟩
    · rw [ht]
      have hd : HasDerivAt (fun t : ℝ => start + t • direction start stop) (direction start stop) s := by
        have := ((hasDerivAt_id s).smul_const (direction start stop)).const_add start
        rwa [one_smul] at this
      refine hd.hasDerivWithinAt.congr_of_eventuallyEq ?_ (hc s s0 s1.le)
      filter_upwards [Ico_mem_nhdsGE s1] with t ht
      exact hc t (s0.trans ht.1) ht.2.le
    · rw [hk, show (Segment.line start stop).tangent = fun _ => direction start stop from funext ht]
      exact hasDerivWithinAt_const _ _ _
  · intro s s0 s1
    refine ⟨?_, ?_⟩
    · have hcont : Tendsto (fun t : ℝ => start + t • direction start stop) (𝓝[<] s)
          (𝓝 (start + s • direction start stop)) :=
        ((continuous_const.add (continuous_id.smul continuous_const)).tendsto s).mono_left nhdsWithin_le_nhds
      rw [hc s s0.le s1]
      refine hcont.congr' ?_
      filter_upwards [Ioo_mem_nhdsLT s0] with t ht
      exact (hc t ht.1.le (ht.2.le.trans s1)).symm
    · rw [show (Segment.line start stop).tangent = fun _ => direction start stop from funext ht]
      exact tendsto_const_nhds

theorem regular_of_deriv {g : Segment n} (h : 0 < g.length)
    (hd : ∀ s, HasDerivAt g.config (g.tangent s) s ∧ HasDerivAt g.tangent (g.curvature s) s ∧
      length (g.tangent s) = 1) : Regular g :=
  ⟨h, fun s _ _ => ⟨(hd s).1.hasDerivWithinAt, (hd s).2.1.hasDerivWithinAt⟩,
    fun s _ _ => ⟨(hd s).1.continuousAt.tendsto.mono_left nhdsWithin_le_nhds,
      (hd s).2.1.continuousAt.tendsto.mono_left nhdsWithin_le_nhds⟩, fun s => (hd s).2.2⟩

/-- the second segment begins where and in the direction in which the first ends, up to a tolerance -/
def Joins (ε : ℝ) (a b : Segment n) : Prop :=
  distance (a.config a.length) (b.config 0) ≤ ε ∧ distance (a.tangent a.length) (b.tangent 0) ≤ ε

theorem total_pos {l : List (Segment n)} (h : ∀ g ∈ l, Regular g) : 0 ≤ total l := by
  induction l with
  | nil => exact le_rfl
  | cons g rest ih =>
    simp only [total, List.map_cons, List.sum_cons]
    have := ih fun k hk => h k (List.mem_cons_of_mem _ hk)
    have := (h g List.mem_cons_self).pos
    simp only [total] at *
    linarith

theorem total_cons (g : Segment n) (l : List (Segment n)) : total (g :: l) = g.length + total l := rfl

theorem locate_zero {g : Segment n} (h : 0 < g.length) (rest : List (Segment n)) : locate g rest 0 = (g, 0) := by
  cases rest with
  | nil => rfl
  | cons k rest => simp only [locate]; rw [if_pos h]

/-- position on a chain of regular segments -/
theorem chain_right (g : Segment n) (rest : List (Segment n)) (h : ∀ k ∈ g :: rest, Regular k) (s : ℝ)
    (s0 : 0 ≤ s) (s1 : s < total (g :: rest)) :
    HasDerivWithinAt (fun s => (locate g rest s).1.config (locate g rest s).2)
      ((locate g rest s).1.tangent (locate g rest s).2) (Set.Ici s) s ∧
    HasDerivWithinAt (fun s => (locate g rest s).1.tangent (locate g rest s).2)
      ((locate g rest s).1.curvature (locate g rest s).2) (Set.Ici s) s := by
  induction rest generalizing g s with
  | nil =>
    rw [total_cons] at s1
    have : s < g.length := by simpa [total] using s1
    exact (h g List.mem_cons_self).deriv s s0 this
  | cons k rest ih =>
    simp only [locate]
    by_cases hlt : s < g.length
    · rw [if_pos hlt]
      obtain ⟨d1, d2⟩ := (h g List.mem_cons_self).deriv s s0 hlt
      constructor
      · refine d1.congr_of_eventuallyEq ?_ (by rw [if_pos hlt])
        filter_upwards [Ico_mem_nhdsGE hlt] with t ht
        rw [if_pos ht.2]
      · refine d2.congr_of_eventuallyEq ?_ (by rw [if_pos hlt])
        filter_upwards [Ico_mem_nhdsGE hlt] with t ht
        rw [if_pos ht.2]
    · rw [if_neg hlt]
      have hge := not_lt.1 hlt
      obtain ⟨d1, d2⟩ := ih k (fun j hj => h j (List.mem_cons_of_mem _ hj)) (s - g.length) (by linarith)
        (by rw [total_cons] at s1; linarith)
      have hshift : HasDerivWithinAt (fun t : ℝ => t - g.length) 1 (Set.Ici s) s :=
        ((hasDerivAt_id s).sub_const g.length).hasDerivWithinAt
      have hmaps : Set.MapsTo (fun t : ℝ => t - g.length) (Set.Ici s) (Set.Ici (s - g.length)) :=
        fun t ht => sub_le_sub_right (Set.mem_Ici.1 ht) _
      constructor
      · have := d1.scomp s hshift hmaps
        rw [one_smul] at this
        refine this.congr_of_mem ?_ Set.self_mem_Ici
        intro t ht
        have : ¬ t < g.length := not_lt.2 (hge.trans ht)
        simp only [if_neg this, Function.comp]
      · have := d2.scomp s hshift hmaps
        rw [one_smul] at this
        refine this.congr_of_mem ?_ Set.self_mem_Ici
        intro t ht
        have : ¬ t < g.length := not_lt.2 (hge.trans ht)
        simp only [if_neg this, Function.comp]

theorem chain_left (ε : ℝ) (hε : 0 ≤ ε) (g : Segment n) (rest : List (Segment n))
    (h : ∀ k ∈ g :: rest, Regular k)
    (hj : (g :: rest).IsChain (Joins ε)) (s : ℝ) (s0 : 0 < s) (s1 : s ≤ total (g :: rest)) :
    ∃ c t, Tendsto (fun s => (locate g rest s).1.config (locate g rest s).2) (𝓝[<] s) (𝓝 c) ∧
      Tendsto (fun s => (locate g rest s).1.tangent (locate g rest s).2) (𝓝[<] s) (𝓝 t) ∧
      distance c ((locate g rest s).1.config (locate g rest s).2) ≤ ε ∧
      distance t ((locate g rest s).1.tangent (locate g rest s).2) ≤ ε := by
  induction rest generalizing g s with
  | nil =>
    have : s ≤ g.length := by rw [total_cons] at s1; simpa [total] using s1
    obtain ⟨l1, l2⟩ := (h g List.mem_cons_self).left s s0 this
    refine ⟨_, _, l1, l2, ?_, ?_⟩
    · simp only [locate]; rw [distance_self]; exact hε
    · simp only [locate]; rw [distance_self]; exact hε
  | cons k rest ih =>
    simp only [locate]
    rcases le_or_gt s g.length with hle | hgt
    · obtain ⟨l1, l2⟩ := (h g List.mem_cons_self).left s s0 hle
      refine ⟨_, _, l1.congr' ?_, l2.congr' ?_, ?_, ?_⟩
      · filter_upwards [self_mem_nhdsWithin] with t ht
        rw [if_pos (lt_of_lt_of_le ht hle)]
      · filter_upwards [self_mem_nhdsWithin] with t ht
        rw [if_pos (lt_of_lt_of_le ht hle)]
      · rcases hle.lt_or_eq with hlt | heq
        · rw [if_pos hlt, distance_self]; exact hε
        · rw [if_neg (by linarith), heq, sub_self,
            locate_zero (h k (List.mem_cons_of_mem _ List.mem_cons_self)).pos]
          exact (List.isChain_cons_cons.1 hj).1.1
      · rcases hle.lt_or_eq with hlt | heq
        · rw [if_pos hlt, distance_self]; exact hε
        · rw [if_neg (by linarith), heq, sub_self,
            locate_zero (h k (List.mem_cons_of_mem _ List.mem_cons_self)).pos]
          exact (List.isChain_cons_cons.1 hj).1.2
    · obtain ⟨c, t, l1, l2, b1, b2⟩ := ih k (fun j hj => h j (List.mem_cons_of_mem _ hj))
        (List.isChain_cons_cons.1 hj).2 (s - g.length) (by linarith) (by rw [total_cons] at s1; linarith)
      have hshift : Tendsto (fun t : ℝ => t - g.length) (𝓝[<] s) (𝓝[<] (s - g.length)) := by
        refine tendsto_nhdsWithin_iff.2 ⟨?_, ?_⟩
        · exact ((continuous_id.sub continuous_const).tendsto s).mono_left nhdsWithin_le_nhds
        · filter_upwards [self_mem_nhdsWithin] with t ht
          exact sub_lt_sub_right (Set.mem_Iio.1 ht) _
      refine ⟨c, t, (l1.comp hshift).congr' ?_, (l2.comp hshift).congr' ?_, ?_, ?_⟩
      · filter_upwards [Ioo_mem_nhdsLT hgt] with t ht
        simp only [Function.comp, if_neg (not_lt.2 ht.1.le)]
      · filter_upwards [Ioo_mem_nhdsLT hgt] with t ht
        simp only [Function.comp, if_neg (not_lt.2 ht.1.le)]
      · rw [if_neg (not_lt.2 hgt.le)]; exact b1
      · rw [if_neg (not_lt.2 hgt.le)]; exact b2

/-- every position on the chain is one on one of its segments -/
theorem chain_mem (g : Segment n) (rest : List (Segment n)) (s : ℝ)
    (s0 : 0 ≤ s) (s1 : s ≤ total (g :: rest)) :
    (locate g rest s).1 ∈ g :: rest ∧ 0 ≤ (locate g rest s).2 ∧
      (locate g rest s).2 ≤ (locate g rest s).1.length := by
  induction rest generalizing g s with
  | nil => rw [total_cons] at s1; exact ⟨List.mem_cons_self, s0, by simpa [total, locate] using s1⟩
  | cons k rest ih =>
    simp only [locate]
    by_cases hlt : s < g.length
    · rw [if_pos hlt]; exact ⟨List.mem_cons_self, s0, hlt.le⟩
    · rw [if_neg hlt]
      obtain ⟨a, b⟩ := ih k (s - g.length) (by linarith [not_lt.1 hlt])
        (by rw [total_cons] at s1; linarith)
      exact ⟨List.mem_cons_of_mem _ a, b⟩

/-- every position on a segment is one on the chain -/
theorem chain_hit (g : Segment n) (rest : List (Segment n)) (h : ∀ k ∈ g :: rest, Regular k) (k : Segment n)
    (hk : k ∈ g :: rest) (t : ℝ) (t0 : 0 ≤ t) (t1 : t < k.length) :
    ∃ s, 0 ≤ s ∧ s ≤ total (g :: rest) ∧ locate g rest s = (k, t) := by
  induction rest generalizing g with
  | nil =>
    rw [List.mem_singleton] at hk
    subst hk
    exact ⟨t, t0, by rw [total_cons]; simpa [total] using t1.le, rfl⟩
  | cons j rest ih =>
    have h' : ∀ k ∈ j :: rest, Regular k := fun k hk => h k (List.mem_cons_of_mem _ hk)
    rcases List.mem_cons.1 hk with rfl | hk
    · refine ⟨t, t0, ?_, ?_⟩
      · rw [total_cons]; linarith [total_pos h']
      · simp only [locate]; rw [if_pos t1]
    · obtain ⟨s, s0, s1, e⟩ := ih j h' hk
      have hg := (h g List.mem_cons_self).pos
      refine ⟨s + g.length, by linarith, by rw [total_cons]; linarith, ?_⟩
      simp only [locate]
      rw [if_neg (by linarith), add_sub_cancel_right, e]

/-- the end of the chain -/
theorem chain_end (g : Segment n) (rest : List (Segment n)) (h : ∀ k ∈ g :: rest, Regular k) :
    locate g rest (total (g :: rest)) = ((g :: rest).getLast (List.cons_ne_nil _ _),
      ((g :: rest).getLast (List.cons_ne_nil _ _)).length) := by
  induction rest generalizing g with
  | nil => simp [locate, total]
  | cons j rest ih =>
    have h' : ∀ k ∈ j :: rest, Regular k := fun k hk => h k (List.mem_cons_of_mem _ hk)
    simp only [locate]
    rw [total_cons, if_neg (by linarith [total_pos h']), add_sub_cancel_left, ih j h',
      List.getLast_cons (List.cons_ne_nil _ _)]

end Verif.Totg
