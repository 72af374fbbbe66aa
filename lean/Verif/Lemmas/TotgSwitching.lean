import Verif.Props.TotgPath

/-! # The list of switching points -/
namespace Verif.Totg
open Verif Matrix
open Verif.Projection (normalized length distance)

variable {n : Nat}

/-- ascending, and at the same position discontinuities first -/
def Before (a b : ℝ × Bool) : Prop := a.1 < b.1 ∨ (a.1 = b.1 ∧ (a.2 = true ∨ b.2 = false))

theorem Before.le {a b : ℝ × Bool} (h : Before a b) : a.1 ≤ b.1 := by
  rcases h with h | h
  · exact h.le
  · exact h.1.le

/-- a segment whose switching points can be listed -/
def Listable (g : Segment n) : Prop :=
  0 ≤ g.length ∧ g.switchingPoints.Pairwise (· ≤ ·) ∧ ∀ t ∈ g.switchingPoints, 0 ≤ t ∧ t < g.length

theorem trim_eq_filter (L : ℝ) (l : List (ℝ × Bool)) (h : l.Pairwise Before) :
    trim L l = l.filter fun q => decide (q.1 < L) := by
  unfold trim
  have key : ∀ m : List (ℝ × Bool), m.Pairwise (fun a b => b.1 ≤ a.1) →
      m.dropWhile (fun p => decide (p.1 ≥ L)) = m.filter fun q => decide (q.1 < L) := by
    intro m hm
    induction m with
    | nil => rfl
    | cons a m ih =>
      rw [List.pairwise_cons] at hm
      by_cases hge : a.1 ≥ L
      · rw [List.dropWhile_cons_of_pos (by simpa using hge), List.filter_cons_of_neg (by simpa using hge), ih hm.2]
      · rw [List.dropWhile_cons_of_neg (by simpa using hge), List.filter_cons_of_pos (by simpa using hge),
          List.filter_eq_self.2]
        intro b hb
        have := hm.1 b hb
        simp only [decide_eq_true_eq]
        exact lt_of_le_of_lt this (not_le.1 hge)
  rw [key, List.filter_reverse, List.reverse_reverse]
  rw [List.pairwise_reverse]
  exact h.imp Before.le

/-- what holds of the list while segments are added -/
structure Listed (p : Path n) : Prop where
  sorted : p.switching.Pairwise Before
  bound : ∀ q ∈ p.switching, 0 ≤ q.1 ∧ q.1 ≤ p.length ∧ (q.1 = p.length → q.2 = true)
  nonneg : 0 ≤ p.length

theorem add_points (p : Path n) (g : Segment n) (hp : Listed p) (hg : Listable g) :
    (p.switching ++ g.switchingPoints.map fun t => (p.length + t, false)).Pairwise Before := by
  rw [List.pairwise_append]
  refine ⟨hp.sorted, ?_, ?_⟩
  · rw [List.pairwise_map]
    refine hg.2.1.imp ?_
    intro a b hab
    rcases hab.lt_or_eq with h | h
    · left; exact add_lt_add_right h _
    · right; exact ⟨by rw [h], Or.inr rfl⟩
  · intro a ha b hb
    obtain ⟨t, ht, rfl⟩ := List.mem_map.1 hb
    obtain ⟨-, h1, h2⟩ := hp.bound a ha
    have h3 := (hg.2.2 t ht).1
    rcases h1.lt_or_eq with h | h
    · left; show a.1 < p.length + t; linarith
    · rcases h3.lt_or_eq with h' | h'
      · left; show a.1 < p.length + t; linarith
      · right; exact ⟨by show a.1 = p.length + t; linarith, Or.inr rfl⟩

theorem add_switching (p : Path n) (g : Segment n) (hp : Listed p) (hg : Listable g) :
    (p.add g).switching =
      ((p.switching ++ g.switchingPoints.map fun t => (p.length + t, false)).filter
        fun q => decide (q.1 < p.length + g.length)) ++ [(p.length + g.length, true)] := by
  show trim _ _ ++ _ = _
  rw [trim_eq_filter _ _ (add_points p g hp hg)]

theorem add_listed (p : Path n) (g : Segment n) (hp : Listed p) (hg : Listable g) : Listed (p.add g) := by
  have hn : 0 ≤ p.length + g.length := add_nonneg hp.nonneg hg.1
  refine ⟨?_, ?_, hn⟩
  · rw [add_switching p g hp hg, List.pairwise_append]
    refine ⟨(add_points p g hp hg).filter _, List.pairwise_singleton _ _, ?_⟩
    intro a ha b hb
    rw [List.mem_singleton] at hb
    subst hb
    rw [List.mem_filter, decide_eq_true_eq] at ha
    exact Or.inl ha.2
  · intro q hq
    rw [add_switching p g hp hg, List.mem_append, List.mem_singleton, List.mem_filter, decide_eq_true_eq,
      List.mem_append] at hq
    show 0 ≤ q.1 ∧ q.1 ≤ p.length + g.length ∧ (q.1 = p.length + g.length → q.2 = true)
    rcases hq with ⟨hq, hlt⟩ | rfl
    · refine ⟨?_, hlt.le, fun h => absurd h hlt.ne⟩
      rcases hq with hq | hq
      · exact (hp.bound q hq).1
      · obtain ⟨t, ht, rfl⟩ := List.mem_map.1 hq
        exact add_nonneg hp.nonneg (hg.2.2 t ht).1
    · exact ⟨hn, le_rfl, fun _ => rfl⟩

/-- the entries that a segment at a position contributes -/
def Marks (pos : ℝ) (g : Segment n) (q : ℝ × Bool) : Prop :=
  (∃ t ∈ g.switchingPoints, q = (pos + t, false)) ∨ q = (pos + g.length, true)

theorem fold_listed (l : List (Segment n)) (p : Path n) (hp : Listed p) (hl : ∀ g ∈ l, Listable g) :
    Listed (l.foldl Path.add p) := by
  induction l generalizing p with
  | nil => exact hp
  | cons g l ih =>
    exact ih _ (add_listed p g hp (hl g List.mem_cons_self)) fun k hk => hl k (List.mem_cons_of_mem _ hk)

theorem positioned_mem {l : List (Segment n)} (h : ∀ g ∈ l, 0 ≤ g.length) {p0 : ℝ} {q : ℝ × Segment n}
    (hq : q ∈ positioned p0 l) : q.2 ∈ l ∧ p0 ≤ q.1 ∧ q.1 + q.2.length ≤ p0 + total l := by
  induction l generalizing p0 with
  | nil => simp [positioned] at hq
  | cons g l ih =>
    have h' : ∀ k ∈ l, 0 ≤ k.length := fun k hk => h k (List.mem_cons_of_mem _ hk)
    have tot : 0 ≤ total l := by
      clear ih hq
      induction l with
      | nil => exact le_rfl
      | cons k l ih2 =>
        rw [total_cons]
        have := ih2 (fun j hj => h j (by
          rcases List.mem_cons.1 hj with rfl | hj
          · exact List.mem_cons_self
          · exact List.mem_cons_of_mem _ (List.mem_cons_of_mem _ hj)))
          (fun j hj => h' j (List.mem_cons_of_mem _ hj))
        have := h' k List.mem_cons_self
        linarith
    have hg := h g List.mem_cons_self
    rw [total_cons]
    rcases List.mem_cons.1 hq with rfl | hq
    · exact ⟨List.mem_cons_self, le_rfl, by show p0 + g.length ≤ _; linarith⟩
    · obtain ⟨a, b, c⟩ := ih h' hq
      exact ⟨List.mem_cons_of_mem _ a, by linarith, by linarith⟩

theorem fold_marks (l : List (Segment n)) (g0 : Segment n) (p : Path n) (hp : Listed p)
    (hl : ∀ g ∈ g0 :: l, Listable g) (q : ℝ × Bool) :
    q ∈ ((g0 :: l).foldl Path.add p).switching.dropLast ↔
      q.1 < p.length + total (g0 :: l) ∧
        (q ∈ p.switching ∨ ∃ k ∈ positioned p.length (g0 :: l), Marks k.1 k.2 q) := by
  have hg0 := hl g0 List.mem_cons_self
  induction l generalizing g0 p with
  | nil =>
    rw [List.foldl_cons, List.foldl_nil, add_switching p g0 hp hg0, List.dropLast_concat, List.mem_filter,
      decide_eq_true_eq, and_comm, List.mem_append, List.mem_map]
    have : total [g0] = g0.length := by simp [total]
    rw [this]
    refine and_congr_right fun hlt => or_congr_right ?_
    constructor
    · rintro ⟨t, ht, rfl⟩
      exact ⟨_, List.mem_cons_self, Or.inl ⟨t, ht, rfl⟩⟩
    · rintro ⟨k, hk, hm⟩
      simp only [positioned, List.mem_singleton] at hk
      subst hk
      rcases hm with ⟨t, ht, rfl⟩ | rfl
      · exact ⟨t, ht, rfl⟩
      · exact absurd hlt (lt_irrefl _)
  | cons g1 l ih =>
    have hl' : ∀ g ∈ g1 :: l, Listable g := fun g hg => hl g (List.mem_cons_of_mem _ hg)
    rw [List.foldl_cons]
    refine (ih g1 (p.add g0) (add_listed p g0 hp hg0) hl' (hl' g1 List.mem_cons_self)).trans ?_
    have e : (p.add g0).length = p.length + g0.length := rfl
    rw [e, total_cons g0, ← add_assoc]
    refine and_congr_right fun hlt => ?_
    rw [add_switching p g0 hp hg0, List.mem_append, List.mem_singleton, List.mem_filter, decide_eq_true_eq,
      List.mem_append, List.mem_map]
    have later : ∀ k ∈ positioned (p.length + g0.length) (g1 :: l), p.length + g0.length ≤ k.1 :=
      fun k hk => (positioned_mem (fun g hg => (hl' g hg).1) hk).2.1
    constructor
    · rintro ((⟨(hq | ⟨t, ht, rfl⟩), -⟩ | rfl) | ⟨k, hk, hm⟩)
      · exact Or.inl hq
      · exact Or.inr ⟨_, List.mem_cons_self, Or.inl ⟨t, ht, rfl⟩⟩
      · exact Or.inr ⟨_, List.mem_cons_self, Or.inr rfl⟩
      · exact Or.inr ⟨k, List.mem_cons_of_mem _ hk, hm⟩
    · rintro (hq | ⟨k, hk, hm⟩)
      · obtain ⟨-, h1, h2⟩ := hp.bound q hq
        have h3 := hg0.1
        by_cases hlt' : q.1 < p.length + g0.length
        · exact Or.inl (Or.inl ⟨Or.inl hq, hlt'⟩)
        · left; right
          have e1 : q.1 = p.length := le_antisymm h1 (by linarith [not_lt.1 hlt'])
          have e2 : q.1 = p.length + g0.length := le_antisymm (by linarith) (not_lt.1 hlt')
          exact Prod.ext e2 (h2 e1)
      · rcases List.mem_cons.1 hk with rfl | hk
        · rcases hm with ⟨t, ht, rfl⟩ | rfl
          · have := (hg0.2.2 t ht).2
            exact Or.inl (Or.inl ⟨Or.inr ⟨t, ht, rfl⟩, by show p.length + t < _; linarith⟩)
          · exact Or.inl (Or.inr rfl)
        · exact Or.inr ⟨k, hk, hm⟩

/-! ## Segments that a path consists of -/

theorem angle_nonneg (x y : ℝ) : 0 ≤ (if Pose.atan2 y x < 0 then Pose.atan2 y x + Real.pi else Pose.atan2 y x) := by
  split
  · have := Complex.neg_pi_lt_arg (⟨x, y⟩ : ℂ)
    unfold Pose.atan2
    linarith
  · next h => exact not_lt.1 h

theorem listable_line (a b : Fin n → ℝ) : Listable (Segment.line a b) :=
  ⟨Projection.norm_nonneg _, List.Pairwise.nil, fun t ht => by simp [Segment.switchingPoints] at ht⟩

theorem listable_arc (len r : ℝ) (c x y : Fin n → ℝ) (hl : 0 ≤ len) (hr : 0 ≤ r) :
    Listable (Segment.arc len r c x y) := by
  refine ⟨hl, ?_, ?_⟩
  · have := List.pairwise_mergeSort (le := fun a b : ℝ => decide (a ≤ b))
      (by intro a b c; simp only [decide_eq_true_eq]; exact le_trans)
      (by intro a b; simp only [Bool.or_eq_true, decide_eq_true_eq]; exact le_total a b)
      (((List.finRange n).map fun i => Segment.switchingPoint r (x i) (y i)).filter fun p => decide (p < len))
    refine this.imp ?_
    intro a b h
    exact of_decide_eq_true h
  · intro t ht
    unfold Segment.switchingPoints at ht
    rw [List.mem_mergeSort, List.mem_filter, List.mem_map, decide_eq_true_eq] at ht
    obtain ⟨⟨i, -, rfl⟩, ht⟩ := ht
    exact ⟨mul_nonneg (angle_nonneg _ _) hr, ht⟩

/-- the blend of a positive deviation -/
theorem blend_shape (a b c : Fin n → ℝ) (dev : ℝ) (hdev : 0 < dev) :
    ∃ len r z x y, blend a b c dev = .arc len r z x y ∧ 0 ≤ len ∧ 0 ≤ r ∧ len ≤ Real.pi * r := by
  unfold blend
  by_cases h1 : Projection.norm (b - a) < 1 / 10 ^ 6 ∨ Projection.norm (c - b) < 1 / 10 ^ 6
  · rw [if_pos h1]
    exact ⟨0, 1, b, 0, 0, rfl, le_rfl, zero_le_one, by linarith [Real.pi_pos]⟩
  · rw [if_neg h1]
    simp only
    by_cases h2 : Projection.norm (normalized (b - a) - normalized (c - b)) < 1 / 10 ^ 6
    · rw [if_pos h2]
      exact ⟨0, 1, b, 0, 0, rfl, le_rfl, zero_le_one, by linarith [Real.pi_pos]⟩
    · rw [if_neg h2]
      set θ := Real.arccos (normalized (b - a) ⬝ᵥ normalized (c - b)) with hθ
      have t0 : 0 ≤ θ := Real.arccos_nonneg _
      have t1 : θ ≤ Real.pi := Real.arccos_le_pi _
      have s0 : 0 ≤ Real.sin (1 / 2 * θ) := Real.sin_nonneg_of_nonneg_of_le_pi (by linarith) (by linarith)
      have c0 : 0 ≤ Real.cos (1 / 2 * θ) := Real.cos_nonneg_of_mem_Icc ⟨by linarith, by linarith⟩
      have r0 : 0 ≤ min (min (Projection.norm (a - b)) (Projection.norm (c - b)))
          (dev * Real.sin (1 / 2 * θ) / (1 - Real.cos (1 / 2 * θ))) / Real.tan (1 / 2 * θ) := by
        refine div_nonneg (le_min (le_min (Projection.norm_nonneg _) (Projection.norm_nonneg _)) ?_) ?_
        · exact div_nonneg (mul_nonneg hdev.le s0) (by linarith [Real.cos_le_one (1 / 2 * θ)])
        · rw [Real.tan_eq_sin_div_cos]; exact div_nonneg s0 c0
      exact ⟨_, _, _, _, _, rfl, mul_nonneg t0 r0, r0, mul_le_mul_of_nonneg_right t1 r0⟩

/-- a line, or an arc of at most half a turn -/
def Plain (g : Segment n) : Prop :=
  (∃ a b, g = .line a b) ∨ ∃ len r z x y, g = .arc len r z x y ∧ 0 ≤ len ∧ 0 ≤ r ∧ len ≤ Real.pi * r

theorem Plain.listable {g : Segment n} (h : Plain g) : Listable g := by
  rcases h with ⟨a, b, rfl⟩ | ⟨len, r, z, x, y, rfl, h1, h2, -⟩
  · exact listable_line a b
  · exact listable_arc len r z x y h1 h2

theorem segments_plain (dev : ℝ) (start : Fin n → ℝ) (l : List (Fin n → ℝ)) :
    ∀ g ∈ segmentsFrom dev start l, Plain g := by
  induction l generalizing start with
  | nil => intro g hg; simp [segmentsFrom] at hg
  | cons a l ih =>
    rcases l with - | ⟨b, - | ⟨c, l⟩⟩
    · intro g hg; simp [segmentsFrom] at hg
    · intro g hg
      simp only [segmentsFrom, List.mem_singleton] at hg
      exact Or.inl ⟨_, _, hg⟩
    · intro g hg
      rw [segmentsFrom] at hg
      by_cases hd : dev > 0
      · rw [if_pos hd] at hg
        simp only at hg
        rw [List.mem_append, List.mem_cons] at hg
        rcases hg with hg | rfl | hg
        · split at hg
          · rw [List.mem_singleton] at hg; exact Or.inl ⟨_, _, hg⟩
          · simp at hg
        · obtain ⟨len, r, z, x, y, e, h⟩ := blend_shape ((1 / 2 : ℝ) • (a + b)) b ((1 / 2 : ℝ) • (b + c)) dev hd
          exact Or.inr ⟨len, r, z, x, y, e, h⟩
        · exact ih _ g hg
      · rw [if_neg hd, List.mem_cons] at hg
        rcases hg with rfl | hg
        · exact Or.inl ⟨_, _, rfl⟩
        · exact ih _ g hg

theorem segments_ne_nil (dev : ℝ) (start a b : Fin n → ℝ) (l : List (Fin n → ℝ)) :
    segmentsFrom dev start (a :: b :: l) ≠ [] := by
  rcases l with - | ⟨c, l⟩
  · simp [segmentsFrom]
  · rw [segmentsFrom]
    split
    · simp
    · simp

/-- everything about the path of at least two waypoints -/
theorem path_shape (a b : Fin n → ℝ) (rest : List (Fin n → ℝ)) (dev : ℝ) :
    ∃ g l, (∀ k ∈ g :: l, Plain k) ∧ (makePath (a :: b :: rest) dev).length = total (g :: l) ∧
      (∀ s, (makePath (a :: b :: rest) dev).segmentAt s = .ok (locate g l s)) ∧
      (makePath (a :: b :: rest) dev).segments = positioned 0 (g :: l) ∧
      (makePath (a :: b :: rest) dev).switching.Pairwise Before ∧
      ∀ q, q ∈ (makePath (a :: b :: rest) dev).switching ↔
        q.1 < total (g :: l) ∧ ∃ k ∈ positioned 0 (g :: l), Marks k.1 k.2 q := by
  obtain ⟨g, l, hl⟩ := List.exists_cons_of_ne_nil (segments_ne_nil dev a a b rest)
  obtain ⟨plen, pseg⟩ := makePath_eq a b rest dev g l hl
  have plain : ∀ k ∈ g :: l, Plain k := by rw [← hl]; exact segments_plain dev a _
  have listable : ∀ k ∈ g :: l, Listable k := fun k hk => (plain k hk).listable
  have hp0 : Listed (⟨0, [], []⟩ : Path n) :=
    ⟨List.Pairwise.nil, fun q hq => by simp at hq, le_rfl⟩
  have e2 : (makePath (a :: b :: rest) dev).switching =
      ((g :: l).foldl Path.add ⟨0, [], []⟩).switching.dropLast := by rw [← hl]; rfl
  have e3 : (makePath (a :: b :: rest) dev).segments = ((g :: l).foldl Path.add ⟨0, [], []⟩).segments := by
    rw [← hl]; rfl
  refine ⟨g, l, plain, plen, pseg, ?_, ?_, ?_⟩
  · rw [e3, (fold_add (g :: l) _).2]; rfl
  · rw [e2]
    exact ((fold_listed (g :: l) _ hp0 listable).sorted).sublist (List.dropLast_sublist _)
  · intro q
    rw [e2, fold_marks l g _ hp0 listable q]
    simp only [zero_add, List.not_mem_nil, false_or]

/-- where a position on a segment lies on the path -/
theorem locate_position (g : Segment n) (l : List (Segment n)) (h0 : ∀ k ∈ g :: l, 0 ≤ k.length) (p0 s : ℝ)
    (s0 : p0 ≤ s) (s1 : s < p0 + total (g :: l)) :
    (s - (locate g l (s - p0)).2, (locate g l (s - p0)).1) ∈ positioned p0 (g :: l) ∧
      0 ≤ (locate g l (s - p0)).2 ∧ (locate g l (s - p0)).2 < (locate g l (s - p0)).1.length := by
  induction l generalizing g p0 with
  | nil =>
    rw [total_cons] at s1
    have : s < p0 + g.length := by simpa [total] using s1
    simp only [locate, positioned, sub_sub_cancel, List.mem_singleton]
    exact ⟨trivial, by linarith, by linarith⟩
  | cons k l ih =>
    by_cases hlt : s - p0 < g.length
    · rw [locate_lt hlt, sub_sub_cancel]
      exact ⟨List.mem_cons_self, by linarith, hlt⟩
    · rw [locate_ge hlt, sub_sub]
      obtain ⟨a, b⟩ := ih k (fun j hj => h0 j (List.mem_cons_of_mem _ hj)) (p0 + g.length) (by linarith)
        (by rw [total_cons] at s1; linarith)
      exact ⟨List.mem_cons_of_mem _ a, b⟩

/-- what is located at a position on a segment -/
theorem locate_on (g : Segment n) (l : List (Segment n)) (h0 : ∀ k ∈ g :: l, 0 ≤ k.length) (p0 : ℝ)
    (q : ℝ × Segment n) (hq : q ∈ positioned p0 (g :: l)) (t : ℝ) (t0 : 0 ≤ t) (t1 : t < q.2.length) :
    locate g l (q.1 + t - p0) = (q.2, t) := by
  induction l generalizing g p0 with
  | nil =>
    simp only [positioned, List.mem_singleton] at hq
    subst hq
    simp [locate]
  | cons k l ih =>
    rcases List.mem_cons.1 hq with rfl | hq
    · rw [add_sub_cancel_left, locate_lt t1]
    · have h0' : ∀ j ∈ k :: l, 0 ≤ j.length := fun j hj => h0 j (List.mem_cons_of_mem _ hj)
      have := (positioned_mem h0' hq).2.1
      rw [locate_ge (by linarith), sub_sub]
      exact ih k h0' (p0 + g.length) hq

/-- boundaries between segments -/
theorem boundary_iff (g : Segment n) (l : List (Segment n)) (p0 s : ℝ) (h0 : ∀ k ∈ g :: l, 0 ≤ k.length)
    (hs : p0 < s) (hs' : s < p0 + total (g :: l)) :
    (∃ k ∈ positioned p0 (g :: l), s = k.1 + k.2.length) ↔ ∃ k ∈ positioned p0 (g :: l), s = k.1 := by
  induction l generalizing g p0 with
  | nil =>
    rw [total_cons] at hs'
    have : s < p0 + g.length := by simpa [total] using hs'
    simp only [positioned, List.mem_singleton, exists_eq_left]
    constructor <;> intro h <;> linarith
  | cons k l ih =>
    have h0' : ∀ j ∈ k :: l, 0 ≤ j.length := fun j hj => h0 j (List.mem_cons_of_mem _ hj)
    rw [total_cons, ← add_assoc] at hs'
    constructor
    · rintro ⟨j, hj, e⟩
      rcases List.mem_cons.1 hj with rfl | hj
      · exact ⟨(p0 + g.length, k), List.mem_cons_of_mem _ List.mem_cons_self, e⟩
      · by_cases hlt : p0 + g.length < s
        · obtain ⟨j', hj', e'⟩ := (ih k (p0 + g.length) h0' hlt hs').1 ⟨j, hj, e⟩
          exact ⟨j', List.mem_cons_of_mem _ hj', e'⟩
        · have h1 := (positioned_mem h0' hj).2.1
          have h2 := h0' j.2 (positioned_mem h0' hj).1
          exact ⟨j, List.mem_cons_of_mem _ hj, by linarith [not_lt.1 hlt]⟩
    · rintro ⟨j, hj, e⟩
      rcases List.mem_cons.1 hj with rfl | hj
      · exact absurd e hs.ne'
      · by_cases hlt : p0 + g.length < s
        · obtain ⟨j', hj', e'⟩ := (ih k (p0 + g.length) h0' hlt hs').2 ⟨j, hj, e⟩
          exact ⟨j', List.mem_cons_of_mem _ hj', e'⟩
        · have h1 := (positioned_mem h0' hj).2.1
          exact ⟨(p0, g), List.mem_cons_self, by show s = p0 + g.length; linarith [not_lt.1 hlt]⟩

end Verif.Totg
