import Verif.Lemmas.Hierarchical

/-!
# The loop of hierarchical clustering
-/
namespace Verif.Hierarchical
open Verif

variable {W : Type} [LinearOrder W]

/-- the distance of the two parts that are merged, as the code computes it -/
inductive LinkVal (zero inf : W) (strategy : Strategy) (D : Nat → Nat → W) :
    List Nat → List Nat → W → Prop
  | points (i j : Nat) : LinkVal zero inf strategy D [i] [j] (D i j)
  | pointCluster (i : Nat) (A : List Nat) :
      LinkVal zero inf strategy D A [i] (linkOf zero inf strategy (A.map (D i)))
  | clusters (A B : List Nat) :
      LinkVal zero inf strategy D A B (linkOf zero inf strategy (between D A B))

theorem step_merged {zero inf : W} {strategy : Strategy} {D : Nat → Nat → W} {s : State}
    {r : (Elem × Elem) × W} (h : Choice zero inf strategy D s.mask s.clusters r) :
    ∃ s' A B, mergePair s r.1.1 r.1.2 = .ok s' ∧ Merged s s' A B ∧
      LinkVal zero inf strategy D A B r.2 := by
  cases h with
  | points i j hi hj hne =>
    obtain ⟨s', h1, h2⟩ := merge_points s i j hi hj hne
    exact ⟨s', [i], [j], h1, h2, .points i j⟩
  | pointCluster i c A hi hc =>
    obtain ⟨s', h1, h2⟩ := merge_pointCluster s i c A hi hc
    exact ⟨s', A, [i], h1, h2, .pointCluster i A⟩
  | clusters f t A B hf ht hne =>
    obtain ⟨s', h1, h2⟩ := merge_clusters s f t A B hf ht hne
    exact ⟨s', A, B, h1, h2, .clusters A B⟩

theorem Merged.length_lt {s s' : State} {A B : List Nat} (h : Merged s s' A B) :
    (extract s').length + 1 = (extract s).length := by
  obtain ⟨rest, h1, h2⟩ := h.perm
  rw [h1.length_eq, h2.length_eq]
  simp

theorem loop_total (exec : Nat → Exec) (hv : ∀ t, Valid (exec t)) (zero inf : W) (strategy : Strategy)
    (D : Nat → Nat → W) (m : W) (hm : m < inf) (P : State → Prop)
    (hP : ∀ s s' A B d, P s → Merged s s' A B → LinkVal zero inf strategy D A B d → d ≤ m → P s')
    (fuel : Nat) (s : State) (hfuel : (extract s).length < fuel) (hs : P s) :
    ∃ s' r, loop exec zero inf strategy D m fuel s = some (.ok (s', r.2)) ∧ P s' ∧
      Closest zero inf strategy D s'.mask s'.clusters r ∧ m < r.2 := by
  induction fuel generalizing s with
  | zero => omega
  | succ fuel ih =>
    have hc := closestPair_closest (exec fuel) (hv fuel) zero inf strategy D s.mask s.clusters
    simp only [loop]
    by_cases hle : (closestPair (exec fuel) zero inf strategy D s.mask s.clusters).2 ≤ m
    · rw [if_pos hle]
      obtain ⟨s', A, B, h1, h2, h3⟩ := step_merged (hc.choice (lt_of_le_of_lt hle hm))
      simp only [h1]
      have := h2.length_lt
      exact ih s' (by omega) (hP s s' A B _ hs h2 h3 hle)
    · rw [if_neg hle]
      exact ⟨s, _, rfl, hs, hc, lt_of_not_ge hle⟩

theorem loop_abort (exec : Nat → Exec) (hv : ∀ t, Valid (exec t)) (zero inf : W) (strategy : Strategy)
    (D : Nat → Nat → W) (m : W) (hm : inf ≤ m)
    (fuel : Nat) (s : State) (hfuel : (extract s).length < fuel) :
    loop exec zero inf strategy D m fuel s = some .abort := by
  induction fuel generalizing s with
  | zero => omega
  | succ fuel ih =>
    have hc := closestPair_closest (exec fuel) (hv fuel) zero inf strategy D s.mask s.clusters
    simp only [loop]
    rw [if_pos (le_trans hc.le_inf hm)]
    by_cases hlt : (closestPair (exec fuel) zero inf strategy D s.mask s.clusters).2 < inf
    · obtain ⟨s', A, B, h1, h2, h3⟩ := step_merged (hc.choice hlt)
      simp only [h1]
      have := h2.length_lt
      exact ih s' (by omega)
    · rw [hc.none hlt]
      rfl

/-! ## Partitions -/

theorem merged_partition {n : Nat} {s s' : State} {A B : List Nat} (h : Merged s s' A B)
    (hp : Partition n (extract s)) : Partition n (extract s') := by
  obtain ⟨rest, h1, h2⟩ := h.perm
  constructor
  · refine (h2.flatten.trans ?_).trans (h1.flatten.symm.trans hp.1)
    simp
  · intro p hp'
    rcases List.mem_cons.1 (h2.mem_iff.1 hp') with rfl | hmem
    · have := hp.2 A (h1.mem_iff.2 List.mem_cons_self)
      simp [this]
    · exact hp.2 p (h1.mem_iff.2 (List.mem_cons_of_mem _ (List.mem_cons_of_mem _ hmem)))

theorem filter_const_true {α : Type} (l : List α) (p : α → Bool) (h : ∀ x ∈ l, p x = true) :
    l.filter p = l := List.filter_eq_self.2 h

theorem extract_init (n : Nat) :
    extract ⟨List.replicate n false, []⟩ = (List.range n).map (fun i => [i]) := by
  simp only [extract, List.filter_nil, List.nil_append, List.length_replicate]
  congr 1
  refine List.filter_eq_self.2 ?_
  intro i hi
  simp [List.mem_range.1 hi]

theorem partition_init (n : Nat) : Partition n (extract ⟨List.replicate n false, []⟩) := by
  rw [extract_init]
  constructor
  · have : ((List.range n).map (fun i => [i])).flatten = List.range n := by
      induction List.range n with
      | nil => rfl
      | cons x xs ih => simp [ih]
    rw [this]
  · intro p hp
    obtain ⟨i, _, rfl⟩ := List.mem_map.1 hp
    simp

theorem mem_lt {n : Nat} {parts : List (List Nat)} (hp : Partition n parts) {P : List Nat}
    (hP : P ∈ parts) {i : Nat} (hi : i ∈ P) : i < n :=
  List.mem_range.1 (hp.1.mem_iff.1 (List.mem_flatten.2 ⟨P, hP, hi⟩))

theorem pick_ok {α : Type} (data : List α) (is : List Nat) (h : ∀ i ∈ is, i < data.length) :
    ∃ ps, pick data is = .ok ps ∧ ps.map some = is.map (fun i => data[i]?) := by
  induction is with
  | nil => exact ⟨[], rfl, rfl⟩
  | cons i is ih =>
    obtain ⟨ps, h1, h2⟩ := ih (fun j hj => h j (List.mem_cons_of_mem _ hj))
    have hlt : i < data.length := h i List.mem_cons_self
    have hi : data[i]? = some data[i] := List.getElem?_eq_getElem hlt
    exact ⟨data[i] :: ps, by simp [pick, hi, h1, Out.bind_ok], by simp [hi, h2]⟩

theorem pickAll_ok {α : Type} (data : List α) (parts : List (List Nat))
    (h : ∀ p ∈ parts, ∀ i ∈ p, i < data.length) :
    ∃ out, pickAll data parts = .ok out ∧
      out.map (·.map some) = parts.map (·.map (fun i => data[i]?)) := by
  induction parts with
  | nil => exact ⟨[], rfl, rfl⟩
  | cons p ps ih =>
    obtain ⟨out, h1, h2⟩ := ih (fun q hq => h q (List.mem_cons_of_mem _ hq))
    obtain ⟨x, h3, h4⟩ := pick_ok data p (h p List.mem_cons_self)
    exact ⟨x :: out, by simp [pickAll, h1, h3, Out.bind_ok], by simp [h2, h4]⟩

/-! ## Link distances -/

theorem foldl_max_spec (z : W) (l : List W) :
    z ≤ l.foldl max z ∧ (∀ x ∈ l, x ≤ l.foldl max z) ∧ (l.foldl max z = z ∨ l.foldl max z ∈ l) := by
  induction l generalizing z with
  | nil => exact ⟨le_refl _, by simp, .inl rfl⟩
  | cons x xs ih =>
    obtain ⟨h1, h2, h3⟩ := ih (max z x)
    simp only [List.foldl_cons]
    refine ⟨le_trans (le_max_left _ _) h1, ?_, ?_⟩
    · intro y hy
      rcases List.mem_cons.1 hy with rfl | hy
      · exact le_trans (le_max_right _ _) h1
      · exact h2 y hy
    · rcases h3 with h3 | h3
      · rcases le_total z x with h | h
        · rw [h3, max_eq_right h]; exact .inr List.mem_cons_self
        · rw [h3, max_eq_left h]; exact .inl rfl
      · exact .inr (List.mem_cons_of_mem _ h3)

theorem foldl_min_spec (z : W) (l : List W) :
    l.foldl min z ≤ z ∧ (∀ x ∈ l, l.foldl min z ≤ x) ∧ (l.foldl min z = z ∨ l.foldl min z ∈ l) := by
  induction l generalizing z with
  | nil => exact ⟨le_refl _, by simp, .inl rfl⟩
  | cons x xs ih =>
    obtain ⟨h1, h2, h3⟩ := ih (min z x)
    simp only [List.foldl_cons]
    refine ⟨le_trans h1 (min_le_left _ _), ?_, ?_⟩
    · intro y hy
      rcases List.mem_cons.1 hy with rfl | hy
      · exact le_trans h1 (min_le_right _ _)
      · exact h2 y hy
    · rcases h3 with h3 | h3
      · rcases le_total z x with h | h
        · rw [h3, min_eq_left h]; exact .inl rfl
        · rw [h3, min_eq_right h]; exact .inr List.mem_cons_self
      · exact .inr (List.mem_cons_of_mem _ h3)

omit [LinearOrder W] in
theorem mem_between {D : Nat → Nat → W} {A B : List Nat} {d : W} :
    d ∈ between D A B ↔ ∃ a ∈ A, ∃ b ∈ B, D a b = d := by
  simp [between, List.mem_flatMap, List.mem_map]

theorem isLink_linkOf {zero inf : W} {strategy : Strategy} {D : Nat → Nat → W} {A B : List Nat}
    (hA : A ≠ []) (hB : B ≠ []) (hnn : ∀ a ∈ A, ∀ b ∈ B, zero ≤ D a b)
    (hlt : linkOf zero inf strategy (between D A B) < inf) :
    IsLink strategy D A B (linkOf zero inf strategy (between D A B)) := by
  obtain ⟨a, A', rfl⟩ := List.exists_cons_of_ne_nil hA
  obtain ⟨b, B', rfl⟩ := List.exists_cons_of_ne_nil hB
  cases strategy with
  | complete =>
    obtain ⟨h1, h2, h3⟩ := foldl_max_spec zero (between D (a :: A') (b :: B'))
    refine ⟨?_, ?_⟩
    · rcases h3 with h3 | h3
      · refine ⟨a, List.mem_cons_self, b, List.mem_cons_self, ?_⟩
        refine le_antisymm ?_ ?_
        · exact h2 _ (mem_between.2 ⟨a, List.mem_cons_self, b, List.mem_cons_self, rfl⟩)
        · show List.foldl max zero _ ≤ _
          rw [h3]
          exact hnn a List.mem_cons_self b List.mem_cons_self
      · exact mem_between.1 h3
    · intro x hx y hy
      exact h2 _ (mem_between.2 ⟨x, hx, y, hy, rfl⟩)
  | single =>
    obtain ⟨h1, h2, h3⟩ := foldl_min_spec inf (between D (a :: A') (b :: B'))
    refine ⟨?_, ?_⟩
    · rcases h3 with h3 | h3
      · simp only [linkOf] at hlt
        rw [h3] at hlt
        exact absurd hlt (lt_irrefl _)
      · exact mem_between.1 h3
    · intro x hx y hy
      exact h2 _ (mem_between.2 ⟨x, hx, y, hy, rfl⟩)

theorem linkOf_le {zero inf : W} {strategy : Strategy} {D : Nat → Nat → W} {A B : List Nat} {e : W}
    (hnn : ∀ a ∈ A, ∀ b ∈ B, zero ≤ D a b) (h : IsLink strategy D A B e) :
    linkOf zero inf strategy (between D A B) ≤ e := by
  obtain ⟨⟨a, ha, b, hb, hab⟩, h2⟩ := h
  cases strategy with
  | complete =>
    obtain ⟨_, _, h3⟩ := foldl_max_spec zero (between D A B)
    show List.foldl max zero _ ≤ _
    rcases h3 with h3 | h3
    · rw [h3, ← hab]; exact hnn a ha b hb
    · obtain ⟨x, hx, y, hy, hxy⟩ := mem_between.1 h3
      rw [← hxy]
      exact h2 x hx y hy
  | single =>
    obtain ⟨_, h3, _⟩ := foldl_min_spec inf (between D A B)
    rw [← hab]
    exact h3 _ (mem_between.2 ⟨a, ha, b, hb, rfl⟩)

omit [LinearOrder W] in
theorem between_single (D : Nat → Nat → W) (i : Nat) (A : List Nat) :
    between D [i] A = A.map (D i) := by simp [between]

theorem isLink_symm {strategy : Strategy} {D : Nat → Nat → W} {A B : List Nat} {e : W}
    (hs : ∀ a ∈ A, ∀ b ∈ B, D a b = D b a) (h : IsLink strategy D A B e) :
    IsLink strategy D B A e := by
  obtain ⟨⟨a, ha, b, hb, hab⟩, h2⟩ := h
  refine ⟨⟨b, hb, a, ha, (hs a ha b hb).symm.trans hab⟩, ?_⟩
  cases strategy with
  | complete => intro b hb a ha; rw [← hs a ha b hb]; exact h2 a ha b hb
  | single => intro b hb a ha; rw [← hs a ha b hb]; exact h2 a ha b hb

theorem linkVal_isLink {zero inf : W} {strategy : Strategy} {D : Nat → Nat → W} {A B : List Nat} {d : W}
    (h : LinkVal zero inf strategy D A B d) (hA : A ≠ []) (hB : B ≠ [])
    (hs : ∀ a ∈ A, ∀ b ∈ B, D a b = D b a) (hnn : ∀ a ∈ A, ∀ b ∈ B, zero ≤ D a b) (hlt : d < inf) :
    IsLink strategy D A B d := by
  cases h with
  | points i j =>
    refine ⟨⟨i, by simp, j, by simp, rfl⟩, ?_⟩
    cases strategy <;> simp
  | pointCluster i A =>
    refine isLink_symm (fun a ha b hb => (hs b hb a ha).symm) ?_
    rw [← between_single] at hlt ⊢
    exact isLink_linkOf hB hA (fun a ha b hb => by rw [← hs b hb a ha]; exact hnn b hb a ha) hlt
  | clusters A B => exact isLink_linkOf hA hB hnn hlt

theorem mem_extract {s : State} {P : List Nat} (h : P ∈ extract s) :
    (∃ c, Used s.clusters c P) ∨ ∃ i, P = [i] ∧ Free s.mask i := by
  rw [extract_eq, List.mem_append] at h
  rcases h with h | h
  · obtain ⟨h1, h2⟩ := List.mem_filter.1 h
    obtain ⟨c, hc⟩ := List.getElem?_of_mem h1
    exact .inl ⟨c, hc, List.length_pos_iff.1 (by simpa using h2)⟩
  · obtain ⟨i, hi, rfl⟩ := List.mem_map.1 h
    exact .inr ⟨i, rfl, mem_free.1 hi⟩

/-- different parts are disjoint -/
theorem two_disjoint {n : Nat} {parts : List (List Nat)} (hp : Partition n parts) {A B : List Nat}
    (h : Two parts A B) : ∀ i, i ∈ A → i ∉ B := by
  obtain ⟨rest, hr⟩ := h
  intro i hA hB
  have hnd : (A :: B :: rest).flatten.Nodup :=
    (hr.flatten.symm.trans hp.1).nodup_iff.2 List.nodup_range
  simp only [List.flatten_cons] at hnd
  exact (List.nodup_append.1 hnd).2.2 i hA i (List.mem_append_left _ hB) rfl

theorem two_ne {n : Nat} {parts : List (List Nat)} (hp : Partition n parts) {A B : List Nat}
    (h : Two parts A B) : A ≠ B := by
  obtain ⟨rest, hr⟩ := id h
  have hA := hp.2 A (hr.mem_iff.2 List.mem_cons_self)
  obtain ⟨i, A', rfl⟩ := List.exists_cons_of_ne_nil hA
  intro heq
  exact two_disjoint hp h i List.mem_cons_self (heq ▸ List.mem_cons_self)

/-- the closest pair is at most as far apart as any two parts -/
theorem closest_le {n : Nat} {zero inf : W} {strategy : Strategy} {D : Nat → Nat → W} {s : State}
    {r : (Elem × Elem) × W} (hc : Closest zero inf strategy D s.mask s.clusters r)
    (hp : Partition n (extract s)) (hs : ∀ i j, i < n → j < n → D i j = D j i)
    (hnn : ∀ i j, i < n → j < n → zero ≤ D i j) (A B : List Nat) (h : Two (extract s) A B)
    (e : W) (he : IsLink strategy D A B e) : r.2 ≤ e := by
  have hne := two_ne hp h
  obtain ⟨rest, hr⟩ := h
  have hmA : A ∈ extract s := hr.mem_iff.2 List.mem_cons_self
  have hmB : B ∈ extract s := hr.mem_iff.2 (List.mem_cons_of_mem _ List.mem_cons_self)
  have hsAB : ∀ a ∈ A, ∀ b ∈ B, D a b = D b a := fun a ha b hb => hs a b (mem_lt hp hmA ha) (mem_lt hp hmB hb)
  have hnnAB : ∀ a ∈ A, ∀ b ∈ B, zero ≤ D a b :=
    fun a ha b hb => hnn a b (mem_lt hp hmA ha) (mem_lt hp hmB hb)
  have hnnBA : ∀ b ∈ B, ∀ a ∈ A, zero ≤ D b a :=
    fun b hb a ha => hnn b a (mem_lt hp hmB hb) (mem_lt hp hmA ha)
  rcases mem_extract hmA with ⟨c, hcA⟩ | ⟨i, rfl, hi⟩
  · rcases mem_extract hmB with ⟨c', hcB⟩ | ⟨j, rfl, hj⟩
    · have : c ≠ c' := by
        intro h
        subst h
        exact hne (Option.some.inj (hcA.1.symm.trans hcB.1))
      exact le_trans (hc.pairs c c' A B hcA hcB this) (linkOf_le hnnAB he)
    · have h1 := hc.pointCluster j c A hj hcA
      rw [← between_single] at h1
      exact le_trans h1 (linkOf_le hnnBA (isLink_symm hsAB he))
  · rcases mem_extract hmB with ⟨c', hcB⟩ | ⟨j, rfl, hj⟩
    · have h1 := hc.pointCluster i c' B hi hcB
      rw [← between_single] at h1
      exact le_trans h1 (linkOf_le hnnAB he)
    · have hij : i ≠ j := fun h => hne (by rw [h])
      obtain ⟨⟨a, ha, b, hb, hab⟩, _⟩ := he
      simp at ha hb
      subst ha; subst hb
      rw [← hab]
      exact hc.points a b hi hj hij

/-- the closest pair is a pair of parts -/
theorem closest_attained {n : Nat} {zero inf : W} {strategy : Strategy} {D : Nat → Nat → W} {s : State}
    {r : (Elem × Elem) × W} (hc : Closest zero inf strategy D s.mask s.clusters r)
    (hp : Partition n (extract s)) (hs : ∀ i j, i < n → j < n → D i j = D j i)
    (hnn : ∀ i j, i < n → j < n → zero ≤ D i j) (hlt : r.2 < inf) :
    ∃ A B, Two (extract s) A B ∧ IsLink strategy D A B r.2 := by
  obtain ⟨s', A, B, _, hm, hl⟩ := step_merged (hc.choice hlt)
  obtain ⟨rest, hr, _⟩ := hm.perm
  have hmA : A ∈ extract s := hr.mem_iff.2 List.mem_cons_self
  have hmB : B ∈ extract s := hr.mem_iff.2 (List.mem_cons_of_mem _ List.mem_cons_self)
  exact ⟨A, B, ⟨rest, hr⟩, linkVal_isLink hl (hp.2 A hmA) (hp.2 B hmB)
    (fun a ha b hb => hs a b (mem_lt hp hmA ha) (mem_lt hp hmB hb))
    (fun a ha b hb => hnn a b (mem_lt hp hmA ha) (mem_lt hp hmB hb)) hlt⟩

/-! ## What holds inside the parts -/

theorem Chain.mono {D : Nat → Nat → W} {m : W} {P Q : List Nat} (hsub : ∀ i ∈ P, i ∈ Q) {i j : Nat}
    (h : Chain D m P i j) : Chain D m Q i j := by
  induction h with
  | refl hi => exact .refl (hsub _ hi)
  | step hj hd hi _ ih => exact .step (hsub _ hj) hd (hsub _ hi) ih

theorem Chain.trans {D : Nat → Nat → W} {m : W} {P : List Nat} {i j k : Nat}
    (h : Chain D m P i j) (h' : Chain D m P j k) : Chain D m P i k := by
  induction h with
  | refl _ => exact h'
  | step hj hd hi _ ih => exact .step hj hd hi (ih h')

/-- the invariant of the loop -/
structure Inv (n : Nat) (strategy : Strategy) (D : Nat → Nat → W) (m : W) (s : State) : Prop where
  part : Partition n (extract s)
  diameter : strategy = .complete → ∀ P ∈ extract s, ∀ a ∈ P, ∀ b ∈ P, a ≠ b → D a b ≤ m
  chain : strategy = .single → ∀ P ∈ extract s, ∀ a ∈ P, ∀ b ∈ P, Chain D m P a b

theorem inv_step {n : Nat} {zero inf : W} {strategy : Strategy} {D : Nat → Nat → W} {m : W} (hm : m < inf)
    (hs : ∀ i j, i < n → j < n → D i j = D j i) (hnn : ∀ i j, i < n → j < n → zero ≤ D i j)
    (s s' : State) (A B : List Nat) (d : W) (hi : Inv n strategy D m s) (hmg : Merged s s' A B)
    (hl : LinkVal zero inf strategy D A B d) (hd : d ≤ m) : Inv n strategy D m s' := by
  obtain ⟨rest, hr, hr'⟩ := hmg.perm
  have hp := hi.part
  have hmA : A ∈ extract s := hr.mem_iff.2 List.mem_cons_self
  have hmB : B ∈ extract s := hr.mem_iff.2 (List.mem_cons_of_mem _ List.mem_cons_self)
  have hsAB : ∀ a ∈ A, ∀ b ∈ B, D a b = D b a :=
    fun a ha b hb => hs a b (mem_lt hp hmA ha) (mem_lt hp hmB hb)
  have hlink := linkVal_isLink hl (hp.2 A hmA) (hp.2 B hmB) hsAB
    (fun a ha b hb => hnn a b (mem_lt hp hmA ha) (mem_lt hp hmB hb)) (lt_of_le_of_lt hd hm)
  have hrest : ∀ P ∈ rest, P ∈ extract s :=
    fun P hP => hr.mem_iff.2 (List.mem_cons_of_mem _ (List.mem_cons_of_mem _ hP))
  refine ⟨merged_partition hmg hp, ?_, ?_⟩
  · intro hst P hP a ha b hb hab
    subst hst
    rcases List.mem_cons.1 (hr'.mem_iff.1 hP) with rfl | hP
    · rcases List.mem_append.1 ha with ha | ha <;> rcases List.mem_append.1 hb with hb | hb
      · exact hi.diameter rfl A hmA a ha b hb hab
      · exact le_trans (hlink.2 a ha b hb) hd
      · rw [← hsAB b hb a ha]
        exact le_trans (hlink.2 b hb a ha) hd
      · exact hi.diameter rfl B hmB a ha b hb hab
    · exact hi.diameter rfl P (hrest P hP) a ha b hb hab
  · intro hst P hP a ha b hb
    subst hst
    rcases List.mem_cons.1 (hr'.mem_iff.1 hP) with rfl | hP
    · obtain ⟨⟨x, hx, y, hy, hxy⟩, _⟩ := hlink
      have hsubA : ∀ i ∈ A, i ∈ A ++ B := fun i hi => List.mem_append_left _ hi
      have hsubB : ∀ i ∈ B, i ∈ A ++ B := fun i hi => List.mem_append_right _ hi
      have cA : ∀ a ∈ A, ∀ b ∈ A, Chain D m (A ++ B) a b :=
        fun a ha b hb => (hi.chain rfl A hmA a ha b hb).mono hsubA
      have cB : ∀ a ∈ B, ∀ b ∈ B, Chain D m (A ++ B) a b :=
        fun a ha b hb => (hi.chain rfl B hmB a ha b hb).mono hsubB
      have hxy' : D x y ≤ m := by rw [hxy]; exact hd
      have hyx : D y x ≤ m := by rw [← hsAB x hx y hy]; exact hxy'
      rcases List.mem_append.1 ha with ha | ha <;> rcases List.mem_append.1 hb with hb | hb
      · exact cA a ha b hb
      · exact (cA a ha x hx).trans (.step (hsubB y hy) hxy' (hsubA x hx) (cB y hy b hb))
      · exact (cB a ha y hy).trans (.step (hsubA x hx) hyx (hsubB y hy) (cA x hx b hb))
      · exact cB a ha b hb
    · exact hi.chain rfl P (hrest P hP) a ha b hb

theorem inv_init (n : Nat) (strategy : Strategy) (D : Nat → Nat → W) (m : W) :
    Inv n strategy D m ⟨List.replicate n false, []⟩ := by
  refine ⟨partition_init n, ?_, ?_⟩
  · intro _ P hP a ha b hb hab
    rw [extract_init] at hP
    obtain ⟨i, _, rfl⟩ := List.mem_map.1 hP
    simp at ha hb
    exact absurd (ha.trans hb.symm) hab
  · intro _ P hP a ha b hb
    rw [extract_init] at hP
    obtain ⟨i, _, rfl⟩ := List.mem_map.1 hP
    simp at ha hb
    subst ha; subst hb
    exact .refl (by simp)

end Verif.Hierarchical
