import Mathlib.Data.Rat.Floor
import Verif.Lemmas.SimpleAstar

/-!
# C75, C76: the grid A* planner
-/
namespace Verif.SimpleAstar
open Verif

variable {S K : Type} [DecidableEq S] [Field K] [LinearOrder K]

/-- What the caller gets: a way from the start to a goal that visits no state twice, with the number of states
explored, all of them reachable and none a goal; or no way, if no goal can be reached, and then exactly the
reachable states were explored. -/
def Answer (P : Problem S K) (start : S) (path : List S) (explored : Nat) : Prop :=
  (path = [] ∧ (∀ t, Reachable P.neighbours start t → P.goal t = false) ∧
    ∃ l : List S, l.Nodup ∧ l.length = explored ∧ ∀ t, t ∈ l ↔ Reachable P.neighbours start t) ∨
  (∃ t, Walk P.neighbours start path t ∧ P.goal t = true ∧ path.Nodup ∧
    ∃ l : List S, l.Nodup ∧ l.length = explored ∧
      ∀ u ∈ l, Reachable P.neighbours start u ∧ P.goal u = false)

/-- C75: whatever the callbacks return and whichever entries the queue gives out, `Plan` never throws and
fails no assertion, and if it ends its answer is right. -/
theorem C75_plan (fuel : Nat) (pick : Nat → List (S × K) → Nat) (P : Problem S K) (start : S)
    {r : Out (List S × Nat)} (h : plan fuel pick P start = some r) :
    ∃ path explored, r = .ok (path, explored) ∧ Answer P start path explored := by
  rcases loop_spec (Q := fun _ => True) (fun _ _ _ _ _ _ _ => trivial)
    (fun _ _ _ _ _ _ _ _ _ _ => trivial) fuel 0 _ r (inv_init P start) trivial h with
    ⟨s, inv, _, hf, rfl⟩ | ⟨k, s, x, p, c, inv, _, hx, hg, hc, hw, hp, _, rfl⟩
  · have hiff : ∀ t, t ∈ s.explored ↔ Reachable P.neighbours start t := by
      intro t
      constructor
      · intro ht
        obtain ⟨p, _, _, hw, _⟩ := pathExplored inv ht
        exact ⟨p, hw⟩
      · rintro ⟨p, hw⟩
        exact reachable_explored inv hf hw (by rw [inv.costStart]; rfl)
    exact ⟨_, _, rfl, Or.inl ⟨rfl, fun t ht => inv.notGoal t ((hiff t).2 ht), s.explored, inv.nodup, rfl, hiff⟩⟩
  · refine ⟨_, _, rfl, Or.inr ⟨x.1, hw, hg, hp, s.explored, inv.nodup, rfl, ?_⟩⟩
    intro u hu
    obtain ⟨q, _, _, hq, _⟩ := pathExplored inv hu
    exact ⟨⟨q, hq⟩, inv.notGoal u hu⟩

/-- C75: if finitely many states can be reached, `Plan` ends, after at most one round more than they have
neighbours altogether. -/
theorem C75_ends (pick : Nat → List (S × K) → Nat) (P : Problem S K) (start : S) (L : List S) (hL : L.Nodup)
    (hreach : ∀ u, Reachable P.neighbours start u → u ∈ L) (fuel : Nat)
    (hfuel : 1 + (L.map fun u => (P.neighbours u).length).sum ≤ fuel) :
    (plan fuel pick P start).isSome := by
  refine loop_ends hL hreach fuel 0 _ (inv_init P start) ?_
  have : L.filter (fun u => decide (u ∉ ([] : List S))) = L := by simp
  simpa [openDegree, this] using hfuel

section optimal
variable [IsStrictOrderedRing K]

theorem approx_iff (x y : K) :
    Angles.isApprox x y (1 / 10 ^ 10) = true ↔ |y - x| ≤ min |x| |y| / 10 ^ 10 := by
  have h0 : 0 ≤ min |x| |y| := le_min (abs_nonneg _) (abs_nonneg _)
  have h1 : abs (1 / 10 ^ 10 * min |x| |y|) = min |x| |y| / 10 ^ 10 := by
    rw [abs_mul, abs_of_nonneg h0, abs_of_nonneg (by positivity : (0 : K) ≤ 1 / 10 ^ 10)]
    ring
  rw [Angles.isApprox, Angles.closeEnough, h1, decide_eq_true_iff]

omit [DecidableEq S] in
theorem after_iff {P : Problem S K} {start : S} (hsep : Separated P start) {x y : S × K}
    (hx : Entry P start x) (hy : Entry P start y) :
    after P x y = true ↔ x.2 > y.2 ∨ x.2 = y.2 ∧ P.heuristic x.1 > P.heuristic y.1 := by
  unfold after
  by_cases h : Angles.isApprox x.2 y.2 (1 / 10 ^ 10) = true
  · have he := hsep x y hx hy ((approx_iff _ _).1 h)
    rw [if_pos h]
    simp [he]
  · rw [if_neg h]
    have hne : x.2 ≠ y.2 := by
      intro he
      apply h
      rw [approx_iff, he]
      simp only [sub_self, abs_zero, min_self]
      positivity
    simp [hne]

omit [DecidableEq S] in
/-- The comparator is an order when no two priorities are nearly equal. -/
theorem comparator_order {P : Problem S K} {start : S} (hsep : Separated P start) :
    StrictWeakOrder (after P) (Entry P start) := by
  have hf : ∀ x y, Entry P start x → Entry P start y → (after P x y = false ↔
      x.2 < y.2 ∨ x.2 = y.2 ∧ P.heuristic x.1 ≤ P.heuristic y.1) := by
    intro x y hx hy
    rw [← Bool.not_eq_true, after_iff hsep hx hy]
    constructor
    · intro h
      push Not at h
      rcases lt_or_eq_of_le h.1 with h1 | h1
      · exact Or.inl h1
      · exact Or.inr ⟨h1, h.2 h1⟩
    · rintro (h | ⟨h, h'⟩)
      · push Not
        exact ⟨le_of_lt h, fun he => absurd he (ne_of_lt h)⟩
      · push Not
        exact ⟨le_of_eq h, fun _ => h'⟩
  refine ⟨?_, ?_, ?_⟩
  · intro x hx
    rw [hf x x hx hx]
    exact Or.inr ⟨rfl, le_refl _⟩
  · intro x y z hx hy hz
    rw [after_iff hsep hx hy, after_iff hsep hy hz, after_iff hsep hx hz]
    rintro (h | ⟨h, h'⟩) (g | ⟨g, g'⟩)
    · exact Or.inl (lt_trans g h)
    · exact Or.inl (g ▸ h)
    · exact Or.inl (h ▸ g)
    · exact Or.inr ⟨h.trans g, lt_trans g' h'⟩
  · intro x y z hx hy hz
    rw [hf x y hx hy, hf y x hy hx, hf y z hy hz, hf z y hz hy, hf x z hx hz, hf z x hz hx]
    rintro h1 h2 h3 h4
    have e1 : x.2 = y.2 ∧ P.heuristic x.1 = P.heuristic y.1 := by
      rcases h1 with h1 | h1
      · rcases h2 with h2 | h2
        · exact absurd (lt_trans h1 h2) (lt_irrefl _)
        · exact absurd h1 (h2.1 ▸ lt_irrefl _)
      · rcases h2 with h2 | h2
        · exact absurd h2 (h1.1 ▸ lt_irrefl _)
        · exact ⟨h1.1, le_antisymm h1.2 h2.2⟩
    have e2 : y.2 = z.2 ∧ P.heuristic y.1 = P.heuristic z.1 := by
      rcases h3 with h3 | h3
      · rcases h4 with h4 | h4
        · exact absurd (lt_trans h3 h4) (lt_irrefl _)
        · exact absurd h3 (h4.1 ▸ lt_irrefl _)
      · rcases h4 with h4 | h4
        · exact absurd h4 (h3.1 ▸ lt_irrefl _)
        · exact ⟨h3.1, le_antisymm h3.2 h4.2⟩
    exact ⟨Or.inr ⟨e1.1.trans e2.1, le_of_eq (e1.2.trans e2.2)⟩,
      Or.inr ⟨(e1.1.trans e2.1).symm, le_of_eq (e1.2.trans e2.2).symm⟩⟩

omit [DecidableEq S] [Field K] [LinearOrder K] [IsStrictOrderedRing K] in
/-- Among entries that are ordered there is a first one. -/
theorem exists_best {A : S × K → Prop} {lt : S × K → S × K → Bool} (ho : StrictWeakOrder lt A) :
    ∀ {q : List (S × K)}, q ≠ [] → (∀ x ∈ q, A x) → ∃ x ∈ q, ∀ y ∈ q, lt x y = false
  | [a], _, h => ⟨a, by simp, by simpa using ho.1 a (h a (by simp))⟩
  | a :: b :: q, _, h => by
    obtain ⟨x, hx, hbest⟩ := exists_best ho (q := b :: q) (by simp)
      (fun x hx => h x (List.mem_cons_of_mem _ hx))
    have hxA := h x (List.mem_cons_of_mem _ hx)
    have haA := h a (by simp)
    by_cases hxa : lt x a = true
    · refine ⟨a, by simp, ?_⟩
      intro y hy
      have hyA := h y hy
      by_contra hay
      simp only [Bool.not_eq_false] at hay
      rcases List.mem_cons.1 hy with rfl | hy
      · rw [ho.1 y hyA] at hay; cases hay
      · have := ho.2.1 x a y hxA haA hyA hxa hay
        rw [hbest y hy] at this
        cases this
    · refine ⟨x, List.mem_cons_of_mem _ hx, ?_⟩
      intro y hy
      rcases List.mem_cons.1 hy with rfl | hy
      · simpa using hxa
      · exact hbest y hy

/-- C76: when no two priorities are nearly equal the comparator is an order, as the priority queue requires,
and so there is a queue that keeps its promise. -/
theorem C76_queue {P : Problem S K} {start : S} (hsep : Separated P start) :
    StrictWeakOrder (after P) (Entry P start) ∧ ∃ pick, TakesBest P start pick := by
  classical
  refine ⟨comparator_order hsep, ?_⟩
  have hex : ∀ q : List (S × K), ∃ i, (∀ x ∈ q, Entry P start x) →
      ∀ x, q[i % q.length]? = some x → ∀ y ∈ q, after P x y = false := by
    intro q
    by_cases hq : (∀ x ∈ q, Entry P start x) ∧ q ≠ []
    · obtain ⟨x, hx, hb⟩ := exists_best (comparator_order hsep) hq.2 hq.1
      obtain ⟨i, hi, rfl⟩ := List.mem_iff_getElem.1 hx
      refine ⟨i, ?_⟩
      intro _ x hx'
      rw [Nat.mod_eq_of_lt hi, List.getElem?_eq_getElem hi] at hx'
      injection hx' with hx'
      exact hx' ▸ hb
    · refine ⟨0, ?_⟩
      intro h x hx
      have : q = [] := by
        by_contra hne
        exact hq ⟨h, hne⟩
      subst this
      simp at hx
  refine ⟨fun _ q => Classical.choose (hex q), ?_⟩
  intro k q
  exact Classical.choose_spec (hex q)

omit [DecidableEq S] in
/-- Along a walk the heuristic drops by at most the length. -/
theorem heuristic_walk {P : Problem S K} (hcons : Consistent P) {u t : S} {p : List S}
    (hw : Walk P.neighbours u p t) : P.heuristic u ≤ length P.distance p + P.heuristic t := by
  induction hw with
  | here u => simp [length]
  | cons hv hw ih =>
    obtain ⟨q, rfl⟩ := hw.head
    have := hcons.1 _ _ hv
    simp only [length]
    linarith

/-- The entry with the least priority is at most the length of every walk to an unexplored state plus the
heuristic value there. -/
theorem key {P : Problem S K} {start : S} {s : State S K} (hcons : Consistent P)
    (inv : Inv P start (fun _ _ => False) s)
    (hbest : ∀ u ∈ s.explored, ∀ p c, Walk P.neighbours start p u → s.cost.lookup u = some c →
      c ≤ length P.distance p) {f : K} (hf : ∀ y ∈ s.frontier, f ≤ y.2) {u t : S} {r : List S}
    (hw : Walk P.neighbours u r t) : ∀ q c, Walk P.neighbours start q u → s.cost.lookup u = some c →
      c ≤ length P.distance q → t ∉ s.explored →
      f ≤ length P.distance q + length P.distance r + P.heuristic t := by
  induction hw with
  | here u =>
    intro q c _ hc hle ht
    have := hf _ (inv.waiting u c hc ht)
    simp only [length]
    dsimp only at this
    linarith
  | @cons u v t p hv hw ih =>
    intro q c hq hc hle ht
    by_cases hu : u ∈ s.explored
    · rcases inv.closed u hu v hv with h | h
      · exact h.elim
      · obtain ⟨cv, hcv⟩ := Option.isSome_iff_exists.1 h.1
        have hqv := hq.snoc hv
        have hlen := hq.length_snoc (n := v) P.distance
        have hcv' : cv ≤ length P.distance (q ++ [v]) := by
          by_cases hve : v ∈ s.explored
          · exact hbest v hve _ cv hqv hcv
          · have := h.2 hve c cv hc hcv
            rw [hlen]
            linarith
        have := ih (q ++ [v]) cv hqv hcv hcv' ht
        rw [hlen] at this
        obtain ⟨p', rfl⟩ := hw.head
        simp only [length]
        linarith
    · have h1 := hf _ (inv.waiting u c hc hu)
      have h2 := heuristic_walk hcons (Walk.cons hv hw)
      dsimp only at h1
      linarith

/-- What holds in addition when the heuristic is consistent and the queue takes the best entry. -/
def Settled (P : Problem S K) (start : S) (s : State S K) : Prop :=
  (∀ x ∈ s.frontier, Entry P start x) ∧
  (∀ x ∈ s.frontier, ∀ c, s.cost.lookup x.1 = some c → c + P.heuristic x.1 ≤ x.2) ∧
  (∀ u ∈ s.explored, ∀ p c, Walk P.neighbours start p u → s.cost.lookup u = some c →
    c ≤ length P.distance p)

omit [DecidableEq S] in
theorem best_first {P : Problem S K} {start : S} (hsep : Separated P start)
    {pick : Nat → List (S × K) → Nat} (hpick : TakesBest P start pick) {k : Nat} {q : List (S × K)}
    (hq : ∀ x ∈ q, Entry P start x) {x : S × K} (hx : q[pick k q % q.length]? = some x) :
    ∀ y ∈ q, x.2 ≤ y.2 := by
  intro y hy
  have hxe := hq x (List.mem_of_getElem? hx)
  have := hpick k q hq x hx y hy
  by_contra hlt
  rw [(after_iff hsep hxe (hq y hy)).2 (Or.inl (not_le.1 hlt))] at this
  cases this

theorem settled_explore {P : Problem S K} {start : S} (hcons : Consistent P) (hsep : Separated P start)
    {pick : Nat → List (S × K) → Nat} (hpick : TakesBest P start pick) {k : Nat} {s : State S K} {x : S × K}
    (inv : Inv P start (fun _ _ => False) s) (hs : Settled P start s)
    (hx : s.frontier[pick k s.frontier % s.frontier.length]? = some x) (hxe : x.1 ∉ s.explored)
    (hg : P.goal x.1 = false) {s' : State S K}
    (h : explore P x.1 { s with frontier := s.frontier.eraseIdx (pick k s.frontier % s.frontier.length) }
      = .ok s') : Settled P start s' := by
  have hfirst := best_first hsep hpick hs.1 hx
  obtain ⟨s'', h1, _, h3, _⟩ := explore_spec (Q := Settled P start) inv hx hxe hg (by
    refine ⟨fun y hy => hs.1 y (List.mem_of_mem_eraseIdx hy),
      fun y hy => hs.2.1 y (List.mem_of_mem_eraseIdx hy), ?_⟩
    intro u hu p c hw hc
    rcases List.mem_cons.1 hu with rfl | hu
    · have h1 := key hcons inv hs.2.2 hfirst hw [start] 0 (.here start) inv.costStart (by simp [length]) hxe
      have h2 := hs.2.1 x (List.mem_of_getElem? hx) c hc
      simp only [length] at h1
      linarith
    · exact hs.2.2 u hu p c hw hc) (by
    intro c s n ns hinv hcur hc hn hmem hless hq hinv'
    have hne : ∀ u ∈ s.explored, u ≠ n := by
      rintro u hu rfl
      exact hn hu
    refine ⟨?_, ?_, ?_⟩
    · intro y hy
      rcases List.mem_append.1 hy with h | h
      · exact hq.1 y h
      · rw [List.mem_singleton.1 h]
        obtain ⟨p, hw, hp, hlen, _⟩ := pathOpen hinv' hn
          (by rw [lookup_cons_eq, if_pos rfl] :
            ((n, c + P.distance x.1 n) :: s.cost).lookup n = some (c + P.distance x.1 n))
        exact ⟨p, hw, hp, by dsimp only; rw [hlen]⟩
    · intro y hy c' hc'
      dsimp only at hc'
      rw [lookup_cons_eq] at hc'
      rcases List.mem_append.1 hy with h | h
      · by_cases hyn : y.1 = n
        · rw [if_pos hyn] at hc'
          injection hc' with hc'
          obtain ⟨c0, hc0⟩ := Option.isSome_iff_exists.1 (hinv.front y h)
          have h1 := hq.2.1 y h c0 hc0
          rw [hyn] at hc0
          have h2 := hless c0 hc0
          linarith
        · rw [if_neg hyn] at hc'
          exact hq.2.1 y h c' hc'
      · rw [List.mem_singleton.1 h] at hc' ⊢
        rw [if_pos rfl] at hc'
        injection hc' with hc'
        rw [← hc']
    · intro u hu p c' hw hc'
      dsimp only at hc'
      rw [lookup_cons_eq, if_neg (hne u hu)] at hc'
      exact hq.2.2 u hu p c' hw hc')
  rw [h1] at h
  injection h with h
  exact h ▸ h3

/-- C76: with a heuristic that is consistent, and if no two priorities are nearly equal, the way found is a
shortest one: no way to any goal is shorter. Negative distances are allowed. -/
theorem C76_shortest_partial (fuel : Nat) (P : Problem S K) (start : S) (hcons : Consistent P)
    (hsep : Separated P start) (pick : Nat → List (S × K) → Nat) (hpick : TakesBest P start pick)
    {path : List S} {explored : Nat} (h : plan fuel pick P start = some (.ok (path, explored)))
    (hne : path ≠ []) : ∀ t r, P.goal t = true → Walk P.neighbours start r t →
      length P.distance path ≤ length P.distance r := by
  have hinit : Settled P start ⟨[(start, P.heuristic start)], [], [(start, 0)], []⟩ := by
    refine ⟨?_, ?_, ?_⟩
    · intro x hx
      rw [List.mem_singleton.1 hx]
      exact ⟨[start], .here start, by simp, by simp [length]⟩
    · intro x hx c hc
      rw [List.mem_singleton.1 hx] at hc ⊢
      simp [List.lookup] at hc
      simp [← hc]
    · intro u hu
      simp at hu
  rcases loop_spec (Q := Settled P start)
    (fun s i x _ hq hi hxe => ⟨fun y hy => hq.1 y (List.mem_of_mem_eraseIdx hy),
      fun y hy => hq.2.1 y (List.mem_of_mem_eraseIdx hy), hq.2.2⟩)
    (fun k s x inv hq hx hxe hg s' h => settled_explore hcons hsep hpick inv hq hx hxe hg h)
    fuel 0 _ _ (inv_init P start) hinit h with
    ⟨s, _, _, _, he⟩ | ⟨k, s, x, p, c, inv, hs, hx, hg, hc, hw, hp, hlen, he⟩
  · injection he with he
    simp only [Prod.mk.injEq] at he
    exact absurd he.1 hne
  · injection he with he
    simp only [Prod.mk.injEq] at he
    rw [he.1, hlen]
    intro t r ht hr
    have hte : t ∉ s.explored := by
      intro hm
      rw [inv.notGoal t hm] at ht
      cases ht
    have h1 := key hcons inv hs.2.2 (best_first hsep hpick hs.1 hx) hr [start] 0 (.here start) inv.costStart
      (by simp [length]) hte
    have h2 := hs.2.1 x (List.mem_of_getElem? hx) c hc
    rw [hcons.2 t ht] at h1
    rw [hcons.2 x.1 hg] at h2
    simp only [length] at h1
    linarith

omit [DecidableEq S] in
/-- When are priorities never nearly equal: for example if all distances and heuristic values are whole numbers
and all priorities are below 10^10. -/
theorem C76_separated_integers (P : Problem S K) (start : S) (hd : ∀ u v, ∃ z : Int, P.distance u v = z)
    (hh : ∀ u, ∃ z : Int, P.heuristic u = z) (hsmall : ∀ x, Entry P start x → |x.2| < 10 ^ 10) :
    Separated P start := by
  have hlen : ∀ p : List S, ∃ z : Int, length P.distance p = z := by
    intro p
    induction p with
    | nil => exact ⟨0, by simp [length]⟩
    | cons u p ih =>
      cases p with
      | nil => exact ⟨0, by simp [length]⟩
      | cons v p =>
        obtain ⟨a, ha⟩ := ih
        obtain ⟨b, hb⟩ := hd u v
        exact ⟨b + a, by simp [length, ha, hb]⟩
  intro x y hx hy h
  have hint : ∀ x, Entry P start x → ∃ z : Int, x.2 = z := by
    rintro x ⟨p, _, _, hp⟩
    obtain ⟨a, ha⟩ := hlen p
    obtain ⟨b, hb⟩ := hh x.1
    exact ⟨a + b, by rw [hp, ha, hb]; push_cast; rfl⟩
  obtain ⟨a, ha⟩ := hint x hx
  obtain ⟨b, hb⟩ := hint y hy
  have hlt : |y.2 - x.2| < 1 := by
    refine lt_of_le_of_lt h ?_
    rw [div_lt_one (by positivity)]
    exact lt_of_le_of_lt (min_le_left _ _) (hsmall x hx)
  rw [ha, hb] at hlt ⊢
  have : |b - a| < 1 := by
    have h1 : ((|b - a| : Int) : K) < ((1 : Int) : K) := by push_cast; exact hlt
    exact_mod_cast h1
  rw [Int.abs_lt_one_iff] at this
  have : a = b := by omega
  rw [this]

end optimal

/-! ## Where the property fails -/

/-- A problem on natural numbers: the edges of each state, with their distances. -/
def table (edges : Nat → List (Nat × ℚ)) (heuristic : Nat → ℚ) (goal : Nat → Bool) : Problem Nat ℚ :=
  ⟨fun u => (edges u).map (·.1), fun u v => ((edges u).lookup v).getD 0, heuristic, goal⟩

/-- The start 0 has three neighbours, all one step from the goal 4. -/
def threeWays : Problem Nat ℚ :=
  table (fun u => if u = 0 then [(1, 1), (2, 2 + 3 / 10 ^ 10), (3, 3 + 6 / 10 ^ 10)]
    else if u < 4 then [(4, 9)] else []) (fun u => if u = 1 then 3 else if u = 2 then 2 else if u = 3 then 1 else 0)
    (fun u => u = 4)

/-- C76: the comparator need not be an order: three entries of the same queue, each of which comes after the
next. The priority queue requires an order. -/
theorem C76_comparator_cycle :
    let x : Nat × ℚ := (1, 4)
    let y : Nat × ℚ := (2, 4 + 3 / 10 ^ 10)
    let z : Nat × ℚ := (3, 4 + 6 / 10 ^ 10)
    Entry threeWays 0 x ∧ Entry threeWays 0 y ∧ Entry threeWays 0 z ∧
    (∃ s, explore threeWays 0 ⟨[], [], [(0, 0)], []⟩ = .ok s ∧ s.frontier = [x, y, z]) ∧
    after threeWays x y = true ∧ after threeWays y z = true ∧ after threeWays z x = true := by
  refine ⟨⟨[0, 1], .cons (by decide) (.here _), by decide, by decide +kernel⟩,
    ⟨[0, 2], .cons (by decide) (.here _), by decide, by decide +kernel⟩,
    ⟨[0, 3], .cons (by decide) (.here _), by decide, by decide +kernel⟩, ⟨_, rfl, by decide +kernel⟩,
    by decide +kernel, by decide +kernel, by decide +kernel⟩

/-- Two goals, at distances that are nearly but not exactly equal. -/
def nearTie : Problem Nat ℚ :=
  table (fun u => if u = 0 then [(1, 1 + 1 / 10 ^ 11), (2, 1)] else []) (fun _ => 0) (fun u => u = 1 ∨ u = 2)

/-- C76: with nearly equal priorities the way found need not be shortest, although the heuristic is consistent
and each entry taken out of the queue comes after no other. -/
theorem C76_near_ties_wrong :
    Consistent nearTie ∧ plan 3 (fun _ _ => 0) nearTie 0 = some (.ok ([0, 1], 1)) ∧
    (∀ y ∈ [((1 : Nat), (1 + 1 / 10 ^ 11 : ℚ)), (2, 1)], after nearTie (1, 1 + 1 / 10 ^ 11) y = false) ∧
    length nearTie.distance [0, 2] < length nearTie.distance [0, 1] := by
  refine ⟨⟨?_, fun _ _ => rfl⟩, by decide +kernel, by decide +kernel, by decide +kernel⟩
  intro u v hv
  by_cases hu : u = 0
  · subst hu
    simp [nearTie, table] at hv
    rcases hv with rfl | rfl <;> decide +kernel
  · simp [nearTie, table, hu] at hv

/-- The heuristic never overestimates, but it is not consistent: state 1 is thought to be far away. -/
def inconsistent : Problem Nat ℚ :=
  table (fun u => if u = 0 then [(1, 1), (2, 4)] else if u = 1 then [(2, 1)] else if u = 2 then [(3, 10)] else [])
    (fun u => if u = 1 then 11 else 0) (fun u => u = 3)

/-- C76: a heuristic that never overestimates is not enough: explored states are never looked at again, and the
way found (length 14) is not the shortest (length 12), although the queue gives out the best entry each time
(in the rounds with more than one entry it takes 2 before 1, and 1 before 3). -/
theorem C76_admissible_not_enough :
    (∀ u r, Walk inconsistent.neighbours u r 3 → inconsistent.heuristic u ≤ length inconsistent.distance r) ∧
    plan 9 (fun _ q => if q = [(1, 12), (2, 4)] then 1 else if q = [(1, 12), (3, 14)] then 0 else
      0) inconsistent 0 = some (.ok ([0, 2, 3], 3)) ∧
    after inconsistent (2, 4) (1, 12) = false ∧ after inconsistent (1, 12) (3, 14) = false ∧
    length inconsistent.distance [0, 2, 3] = 14 ∧
    Walk inconsistent.neighbours 0 [0, 1, 2, 3] 3 ∧ length inconsistent.distance [0, 1, 2, 3] = 12 := by
  refine ⟨?_, by decide +kernel, by decide +kernel, by decide +kernel, by decide +kernel,
    .cons (by decide) (.cons (by decide) (.cons (by decide) (.here 3))), by decide +kernel⟩
  have hnb : ∀ u v, v ∈ inconsistent.neighbours u →
      (u = 0 ∧ (v = 1 ∨ v = 2)) ∨ (u = 1 ∧ v = 2) ∨ (u = 2 ∧ v = 3) := by
    intro u v hv
    by_cases h0 : u = 0
    · subst h0; simpa [inconsistent, table] using hv
    by_cases h1 : u = 1
    · subst h1; simpa [inconsistent, table] using hv
    by_cases h2 : u = 2
    · subst h2; simpa [inconsistent, table] using hv
    simp [inconsistent, table, h0, h1, h2] at hv
  have h3 : ∀ r, Walk inconsistent.neighbours 3 r 3 → r = [3] := by
    intro r hr
    cases hr with
    | here => rfl
    | cons hv _ => rcases hnb _ _ hv with h | h | h <;> simp at h
  have h2 : ∀ r, Walk inconsistent.neighbours 2 r 3 → r = [2, 3] := by
    intro r hr
    cases hr with
    | cons hv hw =>
      rcases hnb _ _ hv with h | h | h
      · simp at h
      · simp at h
      · rw [h.2] at hw; rw [h3 _ hw]
  have h1 : ∀ r, Walk inconsistent.neighbours 1 r 3 → r = [1, 2, 3] := by
    intro r hr
    cases hr with
    | cons hv hw =>
      rcases hnb _ _ hv with h | h | h
      · simp at h
      · rw [h.2] at hw; rw [h2 _ hw]
      · simp at h
  intro u r hr
  cases hr with
  | here => decide +kernel
  | @cons _ v _ p hv hw =>
    rcases hnb _ _ hv with ⟨rfl, h⟩ | ⟨rfl, rfl⟩ | ⟨rfl, rfl⟩
    · rcases h with rfl | rfl
      · rw [h1 _ hw]; decide +kernel
      · rw [h2 _ hw]; decide +kernel
    · rw [h2 _ hw]; decide +kernel
    · rw [h3 _ hw]; decide +kernel

/-! ## A case that meets the hypotheses -/

/-- A square with a diagonal detour. -/
def square : Problem Nat ℚ :=
  table (fun u => if u = 0 then [(1, 2), (2, 1)] else if u = 1 then [(0, 2), (3, 2)]
    else if u = 2 then [(3, 2)] else []) (fun u => if u < 2 then 2 else if u = 2 then 1 else 0) (fun u => u = 3)

example : plan 5 (fun _ q => if q = [(1, 4), (2, 2)] then 1 else if q = [(1, 4), (3, 3)] then 1 else 0) square 0 =
    some (.ok ([0, 2, 3], 2)) := by decide +kernel

example : 1 + ([0, 1, 2, 3].map fun u => (square.neighbours u).length).sum ≤ 6 := by decide

example : Consistent square := by
  refine ⟨?_, ?_⟩
  · intro u v hv
    by_cases h0 : u = 0
    · subst h0
      simp [square, table] at hv
      rcases hv with rfl | rfl <;> decide +kernel
    by_cases h1 : u = 1
    · subst h1
      simp [square, table] at hv
      rcases hv with rfl | rfl <;> decide +kernel
    by_cases h2 : u = 2
    · subst h2
      simp [square, table] at hv
      subst hv; decide +kernel
    simp [square, table, h0, h1, h2] at hv
  · intro t ht
    have : t = 3 := by simpa [square, table] using ht
    subst this
    decide +kernel

example : Separated square 0 := by
  have hd : ∀ u v, square.distance u v = 0 ∨ square.distance u v = 1 ∨ square.distance u v = 2 := by
    intro u v
    simp only [square, table]
    split
    · rw [lookup_cons_eq, lookup_cons_eq]; split_ifs <;> simp
    · split
      · rw [lookup_cons_eq, lookup_cons_eq]; split_ifs <;> simp
      · split
        · rw [lookup_cons_eq]; split_ifs <;> simp
        · simp
  have hh : ∀ u, square.heuristic u = 0 ∨ square.heuristic u = 1 ∨ square.heuristic u = 2 := by
    intro u
    simp only [square, table]
    split_ifs <;> simp
  refine C76_separated_integers square 0 ?_ ?_ ?_
  · intro u v
    rcases hd u v with h | h | h
    · exact ⟨0, by rw [h]; rfl⟩
    · exact ⟨1, by rw [h]; rfl⟩
    · exact ⟨2, by rw [h]; rfl⟩
  · intro u
    rcases hh u with h | h | h
    · exact ⟨0, by rw [h]; rfl⟩
    · exact ⟨1, by rw [h]; rfl⟩
    · exact ⟨2, by rw [h]; rfl⟩
  · rintro ⟨t, f⟩ ⟨p, hw, hp, hf⟩
    dsimp only at hf hw ⊢
    have hlen : ∀ q : List Nat, 0 ≤ length square.distance q ∧ length square.distance q ≤ 2 * (q.length : ℚ) := by
      intro q
      induction q with
      | nil => simp [length]
      | cons u q ih =>
        cases q with
        | nil => simp [length]
        | cons v q =>
          simp only [length, List.length_cons] at ih ⊢
          push_cast at ih ⊢
          rcases hd u v with h | h | h <;> rw [h] <;> constructor <;> linarith [ih.1, ih.2]
    have hsub : p ⊆ [0, 1, 2, 3] := by
      have : ∀ u q t, Walk square.neighbours u q t → u < 4 → ∀ v ∈ q, v < 4 := by
        intro u q t hw
        induction hw with
        | here u => intro hu v hv; rw [List.mem_singleton.1 hv]; exact hu
        | @cons u v _ q hv _ ih =>
          intro hu w hwm
          rcases List.mem_cons.1 hwm with rfl | h
          · exact hu
          · refine ih ?_ w h
            simp only [square, table] at hv
            split at hv
            · simp at hv; omega
            · split at hv
              · simp at hv; omega
              · split at hv
                · simp at hv; omega
                · simp at hv
      intro v hv
      have := this 0 p t hw (by omega) v hv
      simp
      omega
    have h4 := List.Nodup.length_le_of_subset hp hsub
    have h4' : (p.length : ℚ) ≤ 4 := by exact_mod_cast h4
    rw [hf, abs_lt]
    obtain ⟨h1, h2⟩ := hlen p
    rcases hh t with h | h | h <;> rw [h] <;> constructor <;> norm_num <;> linarith

end Verif.SimpleAstar
