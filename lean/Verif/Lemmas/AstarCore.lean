import Verif.Spec.Astar

/-!
# The search common to both A* functions

`coreLoop` is the search with the callbacks summarised by a successor list; `Lemmas.Astar` shows
that both models compute it.
-/
namespace Verif.Astar
open Verif

variable {W : Type} [Cost W]

/-- Successors with step costs. -/
abbrev Succ (W : Type) := Int → List (Int × W)

/-- The steps of a successor list. -/
def Succ.step (succ : Succ W) (u v : Int) (w : W) : Prop := (v, w) ∈ succ u

/-- The children put on the queue. -/
def pushes (h : Int → W) (ex : Explored W) (n : Elem W) (l : List (Int × W)) : List (Elem W) :=
  l.filterMap fun vw =>
    if notWorse ((ex.lookup vw.1).map (·.2)) (n.cost + vw.2) then none
    else some ⟨vw.1, n.id, n.cost + vw.2, n.cost + vw.2 + h vw.1⟩

/-- The main loop. -/
def coreLoop (succ : Succ W) (h : Int → W) (goal : Int) (pick : Nat → Nat) :
    Nat → Nat → List (Elem W) → Explored W → Option (Explored W)
  | fuel, k, q, ex =>
    match popMin Elem.value (pick k) q with
    | none => some ex
    | some (n, rest) =>
      match fuel with
      | 0 => none
      | fuel + 1 =>
        if n.id = goal then some ((n.id, (n.backpointer, n.cost)) :: ex)
        else if notWorse ((ex.lookup n.id).map (·.2)) n.cost then
          coreLoop succ h goal pick fuel (k + 1) rest ex
        else
          let ex' := (n.id, (n.backpointer, n.cost)) :: ex
          coreLoop succ h goal pick fuel (k + 1) (rest ++ pushes h ex' n (succ n.id)) ex'

theorem Path.snoc {step : Int → Int → W → Prop} {u t x : Int} {c C w : W} {p : List Int}
    (hp : Path step u c p t C) (hs : step t x w) : Path step u c (p ++ [x]) x (C + w) := by
  induction hp with
  | here u c => exact .cons hs (.here _ _)
  | cons h _ ih => exact .cons h (ih hs)

theorem Path.mono {s1 s2 : Int → Int → W → Prop} (h : ∀ u v w, s1 u v w → s2 u v w)
    {u t : Int} {c C : W} {p : List Int} (hp : Path s1 u c p t C) : Path s2 u c p t C := by
  induction hp with
  | here u c => exact .here _ _
  | cons hs _ ih => exact .cons (h _ _ _ hs) ih

theorem notWorse_true {o : Option (Int × W)} {c : W} :
    notWorse (o.map (·.2)) c = true ↔ ∃ b k, o = some (b, k) ∧ k ≤ c := by
  cases o with
  | none => simp [notWorse]
  | some d => simp [notWorse]; exact ⟨fun h => ⟨d.1, d.2, rfl, h⟩, fun ⟨_, _, h, h'⟩ => by rw [h]; exact h'⟩

theorem notWorse_false {o : Option (Int × W)} {c : W} :
    notWorse (o.map (·.2)) c = false ↔ ∀ b k, o = some (b, k) → c < k := by
  cases o with
  | none => simp [notWorse]
  | some d =>
    simp [notWorse]
    exact ⟨fun h _ _ h' => by rw [h'] at h; exact h, fun h => h _ _ rfl⟩

theorem lookup_cons_eq {α : Type} (x y : Int) (d : α) (ex : List (Int × α)) :
    List.lookup y ((x, d) :: ex) = if y = x then some d else ex.lookup y := by
  rw [List.lookup_cons]
  by_cases h : y = x
  · subst h; simp
  · rw [if_neg h]
    have : (y == x) = false := by simpa using h
    rw [this]

/-! ## The history of the explored map -/

/-- The explored map is built from the start by entries that improve on the previous one and come
from an explored node. -/
inductive Hist (succ : Succ W) (start : Int) : Explored W → Prop
  | first : Hist succ start [(start, (-1, 0))]
  | cons {ex : Explored W} {x b b' : Int} {c cb w : W} : Hist succ start ex →
      ex.lookup b = some (b', cb) → (x, w) ∈ succ b → cb + w ≤ c →
      (∀ b0 c0, ex.lookup x = some (b0, c0) → c < c0) → Hist succ start ((x, (b, c)) :: ex)

variable {succ : Succ W} {h : Int → W} {start goal : Int}

/-- Costs only decrease. -/
theorem lookup_cons_le {ex : Explored W} {x b : Int} {c : W}
    (himp : ∀ b0 c0, ex.lookup x = some (b0, c0) → c < c0) {y by' : Int} {cy : W}
    (hy : ex.lookup y = some (by', cy)) :
    ∃ b'' c'', List.lookup y ((x, (b, c)) :: ex) = some (b'', c'') ∧ c'' ≤ cy := by
  rw [lookup_cons_eq]
  by_cases hxy : y = x
  · subst hxy
    rw [if_pos rfl]
    exact ⟨b, c, rfl, le_of_lt (himp _ _ hy)⟩
  · rw [if_neg hxy]
    exact ⟨by', cy, hy, le_refl _⟩

theorem Hist.start_le {ex : Explored W} (hh : Hist succ start ex) :
    ∃ b c, ex.lookup start = some (b, c) ∧ c ≤ 0 := by
  induction hh with
  | first => exact ⟨-1, 0, by simp, le_refl _⟩
  | cons _ _ _ _ himp ih =>
    obtain ⟨b, c, h1, h2⟩ := ih
    obtain ⟨b', c', h3, h4⟩ := lookup_cons_le himp h1
    exact ⟨b', c', h3, le_trans h4 h2⟩

/-- The current entry of a node other than the start: its backpointer is explored, at a cost that
together with the step does not exceed the node's. -/
theorem Hist.chain {ex : Explored W} (hh : Hist succ start ex) :
    ∀ x b c, ex.lookup x = some (b, c) → x ≠ start →
      ∃ b' cb w, ex.lookup b = some (b', cb) ∧ (x, w) ∈ succ b ∧ cb + w ≤ c := by
  induction hh with
  | first =>
    intro x b c hx hne
    rw [lookup_cons_eq, if_neg hne] at hx
    cases hx
  | @cons ex y b0 b0' c0 cb0 w0 hh hb hs hc himp ih =>
    intro x b c hx hne
    rw [lookup_cons_eq] at hx
    have key : ∃ b' cb w, ex.lookup b = some (b', cb) ∧ (x, w) ∈ succ b ∧ cb + w ≤ c := by
      by_cases hxy : x = y
      · rw [if_pos hxy] at hx
        injection hx with hx
        injection hx with h1 h2
        subst h1; subst h2; subst hxy
        exact ⟨b0', cb0, w0, hb, hs, hc⟩
      · rw [if_neg hxy] at hx
        exact ih x b c hx hne
    obtain ⟨b', cb, w, h1, h2, h3⟩ := key
    obtain ⟨b'', c'', h4, h5⟩ := lookup_cons_le (b := b0) himp h1
    exact ⟨b'', c'', w, h4, h2, le_trans (Cost.add_mono w h5) h3⟩

theorem Hist.all {P : Int → Prop} (hP0 : P start) (hP : ∀ u v w, P u → (v, w) ∈ succ u → P v)
    {ex : Explored W} (hh : Hist succ start ex) : ∀ x d, ex.lookup x = some d → P x := by
  induction hh with
  | first =>
    intro x d hx
    rw [lookup_cons_eq] at hx
    split at hx
    · subst x; exact hP0
    · cases hx
  | cons _ hb hs _ _ ih =>
    intro x d hx
    rw [lookup_cons_eq] at hx
    split at hx
    · subst x; exact hP _ _ _ (ih _ _ hb) hs
    · exact ih x d hx

theorem Hist.nonneg (hn : NonNegative succ.step) {ex : Explored W} (hh : Hist succ start ex) :
    ∀ x b c, ex.lookup x = some (b, c) → 0 ≤ c := by
  induction hh with
  | first =>
    intro x b c hx
    rw [lookup_cons_eq] at hx
    split at hx
    · injection hx with hx; injection hx with _ hx; exact le_of_eq hx
    · cases hx
  | cons _ hb hs hc _ ih =>
    intro x b c hx
    rw [lookup_cons_eq] at hx
    split at hx
    · injection hx with hx; injection hx with _ hx
      subst hx
      exact le_trans (ih _ _ _ hb) (le_trans (Cost.le_add _ (hn _ _ _ hs)) hc)
    · exact ih x b c hx

/-! ## Following the backpointers -/

/-- The nodes from `x` back to the start. -/
inductive Chain (ex : Explored W) (start : Int) : Int → List Int → Prop
  | here : Chain ex start start [start]
  | step {x b : Int} {c : W} {l : List Int} : x ≠ start → ex.lookup x = some (b, c) →
      Chain ex start b l → Chain ex start x (x :: l)

omit [Cost W] in
theorem Chain.unique {ex : Explored W} {x : Int} {l l' : List Int} (h1 : Chain ex start x l)
    (h2 : Chain ex start x l') : l = l' := by
  induction h1 generalizing l' with
  | here =>
    cases h2 with
    | here => rfl
    | step hne _ _ => exact absurd rfl hne
  | step hne hl _ ih =>
    cases h2 with
    | here => exact absurd rfl hne
    | step hne' hl' hc' =>
      rw [hl] at hl'
      injection hl' with hl'
      injection hl' with hl' _
      subst hl'
      rw [ih hc']

omit [Cost W] in
theorem Chain.suffix {ex : Explored W} {x y : Int} {l : List Int} (hc : Chain ex start x l)
    (hy : y ∈ l) : ∃ l', Chain ex start y l' ∧ l'.length ≤ l.length := by
  induction hc with
  | here => simp at hy; subst hy; exact ⟨_, .here, Nat.le_refl _⟩
  | step hne hl hc ih =>
    rcases List.mem_cons.1 hy with rfl | hy
    · exact ⟨_, .step hne hl hc, Nat.le_refl _⟩
    · obtain ⟨l', h1, h2⟩ := ih hy
      exact ⟨l', h1, by simp; omega⟩

omit [Cost W] in
theorem Chain.nodup {ex : Explored W} {x : Int} {l : List Int} (hc : Chain ex start x l) :
    l.Nodup := by
  induction hc with
  | here => simp
  | step hne hl hc ih =>
    refine List.nodup_cons.2 ⟨?_, ih⟩
    intro hmem
    obtain ⟨l', h1, h2⟩ := hc.suffix hmem
    have := Chain.unique h1 (.step hne hl hc)
    rw [this] at h2
    simp at h2
    omega

omit [Cost W] in
theorem mem_keys_of_lookup {ex : Explored W} {x : Int} {d : Int × W} (hx : ex.lookup x = some d) :
    x ∈ ex.map (·.1) := by
  induction ex with
  | nil => cases hx
  | cons y ex ih =>
    obtain ⟨y, dy⟩ := y
    rw [lookup_cons_eq] at hx
    split at hx
    · subst x; simp
    · exact List.mem_cons_of_mem _ (ih hx)

omit [Cost W] in
theorem Chain.keys {ex : Explored W} {x : Int} {l : List Int} (hc : Chain ex start x l)
    (hs : ∃ d, ex.lookup start = some d) : ∀ y ∈ l, y ∈ ex.map (·.1) := by
  obtain ⟨d, hs⟩ := hs
  induction hc with
  | here => intro y hy; simp at hy; subst hy; exact mem_keys_of_lookup hs
  | step hne hl hc ih =>
    intro y hy
    rcases List.mem_cons.1 hy with rfl | hy
    · exact mem_keys_of_lookup hl
    · exact ih y hy

theorem Chain.length_le {ex : Explored W} {x : Int} {l : List Int} (hh : Hist succ start ex)
    (hc : Chain ex start x l) : l.length ≤ ex.length := by
  obtain ⟨b, c, h1, _⟩ := hh.start_le
  have := List.Nodup.length_le_of_subset hc.nodup (fun y hy => hc.keys ⟨_, h1⟩ y hy)
  simpa using this

/-- With non-negative costs, costs do not increase towards the start. -/
theorem Chain.cost_le (hn : NonNegative succ.step) {ex : Explored W} (hh : Hist succ start ex)
    {x : Int} {l : List Int} (hc : Chain ex start x l) : ∀ y ∈ l, ∀ bx cx bY cy,
      ex.lookup x = some (bx, cx) → ex.lookup y = some (bY, cy) → cy ≤ cx := by
  induction hc with
  | here =>
    intro y hy bx cx bY cy h1 h2
    simp at hy; subst hy
    rw [h1] at h2; injection h2 with h2; injection h2 with _ h2
    exact le_of_eq h2.symm
  | step hne hl hc ih =>
    intro y hy bx cx bY cy h1 h2
    rcases List.mem_cons.1 hy with rfl | hy
    · rw [h1] at h2; injection h2 with h2; injection h2 with _ h2
      exact le_of_eq h2.symm
    · rw [hl] at h1; injection h1 with h1; injection h1 with hb hcx
      subst hb; subst hcx
      obtain ⟨b', cb, w, g1, g2, g3⟩ := hh.chain _ _ _ hl hne
      exact le_trans (ih y hy _ _ _ _ g1 h2) (le_trans (Cost.le_add _ (hn _ _ _ g2)) g3)

omit [Cost W] in
/-- Adding an entry for `x` leaves the chains that avoid `x`. -/
theorem Chain.keep {ex : Explored W} {x y : Int} {d : Int × W} {l : List Int}
    (hc : Chain ex start y l) (hx : x ∉ l) : Chain ((x, d) :: ex) start y l := by
  induction hc with
  | here => exact .here
  | step hne hl hc ih =>
    rw [List.mem_cons, not_or] at hx
    exact .step hne (by rw [lookup_cons_eq, if_neg (fun h => hx.1 h.symm)]; exact hl) (ih hx.2)

theorem Hist.has_chain (hn : NonNegative succ.step) {ex : Explored W} (hh : Hist succ start ex) :
    ∀ x d, ex.lookup x = some d → ∃ l, Chain ex start x l := by
  induction hh with
  | first =>
    intro x d hx
    rw [lookup_cons_eq] at hx
    split at hx
    · subst x; exact ⟨_, .here⟩
    · cases hx
  | @cons ex x b b' c cb w hh hb hs hc himp ih =>
    obtain ⟨l, hl⟩ := ih b _ hb
    have hxs : x ≠ start := by
      rintro rfl
      obtain ⟨_, c0, h1, h2⟩ := hh.start_le
      have h3 := himp _ _ h1
      have h4 : 0 ≤ c := le_trans (hh.nonneg hn _ _ _ hb) (le_trans (Cost.le_add _ (hn _ _ _ hs)) hc)
      exact absurd (lt_of_lt_of_le h3 (le_trans h2 h4)) (lt_irrefl _)
    have hxl : x ∉ l := by
      intro hmem
      have hex : ∃ d0, ex.lookup x = some d0 := by
        obtain ⟨l', h1, _⟩ := hl.suffix hmem
        cases h1 with
        | here => exact absurd rfl hxs
        | step _ h2 _ => exact ⟨_, h2⟩
      obtain ⟨⟨b0, c0⟩, h1⟩ := hex
      have h2 := himp _ _ h1
      have h3 := hl.cost_le hn hh x hmem _ _ _ _ hb h1
      have h4 : cb ≤ c := le_trans (Cost.le_add _ (hn _ _ _ hs)) hc
      exact absurd (lt_of_lt_of_le h2 (le_trans h3 h4)) (lt_irrefl _)
    have hnew : Chain ((x, (b, c)) :: ex) start x (x :: l) :=
      .step hxs (by rw [lookup_cons_eq, if_pos rfl]) (hl.keep hxl)
    have hall : ∀ y ly, Chain ex start y ly → ∃ l', Chain ((x, (b, c)) :: ex) start y l' := by
      intro y ly hy
      induction hy with
      | here => exact ⟨_, .here⟩
      | @step y _ _ _ hne hly _ ih' =>
        by_cases hyx : y = x
        · rw [hyx]; exact ⟨_, hnew⟩
        · obtain ⟨l', hl'⟩ := ih'
          exact ⟨_, .step hne (by rw [lookup_cons_eq, if_neg hyx]; exact hly) hl'⟩
    intro y d hy
    rw [lookup_cons_eq] at hy
    split at hy
    · subst y; exact ⟨_, hnew⟩
    · obtain ⟨ly, hly⟩ := ih y d hy
      exact hall y ly hly

omit [Cost W] in
theorem followBack_chain {ex : Explored W} {b : Int} {l : List Int} (hc : Chain ex start b l)
    (hpos : ∀ y ∈ l, 0 ≤ y) : ∀ fuel acc, l.length ≤ fuel →
      followBack ex start fuel b acc = some (.ok (acc ++ l)) := by
  induction hc with
  | here =>
    intro fuel acc hf
    have h0 := hpos start (by simp)
    cases fuel with
    | zero => simp at hf
    | succ fuel => unfold followBack; simp [h0]
  | @step x _ _ l hne hl hc ih =>
    intro fuel acc hf
    have h0 := hpos x (by simp)
    cases fuel with
    | zero => simp at hf
    | succ fuel =>
      unfold followBack
      simp only [ge_iff_le, h0, if_true, if_neg hne, hl]
      rw [ih (fun y hy => hpos y (List.mem_cons_of_mem _ hy)) fuel _ (by simpa using hf)]
      simp

/-- Whatever the costs, a path that comes out of the loop goes from the start along the steps; with
non-negative costs it costs no more than the recorded cost. -/
theorem followBack_path {ex : Explored W} (hh : Hist succ start ex)
    (hpos : ∀ x d, ex.lookup x = some d → succ x ≠ [] → 0 ≤ x) {Cgoal : W} :
    ∀ fuel b acc path b' cb, followBack ex start fuel b acc = some (.ok path) →
      ex.lookup b = some (b', cb) → succ b ≠ [] →
      (∀ p c, Path succ.step start 0 p b c → (NonNegative succ.step → c ≤ cb) →
        ∃ C, Path succ.step start 0 (p ++ acc.reverse) goal C ∧ (NonNegative succ.step → C ≤ Cgoal)) →
      ∃ C, Path succ.step start 0 path.reverse goal C ∧ (NonNegative succ.step → C ≤ Cgoal) := by
  intro fuel
  induction fuel with
  | zero =>
    intro b acc path b' cb hf hb hs _
    have := hpos b _ hb hs
    unfold followBack at hf
    simp [this] at hf
  | succ fuel ih =>
    intro b acc path b' cb hf hb hs hk
    have h0 := hpos b _ hb hs
    unfold followBack at hf
    simp only [ge_iff_le, h0, if_true] at hf
    by_cases hbs : b = start
    · subst hbs
      simp only [if_true] at hf
      injection hf with hf; injection hf with hf
      subst hf
      obtain ⟨C, h1, h2⟩ := hk [b] 0 (.here _ _) (fun hn => hh.nonneg hn _ _ _ hb)
      exact ⟨C, by simpa using h1, h2⟩
    · rw [if_neg hbs] at hf
      simp only [hb] at hf
      obtain ⟨b'', cb', w, g1, g2, g3⟩ := hh.chain _ _ _ hb hbs
      refine ih b' (acc ++ [b]) path b'' cb' hf g1 (fun h => by rw [h] at g2; cases g2) ?_
      intro p c hp hle
      obtain ⟨C, h1, h2⟩ := hk (p ++ [b]) (c + w) (hp.snoc g2)
        (fun hn => le_trans (Cost.add_mono w (hle hn)) g3)
      exact ⟨C, by simpa using h1, h2⟩

/-! ## The invariant of the main loop -/

structure Inv (succ : Succ W) (h : Int → W) (start goal : Int) (q : List (Elem W))
    (ex : Explored W) : Prop where
  hist : Hist succ start ex
  goalNot : ex.lookup goal = none
  queue : ∀ e ∈ q, e.value = e.cost + h e.id ∧ ∃ b' cb w,
    ex.lookup e.backpointer = some (b', cb) ∧ (e.id, w) ∈ succ e.backpointer ∧ cb + w ≤ e.cost
  closed : ∀ u bu k, ex.lookup u = some (bu, k) → ∀ v w, (v, w) ∈ succ u →
    (∃ bv kv, ex.lookup v = some (bv, kv) ∧ kv ≤ k + w) ∨ ∃ e ∈ q, e.id = v ∧ e.cost ≤ k + w

theorem mem_pushes {ex : Explored W} {n e : Elem W} {l : List (Int × W)} :
    e ∈ pushes h ex n l ↔ ∃ v w, (v, w) ∈ l ∧
      notWorse ((ex.lookup v).map (·.2)) (n.cost + w) = false ∧
      e = ⟨v, n.id, n.cost + w, n.cost + w + h v⟩ := by
  unfold pushes
  rw [List.mem_filterMap]
  constructor
  · rintro ⟨⟨v, w⟩, h1, h2⟩
    split at h2
    · cases h2
    · rename_i h3
      injection h2 with h2
      exact ⟨v, w, h1, by simpa using h3, h2.symm⟩
  · rintro ⟨v, w, h1, h2, rfl⟩
    exact ⟨(v, w), h1, by simp [h2]⟩

theorem inv_start (hne : start ≠ goal) :
    Inv succ h start goal (pushes h [(start, (-1, 0))] ⟨start, -1, 0, x⟩ (succ start))
      [(start, (-1, 0))] := by
  refine ⟨.first, ?_, ?_, ?_⟩
  · rw [lookup_cons_eq, if_neg hne.symm]; rfl
  · intro e he
    obtain ⟨v, w, h1, h2, rfl⟩ := mem_pushes.1 he
    exact ⟨rfl, -1, 0, w, by rw [lookup_cons_eq, if_pos rfl], h1, le_refl _⟩
  · intro u bu k hu v w hv
    rw [lookup_cons_eq] at hu
    split at hu
    · injection hu with hu; injection hu with _ hk
      subst u; subst hk
      cases hnw : notWorse ((List.lookup v [(start, ((-1 : Int), (0 : W)))]).map (·.2)) (0 + w) with
      | true =>
        obtain ⟨b, k, h1, h2⟩ := notWorse_true.1 hnw
        exact Or.inl ⟨b, k, h1, h2⟩
      | false =>
        exact Or.inr ⟨_, mem_pushes.2 ⟨v, w, hv, hnw, rfl⟩, rfl, le_refl _⟩
    · cases hu

theorem inv_skip {q rest : List (Elem W)} {ex : Explored W} {n : Elem W} {k : Nat}
    (hi : Inv succ h start goal q ex) (hpop : popMin Elem.value k q = some (n, rest))
    (hnw : notWorse ((ex.lookup n.id).map (·.2)) n.cost = true) :
    Inv succ h start goal rest ex := by
  obtain ⟨_, hsub, hsup, _⟩ := popMin_mem hpop
  refine ⟨hi.hist, hi.goalNot, fun e he => hi.queue e (hsub e he), ?_⟩
  intro u bu k hu v w hv
  rcases hi.closed u bu k hu v w hv with h1 | ⟨e, he, h1, h2⟩
  · exact Or.inl h1
  · rcases hsup e he with rfl | he'
    · obtain ⟨b, kc, h3, h4⟩ := notWorse_true.1 hnw
      rw [h1] at h3
      exact Or.inl ⟨b, kc, h3, le_trans h4 h2⟩
    · exact Or.inr ⟨e, he', h1, h2⟩

theorem inv_expand {q rest : List (Elem W)} {ex : Explored W} {n : Elem W} {k : Nat}
    (hi : Inv succ h start goal q ex) (hpop : popMin Elem.value k q = some (n, rest))
    (hng : n.id ≠ goal) (hnw : notWorse ((ex.lookup n.id).map (·.2)) n.cost = false) :
    Inv succ h start goal
      (rest ++ pushes h ((n.id, (n.backpointer, n.cost)) :: ex) n (succ n.id))
      ((n.id, (n.backpointer, n.cost)) :: ex) := by
  obtain ⟨hmem, hsub, hsup, _⟩ := popMin_mem hpop
  have himp := notWorse_false.1 hnw
  obtain ⟨_, b', cb, w, hb, hs, hc⟩ := hi.queue n hmem
  refine ⟨.cons hi.hist hb hs hc himp, ?_, ?_, ?_⟩
  · rw [lookup_cons_eq, if_neg (fun h => hng h.symm)]; exact hi.goalNot
  · intro e he
    rcases List.mem_append.1 he with he | he
    · obtain ⟨h1, b1, c1, w1, h2, h3, h4⟩ := hi.queue e (hsub e he)
      obtain ⟨b2, c2, h5, h6⟩ := lookup_cons_le (b := n.backpointer) himp h2
      exact ⟨h1, b2, c2, w1, h5, h3, le_trans (Cost.add_mono _ h6) h4⟩
    · obtain ⟨v, w, h1, h2, rfl⟩ := mem_pushes.1 he
      exact ⟨rfl, _, _, w, by rw [lookup_cons_eq, if_pos rfl], h1, le_refl _⟩
  · intro u bu k hu v w hv
    rw [lookup_cons_eq] at hu
    split at hu
    · injection hu with hu; injection hu with _ hk
      subst u; subst hk
      cases hnw' : notWorse ((List.lookup v ((n.id, (n.backpointer, n.cost)) :: ex)).map (·.2))
          (n.cost + w) with
      | true =>
        obtain ⟨b, k, h1, h2⟩ := notWorse_true.1 hnw'
        exact Or.inl ⟨b, k, h1, h2⟩
      | false =>
        exact Or.inr ⟨_, List.mem_append_right _ (mem_pushes.2 ⟨v, w, hv, hnw', rfl⟩), rfl, le_refl _⟩
    · rcases hi.closed u bu k hu v w hv with ⟨bv, kv, h1, h2⟩ | ⟨e, he, h1, h2⟩
      · obtain ⟨b2, c2, h5, h6⟩ := lookup_cons_le (b := n.backpointer) himp h1
        exact Or.inl ⟨b2, c2, h5, le_trans h6 h2⟩
      · rcases hsup e he with rfl | he'
        · left
          refine ⟨e.backpointer, e.cost, ?_, h2⟩
          rw [lookup_cons_eq, if_pos h1.symm]
        · exact Or.inr ⟨e, List.mem_append_left _ he', h1, h2⟩

/-- How the loop can end. -/
theorem coreLoop_result {pick : Nat → Nat} : ∀ fuel k q ex ex',
    Inv succ h start goal q ex → coreLoop succ h goal pick fuel k q ex = some ex' →
    ∃ q0 ex0, Inv succ h start goal q0 ex0 ∧ ((q0 = [] ∧ ex' = ex0) ∨
      ∃ e ∈ q0, e.id = goal ∧ (∀ y ∈ q0, e.value ≤ y.value) ∧
        ex' = (goal, (e.backpointer, e.cost)) :: ex0) := by
  intro fuel
  induction fuel with
  | zero =>
    intro k q ex ex' hi hr
    unfold coreLoop at hr
    split at hr
    · rename_i hp
      injection hr with hr
      exact ⟨q, ex, hi, Or.inl ⟨popMin_none.1 hp, hr.symm⟩⟩
    · cases hr
  | succ fuel ih =>
    intro k q ex ex' hi hr
    unfold coreLoop at hr
    split at hr
    · rename_i hp
      injection hr with hr
      exact ⟨q, ex, hi, Or.inl ⟨popMin_none.1 hp, hr.symm⟩⟩
    · rename_i n rest hp
      simp only at hr
      split at hr
      · rename_i hg
        injection hr with hr
        obtain ⟨hmem, _, _, hmin⟩ := popMin_mem hp
        exact ⟨q, ex, hi, Or.inr ⟨n, hmem, hg, hmin, by rw [← hr, hg]⟩⟩
      · rename_i hg
        split at hr
        · rename_i hnw
          exact ih _ _ _ _ (inv_skip hi hp hnw) hr
        · rename_i hnw
          exact ih _ _ _ _ (inv_expand hi hp hg (by simpa using hnw)) hr

/-- As long as the goal is not explored, every path from an explored node to the goal has a queue
entry on it that is no more expensive. -/
theorem frontier {q : List (Elem W)} {ex : Explored W} (hi : Inv succ h start goal q ex)
    {u t : Int} {c C : W} {p : List Int} (hp : Path succ.step u c p t C) (ht : t = goal) :
    (∃ b k, ex.lookup u = some (b, k) ∧ k ≤ c) →
      ∃ e ∈ q, ∃ c' p', e.cost ≤ c' ∧ Path succ.step e.id c' p' goal C := by
  induction hp with
  | here u c =>
    rintro ⟨b, k, h1, _⟩
    rw [ht, hi.goalNot] at h1
    cases h1
  | @cons u v t w c C p hs hp ih =>
    rintro ⟨b, k, h1, h2⟩
    rcases hi.closed u b k h1 v w hs with ⟨bv, kv, h3, h4⟩ | ⟨e, he, h3, h4⟩
    · exact ih ht ⟨bv, kv, h3, le_trans h4 (Cost.add_mono w h2)⟩
    · refine ⟨e, he, c + w, p, le_trans h4 (Cost.add_mono w h2), ?_⟩
      rw [h3, ← ht]; exact hp

/-! ## Termination -/

/-- Entries that can still come out of one entry. -/
def budget (B : Nat) : Nat → Nat
  | 0 => 1
  | k + 1 => 1 + B * budget B k

/-- What is known about a queue entry whose creation followed the nodes `p`. -/
structure Ghost (S : List Int) (ex : Explored W) (e : Elem W) (p : List Int) : Prop where
  last : ∃ p0, p = p0 ++ [e.id] ∧ ∀ x ∈ p0, ∃ b k, ex.lookup x = some (b, k) ∧ k ≤ e.cost
  nodup : p.Nodup
  sub : ∀ x ∈ p, x ∈ S

theorem Ghost.len {S : List Int} {ex : Explored W} {e : Elem W} {p : List Int}
    (hg : Ghost S ex e p) : p.length ≤ S.length :=
  List.Nodup.length_le_of_subset hg.nodup (fun x hx => hg.sub x hx)

theorem map_eraseIdx {α β : Type} (f : α → β) : ∀ (l : List α) (i : Nat),
    (l.eraseIdx i).map f = (l.map f).eraseIdx i
  | [], _ => rfl
  | _ :: _, 0 => rfl
  | a :: l, i + 1 => by simp [map_eraseIdx f l i]

theorem sum_eraseIdx_add {l : List Nat} : ∀ {i : Nat} {x : Nat}, l[i]? = some x →
    (l.eraseIdx i).sum + x = l.sum := by
  induction l with
  | nil => intro i x hx; simp at hx
  | cons a l ih =>
    intro i x hx
    cases i with
    | zero => simp at hx; subst hx; simp; omega
    | succ i =>
      simp at hx
      have := ih hx
      simp [List.eraseIdx_cons_succ]
      omega

/-- The potential of the queue. -/
def potential (B : Nat) (S : List Int) (gs : List (Elem W × List Int)) : Nat :=
  (gs.map fun ep => budget B (S.length - ep.2.length)).sum

theorem ghost_push (hn : NonNegative succ.step) {S : List Int}
    (hS : ∀ u v w, u ∈ S → (v, w) ∈ succ u → v ∈ S)
    {ex : Explored W} {n e : Elem W} {p : List Int} (hg : Ghost S ex n p)
    (himp : ∀ b0 c0, ex.lookup n.id = some (b0, c0) → n.cost < c0)
    (he : e ∈ pushes h ((n.id, (n.backpointer, n.cost)) :: ex) n (succ n.id)) :
    Ghost S ((n.id, (n.backpointer, n.cost)) :: ex) e (p ++ [e.id]) := by
  obtain ⟨v, w, h1, h2, rfl⟩ := mem_pushes.1 he
  obtain ⟨p0, hp0, hex⟩ := hg.last
  have hnS : n.id ∈ S := hg.sub _ (by rw [hp0]; simp)
  have hw : 0 ≤ w := hn _ _ _ h1
  have hle : n.cost ≤ n.cost + w := Cost.le_add _ hw
  have hall : ∀ x ∈ p, ∃ b k, List.lookup x ((n.id, (n.backpointer, n.cost)) :: ex) = some (b, k) ∧
      k ≤ n.cost + w := by
    intro x hx
    rw [hp0] at hx
    rcases List.mem_append.1 hx with hx | hx
    · obtain ⟨b, k, h3, h4⟩ := hex x hx
      obtain ⟨b2, c2, h5, h6⟩ := lookup_cons_le (b := n.backpointer) himp h3
      exact ⟨b2, c2, h5, le_trans h6 (le_trans h4 hle)⟩
    · simp at hx; subst hx
      exact ⟨_, _, by rw [lookup_cons_eq, if_pos rfl], hle⟩
  refine ⟨⟨p, rfl, hall⟩, ?_, ?_⟩
  · rw [List.nodup_append]
    refine ⟨hg.nodup, by simp, ?_⟩
    intro x hx y hy hxy
    simp at hy
    subst hy; subst hxy
    obtain ⟨b, k, h3, h4⟩ := hall _ hx
    exact absurd (notWorse_false.1 h2 b k h3) (not_lt_of_ge h4)
  · intro x hx
    rcases List.mem_append.1 hx with hx | hx
    · exact hg.sub x hx
    · simp at hx; subst hx; exact hS _ _ _ hnS h1

theorem budget_pos (B : Nat) : ∀ k, 1 ≤ budget B k
  | 0 => Nat.le_refl _
  | k + 1 => by unfold budget; omega

theorem sum_map_const_le {α : Type} {f : α → Nat} {t : Nat} : ∀ {l : List α},
    (∀ x ∈ l, f x ≤ t) → (l.map f).sum ≤ l.length * t
  | [], _ => by simp
  | a :: l, hl => by
    have h1 := hl a (by simp)
    have h2 := sum_map_const_le (l := l) (fun x hx => hl x (List.mem_cons_of_mem _ hx))
    simp only [List.map_cons, List.sum_cons, List.length_cons, Nat.add_mul]
    omega

/-- With non-negative costs and finitely many nodes, fuel of the size of the potential suffices,
and the explored map grows by at most that many entries. -/
theorem coreLoop_terminates (hn : NonNegative succ.step) {S : List Int} {B : Nat}
    (hS : ∀ u v w, u ∈ S → (v, w) ∈ succ u → v ∈ S) (hB : ∀ u ∈ S, (succ u).length ≤ B)
    {pick : Nat → Nat} : ∀ fuel k q ex (gs : List (Elem W × List Int)),
    gs.map (·.1) = q → (∀ ep ∈ gs, Ghost S ex ep.1 ep.2) → potential B S gs ≤ fuel →
    ∃ ex', coreLoop succ h goal pick fuel k q ex = some ex' ∧ ex'.length ≤ ex.length + fuel := by
  intro fuel
  induction fuel with
  | zero =>
    intro k q ex gs hq hg hpot
    have hnil : gs = [] := by
      cases gs with
      | nil => rfl
      | cons a gs =>
        have := budget_pos B (S.length - a.2.length)
        simp [potential] at hpot
        omega
    subst hnil
    simp at hq
    subst hq
    refine ⟨ex, ?_, by simp⟩
    unfold coreLoop
    rw [popMin_none.2 rfl]
  | succ fuel ih =>
    intro k q ex gs hq hg hpot
    unfold coreLoop
    cases hp : popMin Elem.value (pick k) q with
    | none => exact ⟨ex, rfl, by omega⟩
    | some nr =>
      obtain ⟨n, rest⟩ := nr
      obtain ⟨i, hi, hrest, _⟩ := popMin_spec hp
      have hgi : ∃ p, gs[i]? = some (n, p) := by
        rw [← hq, List.getElem?_map] at hi
        cases hgi : gs[i]? with
        | none => rw [hgi] at hi; cases hi
        | some ep =>
          rw [hgi] at hi
          simp at hi
          exact ⟨ep.2, by rw [← hi]⟩
      obtain ⟨p, hgi⟩ := hgi
      have hgn : Ghost S ex n p := hg (n, p) (List.mem_of_getElem? hgi)
      have hsum : potential B S (gs.eraseIdx i) + budget B (S.length - p.length) =
          potential B S gs := by
        unfold potential
        rw [map_eraseIdx]
        exact sum_eraseIdx_add (by rw [List.getElem?_map, hgi]; rfl)
      have hpos := budget_pos B (S.length - p.length)
      have hrest' : (gs.eraseIdx i).map (·.1) = rest := by
        rw [hrest, ← hq, map_eraseIdx]
      have hgrest : ∀ ep ∈ gs.eraseIdx i, Ghost S ex ep.1 ep.2 :=
        fun ep hep => hg ep (List.mem_of_mem_eraseIdx hep)
      simp only
      by_cases hng : n.id = goal
      · rw [if_pos hng]; exact ⟨_, rfl, by simp⟩
      · rw [if_neg hng]
        cases hnw : notWorse ((ex.lookup n.id).map (·.2)) n.cost with
        | true =>
          simp only [if_true]
          obtain ⟨ex', h1, h2⟩ := ih (k + 1) rest ex _ hrest' hgrest (by omega)
          exact ⟨ex', h1, by omega⟩
        | false =>
          simp only [Bool.false_eq_true, if_false]
          have himp := notWorse_false.1 hnw
          let ex1 : Explored W := (n.id, (n.backpointer, n.cost)) :: ex
          let new := (pushes h ex1 n (succ n.id)).map fun e => (e, p ++ [e.id])
          have hnewG : ∀ ep ∈ new, Ghost S ex1 ep.1 ep.2 := by
            intro ep hep
            obtain ⟨e, he, rfl⟩ := List.mem_map.1 hep
            exact ghost_push hn hS hgn himp he
          have hpn : n.id ∈ S := by
            obtain ⟨p0, hp0, _⟩ := hgn.last
            exact hgn.sub _ (by rw [hp0]; simp)
          have hlen : (pushes h ex1 n (succ n.id)).length ≤ B :=
            Nat.le_trans (List.length_filterMap_le _ _) (hB _ hpn)
          have hnewpot : potential B S new + 1 ≤ budget B (S.length - p.length) := by
            cases hnl : pushes h ex1 n (succ n.id) with
            | nil =>
              have : new = [] := by simp [new, hnl]
              rw [this]; simpa [potential] using hpos
            | cons e0 es =>
              have he0 : e0 ∈ pushes h ex1 n (succ n.id) := by rw [hnl]; simp
              have hl0 := (ghost_push hn hS hgn himp he0).len
              simp at hl0
              obtain ⟨m, hm⟩ : ∃ m, S.length - p.length = m + 1 := ⟨S.length - p.length - 1, by omega⟩
              have hsm : potential B S new ≤ new.length * budget B m := by
                apply sum_map_const_le
                intro ep hep
                obtain ⟨e, he, rfl⟩ := List.mem_map.1 hep
                have : S.length - (p ++ [e.id]).length = m := by simp; omega
                rw [this]
                exact Nat.le_refl _
              have hnl' : new.length ≤ B := by simp only [new, List.length_map]; exact hlen
              have := Nat.mul_le_mul_right (budget B m) hnl'
              rw [hm]
              simp only [budget]
              omega
          have hG : ∀ ep ∈ gs.eraseIdx i ++ new, Ghost S ex1 ep.1 ep.2 := by
            intro ep hep
            rcases List.mem_append.1 hep with hep | hep
            · obtain ⟨⟨p0, hp0, h3⟩, h4, h5⟩ := hgrest ep hep
              refine ⟨⟨p0, hp0, ?_⟩, h4, h5⟩
              intro x hx
              obtain ⟨b, c, h6, h7⟩ := h3 x hx
              obtain ⟨b2, c2, h8, h9⟩ := lookup_cons_le (b := n.backpointer) himp h6
              exact ⟨b2, c2, h8, le_trans h9 h7⟩
            · exact hnewG ep hep
          have hmap : (gs.eraseIdx i ++ new).map (·.1) = rest ++ pushes h ex1 n (succ n.id) := by
            rw [List.map_append, hrest']
            simp [new, Function.comp_def]
          have hpotnew : potential B S (gs.eraseIdx i ++ new) ≤ fuel := by
            have : potential B S (gs.eraseIdx i ++ new) =
                potential B S (gs.eraseIdx i) + potential B S new := by simp [potential]
            omega
          obtain ⟨ex', h1, h2⟩ := ih (k + 1) _ ex1 _ hmap hG hpotnew
          refine ⟨ex', h1, ?_⟩
          simp only [ex1, List.length_cons] at h2
          omega

end Verif.Astar
