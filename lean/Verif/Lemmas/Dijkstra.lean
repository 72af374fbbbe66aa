import Verif.Model.Dijkstra
import Verif.Spec.Dijkstra
import Verif.Lemmas.Graph
namespace Verif.Dijkstra
open Verif Verif.Graph

variable {ν W : Type} [Cost W]

/-- Distance of a node, infinity outside the list. -/
def D (s : State ν W) (v : Nat) : W := s.distances.getD v Cost.inf
/-- Predecessor of a node. -/
def P (s : State ν W) (v : Nat) : Int := s.previous.getD v (-1)

theorem getD_set {α : Type} (l : List α) (i v : Nat) (x d : α) (hi : i < l.length) :
    (l.set i x).getD v d = if v = i then x else l.getD v d := by
  simp only [List.getD_eq_getElem?_getD]
  by_cases h : v = i
  · subst h; simp [hi]
  · rw [if_neg h, List.getElem?_set_ne (Ne.symm h)]

theorem inf_add {w : W} (h : 0 ≤ w) : (Cost.inf : W) + w = Cost.inf :=
  le_antisymm (Cost.le_inf _) (Cost.le_add _ h)

/-- Everything about a state except which explored nodes have been relaxed. -/
structure Base (g : Graph ν W) (start : Nat) (s : State ν W) : Prop where
  lenP : s.previous.length = g.length
  lenD : s.distances.length = g.length
  work : ∀ v, s.working[v]? = (g[v]?).map (Node.setDistance (D s v))
  exr : ∀ x ∈ s.explored, ∃ v : Nat, x = (v : Int) ∧ v < g.length
  exnd : s.explored.Nodup
  queue : ∀ x d, (x, d) ∈ s.queue → ∃ v : Nat, x = (v : Int) ∧ v < g.length ∧ D s v ≤ d
  unexp : ∀ v : Nat, v < g.length → (v : Int) ∉ s.explored → ((v : Int), D s v) ∈ s.queue
  order : ∀ u v : Nat, (u : Int) ∈ s.explored → v < g.length → (v : Int) ∉ s.explored → D s u ≤ D s v
  nonneg : ∀ v, 0 ≤ D s v
  start0 : D s start = 0
  startP : P s start = (start : Int)
  tree : ∀ v : Nat, v < g.length → v ≠ start → D s v ≠ Cost.inf → ∃ (u : Nat) (w : W),
    P s v = (u : Int) ∧ (u : Int) ∈ s.explored ∧ EdgeInto g v u w ∧ D s v = D s u + w ∧
    ((v : Int) ∉ s.explored ∨ ∃ l1 l2, s.explored = l1 ++ (v : Int) :: l2 ∧ (u : Int) ∈ l2)
  unreached : ∀ v : Nat, v < g.length → v ≠ start → D s v = Cost.inf → P s v = -1

/-- The edges of node `u` have been relaxed. -/
def Relaxed (s : State ν W) (u : Nat) (es : List (Edge W)) : Prop :=
  ∀ e ∈ es, ∀ x : Nat, e.fromIndex = (x : Int) → D s x ≤ D s u + e.weight

theorem relaxEdges_spec {g : Graph ν W} {start u : Nat} {n : Node ν W} (hu : g[u]? = some n)
    (hstart : start < g.length)
    (es : List (Edge W)) (hsub : ∀ e ∈ es, e ∈ n.inEdges)
    (hr : ∀ e ∈ es, 0 ≤ e.fromIndex ∧ e.fromIndex < (g.length : Int)) (hw : ∀ e ∈ es, 0 ≤ e.weight)
    {s : State ν W} (hb : Base g start s) (huex : (u : Int) ∈ s.explored)
    (htop : ∀ a : Nat, (a : Int) ∈ s.explored → D s a ≤ D s u) :
    ∃ s', relaxEdges (u : Int) (D s u) es s = .ok s' ∧ Base g start s' ∧ s'.explored = s.explored ∧
      s'.queue.length ≤ s.queue.length + es.length ∧
      (∀ a : Nat, (a : Int) ∈ s.explored → D s' a = D s a) ∧ (∀ a, D s' a ≤ D s a) ∧
      Relaxed s' u es := by
  induction es generalizing s with
  | nil => exact ⟨s, rfl, hb, rfl, by simp, fun _ _ => rfl, fun _ => le_refl _, by simp [Relaxed]⟩
  | cons e es ih =>
    obtain ⟨he0, he1⟩ := hr e List.mem_cons_self
    have hwe := hw e List.mem_cons_self
    obtain ⟨x, hx⟩ : ∃ x : Nat, e.fromIndex = (x : Int) := ⟨e.fromIndex.toNat, by omega⟩
    have hxl : x < g.length := by omega
    have hgx := List.getElem?_eq_getElem hxl
    have hwx := hb.work x
    rw [hgx, Option.map_some] at hwx
    have hwl : x < s.working.length := (List.getElem?_eq_some_iff.1 hwx).1
    have hget : getNode s.working e.fromIndex = .ok (Node.setDistance (D s x) g[x]) := by
      unfold getNode
      rw [hx, nodePos_ok (by omega)]
      simp only [Out.bind_ok, Int.toNat_natCast]
      rw [hwx]
    have hih := fun {s : State ν W} => @ih (fun e he => hsub e (List.mem_cons_of_mem _ he))
      (fun e he => hr e (List.mem_cons_of_mem _ he)) (fun e he => hw e (List.mem_cons_of_mem _ he)) s
    unfold relaxEdges
    simp only [hget, Out.bind_ok, Node.setDistance]
    by_cases hlt : D s u + e.weight < D s x
    · rw [if_pos hlt]
      have hxun : (x : Int) ∉ s.explored := by
        intro hxe
        exact absurd hlt (not_lt_of_ge (le_trans (htop x hxe) (Cost.le_add _ hwe)))
      have hxu : x ≠ u := by rintro rfl; exact hxun huex
      rw [hx, if_neg hxun]
      simp only [Int.toNat_natCast]
      -- the new state
      generalize hs' : ({ s with
          working := s.working.modify x (Node.setDistance (D s u + e.weight)),
          queue := s.queue ++ [((x : Int), D s u + e.weight)],
          previous := s.previous.set x (u : Int),
          distances := s.distances.set x (D s u + e.weight) } : State ν W) = s1
      have hD : ∀ v, D s1 v = if v = x then D s u + e.weight else D s v := by
        intro v; rw [← hs']; exact getD_set _ _ _ _ _ (by rw [hb.lenD]; exact hxl)
      have hP : ∀ v, P s1 v = if v = x then (u : Int) else P s v := by
        intro v; rw [← hs']; exact getD_set _ _ _ _ _ (by rw [hb.lenP]; exact hxl)
      have hE : s1.explored = s.explored := by rw [← hs']
      have hQ : s1.queue = s.queue ++ [((x : Int), D s u + e.weight)] := by rw [← hs']
      have hDle : ∀ v, D s1 v ≤ D s v := by
        intro v; rw [hD]; split
        · rename_i h; subst h; exact le_of_lt hlt
        · exact le_refl _
      have hDex : ∀ a : Nat, (a : Int) ∈ s.explored → D s1 a = D s a := by
        intro a ha; rw [hD, if_neg]; rintro rfl; exact hxun ha
      have hDu := hDex u huex
      have hxs : x ≠ start := by
        rintro rfl
        rw [hb.start0] at hlt
        exact absurd hlt (not_lt_of_ge (le_trans (hb.nonneg u) (Cost.le_add _ hwe)))
      have hb1 : Base g start s1 := by
        refine ⟨?_, ?_, ?_, ?_, ?_, ?_, ?_, ?_, ?_, ?_, ?_, ?_, ?_⟩
        · rw [← hs']; simp [hb.lenP]
        · rw [← hs']; simp [hb.lenD]
        · intro v
          have h1 : s1.working[v]? = (s.working.modify x
              (Node.setDistance (D s u + e.weight)))[v]? := by rw [← hs']
          rw [h1, List.getElem?_modify, hb.work v, hD]
          by_cases hvx : v = x
          · subst hvx
            cases g[v]? <;> simp [Node.setDistance]
          · rw [if_neg hvx]
            cases g[v]? <;> simp [Ne.symm hvx]
        · rw [hE]; exact hb.exr
        · rw [hE]; exact hb.exnd
        · intro y d hy
          rw [hQ] at hy
          rcases List.mem_append.1 hy with hy | hy
          · obtain ⟨v, h1, h2, h3⟩ := hb.queue y d hy
            exact ⟨v, h1, h2, le_trans (hDle v) h3⟩
          · simp at hy
            refine ⟨x, hy.1, hxl, ?_⟩
            rw [hD, if_pos rfl, hy.2]
        · intro v hv hve
          rw [hE] at hve
          rw [hQ, hD]
          by_cases hvx : v = x
          · subst hvx; simp
          · rw [if_neg hvx]
            exact List.mem_append_left _ (hb.unexp v hv hve)
        · intro a v ha hv hve
          rw [hE] at ha hve
          rw [hDex a ha, hD]
          split
          · exact le_trans (htop a ha) (Cost.le_add _ hwe)
          · exact hb.order a v ha hv hve
        · intro v
          rw [hD]
          split
          · exact le_trans (hb.nonneg u) (Cost.le_add _ hwe)
          · exact hb.nonneg v
        · rw [hD, if_neg (Ne.symm hxs)]; exact hb.start0
        · rw [hP, if_neg (Ne.symm hxs)]; exact hb.startP
        · intro v hv hvs hvinf
          rw [hE]
          by_cases hvx : v = x
          · subst hvx
            refine ⟨u, e.weight, ?_, huex, ⟨n, hu, e, hsub e List.mem_cons_self, hx, rfl⟩, ?_,
              Or.inl hxun⟩
            · rw [hP, if_pos rfl]
            · rw [hDu, hD, if_pos rfl]
          · rw [hD, if_neg hvx] at hvinf ⊢
            obtain ⟨p, w, h1, h2, h3, h4, h5⟩ := hb.tree v hv hvs hvinf
            refine ⟨p, w, ?_, h2, h3, ?_, h5⟩
            · rw [hP, if_neg hvx]; exact h1
            · rw [hDex p h2]; exact h4
        · intro v hv hvs hvinf
          by_cases hvx : v = x
          · subst hvx
            rw [hD, if_pos rfl] at hvinf
            rw [hvinf] at hlt
            exact absurd hlt (not_lt_of_ge (Cost.le_inf _))
          · rw [hD, if_neg hvx] at hvinf
            rw [hP, if_neg hvx]
            exact hb.unreached v hv hvs hvinf
      have htop1 : ∀ a : Nat, (a : Int) ∈ s1.explored → D s1 a ≤ D s1 u := by
        intro a ha; rw [hE] at ha; rw [hDex a ha, hDu]; exact htop a ha
      obtain ⟨s2, e1, e2, e3, e4, e5, e6, e7⟩ := hih hb1 (by rw [hE]; exact huex) htop1
      rw [hDu] at e1
      refine ⟨s2, e1, e2, e3.trans hE, ?_, ?_, ?_, ?_⟩
      · rw [hQ] at e4
        simp only [List.length_append, List.length_cons, List.length_nil] at e4 ⊢
        omega
      · intro a ha
        rw [e5 a (by rw [hE]; exact ha), hDex a ha]
      · intro a; exact le_trans (e6 a) (hDle a)
      · intro e' he' y hy
        rcases List.mem_cons.1 he' with rfl | he'
        · have : y = x := by omega
          subst this
          have h1 := e6 y
          rw [hD, if_pos rfl] at h1
          rw [e5 u (by rw [hE]; exact huex), hDu]
          exact h1
        · exact e7 e' he' y hy
    · rw [if_neg hlt]
      obtain ⟨s2, e1, e2, e3, e4, e5, e6, e7⟩ := hih hb huex htop
      refine ⟨s2, e1, e2, e3, ?_, e5, e6, ?_⟩
      · simp only [List.length_cons]; omega
      · intro e' he' y hy
        rcases List.mem_cons.1 he' with rfl | he'
        · have : y = x := by omega
          subst this
          rw [e5 u huex]
          exact le_trans (e6 y) (le_of_not_gt hlt)
        · exact e7 e' he' y hy

/-- In edges of unexplored nodes. -/
def pending (g : Graph ν W) (explored : List Int) : Nat :=
  ((List.range g.length).map fun i : Nat =>
    if (i : Int) ∈ explored then 0 else ((g[i]?).map (fun n => n.inEdges.length)).getD 0).sum

theorem sum_map_le {l : List Nat} {f h : Nat → Nat} (hle : ∀ i ∈ l, f i ≤ h i) :
    (l.map f).sum ≤ (l.map h).sum := by
  induction l with
  | nil => simp
  | cons a l ih =>
    have := ih (fun i hi => hle i (List.mem_cons_of_mem _ hi))
    have := hle a List.mem_cons_self
    simp only [List.map_cons, List.sum_cons]; omega

theorem sum_map_drop {l : List Nat} {f h : Nat → Nat} {k : Nat} (hk : k ∈ l) (hle : ∀ i ∈ l, f i ≤ h i)
    (hfk : f k = 0) : (l.map f).sum + h k ≤ (l.map h).sum := by
  induction l with
  | nil => cases hk
  | cons a l ih =>
    have hle' : ∀ i ∈ l, f i ≤ h i := fun i hi => hle i (List.mem_cons_of_mem _ hi)
    have ha := hle a List.mem_cons_self
    simp only [List.map_cons, List.sum_cons]
    rcases List.mem_cons.1 hk with rfl | hk
    · have := sum_map_le hle'
      omega
    · have := ih hk hle'
      omega

omit [Cost W] in
theorem pending_cons {g : Graph ν W} {ex : List Int} {u : Nat} {n : Node ν W} (hu : g[u]? = some n)
    (hun : (u : Int) ∉ ex) : pending g ((u : Int) :: ex) + n.inEdges.length ≤ pending g ex := by
  have hul : u < g.length := (List.getElem?_eq_some_iff.1 hu).1
  unfold pending
  have := sum_map_drop (l := List.range g.length) (k := u)
    (f := fun i : Nat => if (i : Int) ∈ (u : Int) :: ex then 0
      else ((g[i]?).map (fun n => n.inEdges.length)).getD 0)
    (h := fun i : Nat => if (i : Int) ∈ ex then 0
      else ((g[i]?).map (fun n => n.inEdges.length)).getD 0)
    (List.mem_range.2 hul) (by
      intro i _
      by_cases h1 : (i : Int) ∈ ex
      · simp [h1]
      · by_cases h2 : (i : Int) = u <;> simp [h1, h2]) (by simp)
  simpa [hun, hu] using this

omit [Cost W] in
theorem pending_nil (g : Graph ν W) :
    pending g [] = (g.map (fun n => n.inEdges.length)).sum := by
  unfold pending
  congr 1
  apply List.ext_getElem?
  intro i
  simp only [List.getElem?_map, List.not_mem_nil, if_false]
  by_cases h : i < g.length
  · simp [h]
  · rw [List.getElem?_eq_none (l := g) (by omega), List.getElem?_eq_none (by simp; omega)]
    rfl

theorem mainLoop_spec {g : Graph ν W} {start : Nat} (hr : InInRange g) (hn : NonNegative g)
    (hstart : start < g.length) (pick : Nat → Nat) (fuel : Nat) {s : State ν W}
    (hfuel : s.queue.length + pending g s.explored ≤ fuel) (hb : Base g start s)
    (hrel : ∀ u n, g[u]? = some n → ((u : Nat) : Int) ∈ s.explored → Relaxed s u n.inEdges) :
    ∃ s', mainLoop pick fuel s = some (.ok s') ∧ Base g start s' ∧ s'.queue = [] ∧
      ∀ u n, g[u]? = some n → ((u : Nat) : Int) ∈ s'.explored → Relaxed s' u n.inEdges := by
  induction fuel generalizing s with
  | zero =>
    have hq : s.queue = [] := List.length_eq_zero_iff.1 (by omega)
    unfold mainLoop
    rw [(popMin_none).2 hq]
    exact ⟨s, rfl, hb, hq, hrel⟩
  | succ fuel ih =>
    unfold mainLoop
    cases hp : popMin (·.2) (pick (fuel + 1)) s.queue with
    | none => exact ⟨s, rfl, hb, (popMin_none).1 hp, hrel⟩
    | some r =>
      obtain ⟨⟨top, d⟩, rest⟩ := r
      dsimp only
      have hlen := popMin_length hp
      obtain ⟨hmem, hsubq, hsupq, hmin⟩ := popMin_mem hp
      obtain ⟨u, rfl, hul, hdu⟩ := hb.queue top d hmem
      by_cases hex : (u : Int) ∈ s.explored
      · rw [if_pos hex]
        refine ih (s := { s with queue := rest }) ?_ ?_ hrel
        · show rest.length + pending g s.explored ≤ fuel
          omega
        · refine ⟨hb.lenP, hb.lenD, hb.work, hb.exr, hb.exnd, ?_, ?_, hb.order, hb.nonneg,
            hb.start0, hb.startP, hb.tree, hb.unreached⟩
          · intro x d' hx; exact hb.queue x d' (hsubq _ hx)
          · intro v hv hve
            rcases hsupq _ (hb.unexp v hv hve) with h1 | h1
            · simp only [Prod.mk.injEq] at h1
              exact absurd (h1.1 ▸ hex) hve
            · exact h1
      · rw [if_neg hex]
        have hd : d = D s u := le_antisymm (hmin _ (hb.unexp u hul hex)) hdu
        subst hd
        have hgu := List.getElem?_eq_getElem hul
        generalize g[u] = n at hgu
        have hmemg : n ∈ g := List.mem_of_getElem? hgu
        -- the state with the node marked explored
        generalize hs1 : ({ s with queue := rest, explored := (u : Int) :: s.explored } : State ν W) = s1
        have hD : ∀ v, D s1 v = D s v := by intro v; rw [← hs1]; rfl
        have hP : ∀ v, P s1 v = P s v := by intro v; rw [← hs1]; rfl
        have hE : s1.explored = (u : Int) :: s.explored := by rw [← hs1]
        have hQ : s1.queue = rest := by rw [← hs1]
        have hall : ∀ a : Nat, (a : Int) ∈ s1.explored → D s1 a ≤ D s1 u := by
          intro a ha
          rw [hE] at ha
          rw [hD, hD]
          rcases List.mem_cons.1 ha with ha | ha
          · have : a = u := by omega
            rw [this]
          · exact hb.order a u ha hul hex
        have hb1 : Base g start s1 := by
          refine ⟨by rw [← hs1]; exact hb.lenP, by rw [← hs1]; exact hb.lenD, ?_, ?_, ?_, ?_, ?_,
            ?_, ?_, ?_, ?_, ?_, ?_⟩
          · intro v; rw [hD, ← hb.work v, ← hs1]
          · intro x hx
            rw [hE] at hx
            rcases List.mem_cons.1 hx with rfl | hx
            · exact ⟨u, rfl, hul⟩
            · exact hb.exr x hx
          · rw [hE]; exact List.nodup_cons.2 ⟨hex, hb.exnd⟩
          · intro x d' hx
            rw [hQ] at hx
            obtain ⟨v, h1, h2, h3⟩ := hb.queue x d' (hsubq _ hx)
            exact ⟨v, h1, h2, by rw [hD]; exact h3⟩
          · intro v hv hve
            rw [hE] at hve
            simp only [List.mem_cons, not_or] at hve
            rw [hQ, hD]
            rcases hsupq _ (hb.unexp v hv hve.2) with h1 | h1
            · simp only [Prod.mk.injEq] at h1
              exact absurd h1.1 hve.1
            · exact h1
          · intro a v ha hv hve
            rw [hE] at hve
            simp only [List.mem_cons, not_or] at hve
            refine le_trans (hall a ha) ?_
            rw [hD, hD]
            exact le_trans (hmin _ (hb.unexp v hv hve.2)) (le_refl _)
          · intro v; rw [hD]; exact hb.nonneg v
          · rw [hD]; exact hb.start0
          · rw [hP]; exact hb.startP
          · intro v hv hvs hvinf
            rw [hD] at hvinf
            obtain ⟨p, w, h1, h2, h3, h4, h5⟩ := hb.tree v hv hvs hvinf
            refine ⟨p, w, by rw [hP]; exact h1, by rw [hE]; exact List.mem_cons_of_mem _ h2, h3,
              by rw [hD, hD]; exact h4, ?_⟩
            rw [hE]
            rcases h5 with h5 | ⟨l1, l2, h5, h6⟩
            · by_cases hvu : v = u
              · subst hvu
                exact Or.inr ⟨[], s.explored, rfl, h2⟩
              · left
                simp only [List.mem_cons, not_or]
                exact ⟨by omega, h5⟩
            · exact Or.inr ⟨(u : Int) :: l1, l2, by rw [h5]; rfl, h6⟩
          · intro v hv hvs hvinf
            rw [hD] at hvinf
            rw [hP]
            exact hb.unreached v hv hvs hvinf
        obtain ⟨s2, e1, e2, e3, e4, e5, e6, e7⟩ := relaxEdges_spec hgu hstart n.inEdges
          (fun _ h => h) (hr n hmemg) (hn n hmemg) hb1 (by rw [hE]; simp) hall
        have hexp : explore (u : Int) (D s u) { s with queue := rest } = .ok s2 := by
          unfold explore
          dsimp only
          have hwu := hb.work u
          rw [hgu, Option.map_some] at hwu
          have hwl : u < s.working.length := (List.getElem?_eq_some_iff.1 hwu).1
          have : getNode s.working (u : Int) = .ok (Node.setDistance (D s u) n) := by
            unfold getNode
            rw [nodePos_ok (by omega)]
            simp only [Out.bind_ok, Int.toNat_natCast]
            rw [hwu]
          rw [this]
          simp only [Out.bind_ok]
          rw [hs1]
          rw [hD] at e1
          exact e1
        rw [hexp]
        dsimp only
        refine ih ?_ e2 ?_
        · have := pending_cons hgu hex
          rw [e3, hE]
          rw [hQ] at e4
          omega
        · intro a m hm ha
          rw [e3, hE] at ha
          rcases List.mem_cons.1 ha with ha | ha
          · have : a = u := by omega
            subst this
            rw [hgu] at hm; injection hm with hm; subst hm
            exact e7
          · have hDa := e5 a (by rw [hE]; exact List.mem_cons_of_mem _ ha)
            intro e he x hx
            rw [hDa]
            refine le_trans (e6 x) ?_
            rw [hD, hD]
            exact hrel a m hm ha e he x hx

theorem base_init {g : Graph ν W} {start : Nat} (hstart : start < g.length) (h0 : (0 : W) ≤ Cost.inf) :
    Base g start (initState g start) := by
  have hD : ∀ v, D (initState g start) v = if v = start then 0 else Cost.inf := by
    intro v
    unfold D initState
    dsimp only
    rw [getD_set _ _ _ _ _ (by simpa using hstart)]
    split
    · rfl
    · simp only [List.getD_eq_getElem?_getD, List.getElem?_replicate]
      split <;> rfl
  have hP : ∀ v, P (initState g start) v = if v = start then (start : Int) else -1 := by
    intro v
    unfold P initState
    dsimp only
    rw [getD_set _ _ _ _ _ (by simpa using hstart)]
    split
    · rfl
    · simp only [List.getD_eq_getElem?_getD, List.getElem?_replicate]
      split <;> rfl
  refine ⟨by simp [initState], by simp [initState], ?_, ?_, ?_, ?_, ?_, ?_, ?_, ?_, ?_, ?_, ?_⟩
  · intro v
    rw [hD]
    simp only [initState]
    rw [List.getElem?_modify, List.getElem?_map]
    by_cases h : v = start
    · subst h; cases g[v]? <;> simp [Node.setDistance]
    · rw [if_neg h]; cases g[v]? <;> simp [Ne.symm h]
  · intro x hx; cases hx
  · exact List.nodup_nil
  · intro x d hx
    simp only [initState, List.mem_append, List.mem_map, List.mem_range, Prod.mk.injEq,
      List.mem_singleton] at hx
    rcases hx with ⟨v, h1, rfl, rfl⟩ | ⟨rfl, rfl⟩
    · exact ⟨v, rfl, h1, Cost.le_inf _⟩
    · exact ⟨start, rfl, hstart, by rw [hD, if_pos rfl]⟩
  · intro v hv _
    rw [hD]
    simp only [initState, List.mem_append, List.mem_map, List.mem_range, Prod.mk.injEq,
      List.mem_singleton]
    by_cases h : v = start
    · subst h; right; simp
    · left; rw [if_neg h]; exact ⟨v, hv, rfl, rfl⟩
  · intro u v hu; cases hu
  · intro v; rw [hD]; split
    · exact le_refl _
    · exact h0
  · rw [hD, if_pos rfl]
  · rw [hP, if_pos rfl]
  · intro v _ hvs hv; rw [hD, if_neg hvs] at hv; exact absurd rfl hv
  · intro v _ hvs _; rw [hP, if_neg hvs]

/-- The final state: everything is explored and relaxed. -/
theorem dijkstra_final {g : Graph ν W} {start : Nat} (hr : InInRange g) (hn : NonNegative g)
    (hstart : start < g.length) (pick : Nat → Nat) :
    ∃ s, performDijkstras pick g (start : Int) = some (.ok (s.working, s.previous, s.distances)) ∧
      Base g start s ∧ (∀ v : Nat, v < g.length → (v : Int) ∈ s.explored) ∧
      ∀ u n, g[u]? = some n → Relaxed s u n.inEdges := by
  obtain ⟨s, h1, h2, h3, h4⟩ := mainLoop_spec hr hn hstart pick (rounds g)
    (s := initState g start) (by
      have : (initState g start).explored = [] := rfl
      rw [this, pending_nil]
      simp [initState, rounds]) (base_init hstart (Cost.le_inf _))
      (by intro u n _ hu; cases hu)
  have hall : ∀ v : Nat, v < g.length → (v : Int) ∈ s.explored := by
    intro v hv
    by_contra hne
    have := h2.unexp v hv hne
    rw [h3] at this
    cases this
  refine ⟨s, ?_, h2, hall, ?_⟩
  · unfold performDijkstras
    rw [if_neg (by omega), Int.toNat_natCast, h1]
  · intro u n hu
    exact h4 u n hu (hall u (List.getElem?_eq_some_iff.1 hu).1)

theorem route_lower {g : Graph ν W} {start : Nat} {s : State ν W} (hb : Base g start s)
    (hrel : ∀ u n, g[u]? = some n → Relaxed s u n.inEdges) {v : Nat} {c : W}
    (h : Route g start v c) : D s v ≤ c := by
  induction h with
  | here => rw [hb.start0]
  | step _ he ih =>
    obtain ⟨n, hu, e, hmem, hx, rfl⟩ := he
    exact le_trans (hrel _ n hu e hmem _ hx) (Cost.add_mono _ ih)

/-- Following the predecessors: the walk is a suffix-decreasing sequence of the exploration order. -/
theorem walk_of {g : Graph ν W} {start : Nat} {s : State ν W} (hb : Base g start s)
    (hn : NonNegative g) (v : Nat) (l1 l2 : List Int) (hl : s.explored = l1 ++ (v : Int) :: l2)
    (hv : v < g.length) (hfin : v = start ∨ D s v ≠ Cost.inf) :
    ∃ vs : List Nat, vs.head? = some v ∧ Walk g s.previous start vs (D s v) ∧
      vs.Nodup ∧ (∀ x ∈ vs, (x : Int) ∈ (v : Int) :: l2) := by
  induction hm : l2.length using Nat.strongRecOn generalizing v l1 l2 with
  | _ m ih =>
    by_cases hvs : v = start
    · subst hvs
      refine ⟨[v], rfl, ?_, by simp, by simp⟩
      rw [hb.start0]
      exact .here
    · obtain ⟨u, w, h1, h2, h3, h4, h5⟩ := hb.tree v hv hvs (hfin.resolve_left hvs)
      have hvex : (v : Int) ∈ s.explored := by rw [hl]; simp
      rcases h5 with h5 | ⟨k1, k2, h5, h6⟩
      · exact absurd hvex h5
      · -- the position of v is unique
        have hnd := hb.exnd
        have heq : k2 = l2 := by
          rw [hl] at h5 hnd
          have h7 : ∀ (a b c d : List Int) (x : Int), (a ++ x :: b).Nodup → a ++ x :: b = c ++ x :: d →
              b = d := by
            intro a
            induction a with
            | nil =>
              intro b c d x hnd he
              cases c with
              | nil => simp at he; exact he
              | cons y c =>
                simp only [List.nil_append, List.cons_append, List.cons.injEq] at he
                obtain ⟨rfl, he⟩ := he
                simp only [List.nil_append, List.nodup_cons] at hnd
                exact absurd (by rw [he]; simp) hnd.1
            | cons z a iha =>
              intro b c d x hnd he
              cases c with
              | nil =>
                simp only [List.nil_append, List.cons_append, List.cons.injEq] at he
                obtain ⟨rfl, he⟩ := he
                simp only [List.cons_append, List.nodup_cons] at hnd
                exact absurd (by simp) hnd.1
              | cons y c =>
                simp only [List.cons_append, List.cons.injEq] at he
                simp only [List.cons_append, List.nodup_cons] at hnd
                exact iha b c d x hnd.2 he.2
          exact (h7 l1 l2 k1 k2 _ hnd h5).symm
        subst heq
        obtain ⟨j1, j2, hj⟩ := List.append_of_mem h6
        have hul : u < g.length := by
          obtain ⟨x, hx1, hx2⟩ := hb.exr _ h2
          omega
        have hufin : u = start ∨ D s u ≠ Cost.inf := by
          by_cases hus : u = start
          · exact Or.inl hus
          · right
            intro hinf
            apply hfin.resolve_left hvs
            obtain ⟨n, hu, e, he, hx, rfl⟩ := h3
            rw [h4, hinf, inf_add (hn n (List.mem_of_getElem? hu) e he)]
        obtain ⟨vs, g1, g2, g3, g4⟩ := ih j2.length (by
            rw [← hm, hj]; simp; omega) u (l1 ++ (v : Int) :: j1) j2 (by rw [hl, hj]; simp) hul hufin rfl
        cases vs with
        | nil => simp at g1
        | cons a vs =>
          simp only [List.head?_cons, Option.some.injEq] at g1
          subst g1
          refine ⟨v :: a :: vs, rfl, ?_, ?_, ?_⟩
          · rw [h4]
            refine .step ?_ h3 g2
            have hvl : v < s.previous.length := by rw [hb.lenP]; exact hv
            have : P s v = (a : Int) := h1
            unfold P at this
            rw [List.getD_eq_getElem?_getD, List.getElem?_eq_getElem hvl, Option.getD_some] at this
            rw [List.getElem?_eq_getElem hvl, this]
          · refine List.nodup_cons.2 ⟨?_, g3⟩
            intro hmem
            have := g4 v hmem
            rw [hl, hj] at hnd
            have hnd2 := (List.nodup_append.1 hnd).2.1
            simp only [List.nodup_cons] at hnd2
            apply hnd2.1
            rcases List.mem_cons.1 this with h | h
            · rw [h]; simp
            · simp [h]
          · intro x hx
            rcases List.mem_cons.1 hx with rfl | hx
            · simp
            · have := g4 x hx
              rw [hj]
              rcases List.mem_cons.1 this with h | h
              · rw [h]; simp
              · simp [h]

end Verif.Dijkstra
