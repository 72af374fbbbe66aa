import Verif.Model.NanDtw
import Mathlib.Order.Basic

/-!
# The table of dynamic time warping with distances that may not be a number
-/
namespace Verif.NanDtw
open Verif Verif.NotANumber

variable {α β W : Type} [Cost W]

/-- Entry `(i, j)` of the table the code fills in, with `d i j` the distance of items `i` and `j`. -/
def table (d : Nat → Nat → Option W) : Nat → Nat → Option W
  | 0, 0 => some 0
  | 0, _ + 1 => some Cost.inf
  | _ + 1, 0 => some Cost.inf
  | i + 1, j + 1 => add (previousCost (table d i (j + 1)) (table d i j) (table d (i + 1) j)) (d i j)
termination_by i j => i + j

theorem table_succ (d : Nat → Nat → Option W) (i j : Nat) : table d (i + 1) (j + 1) =
    add (previousCost (table d i (j + 1)) (table d i j) (table d (i + 1) j)) (d i j) := by
  rw [table]

/-- The first row and column hold what the loops expect. -/
structure Borders (m : Mat (Option W)) : Prop where
  zero : m.get 0 0 = some (some 0)
  col : ∀ r, 0 < r → r < m.rows → m.get r 0 = (some (some Cost.inf))
  row : ∀ c, 0 < c → c < m.cols → m.get 0 c = (some (some Cost.inf))

/-- What every evaluator satisfies. -/
structure Evaluator (m : Mat (Option W)) : Prop where
  rows : 0 < m.rows
  cols : 0 < m.cols
  full : ∀ r c, r < m.rows → c < m.cols → ∃ v, m.get r c = some v
  borders : 1 < m.rows → 1 < m.cols → Borders m
  flat : ¬ (1 < m.rows ∧ 1 < m.cols) → ∀ r c, r < m.rows → c < m.cols → m.get r c = some (some 0)

theorem initColumn_spec : ∀ (k s : Nat) (m : Mat (Option W)), s + k ≤ m.rows → 0 < m.cols →
    ∃ m', initColumn (List.range' s k) m = .ok m' ∧ m'.rows = m.rows ∧ m'.cols = m.cols ∧
      ∀ r c, m'.get r c = if c = 0 ∧ s ≤ r ∧ r < s + k then (some (some Cost.inf)) else m.get r c := by
  intro k
  induction k with
  | zero =>
    intro s m _ _
    refine ⟨m, rfl, rfl, rfl, ?_⟩
    intro r c
    rw [if_neg (by omega)]
  | succ k ih =>
    intro s m hs hc
    rw [List.range'_succ]
    unfold initColumn
    rw [Mat.write_ok _ _ (by omega) hc, Out.bind_ok]
    obtain ⟨m', h1, h2, h3, h4⟩ := ih (s + 1) (m.put s 0 (some Cost.inf)) (by simp; omega) (by simpa using hc)
    refine ⟨m', h1, h2, h3, ?_⟩
    intro r c
    rw [h4, Mat.put_get]
    by_cases h : c = 0 ∧ s + 1 ≤ r ∧ r < s + 1 + k
    · rw [if_pos h, if_pos (by omega)]
    · rw [if_neg h]
      by_cases h' : r = s ∧ c = 0
      · rw [if_pos h', if_pos (by omega)]
      · rw [if_neg h', if_neg (by omega)]

theorem initRow_spec : ∀ (k s : Nat) (m : Mat (Option W)), s + k ≤ m.cols → 0 < m.rows →
    ∃ m', initRow (List.range' s k) m = .ok m' ∧ m'.rows = m.rows ∧ m'.cols = m.cols ∧
      ∀ r c, m'.get r c = if r = 0 ∧ s ≤ c ∧ c < s + k then (some (some Cost.inf)) else m.get r c := by
  intro k
  induction k with
  | zero =>
    intro s m _ _
    refine ⟨m, rfl, rfl, rfl, ?_⟩
    intro r c
    rw [if_neg (by omega)]
  | succ k ih =>
    intro s m hs hc
    rw [List.range'_succ]
    unfold initRow
    rw [Mat.write_ok _ _ hc (by omega), Out.bind_ok]
    obtain ⟨m', h1, h2, h3, h4⟩ := ih (s + 1) (m.put 0 s (some Cost.inf)) (by simp; omega) (by simpa using hc)
    refine ⟨m', h1, h2, h3, ?_⟩
    intro r c
    rw [h4, Mat.put_get]
    by_cases h : r = 0 ∧ s + 1 ≤ c ∧ c < s + 1 + k
    · rw [if_pos h, if_pos (by omega)]
    · rw [if_neg h]
      by_cases h' : r = 0 ∧ c = s
      · rw [if_pos h', if_pos (by omega)]
      · rw [if_neg h', if_neg (by omega)]

/-- A freshly allocated matrix. -/
theorem initializeMatrix_new (m : Mat (Option W)) (a b : Nat) (h : m.rows < a + 1 ∨ m.cols < b + 1) :
    ∃ m', initializeMatrix m a b = .ok m' ∧ m'.rows = a + 1 ∧ m'.cols = b + 1 ∧ Evaluator m' := by
  unfold initializeMatrix
  rw [if_pos h]
  split
  · rename_i hab
    obtain ⟨m1, h1, h2, h3, h4⟩ := initColumn_spec a 1 (Mat.constant (a + 1) (b + 1) (some 0 : Option W))
      (by simp [Mat.constant]; omega) (by simp [Mat.constant])
    rw [h1, Out.bind_ok]
    have hr : m1.rows = a + 1 := h2
    have hc : m1.cols = b + 1 := h3
    obtain ⟨m2, g1, g2, g3, g4⟩ := initRow_spec b 1 m1 (by omega) (by omega)
    refine ⟨m2, g1, by omega, by omega, ⟨by omega, by omega, ?_, ?_, ?_⟩⟩
    · intro r c _ _
      rw [g4, h4]
      split
      · exact ⟨_, rfl⟩
      · split
        · exact ⟨_, rfl⟩
        · exact ⟨_, rfl⟩
    · intro _ _
      refine ⟨?_, ?_, ?_⟩
      · rw [g4, h4, if_neg (by omega), if_neg (by omega)]; rfl
      · intro r h0 hr'
        rw [g4, h4, if_neg (by omega), if_pos (by omega)]
      · intro c h0 hc'
        rw [g4, if_pos (by omega)]
    · intro hno; omega
  · rename_i hab
    refine ⟨_, rfl, rfl, rfl, ⟨by simp [Mat.constant], by simp [Mat.constant], ?_, ?_, ?_⟩⟩
    · intro r c _ _; exact ⟨_, rfl⟩
    · intro h1 h2
      simp only [Mat.constant] at h1 h2
      omega
    · intro _ r c _ _; rfl

theorem initializeMatrix_spec (m : Mat (Option W)) (hm : Evaluator m) (a b : Nat) :
    ∃ m', initializeMatrix m a b = .ok m' ∧ a < m'.rows ∧ b < m'.cols ∧ Evaluator m' := by
  by_cases h : m.rows < a + 1 ∨ m.cols < b + 1
  · obtain ⟨m', h1, h2, h3, h4⟩ := initializeMatrix_new m a b h
    exact ⟨m', h1, by omega, by omega, h4⟩
  · refine ⟨m, ?_, by omega, by omega, hm⟩
    unfold initializeMatrix
    rw [if_neg h]

/-- Cell `(r, c)` holds the table's value. -/
def Holds (d : Nat → Nat → Option W) (m : Mat (Option W)) (r c : Nat) : Prop := m.get r c = some (table d r c)

theorem Borders.holds_row {m : Mat (Option W)} (h : Borders m) (d : Nat → Nat → Option W) {c : Nat} (hc : c < m.cols) :
    Holds d m 0 c := by
  unfold Holds
  cases c with
  | zero => rw [h.zero, table]
  | succ c => rw [h.row (c + 1) (by omega) hc, table]

theorem Borders.holds_col {m : Mat (Option W)} (h : Borders m) (d : Nat → Nat → Option W) {r : Nat} (hr : r < m.rows) :
    Holds d m r 0 := by
  unfold Holds
  cases r with
  | zero => rw [h.zero, table]
  | succ r => rw [h.col (r + 1) (by omega) hr, table]

theorem updateCell_spec {d : Nat → Nat → Option W} {m : Mat (Option W)} {i j : Nat} (hi : i + 1 < m.rows)
    (hj : j + 1 < m.cols) (h1 : Holds d m i (j + 1)) (h2 : Holds d m i j) (h3 : Holds d m (i + 1) j) :
    updateCell (d i j) (i + 1) (j + 1) m =
      .ok (m.put (i + 1) (j + 1) (table d (i + 1) (j + 1))) := by
  unfold updateCell
  simp only [Nat.add_sub_cancel]
  rw [Mat.read_ok m (by omega) hj h1, Out.bind_ok, Mat.read_ok m (by omega) (by omega) h2, Out.bind_ok,
    Mat.read_ok m hi (by omega) h3, Out.bind_ok, Mat.write_ok _ _ hi hj, table_succ]

theorem Borders.put {m : Mat (Option W)} (h : Borders m) (i j : Nat) (v : Option W) :
    Borders (m.put (i + 1) (j + 1) v) := by
  refine ⟨?_, ?_, ?_⟩
  · rw [Mat.put_get, if_neg (by omega)]; exact h.zero
  · intro r h0 hr; rw [Mat.put_get, if_neg (by omega)]; exact h.col r h0 hr
  · intro c h0 hc; rw [Mat.put_get, if_neg (by omega)]; exact h.row c h0 hc

theorem innerLoop_spec (distance : α → β → Option W) (d : Nat → Nat → Option W) (first : α) (i n m' : Nat) :
    ∀ (seconds : List β) (j : Nat) (m : Mat (Option W)), (∀ k y, seconds[k]? = some y → distance first y = d i (j + k)) →
      i + 1 < m.rows → j + seconds.length < m.cols → Borders m →
      (∀ c, c ≤ j + seconds.length → Holds d m i c) → (∀ c, c ≤ j → Holds d m (i + 1) c) →
      m.rows = n → m.cols = m' →
      ∃ r, innerLoop distance first (i + 1) seconds (j + 1) m = .ok r ∧ r.rows = n ∧ r.cols = m' ∧
        Borders r ∧ (∀ c, c ≤ j + seconds.length → Holds d r (i + 1) c) ∧
        ∀ a b, (a ≠ i + 1 ∨ j + seconds.length < b) → r.get a b = m.get a b := by
  intro seconds
  induction seconds with
  | nil =>
    intro j m _ _ _ hb _ hrow hr hc
    exact ⟨m, rfl, hr, hc, hb, by simpa using hrow, fun _ _ _ => rfl⟩
  | cons y ys ih =>
    intro j m hd hi hj hb hprev hrow hr hc
    simp only [List.length_cons] at hj hprev ⊢
    unfold innerLoop
    have hd0 : distance first y = d i j := by simpa using hd 0 y rfl
    rw [hd0, updateCell_spec (d := d) hi (by omega) (hprev (j + 1) (by omega)) (hprev j (by omega))
      (hrow j (Nat.le_refl _)), Out.bind_ok]
    obtain ⟨r, h1, h2, h3, h4, h5, h6⟩ := ih (j + 1) (m.put (i + 1) (j + 1) (table d (i + 1) (j + 1)))
      (fun k z hz => by
        rw [show j + 1 + k = j + (k + 1) by omega]
        exact hd (k + 1) z (by simpa using hz))
      (by simpa using hi) (by simp; omega) (hb.put i j _)
      (fun c hc => by
        unfold Holds
        rw [Mat.put_get, if_neg (by omega)]
        exact hprev c (by omega))
      (fun c hc => by
        unfold Holds
        rw [Mat.put_get]
        by_cases h : c = j + 1
        · rw [if_pos (by omega), h]
        · rw [if_neg (by omega)]; exact hrow c (by omega))
      (by simpa using hr) (by simpa using hc)
    refine ⟨r, h1, h2, h3, h4, fun c hc => h5 c (by omega), ?_⟩
    intro a b hab
    rw [h6 a b (by omega), Mat.put_get, if_neg (by omega)]

theorem outerLoop_spec (distance : α → β → Option W) (d : Nat → Nat → Option W) (seconds : List β) (n m' : Nat) :
    ∀ (firsts : List α) (i : Nat) (m : Mat (Option W)),
      (∀ k x l y, firsts[k]? = some x → seconds[l]? = some y → distance x y = d (i + k) l) →
      i + firsts.length < m.rows → seconds.length < m.cols → Borders m →
      (∀ c, c ≤ seconds.length → Holds d m i c) → m.rows = n → m.cols = m' →
      ∃ r, outerLoop distance seconds firsts (i + 1) m = .ok r ∧ r.rows = n ∧ r.cols = m' ∧
        Borders r ∧ (∀ c, c ≤ seconds.length → Holds d r (i + firsts.length) c) ∧
        ∀ a b, (i + firsts.length < a ∨ seconds.length < b) → r.get a b = m.get a b := by
  intro firsts
  induction firsts with
  | nil =>
    intro i m _ _ _ hb hprev hr hc
    exact ⟨m, rfl, hr, hc, hb, by simpa using hprev, fun _ _ _ => rfl⟩
  | cons x xs ih =>
    intro i m hd hi hj hb hprev hr hc
    simp only [List.length_cons] at hi ⊢
    unfold outerLoop
    obtain ⟨r, h1, h2, h3, h4, h5, h6⟩ := innerLoop_spec distance d x i n m' seconds 0 m
      (fun k y hy => by simpa using hd 0 x k y rfl hy) (by omega) (by omega) hb
      (fun c hc => hprev c (by omega)) (fun c hc => by
        have : c = 0 := by omega
        subst this
        exact hb.holds_col d (by omega)) hr hc
    rw [show (1 : Nat) = 0 + 1 from rfl, h1, Out.bind_ok]
    obtain ⟨r', g1, g2, g3, g4, g5, g6⟩ := ih (i + 1) r
      (fun k z l y hz hy => by
        rw [show i + 1 + k = i + (k + 1) by omega]
        exact hd (k + 1) z l y (by simpa using hz) hy)
      (by omega) (by omega) h4 (fun c hc => h5 c (by omega)) h2 h3
    refine ⟨r', g1, g2, g3, g4, fun c hc => by
      rw [show i + (xs.length + 1) = i + 1 + xs.length by omega]; exact g5 c hc, ?_⟩
    intro a b hab
    rw [g6 a b (by omega), h6 a b (by omega)]

/-- distance of items `i` and `j` (zero where there are none) -/
def distAt (firsts : List α) (seconds : List β) (distance : α → β → Option W) (i j : Nat) : Option W :=
  match firsts[i]?, seconds[j]? with
  | some x, some y => distance x y
  | _, _ => some 0

theorem outerLoop_nil (distance : α → β → Option W) : ∀ (firsts : List α) (i : Nat) (m : Mat (Option W)),
    outerLoop distance [] firsts i m = .ok m := by
  intro firsts
  induction firsts with
  | nil => intro i m; rfl
  | cons x xs ih =>
    intro i m
    unfold outerLoop innerLoop
    rw [Out.bind_ok]
    exact ih _ _

theorem evaluate_nonempty (m : Mat (Option W)) (hm : Evaluator m) (firsts : List α) (seconds : List β)
    (distance : α → β → Option W) (h1 : firsts ≠ []) (h2 : seconds ≠ []) :
    ∃ m', evaluateWarpingCost m firsts seconds distance =
      .ok (table (distAt firsts seconds distance) firsts.length seconds.length, m') ∧ Evaluator m' := by
  have hl1 : 0 < firsts.length := List.length_pos_iff.2 h1
  have hl2 : 0 < seconds.length := List.length_pos_iff.2 h2
  unfold evaluateWarpingCost
  obtain ⟨m1, g1, g2, g3, g4⟩ := initializeMatrix_spec m hm firsts.length seconds.length
  rw [g1, Out.bind_ok]
  have hb := g4.borders (by omega) (by omega)
  obtain ⟨r, k1, k2, k3, k4, k5, k6⟩ := outerLoop_spec distance (distAt firsts seconds distance)
    seconds m1.rows m1.cols firsts 0 m1 (fun k x l y hx hy => by simp [distAt, hx, hy])
    (by omega) (by omega) hb (fun c hc => hb.holds_row _ (by omega)) rfl rfl
  have hfull : ∀ a b, a < r.rows → b < r.cols → ∃ v, r.get a b = some v := by
    -- the loop only writes, so nothing becomes uninitialised
    have hin : ∀ (ss : List β) (f : α) (i j : Nat) (m m' : Mat (Option W)),
        innerLoop distance f i ss j m = .ok m' →
        (∀ a b, a < m.rows → b < m.cols → ∃ v, m.get a b = some v) →
        m'.rows = m.rows ∧ m'.cols = m.cols ∧
          ∀ a b, a < m.rows → b < m.cols → ∃ v, m'.get a b = some v := by
      intro ss
      induction ss with
      | nil =>
        intro f i j m m' h hf
        unfold innerLoop at h
        injection h with h; subst h
        exact ⟨rfl, rfl, hf⟩
      | cons s ss ih =>
        intro f i j m m' h hf
        unfold innerLoop at h
        rw [Out.bind_eq_ok] at h
        obtain ⟨m1, h1, h2⟩ := h
        unfold updateCell at h1
        simp only [Out.bind_eq_ok] at h1
        obtain ⟨v1, _, v2, _, v3, _, hw⟩ := h1
        unfold Mat.write at hw
        split at hw
        · injection hw with hw
          have hm1 : m1.rows = m.rows ∧ m1.cols = m.cols ∧
              ∀ a b, a < m.rows → b < m.cols → ∃ v, m1.get a b = some v := by
            subst hw
            refine ⟨rfl, rfl, ?_⟩
            intro a b ha hb
            simp only
            split
            · exact ⟨_, rfl⟩
            · exact hf a b ha hb
          obtain ⟨e1, e2, e3⟩ := hm1
          obtain ⟨q1, q2, q3⟩ := ih f i (j + 1) m1 m' h2 (by rw [e1, e2]; exact e3)
          exact ⟨by omega, by omega, fun a b ha hb => q3 a b (by omega) (by omega)⟩
        · cases hw
    have hout : ∀ (fs : List α) (i : Nat) (m m' : Mat (Option W)), outerLoop distance seconds fs i m = .ok m' →
        (∀ a b, a < m.rows → b < m.cols → ∃ v, m.get a b = some v) →
        ∀ a b, a < m.rows → b < m.cols → ∃ v, m'.get a b = some v := by
      intro fs
      induction fs with
      | nil =>
        intro i m m' h hf
        unfold outerLoop at h
        injection h with h; subst h
        exact hf
      | cons f fs ih =>
        intro i m m' h hf
        unfold outerLoop at h
        rw [Out.bind_eq_ok] at h
        obtain ⟨m1, h1, h2⟩ := h
        obtain ⟨q1, q2, q3⟩ := hin seconds f i 1 m m1 h1 hf
        intro a b ha hb
        exact ih (i + 1) m1 m' h2 (by rw [q1, q2]; exact q3) a b (by omega) (by omega)
    intro a b ha hb'
    exact hout firsts 1 m1 r k1 g4.full a b (by omega) (by omega)
  refine ⟨r, ?_, ⟨by omega, by omega, hfull, fun _ _ => k4, fun hno => by omega⟩⟩
  have hfin := k5 seconds.length (Nat.le_refl _)
  rw [Nat.zero_add] at hfin
  rw [show (1 : Nat) = 0 + 1 from rfl, k1, Out.bind_ok,
    Mat.read_ok r (by omega) (by omega) hfin, Out.bind_ok]

theorem evaluate_empty (m : Mat (Option W)) (hm : Evaluator m) (firsts : List α) (seconds : List β)
    (distance : α → β → Option W) (h : firsts = [] ∨ seconds = []) :
    ∃ v m', evaluateWarpingCost m firsts seconds distance = .ok (v, m') ∧ Evaluator m' := by
  unfold evaluateWarpingCost
  obtain ⟨m1, g1, g2, g3, g4⟩ := initializeMatrix_spec m hm firsts.length seconds.length
  rw [g1, Out.bind_ok]
  have hloop : outerLoop distance seconds firsts 1 m1 = .ok m1 := by
    rcases h with rfl | rfl
    · rfl
    · exact outerLoop_nil _ _ _ _
  rw [hloop, Out.bind_ok]
  obtain ⟨v, hv⟩ := g4.full firsts.length seconds.length g2 g3
  rw [Mat.read_ok m1 g2 g3 hv, Out.bind_ok]
  exact ⟨v, m1, rfl, g4⟩

end Verif.NanDtw
