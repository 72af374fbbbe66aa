import Verif.Lemmas.TotgQuery
import Verif.Spec.TotgQuery
import Mathlib.Analysis.Calculus.Deriv.Comp
import Mathlib.Analysis.Calculus.Deriv.Add
import Mathlib.Analysis.Calculus.Deriv.Mul
import Mathlib.Analysis.Calculus.Deriv.Pow
import Mathlib.Data.List.Infix
import Mathlib.Tactic.LinearCombination
import Mathlib.Topology.Order.LeftRightNhds

/-!
# Queries of a trajectory (C112)
-/
namespace Verif.Totg
open Verif Filter Topology
variable {n : Nat}

/-- The cache after a history of queries. -/
noncomputable def afterQueries (p : Path n) (steps : List Step) (history : List ℝ) : Cache :=
  history.foldl (fun c t => (positionVelocity p steps c t).2) Cache.empty

theorem afterQueries_valid (p : Path n) (steps : List Step) (history : List ℝ) :
    (afterQueries p steps history).Valid steps := by
  unfold afterQueries
  generalize hc : Cache.empty = c
  have hv : c.Valid steps := hc ▸ valid_empty steps
  clear hc
  induction history generalizing c with
  | nil => exact hv
  | cons t rest ih => exact ih _ (segment_lookup steps c hv t).2

/-- **C112.** The answer to a query does not depend on the queries made before. -/
theorem C112_history (p : Path n) (steps : List Step) (history : List ℝ) (time : ℝ) :
    (positionVelocity p steps (afterQueries p steps history) time).1 =
      (positionVelocity p steps Cache.empty time).1 := by
  unfold positionVelocity
  simp only
  rw [(segment_lookup steps _ (afterQueries_valid p steps history) time).1,
    (segment_lookup steps _ (valid_empty steps) time).1]

theorem infix_of_get {α : Type} (l : List α) (k : Nat) (a b : α) (ha : l[k]? = some a) (hb : l[k + 1]? = some b) :
    [a, b] <:+: l := by
  induction l generalizing k with
  | nil => simp at ha
  | cons x l ih =>
    cases k with
    | zero =>
      simp only [List.getElem?_cons_zero, Option.some.injEq] at ha
      rw [List.getElem?_cons_succ] at hb
      cases l with
      | nil => simp at hb
      | cons y l =>
        simp only [List.getElem?_cons_zero, Option.some.injEq] at hb
        subst ha; subst hb
        exact ⟨[], l, rfl⟩
    | succ k =>
      rw [List.getElem?_cons_succ] at ha hb
      exact (ih k ha hb).trans (List.suffix_cons x l).isInfix

theorem timed_pair (points : List (ℝ × ℝ)) (k : Nat) (a b : Step)
    (ha : (timed points)[k]? = some a) (hb : (timed points)[k + 1]? = some b) :
    points[k]? = some (a.pos, a.vel) ∧ points[k + 1]? = some (b.pos, b.vel) := by
  constructor
  · rw [← timed_point points, List.getElem?_map, ha]; rfl
  · rw [← timed_point points, List.getElem?_map, hb]; rfl

theorem timed_cases (points : List (ℝ × ℝ)) (hm : Moving points) (k : Nat) (a b : Step)
    (ha : (timed points)[k]? = some a) (hb : (timed points)[k + 1]? = some b) :
    (a.pos < b.pos ∧ 0 ≤ a.vel ∧ 0 ≤ b.vel ∧ 0 < a.vel + b.vel ∧ a.time < b.time ∧
      b.pos - a.pos = (a.vel + b.vel) / 2 * (b.time - a.time)) ∨ (a = b ∧ k + 2 < points.length) := by
  obtain ⟨pa, pb⟩ := timed_pair points k a b ha hb
  have ht := timed_get points k a b ha hb
  rcases hm.1 _ _ (infix_of_get points k _ _ pa pb) with ⟨h1, h2, h3, h4⟩ | ⟨h1, h2⟩
  · left
    simp only at h1 h2 h3 h4
    refine ⟨h1, h2, h3, h4, ?_, ?_⟩
    · rw [ht]
      have : 0 < (b.pos - a.pos) / ((b.vel + a.vel) / 2) := div_pos (by linarith) (by linarith)
      linarith
    · rw [ht]
      have : a.vel + b.vel ≠ 0 := h4.ne'
      have : b.vel + a.vel ≠ 0 := by rw [add_comm]; exact this
      field_simp
      ring
  · right
    simp only [Prod.mk.injEq] at h1
    constructor
    · obtain ⟨a1, a2, a3⟩ := a
      obtain ⟨b1, b2, b3⟩ := b
      simp only at h1 ht
      obtain ⟨rfl, rfl⟩ := h1
      simp only [sub_self, zero_div, add_zero] at ht
      rw [ht]
    · by_contra hlen
      have hk : k + 1 < points.length := (List.getElem?_eq_some_iff.1 pb).1
      have hlen' : points.length = k + 2 := by omega
      have hsuf : [(a.pos, a.vel), (b.pos, b.vel)] <:+ points := by
        have : points.drop k = [(a.pos, a.vel), (b.pos, b.vel)] := by
          rw [List.drop_eq_getElem_cons (by omega), List.drop_eq_getElem_cons (by omega), List.drop_eq_nil_of_le (by omega)]
          obtain ⟨h', e⟩ := List.getElem?_eq_some_iff.1 pa
          obtain ⟨h'', e'⟩ := List.getElem?_eq_some_iff.1 pb
          rw [e, e']
        rw [← this]
        exact List.drop_suffix k points
      exact hm.2 _ _ hsuf (Prod.ext h1.1 h1.2)

theorem timed_moving (points : List (ℝ × ℝ)) (hm : Moving points) (k : Nat) (a b : Step)
    (ha : (timed points)[k]? = some a) (hb : (timed points)[k + 1]? = some b) (hlt : a.time < b.time) :
    a.pos < b.pos ∧ 0 ≤ a.vel ∧ 0 ≤ b.vel ∧ 0 < a.vel + b.vel ∧ a.time < b.time ∧
      b.pos - a.pos = (a.vel + b.vel) / 2 * (b.time - a.time) := by
  rcases timed_cases points hm k a b ha hb with h | ⟨rfl, -⟩
  · exact h
  · exact absurd hlt (lt_irrefl _)

theorem timed_le (points : List (ℝ × ℝ)) (hm : Moving points) (k : Nat) (a b : Step)
    (ha : (timed points)[k]? = some a) (hb : (timed points)[k + 1]? = some b) : a.time ≤ b.time := by
  rcases timed_cases points hm k a b ha hb with h | ⟨rfl, -⟩
  · exact h.2.2.2.2.1.le
  · exact le_rfl

/-- **C112.** The steps of a trajectory carry the times at which they are reached. -/
theorem C112_times (points : List (ℝ × ℝ)) (hm : Moving points) :
    (timed points).map (fun s => (s.pos, s.vel)) = points ∧ Reached points ((timed points).map (·.time)) ∧
      ∀ k a b, (timed points)[k]? = some a → (timed points)[k + 1]? = some b → a.time < b.time ∨ a = b := by
  refine ⟨timed_point points, ⟨by simp [timed_length], fun t ht => ?_, ?_⟩,
    fun k a b ha hb => (timed_cases points hm k a b ha hb).imp (fun h => h.2.2.2.2.1) (fun h => h.1)⟩
  · cases points with
    | nil => simp [timed] at ht
    | cons p l => simpa [timed] using ht.symm
  · intro k a b s t ha hb hs ht
    simp only [List.getElem?_map, Option.map_eq_some_iff] at hs ht
    obtain ⟨a', ha', rfl⟩ := hs
    obtain ⟨b', hb', rfl⟩ := ht
    obtain ⟨pa, pb⟩ := timed_pair points k a' b' ha' hb'
    rw [ha] at pa
    rw [hb] at pb
    cases pa
    cases pb
    rcases timed_cases points hm k a' b' ha' hb' with h | ⟨rfl, -⟩
    · exact h.2.2.2.2.2
    · simp

theorem timed_mono (points : List (ℝ × ℝ)) (hm : Moving points) (d : Nat) : ∀ (k : Nat) (a b : Step),
    (timed points)[k]? = some a → (timed points)[k + d]? = some b → a.time ≤ b.time ∧ (a.time = b.time → a = b) := by
  induction d with
  | zero => intro k a b ha hb; rw [Nat.add_zero, ha] at hb; cases hb; exact ⟨le_rfl, fun _ => rfl⟩
  | succ d ih =>
    intro k a b ha hb
    have hl : k + d < (timed points).length := by
      obtain ⟨h', _⟩ := List.getElem?_eq_some_iff.1 hb
      omega
    have hc := List.getElem?_eq_getElem hl
    obtain ⟨h1, h2⟩ := ih k a _ ha hc
    rcases timed_cases points hm (k + d) _ b hc hb with h | ⟨h, -⟩
    · have h3 := h.2.2.2.2.1
      exact ⟨h1.trans h3.le, fun e => absurd (h1.trans_lt h3) (by rw [e]; exact lt_irrefl _)⟩
    · rw [← h]; exact ⟨h1, h2⟩

/-- The last step is later than the one before. -/
theorem timed_final (points : List (ℝ × ℝ)) (hm : Moving points) (k : Nat) (a b : Step)
    (hk : points.length = k + 2) (ha : (timed points)[k]? = some a) (hb : (timed points)[k + 1]? = some b) :
    a.time < b.time := by
  rcases timed_cases points hm k a b ha hb with h | ⟨-, h⟩
  · exact h.2.2.2.2.1
  · omega

/-- The velocity on the path between two steps and the position, changing at a constant rate. -/
theorem between_eq (a b : Step) (hab : a.time < b.time)
    (h : b.pos - a.pos = (a.vel + b.vel) / 2 * (b.time - a.time)) (t : ℝ) :
    between a b t = (a.pos + (a.vel + (a.vel + (t - a.time) / (b.time - a.time) * (b.vel - a.vel))) / 2 *
        (t - a.time), a.vel + (t - a.time) / (b.time - a.time) * (b.vel - a.vel)) := by
  have hne : b.time - a.time ≠ 0 := by linarith
  have ep : b.pos = a.pos + (a.vel + b.vel) / 2 * (b.time - a.time) := by linarith
  unfold between
  simp only [ep, Prod.mk.injEq]
  constructor <;> field_simp <;> ring

/-- The index found lies in the interval that contains the time. -/
theorem lookup_between (points : List (ℝ × ℝ)) (hm : Moving points) (k : Nat) (a b : Step)
    (ha : (timed points)[k]? = some a) (hb : (timed points)[k + 1]? = some b) (t : ℝ) (h0 : a.time ≤ t)
    (h1 : t < b.time) : lookup (timed points) t = .ok (k + 1) := by
  unfold lookup
  have hl : k + 1 < (timed points).length := (List.getElem?_eq_some_iff.1 hb).1
  have hlast : (timed points)[(timed points).length - 1]? = (timed points).getLast? := by
    rw [List.getLast?_eq_getElem?]
  cases hg : (timed points).getLast? with
  | none =>
    rw [List.getLast?_eq_none_iff] at hg
    rw [hg] at ha; simp at ha
  | some last =>
    rw [hg] at hlast
    have hble : b.time ≤ last.time := (timed_mono points hm ((timed points).length - 1 - (k + 1)) (k + 1) b last hb
      (by rw [show k + 1 + ((timed points).length - 1 - (k + 1)) = (timed points).length - 1 by omega]; exact hlast)).1
    simp only
    rw [if_neg (not_le.2 (h1.trans_le hble))]
    refine advance_ok t _ (k + 1) 0 (k + 1) b (by omega) (fun m r _ hmk hr => ?_) hb h1
    exact (timed_mono points hm (k - m) m r a hr (by rw [show m + (k - m) = k by omega]; exact ha)).1.trans h0

theorem lookup_end (points : List (ℝ × ℝ)) (last : Step) (hl : (timed points).getLast? = some last) (t : ℝ)
    (h : last.time ≤ t) : lookup (timed points) t = .ok ((timed points).length - 1) := by
  unfold lookup
  rw [hl]
  simp only
  rw [if_pos h]

theorem query_at (p : Path n) (config tangent : ℝ → Fin n → ℝ) (hc : ∀ s, p.config s = .ok (config s))
    (ht : ∀ s, p.tangent s = .ok (tangent s)) (steps : List Step) (history : List ℝ) (t : ℝ) (k : Nat) (a b : Step)
    (ha : steps[k]? = some a) (hb : steps[k + 1]? = some b) (hlook : lookup steps t = .ok (k + 1)) :
    (positionVelocity p steps (afterQueries p steps history) t).1 =
      .ok (config (between a b t).1, (between a b t).2 • tangent (between a b t).1) := by
  unfold positionVelocity
  simp only
  rw [(segment_lookup steps _ (afterQueries_valid p steps history) t).1, hlook, Out.bind_ok]
  simp only [ha, hb, hc, ht, Out.bind_ok]

/-- Every time of the trajectory lies between two consecutive steps. -/
theorem interval (points : List (ℝ × ℝ)) (last : Step) (hl : (timed points).getLast? = some last) (t : ℝ)
    (h0 : 0 ≤ t) (h1 : t < last.time) :
    ∃ k a b, (timed points)[k]? = some a ∧ (timed points)[k + 1]? = some b ∧ a.time ≤ t ∧ t < b.time := by
  classical
  have hex : ∃ m, ∃ b : Step, (timed points)[m]? = some b ∧ t < b.time :=
    ⟨(timed points).length - 1, last, by rw [← List.getLast?_eq_getElem?]; exact hl, h1⟩
  obtain ⟨b, hb, hbt⟩ := Nat.find_spec hex
  cases hm : Nat.find hex with
  | zero =>
    rw [hm] at hb
    cases points with
    | nil => simp [timed] at hb
    | cons p l =>
      simp only [timed, List.getElem?_cons_zero, Option.some.injEq] at hb
      subst hb
      exact absurd hbt (not_lt.2 h0)
  | succ k =>
    rw [hm] at hb
    have hlen : k < (timed points).length := by
      have := (List.getElem?_eq_some_iff.1 hb).1
      omega
    have ha := List.getElem?_eq_getElem hlen
    refine ⟨k, _, b, ha, hb, ?_, hbt⟩
    by_contra hc
    exact Nat.find_min hex (m := k) (by omega) ⟨_, ha, not_le.1 hc⟩

/-- **C112.** Between two steps the velocity on the path changes at a constant rate from the velocity of the
one to that of the other, and the position is the one reached with this velocity. At the times of the steps
the answers are those of the steps. This is so after any earlier queries. -/
theorem C112_between (p : Path n) (config tangent : ℝ → Fin n → ℝ) (hc : ∀ s, p.config s = .ok (config s))
    (ht : ∀ s, p.tangent s = .ok (tangent s)) (points : List (ℝ × ℝ)) (hm : Moving points) (history : List ℝ)
    (k : Nat) (a b : Step) (ha : (timed points)[k]? = some a) (hb : (timed points)[k + 1]? = some b)
    (hlt : a.time < b.time) (t : ℝ) (h0 : a.time ≤ t) (h1 : t ≤ b.time) :
    let vel := a.vel + (t - a.time) / (b.time - a.time) * (b.vel - a.vel)
    let pos := a.pos + (a.vel + vel) / 2 * (t - a.time)
    (positionVelocity p (timed points) (afterQueries p (timed points) history) t).1 =
      .ok (config pos, vel • tangent pos) ∧
    a.pos ≤ pos ∧ pos ≤ b.pos ∧ min a.vel b.vel ≤ vel ∧ vel ≤ max a.vel b.vel ∧
    (t = a.time → pos = a.pos ∧ vel = a.vel) ∧ (t = b.time → pos = b.pos ∧ vel = b.vel) := by
  obtain ⟨m1, m2, m3, m4, m5, m6⟩ := timed_moving points hm k a b ha hb hlt
  have hd : 0 < b.time - a.time := by linarith
  intro vel pos
  have hend : t = b.time → pos = b.pos ∧ vel = b.vel := by
    intro e
    have hv : vel = b.vel := by
      change a.vel + (t - a.time) / (b.time - a.time) * (b.vel - a.vel) = b.vel
      rw [e, div_self hd.ne']; ring
    refine ⟨?_, hv⟩
    change a.pos + (a.vel + vel) / 2 * (t - a.time) = b.pos
    rw [hv, e]; linarith
  have hr0 : 0 ≤ (t - a.time) / (b.time - a.time) := div_nonneg (by linarith) hd.le
  have hr1 : (t - a.time) / (b.time - a.time) ≤ 1 := (div_le_one hd).2 (by linarith)
  have hvel : vel = (1 - (t - a.time) / (b.time - a.time)) * a.vel + (t - a.time) / (b.time - a.time) * b.vel := by
    change a.vel + _ = _; ring
  generalize hr : (t - a.time) / (b.time - a.time) = r at hr0 hr1 hvel
  have htr : t - a.time = r * (b.time - a.time) := by rw [← hr]; field_simp
  refine ⟨?_, ?_, ?_, ?_, ?_, ?_, hend⟩
  · by_cases hlt : t < b.time
    · rw [query_at p config tangent hc ht _ history t k a b ha hb (lookup_between points hm k a b ha hb t h0 hlt),
        between_eq a b m5 m6]
    · have e : t = b.time := le_antisymm h1 (not_lt.1 hlt)
      have hl : k + 1 < (timed points).length := (List.getElem?_eq_some_iff.1 hb).1
      cases hg : (timed points).getLast? with
      | none => rw [List.getLast?_eq_none_iff] at hg; rw [hg] at ha; simp at ha
      | some last =>
        have hget : (timed points)[(timed points).length - 1]? = some last := by
          rw [← List.getLast?_eq_getElem?]; exact hg
        obtain ⟨hle, hsame⟩ := timed_mono points hm ((timed points).length - 1 - (k + 1)) (k + 1) b last hb
          (by rw [show k + 1 + ((timed points).length - 1 - (k + 1)) = (timed points).length - 1 by omega]; exact hget)
        rcases hle.lt_or_eq with hlast | hlast
        · have hb0 : 0 ≤ b.time := by
            cases points with
            | nil => simp [timed] at ha
            | cons x xs => exact (timed_mono _ hm (k + 1) 0 _ b rfl (by rw [Nat.zero_add]; exact hb)).1
          obtain ⟨j, c, d, hcj, hdj, hct, htd⟩ := interval points last hg t (e ▸ hb0) (e ▸ hlast)
          have hkj : k + 1 ≤ j := by
            by_contra hno
            have : d.time ≤ b.time := (timed_mono points hm (k + 1 - (j + 1)) (j + 1) d b hdj
              (by rw [show j + 1 + (k + 1 - (j + 1)) = k + 1 by omega]; exact hb)).1
            linarith
          obtain ⟨q1, q2⟩ := timed_mono points hm (j - (k + 1)) (k + 1) b c hb
            (by rw [show k + 1 + (j - (k + 1)) = j by omega]; exact hcj)
          have hcb : b = c := q2 (le_antisymm q1 (hct.trans e.le))
          subst hcb
          obtain ⟨c1, c2, c3, c4, c5, c6⟩ := timed_moving points hm j b d hcj hdj (e ▸ htd)
          rw [query_at p config tangent hc ht _ history t j b d hcj hdj
            (lookup_between points hm j b d hcj hdj t hct htd), between_eq b d c5 c6]
          obtain ⟨e1, e2⟩ := hend e
          rw [e1, e2, e]
          simp
        · have hbl : b = last := hsame hlast
          have hpl : 2 ≤ (timed points).length := by omega
          have hprev : (timed points).length - 2 < (timed points).length := by omega
          have hpg := List.getElem?_eq_getElem hprev
          have hfin : (timed points)[(timed points).length - 2 + 1]? = some last := by
            rw [show (timed points).length - 2 + 1 = (timed points).length - 1 by omega]; exact hget
          have hstrict := timed_final points hm ((timed points).length - 2) _ last
            (by rw [← timed_length points]; omega) hpg hfin
          obtain ⟨c1, c2, c3, c4, c5, c6⟩ := timed_moving points hm _ _ last hpg hfin hstrict
          have hlook := lookup_end points last hg t (by rw [e, hbl])
          rw [show (timed points).length - 1 = (timed points).length - 2 + 1 by omega] at hlook
          rw [query_at p config tangent hc ht _ history t _ _ last hpg hfin hlook, between_eq _ last c5 c6]
          obtain ⟨e1, e2⟩ := hend e
          rw [e1, e2, e, hbl]
          rw [div_self (by linarith : last.time - _ ≠ 0)]
          have v1 : ∀ x : ℝ, x + 1 * (last.vel - x) = last.vel := by intro x; ring
          rw [v1, ← c6]
          simp
  · change a.pos ≤ a.pos + (a.vel + vel) / 2 * (t - a.time)
    have : 0 ≤ vel := by rw [hvel]; exact add_nonneg (mul_nonneg (by linarith) m2) (mul_nonneg hr0 m3)
    have : 0 ≤ (a.vel + vel) / 2 * (t - a.time) := mul_nonneg (by linarith) (by linarith)
    linarith
  · change a.pos + (a.vel + vel) / 2 * (t - a.time) ≤ b.pos
    rw [htr, hvel]
    have e : b.pos - (a.pos + (a.vel + ((1 - r) * a.vel + r * b.vel)) / 2 * (r * (b.time - a.time))) =
        (b.time - a.time) / 2 * ((1 - r) * (a.vel * (1 - r) + b.vel * (1 + r))) := by
      linear_combination m6
    have : 0 ≤ (b.time - a.time) / 2 * ((1 - r) * (a.vel * (1 - r) + b.vel * (1 + r))) :=
      mul_nonneg (by linarith) (mul_nonneg (by linarith)
        (add_nonneg (mul_nonneg m2 (by linarith)) (mul_nonneg m3 (by linarith))))
    linarith
  · rw [hvel]
    nlinarith [min_le_left a.vel b.vel, min_le_right a.vel b.vel]
  · rw [hvel]
    nlinarith [le_max_left a.vel b.vel, le_max_right a.vel b.vel]
  · intro e
    have hv : vel = a.vel := by
      change a.vel + (t - a.time) / (b.time - a.time) * (b.vel - a.vel) = a.vel
      rw [e]; simp
    refine ⟨?_, hv⟩
    change a.pos + (a.vel + vel) / 2 * (t - a.time) = a.pos
    rw [e]; simp

/-- **C112.** Over its duration the trajectory is one motion, whatever was asked before: it starts at the
first point and ends at the last point of the phase plane, and the velocity given for a time is the rate at
which the position given changes from that time on. -/
theorem C112_motion (p : Path n) (config tangent : ℝ → Fin n → ℝ) (hc : ∀ s, p.config s = .ok (config s))
    (ht : ∀ s, p.tangent s = .ok (tangent s)) (first second : ℝ × ℝ) (rest : List (ℝ × ℝ))
    (hm : Moving (first :: second :: rest))
    (hd : ∀ s, first.1 ≤ s → s < ((second :: rest).getLast (List.cons_ne_nil _ _)).1 →
      HasDerivWithinAt config (tangent s) (Set.Ici s) s) :
    let steps := timed (first :: second :: rest)
    let last := (second :: rest).getLast (List.cons_ne_nil _ _)
    ∃ (d : ℝ) (q v : ℝ → Fin n → ℝ), duration steps = .ok d ∧ 0 < d ∧
      (∀ history t, 0 ≤ t → t ≤ d →
        (positionVelocity p steps (afterQueries p steps history) t).1 = .ok (q t, v t)) ∧
      q 0 = config first.1 ∧ v 0 = first.2 • tangent first.1 ∧
      q d = config last.1 ∧ v d = last.2 • tangent last.1 ∧
      ∀ t, 0 ≤ t → t < d → HasDerivWithinAt q (v t) (Set.Ici t) t := by
  intro steps last
  have hlen : steps.length = rest.length + 2 := by simp [steps, timed_length]
  have hne : steps ≠ [] := by intro e; rw [e] at hlen; simp at hlen
  set final := steps.getLast hne with hfinal
  have hl : steps.getLast? = some final := List.getLast?_eq_some_getLast hne
  have hpt : (final.pos, final.vel) = last := by
    have e : steps.map (fun a => (a.pos, a.vel)) = first :: second :: rest := timed_point _
    have : (steps.map (fun a => (a.pos, a.vel))).getLast? = some (final.pos, final.vel) := by
      rw [List.getLast?_map, hl]; rfl
    rw [e, List.getLast?_cons_cons, List.getLast?_eq_some_getLast (List.cons_ne_nil _ _)] at this
    exact (Option.some.inj this).symm
  have hget : steps[steps.length - 1]? = some final := by rw [← List.getLast?_eq_getElem?]; exact hl
  have hfirst : steps[0]? = some ⟨first.1, first.2, 0⟩ := rfl
  have hk : steps.length - 2 < steps.length := by omega
  have hk0 := List.getElem?_eq_getElem hk
  have hk1 : steps[steps.length - 2 + 1]? = some final := by
    rw [show steps.length - 2 + 1 = steps.length - 1 by omega]; exact hget
  have hstrict := timed_final _ hm (steps.length - 2) _ final (by simp [hlen]) hk0 hk1
  have hpos : 0 < final.time := by
    have := (timed_mono _ hm (steps.length - 2) 0 _ _ hfirst (by rw [Nat.zero_add]; exact hk0)).1
    exact this.trans_lt hstrict
  have hsteps : ∀ k a b, steps[k]? = some a → steps[k + 1]? = some b → a.pos ≤ b.pos := by
    intro k a b ha hb
    rcases timed_cases _ hm k a b ha hb with h | ⟨rfl, -⟩
    · exact h.1.le
    · exact le_rfl
  have hmono : ∀ (d k : Nat) (a b : Step), steps[k]? = some a → steps[k + d]? = some b → a.pos ≤ b.pos := by
    intro d
    induction d with
    | zero => intro k a b ha hb; rw [Nat.add_zero, ha] at hb; cases hb; exact le_rfl
    | succ d ih =>
      intro k a b ha hb
      have hl : k + d < steps.length := by
        obtain ⟨h', _⟩ := List.getElem?_eq_some_iff.1 hb
        omega
      have hc := List.getElem?_eq_getElem hl
      exact (ih k a _ ha hc).trans (hsteps (k + d) _ b hc hb)
  have hinterval : ∀ t, 0 ≤ t → t ≤ final.time → ∃ k a b, steps[k]? = some a ∧ steps[k + 1]? = some b ∧
      a.time < b.time ∧ a.time ≤ t ∧ t ≤ b.time := by
    intro t h0 h1
    rcases h1.lt_or_eq with h1 | h1
    · obtain ⟨k, a, b, ha, hb, h2, h3⟩ := interval _ final hl t h0 h1
      exact ⟨k, a, b, ha, hb, h2.trans_lt h3, h2, h3.le⟩
    · refine ⟨steps.length - 2, _, final, hk0, hk1, hstrict, ?_, h1.le⟩
      rw [h1]
      exact hstrict.le
  set q : ℝ → Fin n → ℝ := fun t => match (positionVelocity p steps Cache.empty t).1 with
    | .ok r => r.1 | _ => 0 with hq
  set v : ℝ → Fin n → ℝ := fun t => match (positionVelocity p steps Cache.empty t).1 with
    | .ok r => r.2 | _ => 0 with hv
  have hans : ∀ history t k a b, steps[k]? = some a → steps[k + 1]? = some b → a.time < b.time → a.time ≤ t →
      t ≤ b.time → (positionVelocity p steps (afterQueries p steps history) t).1 = .ok (q t, v t) ∧
      q t = config (between a b t).1 ∧ v t = (between a b t).2 • tangent (between a b t).1 ∧
      a.pos ≤ (between a b t).1 ∧ (between a b t).1 ≤ b.pos ∧
      (t = a.time → between a b t = (a.pos, a.vel)) ∧ (t = b.time → between a b t = (b.pos, b.vel)) := by
    intro history t k a b ha hb hlt h0 h1
    obtain ⟨m1, m2, m3, m4, m5, m6⟩ := timed_moving _ hm k a b ha hb hlt
    have hbt := C112_between p config tangent hc ht _ hm history k a b ha hb hlt t h0 h1
    have hbe := C112_between p config tangent hc ht _ hm [] k a b ha hb hlt t h0 h1
    have ebt := between_eq a b m5 m6 t
    simp only at hbt hbe
    change (positionVelocity p steps Cache.empty t).1 = _ ∧ _ at hbe
    have eq : q t = config (between a b t).1 := by rw [hq]; simp only [hbe.1, ebt]
    have ev : v t = (between a b t).2 • tangent (between a b t).1 := by rw [hv]; simp only [hbe.1, ebt]
    refine ⟨?_, eq, ev, ?_, ?_, ?_, ?_⟩
    · rw [hbt.1, eq, ev, ebt]
    · rw [ebt]; exact hbt.2.1
    · rw [ebt]; exact hbt.2.2.1
    · intro e; rw [ebt]; exact Prod.ext (hbt.2.2.2.2.2.1 e).1 (hbt.2.2.2.2.2.1 e).2
    · intro e; rw [ebt]; exact Prod.ext (hbt.2.2.2.2.2.2 e).1 (hbt.2.2.2.2.2.2 e).2
  refine ⟨final.time, q, v, ?_, hpos, ?_, ?_, ?_, ?_, ?_, ?_⟩
  · unfold duration; rw [hl]
  · intro history t h0 h1
    obtain ⟨k, a, b, ha, hb, hlt, h2, h3⟩ := hinterval t h0 h1
    exact (hans history t k a b ha hb hlt h2 h3).1
  · obtain ⟨k, a, b, ha, hb, h2, h3⟩ := interval _ final hl 0 le_rfl hpos
    have hsame := timed_mono _ hm k 0 _ a hfirst (by rw [Nat.zero_add]; exact ha)
    have he := hsame.2 (le_antisymm hsame.1 h2)
    have h := hans [] 0 k a b ha hb (h2.trans_lt h3) h2 h3.le
    rw [h.2.1, h.2.2.2.2.2.1 (le_antisymm hsame.1 h2), ← he]
  · obtain ⟨k, a, b, ha, hb, h2, h3⟩ := interval _ final hl 0 le_rfl hpos
    have hsame := timed_mono _ hm k 0 _ a hfirst (by rw [Nat.zero_add]; exact ha)
    have he := hsame.2 (le_antisymm hsame.1 h2)
    have h := hans [] 0 k a b ha hb (h2.trans_lt h3) h2 h3.le
    rw [h.2.2.1, h.2.2.2.2.2.1 (le_antisymm hsame.1 h2), ← he]
  · have h := hans [] final.time _ _ _ hk0 hk1 hstrict hstrict.le le_rfl
    rw [h.2.1, h.2.2.2.2.2.2 rfl, ← hpt]
  · have h := hans [] final.time _ _ _ hk0 hk1 hstrict hstrict.le le_rfl
    rw [h.2.2.1, h.2.2.2.2.2.2 rfl, ← hpt]
  · intro t h0 h1
    obtain ⟨k, a, b, ha, hb, h2, h3⟩ := interval _ final hl t h0 h1
    have hab := h2.trans_lt h3
    obtain ⟨m1, m2, m3, m4, m5, m6⟩ := timed_moving _ hm k a b ha hb hab
    set pos : ℝ → ℝ := fun x => (between a b x).1 with hposdef
    have hder : ∀ x, HasDerivAt pos (between a b x).2 x := by
      intro x
      have h1 : HasDerivAt (fun x : ℝ => x - a.time) 1 x := (hasDerivAt_id x).sub_const _
      have h2 := ((h1.mul_const a.vel).const_add a.pos).add
        (((h1.mul h1).const_mul (1 / 2)).mul_const
          (2 * (b.pos - a.pos - (b.time - a.time) * a.vel) / ((b.time - a.time) * (b.time - a.time))))
      have e : pos = (fun x => a.pos + (x - a.time) * a.vel) + fun x => 1 / 2 * ((fun x => x - a.time) * fun x => x - a.time) x *
          (2 * (b.pos - a.pos - (b.time - a.time) * a.vel) / ((b.time - a.time) * (b.time - a.time))) := by
        funext x
        simp only [hposdef, between, Pi.add_apply, Pi.mul_apply]
        ring
      rw [e]
      refine h2.congr_deriv ?_
      simp only [between]
      ring
    have hrange : ∀ x, a.time ≤ x → x ≤ b.time → 0 ≤ (between a b x).2 := by
      intro x hx0 hx1
      have := C112_between p config tangent hc ht _ hm [] k a b ha hb hab x hx0 hx1
      simp only at this
      rw [between_eq a b m5 m6]
      exact (le_min m2 m3).trans this.2.2.2.1
    have hmonoP : MonotoneOn pos (Set.Icc a.time b.time) := by
      intro x hx y hy hxy
      simp only [hposdef, between_eq a b m5 m6]
      have vx := hrange x hx.1 hx.2
      have vy := hrange y hy.1 hy.2
      rw [between_eq a b m5 m6] at vx vy
      simp only at vx vy
      have hbd : b.time - a.time ≠ 0 := by linarith
      have e : (a.pos + (a.vel + (a.vel + (y - a.time) / (b.time - a.time) * (b.vel - a.vel))) / 2 * (y - a.time)) -
          (a.pos + (a.vel + (a.vel + (x - a.time) / (b.time - a.time) * (b.vel - a.vel))) / 2 * (x - a.time)) =
          (y - x) / 2 * ((a.vel + (x - a.time) / (b.time - a.time) * (b.vel - a.vel)) +
            (a.vel + (y - a.time) / (b.time - a.time) * (b.vel - a.vel))) := by
        field_simp
        ring
      have : 0 ≤ (y - x) / 2 * ((a.vel + (x - a.time) / (b.time - a.time) * (b.vel - a.vel)) +
            (a.vel + (y - a.time) / (b.time - a.time) * (b.vel - a.vel))) :=
        mul_nonneg (by linarith) (by linarith)
      linarith
    have hstart : first.1 ≤ a.pos := hmono k 0 _ a hfirst (by rw [Nat.zero_add]; exact ha)
    have hstop : b.pos ≤ last.1 := by
      have hkl : k + 1 < steps.length := (List.getElem?_eq_some_iff.1 hb).1
      have := hmono (steps.length - 1 - (k + 1)) (k + 1) b final hb
        (by rw [show k + 1 + (steps.length - 1 - (k + 1)) = steps.length - 1 by omega]; exact hget)
      rw [← hpt]; exact this
    have hcur := hans [] t k a b ha hb hab h2 h3.le
    have hlt : pos t < b.pos := by
      have hv2 : 0 < (between a b t).2 ∨ 0 < b.vel := by
        by_contra hno
        push Not at hno
        have hbv : b.vel = 0 := le_antisymm hno.2 m3
        have hav : 0 < a.vel := by linarith
        have hvt := hno.1
        rw [between_eq a b m5 m6, hbv] at hvt
        simp only at hvt
        have hr1 : (t - a.time) / (b.time - a.time) < 1 := (div_lt_one (by linarith)).2 (by linarith)
        nlinarith
      have e1 := (hans [] b.time k a b ha hb hab m5.le le_rfl).2.2.2.2.2.2 rfl
      have eb : b.pos = pos b.time := by simp only [hposdef, e1]
      have vb : (between a b b.time).2 = b.vel := by rw [e1]
      have vt := hrange t h2 h3.le
      have hbd : b.time - a.time ≠ 0 := by linarith
      have e : pos b.time - pos t = (b.time - t) / 2 * ((between a b t).2 + (between a b b.time).2) := by
        simp only [hposdef, between_eq a b m5 m6]
        field_simp
        ring
      have : 0 < (b.time - t) / 2 * ((between a b t).2 + (between a b b.time).2) := by
        refine mul_pos (by linarith) ?_
        rw [vb]
        rcases hv2 with h | h <;> linarith
      rw [eb]; linarith
    have hconf := hd (pos t) (hstart.trans hcur.2.2.2.1) (hlt.trans_le hstop)
    have hcomp : HasDerivWithinAt (config ∘ pos) ((between a b t).2 • tangent (pos t)) (Set.Icc t b.time) t :=
      HasDerivWithinAt.scomp t hconf (hder t).hasDerivWithinAt
        (fun x hx => hmonoP ⟨h2, h3.le⟩ ⟨h2.trans hx.1, hx.2⟩ hx.1)
    have hnhds : Set.Icc t b.time ∈ 𝓝[Set.Ici t] t := Icc_mem_nhdsGE h3
    rw [hcur.2.2.1]
    refine (hcomp.mono_of_mem_nhdsWithin hnhds).congr_of_eventuallyEq ?_ ?_
    · filter_upwards [hnhds] with x hx
      exact (hans [] x k a b ha hb hab (h2.trans hx.1) hx.2).2.1
    · exact hcur.2.1

/-- **C112.** A time before the start makes the code step before the first step. -/
theorem C112_negative (p : Path n) (first second : ℝ × ℝ) (rest : List (ℝ × ℝ))
    (hm : Moving (first :: second :: rest)) (history : List ℝ) (t : ℝ) (h : t < 0) :
    let steps := timed (first :: second :: rest)
    (positionVelocity p steps (afterQueries p steps history) t).1 = .ub := by
  intro steps
  have hfirst : steps[0]? = some ⟨first.1, first.2, 0⟩ := rfl
  have hlen : steps.length = rest.length + 2 := by simp [steps, timed_length]
  have hlook : lookup steps t = .ok 0 := by
    unfold lookup
    cases hg : steps.getLast? with
    | none => rw [List.getLast?_eq_none_iff] at hg; rw [hg] at hlen; simp at hlen
    | some last =>
      have hget : steps[steps.length - 1]? = some last := by rw [← List.getLast?_eq_getElem?]; exact hg
      have := (timed_mono _ hm (steps.length - 1) 0 _ last hfirst (by rw [Nat.zero_add]; exact hget)).1
      simp only at this ⊢
      rw [if_neg (not_le.2 (h.trans_le this))]
      exact advance_ok t _ 0 0 0 _ rfl (fun m r _ h2 => absurd h2 (by omega)) hfirst h
  unfold positionVelocity
  simp only
  rw [(segment_lookup steps _ (afterQueries_valid p steps history) t).1, hlook, Out.bind_ok]

/-- **C112.** After the end the motion is continued with the acceleration of the last two steps: the
trajectory does not stop. -/
theorem C112_after (p : Path n) (config tangent : ℝ → Fin n → ℝ) (hc : ∀ s, p.config s = .ok (config s))
    (ht : ∀ s, p.tangent s = .ok (tangent s)) (points : List (ℝ × ℝ)) (hm : Moving points) (history : List ℝ)
    (k : Nat) (a b : Step) (hk : points.length = k + 2) (ha : (timed points)[k]? = some a)
    (hb : (timed points)[k + 1]? = some b) (t : ℝ) (h : b.time ≤ t) :
    let vel := b.vel + (t - b.time) / (b.time - a.time) * (b.vel - a.vel)
    let pos := b.pos + (b.vel + vel) / 2 * (t - b.time)
    (positionVelocity p (timed points) (afterQueries p (timed points) history) t).1 =
      .ok (config pos, vel • tangent pos) := by
  obtain ⟨m1, m2, m3, m4, m5, m6⟩ := timed_moving points hm k a b ha hb (timed_final points hm k a b hk ha hb)
  have hlast : k + 1 = (timed points).length - 1 := by rw [timed_length, hk]; omega
  have hg : (timed points).getLast? = some b := by rw [List.getLast?_eq_getElem?, ← hlast]; exact hb
  have hlook := lookup_end points b hg t h
  rw [← hlast] at hlook
  intro vel pos
  have hne : b.time - a.time ≠ 0 := by linarith
  have e2 : (between a b t).2 = vel := by
    rw [between_eq a b m5 m6]
    change _ = b.vel + _
    field_simp
    ring
  have e1 : (between a b t).1 = pos := by
    rw [between_eq a b m5 m6]
    change _ = b.pos + (b.vel + (b.vel + (t - b.time) / (b.time - a.time) * (b.vel - a.vel))) / 2 * (t - b.time)
    have ep : b.pos = a.pos + (a.vel + b.vel) / 2 * (b.time - a.time) := by linarith
    rw [ep]
    field_simp
    ring
  rw [query_at p config tangent hc ht _ history t k a b ha hb hlook, e1, e2]

end Verif.Totg
