import Verif.Spec.DijkstraRounded
import Verif.Props.Dijkstra

/-!
# Property C161 (SimpleDijkstrasAlgorithm): shortest distances with rounding
-/
namespace Verif.Dijkstra
open Verif Verif.Graph

variable {ν : Type} {F : Format}

theorem ExactRoute.nonneg {g : Graph ν (Double F)} {start v k : Nat} {c : ℝ} (h : ExactRoute g start v k c) :
    0 ≤ c := by
  induction h with
  | here => exact le_refl _
  | @step u v k c w fp nn le h e ih => linarith

/-- Along a route the rounded cost is at most the exact one times `(1 + unit) ^ k`. -/
theorem ExactRoute.rounded {g : Graph ν (Double F)} {start v k : Nat} {c : ℝ} (h : ExactRoute g start v k c) :
    ∃ d, Route g start v d ∧ (c * (1 + unit) ^ k ≤ F.big →
      ∃ x fp nn le, d = Double.fin x fp nn le ∧ x ≤ c * (1 + unit) ^ k) := by
  have hu := Rounding.unit_pos
  induction h with
  | here => exact ⟨0, .here, fun _ => ⟨0, _, _, _, rfl, by simp⟩⟩
  | @step u v k c w fp nn le h e ih =>
    obtain ⟨d, hd, hx⟩ := ih
    have c0 := h.nonneg
    refine ⟨_, .step hd e, fun hb => ?_⟩
    have p1 : 1 ≤ (1 + unit) ^ k := one_le_pow₀ (by linarith)
    have wp := mul_le_mul_of_nonneg_left p1 nn
    have hle : (c * (1 + unit) ^ k + w) * (1 + unit) ≤ (c + w) * (1 + unit) ^ (k + 1) := by
      rw [pow_succ, ← mul_assoc]
      exact mul_le_mul_of_nonneg_right (by linarith) (by linarith)
    have q0 : 0 ≤ c * (1 + unit) ^ k := mul_nonneg c0 (by linarith)
    obtain ⟨x, fx, nx, lx, rfl, hxc⟩ := hx (by
      have : 0 ≤ (c * (1 + unit) ^ k + w) * unit := mul_nonneg (by linarith) hu.le
      linarith)
    have up := F.upper (add_nonneg nx nn)
    have up' : F.rd (x + w) ≤ (c + w) * (1 + unit) ^ (k + 1) :=
      le_trans up (le_trans (mul_le_mul_of_nonneg_right (by linarith) (by linarith)) hle)
    exact ⟨_, _, _, _, Double.add_fin (le_trans up' hb), up'⟩

/-- A walk of finite rounded cost has an exact cost that is not much larger. -/
theorem Walk.exact {g : Graph ν (Double F)} {prev : List Int} {start : Nat} {vs : List Nat} {d : Double F}
    (h : Walk g prev start vs d) : ∀ x fp nn le, d = Double.fin x fp nn le →
      ∃ v k c, vs.head? = some v ∧ vs.length = k + 1 ∧ ExactRoute g start v k c ∧ c * (1 - unit) ^ k ≤ x := by
  have hu := Rounding.unit_pos
  have hu1 := Rounding.unit_lt_one
  induction h with
  | here =>
    intro x fp nn le h
    exact ⟨start, 0, 0, rfl, rfl, .here, by simpa using nn⟩
  | @step u v rest w d hp e hw ih =>
    intro z fz nz lz h
    obtain ⟨x, y, a1, a2, a3, b1, b2, b3, rfl, rfl, rfl⟩ := Double.add_eq_fin h
    obtain ⟨u', k, c, hh, hl, hr, hc⟩ := ih x a1 a2 a3 rfl
    simp only [List.head?_cons, Option.some.injEq] at hh
    subst hh
    refine ⟨v, k + 1, c + y, rfl, by rw [List.length_cons, hl], .step hr e, ?_⟩
    have lo := F.lower (add_nonneg a2 b2)
    refine le_trans ?_ lo
    have p1 : (1 - unit) ^ k ≤ 1 := pow_le_one₀ (by linarith) (by linarith)
    have wp := mul_le_mul_of_nonneg_left p1 b2
    rw [pow_succ, ← mul_assoc]
    exact mul_le_mul_of_nonneg_right (by linarith) (by linarith)

/-- **C161.** With weights that are non-negative doubles and rounded sums: the call returns; every computed distance is at
most the exact cost of every route times `(1 + unit) ^ k`, where `k` is its number of edges, and is at least the
exact cost of some route of fewer edges than there are nodes, times `(1 - unit) ^ k`; it is infinite only if the exact
cost of every route, times `(1 + unit) ^ k`, is beyond the largest double. -/
theorem C161_distances (pick : Nat → Nat) (g : Graph ν (Double F)) (start : Nat) (hl : Linked g)
    (hstart : start < g.length) :
    ∃ g' prev dist, performDijkstras pick g (start : Int) = some (.ok (g', prev, dist)) ∧
      dist.length = g.length ∧
      ∀ (v : Nat) (d : Double F), dist[v]? = some d →
        (∀ x fp nn le, d = .fin x fp nn le →
          (∀ k c, ExactRoute g start v k c → x ≤ c * (1 + unit) ^ k) ∧
          ∃ k c, k < g.length ∧ ExactRoute g start v k c ∧ c * (1 - unit) ^ k ≤ x) ∧
        (d = .inf → ∀ k c, ExactRoute g start v k c → F.big < c * (1 + unit) ^ k) := by
  have hn : NonNegative g := fun _ _ e _ => Double.zero_le e.weight
  obtain ⟨g', prev, dist, h1, h2, h3, h4⟩ := C16_shortest_distances pick g start hl hn hstart
  obtain ⟨g'', prev', dist', k1, k2, k3, k4, k5⟩ := C17_predecessors pick g start hl hn hstart
  rw [h1] at k1
  injection k1 with k1
  injection k1 with k1
  injection k1 with _ k1
  injection k1 with kp kd
  subst kp kd
  refine ⟨g', prev, dist, h1, h2, ?_⟩
  intro v d hd
  have hv : v < g.length := by rw [← h2]; exact (List.getElem?_eq_some_iff.1 hd).1
  obtain ⟨d', e1, e2, _⟩ := h4 v _ (List.getElem?_eq_getElem hv)
  rw [hd, Option.some.injEq] at e1
  subst e1
  refine ⟨?_, ?_⟩
  · rintro x fp nn le rfl
    refine ⟨fun k c hr => ?_, ?_⟩
    · obtain ⟨d', hr', hx⟩ := hr.rounded
      by_cases hb : c * (1 + unit) ^ k ≤ F.big
      · obtain ⟨y, f, n, l, rfl, hy⟩ := hx hb
        have := Double.fin_le_fin.1 (e2 _ hr')
        linarith
      · linarith [not_le.1 hb]
    · obtain ⟨vs, q1, q2, q3, q4, q5⟩ := (k5 v _ hd).1 (by rw [Double.inf_def]; simp)
      obtain ⟨v', k, c, a1, a2, a3, a4⟩ := q5.exact x fp nn le rfl
      rw [q1, Option.some.injEq] at a1
      subst a1
      exact ⟨k, c, by omega, a3, a4⟩
  · rintro rfl k c hr
    obtain ⟨d', hr', hx⟩ := hr.rounded
    by_contra hb
    obtain ⟨y, f, n, l, rfl, hy⟩ := hx (not_lt.1 hb)
    have := e2 _ hr'
    rw [Double.le_def] at this
    simp [Double.value] at this

/-- The double one. -/
noncomputable def one : Double Double.binary64 := .fin 1 (Rounding.fp_one _) zero_le_one (by
  show (1 : ℝ) ≤ (2 ^ 53 - 1) * 2 ^ 971
  have : (1 : ℝ) ≤ 2 ^ 971 := one_le_pow₀ (by norm_num)
  generalize (2 : ℝ) ^ 971 = t at *
  linarith)

/-- Two nodes and an edge of weight one. -/
noncomputable def sampleRounded : Graph Unit (Double Double.binary64) :=
  history .inf [.addNode (), .addNode (), .addEdge 1 0 one]

example : Linked sampleRounded := (inv_history _ _).linked

example : ExactRoute sampleRounded 0 1 1 (0 + 1) :=
  .step .here ⟨_, rfl, ⟨1, 0, one, UNKNOWN⟩, .head _, rfl, rfl⟩

end Verif.Dijkstra
