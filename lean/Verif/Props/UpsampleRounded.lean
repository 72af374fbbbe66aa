import Verif.Model.UpsampleRounded
import Verif.Spec.UpsampleRounded
import Verif.Props.Upsample

/-!
# Property C177 (path_utils.hpp): upsampling of paths with rounding
-/
namespace Verif.UpsampleRounded
open Verif Verif.PathUtils
open Verif.PathUtils (at? lengthsLoop)
open Verif.Voxel (int64)

variable {C : Type} (R : Rounding)

/-! ## Splitting the largest piece -/

/-- the length of a piece, as computed -/
noncomputable def piece (d : ℝ) (c : Nat) : ℝ := R.rd (d / R.rd (c : ℝ))

theorem rd_nat_pos {c : Nat} (h : 1 ≤ c) : 0 < R.rd (c : ℝ) := by
  have h1 : (1 : ℝ) ≤ c := by exact_mod_cast h
  have := R.mono h1
  rw [R.fp_one] at this
  linarith

theorem piece_anti {d : ℝ} (h : 0 ≤ d) {c e : Nat} (h1 : 1 ≤ c) (h2 : c ≤ e) : piece R d e ≤ piece R d c := by
  unfold piece
  apply R.mono
  apply div_le_div_of_nonneg_left h (rd_nat_pos R h1)
  exact R.mono (by exact_mod_cast h2)

/-- the state of the splitting loop -/
structure Splitting (R : Rounding) (lengths : List ℝ) (queue : List (ℝ × Nat)) (counts : List Nat) : Prop where
  len : counts.length = lengths.length
  nodup : (queue.map Prod.snd).Nodup
  mem : ∀ l s, (l, s) ∈ queue ↔ ∃ c d, counts[s]? = some c ∧ lengths[s]? = some d ∧ l = piece R d c
  pos : ∀ (s c : Nat), counts[s]? = some c → 1 ≤ c
  greedy : ∀ (i j ci cj : Nat) (di dj : ℝ), counts[i]? = some ci → counts[j]? = some cj →
    lengths[i]? = some di → lengths[j]? = some dj → 2 ≤ cj → piece R di ci ≤ piece R dj (cj - 1)

theorem piece_one {d : ℝ} (h : R.Fp d) : piece R d 1 = d := by
  have : R.rd ((1 : Nat) : ℝ) = 1 := by rw [Nat.cast_one]; exact R.fp_one
  unfold piece
  rw [this, div_one]
  exact h

theorem splitting_start (lengths : List ℝ) (hf : ∀ d ∈ lengths, R.Fp d) :
    Splitting R lengths lengths.zipIdx (List.replicate lengths.length 1) := by
  refine ⟨by simp, ?_, ?_, ?_, ?_⟩
  · rw [List.zipIdx_map_snd]
    exact List.nodup_range'
  · intro l s
    rw [List.mem_zipIdx_iff_getElem?]
    constructor
    · intro h
      have hl := (List.getElem?_eq_some_iff.1 h).1
      exact ⟨1, l, by rw [List.getElem?_replicate, if_pos hl], h, (piece_one R (hf l (List.mem_of_getElem? h))).symm⟩
    · rintro ⟨c, d, h1, h2, h3⟩
      rw [List.getElem?_replicate] at h1
      split at h1
      · injection h1 with h1
        subst h1
        rw [h3, piece_one R (hf d (List.mem_of_getElem? h2))]
        simpa using h2
      · cases h1
  · intro s c h
    rw [List.getElem?_replicate] at h
    split at h
    · injection h with h; omega
    · cases h
  · intro i j ci cj di dj _ h
    rw [List.getElem?_replicate] at h
    split at h
    · injection h with h; intro _ _ _; omega
    · cases h

theorem splitting_step {lengths : List ℝ} {queue rest : List (ℝ × Nat)} {counts : List Nat} {n : Nat}
    {l : ℝ} {s : Nat} (h : Splitting R lengths queue counts) (h0 : ∀ d ∈ lengths, 0 ≤ d)
    (hp : popMin (fun e : ℝ × Nat => -e.1) n queue = some ((l, s), rest)) :
    ∃ c d, counts[s]? = some c ∧ lengths[s]? = some d ∧
      Splitting R lengths (rest ++ [(piece R d (c + 1), s)]) (counts.set s (c + 1)) := by
  obtain ⟨i, e1, e2, e3⟩ := popMin_spec hp
  have hm : (l, s) ∈ queue := List.mem_of_getElem? e1
  obtain ⟨c, d, hc, hd, hl⟩ := (h.mem l s).1 hm
  have hsl := (List.getElem?_eq_some_iff.1 hc).1
  have hc1 := h.pos s c hc
  have hd0 := h0 d (List.mem_of_getElem? hd)
  have perm : queue.Perm ((l, s) :: rest) := by
    rw [e2]
    obtain ⟨hi, he⟩ := List.getElem?_eq_some_iff.1 e1
    rw [← he]
    exact (List.getElem_cons_eraseIdx_perm hi).symm
  have nd : s ∉ rest.map Prod.snd ∧ (rest.map Prod.snd).Nodup := by
    have := (perm.map Prod.snd).nodup_iff.1 h.nodup
    rwa [List.map_cons, List.nodup_cons] at this
  have small : piece R d (c + 1) ≤ piece R d c := piece_anti R hd0 hc1 (Nat.le_succ c)
  have top : ∀ (j cj : Nat) (dj : ℝ), counts[j]? = some cj → lengths[j]? = some dj → piece R dj cj ≤ piece R d c := by
    intro j cj dj h1 h2
    have := e3 _ ((h.mem _ j).2 ⟨cj, dj, h1, h2, rfl⟩)
    rw [hl] at this
    dsimp only at this
    linarith
  have get : ∀ j cj, (counts.set s (c + 1))[j]? = some cj →
      (j = s ∧ cj = c + 1) ∨ (j ≠ s ∧ counts[j]? = some cj) := by
    intro j cj hj
    by_cases hjs : j = s
    · subst hjs
      rw [List.getElem?_set_self hsl] at hj
      injection hj with hj
      exact .inl ⟨rfl, hj.symm⟩
    · rw [List.getElem?_set_ne (Ne.symm hjs)] at hj
      exact .inr ⟨hjs, hj⟩
  refine ⟨c, d, hc, hd, by rw [List.length_set]; exact h.len, ?_, ?_, ?_, ?_⟩
  · rw [List.map_append, List.map_singleton]
    refine List.nodup_append.2 ⟨nd.2, by simp, ?_⟩
    intro a ha b hb
    simp at hb
    subst hb
    rintro rfl
    exact nd.1 ha
  · intro l' s'
    rw [List.mem_append, List.mem_singleton]
    constructor
    · rintro (hr | hr)
      · have hne : s' ≠ s := by
          rintro rfl
          exact nd.1 (List.mem_map.2 ⟨_, hr, rfl⟩)
        obtain ⟨c', d', g1, g2, g3⟩ := (h.mem l' s').1 (perm.mem_iff.2 (List.mem_cons_of_mem _ hr))
        exact ⟨c', d', by rw [List.getElem?_set_ne (Ne.symm hne)]; exact g1, g2, g3⟩
      · injection hr with g1 g2
        subst g2
        exact ⟨c + 1, d, List.getElem?_set_self hsl, hd, g1⟩
    · rintro ⟨c', d', g1, g2, g3⟩
      rcases get s' c' g1 with ⟨k1, k2⟩ | ⟨k1, k2⟩
      · right
        subst k1; subst k2
        rw [hd] at g2
        injection g2 with g2
        subst g2
        rw [g3]
      · left
        have := perm.mem_iff.1 ((h.mem l' s').2 ⟨c', d', k2, g2, g3⟩)
        rcases List.mem_cons.1 this with g | g
        · injection g with _ g
          exact absurd g k1
        · exact g
  · intro j cj hj
    rcases get j cj hj with ⟨_, k⟩ | ⟨_, k⟩
    · omega
    · exact h.pos j cj k
  · intro i j ci cj di dj hi hj hdi hdj h2
    have lhs : piece R di ci ≤ piece R d c ∧
        ∀ (j cj : Nat) (dj : ℝ), counts[j]? = some cj → lengths[j]? = some dj → 2 ≤ cj →
          piece R di ci ≤ piece R dj (cj - 1) := by
      rcases get i ci hi with ⟨k1, k2⟩ | ⟨k1, k2⟩
      · subst k1; subst k2
        rw [hd] at hdi
        injection hdi with hdi
        subst hdi
        exact ⟨small, fun j cj dj g1 g2 g3 => small.trans (h.greedy _ j c cj d dj hc g1 hd g2 g3)⟩
      · exact ⟨top i ci di k2 hdi, fun j cj dj g1 g2 g3 => h.greedy i j ci cj di dj k2 g1 hdi g2 g3⟩
    rcases get j cj hj with ⟨k1, k2⟩ | ⟨k1, k2⟩
    · subst k1; subst k2
      rw [hd] at hdj
      injection hdj with hdj
      subst hdj
      rw [Nat.add_sub_cancel]
      exact lhs.1
    · exact lhs.2 j cj dj k2 hdj h2

theorem splitLoop_spec (pick : Nat → Nat) (lengths : List ℝ) (h0 : ∀ d ∈ lengths, 0 ≤ d) (hne : lengths ≠ []) :
    ∀ (left i : Nat) (queue : List (ℝ × Nat)) (counts : List Nat), Splitting R lengths queue counts →
    ∃ queue' counts', splitLoop R pick lengths left i queue counts = .ok counts' ∧
      Splitting R lengths queue' counts' ∧ counts'.sum = counts.sum + left := by
  intro left
  induction left with
  | zero => intro i queue counts h; exact ⟨queue, counts, rfl, h, rfl⟩
  | succ left ih =>
    intro i queue counts h
    rw [splitLoop]
    cases hp : popMin (fun e : ℝ × Nat => -e.1) (pick i) queue with
    | none =>
      exfalso
      have hq := popMin_none.1 hp
      obtain ⟨d, ds, rfl⟩ := List.exists_cons_of_ne_nil hne
      have hl : 0 < counts.length := by rw [h.len]; simp
      have := (h.mem (piece R d counts[0]) 0).2 ⟨counts[0], d, List.getElem?_eq_getElem hl, rfl, rfl⟩
      rw [hq] at this
      cases this
    | some e =>
      obtain ⟨⟨l, s⟩, rest⟩ := e
      obtain ⟨c, d, hc, hd, hs⟩ := splitting_step R h h0 hp
      dsimp only
      rw [hc, hd]
      dsimp only
      obtain ⟨q', c', g1, g2, g3⟩ := ih (i + 1) _ _ hs
      exact ⟨q', c', g1, g2, by rw [g3, PathUtils.sum_set_succ counts s c hc]; omega⟩

theorem splitting_optimal {lengths : List ℝ} {queue : List (ℝ × Nat)} {counts : List Nat}
    (h : Splitting R lengths queue counts) (h0 : ∀ d ∈ lengths, 0 ≤ d) (other : List Nat)
    (hl : other.length = counts.length) (hs : other.sum = counts.sum) (hp : ∀ c ∈ other, 1 ≤ c)
    (i c : Nat) (d : ℝ) (hc : counts[i]? = some c) (hd : lengths[i]? = some d) :
    ∃ (j cj : Nat) (dj : ℝ), other[j]? = some cj ∧ lengths[j]? = some dj ∧ piece R d c ≤ piece R dj cj := by
  rcases PathUtils.exists_smaller counts other hl.symm hs.symm with e | ⟨j, x, y, h1, h2, h3⟩
  · subst e
    exact ⟨i, c, d, hc, hd, le_refl _⟩
  · have hj := (List.getElem?_eq_some_iff.1 h1).1
    rw [h.len] at hj
    have hy := hp y (List.mem_of_getElem? h2)
    have hdj := List.getElem?_eq_getElem hj
    refine ⟨j, y, lengths[j], h2, hdj, ?_⟩
    refine (h.greedy i j c x d lengths[j] hc h1 hd hdj (by omega)).trans ?_
    exact piece_anti R (h0 _ (List.getElem_mem hj)) hy (by omega)

theorem piece_le {d e : ℝ} (hd : 0 ≤ d) (he : 0 ≤ e) {c f : Nat} (hc : 1 ≤ c) (hf : 1 ≤ f) (hc2 : c ≤ 2 ^ 51)
    (hf2 : f ≤ 2 ^ 51) (h : piece R d c ≤ piece R e f) : d / c ≤ e / f * (1 + 4 * unit) := by
  have hu : unit = 1 / 2 ^ 53 := rfl
  have conv : ∀ n : Nat, n ≤ 2 ^ 51 → R.rd (n : ℝ) = n := by
    intro n hn
    have := R.int n (by rw [abs_of_nonneg (by omega)]; omega)
    simpa using this
  unfold piece at h
  rw [conv c hc2, conv f hf2] at h
  have hc' : (0 : ℝ) < c := by exact_mod_cast hc
  have hf' : (0 : ℝ) < f := by exact_mod_cast hf
  have h1 := R.lower (div_nonneg hd hc'.le)
  have p2 := div_nonneg he hf'.le
  have h2 := R.upper p2
  have h3 : d / c * (1 - unit) ≤ e / f * (1 + unit) := by linarith
  have p1 := div_nonneg hd hc'.le
  rw [hu] at *
  nlinarith

/-! ## Building the path -/

/-- the ratio of a point, as computed -/
noncomputable def ratio (n k : Nat) : ℝ := R.rd (R.rd (k : ℝ) * R.rd (1 / R.rd (n : ℝ)))

theorem fractions (n : Nat) (hn : n ≤ 2 ^ 51) : Fractions n ((List.range n).map (ratio R n)) := by
  have hu : unit = 1 / 2 ^ 53 := rfl
  have conv : ∀ k : Nat, k ≤ 2 ^ 51 → R.rd (k : ℝ) = k := by
    intro k hk
    have := R.int k (by rw [abs_of_nonneg (by omega)]; omega)
    simpa using this
  rcases Nat.eq_zero_or_pos n with rfl | h0
  · exact ⟨rfl, by simp, by simp, by simp, by simp⟩
  have hp : (0 : ℝ) < n := by exact_mod_cast h0
  have hn' : (n : ℝ) ≤ 2 ^ 51 := by exact_mod_cast hn
  have h1 := R.lower (show (0 : ℝ) ≤ 1 / n by positivity)
  have h2 := R.upper (show (0 : ℝ) ≤ 1 / n by positivity)
  have hr : ∀ k : Nat, k ≤ 2 ^ 51 → ratio R n k = R.rd (k * R.rd (1 / n)) := by
    intro k hk; unfold ratio; rw [conv k hk, conv n hn]
  have key : ∀ h : ℝ, 1 / (n : ℝ) * (1 - unit) ≤ h → h ≤ 1 / n * (1 + unit) → R.rd (1 / (n : ℝ)) = h →
      Fractions n ((List.range n).map (ratio R n)) := by
    intro h l1 l2 he
    rw [he] at hr
    have hq : 0 < (1 : ℝ) / n := by positivity
    have hnq : (n : ℝ) * (1 / n) = 1 := by field_simp
    have hh : 0 < h := by
      rw [hu] at l1
      nlinarith
    generalize (1 : ℝ) / n = q at *
    have up : ∀ k : Nat, k ≤ n → ratio R n k ≤ k * h * (1 + unit) := by
      intro k hk
      rw [hr k (by omega)]
      exact R.upper (by positivity)
    have low : ∀ k : Nat, k ≤ n → k * h * (1 - unit) ≤ ratio R n k := by
      intro k hk
      rw [hr k (by omega)]
      exact R.lower (by positivity)
    have step : ∀ k m : Nat, k < m → m ≤ n → ratio R n k < ratio R n m := by
      intro k m hkm hm
      refine lt_of_le_of_lt (up k (by omega)) (lt_of_lt_of_le ?_ (low m hm))
      have e1 : (k : ℝ) + 1 ≤ m := by exact_mod_cast hkm
      have e2 : (m : ℝ) ≤ n := by exact_mod_cast hm
      have e0 : (0 : ℝ) ≤ k := Nat.cast_nonneg k
      have : (k : ℝ) * (1 + unit) < m * (1 - unit) := by rw [hu]; linarith
      nlinarith
    refine ⟨by simp, ?_, ?_, ?_, ?_⟩
    · rw [List.pairwise_map]
      refine List.pairwise_lt_range.imp_of_mem ?_
      intro a b _ hb hab
      exact step a b hab (by have := List.mem_range.1 hb; omega)
    · intro _
      obtain ⟨m, rfl⟩ := Nat.exists_eq_add_of_le' h0
      rw [List.range_succ_eq_map, List.map_cons, List.head?_cons, hr 0 (by norm_num)]
      simp [R.zero]
    · intro t ht
      obtain ⟨k, hk, rfl⟩ := List.mem_map.1 ht
      have hk := List.mem_range.1 hk
      refine lt_of_le_of_lt (up k hk.le) ?_
      have e1 : (k : ℝ) + 1 ≤ n := by exact_mod_cast hk
      have e0 : (0 : ℝ) ≤ k := Nat.cast_nonneg k
      have e2 : (k : ℝ) * h ≤ (n - 1) * (q * (1 + unit)) :=
        mul_le_mul (by linarith) l2 hh.le (by linarith)
      have e3 : ((n : ℝ) - 1) * (q * (1 + unit)) = (1 - q) * (1 + unit) := by linear_combination (1 + unit) * hnq
      rw [e3] at e2
      have e4 : 1 ≤ 2 ^ 51 * q := by rw [← hnq]; exact mul_le_mul_of_nonneg_right hn' hq.le
      rw [hu] at *
      nlinarith
    · intro k t hk
      rw [List.getElem?_map] at hk
      obtain ⟨j, hj, rfl⟩ := Option.map_eq_some_iff.1 hk
      obtain ⟨hj1, hj2⟩ := List.getElem?_eq_some_iff.1 hj
      rw [List.getElem_range] at hj2
      subst hj2
      have hkn : k < n := by simpa using hj1
      have e0 : (0 : ℝ) ≤ k := Nat.cast_nonneg k
      have e5 : (k : ℝ) / n = k * q := by
        rw [div_eq_iff hp.ne']; linear_combination (-(k : ℝ)) * hnq
      rw [e5, abs_le]
      have a1 := up k hkn.le
      have a2 := low k hkn.le
      have b1 : (k : ℝ) * h ≤ k * (q * (1 + unit)) := mul_le_mul_of_nonneg_left l2 e0
      have b2 : (k : ℝ) * (q * (1 - unit)) ≤ k * h := mul_le_mul_of_nonneg_left l1 e0
      have e6 : 0 ≤ (k : ℝ) * q := by positivity
      generalize (k : ℝ) * h = x at *
      have b1' : x ≤ (k * q) * (1 + unit) := by linarith
      have b2' : (k * q) * (1 - unit) ≤ x := by linarith
      generalize (k : ℝ) * q = y at *
      rw [hu] at *
      constructor <;> nlinarith
  exact key _ h1 h2 rfl

theorem segmentLoop_spec (interp : C → C → ℝ → C) (a b : C) (count : Nat) (total : Int) :
    ∀ (left j : Nat) (acc : List C), j + left = count → (acc.length : Int) + left ≤ total →
    segmentLoop R interp a b count total left j acc =
      .ok (acc ++ (((List.range count).drop j).map (ratio R count)).map (interp a b)) := by
  intro left
  induction left with
  | zero =>
    intro j acc hj ht
    rw [segmentLoop, List.drop_eq_nil_of_le (by simp; omega)]
    simp
  | succ left ih =>
    intro j acc hj ht
    rw [segmentLoop, if_pos (by omega), ih (j + 1) _ (by omega) (by simp; omega)]
    have e : (List.range count).drop j = j :: (List.range count).drop (j + 1) := by
      rw [List.drop_eq_getElem_cons (by simp; omega)]
      simp
    rw [e, List.map_cons, List.map_cons, List.append_assoc, List.singleton_append]
    rfl

theorem buildLoop_spec (interp : C → C → ℝ → C) (path : List C) (total : Int) :
    ∀ (counts : List Nat) (start : Nat) (acc : List C), start + counts.length < path.length →
    (acc.length : Int) + counts.sum ≤ total → (∀ c ∈ counts, c ≤ 2 ^ 51) →
    ∃ out last, buildLoop R interp path total counts (start : Int) acc = .ok (acc ++ out) ∧
      path[start + counts.length]? = some last ∧
      Upsampled interp ((path.drop start).take (counts.length + 1)) counts (out ++ [last]) ∧
      out.length = counts.sum := by
  intro counts
  induction counts with
  | nil =>
    intro start acc h _ _
    have h' : start < path.length := h
    refine ⟨[], path[start], by simp [buildLoop], List.getElem?_eq_getElem h', ?_, rfl⟩
    rw [List.drop_eq_getElem_cons h']
    exact .single _
  | cons c counts ih =>
    intro start acc h ht hb
    rw [List.length_cons] at h
    rw [List.sum_cons, Int.natCast_add] at ht
    have h0 : start < path.length := by omega
    have h1 : start + 1 < path.length := by omega
    have ecast : ((start : Int) + 1) = ((start + 1 : Nat) : Int) := by push_cast; rfl
    have hlen : (((List.range c).map (ratio R c)).map (interp path[start] path[start + 1])).length = c := by simp
    obtain ⟨out, last, g1, g2, g3, g4⟩ := ih (start + 1)
      (acc ++ ((List.range c).map (ratio R c)).map (interp path[start] path[start + 1]))
      (by omega) (by rw [List.length_append, hlen, Int.natCast_add]; omega) (fun x hx => hb x (by simp [hx]))
    refine ⟨((List.range c).map (ratio R c)).map (interp path[start] path[start + 1]) ++ out, last, ?_, ?_, ?_, ?_⟩
    · rw [buildLoop]
      by_cases hc : c = 0
      · subst hc
        rw [if_pos rfl, ecast]
        simpa using g1
      · rw [if_neg hc, at?_nat, ecast, at?_nat, List.getElem?_eq_getElem h0, List.getElem?_eq_getElem h1]
        dsimp only
        rw [segmentLoop_spec R interp _ _ c total c 0 acc (by omega) (by omega), Out.bind_ok, List.drop_zero]
        rw [List.append_assoc] at g1
        rw [← g1]
    · rw [← g2, List.length_cons]; congr 1; omega
    · rw [List.append_assoc, List.drop_eq_getElem_cons h0, List.take_succ_cons, List.length_cons,
        List.drop_eq_getElem_cons h1, List.take_succ_cons]
      rw [List.drop_eq_getElem_cons h1, List.take_succ_cons] at g3
      exact .step _ _ _ _ _ _ _ (fractions R c (hb c (by simp))) g3
    · rw [List.length_append, hlen, g4, List.sum_cons]

/-- **C177.** Upsampling a part of a path to more points than it has gives exactly that many points, also with rounding. Each
segment is cut at growing ratios next to the equal ones, and no other way to distribute the points makes the longest
piece shorter by more than a few rounding units. -/
theorem C177_upsample (path : List C) (start stop points : Nat) (dist : C → C → ℝ) (interp : C → C → ℝ → C)
    (pick : Nat → Nat) (h0 : ∀ a b, 0 ≤ dist a b) (hf : ∀ a b, R.Fp (dist a b)) (h1 : start + 2 ≤ stop)
    (h2 : stop ≤ path.length) (h3 : stop - start < points) (h4 : path.length < 2 ^ 63) (h5 : points ≤ 2 ^ 51) :
    let part := (path.drop start).take (stop - start)
    ∃ counts out, upsamplePathPartial R path start stop points dist interp pick = .ok out ∧
      Upsampled interp part counts out ∧ out.length = points ∧
      counts.length + 1 = part.length ∧ (∀ c ∈ counts, 1 ≤ c) ∧ counts.sum + 1 = points ∧
      NearlyBest (segmentLengths dist part) counts := by
  intro part
  have hpl : part.length = stop - start := by
    show ((path.drop start).take (stop - start)).length = _
    rw [List.length_take, List.length_drop]; omega
  have hll : (segmentLengths dist part).length = stop - start - 1 := by
    rw [segmentLengths_length, hpl]
  have hnn := segmentLengths_nonneg dist h0 part
  have hfp : ∀ l : List C, ∀ d ∈ segmentLengths dist l, R.Fp d := by
    intro l
    induction l with
    | nil => intro d hd; cases hd
    | cons a l ih =>
      cases l with
      | nil => intro d hd; cases hd
      | cons b l =>
        intro d hd
        rw [segmentLengths] at hd
        rcases List.mem_cons.1 hd with rfl | hd
        · exact hf a b
        · exact ih d hd
  have hlen : lengthsLoop dist path (stop - start - 1) (start : Int) = .ok (segmentLengths dist part) := by
    rw [lengthsLoop_spec dist path _ start (by omega), show stop - start - 1 + 1 = stop - start by omega]
  obtain ⟨queue, counts, s1, s2, s3⟩ := splitLoop_spec R pick (segmentLengths dist part) hnn
    (by intro he; rw [he] at hll; simp at hll; omega) (points - (stop - start)) 0 _ _
    (splitting_start R (segmentLengths dist part) (hfp part))
  have hcl : counts.length = stop - start - 1 := by rw [s2.len, hll]
  have hsum : counts.sum = points - 1 := by
    rw [s3, List.sum_replicate, hll]; simp; omega
  have small : ∀ l : List Nat, l.sum = counts.sum → ∀ c ∈ l, c ≤ 2 ^ 51 := by
    intro l hl c hc
    have := List.single_le_sum (fun x _ => Nat.zero_le x) c hc
    omega
  obtain ⟨out, last, b1, b2, b3, b4⟩ := buildLoop_spec R interp path (points : Int) counts start [] (by omega)
    (by rw [hsum]; simp) (small counts rfl)
  rw [hcl, show stop - start - 1 + 1 = stop - start by omega] at b3
  refine ⟨counts, out ++ [last], ?_, b3, by simp; omega, by omega, ?_, by omega, ?_⟩
  · unfold upsamplePathPartial
    rw [Out.assert_true (by omega), Out.bind_ok, Out.assert_true (by omega), Out.bind_ok]
    have e1 : int64 ((stop : Int) - (start : Int)) = .ok ((stop : Int) - (start : Int)) := by
      unfold int64; rw [if_pos ⟨by omega, by omega⟩]
    rw [e1, Out.bind_ok, if_neg (by omega), if_neg (by omega)]
    dsimp only
    rw [Out.assert_true (by omega), Out.bind_ok,
      show ((stop : Int) - (start : Int) - 1).toNat = stop - start - 1 by omega, hlen, Out.bind_ok,
      show ((points : Int) - ((stop : Int) - (start : Int))).toNat = points - (stop - start) by omega]
    rw [hll] at s1
    rw [s1, Out.bind_ok, b1, Out.bind_ok, List.nil_append, Out.assert_true (by omega), Out.bind_ok,
      show ((stop : Int) - 1) = ((start + counts.length : Nat) : Int) by omega, at?_nat, b2]
  · intro c hc
    obtain ⟨i, hi⟩ := List.mem_iff_getElem?.1 hc
    exact s2.pos i c hi
  · intro other o1 o2 o3 i c d hc hd
    obtain ⟨j, cj, dj, g1, g2, g3⟩ := splitting_optimal R s2 hnn other o1 o2 o3 i c d hc hd
    exact ⟨j, cj, dj, g1, g2, piece_le R (hnn d (List.mem_of_getElem? hd)) (hnn dj (List.mem_of_getElem? g2))
      (s2.pos i c hc) (o3 cj (List.mem_of_getElem? g1)) (small counts rfl c (List.mem_of_getElem? hc))
      (small other o2 cj (List.mem_of_getElem? g1)) g3⟩

/-- **C177.** The result contains all states of the part, in order and exactly, and starts and ends as it does. -/
theorem C177_keeps (interp : C → C → ℝ → C) (hi : ∀ a b, interp a b 0 = a) (part : List C) (counts : List Nat)
    (out : List C) (h : Upsampled interp part counts out) (hp : ∀ c ∈ counts, 1 ≤ c) :
    part.Sublist out ∧ out.head? = part.head? ∧ out.getLast? = part.getLast? := by
  induction h with
  | single a => simp
  | step a b rest n counts ts out ht h ih =>
    obtain ⟨i1, i2, i3⟩ := ih fun c hc => hp c (by simp [hc])
    have hn := hp n (by simp)
    have hh := ht.first (by omega)
    cases ts with
    | nil => simp at hh
    | cons t ts =>
      simp only [List.head?_cons, Option.some.injEq] at hh
      subst hh
      rw [List.map_cons, hi]
      refine ⟨List.Sublist.cons_cons a (i1.trans (List.sublist_append_right _ _)), rfl, ?_⟩
      rw [List.getLast?_append, i3]
      simp [List.getLast?_cons]

/-- **C177.** If interpolation moves evenly, neighbouring states of the result are no further apart than an equal piece of
their segment, up to a few rounding units of its length. -/
theorem C177_spacing (interp : C → C → ℝ → C) (dist : C → C → ℝ) (hi0 : ∀ a b, interp a b 0 = a)
    (hi1 : ∀ a b, interp a b 1 = b) (h0 : ∀ a b, 0 ≤ dist a b)
    (hg : ∀ a b s t, 0 ≤ s → s ≤ t → t ≤ 1 → dist (interp a b s) (interp a b t) = (t - s) * dist a b)
    (part : List C) (counts : List Nat) (out : List C) (h : Upsampled interp part counts out)
    (hp : ∀ c ∈ counts, 1 ≤ c) :
    ∀ x y, Consecutive out x y → ∃ (i c : Nat) (d : ℝ), counts[i]? = some c ∧
      (segmentLengths dist part)[i]? = some d ∧ dist x y ≤ d / c + 6 * unit * d := by
  induction h with
  | single a =>
    rintro x y ⟨i, -, h2⟩
    simp at h2
  | step a b rest n counts ts out ht h ih =>
    have hk := C177_keeps interp hi0 _ _ _ h fun c hc => hp c (by simp [hc])
    rintro x y ⟨i, hx, hy⟩
    have hn := hp n (by simp)
    have hnp : (0 : ℝ) < n := by exact_mod_cast hn
    have hlen : (ts.map (interp a b)).length = n := by rw [List.length_map, ht.length]
    have hu : unit = 1 / 2 ^ 53 := rfl
    have rng : ∀ (k : Nat) (t : ℝ), ts[k]? = some t → 0 ≤ t ∧ t < 1 ∧ (k : ℝ) / n ≤ 1 := by
      intro k t hk
      have hkl := (List.getElem?_eq_some_iff.1 hk).1
      rw [ht.length] at hkl
      have e1 : (k : ℝ) / n ≤ 1 := by
        rw [div_le_one hnp]; exact_mod_cast hkl.le
      have e0 : 0 ≤ (k : ℝ) / n := by positivity
      have := (abs_le.1 (ht.near k t hk)).1
      refine ⟨?_, ht.below t (List.mem_of_getElem? hk), e1⟩
      rw [hu] at this
      nlinarith
    have hd := h0 a b
    have fin : ∀ g : ℝ, g ≤ 1 / n + 6 * unit → g * dist a b ≤ dist a b / n + 6 * unit * dist a b := by
      intro g hg
      have := mul_le_mul_of_nonneg_right hg hd
      have e : (1 / (n : ℝ) + 6 * unit) * dist a b = dist a b / n + 6 * unit * dist a b := by ring
      linarith
    by_cases c1 : i + 1 < n
    · rw [List.getElem?_append_left (by omega), List.getElem?_map] at hx hy
      obtain ⟨s, hs, rfl⟩ := Option.map_eq_some_iff.1 hx
      obtain ⟨t, ht', rfl⟩ := Option.map_eq_some_iff.1 hy
      obtain ⟨s0, s1, s2⟩ := rng i s hs
      obtain ⟨t0, t1, t2⟩ := rng (i + 1) t ht'
      have hst : s < t := by
        obtain ⟨i1, i2⟩ := List.getElem?_eq_some_iff.1 hs
        obtain ⟨j1, j2⟩ := List.getElem?_eq_some_iff.1 ht'
        rw [← i2, ← j2]
        exact List.pairwise_iff_getElem.1 ht.grow i (i + 1) i1 j1 (by omega)
      refine ⟨0, n, dist a b, rfl, rfl, ?_⟩
      rw [hg a b s t s0 hst.le t1.le]
      apply fin
      have n1 := (abs_le.1 (ht.near i s hs)).1
      have n2 := (abs_le.1 (ht.near (i + 1) t ht')).2
      have e : ((i + 1 : Nat) : ℝ) / n = (i : ℝ) / n + 1 / n := by push_cast; ring
      rw [e] at n2 t2
      rw [hu] at *
      have : (0 : ℝ) ≤ (i : ℝ) / n := by positivity
      linarith
    · by_cases c2 : i + 1 = n
      · rw [List.getElem?_append_left (by omega), List.getElem?_map] at hx
        obtain ⟨s, hs, rfl⟩ := Option.map_eq_some_iff.1 hx
        obtain ⟨s0, s1, s2⟩ := rng i s hs
        rw [List.getElem?_append_right (by omega), hlen, c2, Nat.sub_self, ← List.head?_eq_getElem?, hk.2.1] at hy
        simp only [List.head?_cons, Option.some.injEq] at hy
        subst hy
        refine ⟨0, n, dist a b, rfl, rfl, ?_⟩
        have := hg a b s 1 s0 s1.le (le_refl _)
        rw [hi1] at this
        rw [this]
        apply fin
        have n1 := (abs_le.1 (ht.near i s hs)).1
        have e : (i : ℝ) / n + 1 / n = 1 := by
          rw [← add_div, div_eq_one_iff_eq hnp.ne', ← c2]; push_cast; rfl
        rw [hu] at *
        linarith
      · rw [List.getElem?_append_right (by omega), hlen] at hx hy
        obtain ⟨j, c, d, g1, g2, g3⟩ := ih (fun c hc => hp c (by simp [hc])) x y
          ⟨i - n, hx, by rw [← hy]; congr 1; omega⟩
        exact ⟨j + 1, c, d, by simpa using g1, by simpa [segmentLengths] using g2, g3⟩

/-- **C177.** Where no point is to be added the whole path is returned, and the same arguments fail an assertion as with
exact arithmetic; `UpsamplePath` works on the whole path. -/
theorem C177_otherwise (path : List C) (start stop points : Int) (dist : C → C → ℝ) (interp : C → C → ℝ → C)
    (pick : Nat → Nat) :
    (0 ≤ start → start < stop → stop ≤ path.length → points ≤ stop - start → path.length < 2 ^ 63 →
      upsamplePathPartial R path start stop points dist interp pick = .ok path) ∧
    (stop ≤ start ∨ (path.length : Int) < stop % 2 ^ 64 →
      upsamplePathPartial R path start stop points dist interp pick = .abort) ∧
    (0 ≤ start → stop = start + 1 → stop ≤ path.length → path.length < 2 ^ 63 → 1 < points →
      upsamplePathPartial R path start stop points dist interp pick = .abort) ∧
    (-2 ^ 62 ≤ start → start < 0 → 1 ≤ stop → stop ≤ path.length → path.length < 2 ^ 62 → stop - start < points →
      upsamplePathPartial R path start stop points dist interp pick = .ub) ∧
    upsamplePath R path points dist interp pick =
      upsamplePathPartial R path 0 path.length points dist interp pick := by
  refine ⟨?_, ?_, ?_, ?_, rfl⟩
  · intro g0 g1 g2 g3 g4
    unfold upsamplePathPartial
    rw [Out.assert_true (by omega), Out.bind_ok, Out.assert_true (by omega), Out.bind_ok]
    have e1 : int64 (stop - start) = .ok (stop - start) := by
      unfold int64; rw [if_pos ⟨by omega, by omega⟩]
    rw [e1, Out.bind_ok]
    by_cases h : stop - start = points
    · rw [if_pos h]
    · rw [if_neg h, if_pos (by omega)]
  · intro h
    unfold upsamplePathPartial
    by_cases c : stop > start
    · rw [Out.assert_true c, Out.bind_ok, Out.assert_false (by omega)]
      rfl
    · rw [Out.assert_false c]
      rfl
  · intro h0 h1 h2 h3 h4
    unfold upsamplePathPartial
    rw [Out.assert_true (by omega), Out.bind_ok, Out.assert_true (by omega), Out.bind_ok]
    have e1 : int64 (stop - start) = .ok (stop - start) := by
      unfold int64; rw [if_pos ⟨by omega, by omega⟩]
    rw [e1, Out.bind_ok, if_neg (by omega), if_neg (by omega)]
    dsimp only
    rw [Out.assert_false (by omega)]
    rfl
  · intro h0 h1 h2 h3 h4 h5
    unfold upsamplePathPartial
    rw [Out.assert_true (by omega), Out.bind_ok, Out.assert_true (by omega), Out.bind_ok]
    have e1 : int64 (stop - start) = .ok (stop - start) := by
      unfold int64; rw [if_pos ⟨by omega, by omega⟩]
    rw [e1, Out.bind_ok, if_neg (by omega), if_neg (by omega)]
    dsimp only
    rw [Out.assert_true (by omega), Out.bind_ok]
    obtain ⟨n, hn⟩ : ∃ n, (stop - start - 1).toNat = n + 1 := ⟨(stop - start - 2).toNat, by omega⟩
    rw [hn, lengthsLoop]
    have : at? path start = none := by unfold at?; rw [if_pos h1]
    rw [this]
    rfl

/-- Two numbers with five points. -/
example : ∃ out, upsamplePath R [(0 : ℝ), 8] 5 (fun a b => R.rd |b - a|) (fun a b t => a + t * (b - a)) (fun _ => 0) =
    .ok out ∧ out.length = 5 ∧ [(0 : ℝ), 8].Sublist out := by
  obtain ⟨counts, out, g1, g2, g3, -, g4, -, -⟩ := C177_upsample R [(0 : ℝ), 8] 0 2 5 (fun a b => R.rd |b - a|)
    (fun a b t => a + t * (b - a)) (fun _ => 0) (fun a b => R.nonneg (abs_nonneg _)) (fun a b => R.fp_rd _)
    (by norm_num) (by simp) (by norm_num) (by norm_num) (by norm_num)
  exact ⟨out, g1, g3, (C177_keeps _ (by intro a b; ring) _ _ _ g2 g4).1⟩

end Verif.UpsampleRounded
