import Verif.Props.UpsampleRounded
import Verif.Props.PathSpecial
import Verif.Spec.MathSpecial

/-!
# Property C192 (path_utils.hpp): upsampling paths with special doubles
-/
namespace Verif.PathSpecial
open Verif
open Verif.PathUtils (Consecutive at? at?_nat)
open Verif.Voxel (int64)
open Verif.UpsampleRounded (Upsampled NearlyBest)
open Verif.MathSpecial (IsDouble)

variable {C : Type} (A : Ieee)

/-! ## The queue -/

theorem mem_topPositions {q : List (Dbl × Nat)} {i : Nat} : i ∈ topPositions q ↔
    ∃ x, q[i]? = some x ∧ ((∃ y ∈ q, y.1 = .nan) ∨ ∀ y ∈ q, ¬ Ieee.lt x.1 y.1) := by
  classical
  unfold topPositions
  rw [List.mem_filter]
  constructor
  · rintro ⟨_, h⟩
    cases hx : q[i]? with
    | none => rw [hx] at h; simp at h
    | some x => rw [hx] at h; exact ⟨x, rfl, of_decide_eq_true h⟩
  · rintro ⟨x, hx, h⟩
    refine ⟨List.mem_range.2 (List.getElem?_eq_some_iff.1 hx).1, ?_⟩
    rw [hx]
    exact decide_eq_true h

theorem lt_trans' {a b c : Dbl} (h1 : Ieee.lt a b) (h2 : Ieee.lt b c) : Ieee.lt a c := by
  cases a with
  | nan => exact h1
  | inf s =>
    cases b with
    | nan => exact h1.elim
    | inf t => obtain ⟨rfl, rfl⟩ := h1; cases c <;> [exact h2; exact (by cases h2.1); cases h2]
    | num y =>
      have h1 : s = true := h1
      subst h1
      cases c with
      | nan => exact h2
      | inf u => exact ⟨rfl, h2⟩
      | num z => rfl
  | num x =>
    cases b with
    | nan => exact h1.elim
    | inf t =>
      have h1 : t = false := h1
      subst h1
      cases c <;> [exact h2; exact (by cases h2.1); cases h2]
    | num y =>
      cases c with
      | nan => exact h2
      | inf u => exact h2
      | num z => exact lt_trans (show x < y from h1) h2

/-- without values that are not a number, a list has a largest one -/
theorem exists_largest : ∀ (q : List (Dbl × Nat)), q ≠ [] → (∀ y ∈ q, y.1 ≠ .nan) →
    ∃ x ∈ q, ∀ y ∈ q, ¬ Ieee.lt x.1 y.1
  | [a], _, _ => ⟨a, by simp, by
      intro y hy
      rw [List.mem_singleton.1 hy]
      cases a.1 with
      | nan => exact id
      | inf s => rintro ⟨h1, h2⟩; rw [h1] at h2; cases h2
      | num x => exact lt_irrefl x⟩
  | a :: b :: q, _, hn => by
    obtain ⟨x, hx, h⟩ := exists_largest (b :: q) (by simp) (fun y hy => hn y (List.mem_cons_of_mem _ hy))
    by_cases hlt : Ieee.lt x.1 a.1
    · refine ⟨a, by simp, ?_⟩
      intro y hy
      rcases List.mem_cons.1 hy with rfl | hy
      · cases y.1 with
        | nan => exact id
        | inf s => rintro ⟨h1, h2⟩; rw [h1] at h2; cases h2
        | num z => exact lt_irrefl z
      · have h1 := h y hy
        exact fun e => h1 (lt_trans' hlt e)
    · refine ⟨x, List.mem_cons_of_mem _ hx, ?_⟩
      intro y hy
      rcases List.mem_cons.1 hy with rfl | hy
      · exact hlt
      · exact h y hy

theorem topPositions_ne_nil {q : List (Dbl × Nat)} (h : q ≠ []) : topPositions q ≠ [] := by
  have : ∃ i, i ∈ topPositions q := by
    by_cases hn : ∃ y ∈ q, y.1 = .nan
    · obtain ⟨x, rest, rfl⟩ := List.exists_cons_of_ne_nil h
      exact ⟨0, mem_topPositions.2 ⟨x, rfl, .inl hn⟩⟩
    · obtain ⟨x, hx, hm⟩ := exists_largest q h fun y hy e => hn ⟨y, hy, e⟩
      obtain ⟨i, hi⟩ := List.mem_iff_getElem?.1 hx
      exact ⟨i, mem_topPositions.2 ⟨x, hi, .inr hm⟩⟩
  obtain ⟨i, hi⟩ := this
  exact List.ne_nil_of_mem hi

theorem popTop_some {q : List (Dbl × Nat)} (h : q ≠ []) (c : Nat) : ∃ x rest, popTop c q = some (x, rest) ∧
    q.Perm (x :: rest) ∧ ((∃ y ∈ q, y.1 = .nan) ∨ ∀ y ∈ q, ¬ Ieee.lt x.1 y.1) := by
  have hlen := List.length_pos_iff.2 (topPositions_ne_nil h)
  have hlt := Nat.mod_lt c hlen
  have hi := List.getElem_mem hlt
  obtain ⟨x, hx, hm⟩ := mem_topPositions.1 hi
  refine ⟨x, q.eraseIdx (topPositions q)[c % (topPositions q).length], ?_, ?_, hm⟩
  · unfold popTop
    rw [List.getElem?_eq_getElem hlt]
    dsimp only
    rw [hx]
  · obtain ⟨hl, he⟩ := List.getElem?_eq_some_iff.1 hx
    have := (List.getElem_cons_eraseIdx_perm hl).symm
    rwa [he] at this

/-! ## Splitting -/

theorem split_spec (pick : Nat → Nat) (lengths : List Dbl) (hne : lengths ≠ []) :
    ∀ (left i : Nat) (queue : List (Dbl × Nat)) (counts : List Nat), counts.length = lengths.length →
      (queue.map Prod.snd).Perm (List.range lengths.length) → (∀ c ∈ counts, 1 ≤ c) →
      ∃ counts', splitLoop A pick lengths left i queue counts = .ok counts' ∧ counts'.length = lengths.length ∧
        (∀ c ∈ counts', 1 ≤ c) ∧ counts'.sum = counts.sum + left := by
  intro left
  induction left with
  | zero => intro i queue counts h1 _ h3; exact ⟨counts, rfl, h1, h3, rfl⟩
  | succ left ih =>
    intro i queue counts h1 h2 h3
    have hq : queue ≠ [] := by
      rintro rfl
      have := h2.length_eq
      simp at this
      exact hne (List.length_eq_zero_iff.1 this.symm)
    obtain ⟨⟨l, s⟩, rest, e, hp, -⟩ := popTop_some hq (pick i)
    rw [splitLoop, e]
    dsimp only
    have hp' : (s :: rest.map Prod.snd).Perm (List.range lengths.length) := by
      have := (hp.map Prod.snd).symm.trans h2
      simpa using this
    have hs : s < lengths.length := List.mem_range.1 (hp'.mem_iff.1 (by simp))
    have hc := List.getElem?_eq_getElem (show s < counts.length by omega)
    rw [hc, List.getElem?_eq_getElem hs]
    dsimp only
    obtain ⟨c', g1, g2, g3, g4⟩ := ih (i + 1)
      (rest ++ [(A.div lengths[s] (A.round ((counts[s] + 1 : Nat) : ℝ)), s)]) (counts.set s (counts[s] + 1))
      (by rw [List.length_set]; exact h1)
      (by
        rw [List.map_append, List.map_singleton]
        exact (List.perm_append_singleton _ _).trans hp')
      (by
        intro c hc
        rcases List.mem_or_eq_of_mem_set hc with h | h
        · exact h3 c h
        · omega)
    refine ⟨c', g1, g2, g3, ?_⟩
    rw [g4, PathUtils.sum_set_succ counts s counts[s] hc]
    omega

theorem lengths_length (dist : C → C → Dbl) : ∀ l : List C, (lengths dist l).length = l.length - 1
  | [] => rfl
  | [_] => rfl
  | a :: b :: rest => by
    rw [lengths, List.length_cons, lengths_length dist (b :: rest)]
    simp

theorem lengthsLoop_eq (dist : C → C → Dbl) (path : List C) : ∀ (left start : Nat), start + left < path.length →
    lengthsLoop dist path left (start : Int) = .ok (lengths dist ((path.drop start).take (left + 1))) := by
  intro left
  induction left with
  | zero =>
    intro start h
    have h' : start < path.length := h
    rw [lengthsLoop, List.drop_eq_getElem_cons h']
    rfl
  | succ left ih =>
    intro start h
    have h0 : start < path.length := by omega
    have h1 : start + 1 < path.length := by omega
    rw [lengthsLoop, at?_nat, show ((start : Int) + 1) = ((start + 1 : Nat) : Int) by push_cast; rfl, at?_nat,
      List.getElem?_eq_getElem h0, List.getElem?_eq_getElem h1, ih (start + 1) (by omega)]
    dsimp only
    rw [Out.bind_ok, List.drop_eq_getElem_cons h0, List.take_succ_cons, List.drop_eq_getElem_cons h1, List.take_succ_cons,
      lengths]

/-- what upsampling does, by what splitting does -/
theorem upsample_by (path : List C) (start stop points : Nat) (dist : C → C → Dbl) (interp : C → C → ℝ → C)
    (pick : Nat → Nat) (h1 : start + 2 ≤ stop) (h2 : stop ≤ path.length) (h3 : stop - start < points)
    (h4 : path.length < 2 ^ 63) (h5 : points ≤ 2 ^ 51) :
    let part := (path.drop start).take (stop - start)
    ∃ counts out, splitLoop A pick (lengths dist part) (points - (stop - start)) 0 (lengths dist part).zipIdx
        (List.replicate (stop - start - 1) 1) = .ok counts ∧
      upsamplePathPartial A path start stop points dist interp pick = .ok out ∧
      Upsampled interp part counts out ∧ out.length = points ∧
      counts.length + 1 = part.length ∧ (∀ c ∈ counts, 1 ≤ c) ∧ counts.sum + 1 = points := by
  intro part
  have hpl : part.length = stop - start := by
    show ((path.drop start).take (stop - start)).length = _
    rw [List.length_take, List.length_drop]; omega
  have hll : (lengths dist part).length = stop - start - 1 := by rw [lengths_length, hpl]
  have hlen : lengthsLoop dist path (stop - start - 1) (start : Int) = .ok (lengths dist part) := by
    rw [lengthsLoop_eq dist path _ start (by omega), show stop - start - 1 + 1 = stop - start by omega]
  obtain ⟨counts, s1, s2, s3, s4⟩ := split_spec A pick (lengths dist part)
    (by intro he; rw [he] at hll; simp at hll; omega) (points - (stop - start)) 0 (lengths dist part).zipIdx
    (List.replicate (stop - start - 1) 1) (by rw [List.length_replicate, hll])
    (by rw [List.zipIdx_map_snd, ← List.range_eq_range'])
    (by intro c hc; rw [(List.mem_replicate.1 hc).2])
  have hcl : counts.length = stop - start - 1 := by rw [s2, hll]
  have hsum : counts.sum = points - 1 := by
    rw [s4, List.sum_replicate]; simp; omega
  obtain ⟨out, last, b1, b2, b3, b4⟩ := UpsampleRounded.buildLoop_spec A.R interp path (points : Int) counts start []
    (by omega) (by rw [hsum]; simp) (by
      intro c hc
      have := List.single_le_sum (fun x _ => Nat.zero_le x) c hc
      omega)
  rw [hcl, show stop - start - 1 + 1 = stop - start by omega] at b3
  refine ⟨counts, out ++ [last], s1, ?_, b3, by simp; omega, by omega, s3, by omega⟩
  unfold upsamplePathPartial
  rw [Out.assert_true (by omega), Out.bind_ok, Out.assert_true (by omega), Out.bind_ok]
  have e1 : int64 ((stop : Int) - (start : Int)) = .ok ((stop : Int) - (start : Int)) := by
    unfold int64; rw [if_pos ⟨by omega, by omega⟩]
  rw [e1, Out.bind_ok, if_neg (by omega), if_neg (by omega)]
  dsimp only
  rw [Out.assert_true (by omega), Out.bind_ok,
    show ((stop : Int) - (start : Int) - 1).toNat = stop - start - 1 by omega, hlen, Out.bind_ok,
    show ((points : Int) - ((stop : Int) - (start : Int))).toNat = points - (stop - start) by omega,
    s1, Out.bind_ok, b1, Out.bind_ok, List.nil_append, Out.assert_true (by omega), Out.bind_ok,
    show ((stop : Int) - 1) = ((start + counts.length : Nat) : Int) by omega, at?_nat, b2]

/-- **C192.** Whatever the distances are, infinite or not a number, upsampling a part of a path to more points than it has
gives exactly that many points: each segment is cut at growing ratios next to the equal ones. -/
theorem C192_upsample (path : List C) (start stop points : Nat) (dist : C → C → Dbl) (interp : C → C → ℝ → C)
    (pick : Nat → Nat) (h1 : start + 2 ≤ stop) (h2 : stop ≤ path.length) (h3 : stop - start < points)
    (h4 : path.length < 2 ^ 63) (h5 : points ≤ 2 ^ 51) :
    let part := (path.drop start).take (stop - start)
    ∃ counts out, upsamplePathPartial A path start stop points dist interp pick = .ok out ∧
      Upsampled interp part counts out ∧ out.length = points ∧
      counts.length + 1 = part.length ∧ (∀ c ∈ counts, 1 ≤ c) ∧ counts.sum + 1 = points := by
  obtain ⟨counts, out, -, h⟩ := upsample_by A path start stop points dist interp pick h1 h2 h3 h4 h5
  exact ⟨counts, out, h⟩

/-! ## Infinite distances -/

/-- the queue of a path with an infinitely long segment -/
structure Endless (lengths : List Dbl) (queue : List (Dbl × Nat)) (counts : List Nat) : Prop where
  len : counts.length = lengths.length
  perm : (queue.map Prod.snd).Perm (List.range lengths.length)
  key : ∀ l s, (l, s) ∈ queue → l ≠ .nan ∧ (l = .inf false ↔ lengths[s]? = some (.inf false))
  most : ∀ (s c : Nat), counts[s]? = some c → 2 ≤ c → lengths[s]? = some (.inf false)

theorem div_key {d : Dbl} (hd : d ≠ .nan) (hI : IsDouble A d) (n : Nat) (hn : ((n + 1 : Nat) : ℝ) ≤ 2 ^ 64) :
    A.div d (A.round ((n + 1 : Nat) : ℝ)) ≠ .nan ∧
      (A.div d (A.round ((n + 1 : Nat) : ℝ)) = .inf false ↔ d = .inf false) := by
  have e := A.round_small (x := ((n + 1 : Nat) : ℝ)) (by rw [abs_of_nonneg (by positivity)]; exact hn)
  have h1 : (1 : ℝ) ≤ ((n + 1 : Nat) : ℝ) := by exact_mod_cast Nat.le_add_left 1 n
  have h2 := A.R.mono h1
  rw [A.R.fp_one] at h2
  rw [e]
  generalize A.R.rd ((n + 1 : Nat) : ℝ) = y at *
  cases d with
  | nan => exact absurd rfl hd
  | inf s =>
    simp only [Ieee.div]
    rw [decide_eq_false (by linarith)]
    simp
  | num x =>
    obtain ⟨hx, ht⟩ := hI x rfl
    simp only [Ieee.div]
    rw [if_neg (by linarith)]
    have hle : |x / y| ≤ |x| := by
      rw [abs_div, abs_of_pos (show (0 : ℝ) < y by linarith)]
      exact div_le_self (abs_nonneg x) h2
    have hr : |A.R.rd (x / y)| ≤ A.top := by
      obtain ⟨a1, a2⟩ := abs_le.1 hle
      have k1 := A.R.mono a1
      have k2 := A.R.mono a2
      have f1 : A.R.rd |x| = |x| := RoundedMath.fp_abs A.R hx
      rw [A.R.odd, f1] at k1
      rw [f1] at k2
      exact le_trans (abs_le.2 ⟨k1, k2⟩) ht
    rw [A.round_eq hr]
    simp

theorem split_endless (pick : Nat → Nat) (lengths : List Dbl) (hI : ∀ d ∈ lengths, d ≠ .nan ∧ IsDouble A d)
    (hinf : .inf false ∈ lengths) (bound : Nat) (hb : (bound : ℝ) ≤ 2 ^ 63) :
    ∀ (left i : Nat) (queue : List (Dbl × Nat)) (counts counts' : List Nat), Endless lengths queue counts →
      (∀ c ∈ counts, c + left ≤ bound) →
      splitLoop A pick lengths left i queue counts = .ok counts' →
      ∀ (s c : Nat), counts'[s]? = some c → 2 ≤ c → lengths[s]? = some (.inf false) := by
  intro left
  induction left with
  | zero =>
    intro i queue counts counts' h _ e
    injection e with e
    subst e
    exact h.most
  | succ left ih =>
    intro i queue counts counts' h hcb e
    have hne : lengths ≠ [] := List.ne_nil_of_mem hinf
    have hq : queue ≠ [] := by
      rintro rfl
      have := h.perm.length_eq
      simp at this
      exact hne (List.length_eq_zero_iff.1 this.symm)
    obtain ⟨⟨l, s⟩, rest, e1, hp, ht⟩ := popTop_some hq (pick i)
    have hp' : (s :: rest.map Prod.snd).Perm (List.range lengths.length) := by
      have := (hp.map Prod.snd).symm.trans h.perm
      simpa using this
    have hs : s < lengths.length := List.mem_range.1 (hp'.mem_iff.1 (by simp))
    have hsc : s < counts.length := by rw [h.len]; exact hs
    have hc := List.getElem?_eq_getElem hsc
    have hl := List.getElem?_eq_getElem hs
    have ht' : ∀ y ∈ queue, ¬ Ieee.lt l y.1 := by
      rcases ht with ⟨y, hy, hn⟩ | ht
      · exact absurd hn (h.key y.1 y.2 hy).1
      · exact ht
    -- the entry of the infinite segment
    obtain ⟨t, htl⟩ := List.mem_iff_getElem?.1 hinf
    have htr : t ∈ queue.map Prod.snd := h.perm.mem_iff.2 (List.mem_range.2 (List.getElem?_eq_some_iff.1 htl).1)
    obtain ⟨⟨m, t'⟩, hm, rfl⟩ := List.mem_map.1 htr
    have hmi : m = .inf false := ((h.key m t' hm).2).2 htl
    have hlm : (l, s) ∈ queue := hp.mem_iff.2 (by simp)
    obtain ⟨kn, kk⟩ := h.key l s hlm
    have hli : l = .inf false := by
      have := ht' _ hm
      rw [hmi] at this
      cases l with
      | nan => exact absurd rfl kn
      | inf u =>
        cases u with
        | false => rfl
        | true => exact absurd ⟨rfl, rfl⟩ this
      | num x => exact absurd rfl this
    have hsi := kk.1 hli
    rw [splitLoop, e1] at e
    dsimp only at e
    rw [hc, hl] at e
    dsimp only at e
    refine ih (i + 1) _ _ _ ⟨by rw [List.length_set]; exact h.len, ?_, ?_, ?_⟩ ?_ e
    · rw [List.map_append, List.map_singleton]
      exact (List.perm_append_singleton _ _).trans hp'
    · intro l' s' hmem
      rcases List.mem_append.1 hmem with g | g
      · exact h.key l' s' (hp.mem_iff.2 (List.mem_cons_of_mem _ g))
      · rw [List.mem_singleton] at g
        injection g with g1 g2
        subst g1
        subst g2
        obtain ⟨d1, d2⟩ := hI lengths[s'] (List.getElem_mem hs)
        have hcn : counts[s'] + 1 ≤ bound := by
          have := hcb counts[s'] (List.getElem_mem _)
          omega
        have hcr : ((counts[s'] + 1 : Nat) : ℝ) ≤ 2 ^ 64 := by
          have : ((counts[s'] + 1 : Nat) : ℝ) ≤ (bound : ℝ) := by exact_mod_cast hcn
          refine le_trans (le_trans this hb) (by norm_num)
        obtain ⟨k1, k2⟩ := div_key A d1 d2 counts[s'] hcr
        refine ⟨k1, k2.trans ?_⟩
        rw [hl, Option.some_inj]
    · intro s' c' h1 h2
      by_cases hss : s' = s
      · subst hss; exact hsi
      · rw [List.getElem?_set_ne (Ne.symm hss)] at h1
        exact h.most s' c' h1 h2
    · intro c hcm
      rcases List.mem_or_eq_of_mem_set hcm with g | g
      · have := hcb c g; omega
      · have := hcb counts[s] (List.getElem_mem _); omega

/-- **C192.** If a segment is infinitely long and no distance is not a number, then only infinitely long segments are cut:
all others stay as they are. -/
theorem C192_infinite (path : List C) (start stop points : Nat) (dist : C → C → Dbl) (interp : C → C → ℝ → C)
    (pick : Nat → Nat) (h1 : start + 2 ≤ stop) (h2 : stop ≤ path.length) (h3 : stop - start < points)
    (h4 : path.length < 2 ^ 63) (h5 : points ≤ 2 ^ 51) :
    let part := (path.drop start).take (stop - start)
    (∀ d ∈ lengths dist part, d ≠ .nan ∧ IsDouble A d) → .inf false ∈ lengths dist part →
    ∃ counts out, upsamplePathPartial A path start stop points dist interp pick = .ok out ∧
      Upsampled interp part counts out ∧ out.length = points ∧
      ∀ (s c : Nat), counts[s]? = some c → c = 1 ∨ (lengths dist part)[s]? = some (.inf false) := by
  intro part hI hinf
  obtain ⟨counts, out, g1, g2, g3, g4, g5, g6, g7⟩ := upsample_by A path start stop points dist interp pick h1 h2 h3 h4 h5
  have hll : (lengths dist part).length = stop - start - 1 := by
    rw [lengths_length]
    show ((path.drop start).take (stop - start)).length - 1 = _
    rw [List.length_take, List.length_drop]; omega
  refine ⟨counts, out, g2, g3, g4, ?_⟩
  intro s c hc
  have hc1 := g6 c (List.mem_of_getElem? hc)
  by_cases hc2 : c = 1
  · exact .inl hc2
  · right
    refine split_endless A pick (lengths dist part) hI hinf (2 ^ 52) (by norm_num) (points - (stop - start)) 0 _ _ _
      ⟨by rw [List.length_replicate, hll], by rw [List.zipIdx_map_snd, ← List.range_eq_range'], ?_, ?_⟩ ?_ g1 s c hc
      (by omega)
    · intro l s hm
      have := List.mem_zipIdx_iff_getElem?.1 hm
      simp only at this
      refine ⟨(hI l (List.mem_of_getElem? this)).1, ?_⟩
      rw [this, Option.some_inj]
    · intro s c hc h2
      rw [List.getElem?_replicate] at hc
      split at hc
      · injection hc with hc; omega
      · cases hc
    · intro c hc
      rw [(List.mem_replicate.1 hc).2]
      omega

/-! ## Numbers -/

theorem positions_agree (q : List (ℝ × Nat)) :
    topPositions (q.map fun e => (Dbl.num e.1, e.2)) = minPositions (fun e : ℝ × Nat => -e.1) q := by
  classical
  unfold topPositions minPositions
  rw [List.length_map]
  apply List.filter_congr
  intro i _
  rw [List.getElem?_map]
  cases q[i]? with
  | none => rfl
  | some x =>
    rw [Option.map_some]
    dsimp only
    rw [Bool.eq_iff_iff, decide_eq_true_iff, List.all_eq_true]
    constructor
    · rintro (⟨y, hy, hn⟩ | h) z hz
      · obtain ⟨w, _, rfl⟩ := List.mem_map.1 hy
        cases hn
      · have h : ¬ x.1 < z.1 := h _ (List.mem_map.2 ⟨z, hz, rfl⟩)
        exact decide_eq_true (by linarith)
    · intro h
      right
      intro y hy
      obtain ⟨w, hw, rfl⟩ := List.mem_map.1 hy
      have := of_decide_eq_true (h w hw)
      show ¬ x.1 < w.1
      linarith

theorem popTop_agrees (c : Nat) (q : List (ℝ × Nat)) : popTop c (q.map fun e => (Dbl.num e.1, e.2)) =
    (popMin (fun e : ℝ × Nat => -e.1) c q).map fun r => ((Dbl.num r.1.1, r.1.2), r.2.map fun e => (Dbl.num e.1, e.2)) := by
  unfold popTop popMin
  rw [positions_agree]
  cases (minPositions (fun e : ℝ × Nat => -e.1) q)[c % (minPositions (fun e : ℝ × Nat => -e.1) q).length]? with
  | none => rfl
  | some i =>
    dsimp only
    rw [List.getElem?_map]
    cases q[i]? with
    | none => rfl
    | some x =>
      rw [Option.map_some]
      simp only [Option.map_some, List.eraseIdx_map]

theorem split_agrees (pick : Nat → Nat) (lens : List ℝ) (hI : ∀ d ∈ lens, A.R.Fp d ∧ |d| ≤ A.top) :
    ∀ (left i : Nat) (queue : List (ℝ × Nat)) (counts : List Nat), (∀ c ∈ counts, c + left ≤ 2 ^ 63) →
      splitLoop A pick (lens.map .num) left i (queue.map fun e => (Dbl.num e.1, e.2)) counts =
      UpsampleRounded.splitLoop A.R pick lens left i queue counts := by
  intro left
  induction left with
  | zero => intro i queue counts _; rfl
  | succ left ih =>
    intro i queue counts hb
    rw [splitLoop, UpsampleRounded.splitLoop, popTop_agrees]
    cases popMin (fun e : ℝ × Nat => -e.1) (pick i) queue with
    | none => rfl
    | some r =>
      obtain ⟨⟨l, s⟩, rest⟩ := r
      rw [Option.map_some]
      dsimp only
      rw [List.getElem?_map]
      cases hc : counts[s]? with
      | none => rfl
      | some c =>
        cases hl : lens[s]? with
        | none => rfl
        | some d =>
          rw [Option.map_some]
          dsimp only
          have hc1 := hb c (List.mem_of_getElem? hc)
          have hn : ((c + 1 : Nat) : ℝ) ≤ 2 ^ 64 := by
            have : ((c + 1 : Nat) : ℝ) ≤ ((2 ^ 63 : Nat) : ℝ) := by exact_mod_cast (by omega)
            refine le_trans this (by norm_num)
          have e := A.round_small (x := ((c + 1 : Nat) : ℝ)) (by rw [abs_of_nonneg (by positivity)]; exact hn)
          have h1 : (1 : ℝ) ≤ ((c + 1 : Nat) : ℝ) := by exact_mod_cast Nat.le_add_left 1 c
          have h2 := A.R.mono h1
          rw [A.R.fp_one] at h2
          obtain ⟨hx, ht⟩ := hI d (List.mem_of_getElem? hl)
          have hd : A.div (.num d) (A.round ((c + 1 : Nat) : ℝ)) = .num (A.R.rd (d / A.R.rd ((c + 1 : Nat) : ℝ))) := by
            rw [e]
            generalize A.R.rd ((c + 1 : Nat) : ℝ) = y at *
            simp only [Ieee.div]
            rw [if_neg (by linarith)]
            apply A.round_eq
            have hle : |d / y| ≤ |d| := by
              rw [abs_div, abs_of_pos (show (0 : ℝ) < y by linarith)]
              exact div_le_self (abs_nonneg d) h2
            obtain ⟨a1, a2⟩ := abs_le.1 hle
            have k1 := A.R.mono a1
            have k2 := A.R.mono a2
            have f1 : A.R.rd |d| = |d| := RoundedMath.fp_abs A.R hx
            rw [A.R.odd, f1] at k1
            rw [f1] at k2
            exact le_trans (abs_le.2 ⟨k1, k2⟩) ht
          rw [hd]
          have := ih (i + 1) (rest ++ [(A.R.rd (d / A.R.rd ((c + 1 : Nat) : ℝ)), s)]) (counts.set s (c + 1)) (by
            intro x hx
            rcases List.mem_or_eq_of_mem_set hx with g | g
            · have := hb x g; omega
            · omega)
          rw [List.map_append, List.map_singleton] at this
          exact this

theorem lengths_agree (dist : C → C → ℝ) (hI : ∀ a b, A.R.Fp (dist a b) ∧ |dist a b| ≤ A.top) (path : List C) :
    ∀ (left : Nat) (ind : Int), (lengthsLoop (fun a b => .num (dist a b)) path left ind = .ub ∧
        PathUtils.lengthsLoop dist path left ind = .ub) ∨
      ∃ l, PathUtils.lengthsLoop dist path left ind = .ok l ∧
        lengthsLoop (fun a b => .num (dist a b)) path left ind = .ok (l.map .num) ∧
        ∀ d ∈ l, A.R.Fp d ∧ |d| ≤ A.top := by
  intro left
  induction left with
  | zero => intro ind; exact .inr ⟨[], rfl, rfl, by simp⟩
  | succ left ih =>
    intro ind
    rw [lengthsLoop, PathUtils.lengthsLoop]
    cases at? path ind with
    | none => exact .inl ⟨rfl, rfl⟩
    | some a =>
      cases at? path (ind + 1) with
      | none => exact .inl ⟨rfl, rfl⟩
      | some b =>
        dsimp only
        rcases ih (ind + 1) with ⟨e1, e2⟩ | ⟨l, e1, e2, hl⟩
        · rw [e1, e2]
          exact .inl ⟨rfl, rfl⟩
        · rw [e1, e2]
          refine .inr ⟨dist a b :: l, rfl, rfl, ?_⟩
          intro d hd
          rcases List.mem_cons.1 hd with rfl | hd
          · exact hI a b
          · exact hl d hd

/-- **C192.** If the distances are numbers, then nothing but rounding is involved. -/
theorem C192_agrees (path : List C) (start stop points : Int) (dist : C → C → ℝ) (interp : C → C → ℝ → C)
    (pick : Nat → Nat) (hI : ∀ a b, A.R.Fp (dist a b) ∧ |dist a b| ≤ A.top) (hp : points < 2 ^ 63) :
    upsamplePathPartial A path start stop points (fun a b => .num (dist a b)) interp pick =
      UpsampleRounded.upsamplePathPartial A.R path start stop points dist interp pick := by
  unfold upsamplePathPartial UpsampleRounded.upsamplePathPartial
  by_cases h1 : stop > start
  · rw [Out.assert_true h1, Out.bind_ok, Out.bind_ok]
    by_cases h2 : stop % 2 ^ 64 ≤ (path.length : Int)
    · rw [Out.assert_true h2, Out.bind_ok, Out.bind_ok]
      by_cases h3 : -2 ^ 63 ≤ stop - start ∧ stop - start < 2 ^ 63
      · have e1 : int64 (stop - start) = .ok (stop - start) := by unfold int64; rw [if_pos h3]
        rw [e1, Out.bind_ok, Out.bind_ok]
        by_cases h4 : stop - start = points
        · rw [if_pos h4, if_pos h4]
        rw [if_neg h4, if_neg h4]
        by_cases h5 : stop - start > points
        · rw [if_pos h5, if_pos h5]
        rw [if_neg h5, if_neg h5]
        dsimp only
        by_cases h6 : stop - start - 1 > 0
        · rw [Out.assert_true h6, Out.bind_ok, Out.bind_ok]
          rcases lengths_agree A dist hI path (stop - start - 1).toNat start with ⟨e2, e3⟩ | ⟨l, e2, e3, hl⟩
          · rw [e2, e3]
            rfl
          · rw [e2, e3, Out.bind_ok, Out.bind_ok]
            have := split_agrees A pick l hl (points - (stop - start)).toNat 0 l.zipIdx
              (List.replicate (stop - start - 1).toNat 1) (by
                intro c hc
                rw [(List.mem_replicate.1 hc).2]
                omega)
            have ez : (l.map Dbl.num).zipIdx = l.zipIdx.map fun e => (Dbl.num e.1, e.2) := by
              rw [List.zipIdx_map]
              rfl
            rw [ez, this]
            rfl
        · rw [Out.assert_false h6]
          rfl
      · have e1 : int64 (stop - start) = .ub := by unfold int64; rw [if_neg h3]
        rw [e1]
        rfl
    · rw [Out.assert_false h2]
      rfl
  · rw [Out.assert_false h1]
    rfl

/-- **C192.** Where no point is to be added the whole path is returned, and the same arguments fail an assertion;
`UpsamplePath` works on the whole path. -/
theorem C192_otherwise (path : List C) (start stop points : Int) (dist : C → C → Dbl) (interp : C → C → ℝ → C)
    (pick : Nat → Nat) :
    (0 ≤ start → start < stop → stop ≤ path.length → points ≤ stop - start → path.length < 2 ^ 63 →
      upsamplePathPartial A path start stop points dist interp pick = .ok path) ∧
    (stop ≤ start ∨ (path.length : Int) < stop % 2 ^ 64 →
      upsamplePathPartial A path start stop points dist interp pick = .abort) ∧
    (0 ≤ start → stop = start + 1 → stop ≤ path.length → path.length < 2 ^ 63 → 1 < points →
      upsamplePathPartial A path start stop points dist interp pick = .abort) ∧
    (-2 ^ 62 ≤ start → start < 0 → 1 ≤ stop → stop ≤ path.length → path.length < 2 ^ 62 → stop - start < points →
      upsamplePathPartial A path start stop points dist interp pick = .ub) ∧
    upsamplePath A path points dist interp pick =
      upsamplePathPartial A path 0 path.length points dist interp pick := by
  refine ⟨?_, ?_, ?_, ?_, rfl⟩
  · intro g0 g1 g2 g3 g4
    unfold upsamplePathPartial
    rw [Out.assert_true (by omega), Out.bind_ok, Out.assert_true (by omega), Out.bind_ok]
    have e1 : int64 (stop - start) = .ok (stop - start) := by
      unfold int64; rw [if_pos ⟨by omega, by omega⟩]
    rw [e1, Out.bind_ok]
    by_cases h : stop - start = points
    · rw [if_pos h]
    · rw [if_neg h, if_pos (by omega)]
  · intro h
    unfold upsamplePathPartial
    by_cases c : stop > start
    · rw [Out.assert_true c, Out.bind_ok, Out.assert_false (by omega)]
      rfl
    · rw [Out.assert_false c]
      rfl
  · intro h0 h1 h2 h3 h4
    unfold upsamplePathPartial
    rw [Out.assert_true (by omega), Out.bind_ok, Out.assert_true (by omega), Out.bind_ok]
    have e1 : int64 (stop - start) = .ok (stop - start) := by
      unfold int64; rw [if_pos ⟨by omega, by omega⟩]
    rw [e1, Out.bind_ok, if_neg (by omega), if_neg (by omega)]
    dsimp only
    rw [Out.assert_false (by omega)]
    rfl
  · intro h0 h1 h2 h3 h4 h5
    unfold upsamplePathPartial
    rw [Out.assert_true (by omega), Out.bind_ok, Out.assert_true (by omega), Out.bind_ok]
    have e1 : int64 (stop - start) = .ok (stop - start) := by
      unfold int64; rw [if_pos ⟨by omega, by omega⟩]
    rw [e1, Out.bind_ok, if_neg (by omega), if_neg (by omega)]
    dsimp only
    rw [Out.assert_true (by omega), Out.bind_ok]
    obtain ⟨n, hn⟩ : ∃ n, (stop - start - 1).toNat = n + 1 := ⟨(stop - start - 2).toNat, by omega⟩
    rw [hn, lengthsLoop]
    have : at? path start = none := by unfold at?; rw [if_pos h1]
    rw [this]
    rfl

/-- Three states, the first two infinitely far apart, with six points: the second segment is not cut. -/
example : ∃ counts out, upsamplePathPartial MathSpecial.exIeee [1, 2, 3] (0 : Nat) (3 : Nat) (6 : Nat)
      (fun a _ => if a = 1 then .inf false else .num 2) (fun a _ _ => a) (fun _ => 0) = .ok out ∧
    Upsampled (fun a _ _ => a) [1, 2, 3] counts out ∧ out.length = 6 ∧
    ∀ c, counts[1]? = some c → c = 1 := by
  have h2 : MathSpecial.IsDouble MathSpecial.exIeee (.num 2) := by
    intro x hx
    injection hx with hx
    subst hx
    refine ⟨by have := MathSpecial.exIeee.R.int 2 (by norm_num); rwa [Int.cast_ofNat] at this, ?_⟩
    rw [abs_of_pos (by norm_num)]
    exact le_trans (by norm_num) MathSpecial.exIeee.large
  obtain ⟨counts, out, g1, g2, g3, g4⟩ := C192_infinite MathSpecial.exIeee [1, 2, 3] 0 3 6
    (fun a _ => if a = 1 then .inf false else .num 2) (fun a _ _ => a) (fun _ => 0) (by norm_num) (by simp) (by norm_num)
    (by simp) (by norm_num) (by
      intro d hd
      simp [lengths] at hd
      rcases hd with rfl | rfl
      · exact ⟨by simp, by intro x hx; cases hx⟩
      · exact ⟨by simp, h2⟩) (by simp [lengths])
  refine ⟨counts, out, g1, g2, g3, fun c hc => ?_⟩
  rcases g4 1 c hc with h | h
  · exact h
  · simp [lengths] at h

end Verif.PathSpecial
