import Mathlib.Algebra.BigOperators.Group.List.Basic
import Mathlib.Algebra.Order.BigOperators.Group.List
import Verif.Props.Resample

/-!
# C51: upsampling of paths
-/
namespace Verif.PathUtils
open Verif
open Verif.Voxel (int64 truncate)
set_option linter.unusedSectionVars false

section
variable {K C : Type} [Field K] [LinearOrder K] [IsStrictOrderedRing K] [FloorRing K]

/-! ## Splitting the largest piece -/

/-- the state of the splitting loop -/
structure Splitting (lengths : List K) (queue : List (K × Nat)) (counts : List Nat) : Prop where
  len : counts.length = lengths.length
  nodup : (queue.map Prod.snd).Nodup
  mem : ∀ l s, (l, s) ∈ queue ↔ ∃ c d, counts[s]? = some c ∧ lengths[s]? = some d ∧ l = d / (c : K)
  pos : ∀ (s c : Nat), counts[s]? = some c → 1 ≤ c
  greedy : ∀ (i j ci cj : Nat) (di dj : K), counts[i]? = some ci → counts[j]? = some cj →
    lengths[i]? = some di → lengths[j]? = some dj → 2 ≤ cj → di / (ci : K) ≤ dj / ((cj : K) - 1)

theorem sum_set_succ (l : List Nat) (i c : Nat) (h : l[i]? = some c) : (l.set i (c + 1)).sum = l.sum + 1 := by
  induction l generalizing i with
  | nil => simp at h
  | cons x l ih =>
    cases i with
    | zero => simp at h; subst h; simp; omega
    | succ i => rw [List.set_cons_succ, List.sum_cons, List.sum_cons, ih i (by simpa using h)]; omega

theorem splitting_start (lengths : List K) :
    Splitting lengths lengths.zipIdx (List.replicate lengths.length 1) := by
  refine ⟨by simp, ?_, ?_, ?_, ?_⟩
  · rw [List.zipIdx_map_snd]
    exact List.nodup_range'
  · intro l s
    rw [List.mem_zipIdx_iff_getElem?]
    constructor
    · intro h
      have hl := (List.getElem?_eq_some_iff.1 h).1
      exact ⟨1, l, by rw [List.getElem?_replicate, if_pos hl], h, by simp⟩
    · rintro ⟨c, d, h1, h2, h3⟩
      rw [List.getElem?_replicate] at h1
      split at h1
      · injection h1 with h1
        subst h1
        rw [h3]
        simpa using h2
      · cases h1
  · intro s c h
    rw [List.getElem?_replicate] at h
    split at h
    · injection h with h; omega
    · cases h
  · intro i j ci cj di dj _ h
    rw [List.getElem?_replicate] at h
    split at h
    · injection h with h; intro _ _ _; omega
    · cases h

theorem splitting_step {lengths : List K} {queue rest : List (K × Nat)} {counts : List Nat} {n : Nat}
    {l : K} {s : Nat} (h : Splitting lengths queue counts) (h0 : ∀ d ∈ lengths, 0 ≤ d)
    (hp : popMin (fun e : K × Nat => -e.1) n queue = some ((l, s), rest)) :
    ∃ c d, counts[s]? = some c ∧ lengths[s]? = some d ∧
      Splitting lengths (rest ++ [(d / ((c + 1 : Nat) : K), s)]) (counts.set s (c + 1)) := by
  obtain ⟨i, e1, e2, e3⟩ := popMin_spec hp
  have hm : (l, s) ∈ queue := List.mem_of_getElem? e1
  obtain ⟨c, d, hc, hd, hl⟩ := (h.mem l s).1 hm
  have hsl := (List.getElem?_eq_some_iff.1 hc).1
  have hc1 := h.pos s c hc
  have hd0 := h0 d (List.mem_of_getElem? hd)
  have hcp : (0 : K) < c := by exact_mod_cast hc1
  have perm : queue.Perm ((l, s) :: rest) := by
    rw [e2]
    obtain ⟨hi, he⟩ := List.getElem?_eq_some_iff.1 e1
    rw [← he]
    exact (List.getElem_cons_eraseIdx_perm hi).symm
  have nd : s ∉ rest.map Prod.snd ∧ (rest.map Prod.snd).Nodup := by
    have := (perm.map Prod.snd).nodup_iff.1 h.nodup
    rwa [List.map_cons, List.nodup_cons] at this
  have small : d / ((c + 1 : Nat) : K) ≤ d / (c : K) := by
    apply div_le_div_of_nonneg_left hd0 hcp
    push_cast; linarith
  have top : ∀ (j cj : Nat) (dj : K), counts[j]? = some cj → lengths[j]? = some dj → dj / (cj : K) ≤ d / (c : K) := by
    intro j cj dj h1 h2
    have := e3 _ ((h.mem _ j).2 ⟨cj, dj, h1, h2, rfl⟩)
    rw [hl] at this
    dsimp only at this
    linarith
  have get : ∀ j cj, (counts.set s (c + 1))[j]? = some cj →
      (j = s ∧ cj = c + 1) ∨ (j ≠ s ∧ counts[j]? = some cj) := by
    intro j cj hj
    by_cases hjs : j = s
    · subst hjs
      rw [List.getElem?_set_self hsl] at hj
      injection hj with hj
      exact .inl ⟨rfl, hj.symm⟩
    · rw [List.getElem?_set_ne (Ne.symm hjs)] at hj
      exact .inr ⟨hjs, hj⟩
  refine ⟨c, d, hc, hd, by rw [List.length_set]; exact h.len, ?_, ?_, ?_, ?_⟩
  · rw [List.map_append, List.map_singleton]
    refine List.nodup_append.2 ⟨nd.2, by simp, ?_⟩
    intro a ha b hb
    simp at hb
    subst hb
    rintro rfl
    exact nd.1 ha
  · intro l' s'
    rw [List.mem_append, List.mem_singleton]
    constructor
    · rintro (hr | hr)
      · have hne : s' ≠ s := by
          rintro rfl
          exact nd.1 (List.mem_map.2 ⟨_, hr, rfl⟩)
        obtain ⟨c', d', g1, g2, g3⟩ := (h.mem l' s').1 (perm.mem_iff.2 (List.mem_cons_of_mem _ hr))
        exact ⟨c', d', by rw [List.getElem?_set_ne (Ne.symm hne)]; exact g1, g2, g3⟩
      · injection hr with g1 g2
        subst g2
        exact ⟨c + 1, d, List.getElem?_set_self hsl, hd, g1⟩
    · rintro ⟨c', d', g1, g2, g3⟩
      rcases get s' c' g1 with ⟨k1, k2⟩ | ⟨k1, k2⟩
      · right
        subst k1; subst k2
        rw [hd] at g2
        injection g2 with g2
        subst g2
        rw [g3]
      · left
        have := perm.mem_iff.1 ((h.mem l' s').2 ⟨c', d', k2, g2, g3⟩)
        rcases List.mem_cons.1 this with g | g
        · injection g with _ g
          exact absurd g k1
        · exact g
  · intro j cj hj
    rcases get j cj hj with ⟨_, k⟩ | ⟨_, k⟩
    · omega
    · exact h.pos j cj k
  · intro i j ci cj di dj hi hj hdi hdj h2
    have lhs : di / (ci : K) ≤ d / (c : K) ∧
        ∀ (j cj : Nat) (dj : K), counts[j]? = some cj → lengths[j]? = some dj → 2 ≤ cj →
          di / (ci : K) ≤ dj / ((cj : K) - 1) := by
      rcases get i ci hi with ⟨k1, k2⟩ | ⟨k1, k2⟩
      · subst k1; subst k2
        rw [hd] at hdi
        injection hdi with hdi
        subst hdi
        exact ⟨small, fun j cj dj g1 g2 g3 => small.trans (h.greedy _ j c cj d dj hc g1 hd g2 g3)⟩
      · exact ⟨top i ci di k2 hdi, fun j cj dj g1 g2 g3 => h.greedy i j ci cj di dj k2 g1 hdi g2 g3⟩
    rcases get j cj hj with ⟨k1, k2⟩ | ⟨k1, k2⟩
    · subst k1; subst k2
      rw [hd] at hdj
      injection hdj with hdj
      subst hdj
      have : ((c + 1 : Nat) : K) - 1 = c := by push_cast; ring
      rw [this]
      exact lhs.1
    · exact lhs.2 j cj dj k2 hdj h2

theorem splitLoop_spec (pick : Nat → Nat) (lengths : List K) (h0 : ∀ d ∈ lengths, 0 ≤ d) (hne : lengths ≠ []) :
    ∀ (left i : Nat) (queue : List (K × Nat)) (counts : List Nat), Splitting lengths queue counts →
    ∃ queue' counts', splitLoop pick lengths left i queue counts = .ok counts' ∧
      Splitting lengths queue' counts' ∧ counts'.sum = counts.sum + left := by
  intro left
  induction left with
  | zero => intro i queue counts h; exact ⟨queue, counts, rfl, h, rfl⟩
  | succ left ih =>
    intro i queue counts h
    rw [splitLoop]
    cases hp : popMin (fun e : K × Nat => -e.1) (pick i) queue with
    | none =>
      exfalso
      have hq := popMin_none.1 hp
      obtain ⟨d, ds, rfl⟩ := List.exists_cons_of_ne_nil hne
      have hl : 0 < counts.length := by rw [h.len]; simp
      have := (h.mem (d / (counts[0] : K)) 0).2 ⟨counts[0], d, List.getElem?_eq_getElem hl, rfl, rfl⟩
      rw [hq] at this
      cases this
    | some e =>
      obtain ⟨⟨l, s⟩, rest⟩ := e
      obtain ⟨c, d, hc, hd, hs⟩ := splitting_step h h0 hp
      dsimp only
      rw [hc, hd]
      dsimp only
      obtain ⟨q', c', g1, g2, g3⟩ := ih (i + 1) _ _ hs
      exact ⟨q', c', g1, g2, by rw [g3, sum_set_succ counts s c hc]; omega⟩

/-- equal sums and a strictly larger entry somewhere, or equal lists -/
theorem exists_smaller : ∀ (a b : List Nat), a.length = b.length → a.sum = b.sum →
    a = b ∨ ∃ (j x y : Nat), a[j]? = some x ∧ b[j]? = some y ∧ y < x := by
  have aux : ∀ (a b : List Nat), a.length = b.length →
      (∀ (j x y : Nat), a[j]? = some x → b[j]? = some y → x ≤ y) → a.sum ≤ b.sum ∧ (a.sum = b.sum → a = b) := by
    intro a
    induction a with
    | nil => intro b h _; cases b with
      | nil => simp
      | cons y b => simp at h
    | cons x a ih =>
      intro b h hall
      cases b with
      | nil => simp at h
      | cons y b =>
        have h1 := hall 0 x y rfl rfl
        obtain ⟨h2, h3⟩ := ih b (by simpa using h) (fun j u v hu hv => hall (j + 1) u v (by simpa using hu)
          (by simpa using hv))
        rw [List.sum_cons, List.sum_cons]
        refine ⟨by omega, fun he => ?_⟩
        rw [h3 (by omega), show x = y by omega]
  intro a b h1 h2
  by_cases h : ∃ (j x y : Nat), a[j]? = some x ∧ b[j]? = some y ∧ y < x
  · exact .inr h
  · left
    refine (aux a b h1 ?_).2 h2
    intro j x y hx hy
    by_contra hn
    exact h ⟨j, x, y, hx, hy, by omega⟩

theorem splitting_optimal {lengths : List K} {queue : List (K × Nat)} {counts : List Nat}
    (h : Splitting lengths queue counts) (h0 : ∀ d ∈ lengths, 0 ≤ d) (other : List Nat)
    (hl : other.length = counts.length) (hs : other.sum = counts.sum) (hp : ∀ c ∈ other, 1 ≤ c)
    (i c : Nat) (d : K) (hc : counts[i]? = some c) (hd : lengths[i]? = some d) :
    ∃ (j cj : Nat) (dj : K), other[j]? = some cj ∧ lengths[j]? = some dj ∧ d / (c : K) ≤ dj / (cj : K) := by
  rcases exists_smaller counts other hl.symm hs.symm with e | ⟨j, x, y, h1, h2, h3⟩
  · subst e
    exact ⟨i, c, d, hc, hd, le_refl _⟩
  · have hj := (List.getElem?_eq_some_iff.1 h1).1
    rw [h.len] at hj
    have hy := hp y (List.mem_of_getElem? h2)
    have hdj := List.getElem?_eq_getElem hj
    refine ⟨j, y, lengths[j], h2, hdj, ?_⟩
    refine (h.greedy i j c x d lengths[j] hc h1 hd hdj (by omega)).trans ?_
    apply div_le_div_of_nonneg_left (h0 _ (List.getElem_mem hj))
    · exact_mod_cast hy
    · have : y + 1 ≤ x := h3
      have : ((y + 1 : Nat) : K) ≤ x := by exact_mod_cast this
      push_cast at this
      linarith

/-! ## Building the path -/

theorem at?_nat (path : List C) (i : Nat) : at? path (i : Int) = path[i]? := by
  unfold at?
  rw [if_neg (by omega)]
  simp

theorem lengthsLoop_spec (dist : C → C → K) (path : List C) :
    ∀ (left start : Nat), start + left < path.length →
    lengthsLoop dist path left (start : Int) =
      .ok (segmentLengths dist ((path.drop start).take (left + 1))) := by
  intro left
  induction left with
  | zero =>
    intro start h
    have h' : start < path.length := h
    rw [List.drop_eq_getElem_cons h']
    rfl
  | succ left ih =>
    intro start h
    have h0 : start < path.length := by omega
    have h1 : start + 1 < path.length := by omega
    rw [lengthsLoop, at?_nat, show ((start : Int) + 1) = ((start + 1 : Nat) : Int) by push_cast; rfl, at?_nat,
      List.getElem?_eq_getElem h0, List.getElem?_eq_getElem h1]
    dsimp only
    rw [ih (start + 1) (by omega), Out.bind_ok, List.drop_eq_getElem_cons h0, List.take_succ_cons,
      List.drop_eq_getElem_cons h1, List.take_succ_cons, segmentLengths]

theorem segmentLoop_spec (interp : C → C → K → C) (a b : C) (count : Nat) (total : Int) :
    ∀ (left j : Nat) (acc : List C), j + left = count → (acc.length : Int) + left ≤ total →
    segmentLoop interp a b count total left j acc =
      .ok (acc ++ ((List.range count).drop j).map fun k : Nat => interp a b ((k : K) / (count : K))) := by
  intro left
  induction left with
  | zero =>
    intro j acc hj ht
    rw [segmentLoop, List.drop_eq_nil_of_le (by simp; omega)]
    simp
  | succ left ih =>
    intro j acc hj ht
    rw [segmentLoop, if_pos (by omega), ih (j + 1) _ (by omega) (by simp; omega)]
    have e : (List.range count).drop j = j :: (List.range count).drop (j + 1) := by
      rw [List.drop_eq_getElem_cons (by simp; omega)]
      simp
    rw [e, List.map_cons, List.append_assoc, List.singleton_append, ← div_eq_mul_one_div]

theorem starts_length (interp : C → C → K → C) (a b : C) (n : Nat) : (starts interp a b n).length = n := by
  simp [starts]

theorem buildLoop_spec (interp : C → C → K → C) (path : List C) (total : Int) :
    ∀ (counts : List Nat) (start : Nat) (acc : List C), start + counts.length < path.length →
    (acc.length : Int) + counts.sum ≤ total →
    ∃ out last, buildLoop interp path total counts (start : Int) acc = .ok (acc ++ out) ∧
      path[start + counts.length]? = some last ∧
      out ++ [last] = upsampled interp ((path.drop start).take (counts.length + 1)) counts ∧
      out.length = counts.sum := by
  intro counts
  induction counts with
  | nil =>
    intro start acc h _
    have h' : start < path.length := h
    refine ⟨[], path[start], by simp [buildLoop], List.getElem?_eq_getElem h', ?_, rfl⟩
    rw [List.drop_eq_getElem_cons h']
    rfl
  | cons c counts ih =>
    intro start acc h ht
    rw [List.length_cons] at h
    rw [List.sum_cons, Int.natCast_add] at ht
    have h0 : start < path.length := by omega
    have h1 : start + 1 < path.length := by omega
    have ecast : ((start : Int) + 1) = ((start + 1 : Nat) : Int) := by push_cast; rfl
    obtain ⟨out, last, g1, g2, g3, g4⟩ := ih (start + 1) (acc ++ starts interp path[start] path[start + 1] c)
      (by omega) (by rw [List.length_append, starts_length, Int.natCast_add]; omega)
    refine ⟨starts interp path[start] path[start + 1] c ++ out, last, ?_, ?_, ?_, ?_⟩
    · rw [buildLoop]
      by_cases hc : c = 0
      · subst hc
        rw [if_pos rfl, ecast]
        have : starts interp path[start] path[start + 1] 0 = [] := rfl
        rw [this, List.append_nil] at g1
        rw [g1, this, List.nil_append]
      · rw [if_neg hc, at?_nat, ecast, at?_nat, List.getElem?_eq_getElem h0, List.getElem?_eq_getElem h1]
        dsimp only
        rw [segmentLoop_spec interp _ _ c total c 0 acc (by omega) (by omega), Out.bind_ok, List.drop_zero]
        rw [List.append_assoc] at g1
        rw [← g1]
        rfl
    · rw [← g2, List.length_cons]; congr 1; omega
    · rw [List.append_assoc, g3, List.drop_eq_getElem_cons h0, List.take_succ_cons, List.length_cons,
        List.drop_eq_getElem_cons h1, List.take_succ_cons, upsampled]
    · rw [List.length_append, starts_length, g4, List.sum_cons]

theorem segmentLengths_length (dist : C → C → K) : ∀ l : List C, (segmentLengths dist l).length = l.length - 1
  | [] => rfl
  | [_] => rfl
  | a :: b :: rest => by
    rw [segmentLengths, List.length_cons, segmentLengths_length dist (b :: rest)]
    simp

theorem segmentLengths_nonneg (dist : C → C → K) (h : ∀ a b, 0 ≤ dist a b) :
    ∀ l : List C, ∀ d ∈ segmentLengths dist l, 0 ≤ d
  | [], d, hd => by cases hd
  | [_], d, hd => by cases hd
  | a :: b :: rest, d, hd => by
    rw [segmentLengths] at hd
    rcases List.mem_cons.1 hd with rfl | hd
    · exact h a b
    · exact segmentLengths_nonneg dist h (b :: rest) d hd

/-- Upsampling a part of a path to more points than it has gives exactly that many points. Each segment is cut
into equal pieces, at least one, and no other way to distribute the points makes the longest piece shorter. -/
theorem C51_upsample (path : List C) (start stop points : Nat) (dist : C → C → K) (interp : C → C → K → C)
    (pick : Nat → Nat) (h0 : ∀ a b, 0 ≤ dist a b) (h1 : start + 2 ≤ stop) (h2 : stop ≤ path.length)
    (h3 : stop - start < points) (h4 : path.length < 2 ^ 63) :
    let part := (path.drop start).take (stop - start)
    ∃ counts out, upsamplePathPartial path start stop points dist interp pick = .ok out ∧
      out = upsampled interp part counts ∧ out.length = points ∧
      counts.length + 1 = part.length ∧ (∀ c ∈ counts, 1 ≤ c) ∧ counts.sum + 1 = points ∧
      ∀ other : List Nat, other.length = counts.length → other.sum = counts.sum → (∀ c ∈ other, 1 ≤ c) →
        ∀ (i c : Nat) (d : K), counts[i]? = some c → (segmentLengths dist part)[i]? = some d →
          ∃ (j cj : Nat) (dj : K), other[j]? = some cj ∧ (segmentLengths dist part)[j]? = some dj ∧
            d / (c : K) ≤ dj / (cj : K) := by
  intro part
  have hpl : part.length = stop - start := by
    show ((path.drop start).take (stop - start)).length = _
    rw [List.length_take, List.length_drop]; omega
  have hll : (segmentLengths dist part).length = stop - start - 1 := by
    rw [segmentLengths_length, hpl]
  have hnn := segmentLengths_nonneg dist h0 part
  have hlen : lengthsLoop dist path (stop - start - 1) (start : Int) = .ok (segmentLengths dist part) := by
    rw [lengthsLoop_spec dist path _ start (by omega), show stop - start - 1 + 1 = stop - start by omega]
  obtain ⟨queue, counts, s1, s2, s3⟩ := splitLoop_spec pick (segmentLengths dist part) hnn
    (by intro he; rw [he] at hll; simp at hll; omega) (points - (stop - start)) 0 _ _
    (splitting_start (segmentLengths dist part))
  have hcl : counts.length = stop - start - 1 := by rw [s2.len, hll]
  have hsum : counts.sum = points - 1 := by
    rw [s3, List.sum_replicate, hll]; simp; omega
  obtain ⟨out, last, b1, b2, b3, b4⟩ := buildLoop_spec interp path (points : Int) counts start [] (by omega)
    (by rw [hsum]; simp)
  rw [hcl, show stop - start - 1 + 1 = stop - start by omega] at b3
  refine ⟨counts, out ++ [last], ?_, b3, by simp; omega, by omega, ?_, by omega, ?_⟩
  · unfold upsamplePathPartial
    rw [Out.assert_true (by omega), Out.bind_ok, Out.assert_true (by omega), Out.bind_ok]
    have e1 : int64 ((stop : Int) - (start : Int)) = .ok ((stop : Int) - (start : Int)) := by
      unfold int64; rw [if_pos ⟨by omega, by omega⟩]
    rw [e1, Out.bind_ok, if_neg (by omega), if_neg (by omega)]
    dsimp only
    rw [Out.assert_true (by omega), Out.bind_ok,
      show ((stop : Int) - (start : Int) - 1).toNat = stop - start - 1 by omega, hlen, Out.bind_ok,
      show ((points : Int) - ((stop : Int) - (start : Int))).toNat = points - (stop - start) by omega]
    rw [hll] at s1
    rw [s1, Out.bind_ok, b1, Out.bind_ok, List.nil_append, Out.assert_true (by omega), Out.bind_ok,
      show ((stop : Int) - 1) = ((start + counts.length : Nat) : Int) by omega, at?_nat, b2]
  · intro c hc
    obtain ⟨i, hi⟩ := List.mem_iff_getElem?.1 hc
    exact s2.pos i c hi
  · intro other o1 o2 o3 i c d hc hd
    exact splitting_optimal s2 hnn other o1 o2 o3 i c d hc hd

theorem starts_head (interp : C → C → K → C) (hi : ∀ a b, interp a b 0 = a) (a b : C) (n : Nat) (hn : 1 ≤ n) :
    ∃ rest, starts interp a b n = a :: rest := by
  obtain ⟨m, rfl⟩ := Nat.exists_eq_add_of_le' hn
  unfold starts
  rw [List.range_succ_eq_map, List.map_cons, Nat.cast_zero, zero_div, hi]
  exact ⟨_, rfl⟩

/-- A path whose segments are cut into at least one piece each contains all its states, in order. -/
theorem C51_keeps (interp : C → C → K → C) (hi : ∀ a b, interp a b 0 = a) :
    ∀ (part : List C) (counts : List Nat), counts.length + 1 = part.length → (∀ c ∈ counts, 1 ≤ c) →
    part.Sublist (upsampled interp part counts) ∧ (upsampled interp part counts).head? = part.head? ∧
      (upsampled interp part counts).getLast? = part.getLast?
  | [], counts, h, _ => by simp at h
  | [a], [], _, _ => by simp [upsampled]
  | [a], c :: counts, h, _ => by simp at h
  | a :: b :: rest, [], h, _ => by simp at h
  | a :: b :: rest, c :: counts, h, hp => by
    obtain ⟨ih1, ih2, ih3⟩ := C51_keeps interp hi (b :: rest) counts (by simpa using h)
      (fun x hx => hp x (List.mem_cons_of_mem _ hx))
    obtain ⟨more, e⟩ := starts_head interp hi a b c (hp c (List.mem_cons_self ..))
    rw [upsampled, e]
    refine ⟨List.Sublist.cons_cons a (ih1.trans (List.sublist_append_right _ _)), rfl, ?_⟩
    rw [List.getLast?_append, ih3]
    simp [List.getLast?_cons]

/-- If no more points are asked for than there are, the whole path is returned, even when only a part of it was
to be upsampled. -/
theorem C51_enough (path : List C) (start stop : Nat) (points : Int) (dist : C → C → K) (interp : C → C → K → C)
    (pick : Nat → Nat) (h1 : start < stop) (h2 : stop ≤ path.length)
    (h3 : points ≤ (stop : Int) - start) (h4 : path.length < 2 ^ 63) :
    upsamplePathPartial path start stop points dist interp pick = .ok path := by
  unfold upsamplePathPartial
  rw [Out.assert_true (by omega), Out.bind_ok, Out.assert_true (by omega), Out.bind_ok]
  have e1 : int64 ((stop : Int) - (start : Int)) = .ok ((stop : Int) - (start : Int)) := by
    unfold int64; rw [if_pos ⟨by omega, by omega⟩]
  rw [e1, Out.bind_ok]
  by_cases h : (stop : Int) - start = points
  · rw [if_pos h]
  · rw [if_neg h, if_pos (by omega)]

/-- Empty ranges, ends beyond the path, and a single point that is to become several fail an assertion. A
negative start is not checked: it reads outside the path. -/
theorem C51_errors (path : List C) (start stop points : Int) (dist : C → C → K) (interp : C → C → K → C)
    (pick : Nat → Nat) :
    (stop ≤ start ∨ (path.length : Int) < stop % 2 ^ 64 →
      upsamplePathPartial path start stop points dist interp pick = .abort) ∧
    (0 ≤ start → stop = start + 1 → stop ≤ path.length → path.length < 2 ^ 63 → 1 < points →
      upsamplePathPartial path start stop points dist interp pick = .abort) ∧
    (-2 ^ 62 ≤ start → start < 0 → 1 ≤ stop → stop ≤ path.length → path.length < 2 ^ 62 → stop - start < points →
      upsamplePathPartial path start stop points dist interp pick = .ub) := by
  refine ⟨?_, ?_, ?_⟩
  · intro h
    unfold upsamplePathPartial
    by_cases c : stop > start
    · rw [Out.assert_true c, Out.bind_ok, Out.assert_false (by omega)]
      rfl
    · rw [Out.assert_false c]
      rfl
  · intro h0 h1 h2 h3 h4
    unfold upsamplePathPartial
    rw [Out.assert_true (by omega), Out.bind_ok, Out.assert_true (by omega), Out.bind_ok]
    have e1 : int64 (stop - start) = .ok (stop - start) := by
      unfold int64; rw [if_pos ⟨by omega, by omega⟩]
    rw [e1, Out.bind_ok, if_neg (by omega), if_neg (by omega)]
    dsimp only
    rw [Out.assert_false (by omega)]
    rfl
  · intro h0 h1 h2 h3 h4 h5
    unfold upsamplePathPartial
    rw [Out.assert_true (by omega), Out.bind_ok, Out.assert_true (by omega), Out.bind_ok]
    have e1 : int64 (stop - start) = .ok (stop - start) := by
      unfold int64; rw [if_pos ⟨by omega, by omega⟩]
    rw [e1, Out.bind_ok, if_neg (by omega), if_neg (by omega)]
    dsimp only
    rw [Out.assert_true (by omega), Out.bind_ok]
    obtain ⟨n, hn⟩ : ∃ n, (stop - start - 1).toNat = n + 1 := ⟨(stop - start - 2).toNat, by omega⟩
    rw [hn, lengthsLoop]
    have : at? path start = none := by unfold at?; rw [if_pos h1]
    rw [this]
    rfl

/-- `UpsamplePath` does this for the whole path. -/
theorem C51_whole (path : List C) (points : Nat) (dist : C → C → K) (interp : C → C → K → C)
    (pick : Nat → Nat) (h0 : ∀ a b, 0 ≤ dist a b) (h4 : path.length < 2 ^ 63) :
    (path = [] → upsamplePath path points dist interp pick = .abort) ∧
    (path ≠ [] → points ≤ path.length → upsamplePath path points dist interp pick = .ok path) ∧
    (path.length = 1 → 1 < points → upsamplePath path points dist interp pick = .abort) ∧
    (2 ≤ path.length → path.length < points → ∃ counts out,
      upsamplePath path points dist interp pick = .ok out ∧
      out = upsampled interp path counts ∧ out.length = points ∧
      counts.length + 1 = path.length ∧ (∀ c ∈ counts, 1 ≤ c) ∧ counts.sum + 1 = points ∧
      ∀ other : List Nat, other.length = counts.length → other.sum = counts.sum → (∀ c ∈ other, 1 ≤ c) →
        ∀ (i c : Nat) (d : K), counts[i]? = some c → (segmentLengths dist path)[i]? = some d →
          ∃ (j cj : Nat) (dj : K), other[j]? = some cj ∧ (segmentLengths dist path)[j]? = some dj ∧
            d / (c : K) ≤ dj / (cj : K)) := by
  have e : upsamplePath path points dist interp pick =
      upsamplePathPartial path ((0 : Nat) : Int) (path.length : Int) points dist interp pick := rfl
  rw [e]
  refine ⟨?_, ?_, ?_, ?_⟩
  · rintro rfl
    exact (C51_errors [] _ _ _ dist interp pick).1 (by simp)
  · intro hn hp
    have := List.length_pos_iff.2 hn
    exact C51_enough path 0 path.length points dist interp pick this (Nat.le_refl _) (by omega) h4
  · intro h1 hp
    exact (C51_errors path _ _ _ dist interp pick).2.1 (by simp) (by omega) (Int.le_refl _) h4 (by omega)
  · intro h2 hp
    have := C51_upsample path 0 path.length points dist interp pick h0 (by omega) (Nat.le_refl _)
      (by omega) h4
    simpa using this

end

/-- Examples on numbers, with the absolute difference as the distance. -/
example : resamplePath [(0 : ℚ), 5, 5, 6] 2 (fun a b => |b - a|) (fun a b t => a + t * (b - a)) 100 =
      some (.ok [0, 5 / 3, 10 / 3, 5, 6]) ∧
    upsamplePath [(0 : ℚ), 6, 7] 5 (fun a b => |b - a|) (fun a b t => a + t * (b - a)) (fun _ => 0) =
      .ok [0, 2, 4, 6, 7] ∧
    upsamplePathPartial [(0 : ℚ), 6, 7] 0 2 2 (fun a b => |b - a|) (fun a b t => a + t * (b - a))
      (fun _ => 0) = .ok [0, 6, 7] := by
  decide +kernel

end Verif.PathUtils
