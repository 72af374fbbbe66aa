import Verif.Spec.Kmeans

/-!
# Lemmas about k-means clustering
-/
namespace Verif.Kmeans
open Verif

variable {α W : Type} [LinearOrder W]

theorem closestFrom_spec (distance : α → α → W) (p : α) (cs : List α) (k : Nat) (best : Int × W) :
    (closestFrom distance p cs k best = best ∧
      ∀ (i : Nat) c, cs[i]? = some c → best.2 ≤ distance c p) ∨
    ∃ (i : Nat) (c : α), cs[i]? = some c ∧
      closestFrom distance p cs k best = (((k + i : Nat) : Int), distance c p) ∧
      distance c p < best.2 ∧
      (∀ (i' : Nat) c', cs[i']? = some c' → distance c p ≤ distance c' p) ∧
      (∀ (i' : Nat) c', i' < i → cs[i']? = some c' → distance c p < distance c' p) := by
  induction cs generalizing k best with
  | nil => exact .inl ⟨rfl, by simp⟩
  | cons c cs ih =>
    simp only [closestFrom]
    by_cases hlt : distance c p < best.2
    · rw [if_pos hlt]
      right
      rcases ih (k + 1) ((k : Int), distance c p) with ⟨h1, h2⟩ | ⟨i, c', h1, h2, h3, h4, h5⟩
      · refine ⟨0, c, rfl, by rw [h1]; rfl, hlt, ?_, by intro i' c' hi; omega⟩
        intro i' c' hi
        cases i' with
        | zero => simp at hi; subst hi; exact le_refl _
        | succ i' => exact h2 i' c' (by simpa using hi)
      · refine ⟨i + 1, c', by simpa using h1, ?_, lt_trans h3 hlt, ?_, ?_⟩
        · rw [h2]; congr 2; omega
        · intro i' d hi
          cases i' with
          | zero => simp at hi; subst hi; exact le_of_lt h3
          | succ i' => exact h4 i' d (by simpa using hi)
        · intro i' d hlt' hi
          cases i' with
          | zero => simp at hi; subst hi; exact h3
          | succ i' => exact h5 i' d (by omega) (by simpa using hi)
    · rw [if_neg hlt]
      rcases ih (k + 1) best with ⟨h1, h2⟩ | ⟨i, c', h1, h2, h3, h4, h5⟩
      · refine .inl ⟨h1, ?_⟩
        intro i' d hi
        cases i' with
        | zero => simp at hi; subst hi; exact le_of_not_gt hlt
        | succ i' => exact h2 i' d (by simpa using hi)
      · right
        refine ⟨i + 1, c', by simpa using h1, ?_, h3, ?_, ?_⟩
        · rw [h2]; congr 2; omega
        · intro i' d hi
          cases i' with
          | zero => simp at hi; subst hi; exact le_of_lt (lt_of_lt_of_le h3 (le_of_not_gt hlt))
          | succ i' => exact h4 i' d (by simpa using hi)
        · intro i' d hlt' hi
          cases i' with
          | zero => simp at hi; subst hi; exact lt_of_lt_of_le h3 (le_of_not_gt hlt)
          | succ i' => exact h5 i' d (by omega) (by simpa using hi)

/-- what `GetClosestCluster` does: the first closest center, or an abort when all are at infinity -/
theorem closestCluster_spec (inf : W) (distance : α → α → W) (centers : List α) (p : α)
    (hlen : centers.length ≤ 2 ^ 32) :
    (closestCluster inf distance centers p = .abort ∧ ∀ c ∈ centers, inf ≤ distance c p) ∨
    ∃ j, closestCluster inf distance centers p = .ok j ∧ Closest distance centers p j ∧
      ∃ c ∈ centers, distance c p < inf := by
  rcases closestFrom_spec distance p centers 0 (-1, inf) with ⟨h1, h2⟩ | ⟨i, c, h1, h2, h3, h4, h5⟩
  · left
    refine ⟨by simp [closestCluster, h1], ?_⟩
    intro c hc
    obtain ⟨i, hi⟩ := List.getElem?_of_mem hc
    exact h2 i c hi
  · right
    have hi : i < centers.length := (List.getElem?_eq_some_iff.1 h1).1
    refine ⟨i, ?_, ⟨c, h1, h4, h5⟩, c, List.mem_of_getElem? h1, h3⟩
    simp only [closestCluster, h2]
    rw [if_pos (by omega)]
    have : (0 + i : Nat) % 2 ^ 32 = i := by rw [Nat.zero_add]; exact Nat.mod_eq_of_lt (by omega)
    simpa using this

theorem closest_unique {distance : α → α → W} {centers : List α} {p : α} {j j' : Nat}
    (h : Closest distance centers p j) (h' : Closest distance centers p j') : j = j' := by
  obtain ⟨c, h1, h2, h3⟩ := h
  obtain ⟨c', h1', h2', h3'⟩ := h'
  rcases Nat.lt_trichotomy j j' with hlt | heq | hlt
  · exact absurd (h2 j' c' h1') (not_le_of_gt (h3' j c hlt h1))
  · exact heq
  · exact absurd (h2' j c h1) (not_le_of_gt (h3 j' c' hlt h1'))

theorem singleIteration_ok (inf : W) (distance : α → α → W) (centers : List α)
    (hlen : centers.length ≤ 2 ^ 32) (data : List α) (labels : List Nat)
    (h : singleIteration inf distance centers data = .ok labels) :
    LabelsClosest distance data centers labels := by
  induction data generalizing labels with
  | nil =>
    simp only [singleIteration, Out.ok.injEq] at h
    subst h
    exact ⟨rfl, by simp⟩
  | cons p ps ih =>
    simp only [singleIteration] at h
    rw [Out.bind_eq_ok] at h
    obtain ⟨l, hl, h⟩ := h
    rw [Out.bind_eq_ok] at h
    obtain ⟨ls, hls, h⟩ := h
    cases h
    obtain ⟨h1, h2⟩ := ih ls hls
    refine ⟨by simp [h1], ?_⟩
    intro i q lab hq hlab
    cases i with
    | zero =>
      simp at hq hlab
      subst hq; subst hlab
      rcases closestCluster_spec inf distance centers p hlen with ⟨h', _⟩ | ⟨j, h', hc, _⟩
      · rw [h'] at hl; cases hl
      · rw [h'] at hl; cases hl; exact hc
    | succ i => exact h2 i q lab (by simpa using hq) (by simpa using hlab)

theorem singleIteration_total (inf : W) (distance : α → α → W) (centers : List α)
    (hlen : centers.length ≤ 2 ^ 32) (data : List α)
    (hfin : ∀ p ∈ data, ∃ c ∈ centers, distance c p < inf) :
    ∃ labels, singleIteration inf distance centers data = .ok labels := by
  induction data with
  | nil => exact ⟨[], rfl⟩
  | cons p ps ih =>
    obtain ⟨ls, hls⟩ := ih (fun q hq => hfin q (List.mem_cons_of_mem _ hq))
    rcases closestCluster_spec inf distance centers p hlen with ⟨_, h'⟩ | ⟨j, h', _⟩
    · obtain ⟨c, hc, hlt⟩ := hfin p List.mem_cons_self
      exact absurd (h' c hc) (not_le_of_gt hlt)
    · exact ⟨j :: ls, by simp [singleIteration, h', hls, Out.bind_ok]⟩

theorem singleIteration_abort (inf : W) (distance : α → α → W) (centers : List α)
    (hlen : centers.length ≤ 2 ^ 32) (data : List α)
    (hinf : ∃ p ∈ data, ∀ c ∈ centers, inf ≤ distance c p) :
    singleIteration inf distance centers data = .abort := by
  induction data with
  | nil => obtain ⟨p, hp, _⟩ := hinf; cases hp
  | cons p ps ih =>
    rcases closestCluster_spec inf distance centers p hlen with ⟨h', _⟩ | ⟨j, h', _, c, hc, hlt⟩
    · simp [singleIteration, h']
    · obtain ⟨q, hq, hall⟩ := hinf
      rcases List.mem_cons.1 hq with rfl | hq
      · exact absurd (hall c hc) (not_le_of_gt hlt)
      · simp [singleIteration, h', Out.bind_ok, ih ⟨q, hq, hall⟩]

theorem labels_lt {distance : α → α → W} {data centers : List α} {labels : List Nat}
    (h : LabelsClosest distance data centers labels) : ∀ l ∈ labels, l < centers.length := by
  intro l hl
  obtain ⟨i, hi⟩ := List.getElem?_of_mem hl
  have hlt : i < data.length := by rw [← h.1]; exact (List.getElem?_eq_some_iff.1 hi).1
  obtain ⟨c, hc, _⟩ := h.2 i data[i] l (List.getElem?_eq_getElem hlt) hi
  exact (List.getElem?_eq_some_iff.1 hc).1

omit [LinearOrder W] in
theorem averages_ok {β : Type} (average : List β → Out α) (groups : List (List β)) (cs : List α)
    (h : averages average groups = .ok cs) :
    cs.length = groups.length ∧
    ∀ (j : Nat) c g, cs[j]? = some c → groups[j]? = some g → average g = .ok c := by
  induction groups generalizing cs with
  | nil =>
    simp only [averages, Out.ok.injEq] at h
    subst h
    exact ⟨rfl, by simp⟩
  | cons g gs ih =>
    simp only [averages] at h
    rw [Out.bind_eq_ok] at h
    obtain ⟨a, ha, h⟩ := h
    rw [Out.bind_eq_ok] at h
    obtain ⟨rest, hr, h⟩ := h
    cases h
    obtain ⟨h1, h2⟩ := ih rest hr
    refine ⟨by simp [h1], ?_⟩
    intro j c g' hc hg
    cases j with
    | zero => simp at hc hg; subst hc; subst hg; exact ha
    | succ j => exact h2 j c g' (by simpa using hc) (by simpa using hg)

omit [LinearOrder W] in
theorem averages_total {β : Type} (average : List β → Out α) (avg : List β → α)
    (havg : ∀ l, average l = .ok (avg l)) (groups : List (List β)) :
    averages average groups = .ok (groups.map avg) := by
  induction groups with
  | nil => rfl
  | cons g gs ih => simp [averages, havg, ih, Out.bind_ok]

omit [LinearOrder W] in
theorem separate_ok {β : Type} (num : Nat) (data : List β) (labels : List Nat)
    (h : ∀ l ∈ labels, l < num) :
    separate num data labels = .ok ((List.range num).map (members data labels)) := by
  rw [separate, if_pos (by simpa using h)]
  rfl

/-- What a computation of centers does for labels that are in range: it averages each group. -/
structure Averages {β : Type} (average : List β → Out α) (num : Nat) (points : List α) (data : List β)
    (centersOf : List α → List Nat → Out (List α)) : Prop where
  eq : ∀ labels, labels.length = points.length → (∀ l ∈ labels, l < num) →
    centersOf points labels = averages average ((List.range num).map (members data labels))

omit [LinearOrder W] in
theorem averages_computeCenters (average : List α → Out α) (num : Nat) (data : List α) :
    Averages average num data data (computeCenters average num) := by
  constructor
  intro labels hlen hlt
  simp only [computeCenters]
  rw [Out.assert_true (by simp [hlen]), Out.bind_ok, separate_ok num data labels hlt, Out.bind_ok]

omit [LinearOrder W] in
theorem averages_computeCentersWeighted (average : List (α × W) → Out α) (weights : List W)
    (num : Nat) (data : List α) (hw : data.length ≤ weights.length) :
    Averages average num data (data.zip weights) (computeCentersWeighted average weights num) := by
  constructor
  intro labels hlen hlt
  simp only [computeCentersWeighted]
  rw [Out.assert_true (by simp [hlen]), Out.bind_ok, if_neg (by omega),
    separate_ok num (data.zip weights) labels hlt, Out.bind_ok]

omit [LinearOrder W] in
theorem centersAverage_of {β : Type} (average : List β → Out α) (num : Nat) (data : List β)
    (labels : List Nat) (cs : List α)
    (h : averages average ((List.range num).map (members data labels)) = .ok cs) :
    cs.length = num ∧ CentersAverage average data cs labels := by
  obtain ⟨h1, h2⟩ := averages_ok average _ cs h
  have hlen : cs.length = num := by simpa using h1
  refine ⟨hlen, ?_⟩
  intro j c hc
  have hj : j < num := by rw [← hlen]; exact (List.getElem?_eq_some_iff.1 hc).1
  exact h2 j c _ hc (by simp [hj])

theorem round_ok {β : Type} (inf : W) (distance : α → α → W) (average : List β → Out α) (num : Nat)
    (points : List α) (data : List β) (centersOf : List α → List Nat → Out (List α))
    (hav : Averages average num points data centersOf) (hnum : num ≤ 2 ^ 32) (labels : List Nat)
    (hlen : labels.length = points.length) (hlt : ∀ l ∈ labels, l < num)
    (conv : Bool) (new : List Nat) (cs : List α)
    (h : round inf distance centersOf points labels = .ok (conv, new, cs)) :
    cs.length = num ∧ CentersAverage average data cs labels ∧
      LabelsClosest distance points cs new ∧ (conv = true ↔ new = labels) := by
  simp only [round] at h
  rw [Out.bind_eq_ok] at h
  obtain ⟨cs', hcs, h⟩ := h
  rw [Out.bind_eq_ok] at h
  obtain ⟨new', hnew, h⟩ := h
  rw [Out.bind_eq_ok] at h
  obtain ⟨conv', hconv, h⟩ := h
  cases h
  rw [hav.eq labels hlen hlt] at hcs
  obtain ⟨h1, h2⟩ := centersAverage_of average num data labels cs hcs
  have h3 := singleIteration_ok inf distance cs (by omega) points new hnew
  refine ⟨h1, h2, h3, ?_⟩
  simp only [checkForConvergence] at hconv
  rw [Out.assert_true (by simp [hlen, h3.1]), Out.bind_ok] at hconv
  cases hconv
  simp [eq_comm]

theorem iterate_ok {β : Type} (inf : W) (distance : α → α → W) (average : List β → Out α) (num : Nat)
    (points : List α) (data : List β) (centersOf : List α → List Nat → Out (List α))
    (hav : Averages average num points data centersOf) (hnum : num ≤ 2 ^ 32) (fuel : Nat)
    (labels : List Nat) (hlen : labels.length = points.length) (hlt : ∀ l ∈ labels, l < num)
    (final : List Nat) (cs : List α)
    (h : iterate inf distance centersOf points fuel labels = some (.ok (final, cs))) :
    Lloyd distance average num points data labels final cs := by
  induction fuel generalizing labels with
  | zero => simp [iterate] at h
  | succ fuel ih =>
    simp only [iterate] at h
    split at h
    · next new centers heq =>
      cases h
      obtain ⟨h1, h2, h3, h4⟩ := round_ok inf distance average num points data centersOf hav hnum
        labels hlen hlt true final cs heq
      have := h4.1 rfl
      subst this
      exact .stop h1 h2 h3
    · next new centers heq =>
      obtain ⟨h1, h2, h3, h4⟩ := round_ok inf distance average num points data centersOf hav hnum
        labels hlen hlt false new centers heq
      refine .step h1 h2 h3 (fun hc => by simpa using h4.2 hc) (ih new h3.1 ?_ h)
      rw [← h1]
      exact labels_lt h3
    · cases h
    · cases h
    · cases h

theorem lloyd_final {β : Type} {distance : α → α → W} {average : List β → Out α} {num : Nat}
    {points : List α} {data : List β} {l final : List Nat} {cs : List α}
    (h : Lloyd distance average num points data l final cs) :
    cs.length = num ∧ LabelsClosest distance points cs final ∧
      CentersAverage average data cs final := by
  induction h with
  | stop h1 h2 h3 => exact ⟨h1, h3, h2⟩
  | step _ _ _ _ _ ih => exact ih

/-! ## Random indices -/

theorem mem_insertKey (k x : Nat) (l : List Nat) : x ∈ insertKey k l ↔ x = k ∨ x ∈ l := by
  induction l with
  | nil => simp [insertKey]
  | cons y ys ih =>
    simp only [insertKey]
    split
    · simp
    · split
      · next h => subst h; simp
      · simp only [List.mem_cons, ih]
        constructor
        · rintro (h | h | h)
          · exact .inr (.inl h)
          · exact .inl h
          · exact .inr (.inr h)
        · rintro (h | h | h)
          · exact .inr (.inl h)
          · exact .inl h
          · exact .inr (.inr h)

theorem insertKey_sorted (k : Nat) (l : List Nat) (h : l.Pairwise (· < ·)) :
    (insertKey k l).Pairwise (· < ·) := by
  induction l with
  | nil => simp [insertKey]
  | cons y ys ih =>
    obtain ⟨hy, hys⟩ := List.pairwise_cons.1 h
    simp only [insertKey]
    split
    · next hlt =>
      refine List.pairwise_cons.2 ⟨?_, h⟩
      intro x hx
      rcases List.mem_cons.1 hx with rfl | hx
      · exact hlt
      · exact Nat.lt_trans hlt (hy x hx)
    · split
      · exact h
      · refine List.pairwise_cons.2 ⟨?_, ih hys⟩
        intro x hx
        rcases (mem_insertKey k x ys).1 hx with rfl | hx
        · omega
        · exact hy x hx

theorem insertKey_length (k : Nat) (l : List Nat) : (insertKey k l).length ≤ l.length + 1 := by
  induction l with
  | nil => simp [insertKey]
  | cons y ys ih =>
    simp only [insertKey]
    split
    · simp
    · split
      · simp
      · simpa using ih

theorem drawIndices_some (count : Nat) (fuel : Nat) (draws : Nat → Nat) (keys r : List Nat)
    (hs : keys.Pairwise (· < ·)) (hl : keys.length ≤ count)
    (h : drawIndices count fuel draws keys = some r) :
    r.Pairwise (· < ·) ∧ r.length = count ∧ ∀ x ∈ r, x ∈ keys ∨ ∃ i, x = draws i := by
  induction fuel generalizing draws keys with
  | zero =>
    unfold drawIndices at h
    split at h
    · simp at h
    · cases h
      exact ⟨hs, by omega, fun x hx => .inl hx⟩
  | succ fuel ih =>
    unfold drawIndices at h
    split at h
    · next hlt =>
      have hlen := insertKey_length (draws 0) keys
      obtain ⟨h1, h2, h3⟩ := ih _ _ (insertKey_sorted _ _ hs) (by omega) h
      refine ⟨h1, h2, ?_⟩
      intro x hx
      rcases h3 x hx with hx | ⟨i, hi⟩
      · rcases (mem_insertKey _ _ _).1 hx with hx | hx
        · exact .inr ⟨0, hx⟩
        · exact .inl hx
      · exact .inr ⟨i + 1, hi⟩
    · cases h
      exact ⟨hs, by omega, fun x hx => .inl hx⟩

theorem sorted_length_le {n : Nat} {l : List Nat} (hs : l.Pairwise (· < ·)) (hl : ∀ x ∈ l, x < n) :
    l.length ≤ n := by
  have hnd : l.Nodup := hs.imp (fun h => Nat.ne_of_lt h)
  have := hnd.length_le_of_subset (l₂ := List.range n) (fun x hx => List.mem_range.2 (hl x hx))
  simpa using this

theorem drawIndices_none (count n : Nat) (hn : n < count) (fuel : Nat) (draws : Nat → Nat)
    (hd : InRange n draws) (keys : List Nat) (hs : keys.Pairwise (· < ·)) (hk : ∀ x ∈ keys, x < n) :
    drawIndices count fuel draws keys = none := by
  have hlen := sorted_length_le hs hk
  induction fuel generalizing draws keys with
  | zero => unfold drawIndices; rw [if_pos (by omega)]
  | succ fuel ih =>
    unfold drawIndices
    rw [if_pos (by omega)]
    have hk' : ∀ x ∈ insertKey (draws 0) keys, x < n := by
      intro x hx
      rcases (mem_insertKey _ _ _).1 hx with rfl | hx
      · exact hd 0
      · exact hk x hx
    exact ih _ (fun i => hd (i + 1)) _ (insertKey_sorted _ _ hs) hk'
      (sorted_length_le (insertKey_sorted _ _ hs) hk')

theorem drawIndices_total (count : Nat) (fuel : Nat) (draws : Nat → Nat) (keys S : List Nat)
    (hS : S.Nodup) (hlen : count ≤ S.length)
    (hsub : ∀ x ∈ S, x ∈ keys ∨ ∃ i, i < fuel ∧ x = draws i) :
    ∃ r, drawIndices count fuel draws keys = some r := by
  induction fuel generalizing draws keys with
  | zero =>
    have := hS.length_le_of_subset (l₂ := keys) (fun x hx => by
      rcases hsub x hx with h | ⟨i, hi, _⟩
      · exact h
      · omega)
    exact ⟨keys, by unfold drawIndices; rw [if_neg (by omega)]⟩
  | succ fuel ih =>
    unfold drawIndices
    split
    · apply ih
      intro x hx
      rcases hsub x hx with h | ⟨i, hi, h⟩
      · exact .inl ((mem_insertKey _ _ _).2 (.inr h))
      · cases i with
        | zero => exact .inl ((mem_insertKey _ _ _).2 (.inl h))
        | succ i => exact .inr ⟨i, by omega, h⟩
    · exact ⟨_, rfl⟩

omit [LinearOrder W] in
theorem pickData_ok (data : List α) (indices : List Nat) (h : ∀ i ∈ indices, i < data.length) :
    ∃ ps, pickData data indices = .ok ps ∧
      indices.map (fun i => data[i]?) = ps.map some := by
  induction indices with
  | nil => exact ⟨[], rfl, rfl⟩
  | cons i is ih =>
    obtain ⟨ps, h1, h2⟩ := ih (fun j hj => h j (List.mem_cons_of_mem _ hj))
    have hlt : i < data.length := h i List.mem_cons_self
    have hi : data[i]? = some data[i] := List.getElem?_eq_getElem hlt
    exact ⟨data[i] :: ps, by simp [pickData, hi, h1, Out.bind_ok], by simp [hi, h2]⟩

end Verif.Kmeans
