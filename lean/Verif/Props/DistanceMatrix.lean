import Verif.Model.DistanceMatrix
import Verif.Spec.DistanceMatrix
import Mathlib.Data.List.Nodup

/-!
# C28: distance matrices
-/
namespace Verif.DistanceMatrix
open Verif

variable {α β W : Type} [Zero W]

/-! ## One set -/

/-- What one iteration does. -/
theorem iteration_ok {data : List α} {distance : α → α → W} {i j : Nat} (hij : i ≤ j)
    (hj : j < data.length) (m : Mat W) (hr : m.rows = data.length) (hc : m.cols = data.length) :
    iteration data distance i j m =
      .ok ((m.put i j (if i = j then 0 else distance (data[i]'(by omega)) data[j])).put j i
        (if i = j then 0 else distance (data[i]'(by omega)) data[j])) := by
  unfold iteration
  rw [List.getElem?_eq_getElem (by omega), List.getElem?_eq_getElem hj]
  simp only
  by_cases h : i = j
  · subst h
    rw [if_neg (by simp), Mat.write_ok _ _ (by omega) (by omega), Out.bind_ok,
      Mat.write_ok _ _ (by simp; omega) (by simp; omega)]
    simp
  · rw [if_pos h, Mat.write_ok _ _ (by omega) (by omega), Out.bind_ok,
      Mat.write_ok _ _ (by simp; omega) (by simp; omega)]
    simp [h]

/-- The value that belongs at `(r, c)`. -/
def value (data : List α) (distance : α → α → W) (r c : Nat) : Option W :=
  match data[r]?, data[c]? with
  | some x, some y => some (if r = c then 0 else if r < c then distance x y else distance y x)
  | _, _ => none

theorem run_spec {data : List α} {distance : α → α → W} :
    ∀ (order : List (Nat × Nat)) (m : Mat W), m.rows = data.length → m.cols = data.length →
      (∀ p ∈ order, p.1 ≤ p.2 ∧ p.2 < data.length) →
      ∃ m', run data distance order m = .ok m' ∧ m'.rows = data.length ∧ m'.cols = data.length ∧
        ∀ r c, m'.get r c = if (min r c, max r c) ∈ order then value data distance r c else m.get r c := by
  intro order
  induction order with
  | nil => intro m hr hc _; exact ⟨m, rfl, hr, hc, by simp⟩
  | cons p rest ih =>
    intro m hr hc hp
    obtain ⟨i, j⟩ := p
    obtain ⟨hij, hj⟩ := hp (i, j) (by simp)
    simp only at hij hj
    unfold run
    rw [iteration_ok hij hj m hr hc, Out.bind_ok]
    obtain ⟨m', h1, h2, h3, h4⟩ := ih ((m.put i j (if i = j then 0 else
        distance (data[i]'(by omega)) data[j])).put j i (if i = j then 0 else
        distance (data[i]'(by omega)) data[j])) (by simpa using hr) (by simpa using hc)
      (fun p hp' => hp p (List.mem_cons_of_mem _ hp'))
    refine ⟨m', h1, h2, h3, ?_⟩
    intro r c
    rw [h4 r c]
    by_cases hmem : (min r c, max r c) ∈ rest
    · rw [if_pos hmem, if_pos (List.mem_cons_of_mem _ hmem)]
    · rw [if_neg hmem, Mat.put_get, Mat.put_get]
      by_cases heq : (min r c, max r c) = (i, j)
      · have hin : (min r c, max r c) ∈ (i, j) :: rest := by rw [heq]; simp
        simp only [if_pos hin]
        have h1 : min r c = i := (Prod.mk.inj heq).1
        have h2 : max r c = j := (Prod.mk.inj heq).2
        have hv : value data distance r c =
            some (if i = j then 0 else distance (data[i]'(by omega)) data[j]) := by
          unfold value
          rw [List.getElem?_eq_getElem (show r < data.length by omega),
            List.getElem?_eq_getElem (show c < data.length by omega)]
          simp only [Option.some.injEq]
          by_cases hrc : r = c
          · rw [if_pos hrc, if_pos (by omega)]
          · have hij' : i ≠ j := by omega
            rw [if_neg hrc, if_neg hij']
            by_cases hlt : r < c
            · rw [if_pos hlt]
              have e1 : i = r := by omega
              have e2 : j = c := by omega
              subst e1 e2; rfl
            · rw [if_neg hlt]
              have e1 : i = c := by omega
              have e2 : j = r := by omega
              subst e1 e2; rfl
        rw [hv]
        by_cases hlast : r = j ∧ c = i
        · rw [if_pos hlast]
        · rw [if_neg hlast, if_pos (by omega)]
      · have hne : ¬ (i = min r c ∧ j = max r c) := by
          rintro ⟨rfl, rfl⟩; exact heq rfl
        rw [if_neg (by omega), if_neg (by omega), if_neg]
        simp only [List.mem_cons, not_or]
        exact ⟨heq, hmem⟩

theorem iterations_once (n : Nat) : TriangleOnce n (iterations n) := by
  constructor
  · unfold iterations
    rw [List.nodup_flatMap]
    refine ⟨?_, ?_⟩
    · intro i _
      exact (List.nodup_range' (step := 1)).map (fun a b h => (Prod.mk.inj h).2)
    · refine List.nodup_range.imp ?_
      intro a b hab x hx hy
      obtain ⟨_, _, rfl⟩ := List.mem_map.1 hx
      obtain ⟨_, _, h⟩ := List.mem_map.1 hy
      exact hab (Prod.mk.inj h).1.symm
  · intro i j
    unfold iterations
    simp only [List.mem_flatMap, List.mem_range, List.mem_map, List.mem_range'_1, Prod.mk.injEq]
    constructor
    · rintro ⟨_, h1, _, h2, rfl, rfl⟩; omega
    · intro h; exact ⟨i, by omega, j, by omega, rfl, rfl⟩

/-- **C28.** In whatever order the parallel loop executes its iterations, the matrix is square with
one row per item, has a zero diagonal, and above the diagonal entry `(i, j)` is the distance from item
`i` to item `j`; below the diagonal it is the mirror image. -/
theorem C28_parallel (order : List (Nat × Nat)) (data : List α) (distance : α → α → W)
    (ho : TriangleOnce data.length order) :
    ∃ m, parallel order data distance = .ok m ∧ m.rows = data.length ∧ m.cols = data.length ∧
      (∀ (i : Nat), i < data.length → m.get i i = some 0) ∧
      ∀ (i j : Nat) (x y : α), data[i]? = some x → data[j]? = some y → i < j →
        m.get i j = some (distance x y) ∧ m.get j i = some (distance x y) := by
  obtain ⟨m, h1, h2, h3, h4⟩ := run_spec (data := data) (distance := distance) order
    (Mat.uninit data.length data.length) rfl rfl (fun p hp => (ho.mem p.1 p.2).1 hp)
  refine ⟨m, h1, h2, h3, ?_, ?_⟩
  · intro i hi
    rw [h4 i i, if_pos ((ho.mem _ _).2 (by omega))]
    simp [value, List.getElem?_eq_getElem hi]
  · intro i j x y hx hy hij
    have hj := (List.getElem?_eq_some_iff.1 hy).1
    rw [h4 i j, h4 j i, if_pos ((ho.mem _ _).2 (by omega)), if_pos ((ho.mem _ _).2 (by omega))]
    have e1 : i ≠ j := by omega
    have e2 : j ≠ i := by omega
    have e3 : ¬ j < i := by omega
    simp [value, hx, hy, e1, e2, e3, hij]

/-- **C28.** The serial function computes the same, so for a symmetric distance every entry `(i, j)`
off the diagonal is the distance between items `i` and `j`. -/
theorem C28_serial (data : List α) (distance : α → α → W)
    (hsym : ∀ x y, distance x y = distance y x) :
    ∃ m, serial data distance = .ok m ∧ m.rows = data.length ∧ m.cols = data.length ∧
      ∀ (i j : Nat) (x y : α), data[i]? = some x → data[j]? = some y →
        m.get i j = some (if i = j then 0 else distance x y) := by
  obtain ⟨m, h1, h2, h3, h4, h5⟩ := C28_parallel (iterations data.length) data distance
    (iterations_once _)
  refine ⟨m, h1, h2, h3, ?_⟩
  intro i j x y hx hy
  rcases Nat.lt_trichotomy i j with h | h | h
  · rw [if_neg (by omega), (h5 i j x y hx hy h).1]
  · subst h
    rw [if_pos rfl, h4 i (List.getElem?_eq_some_iff.1 hx).1]
  · rw [if_neg (by omega), (h5 j i y x hy hx h).2, hsym]

/-- **C28.** Serial and parallel give the same matrix in every execution. -/
theorem C28_same (order : List (Nat × Nat)) (data : List α) (distance : α → α → W)
    (ho : TriangleOnce data.length order) (s p : Mat W) (hs : serial data distance = .ok s)
    (hp : parallel order data distance = .ok p) :
    s.rows = p.rows ∧ s.cols = p.cols ∧ ∀ r c, s.get r c = p.get r c := by
  obtain ⟨m, h1, h2, h3, h4⟩ := run_spec (data := data) (distance := distance) order
    (Mat.uninit data.length data.length) rfl rfl (fun p hp => (ho.mem p.1 p.2).1 hp)
  have hi := iterations_once data.length
  obtain ⟨m', g1, g2, g3, g4⟩ := run_spec (data := data) (distance := distance)
    (iterations data.length) (Mat.uninit data.length data.length) rfl rfl
    (fun p hp => (hi.mem p.1 p.2).1 hp)
  unfold parallel at hp
  unfold serial at hs
  rw [h1] at hp; injection hp with hp; subst hp
  rw [g1] at hs; injection hs with hs; subst hs
  refine ⟨by omega, by omega, ?_⟩
  intro r c
  rw [h4, g4]
  simp only [ho.mem, hi.mem]

/-- **C28.** The iterations do not race: an iteration changes only its own two entries, and two
different iterations have no entry in common. -/
theorem C28_no_race (data : List α) (distance : α → α → W) (i j i' j' : Nat) (m m' : Mat W)
    (h : iteration data distance i j m = .ok m') (hij : i ≤ j) (hij' : i' ≤ j')
    (hne : (i, j) ≠ (i', j')) :
    (∀ r c, m'.get r c ≠ m.get r c → (r, c) = (i, j) ∨ (r, c) = (j, i)) ∧
      ¬ ((i, j) = (i', j') ∨ (i, j) = (j', i') ∨ (j, i) = (i', j') ∨ (j, i) = (j', i')) := by
  constructor
  · intro r c hrc
    by_contra hno
    simp only [Prod.mk.injEq, not_or] at hno
    apply hrc
    unfold iteration at h
    split at h
    · split at h
      all_goals
        rw [Out.bind_eq_ok] at h
        obtain ⟨m1, h1, h2⟩ := h
        unfold Mat.write at h1 h2
        split at h1
        · split at h2
          · injection h1 with h1
            injection h2 with h2
            subst h1 h2
            simp only
            rw [if_neg hno.2, if_neg hno.1]
          · cases h2
        · cases h1
    · cases h
  · simp only [ne_eq, Prod.mk.injEq] at hne ⊢
    omega

/-! ## Two sets -/

omit [Zero W] in
theorem iteration2_cases (data1 : List α) (data2 : List β) (distance : α → β → W) (i j : Nat)
    (m : Mat W) :
    (∃ x y, data1[i]? = some x ∧ data2[j]? = some y ∧ i < m.rows ∧ j < m.cols ∧ j < m.rows ∧
      i < m.cols ∧ iteration2 data1 data2 distance i j m =
        .ok ((m.put i j (distance x y)).put j i (distance x y))) ∨
    (iteration2 data1 data2 distance i j m = .ub ∧
      ¬ (i < data1.length ∧ j < data2.length ∧ i < m.rows ∧ j < m.cols ∧ j < m.rows ∧ i < m.cols)) := by
  unfold iteration2
  cases h1 : data1[i]? with
  | none => exact Or.inr ⟨rfl, fun h => by rw [List.getElem?_eq_none_iff] at h1; omega⟩
  | some x =>
    cases h2 : data2[j]? with
    | none => exact Or.inr ⟨rfl, fun h => by rw [List.getElem?_eq_none_iff] at h2; omega⟩
    | some y =>
      simp only
      by_cases ha : i < m.rows ∧ j < m.cols
      · rw [Mat.write_ok _ _ ha.1 ha.2, Out.bind_ok]
        by_cases hb : j < m.rows ∧ i < m.cols
        · left
          refine ⟨x, y, rfl, rfl, ha.1, ha.2, hb.1, hb.2, ?_⟩
          rw [Mat.write_ok _ _ (by simpa using hb.1) (by simpa using hb.2)]
        · right
          rw [Mat.write_ub _ _ (by simpa using hb)]
          exact ⟨rfl, fun h => hb ⟨h.2.2.2.2.1, h.2.2.2.2.2⟩⟩
      · right
        rw [Mat.write_ub _ _ ha]
        exact ⟨rfl, fun h => ha ⟨h.2.2.1, h.2.2.2.1⟩⟩

omit [Zero W] in
theorem run2_ub {data1 : List α} {data2 : List β} {distance : α → β → W} :
    ∀ (order : List (Nat × Nat)) (m : Mat W) (p : Nat × Nat), p ∈ order → ¬ p.2 < m.cols →
      run2 data1 data2 distance order m = .ub := by
  intro order
  induction order with
  | nil => intro _ _ h; cases h
  | cons q rest ih =>
    intro m p hp hbad
    obtain ⟨i, j⟩ := q
    unfold run2
    rcases iteration2_cases data1 data2 distance i j m with ⟨x, y, _, _, _, hj, _, _, h⟩ | ⟨h, _⟩
    · rw [h, Out.bind_ok]
      rcases List.mem_cons.1 hp with rfl | hp
      · exact absurd hj hbad
      · exact ih _ p hp (by simpa using hbad)
    · rw [h]; rfl

omit [Zero W] in
theorem run2_ok {data1 : List α} {data2 : List β} {distance : α → β → W} :
    ∀ (order : List (Nat × Nat)) (m : Mat W), m.rows = data1.length → m.cols = data1.length →
      (∀ p ∈ order, p.1 < data1.length ∧ p.2 < data2.length ∧ p.2 < data1.length) →
      ∃ m', run2 data1 data2 distance order m = .ok m' ∧ m'.rows = data1.length ∧
        m'.cols = data1.length ∧
        ∀ r c, ((r, c) ∉ order ∧ (c, r) ∉ order) → m'.get r c = m.get r c := by
  intro order
  induction order with
  | nil => intro m hr hc _; exact ⟨m, rfl, hr, hc, fun _ _ _ => rfl⟩
  | cons q rest ih =>
    intro m hr hc hp
    obtain ⟨i, j⟩ := q
    obtain ⟨hi, hj, hj'⟩ := hp (i, j) (by simp)
    simp only at hi hj hj'
    unfold run2
    rcases iteration2_cases data1 data2 distance i j m with ⟨x, y, _, _, _, _, _, _, h⟩ | ⟨_, h⟩
    · rw [h, Out.bind_ok]
      obtain ⟨m', g1, g2, g3, g4⟩ := ih ((m.put i j (distance x y)).put j i (distance x y))
        (by simpa using hr) (by simpa using hc)
        (fun p hp' => hp p (List.mem_cons_of_mem _ hp'))
      refine ⟨m', g1, g2, g3, ?_⟩
      intro r c hrc
      simp only [List.mem_cons, not_or, Prod.mk.injEq] at hrc
      rw [g4 r c ⟨hrc.1.2, hrc.2.2⟩, Mat.put_get, Mat.put_get, if_neg, if_neg]
      · omega
      · omega
    · exact absurd (by omega) h

omit [Zero W] in
theorem run2_append {data1 : List α} {data2 : List β} {distance : α → β → W}
    (a b : List (Nat × Nat)) : ∀ (m : Mat W),
    run2 data1 data2 distance (a ++ b) m =
      (run2 data1 data2 distance a m).bind (run2 data1 data2 distance b) := by
  induction a with
  | nil => intro m; rfl
  | cons p a ih =>
    intro m
    obtain ⟨i, j⟩ := p
    show (iteration2 data1 data2 distance i j m).bind (run2 data1 data2 distance (a ++ b)) =
      ((iteration2 data1 data2 distance i j m).bind (run2 data1 data2 distance a)).bind _
    cases iteration2 data1 data2 distance i j m with
    | ok m' => exact ih m'
    | throws e => rfl
    | abort => rfl
    | ub => rfl

theorem iterations2_mem (n1 n2 i j : Nat) : (i, j) ∈ iterations2 n1 n2 ↔ i < n1 ∧ j < n2 := by
  unfold iterations2
  simp only [List.mem_flatMap, List.mem_range, List.mem_map, Prod.mk.injEq]
  constructor
  · rintro ⟨_, h1, _, h2, rfl, rfl⟩; omega
  · intro h; exact ⟨i, h.1, j, h.2, rfl, rfl⟩

theorem range_split (n k : Nat) (h : k < n) :
    List.range n = List.range k ++ k :: List.range' (k + 1) (n - k - 1) := by
  rw [List.range_eq_range', List.range_eq_range', show n = k + (n - k) by omega, ← List.range'_append]
  simp only [Nat.zero_add, Nat.one_mul]
  congr 1
  obtain ⟨d, hd⟩ : ∃ d, n - k = d + 1 := ⟨n - k - 1, by omega⟩
  rw [show k + (n - k) - k - 1 = d by omega, hd, List.range'_succ]

/-- The iterations after `(p, q)` are those later in row `p` and those of later rows. -/
theorem iterations2_split {n1 n2 p q : Nat} (hp : p < n1) (hq : q < n2) :
    ∃ A B, iterations2 n1 n2 = A ++ (p, q) :: B ∧
      ∀ i j, (i, j) ∈ B → (i = p ∧ q < j) ∨ p < i := by
  unfold iterations2
  rw [range_split n1 p hp, List.flatMap_append, List.flatMap_cons]
  refine ⟨((List.range p).flatMap fun idx => (List.range n2).map fun jdx => (idx, jdx)) ++
    (List.range q).map (fun jdx => (p, jdx)), (List.range' (q + 1) (n2 - q - 1)).map (fun jdx => (p, jdx)) ++
    ((List.range' (p + 1) (n1 - p - 1)).flatMap fun idx => (List.range n2).map fun jdx => (idx, jdx)),
    ?_, ?_⟩
  · have : (List.range n2).map (fun jdx => (p, jdx)) = (List.range q).map (fun jdx => (p, jdx)) ++
        (p, q) :: (List.range' (q + 1) (n2 - q - 1)).map (fun jdx => (p, jdx)) := by
      rw [range_split n2 q hq, List.map_append, List.map_cons]
    rw [this]
    simp [List.append_assoc]
  · intro i j h
    simp only [List.mem_append, List.mem_map, List.mem_flatMap, List.mem_range'_1, Prod.mk.injEq] at h
    rcases h with ⟨_, h1, rfl, rfl⟩ | ⟨_, h1, _, _, rfl, rfl⟩
    · left; omega
    · right; omega

omit [Zero W] in
/-- **C28, two sets, partial.** The claim would be that entry `(i, j)` is the distance from item `i`
of the first set to item `j` of the second. If the second set is no larger than the first, this holds
on and below the diagonal; above the diagonal the matrix is the mirror image, and entries that neither
index of which is in the second set are left uninitialised. -/
theorem C28_two_sets_partial (data1 : List α) (data2 : List β) (distance : α → β → W)
    (hn : data2.length ≤ data1.length) :
    ∃ m, serial2 data1 data2 distance = .ok m ∧ m.rows = data1.length ∧ m.cols = data1.length ∧
      (∀ (i j : Nat) (x : α) (y : β), data1[i]? = some x → data2[j]? = some y → j ≤ i →
        m.get i j = some (distance x y) ∧ m.get j i = some (distance x y)) ∧
      ∀ (i j : Nat), data2.length ≤ i → data2.length ≤ j → m.get i j = none := by
  have hin : ∀ p ∈ iterations2 data1.length data2.length,
      p.1 < data1.length ∧ p.2 < data2.length ∧ p.2 < data1.length := by
    intro p hp
    have := (iterations2_mem _ _ p.1 p.2).1 hp
    omega
  obtain ⟨m, h1, h2, h3, h4⟩ := run2_ok (data1 := data1) (data2 := data2) (distance := distance)
    (iterations2 data1.length data2.length) (Mat.uninit data1.length data1.length) rfl rfl hin
  refine ⟨m, h1, h2, h3, ?_, ?_⟩
  · intro i j x y hx hy hji
    obtain ⟨A, B, hAB, hB⟩ := iterations2_split (n1 := data1.length) (n2 := data2.length)
      (List.getElem?_eq_some_iff.1 hx).1 (List.getElem?_eq_some_iff.1 hy).1
    rw [hAB] at h1 hin
    rw [run2_append] at h1
    obtain ⟨m1, g1, g2, g3, _⟩ := run2_ok (data1 := data1) (data2 := data2) (distance := distance)
      A (Mat.uninit data1.length data1.length) rfl rfl (fun p hp => hin p (by simp [hp]))
    rw [g1] at h1
    have h1 : run2 data1 data2 distance ((i, j) :: B) m1 = .ok m := h1
    unfold run2 at h1
    rcases iteration2_cases data1 data2 distance i j m1 with ⟨x', y', hx', hy', _, _, _, _, h⟩ | ⟨h, _⟩
    · rw [hx] at hx'; injection hx' with hx'; subst hx'
      rw [hy] at hy'; injection hy' with hy'; subst hy'
      rw [h, Out.bind_ok] at h1
      obtain ⟨m2, k1, _, _, k4⟩ := run2_ok (data1 := data1) (data2 := data2) (distance := distance)
        B ((m1.put i j (distance x y)).put j i (distance x y)) (by simpa using g2) (by simpa using g3)
        (fun p hp => hin p (by simp [hp]))
      rw [k1] at h1; injection h1 with h1; subst h1
      have hn1 : (i, j) ∉ B := fun hm => by have := hB i j hm; omega
      have hn2 : (j, i) ∉ B := fun hm => by have := hB j i hm; omega
      rw [k4 i j ⟨hn1, hn2⟩, k4 j i ⟨hn2, hn1⟩, Mat.put_get, Mat.put_get, Mat.put_get]
      constructor
      · split
        · rfl
        · simp
      · simp
    · rw [h] at h1; cases h1
  · intro i j hi hj
    rw [h4 i j ⟨fun h => ?_, fun h => ?_⟩]
    · rfl
    · have := (iterations2_mem _ _ i j).1 h; omega
    · have := (iterations2_mem _ _ j i).1 h; omega

omit [Zero W] in
/-- **C28, two sets.** If the second set is larger than the (non-empty) first, the function writes
outside the matrix. -/
theorem C28_two_sets_out_of_bounds (data1 : List α) (data2 : List β) (distance : α → β → W)
    (h0 : 0 < data1.length) (hn : data1.length < data2.length) :
    serial2 data1 data2 distance = .ub :=
  run2_ub _ _ (0, data1.length) ((iterations2_mem _ _ _ _).2 ⟨h0, hn⟩) (by simp [Mat.uninit])

/-- **C28, two sets: the claim is false.** With two sets of two numbers, entry `(0, 1)` should be the
distance from 1 to 7, which is 6; it is 2. -/
theorem C28_two_sets_wrong :
    (serial2 [1, 5] [3, 7] (fun a b : Nat => (a - b) + (b - a))).bind (fun m => m.read 0 1) = .ok 2 := by
  decide +kernel

/-- **C28, two sets: the result depends on the schedule.** Two orders in which two threads can execute
their rows give different entries. -/
theorem C28_two_sets_schedule :
    (parallel2 [(0, 0), (0, 1), (1, 0), (1, 1)] [1, 5] [3, 7] (fun a b : Nat => (a - b) + (b - a))).bind
      (fun m => m.read 0 1) = .ok 2 ∧
    (parallel2 [(1, 0), (1, 1), (0, 0), (0, 1)] [1, 5] [3, 7] (fun a b : Nat => (a - b) + (b - a))).bind
      (fun m => m.read 0 1) = .ok 6 := by
  decide +kernel

/-! ## Cases that meet the hypotheses -/

example : TriangleOnce 3 [(1, 1), (0, 0), (1, 2), (0, 1), (2, 2), (0, 2)] := by
  constructor
  · decide +kernel
  · intro i j
    simp only [List.mem_cons, Prod.mk.injEq, List.not_mem_nil, or_false]
    omega

example : (parallel [(1, 1), (0, 0), (1, 2), (0, 1), (2, 2), (0, 2)] [1, 5, 9]
    (fun a b : Nat => (a - b) + (b - a))).bind (fun m => m.read 2 0) = .ok 8 := by decide +kernel

example : (serial2 [1, 5, 6] [3, 7] (fun a b : Nat => (a - b) + (b - a))).bind
    (fun m => m.read 2 1) = .ok 1 := by decide +kernel

end Verif.DistanceMatrix
