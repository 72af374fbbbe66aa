import Verif.Model.ZlibFiles

/-!
# C52: compressed files and slices
-/
namespace Verif.ZlibFiles
open Verif

theorem slicePath_inj {path : String} {i j : Nat} (h : slicePath path i = slicePath path j) : i = j := by
  unfold slicePath at h
  have h' := congrArg String.toList h
  simp only [String.toList_append, List.append_cancel_left_eq] at h'
  rw [Nat.toString_eq_repr, Nat.toString_eq_repr, Nat.repr_eq_ofList_toDigits, Nat.repr_eq_ofList_toDigits,
    String.toList_ofList, String.toList_ofList] at h'
  have := congrArg (fun l => Nat.ofDigitChars 10 l 0) h'
  simpa using this

theorem slicePath_ne {path : String} {i : Nat} : path ≠ slicePath path i := by
  intro h
  have h' := congrArg String.length h
  unfold slicePath at h'
  rw [String.length_append, String.length_append] at h'
  have : ".".length = 1 := rfl
  omega

/-- slice number `j` of the data -/
def chunk (max : Nat) (data : Bytes) (j : Nat) : Bytes := (data.drop (j * max)).take max

theorem chunk_eq (max : Nat) (data : Bytes) (j : Nat) :
    (data.take (min ((j + 1) * max) data.length)).drop (j * max) = chunk max data j := by
  unfold chunk
  rw [List.drop_take]
  rw [Nat.succ_mul]
  rcases Nat.le_total (j * max + max) data.length with h | h
  · rw [Nat.min_eq_left h, Nat.add_sub_cancel_left]
  · rw [Nat.min_eq_right h, List.take_of_length_le (by rw [List.length_drop]; exact Nat.le_refl _),
      List.take_of_length_le (by rw [List.length_drop]; omega)]

/-- the outcome of writing one file -/
theorem writeWhole_ok {compress : Bytes → Out Bytes} {data b : Bytes} (hc : compress data = .ok b) (fault : Fault)
    (path : String) (f : Files) :
    writeWhole compress fault data path f =
      match fault with
      | .none => (.ok (), f.set path b)
      | .open => (.throws .runtimeError, f)
      | .write k => (.throws .runtimeError, f.set path (b.take k))
      | .close k => (.ok (), f.set path (b.take k)) := by
  unfold writeWhole
  rw [hc, M.bind_lift_ok]
  unfold writeFile
  cases fault <;> rfl

theorem writeSlices_succ (compress : Bytes → Out Bytes) (fault : Nat → Fault) (max : Nat) (data : Bytes)
    (path : String) (fuel i : Nat) :
    writeSlices compress fault max data path (fuel + 1) i =
      if (i + 1) * max < data.length then
        (writeSlices compress fault max data path fuel (i + 1)).map fun rest =>
          writeWhole compress (fault i) (chunk max data i) (slicePath path i) >>= fun _ => rest
      else some (writeWhole compress (fault i) (chunk max data i) (slicePath path i)) := by
  rw [← chunk_eq]
  rfl

theorem writeSlices_spec {compress : Bytes → Out Bytes} {enc : Nat → Bytes} {max : Nat} {data : Bytes}
    {path : String} (hc : ∀ j, compress (chunk max data j) = .ok (enc j)) (n : Nat)
    (hn : data.length ≤ n * max) (hn' : ∀ j, j < n → j = 0 ∨ j * max < data.length) (fuel i : Nat)
    (hi : i < n) (hf : n - i ≤ fuel) :
    ∃ m, writeSlices compress (fun _ => .none) max data path fuel i = some m ∧ ∀ f : Files, ∃ f',
      m f = (.ok (), f') ∧ (∀ j, i ≤ j → j < n → f' (slicePath path j) = some (enc j)) ∧
      ∀ p, (∀ j, i ≤ j → j < n → p ≠ slicePath path j) → f' p = f p := by
  induction fuel generalizing i with
  | zero => omega
  | succ fuel ih =>
    rw [writeSlices_succ]
    by_cases hnext : (i + 1) * max < data.length
    · rw [if_pos hnext]
      have hin : i + 1 < n := by
        refine Nat.lt_of_mul_lt_mul_right (a := max) ?_
        omega
      obtain ⟨m, h1, h2⟩ := ih (i + 1) hin (by omega)
      rw [h1]
      refine ⟨writeWhole compress .none (chunk max data i) (slicePath path i) >>= fun _ => m, rfl, fun f => ?_⟩
      obtain ⟨f', h3, h4, h5⟩ := h2 (f.set (slicePath path i) (enc i))
      refine ⟨f', ?_, ?_, ?_⟩
      · rw [M.bind_apply, writeWhole_ok (hc i)]
        exact h3
      · intro j hj1 hj2
        rcases Nat.eq_or_lt_of_le hj1 with rfl | hj1
        · rw [h5 _ fun k hk1 hk2 h => by have := slicePath_inj h; omega]
          unfold Files.set
          rw [if_pos rfl]
        · exact h4 j hj1 hj2
      · intro p hp
        rw [h5 p fun j hj1 hj2 => hp j (by omega) hj2]
        unfold Files.set
        rw [if_neg (hp i (Nat.le_refl _) (by omega))]
    · rw [if_neg hnext]
      have hin : n = i + 1 := by
        rcases Nat.lt_or_ge (i + 1) n with h | h
        · rcases hn' (i + 1) h with h' | h'
          · omega
          · exact absurd h' hnext
        · omega
      refine ⟨_, rfl, fun f => ⟨_, writeWhole_ok (hc i) _ _ _, ?_, ?_⟩⟩
      · intro j hj1 hj2
        have : j = i := by omega
        subst this
        simp [Files.set]
      · intro p hp
        simp only [Files.set]
        rw [if_neg (hp i (Nat.le_refl _) (by omega))]

theorem loadSlices_spec {decompress : Bytes → Out Bytes} {readable : String → Bool} {f : Files} {path : String}
    {c : Nat → Bytes} (hr : ∀ p, readable p = true) (n : Nat) (hend : f (slicePath path n) = none) (fuel i : Nat)
    (hi : i < n) (hf : n - i ≤ fuel)
    (hc : ∀ j, i ≤ j → j < n → ∃ b, f (slicePath path j) = some b ∧ decompress b = .ok (c j)) :
    loadSlices decompress readable f path fuel i = some (.ok ((List.range' i (n - i)).flatMap c)) := by
  induction fuel generalizing i with
  | zero => omega
  | succ fuel ih =>
    rw [loadSlices]
    obtain ⟨b, hb, hd⟩ := hc i (Nat.le_refl _) hi
    have hl : loadWhole decompress readable f (slicePath path i) = .ok (c i) := by
      unfold loadWhole
      rw [hb]
      dsimp only
      rw [if_pos (hr _), hd]
    rw [hl]
    dsimp only
    have hr' : n - i = (n - i - 1) + 1 := by omega
    rcases Nat.lt_or_ge (i + 1) n with h | h
    · obtain ⟨b', hb', _⟩ := hc (i + 1) (by omega) h
      rw [hb', if_pos (by rfl), ih (i + 1) h (by omega) fun j hj1 hj2 => hc j (by omega) hj2]
      rw [hr', List.range'_succ, List.flatMap_cons, Nat.sub_sub]
      rfl
    · have : n = i + 1 := by omega
      subst this
      rw [hend, if_neg (by simp)]
      rw [Nat.add_sub_cancel_left]
      simp

theorem flatMap_chunk (max : Nat) (data : Bytes) (i k : Nat) :
    (List.range' i k).flatMap (chunk max data) = (data.drop (i * max)).take (k * max) := by
  induction k generalizing i with
  | zero => simp
  | succ k ih =>
    rw [List.range'_succ, List.flatMap_cons, ih]
    unfold chunk
    rw [Nat.succ_mul, Nat.succ_mul, Nat.add_comm (k * max) max, List.take_add, List.drop_drop]

/-- A buffer that fits into one file: whatever files existed before, saving and loading returns it, and no other
file changes. -/
theorem C52_small (compress decompress : Bytes → Out Bytes) (readable : String → Bool) (max : Nat) (data b : Bytes)
    (path : String) (f : Files) (fuel fuel' : Nat) (hs : data.length ≤ max) (hc : compress data = .ok b)
    (hd : decompress b = .ok data) (hr : ∀ p, readable p = true) :
    ∃ m f', save compress (fun _ => .none) max data path fuel = some m ∧ m f = (.ok (), f') ∧
      load decompress readable f' path fuel' = some (.ok data) ∧ ∀ p, p ≠ path → f' p = f p := by
  refine ⟨_, f.set path b, by unfold save; rw [if_neg (by omega)], writeWhole_ok hc _ _ _, ?_, ?_⟩
  · unfold load
    simp [Files.set, loadWhole, hr, hd]
  · intro p hp
    simp [Files.set, hp]

/-- A larger buffer is split into `n` slices, each of at most `max` bytes, written to `path.0`, ..., `path.(n-1)`;
no other file changes. Loading returns it if there was no file `path` and no slice file number `n`. In general, if
there was no file `path`, loading returns it followed by the contents of the slice files that already existed with
numbers `n`, `n + 1`, ... -/
theorem C52_large (compress decompress : Bytes → Out Bytes) (readable : String → Bool) (max : Nat) (data : Bytes)
    (path : String) (f : Files) (n n' fuel fuel' : Nat) (enc : Nat → Bytes) (stale : Nat → Bytes)
    (hl : max < data.length) (hn : data.length ≤ n * max) (hn1 : (n - 1) * max < data.length)
    (hc : ∀ j, compress ((data.drop (j * max)).take max) = .ok (enc j))
    (hd : ∀ j, j < n → decompress (enc j) = .ok ((data.drop (j * max)).take max))
    (hr : ∀ p, readable p = true) (hpath : f path = none) (hnn : n ≤ n')
    (hstale : ∀ j, n ≤ j → j < n' → ∃ b, f (slicePath path j) = some b ∧ decompress b = .ok (stale j))
    (hend : f (slicePath path n') = none) (hf : n ≤ fuel) (hf' : n' ≤ fuel') :
    ∃ m f', save compress (fun _ => .none) max data path fuel = some m ∧ m f = (.ok (), f') ∧
      (∀ j, j < n → f' (slicePath path j) = some (enc j)) ∧
      (∀ p, (∀ j, j < n → p ≠ slicePath path j) → f' p = f p) ∧
      load decompress readable f' path fuel' =
        some (.ok (data ++ (List.range' n (n' - n)).flatMap stale)) := by
  have hn0 : 0 < n := by
    rcases Nat.eq_zero_or_pos n with h | h
    · subst h; omega
    · exact h
  obtain ⟨m, h1, h2⟩ := writeSlices_spec (path := path) hc n hn
    (fun j hj => Or.inr (Nat.lt_of_le_of_lt (Nat.mul_le_mul_right _ (by omega)) hn1)) fuel 0 hn0 (by omega)
  obtain ⟨f', h3, h4, h5⟩ := h2 f
  refine ⟨m, f', by unfold save; rw [if_pos hl]; exact h1, h3, fun j hj => h4 j (Nat.zero_le _) hj,
    fun p hp => h5 p fun j _ hj => hp j hj, ?_⟩
  have hp' : f' path = none := by rw [h5 path fun j _ _ => slicePath_ne, hpath]
  have h0 : (f' (slicePath path 0)).isSome = true := by rw [h4 0 (Nat.le_refl _) hn0]; rfl
  have hold : ∀ j, n ≤ j → f' (slicePath path j) = f (slicePath path j) := by
    intro j hj
    exact h5 _ fun k _ hk h => by have := slicePath_inj h; omega
  unfold load
  rw [hp', if_neg (by simp), if_pos h0]
  rw [loadSlices_spec (c := fun j => if j < n then chunk max data j else stale j) hr n'
    (by rw [hold n' hnn]; exact hend) fuel' 0 (by omega) (by omega)]
  · congr 2
    have hsplit : List.range' 0 (n' - 0) = List.range' 0 n ++ List.range' n (n' - n) := by
      have := List.range'_append_1 (s := 0) (m := n) (n := n' - n)
      rw [Nat.zero_add] at this
      rw [this]
      congr 1
      omega
    rw [hsplit, List.flatMap_append]
    congr 1
    · have : (List.range' 0 n).flatMap (fun j => if j < n then chunk max data j else stale j) =
          (List.range' 0 n).flatMap (chunk max data) := by
        rw [List.flatMap_def, List.flatMap_def]
        congr 1
        apply List.map_congr_left
        intro j hj
        rw [List.mem_range'_1] at hj
        rw [if_pos (by omega)]
      rw [this, flatMap_chunk]
      simp [List.take_of_length_le hn]
    · rw [List.flatMap_def, List.flatMap_def]
      congr 1
      apply List.map_congr_left
      intro j hj
      rw [List.mem_range'_1] at hj
      rw [if_neg (by omega)]
  · intro j _ hj
    by_cases hjn : j < n
    · exact ⟨enc j, h4 j (Nat.zero_le _) hjn, by rw [if_pos hjn]; exact hd j hjn⟩
    · obtain ⟨b, hb1, hb2⟩ := hstale j (by omega) hj
      exact ⟨b, by rw [hold j (by omega)]; exact hb1, by rw [if_neg hjn]; exact hb2⟩

/-- A file `path` left from before hides the slices: loading returns its contents, not the data just saved. -/
theorem C52_stale_file_wrong (compress decompress : Bytes → Out Bytes) (readable : String → Bool) (max : Nat)
    (data old b : Bytes) (path : String) (f : Files) (n fuel fuel' : Nat) (enc : Nat → Bytes)
    (hl : max < data.length) (hn : data.length ≤ n * max) (hn1 : (n - 1) * max < data.length)
    (hc : ∀ j, compress ((data.drop (j * max)).take max) = .ok (enc j)) (hr : ∀ p, readable p = true)
    (hpath : f path = some b) (hold : decompress b = .ok old) (hf : n ≤ fuel) :
    ∃ m f', save compress (fun _ => .none) max data path fuel = some m ∧ m f = (.ok (), f') ∧
      load decompress readable f' path fuel' = some (.ok old) := by
  have hn0 : 0 < n := by
    rcases Nat.eq_zero_or_pos n with h | h
    · subst h; omega
    · exact h
  obtain ⟨m, h1, h2⟩ := writeSlices_spec (path := path) hc n hn
    (fun j hj => Or.inr (Nat.lt_of_le_of_lt (Nat.mul_le_mul_right _ (by omega)) hn1)) fuel 0 hn0 (by omega)
  obtain ⟨f', h3, h4, h5⟩ := h2 f
  refine ⟨m, f', by unfold save; rw [if_pos hl]; exact h1, h3, ?_⟩
  have hp' : f' path = some b := by rw [h5 path fun j _ _ => slicePath_ne, hpath]
  unfold load loadWhole
  rw [hp', if_pos (by rfl)]
  dsimp only
  rw [if_pos (hr _), hold]

/-- a fault that the code notices -/
def Fault.noticed : Fault → Bool
  | .open => true
  | .write _ => true
  | _ => false

theorem writeSlices_fault {compress : Bytes → Out Bytes} {enc : Nat → Bytes} {max : Nat} {data : Bytes}
    {path : String} {fault : Nat → Fault} (hc : ∀ j, compress (chunk max data j) = .ok (enc j)) (n : Nat)
    (hn' : ∀ j, 0 < j → j < n → j * max < data.length) (hn : data.length ≤ n * max) (fuel i : Nat)
    (hi : i < n) (hf : n - i ≤ fuel) :
    ∃ m, writeSlices compress fault max data path fuel i = some m ∧ ∀ f : Files,
      ((∃ j, i ≤ j ∧ j < n ∧ (fault j).noticed = true) → (m f).1 = .throws .runtimeError) ∧
      ((∀ j, i ≤ j → j < n → (fault j).noticed = false) → (m f).1 = .ok ()) := by
  induction fuel generalizing i with
  | zero => omega
  | succ fuel ih =>
    rw [writeSlices_succ]
    by_cases hnext : (i + 1) * max < data.length
    · rw [if_pos hnext]
      have hin : i + 1 < n := by
        refine Nat.lt_of_mul_lt_mul_right (a := max) ?_
        omega
      obtain ⟨m, h1, h2⟩ := ih (i + 1) hin (by omega)
      rw [h1]
      refine ⟨writeWhole compress (fault i) (chunk max data i) (slicePath path i) >>= fun _ => m, rfl, fun f => ?_⟩
      rw [M.bind_apply, writeWhole_ok (hc i)]
      cases hfi : fault i with
      | «open» =>
        exact ⟨fun _ => rfl, fun h => by have := h i (Nat.le_refl _) hi; rw [hfi] at this; cases this⟩
      | write k =>
        exact ⟨fun _ => rfl, fun h => by have := h i (Nat.le_refl _) hi; rw [hfi] at this; cases this⟩
      | none =>
        constructor
        · rintro ⟨j, hj1, hj2, hj3⟩
          refine (h2 _).1 ⟨j, ?_, hj2, hj3⟩
          rcases Nat.eq_or_lt_of_le hj1 with rfl | h
          · rw [hfi] at hj3; cases hj3
          · exact h
        · intro h; exact (h2 _).2 fun j hj1 hj2 => h j (by omega) hj2
      | close k =>
        constructor
        · rintro ⟨j, hj1, hj2, hj3⟩
          refine (h2 _).1 ⟨j, ?_, hj2, hj3⟩
          rcases Nat.eq_or_lt_of_le hj1 with rfl | h
          · rw [hfi] at hj3; cases hj3
          · exact h
        · intro h; exact (h2 _).2 fun j hj1 hj2 => h j (by omega) hj2
    · rw [if_neg hnext]
      have hin : n = i + 1 := by
        rcases Nat.lt_or_ge (i + 1) n with h | h
        · exact absurd (hn' (i + 1) (by omega) h) hnext
        · omega
      refine ⟨_, rfl, fun f => ?_⟩
      rw [writeWhole_ok (hc i)]
      have hall : (∀ j, i ≤ j → j < n → (fault j).noticed = false) ↔ (fault i).noticed = false := by
        constructor
        · intro h; exact h i (Nat.le_refl _) hi
        · intro h j hj1 hj2
          have : j = i := by omega
          rw [this]; exact h
      have hex : (∃ j, i ≤ j ∧ j < n ∧ (fault j).noticed = true) ↔ (fault i).noticed = true := by
        constructor
        · rintro ⟨j, hj1, hj2, hj3⟩
          have : j = i := by omega
          rw [← this]; exact hj3
        · intro h; exact ⟨i, Nat.le_refl _, hi, h⟩
      rw [hall, hex]
      cases hfi : fault i <;> simp [Fault.noticed]

/-- Saving throws a runtime error exactly when some file could not be opened or some write failed. -/
theorem C52_faults (compress : Bytes → Out Bytes) (fault : Nat → Fault) (max : Nat) (data : Bytes)
    (path : String) (f : Files) (n fuel : Nat) (enc : Nat → Bytes) (hn0 : 0 < n)
    (hn : data.length ≤ n * max) (hn1 : ∀ j, 0 < j → j < n → j * max < data.length)
    (hc : ∀ j, compress ((data.drop (j * max)).take max) = .ok (enc j)) (hf : n ≤ fuel) :
    ∃ m, save compress fault max data path fuel = some m ∧
      ((∃ j, j < n ∧ (fault j).noticed = true) → (m f).1 = .throws .runtimeError) ∧
      ((∀ j, j < n → (fault j).noticed = false) → (m f).1 = .ok ()) := by
  unfold save
  by_cases hl : max < data.length
  · rw [if_pos hl]
    obtain ⟨m, h1, h2⟩ := writeSlices_fault (path := path) (fault := fault) hc n hn1 hn fuel 0 hn0 (by omega)
    refine ⟨m, h1, fun h => (h2 f).1 ?_, fun h => (h2 f).2 fun j _ hj => h j hj⟩
    obtain ⟨j, hj1, hj2⟩ := h
    exact ⟨j, Nat.zero_le _, hj1, hj2⟩
  · rw [if_neg hl]
    have hn2 : n = 1 := by
      rcases Nat.lt_or_ge 1 n with h | h
      · have := hn1 1 (by omega) h; omega
      · omega
    subst hn2
    have h0 := hc 0
    rw [Nat.zero_mul, List.drop_zero, List.take_of_length_le (by omega)] at h0
    refine ⟨_, rfl, ?_, ?_⟩
    · rintro ⟨j, hj1, hj2⟩
      have : j = 0 := by omega
      subst this
      rw [writeWhole_ok h0]
      cases hf0 : fault 0 <;> rw [hf0] at hj2 <;> first | rfl | cases hj2
    · intro h
      have := h 0 (by omega)
      rw [writeWhole_ok h0]
      cases hf0 : fault 0 <;> rw [hf0] at this <;> first | rfl | cases this

/-- When only closing the file fails (the last flush), saving reports success although bytes are missing. -/
theorem C52_close_failure_unnoticed (compress : Bytes → Out Bytes) (max : Nat) (data b : Bytes) (path : String)
    (f : Files) (fuel stored : Nat) (hs : data.length ≤ max) (hc : compress data = .ok b) :
    ∃ m, save compress (fun _ => .close stored) max data path fuel = some m ∧
      m f = (.ok (), f.set path (b.take stored)) := by
  refine ⟨_, by unfold save; rw [if_neg (by omega)], ?_⟩
  rw [writeWhole_ok hc]

/-- Loading when neither the file nor slice 0 exists throws a runtime error; an unreadable file does too. -/
theorem C52_load_errors (decompress : Bytes → Out Bytes) (readable : String → Bool) (path : String) (f : Files)
    (fuel : Nat) :
    (f path = none → f (slicePath path 0) = none →
      load decompress readable f path fuel = some (.throws .runtimeError)) ∧
    (f path ≠ none → readable path = false →
      load decompress readable f path fuel = some (.throws .runtimeError)) := by
  constructor
  · intro h1 h2
    unfold load
    rw [h1, h2]
    rfl
  · intro h1 h2
    unfold load loadWhole
    cases hp : f path with
    | none => exact absurd hp h1
    | some b => simp [h2]

/-- "compression" by reversal, for the examples -/
def flip (b : Bytes) : Out Bytes := .ok b.reverse

/-- the files after a run -/
def after (m : Option (M Files Unit)) (f : Files) : Files :=
  match m with
  | some m => (m f).2
  | none => f

/-- the hypotheses of `C52_large` with a stale slice: 5 bytes in slices of 2, and an old slice number 3 -/
example : load flip (fun _ => true)
      (after (save flip (fun _ => .none) 2 [1, 2, 3, 4, 5] "p" 9) (fun _ => none)) "p" 9 =
      some (.ok [1, 2, 3, 4, 5]) ∧
    load flip (fun _ => true)
      (after (save flip (fun _ => .none) 2 [1, 2, 3, 4, 5] "p" 9) (fun q => if q = "p.3" then some [7, 6] else none))
      "p" 9 = some (.ok [1, 2, 3, 4, 5, 6, 7]) ∧
    load flip (fun _ => true)
      (after (save flip (fun _ => .none) 2 [1, 2, 3, 4, 5] "p" 9) (fun q => if q = "p" then some [7, 6] else none))
      "p" 9 = some (.ok [6, 7]) := by
  decide +kernel

end Verif.ZlibFiles
