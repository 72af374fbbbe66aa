import Verif.Model.ResampleRounded
import Verif.Spec.ResampleRounded
import Verif.Props.Resample
import Verif.Props.VoxelRoundedSizes

/-!
# Property C174 (path_utils.hpp): resampling of paths with rounding
-/
namespace Verif.ResampleRounded
open Verif Verif.PathUtils
open Verif.VoxelRounded (nearest_of whole_near)

variable {C : Type} (R : Rounding)

/-! ## The same steps as with exact arithmetic, for other distances and ratios -/

theorem pieceLoop_eq (interp : C → C → ℝ → C) (a b : C) (n : Nat) :
    ∀ (fuel segment : Nat) (acc : List C), pieceLoop R interp a b n fuel segment acc =
      PathUtils.pieceLoop (fun a b t => interp a b (R.rd t)) a b n fuel segment acc := by
  intro fuel
  induction fuel with
  | zero => intro segment acc; rfl
  | succ fuel ih =>
    intro segment acc
    rw [pieceLoop, PathUtils.pieceLoop, ih]

theorem resampleLoop_eq (dist : C → C → ℝ) (interp : C → C → ℝ → C) (r : ℝ) (path : List C) (fuel : Nat) (hr : r ≠ 0) :
    ∀ (left idx : Nat) (acc : List C), resampleLoop R dist interp r path fuel left idx acc =
      PathUtils.resampleLoop (fun a b => R.rd (dist a b / r) * r) (fun a b t => interp a b (R.rd t)) r path fuel
        left idx acc := by
  intro left
  induction left with
  | zero => intro idx acc; rfl
  | succ left ih =>
    intro idx acc
    rw [resampleLoop, PathUtils.resampleLoop]
    cases path[idx]? with
    | none => rfl
    | some a =>
      cases path[idx + 1]? with
      | none => rfl
      | some b =>
        dsimp only
        rw [mul_div_cancel_right₀ _ hr, ih, ih, pieceLoop_eq]
        split
        · rfl
        · split
          · rfl
          · split
            · rfl
            · cases PathUtils.pieceLoop (fun a b t => interp a b (R.rd t)) a b _ fuel 1 acc with
              | none => rfl
              | some acc => exact ih _ _

theorem partial_eq (path : List C) (start stop : Nat) (r : ℝ) (dist : C → C → ℝ) (interp : C → C → ℝ → C)
    (fuel : Nat) (hr : r ≠ 0) :
    resamplePathPartial R path start stop r dist interp fuel =
      PathUtils.resamplePathPartial path start stop r (fun a b => R.rd (dist a b / r) * r)
        (fun a b t => interp a b (R.rd t)) fuel := by
  unfold resamplePathPartial PathUtils.resamplePathPartial
  simp only [resampleLoop_eq R dist interp r path fuel hr]
  cases path[start]? <;> rfl

/-! ## Ratios and pieces -/

theorem ratios (n : Nat) (h : n < 2 ^ 32) :
    Ratios n ((List.range n).map fun k => R.rd (((k + 1 : Nat) : ℝ) / (n : ℝ))) := by
  have hu : unit = 1 / 2 ^ 53 := rfl
  refine ⟨by simp, ?_, ?_, ?_, ?_⟩
  · rw [List.pairwise_map]
    refine (List.pairwise_lt_range (n := n)).imp_of_mem ?_
    intro i j hi hj hij
    have hj' : j < n := List.mem_range.1 hj
    have hn : (0 : ℝ) < n := by exact_mod_cast (by omega : 0 < n)
    have up := R.upper (x := ((i + 1 : Nat) : ℝ) / n) (by positivity)
    have lo := R.lower (x := ((j + 1 : Nat) : ℝ) / n) (by positivity)
    refine lt_of_le_of_lt up (lt_of_lt_of_le ?_ lo)
    rw [div_mul_eq_mul_div, div_mul_eq_mul_div]
    apply div_lt_div_of_pos_right _ hn
    have h1 : ((i + 1 : Nat) : ℝ) + 1 ≤ ((j + 1 : Nat) : ℝ) := by exact_mod_cast (by omega : i + 1 + 1 ≤ j + 1)
    have h2 : ((j + 1 : Nat) : ℝ) ≤ 2 ^ 32 := by exact_mod_cast (by omega : j + 1 ≤ 2 ^ 32)
    rw [hu]
    linarith
  · intro t ht
    obtain ⟨k, hk, rfl⟩ := List.mem_map.1 ht
    have hk' := List.mem_range.1 hk
    have hn : (0 : ℝ) < n := by exact_mod_cast (by omega : 0 < n)
    have hp : (0 : ℝ) < ((k + 1 : Nat) : ℝ) / n := by positivity
    exact lt_of_le_of_ne (R.nonneg hp.le) (fun h => hp.ne' (R.eq_zero.1 h.symm))
  · intro hn
    obtain ⟨m, rfl⟩ := Nat.exists_eq_succ_of_ne_zero hn
    rw [Nat.succ_eq_add_one, List.range_succ, List.map_append, List.map_singleton, List.getLast?_concat,
      div_self (by positivity)]
    exact congrArg some R.fp_one
  · intro k t ht
    rw [List.getElem?_map] at ht
    obtain ⟨i, hi, rfl⟩ := Option.map_eq_some_iff.1 ht
    obtain ⟨_, hi'⟩ := List.getElem?_eq_some_iff.1 hi
    rw [List.getElem_range] at hi'
    subst hi'
    have := R.err (((k + 1 : Nat) : ℝ) / n)
    rwa [abs_of_nonneg (by positivity : (0 : ℝ) ≤ ((k + 1 : Nat) : ℝ) / n)] at this

theorem pieces {d r : ℝ} (hd : 0 ≤ d) (hr : 0 < r) (hb : d ≤ (2 ^ 32 - 2) * r) {n : Nat}
    (h : LeastPieces (R.rd (d / r) * r) r n) : Pieces d r n ∧ n < 2 ^ 32 - 1 := by
  have hx : 0 ≤ d / r := div_nonneg hd hr.le
  have hx32 : d / r ≤ 2 ^ 32 - 2 := by rw [div_le_iff₀ hr]; exact hb
  have hc0 : 0 ≤ ⌈d / r⌉ := Int.ceil_nonneg hx
  have hc1 : ⌈d / r⌉ ≤ 2 ^ 32 - 2 := by rw [Int.ceil_le]; push_cast; linarith
  obtain ⟨h1, h2⟩ := h
  have hn : R.rd (d / r) ≤ n := le_of_mul_le_mul_right h1 hr
  have up : R.rd (d / r) ≤ (⌈d / r⌉ : ℝ) := by
    have := R.mono (Int.le_ceil (d / r))
    rwa [R.int _ (by rw [abs_le]; constructor <;> omega)] at this
  have down : ((⌈d / r⌉ - 1 : ℤ) : ℝ) ≤ R.rd (d / r) := by
    have h3 : ((⌈d / r⌉ - 1 : ℤ) : ℝ) ≤ d / r := by
      have := Int.ceil_lt_add_one (d / r)
      push_cast; linarith
    have := R.mono h3
    rwa [R.int _ (by rw [abs_le]; constructor <;> omega)] at this
  obtain ⟨m, hm⟩ := Int.eq_ofNat_of_zero_le hc0
  have hle : n ≤ m := by
    refine h2 m ?_
    rw [hm] at up
    exact mul_le_mul_of_nonneg_right (by exact_mod_cast up) hr.le
  have hge : m ≤ n + 1 := by
    have h3 := le_trans down hn
    rw [hm] at h3
    have : ((m : ℤ) - 1 : ℤ) ≤ (n : ℤ) := by exact_mod_cast h3
    omega
  have hleast := ceil_pieces hr hd
  rw [hm, show (((m : Nat) : ℤ)).toNat = m by simp] at hleast
  refine ⟨⟨?_, ⟨m, hleast, by omega⟩, ?_⟩, by omega⟩
  · constructor
    · rintro rfl
      have h3 : R.rd (d / r) = 0 := le_antisymm (by simpa using hn) (R.nonneg hx)
      have h4 := R.eq_zero.1 h3
      rcases div_eq_zero_iff.1 h4 with h5 | h5
      · exact h5
      · exact absurd h5 hr.ne'
    · rintro rfl
      have := h2 0 (by simp [R.zero])
      omega
  · have h3 := R.lower hx
    have h4 := mul_le_mul_of_nonneg_right (le_trans h3 hn) hr.le
    have h5 : d / r * (1 - unit) * r = d * (1 - unit) := by field_simp
    linarith

theorem resampled_of {dist : C → C → ℝ} {interp : C → C → ℝ → C} {r : ℝ} (hr : 0 < r) {path out : List C}
    (h0 : ∀ a b, Consecutive path a b → 0 ≤ dist a b ∧ dist a b ≤ (2 ^ 32 - 2) * r)
    (h : PathUtils.Resampled (fun a b => R.rd (dist a b / r) * r) (fun a b t => interp a b (R.rd t)) r path out) :
    Resampled dist interp r path out := by
  induction h with
  | single a => exact .single a
  | step a b rest out n hp h ih =>
    obtain ⟨d0, d1⟩ := h0 a b ⟨0, rfl, rfl⟩
    obtain ⟨hP, hn⟩ := pieces R d0 hr d1 hp
    have e : steps (fun a b t => interp a b (R.rd t)) a b n =
        ((List.range n).map fun k => R.rd (((k + 1 : Nat) : ℝ) / (n : ℝ))).map (interp a b) := by
      unfold steps
      rw [List.map_map]
      rfl
    rw [e]
    refine .step a b rest out n _ hP (ratios R n (by omega)) (ih ?_)
    rintro x y ⟨i, hx, hy⟩
    exact h0 x y ⟨i + 1, hx, hy⟩

/-- **C174.** Resampling a part of a path cuts each of its segments into the least number of pieces or one fewer, at
growing ratios of which the last is exactly one. -/
theorem C174_resample (path : List C) (start stop : Nat) (r : ℝ) (dist : C → C → ℝ) (interp : C → C → ℝ → C)
    (fuel : Nat) (h1 : start < stop) (h2 : stop ≤ path.length) (hr : 0 < r) (hi : ∀ a b, interp a b 1 = b)
    (h0 : ∀ a b, Consecutive path a b → 0 ≤ dist a b ∧ dist a b ≤ (2 ^ 32 - 2) * r) (hfuel : 2 ^ 32 ≤ fuel) :
    ∃ out, resamplePathPartial R path start stop r dist interp fuel = some (.ok out) ∧
      Resampled dist interp r ((path.drop start).take (stop - start)) out := by
  have hb : ∀ a b, Consecutive path a b →
      0 ≤ R.rd (dist a b / r) * r ∧ R.rd (dist a b / r) * r ≤ (2 ^ 32 - 2) * r := by
    intro a b hc
    obtain ⟨d0, d1⟩ := h0 a b hc
    refine ⟨mul_nonneg (R.nonneg (div_nonneg d0 hr.le)) hr.le, ?_⟩
    apply mul_le_mul_of_nonneg_right _ hr.le
    have h3 : dist a b / r ≤ ((2 ^ 32 - 2 : ℤ) : ℝ) := by
      rw [div_le_iff₀ hr]; push_cast; linarith
    have := R.mono h3
    rw [R.int _ (by norm_num)] at this
    push_cast at this
    linarith
  have hi1 : ∀ a b, interp a b (R.rd 1) = b := fun a b => by rw [show R.rd 1 = 1 from R.fp_one, hi]
  obtain ⟨out, g1, g2⟩ := C50_resample path start stop r (fun a b => R.rd (dist a b / r) * r)
    (fun a b t => interp a b (R.rd t)) fuel h1 h2 hr hi1 hb hfuel
  refine ⟨out, by rw [partial_eq R path start stop r dist interp fuel hr.ne', g1], resampled_of R hr ?_ g2⟩
  rintro a b ⟨i, hx, hy⟩
  refine h0 a b ⟨start + i, ?_, ?_⟩
  · rw [List.getElem?_take] at hx
    split at hx
    · rwa [List.getElem?_drop] at hx
    · cases hx
  · rw [List.getElem?_take] at hy
    split at hy
    · rwa [List.getElem?_drop] at hy
    · cases hy

/-- **C174.** `ResamplePath` does so for the whole path, and refuses the empty one. -/
theorem C174_whole (path : List C) (r : ℝ) (dist : C → C → ℝ) (interp : C → C → ℝ → C) (fuel : Nat) :
    (path ≠ [] → 0 < r → (∀ a b, interp a b 1 = b) →
      (∀ a b, Consecutive path a b → 0 ≤ dist a b ∧ dist a b ≤ (2 ^ 32 - 2) * r) → 2 ^ 32 ≤ fuel →
      ∃ out, resamplePath R path r dist interp fuel = some (.ok out) ∧ Resampled dist interp r path out) ∧
    resamplePath R ([] : List C) r dist interp fuel = some (.throws .invalidArgument) := by
  refine ⟨?_, rfl⟩
  intro h1 hr hi h0 hfuel
  obtain ⟨out, g1, g2⟩ := C174_resample R path 0 path.length r dist interp fuel (List.length_pos_iff.2 h1)
    (le_refl _) hr hi h0 hfuel
  refine ⟨out, g1, ?_⟩
  simpa using g2

/-- **C174.** Index ranges that are empty or end behind the path are refused. -/
theorem C174_refused (path : List C) (start stop : Nat) (r : ℝ) (dist : C → C → ℝ) (interp : C → C → ℝ → C)
    (fuel : Nat) (h : stop ≤ start ∨ path.length < stop) :
    resamplePathPartial R path start stop r dist interp fuel = some (.throws .invalidArgument) := if_pos h

/-- **C174.** The result starts with the first state and contains, in order and exactly, every state at positive
distance from its predecessor. If only equal states are at distance zero it contains all states and ends as the path
does. -/
theorem C174_keeps (path out : List C) (r : ℝ) (dist : C → C → ℝ) (interp : C → C → ℝ → C)
    (hi : ∀ a b, interp a b 1 = b) (h : Resampled dist interp r path out) :
    out.head? = path.head? ∧ (path.take 1 ++ moved dist path).Sublist out ∧
    ((∀ a b, dist a b = 0 → a = b) → (∀ x ∈ path, x ∈ out) ∧ out.getLast? = path.getLast?) := by
  have last : ∀ (a b : C) (n : Nat) (ts : List ℝ), Ratios n ts → n ≠ 0 →
      ∃ front, ts.map (interp a b) = front ++ [b] := by
    intro a b n ts ht hn
    have h1 := ht.last hn
    obtain ⟨front, rfl⟩ := List.getLast?_eq_some_iff.1 h1
    exact ⟨front.map (interp a b), by rw [List.map_append, List.map_singleton, hi]⟩
  refine ⟨by cases h <;> rfl, ?_, ?_⟩
  · induction h with
    | single a => simp [moved]
    | step a b rest out n ts hp ht h ih =>
      rw [List.take_succ_cons, List.take_zero, List.singleton_append] at ih ⊢
      refine List.Sublist.cons_cons a ?_
      rw [moved]
      have ih' := List.cons_sublist_cons.1 ih
      by_cases hd : dist a b = 0
      · rw [if_pos hd]
        exact ih'.trans (List.sublist_append_right _ _)
      · rw [if_neg hd]
        obtain ⟨front, e⟩ := last a b n ts ht (by rwa [ne_eq, hp.zero])
        rw [e, List.append_assoc]
        exact (List.Sublist.cons_cons b ih').trans (List.sublist_append_right _ _)
  · intro he
    induction h with
    | single a => simp
    | step a b rest out n ts hp ht h ih =>
      obtain ⟨ih1, ih2⟩ := ih
      by_cases hn : n = 0
      · have hab := he a b (hp.zero.1 hn)
        subst hab
        have : ts = [] := List.length_eq_zero_iff.1 (by rw [ht.length, hn])
        subst this
        rw [List.map_nil, List.nil_append]
        refine ⟨?_, ?_⟩
        · intro x hx
          rcases List.mem_cons.1 hx with rfl | hx
          · exact List.mem_cons_self
          · exact ih1 x hx
        · rw [ih2, List.getLast?_cons_cons]
      · obtain ⟨front, e⟩ := last a b n ts ht hn
        rw [e]
        have sh : a :: (front ++ [b] ++ out) = (a :: front) ++ (b :: out) := by simp
        rw [sh]
        refine ⟨?_, ?_⟩
        · intro x hx
          rcases List.mem_cons.1 hx with rfl | hx
          · simp
          · exact List.mem_append_right _ (ih1 x hx)
        · rw [List.getLast?_append, ih2, List.getLast?_cons_cons]
          cases h' : (b :: rest).getLast? with
          | none => simp at h'
          | some z => rfl

/-- **C174.** If distances along an interpolated segment grow with the ratio, and states at distance zero are equal,
the states of a resampled path are at most the resampling distance apart, but for rounding: `D` is a bound on the
lengths of the segments. -/
theorem C174_spacing (path out : List C) (r D : ℝ) (dist : C → C → ℝ) (interp : C → C → ℝ → C)
    (hi0 : ∀ a b, interp a b 0 = a) (hi : ∀ a b, interp a b 1 = b) (he : ∀ a b, dist a b = 0 → a = b)
    (hg : ∀ a b s t, 0 ≤ s → s ≤ t → t ≤ 1 → dist (interp a b s) (interp a b t) = (t - s) * dist a b)
    (hD : ∀ a b, Consecutive path a b → 0 ≤ dist a b ∧ dist a b ≤ D)
    (h : Resampled dist interp r path out) :
    ∀ x y, Consecutive out x y → dist x y ≤ r * (1 + 2 * unit) + 2 * unit * D := by
  have hu : unit = 1 / 2 ^ 53 := rfl
  induction h with
  | single a =>
    rintro x y ⟨i, -, h2⟩
    simp at h2
  | step a b rest out n ts hp ht h ih =>
    have ih := ih (fun x y ⟨i, hx, hy⟩ => hD x y ⟨i + 1, hx, hy⟩)
    rintro x y ⟨i, h1, h2⟩
    by_cases hn : n = 0
    · have := he a b (hp.zero.1 hn)
      subst this
      have : ts = [] := List.length_eq_zero_iff.1 (by rw [ht.length, hn])
      subst this
      exact ih x y ⟨i, h1, h2⟩
    · obtain ⟨d0, d1⟩ := hD a b ⟨0, rfl, rfl⟩
      have hnp : (0 : ℝ) < n := by exact_mod_cast Nat.pos_of_ne_zero hn
      have hsl : (ts.map (interp a b)).length = n := by rw [List.length_map, ht.length]
      -- the ratios with a zero before them
      have hlen : (0 :: ts).length = n + 1 := by rw [List.length_cons, ht.length]
      have get : ∀ k t, k ≤ n → (0 :: ts)[k]? = some t →
          (a :: (ts.map (interp a b) ++ out))[k]? = some (interp a b t) := by
        intro k t hk hkt
        cases k with
        | zero =>
          rw [List.getElem?_cons_zero] at hkt
          injection hkt with hkt
          subst hkt
          simp [hi0]
        | succ k =>
          rw [List.getElem?_cons_succ] at hkt
          rw [List.getElem?_cons_succ, List.getElem?_append_left (by omega), List.getElem?_map, hkt]
          rfl
      have near : ∀ (k : Nat) (t : ℝ), (0 :: ts)[k]? = some t → |t - (k : ℝ) / n| ≤ unit * ((k : ℝ) / n) := by
        intro k t hk
        cases k with
        | zero =>
          rw [List.getElem?_cons_zero] at hk
          injection hk with hk
          subst hk
          simp
        | succ k =>
          rw [List.getElem?_cons_succ] at hk
          exact ht.near k t hk
      have grow : (0 :: ts).Pairwise (· < ·) := List.pairwise_cons.2 ⟨ht.pos, ht.grow⟩
      have lastR : (0 :: ts)[n]? = some 1 := by
        obtain ⟨m, rfl⟩ := Nat.exists_eq_succ_of_ne_zero hn
        rw [List.getElem?_cons_succ]
        have := ht.last hn
        rwa [List.getLast?_eq_getElem?, ht.length] at this
      by_cases hk : i + 1 ≤ n
      · obtain ⟨s, hs⟩ : ∃ s, (0 :: ts)[i]? = some s := ⟨_, List.getElem?_eq_getElem (by omega)⟩
        obtain ⟨t, ht'⟩ : ∃ t, (0 :: ts)[i + 1]? = some t := ⟨_, List.getElem?_eq_getElem (by omega)⟩
        rw [get i s (by omega) hs] at h1
        rw [get (i + 1) t hk ht'] at h2
        injection h1 with h1
        injection h2 with h2
        have mono : ∀ (k l : Nat) (x y : ℝ), k < l → (0 :: ts)[k]? = some x → (0 :: ts)[l]? = some y → x < y := by
          intro k l x y hkl hx hy
          obtain ⟨hk1, rfl⟩ := List.getElem?_eq_some_iff.1 hx
          obtain ⟨hl1, rfl⟩ := List.getElem?_eq_some_iff.1 hy
          exact List.pairwise_iff_getElem.1 grow k l hk1 hl1 hkl
        have s0 : 0 ≤ s := by
          rcases Nat.eq_zero_or_pos i with rfl | hi'
          · rw [List.getElem?_cons_zero] at hs
            injection hs with hs
            exact hs.le
          · exact (mono 0 i 0 s hi' rfl hs).le
        have st : s ≤ t := (mono i (i + 1) s t (by omega) hs ht').le
        have t1 : t ≤ 1 := by
          rcases Nat.eq_or_lt_of_le hk with c | c
          · rw [c, lastR] at ht'
            injection ht' with ht'
            exact ht'.ge
          · exact (mono (i + 1) n t 1 c ht' lastR).le
        rw [← h1, ← h2, hg a b s t s0 st t1]
        have n1 := abs_le.1 (near i s hs)
        have n2 := abs_le.1 (near (i + 1) t ht')
        have q1 : ((i + 1 : Nat) : ℝ) / n ≤ 1 := by rw [div_le_one hnp]; exact_mod_cast hk
        have q2 : ((i + 1 : Nat) : ℝ) / n = (i : ℝ) / n + 1 / n := by push_cast; ring
        have q0 : (0 : ℝ) < 1 / n := by positivity
        have hup := Rounding.unit_pos
        have gap : t - s ≤ 1 / n + 2 * unit := by
          have a1 := n2.2
          have a2 := n1.1
          have a3 : unit * (((i + 1 : Nat) : ℝ) / n) ≤ unit * 1 := mul_le_mul_of_nonneg_left q1 hup.le
          have a4 : unit * ((i : ℝ) / n) ≤ unit * 1 := mul_le_mul_of_nonneg_left (by linarith) hup.le
          linarith
        have g1 : (t - s) * dist a b ≤ (1 / n + 2 * unit) * dist a b := mul_le_mul_of_nonneg_right gap d0
        have g2 : 1 / n * dist a b ≤ r * (1 + 2 * unit) := by
          have l := hp.long
          rw [one_div_mul_eq_div, div_le_iff₀ hnp]
          have l2 := mul_le_mul_of_nonneg_right l (show 0 ≤ 1 + 2 * unit by linarith)
          have l3 : dist a b ≤ dist a b * (1 - unit) * (1 + 2 * unit) := by
            rw [hu]; nlinarith
          linarith
        have g3 : 2 * unit * dist a b ≤ 2 * unit * D := mul_le_mul_of_nonneg_left d1 (by linarith)
        linarith
      · refine ih x y ⟨i - n, ?_, ?_⟩
        · rcases Nat.eq_or_lt_of_le (by omega : n ≤ i) with c | c
          · subst c
            rw [get n 1 (le_refl _) lastR, hi] at h1
            simpa using h1
          · rw [← h1, show i = (i - n - 1) + n + 1 by omega, List.getElem?_cons_succ,
              List.getElem?_append_right (by omega), hsl, show i - n - 1 + n + 1 - n = i - n - 1 + 1 by omega,
              List.getElem?_cons_succ]
            congr 1
            omega
        · rw [← h2, List.getElem?_cons_succ, List.getElem?_cons_succ, List.getElem?_append_right (by omega), hsl]

/-- Interpolation on a line. -/
noncomputable def line (a b t : ℝ) : ℝ := a + t * (b - a)

/-- **C174.** With rounding to nearest, the pieces can be longer than the resampling distance: here a segment is cut
into three pieces, and already the first two states of the result are too far apart. -/
theorem C174_too_long : ∃ d r : ℝ, Nearest.nearest.Fp d ∧ Nearest.nearest.Fp r ∧ 0 < r ∧
    ∃ x y z, resamplePath Nearest.nearest [0, d] r (fun a b => |b - a|) line 9 = some (.ok [x, y, z, d]) ∧
      r < |y - x| := by
  have hz : (2 : ℝ) ^ (-51 : ℤ) = 1 / 2 ^ 51 := by rw [zpow_neg, one_div]; norm_cast
  have hz2 : (2 : ℝ) ^ (-52 : ℤ) = 1 / 2 ^ 52 := by rw [zpow_neg, one_div]; norm_cast
  have hz4 : (2 : ℝ) ^ (-54 : ℤ) = 1 / 2 ^ 54 := by rw [zpow_neg, one_div]; norm_cast
  have e3 : Nearest.nearest.rd (6755399441055746 / 2 ^ 51 / (4503599627370497 / 2 ^ 52)) = 3 := by
    show Nearest.rd _ = _
    rw [nearest_of _ (-51) (by rw [hz]; norm_num) (by rw [hz]; norm_num), hz,
      whole_near _ 6755399441055744 (by rw [abs_lt]; constructor <;> norm_num)]
    norm_num
  have third : Nearest.nearest.rd (1 / 3) = 6004799503160661 / 2 ^ 54 := by
    show Nearest.rd _ = _
    rw [nearest_of _ (-54) (by rw [hz4]; norm_num) (by rw [hz4]; norm_num), hz4,
      whole_near _ 6004799503160661 (by rw [abs_lt]; constructor <;> norm_num)]
    norm_num
  refine ⟨6755399441055746 / 2 ^ 51, 4503599627370497 / 2 ^ 52, ?_, ?_, by norm_num, 0,
    line 0 (6755399441055746 / 2 ^ 51) (Nearest.nearest.rd (1 / 3)),
    line 0 (6755399441055746 / 2 ^ 51) (Nearest.nearest.rd (2 / 3)), ?_, ?_⟩
  · show Nearest.rd _ = _
    rw [nearest_of _ (-51) (by rw [hz]; norm_num) (by rw [hz]; norm_num), hz,
      whole_near _ 6755399441055746 (by rw [abs_lt]; constructor <;> norm_num)]
    norm_num
  · show Nearest.rd _ = _
    rw [nearest_of _ (-52) (by rw [hz2]; norm_num) (by rw [hz2]; norm_num), hz2,
      whole_near _ 4503599627370497 (by rw [abs_lt]; constructor <;> norm_num)]
    norm_num
  · have hd : |(6755399441055746 / 2 ^ 51 : ℝ) - 0| = 6755399441055746 / 2 ^ 51 := by
      rw [sub_zero, abs_of_pos (by norm_num)]
    have hc : ⌈(3 : ℝ)⌉ = 3 := by rw [Int.ceil_eq_iff]; norm_num
    have h1 : line 0 (6755399441055746 / 2 ^ 51) (Nearest.nearest.rd 1) = 6755399441055746 / 2 ^ 51 := by
      rw [show Nearest.nearest.rd 1 = 1 from Nearest.nearest.fp_one]; unfold line; ring
    unfold resamplePath resamplePathPartial
    rw [if_neg (by simp)]
    dsimp only [List.getElem?_cons_zero, List.length_cons, List.length_nil]
    rw [if_neg (by norm_num), show 0 + 1 + 1 - 1 - 0 = 0 + 1 from rfl, resampleLoop]
    dsimp only [List.getElem?_cons_zero, List.getElem?_cons_succ]
    rw [hd, e3, hc, if_neg (by norm_num), if_neg (by decide), if_neg (by decide)]
    have hp : pieceLoop Nearest.nearest line 0 (6755399441055746 / 2 ^ 51) (Int.toNat 3) 9 1 [0] =
        some [0, line 0 (6755399441055746 / 2 ^ 51) (Nearest.nearest.rd (1 / 3)),
          line 0 (6755399441055746 / 2 ^ 51) (Nearest.nearest.rd (2 / 3)), 6755399441055746 / 2 ^ 51] := by
      rw [show Int.toNat 3 = 3 from rfl]
      simp [pieceLoop, h1]
    rw [hp]
    rfl
  · rw [third]
    unfold line
    rw [sub_zero, sub_zero, zero_add, abs_of_pos (by norm_num)]
    norm_num

/-- A way of three states on a line. -/
example : ∃ out, resamplePath R [0, 1, 3] (1 / 4) (fun a b => |b - a|) line (2 ^ 32) = some (.ok out) ∧
    Resampled (fun a b => |b - a|) line (1 / 4) [0, 1, 3] out := by
  refine (C174_whole R [0, 1, 3] (1 / 4) (fun a b => |b - a|) line (2 ^ 32)).1 (by simp) (by norm_num)
    (fun a b => by unfold line; ring) ?_ (le_refl _)
  rintro a b ⟨i, h1, h2⟩
  refine ⟨abs_nonneg _, ?_⟩
  match i with
  | 0 =>
    simp at h1 h2
    subst h1; subst h2
    norm_num
  | 1 =>
    simp at h1 h2
    subst h1; subst h2
    norm_num
  | i + 2 => simp at h2

end Verif.ResampleRounded
