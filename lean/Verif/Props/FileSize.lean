import Verif.Model.FileSize
import Verif.Spec.FileSize
/-!
# C139: sizes of files
-/
namespace Verif.FileSize
open Verif

theorem isDigit_iff (c : Char) : c.isDigit = true ↔ '0' ≤ c ∧ c ≤ '9' := by
  unfold Char.isDigit
  simp only [Bool.and_eq_true, decide_eq_true_eq]
  exact Iff.rfl

/-- C139: the result is next to the fraction, and even if two whole numbers are -/
theorem C139_round (num den : Nat) (hd : 0 < den) : Nearest num den (roundHalfEven num den) := by
  have h := Nat.div_add_mod num den
  have hlt := Nat.mod_lt num hd
  unfold roundHalfEven Nearest
  simp only
  generalize num / den = q at h ⊢
  generalize num % den = r at h hlt ⊢
  have e1 : (2 * q + 1) * den = 2 * (den * q) + den := by rw [Nat.add_mul, Nat.one_mul, Nat.mul_assoc, Nat.mul_comm q]
  have e2 : 2 * q * den = 2 * (den * q) := by rw [Nat.mul_assoc, Nat.mul_comm q]
  have e3 : (2 * (q + 1) + 1) * den = 2 * (den * q) + 3 * den := by
    rw [show 2 * (q + 1) + 1 = 2 * q + 3 by omega, Nat.add_mul, e2]
  have e4 : 2 * (q + 1) * den = 2 * (den * q) + 2 * den := by
    rw [show 2 * (q + 1) = 2 * q + 2 by omega, Nat.add_mul, e2]
  by_cases h1 : 2 * r < den
  · rw [if_pos h1, e1, e2]
    exact ⟨by omega, by omega, by omega⟩
  · rw [if_neg h1]
    by_cases h2 : den < 2 * r
    · rw [if_pos h2, e3, e4]
      exact ⟨by omega, by omega, by omega⟩
    · rw [if_neg h2]
      by_cases h3 : q % 2 = 0
      · rw [if_pos h3, e1, e2]
        exact ⟨by omega, by omega, fun _ => h3⟩
      · rw [if_neg h3, e3, e4]
        exact ⟨by omega, by omega, by omega⟩

/-- Only one number is the nearest -/
theorem nearest_unique {num den r s : Nat} (hd : 0 < den) (hr : Nearest num den r) (hs : Nearest num den s) : r = s := by
  have key : ∀ {r s : Nat}, Nearest num den r → Nearest num den s → ¬ r < s := by
    rintro r s ⟨r1, r2, r3⟩ ⟨s1, s2, s3⟩ hlt
    have h1 : 2 * s * den = 2 * (s - r - 1) * den + (2 * r + 2) * den := by
      rw [← Nat.add_mul]; congr 1; omega
    have h2 : (2 * r + 2) * den = (2 * r + 1) * den + den := by
      rw [← Nat.succ_mul]
    rcases Nat.eq_or_lt_of_le (show r + 1 ≤ s from hlt) with he | he
    · subst he
      have h3 : 2 * (r + 1) * den = (2 * r + 1) * den + den := by
        rw [← Nat.succ_mul]; congr 1
      have h4 := r3 (.inl (by omega))
      have h5 := s3 (.inr (by omega))
      omega
    · have h3 : 2 * den ≤ 2 * (s - r - 1) * den := Nat.mul_le_mul_right _ (by omega)
      omega
  rcases Nat.lt_trichotomy r s with h | h | h
  · exact absurd h (key hr hs)
  · exact h
  · exact absurd h (key hs hr)

theorem takeWhile_digits {a s : List Char} (ha : Digits a) (hs : ∀ c, s.head? = some c → c.isDigit = false) :
    (a ++ s).takeWhile Char.isDigit = a ∧ (a ++ s).dropWhile Char.isDigit = s := by
  induction a with
  | nil =>
    rcases s with _ | ⟨c, s⟩
    · simp
    · have := hs c rfl
      simp [this]
  | cons c a ih =>
    have hc : c.isDigit = true := (isDigit_iff c).mpr (ha c List.mem_cons_self)
    have := ih fun d hd => ha d (List.mem_cons_of_mem _ hd)
    simp only [List.cons_append, List.takeWhile_cons, List.dropWhile_cons, hc, if_true, this, and_self]

theorem digits_takeWhile (s : List Char) : Digits (s.takeWhile Char.isDigit) := by
  intro c hc
  have : (s.takeWhile Char.isDigit).all Char.isDigit = true := List.all_takeWhile
  exact (isDigit_iff c).mp (List.all_eq_true.mp this c hc)

theorem dropWhile_head {s : List Char} {c : Char} (h : (s.dropWhile Char.isDigit).head? = some c) : c.isDigit = false := by
  have := List.head?_dropWhile_not Char.isDigit s
  rw [h] at this
  exact this

/-- A unit and a `b` are recognized -/
theorem tail_match {u y : List Char} {f : Nat} (hu : Unit u f) (hy : y = [] ∨ y = ['b'] ∨ y = ['B']) :
    let s3 := u ++ y
    let unit := if s3.headD ' ' ∈ ['k', 'K', 'm', 'M', 'g', 'G'] then s3.head? else none
    let s4 := if s3.headD ' ' ∈ ['k', 'K', 'm', 'M', 'g', 'G'] then s3.drop 1 else s3
    let s5 := if s4.headD ' ' ∈ ['b', 'B'] then s4.drop 1 else s4
    s5 = [] ∧ multiplier unit = .ok f ∧ (∀ c, s3.head? = some c → c.isDigit = false ∧ c ≠ '.') := by
  rcases hu with _ | ⟨c, rfl | rfl⟩ | ⟨c, rfl | rfl⟩ | ⟨c, rfl | rfl⟩ <;> rcases hy with rfl | rfl | rfl <;>
    (refine ⟨by decide, rfl, ?_⟩; intro c h; simp at h; try (subst h; decide))

/-- C139: a text that is a size gives the whole number next to it, even if there are two -/
theorem C139_size (s : List Char) (num den : Nat) (h : Size s num den) :
    ∃ r, parseFileSize s = .ok r ∧ Nearest num den r := by
  rcases h with ⟨a, u, y, f, n, ha, hda, hu, hy, hn⟩ | ⟨a, b, u, y, f, n, ha, hda, hdb, hu, hy, hn⟩
  · obtain ⟨h5, hm, hh⟩ := tail_match hu hy
    obtain ⟨t1, d1⟩ := takeWhile_digits hda (s := u ++ y) fun c h => (hh c h).1
    have hd : ((u ++ y).head? = some '.') = False := by
      simp only [eq_iff_iff, iff_false]
      intro h
      exact (hh '.' h).2 rfl
    obtain ⟨t2, d2⟩ := takeWhile_digits (a := []) (fun c h => by cases h) (s := u ++ y) fun c h => (hh c h).1
    rw [List.nil_append] at t2 d2
    have hf : fullmatch (a ++ u ++ y) = some ⟨a, false, [],
        if (u ++ y).headD ' ' ∈ ['k', 'K', 'm', 'M', 'g', 'G'] then (u ++ y).head? else none⟩ := by
      unfold fullmatch
      simp only [List.append_assoc, t1, d1, hd, decide_false, if_false, t2, d2]
      rw [if_pos h5]
    refine ⟨roundHalfEven (n * f) 1, ?_, C139_round _ _ Nat.one_pos⟩
    unfold parseFileSize
    rw [hf]
    simp only [ha, false_and, if_false, hm, List.append_nil, List.length_nil, Nat.pow_zero]
    rw [← hn]
    rfl
  · obtain ⟨h5, hm, hh⟩ := tail_match hu hy
    obtain ⟨t1, d1⟩ := takeWhile_digits hda (s := '.' :: (b ++ (u ++ y))) fun c h => by
      cases h; decide
    obtain ⟨t2, d2⟩ := takeWhile_digits hdb (s := u ++ y) fun c h => (hh c h).1
    have hf : fullmatch (a ++ '.' :: b ++ u ++ y) = some ⟨a, true, b,
        if (u ++ y).headD ' ' ∈ ['k', 'K', 'm', 'M', 'g', 'G'] then (u ++ y).head? else none⟩ := by
      unfold fullmatch
      simp only [List.append_assoc, List.cons_append, t1, d1, List.head?_cons, decide_true, if_true, List.drop_succ_cons,
        List.drop_zero, t2, d2]
      rw [if_pos h5]
    refine ⟨roundHalfEven (n * f) (10 ^ b.length), ?_, C139_round _ _ (Nat.pow_pos (by omega))⟩
    have ha' : ¬ (a = [] ∧ b = []) := by rintro ⟨rfl, rfl⟩; exact ha rfl
    unfold parseFileSize
    rw [hf]
    simp only [ha', if_false, hm]
    rw [← hn]
    rfl

/-- What the regular expression finds is there -/
theorem fullmatch_some {s : List Char} {m : Match} (h : fullmatch s = some m) :
    ∃ u y f, s = m.whole ++ (if m.dot then '.' :: m.fraction else m.fraction) ++ u ++ y ∧ Digits m.whole ∧ Digits m.fraction ∧
      Unit u f ∧ (y = [] ∨ y = ['b'] ∨ y = ['B']) ∧ multiplier m.unit = .ok f ∧ (m.dot = false → m.fraction = []) := by
  unfold fullmatch at h
  simp only at h
  have e0 := (List.takeWhile_append_dropWhile (p := Char.isDigit) (l := s)).symm
  have hd0 := digits_takeWhile s
  have hh0 : ∀ c, (s.dropWhile Char.isDigit).head? = some c → c.isDigit = false := fun c hc => dropWhile_head hc
  generalize s.takeWhile Char.isDigit = whole at *
  generalize s.dropWhile Char.isDigit = s1 at *
  have key : ∀ (dot : Bool) (s2 : List Char), s1 = (if dot then '.' :: s2 else s2) →
      (dot = false → s2.takeWhile Char.isDigit = []) →
      (if (if (if (s2.dropWhile Char.isDigit).headD ' ' ∈ ['k', 'K', 'm', 'M', 'g', 'G'] then (s2.dropWhile Char.isDigit).drop 1
          else s2.dropWhile Char.isDigit).headD ' ' ∈ ['b', 'B'] then
          (if (s2.dropWhile Char.isDigit).headD ' ' ∈ ['k', 'K', 'm', 'M', 'g', 'G'] then (s2.dropWhile Char.isDigit).drop 1
            else s2.dropWhile Char.isDigit).drop 1
        else (if (s2.dropWhile Char.isDigit).headD ' ' ∈ ['k', 'K', 'm', 'M', 'g', 'G'] then
          (s2.dropWhile Char.isDigit).drop 1 else s2.dropWhile Char.isDigit)) = [] then
        some (⟨whole, dot, s2.takeWhile Char.isDigit,
          if (s2.dropWhile Char.isDigit).headD ' ' ∈ ['k', 'K', 'm', 'M', 'g', 'G'] then (s2.dropWhile Char.isDigit).head?
            else none⟩ : Match) else none) = some m →
      ∃ u y f, s = m.whole ++ (if m.dot then '.' :: m.fraction else m.fraction) ++ u ++ y ∧ Digits m.whole ∧
        Digits m.fraction ∧ Unit u f ∧ (y = [] ∨ y = ['b'] ∨ y = ['B']) ∧ multiplier m.unit = .ok f ∧
        (m.dot = false → m.fraction = []) := by
    intro dot s2 hs1 hdot h
    have e2 := (List.takeWhile_append_dropWhile (p := Char.isDigit) (l := s2)).symm
    have hd2 := digits_takeWhile s2
    generalize s2.takeWhile Char.isDigit = fraction at *
    generalize s2.dropWhile Char.isDigit = s3 at *
    have h3 : ∃ u f, s3 = u ++ (if s3.headD ' ' ∈ ['k', 'K', 'm', 'M', 'g', 'G'] then s3.drop 1 else s3) ∧ Unit u f ∧
        multiplier (if s3.headD ' ' ∈ ['k', 'K', 'm', 'M', 'g', 'G'] then s3.head? else none) = .ok f := by
      by_cases hc : s3.headD ' ' ∈ ['k', 'K', 'm', 'M', 'g', 'G']
      · rcases s3 with _ | ⟨c, s3⟩
        · simp at hc
        · simp only [List.headD_cons] at hc
          simp only [List.headD_cons, hc, if_true, List.drop_succ_cons, List.drop_zero, List.head?_cons]
          simp only [List.mem_cons, List.not_mem_nil, or_false] at hc
          rcases hc with rfl | rfl | rfl | rfl | rfl | rfl
          · exact ⟨['k'], _, rfl, .kilo _ (.inl rfl), rfl⟩
          · exact ⟨['K'], _, rfl, .kilo _ (.inr rfl), rfl⟩
          · exact ⟨['m'], _, rfl, .mega _ (.inl rfl), rfl⟩
          · exact ⟨['M'], _, rfl, .mega _ (.inr rfl), rfl⟩
          · exact ⟨['g'], _, rfl, .giga _ (.inl rfl), rfl⟩
          · exact ⟨['G'], _, rfl, .giga _ (.inr rfl), rfl⟩
      · simp only [hc, if_false]
        exact ⟨[], 1, rfl, .none, rfl⟩
    obtain ⟨u, f, hu1, hu2, hu3⟩ := h3
    generalize (if s3.headD ' ' ∈ ['k', 'K', 'm', 'M', 'g', 'G'] then s3.drop 1 else s3) = s4 at *
    generalize (if s3.headD ' ' ∈ ['k', 'K', 'm', 'M', 'g', 'G'] then s3.head? else none) = unit at *
    by_cases h5 : (if s4.headD ' ' ∈ ['b', 'B'] then s4.drop 1 else s4) = []
    · rw [if_pos h5] at h
      cases h
      refine ⟨u, s4, f, ?_, hd0, hd2, hu2, ?_, hu3, hdot⟩
      · rw [e0, hs1, e2, hu1]
        rcases dot with _ | _ <;> simp
      · split at h5
        · rename_i hb
          rcases s4 with _ | ⟨c, s4⟩
          · exact .inl rfl
          · simp only [List.drop_succ_cons, List.drop_zero] at h5
            subst h5
            simp only [List.headD_cons, List.mem_cons, List.not_mem_nil, or_false] at hb
            rcases hb with rfl | rfl
            · exact .inr (.inl rfl)
            · exact .inr (.inr rfl)
        · exact .inl h5
    · rw [if_neg h5] at h
      cases h
  by_cases hdot : s1.head? = some '.'
  · obtain ⟨s2, rfl⟩ : ∃ s2, s1 = '.' :: s2 := by
      rcases s1 with _ | ⟨c, s2⟩
      · cases hdot
      · cases hdot; exact ⟨s2, rfl⟩
    simp only [List.head?_cons, decide_true, if_true, List.drop_succ_cons, List.drop_zero] at h
    exact key true s2 rfl (fun h => by cases h) h
  · simp only [hdot, decide_false, if_false] at h
    refine key false s1 rfl (fun _ => ?_) h
    rcases s1 with _ | ⟨c, s1⟩
    · rfl
    · rw [List.takeWhile_cons, hh0 c rfl]
      rfl

/-- C139: a text that is no size raises `ValueError` -/
theorem C139_no_size (s : List Char) (h : ∀ num den, ¬ Size s num den) : parseFileSize s = .error .valueError := by
  unfold parseFileSize
  rcases hf : fullmatch s with _ | m
  · rfl
  · obtain ⟨u, y, f, hs, hw, hfr, hu, hy, -, hdot⟩ := fullmatch_some hf
    simp only
    by_cases he : m.whole = [] ∧ m.fraction = []
    · rw [if_pos he]
    · exfalso
      rcases hd : m.dot with _ | _
      · rw [hd] at hs
        have hfe := hdot hd
        rw [hfe] at hs
        have := Size.whole m.whole u y f _ (fun h => he ⟨h, hfe⟩) hw hu hy rfl
        have hs' : s = m.whole ++ u ++ y := by rw [hs]; simp
        rw [← hs'] at this
        exact h _ _ this
      · rw [hd] at hs
        have := Size.fraction m.whole m.fraction u y f _ (fun h => he (List.append_eq_nil_iff.mp h)) hw hfr hu hy rfl
        have hs' : s = m.whole ++ '.' :: m.fraction ++ u ++ y := by rw [hs]; simp
        rw [← hs'] at this
        exact h _ _ this

theorem digits_toDigits (n : Nat) : Digits (Nat.toDigits 10 n) := by
  intro c hc
  exact (isDigit_iff c).mp (Nat.isDigit_of_mem_toDigits (by omega) (by omega) hc)

theorem digitsValue_eq (l : List Char) : l.foldl (fun n c => 10 * n + (c.toNat - 48)) 0 = Nat.ofDigitChars 10 l 0 := by
  unfold Nat.ofDigitChars
  rfl

/-- C139: a whole number written in decimal, with a unit or none and a `b` or none, gives that number of units -/
theorem C139_whole (n f : Nat) (u y : List Char) (hu : Unit u f) (hy : y = [] ∨ y = ['b'] ∨ y = ['B']) :
    parseFileSize (Nat.toDigits 10 n ++ u ++ y) = .ok (n * f) := by
  obtain ⟨r, h1, h2⟩ := C139_size _ _ _ (Size.whole (Nat.toDigits 10 n) u y f n (by simp) (digits_toDigits n) hu hy
    (by rw [digitsValue_eq, Nat.ofDigitChars_toDigits (by omega) (by omega)]))
  rw [h1, nearest_unique Nat.one_pos h2 (s := n * f) ?_]
  unfold Nearest
  exact ⟨by omega, by omega, by omega⟩

instance (l : List Char) : Decidable (Digits l) := by unfold Digits; infer_instance

theorem sample_size : Size "1.5kB".toList 15000 10 :=
  .fraction ['1'] ['5'] ['k'] ['B'] 1000 15 (by decide) (by decide) (by decide) (.kilo _ (.inl rfl)) (.inr (.inr rfl)) rfl

example : parseFileSize "1.5kB".toList = .ok 1500 := by
  obtain ⟨r, h1, h2⟩ := C139_size _ _ _ sample_size
  rw [h1, nearest_unique (by omega) h2 (s := 1500) (by unfold Nearest; omega)]

example : parseFileSize "kb".toList = .error .valueError := rfl
example : parseFileSize "1 kb".toList = .error .valueError := rfl
example : roundHalfEven 25 10 = 2 ∧ roundHalfEven 35 10 = 4 := by decide

end Verif.FileSize
