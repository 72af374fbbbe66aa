import Verif.Model.Base64
import Verif.Spec.Base64

/-! # Helper lemmas for base64 -/
namespace Verif.Base64
open Verif

theorem or_add (x y k : Nat) (h : y < 2 ^ k) : x * 2 ^ k ||| y = x * 2 ^ k + y := by
  have := Nat.shiftLeft_add_eq_or_of_lt h x
  rw [Nat.shiftLeft_eq] at this
  exact this.symm

theorem shl_toNat (x : BitVec 32) (k m : Nat) (hx : x.toNat < 64) (hk : k ≤ 18)
    (hm : m = 2 ^ k) : (x <<< k).toNat = x.toNat * m := by
  subst hm
  rw [BitVec.toNat_shiftLeft, Nat.shiftLeft_eq]
  apply Nat.mod_eq_of_lt
  have : 2 ^ k ≤ 2 ^ 18 := Nat.pow_le_pow_right (by decide) hk
  calc x.toNat * 2 ^ k ≤ 63 * 2 ^ 18 := Nat.mul_le_mul (by omega) this
    _ < 2 ^ 32 := by decide

theorem group_toNat (a b c d : BitVec 32) (ha : a.toNat < 64) (hb : b.toNat < 64)
    (hc : c.toNat < 64) (hd : d.toNat < 64) :
    (a <<< 18 ||| b <<< 12 ||| c <<< 6 ||| d).toNat =
      a.toNat * 262144 + b.toNat * 4096 + c.toNat * 64 + d.toNat := by
  simp only [BitVec.toNat_or]
  rw [shl_toNat a 18 262144 ha (by decide) (by decide), shl_toNat b 12 4096 hb (by decide) (by decide),
    shl_toNat c 6 64 hc (by decide) (by decide)]
  rw [show (262144 : Nat) = 2 ^ 18 by decide, or_add a.toNat _ 18 (by omega)]
  rw [show a.toNat * 2 ^ 18 + b.toNat * 4096 = (a.toNat * 64 + b.toNat) * 2 ^ 12 by omega,
    or_add _ _ 12 (by omega)]
  rw [show (a.toNat * 64 + b.toNat) * 2 ^ 12 + c.toNat * 64 =
    (a.toNat * 4096 + b.toNat * 64 + c.toNat) * 2 ^ 6 by omega, or_add _ _ 6 (by omega)]

theorem group2_toNat (a b : BitVec 32) (ha : a.toNat < 64) (hb : b.toNat < 64) :
    (a <<< 18 ||| b <<< 12).toNat = a.toNat * 262144 + b.toNat * 4096 := by
  have := group_toNat a b 0#32 0#32 ha hb (by decide) (by decide)
  simpa using this

theorem group3_toNat (a b c : BitVec 32) (ha : a.toNat < 64) (hb : b.toNat < 64)
    (hc : c.toNat < 64) :
    (a <<< 18 ||| b <<< 12 ||| c <<< 6).toNat =
      a.toNat * 262144 + b.toNat * 4096 + c.toNat * 64 := by
  have := group_toNat a b c 0#32 ha hb hc (by decide)
  simpa using this

theorem hi_byte (n : BitVec 32) (m : Nat) (h : n.toNat / 65536 % 256 = m % 256) :
    (n >>> 16).setWidth 8 = BitVec.ofNat 8 m := by
  apply BitVec.eq_of_toNat_eq
  simp only [BitVec.toNat_setWidth, BitVec.toNat_ushiftRight, Nat.shiftRight_eq_div_pow,
    BitVec.toNat_ofNat]
  omega

theorem mid_byte (n : BitVec 32) (m : Nat) (h : n.toNat / 256 % 256 = m % 256) :
    (n >>> 8 &&& 0xFF#32).setWidth 8 = BitVec.ofNat 8 m := by
  apply BitVec.eq_of_toNat_eq
  have : (n.toNat >>> 8) &&& 255 = (n.toNat >>> 8) % 256 := Nat.and_two_pow_sub_one_eq_mod _ 8
  simp only [BitVec.toNat_setWidth, BitVec.toNat_and, BitVec.toNat_ushiftRight,
    BitVec.toNat_ofNat]
  rw [show 255 % 2 ^ 32 = 255 by decide, this, Nat.shiftRight_eq_div_pow]
  omega

theorem lo_byte (n : BitVec 32) (m : Nat) (h : n.toNat % 256 = m % 256) :
    (n &&& 0xFF#32).setWidth 8 = BitVec.ofNat 8 m := by
  apply BitVec.eq_of_toNat_eq
  have : n.toNat &&& 255 = n.toNat % 256 := Nat.and_two_pow_sub_one_eq_mod _ 8
  simp only [BitVec.toNat_setWidth, BitVec.toNat_and, BitVec.toNat_ofNat]
  rw [show 255 % 2 ^ 32 = 255 by decide, this]
  omega

theorem digit_lt (c : Byte) : Spec.digit c < 64 := by
  unfold Spec.digit
  simp only
  repeat' split
  all_goals omega

theorem tableIndex_eq (c : Byte) (h : c.toNat < 128) :
    tableIndex c = .ok (BitVec.ofNat 32 (Spec.digit c)) := by
  have : ∀ n < 128, tableIndex (BitVec.ofNat 8 n) =
      .ok (BitVec.ofNat 32 (Spec.digit (BitVec.ofNat 8 n))) := by decide
  have := this c.toNat h
  simpa using this

theorem tableIndex_ub (c : Byte) (h : 128 ≤ c.toNat) : tableIndex c = .ub := by
  simp [tableIndex]; omega

theorem digit_toNat (c : Byte) : (BitVec.ofNat 32 (Spec.digit c)).toNat = Spec.digit c := by
  have := digit_lt c
  simp; omega

theorem lookup_eq (s : List Byte) (i : Nat) (h : i < s.length) (h2 : s[i].toNat < 128) :
    lookup s i = .ok (BitVec.ofNat 32 (Spec.digit s[i])) := by
  simp only [lookup, charAt]
  rw [if_neg (by omega)]
  simp only [at_, List.getElem?_eq_getElem h, Out.bind_ok]
  exact tableIndex_eq _ h2

theorem lookup_ub (s : List Byte) (i : Nat) (h : i < s.length) (h2 : 128 ≤ s[i].toNat) :
    lookup s i = .ub := by
  simp only [lookup, charAt]
  rw [if_neg (by omega)]
  simp only [at_, List.getElem?_eq_getElem h, Out.bind_ok]
  exact tableIndex_ub _ h2

theorem lookup_end (s : List Byte) : lookup s s.length = .ok 0#32 := by
  simp only [lookup, charAt, if_pos, Out.bind_ok]
  decide

theorem put_append {α : Type} (pre : List α) (x v : α) (rest : List α) (n : Nat)
    (hn : n = pre.length) :
    put (pre ++ x :: rest) n v = .ok (pre ++ v :: rest) := by
  subst hn; simp [put]

/-- The three bytes of a whole group. -/
def triple (a b c d : Byte) : List Byte := [Spec.byte1 a b, Spec.byte2 b c, Spec.byte3 c d]

/-- Bytes of `k` whole groups of four characters. -/
def triples : Nat → List Byte → List Byte
  | k + 1, a :: b :: c :: d :: rest => triple a b c d ++ triples k rest
  | _, _ => []

/-- The loop when all characters read are below 128. -/
theorem decodeLoop_eq (s : List Byte) (k i : Nat) (pre : List Byte) (rest : List Byte)
    (hlen : i + 4 * k ≤ s.length) (hc : ∀ c ∈ (s.drop i).take (4 * k), c.toNat < 128)
    (j : Nat) (hj : j = pre.length) :
    decodeLoop s (i + 4 * k) i j (pre ++ List.replicate (3 * k) 0#8 ++ rest) =
      .ok (pre ++ triples k (s.drop i) ++ rest) := by
  induction k generalizing i j pre with
  | zero =>
    rw [decodeLoop, if_neg (by omega)]
    simp [triples]
  | succ k ih =>
    have g : ∀ m, m < 4 → ∃ h : i + m < s.length, s[i + m].toNat < 128 := by
      intro m hm
      refine ⟨by omega, ?_⟩
      apply hc
      rw [List.mem_iff_getElem]
      refine ⟨m, by simp; omega, by simp⟩
    have l0 : i < s.length := by omega
    have c0 : s[i].toNat < 128 := (g 0 (by decide)).2
    obtain ⟨l1, c1⟩ := g 1 (by decide)
    obtain ⟨l2, c2⟩ := g 2 (by decide)
    obtain ⟨l3, c3⟩ := g 3 (by decide)
    have hd : s.drop i = s[i] :: s[i + 1] :: s[i + 2] :: s[i + 3] :: s.drop (i + 4) := by
      rw [List.drop_eq_getElem_cons (by omega), List.drop_eq_getElem_cons (by omega : i + 1 < _),
        List.drop_eq_getElem_cons (by omega : i + 1 + 1 < _),
        List.drop_eq_getElem_cons (by omega : i + 1 + 1 + 1 < _)]
    have hc' : ∀ c ∈ (s.drop (i + 4)).take (4 * k), c.toNat < 128 := by
      intro c hcm
      apply hc
      rw [hd, show 4 * (k + 1) = 4 * k + 1 + 1 + 1 + 1 by omega]
      simp only [List.take_succ_cons, List.mem_cons]
      simp [hcm]
    rw [decodeLoop, if_pos (by omega)]
    rw [lookup_eq s i l0 c0, lookup_eq s _ l1 c1, lookup_eq s _ l2 c2, lookup_eq s _ l3 c3]
    simp only [Out.bind_ok]
    have hn := group_toNat (BitVec.ofNat 32 (Spec.digit s[i])) (BitVec.ofNat 32 (Spec.digit s[i + 1]))
      (BitVec.ofNat 32 (Spec.digit s[i + 2])) (BitVec.ofNat 32 (Spec.digit s[i + 3]))
      (by rw [digit_toNat]; exact digit_lt _) (by rw [digit_toNat]; exact digit_lt _)
      (by rw [digit_toNat]; exact digit_lt _) (by rw [digit_toNat]; exact digit_lt _)
    simp only [digit_toNat] at hn
    have d0 := digit_lt s[i]
    have d1 := digit_lt s[i + 1]
    have d2 := digit_lt s[i + 2]
    have d3 := digit_lt s[i + 3]
    rw [hi_byte _ (Spec.digit s[i] * 4 + Spec.digit s[i + 1] / 16) (by rw [hn]; omega),
      mid_byte _ (Spec.digit s[i + 1] % 16 * 16 + Spec.digit s[i + 2] / 4) (by rw [hn]; omega),
      lo_byte _ (Spec.digit s[i + 2] % 4 * 64 + Spec.digit s[i + 3]) (by rw [hn]; omega)]
    have hr : pre ++ List.replicate (3 * (k + 1)) 0#8 ++ rest =
        pre ++ 0#8 :: (0#8 :: 0#8 :: (List.replicate (3 * k) 0#8 ++ rest)) := by
      rw [show 3 * (k + 1) = 3 * k + 1 + 1 + 1 by omega]
      simp [List.replicate_succ]
    rw [hr, put_append _ _ _ _ _ hj]
    simp only [Out.bind_ok]
    rw [show ∀ (x : Byte) (l : List Byte), pre ++ x :: (0#8 :: l) = (pre ++ [x]) ++ 0#8 :: l by simp,
      put_append _ _ _ _ _ (by simp [hj])]
    simp only [Out.bind_ok]
    rw [show ∀ (x y : Byte) (l : List Byte), pre ++ [x] ++ y :: (0#8 :: l) =
      (pre ++ [x, y]) ++ 0#8 :: l by simp, put_append _ _ _ _ _ (by simp [hj])]
    simp only [Out.bind_ok]
    rw [show i + 4 * (k + 1) = i + 4 + 4 * k by omega,
      show ∀ (x y z : Byte), pre ++ [x, y] ++ z :: (List.replicate (3 * k) 0#8 ++ rest) =
      (pre ++ [x, y, z]) ++ List.replicate (3 * k) 0#8 ++ rest by simp,
      ih (i + 4) _ (by omega) hc' (j + 3) (by simp [hj])]
    rw [hd]
    simp [triples, triple, Spec.byte1, Spec.byte2, Spec.byte3]

theorem decodeLoop_ub (s : List Byte) (k i : Nat) (buffer : List Byte) (j : Nat)
    (hlen : i + 4 * k ≤ s.length) (hb : j + 3 * k ≤ buffer.length)
    (hc : ∃ c ∈ (s.drop i).take (4 * k), 128 ≤ c.toNat) :
    decodeLoop s (i + 4 * k) i j buffer = .ub := by
  induction k generalizing i j buffer with
  | zero => simp at hc
  | succ k ih =>
    have hd : s.drop i = s[i] :: s[i + 1] :: s[i + 2] :: s[i + 3] :: s.drop (i + 4) := by
      rw [List.drop_eq_getElem_cons (by omega), List.drop_eq_getElem_cons (by omega : i + 1 < _),
        List.drop_eq_getElem_cons (by omega : i + 1 + 1 < _),
        List.drop_eq_getElem_cons (by omega : i + 1 + 1 + 1 < _)]
    rw [decodeLoop, if_pos (by omega)]
    by_cases c0 : s[i].toNat < 128
    · rw [lookup_eq s i (by omega) c0]
      by_cases c1 : s[i + 1].toNat < 128
      · rw [lookup_eq s (i + 1) (by omega) c1]
        by_cases c2 : s[i + 2].toNat < 128
        · rw [lookup_eq s (i + 2) (by omega) c2]
          by_cases c3 : s[i + 3].toNat < 128
          · rw [lookup_eq s (i + 3) (by omega) c3]
            simp only [Out.bind_ok]
            simp only [put]
            rw [if_pos (by omega)]
            simp only [Out.bind_ok]
            rw [if_pos (by simp; omega)]
            simp only [Out.bind_ok]
            rw [if_pos (by simp; omega)]
            simp only [Out.bind_ok]
            rw [show i + 4 * (k + 1) = i + 4 + 4 * k by omega]
            apply ih
            · omega
            · simp; omega
            · obtain ⟨c, hcm, hcv⟩ := hc
              refine ⟨c, ?_, hcv⟩
              have h4 : 4 * (k + 1) = 4 * k + 1 + 1 + 1 + 1 := by omega
              rw [h4, hd] at hcm
              simp only [List.take_succ_cons, List.mem_cons] at hcm
              rcases hcm with h | h | h | h | h
              · rw [h] at hcv; omega
              · rw [h] at hcv; omega
              · rw [h] at hcv; omega
              · rw [h] at hcv; omega
              · exact h
          · rw [lookup_ub s (i + 3) (by omega) (by omega)]; rfl
        · rw [lookup_ub s (i + 2) (by omega) (by omega)]; rfl
      · rw [lookup_ub s (i + 1) (by omega) (by omega)]; rfl
    · rw [lookup_ub s i (by omega) (by omega)]; rfl

theorem charAt_append (p t : List Byte) (m n : Nat) (hn : n = p.length + m) :
    charAt (p ++ t) n = charAt t m := by
  subst hn
  simp only [charAt, at_, List.length_append, Nat.add_left_cancel_iff]
  rw [List.getElem?_append_right (by omega)]
  simp

theorem lookup_append (p t : List Byte) (m n : Nat) (hn : n = p.length + m) :
    lookup (p ++ t) n = lookup t m := by
  simp only [lookup, charAt_append p t m n hn]

/-- What `decode` does after the loop when the last group is short or padded. -/
def tailStep (t : List Byte) (buffer : List Byte) : Out (List Byte) := do
  let a ← lookup t 0
  let b ← lookup t 1
  let n : BitVec 32 := a <<< 18 ||| b <<< 12
  let buffer ← put buffer (buffer.length - 1) ((n >>> 16).setWidth 8)
  let more ← thirdFlag t 0
  if more then do
    let c ← lookup t 2
    let n := n ||| c <<< 6
    .ok (buffer ++ [(n >>> 8 &&& 0xFF#32).setWidth 8])
  else .ok buffer

/-- The last group is short or ends in `=`. -/
def Padded (t : List Byte) : Prop :=
  t.length = 1 ∨ t.length = 2 ∨ t.length = 3 ∨ ∃ a b c, t = [a, b, c, padChar]

theorem decode_padded (p t : List Byte) (k : Nat) (hp : p.length = 4 * k) (ht : Padded t) :
    decode (p ++ t) = (decodeLoop (p ++ t) (4 * k) 0 0 (List.replicate (3 * k + 1) 0#8) >>=
      tailStep t) := by
  have h4 : 1 ≤ t.length ∧ t.length ≤ 4 := by
    rcases ht with h | h | h | ⟨a, b, c, rfl⟩
    · omega
    · omega
    · omega
    · simp
  have hpad : padFlag (p ++ t) = Out.ok true := by
    simp only [padFlag, List.length_append, hp]
    rw [if_pos (by omega)]
    split
    · rfl
    · have : t.length = 4 := by omega
      rcases ht with h | h | h | ⟨a, b, c, rfl⟩
      · omega
      · omega
      · omega
      · rw [charAt_append p _ 3 _ (by simp; omega)]
        simp [charAt, at_, padChar]
  unfold decode
  simp only [hpad, Out.bind_ok]
  have hL : (((p ++ t).length + 3) / 4 - 1) * 4 = 4 * k := by
    simp only [List.length_append, hp]; omega
  simp only [if_true, hL, show 4 * k / 4 * 3 + 1 = 3 * k + 1 by omega]
  congr 1
  funext buffer
  rw [if_pos (by decide)]
  simp only [tailStep]
  rw [lookup_append p t 0 (4 * k) (by omega), lookup_append p t 1 (4 * k + 1) (by omega),
    lookup_append p t 2 (4 * k + 2) (by omega)]
  have h3 : thirdFlag (p ++ t) (4 * k) = thirdFlag t 0 := by
    simp only [thirdFlag, charAt_append p t 2 (4 * k + 2) (by omega), List.length_append, hp,
      Nat.zero_add]
    simp only [show (4 * k + 2 < 4 * k + t.length) = (2 < t.length) by apply propext; omega]
  rw [h3]

theorem decode_whole (s : List Byte) (k : Nat) (hl : s.length = 4 * k)
    (hlast : ∀ h : 0 < s.length, s[s.length - 1] ≠ padChar) :
    decode s = decodeLoop s (4 * k) 0 0 (List.replicate (3 * k) 0#8) := by
  have hpad : padFlag s = Out.ok false := by
    unfold padFlag
    split
    · rename_i h0
      rw [if_neg (by omega)]
      have := hlast h0
      simp only [charAt]
      rw [if_neg (by omega)]
      simp [at_, List.getElem?_eq_getElem (show s.length - 1 < s.length by omega), this]
    · rfl
  unfold decode
  simp only [hpad, Out.bind_ok, if_neg (show ¬ (false = true) by decide)]
  rw [show ((s.length + 3) / 4 - 0) * 4 = 4 * k by omega, show 4 * k / 4 * 3 + 0 = 3 * k by omega]
  cases decodeLoop s (4 * k) 0 0 (List.replicate (3 * k) 0#8) <;> rfl

theorem specDecode_split (k : Nat) (p t : List Byte) (hp : p.length = 4 * k) (ht : t ≠ []) :
    Spec.decode (p ++ t) = triples k p ++ Spec.decode t := by
  induction k generalizing p with
  | zero =>
    have : p = [] := List.length_eq_zero_iff.1 (by omega)
    subst this; simp [triples]
  | succ k ih =>
    match p, hp with
    | a :: b :: c :: d :: p', hp =>
      have hp' : p'.length = 4 * k := by simp at hp; omega
      have hne : p' ++ t ≠ [] := by simp [ht]
      obtain ⟨e, r, he⟩ := List.exists_cons_of_ne_nil hne
      simp only [List.cons_append, he, Spec.decode]
      rw [← he, ih p' hp']
      simp [triples, triple]
    | [], hp => simp at hp
    | [_], hp => simp at hp; omega
    | [_, _], hp => simp at hp; omega
    | [_, _, _], hp => simp at hp; omega

theorem triples_append (k : Nat) (p t : List Byte) (hp : p.length = 4 * k) :
    triples k (p ++ t) = triples k p := by
  induction k generalizing p with
  | zero => simp [triples]
  | succ k ih =>
    match p, hp with
    | a :: b :: c :: d :: p', hp =>
      simp [triples, ih p' (by simp at hp; omega)]
    | [], hp => simp at hp
    | [_], hp => simp at hp; omega
    | [_, _], hp => simp at hp; omega
    | [_, _, _], hp => simp at hp; omega

theorem triples_length (k : Nat) (p : List Byte) (hp : p.length = 4 * k) :
    (triples k p).length = 3 * k := by
  induction k generalizing p with
  | zero => simp [triples]
  | succ k ih =>
    match p, hp with
    | a :: b :: c :: d :: p', hp =>
      simp [triples, triple, ih p' (by simp at hp; omega)] <;> omega
    | [], hp => simp at hp
    | [_], hp => simp at hp; omega
    | [_, _], hp => simp at hp; omega
    | [_, _, _], hp => simp at hp; omega

theorem triples_snoc (k : Nat) (p : List Byte) (a b c d : Byte) (hp : p.length = 4 * k) :
    triples (k + 1) (p ++ [a, b, c, d]) = triples k p ++ triple a b c d := by
  induction k generalizing p with
  | zero =>
    have : p = [] := List.length_eq_zero_iff.1 (by omega)
    subst this; simp [triples]
  | succ k ih =>
    match p, hp with
    | a' :: b' :: c' :: d' :: p', hp =>
      rw [triples]
      simp only [List.cons_append]
      rw [triples, ih p' (by simp at hp; omega)]
      simp
    | [], hp => simp at hp
    | [_], hp => simp at hp; omega
    | [_, _], hp => simp at hp; omega
    | [_, _, _], hp => simp at hp; omega

theorem tailByte1 (a b : Byte) :
    ((BitVec.ofNat 32 (Spec.digit a) <<< 18 ||| BitVec.ofNat 32 (Spec.digit b) <<< 12) >>> 16).setWidth 8
      = Spec.byte1 a b := by
  have hn := group2_toNat (BitVec.ofNat 32 (Spec.digit a)) (BitVec.ofNat 32 (Spec.digit b))
    (by rw [digit_toNat]; exact digit_lt _) (by rw [digit_toNat]; exact digit_lt _)
  simp only [digit_toNat] at hn
  have := digit_lt a
  have := digit_lt b
  rw [hi_byte _ (Spec.digit a * 4 + Spec.digit b / 16) (by rw [hn]; omega)]
  rfl

theorem tailByte2 (a b c : Byte) :
    ((BitVec.ofNat 32 (Spec.digit a) <<< 18 ||| BitVec.ofNat 32 (Spec.digit b) <<< 12 |||
      BitVec.ofNat 32 (Spec.digit c) <<< 6) >>> 8 &&& 0xFF#32).setWidth 8
      = Spec.byte2 b c := by
  have hn := group3_toNat (BitVec.ofNat 32 (Spec.digit a)) (BitVec.ofNat 32 (Spec.digit b))
    (BitVec.ofNat 32 (Spec.digit c))
    (by rw [digit_toNat]; exact digit_lt _) (by rw [digit_toNat]; exact digit_lt _)
    (by rw [digit_toNat]; exact digit_lt _)
  simp only [digit_toNat] at hn
  have := digit_lt a
  have := digit_lt b
  have := digit_lt c
  rw [mid_byte _ (Spec.digit b % 16 * 16 + Spec.digit c / 4) (by rw [hn]; omega)]
  rfl

theorem put_last (pre : List Byte) (x v : Byte) :
    put (pre ++ [x]) ((pre ++ [x]).length - 1) v = .ok (pre ++ [v]) :=
  put_append pre x v [] _ (by simp)

theorem tailStep_eq (t pre : List Byte) (ht : Padded t) (hc : ∀ c ∈ t, c.toNat < 128) :
    tailStep t (pre ++ [0#8]) = .ok (pre ++ Spec.decode t) := by
  have hz : (0#32 : BitVec 32) = BitVec.ofNat 32 (Spec.digit 0#8) := by decide
  have three : ∀ (a b c : Byte) (t : List Byte), t = [a, b, c] ∨ t = [a, b, c, padChar] →
      a.toNat < 128 → b.toNat < 128 → c.toNat < 128 →
      tailStep t (pre ++ [0#8]) =
        .ok (pre ++ if c = Spec.eqSign then [Spec.byte1 a b] else [Spec.byte1 a b, Spec.byte2 b c]) := by
    intro a b c t ht ha hb hc
    have l0 : lookup t 0 = .ok (BitVec.ofNat 32 (Spec.digit a)) := by
      rcases ht with rfl | rfl <;> exact lookup_eq _ 0 (by simp) ha
    have l1 : lookup t 1 = .ok (BitVec.ofNat 32 (Spec.digit b)) := by
      rcases ht with rfl | rfl <;> exact lookup_eq _ 1 (by simp) hb
    have l2 : lookup t 2 = .ok (BitVec.ofNat 32 (Spec.digit c)) := by
      rcases ht with rfl | rfl <;> exact lookup_eq _ 2 (by simp) hc
    have c2 : charAt t 2 = .ok c := by
      rcases ht with rfl | rfl <;> simp [charAt, at_]
    have hl : 2 < t.length := by rcases ht with rfl | rfl <;> simp
    simp only [tailStep, thirdFlag, Nat.zero_add, l0, l1, l2, c2, Out.bind_ok, put_last, if_pos hl, tailByte1, tailByte2]
    by_cases h : c = padChar
    · simp [h, padChar, Spec.eqSign]
    · have h' : ¬ c = Spec.eqSign := h
      simp [h, h']
  rcases ht with h | h | h | ⟨a, b, c, rfl⟩
  · obtain ⟨a, rfl⟩ := List.length_eq_one_iff.1 h
    have l0 : lookup [a] 0 = .ok (BitVec.ofNat 32 (Spec.digit a)) :=
      lookup_eq _ 0 (by simp) (hc a (by simp))
    have l1 : lookup [a] 1 = .ok 0#32 := lookup_end [a]
    rw [hz] at l1
    simp only [tailStep, l0, l1, Out.bind_ok, put_last, tailByte1]
    simp [thirdFlag, Spec.decode, Spec.byte1, show Spec.digit 0#8 = 0 by decide]
  · match t, h with
    | [a, b], _ =>
      have l0 : lookup [a, b] 0 = .ok (BitVec.ofNat 32 (Spec.digit a)) :=
        lookup_eq _ 0 (by simp) (hc a (by simp))
      have l1 : lookup [a, b] 1 = .ok (BitVec.ofNat 32 (Spec.digit b)) :=
        lookup_eq _ 1 (by simp) (hc b (by simp))
      simp only [tailStep, l0, l1, Out.bind_ok, put_last, tailByte1]
      simp [thirdFlag, Spec.decode]
  · match t, h with
    | [a, b, c], _ =>
      rw [three a b c _ (Or.inl rfl) (hc a (by simp)) (hc b (by simp)) (hc c (by simp))]
      rfl
  · rw [three a b c _ (Or.inr rfl) (hc a (by simp)) (hc b (by simp)) (hc c (by simp))]
    simp [Spec.decode, Spec.eqSign, padChar]

theorem tailStep_ub (t buffer : List Byte) (ht : Padded t) (hb : buffer ≠ [])
    (hc : ∃ c ∈ t, 128 ≤ c.toNat) : tailStep t buffer = .ub := by
  have hbl : buffer.length - 1 < buffer.length := by
    cases buffer <;> simp_all
  have look : ∀ i, i < t.length → (h : i < t.length) → t[i].toNat < 128 →
      lookup t i = .ok (BitVec.ofNat 32 (Spec.digit t[i])) := fun i _ h h2 => lookup_eq t i h h2
  by_cases c0 : ∃ h : 0 < t.length, 128 ≤ t[0].toNat
  · obtain ⟨h, c0⟩ := c0
    simp [tailStep, lookup_ub t 0 h c0]
  · have h0 : 0 < t.length := by
      rcases ht with h | h | h | ⟨a, b, c, rfl⟩ <;> simp_all
    have c0' : t[0].toNat < 128 := by
      by_cases h : t[0].toNat < 128
      · exact h
      · exact absurd ⟨h0, by omega⟩ c0
    by_cases c1 : ∃ h : 1 < t.length, 128 ≤ t[1].toNat
    · obtain ⟨h, c1⟩ := c1
      simp [tailStep, lookup_eq t 0 h0 c0', lookup_ub t 1 h c1]
    · obtain ⟨x, hx⟩ : ∃ x, lookup t 1 = .ok x := by
        by_cases h1 : 1 < t.length
        · refine ⟨_, lookup_eq t 1 h1 ?_⟩
          by_cases h : t[1].toNat < 128
          · exact h
          · exact absurd ⟨h1, by omega⟩ c1
        · have : t.length = 1 := by omega
          exact ⟨0#32, by have := lookup_end t; rwa [‹t.length = 1›] at this⟩
      -- so the offending character is the third
      have h2 : ∃ h : 2 < t.length, 128 ≤ t[2].toNat := by
        obtain ⟨c, hcm, hcv⟩ := hc
        obtain ⟨i, hi, rfl⟩ := List.mem_iff_getElem.1 hcm
        by_cases i0 : i = 0
        · subst i0; exact absurd ⟨hi, hcv⟩ c0
        by_cases i1 : i = 1
        · subst i1; exact absurd ⟨hi, hcv⟩ c1
        by_cases i2 : i = 2
        · subst i2; exact ⟨hi, hcv⟩
        rcases ht with h | h | h | ⟨a, b, c, rfl⟩
        · omega
        · omega
        · omega
        · have : i = 3 := by simp at hi; omega
          subst this
          simp [padChar] at hcv
      obtain ⟨h2, c2⟩ := h2
      have hch : charAt t 2 = .ok t[2] := by
        simp only [charAt]
        rw [if_neg (by omega)]
        simp [at_, List.getElem?_eq_getElem h2]
      have hne : t[2] ≠ padChar := by
        intro h; rw [h] at c2; simp [padChar] at c2
      simp [tailStep, lookup_eq t 0 h0 c0', hx, put, hbl, thirdFlag, if_pos h2, hch, hne,
        lookup_ub t 2 h2 c2]

/-- Every nonempty text is some whole groups followed by a padded or whole last group. -/
theorem split_last (s : List Byte) :
    (∃ k, s.length = 4 * k ∧ ∀ h : 0 < s.length, s[s.length - 1] ≠ padChar) ∨
    (∃ p t k, s = p ++ t ∧ p.length = 4 * k ∧ Padded t) := by
  by_cases h0 : s.length = 0
  · left; exact ⟨0, h0, fun h => by omega⟩
  by_cases hm : s.length % 4 = 0
  · by_cases hl : s[s.length - 1] = padChar
    · right
      refine ⟨s.take (s.length - 4), s.drop (s.length - 4), s.length / 4 - 1, by simp, by simp; omega, ?_⟩
      right; right; right
      have hd : (s.drop (s.length - 4)).length = 4 := by simp; omega
      match hmatch : s.drop (s.length - 4), hd with
      | [a, b, c, d], _ =>
        refine ⟨a, b, c, ?_⟩
        have : (s.drop (s.length - 4))[3]? = some d := by rw [hmatch]; rfl
        rw [List.getElem?_drop, show s.length - 4 + 3 = s.length - 1 by omega,
          List.getElem?_eq_getElem (by omega), hl] at this
        simp at this
        rw [this]
    · left; exact ⟨s.length / 4, by omega, fun _ => hl⟩
  · right
    refine ⟨s.take (s.length / 4 * 4), s.drop (s.length / 4 * 4), s.length / 4, by simp,
      by simp; omega, ?_⟩
    have : (s.drop (s.length / 4 * 4)).length = s.length % 4 := by simp; omega
    unfold Padded
    rw [this]
    omega

theorem decode_eq (s : List Byte) (hc : ∀ c ∈ s, c.toNat < 128) : decode s = .ok (Spec.decode s) := by
  rcases split_last s with ⟨k, hl, hlast⟩ | ⟨p, t, k, rfl, hp, ht⟩
  · rw [decode_whole s k hl hlast]
    have h := decodeLoop_eq s k 0 [] [] (by omega) (by
      intro c hcm; apply hc
      have := List.mem_of_mem_take hcm
      simpa using this) 0 rfl
    simp only [Nat.zero_add, List.nil_append, List.append_nil, List.drop_zero] at h
    rw [h]
    congr 1
    by_cases h0 : k = 0
    · subst h0
      have : s = [] := List.length_eq_zero_iff.1 (by omega)
      subst this; rfl
    · obtain ⟨k, rfl⟩ : ∃ k', k = k' + 1 := ⟨k - 1, by omega⟩
      have hs : s = s.take (4 * k) ++ s.drop (4 * k) := by simp
      have hd : (s.drop (4 * k)).length = 4 := by simp; omega
      match hmatch : s.drop (4 * k), hd with
      | [a, b, c, d], _ =>
        have hdne : d ≠ padChar := by
          have h1 : (s.drop (4 * k))[3]? = some d := by rw [hmatch]; rfl
          rw [List.getElem?_drop, show 4 * k + 3 = s.length - 1 by omega,
            List.getElem?_eq_getElem (by omega)] at h1
          simp at h1
          rw [← h1]
          exact hlast (by omega)
        rw [hmatch] at hs
        rw [hs, triples_snoc k _ a b c d (by simp; omega),
          specDecode_split k _ _ (by simp; omega) (by simp)]
        have : ¬ d = Spec.eqSign := hdne
        simp [Spec.decode, this, triple]
  · rw [decode_padded p t k hp ht]
    have h := decodeLoop_eq (p ++ t) k 0 [] [0#8] (by simp; omega) (by
      intro c hcm; apply hc
      have := List.mem_of_mem_take hcm
      simpa using this) 0 rfl
    simp only [Nat.zero_add, List.nil_append, List.drop_zero] at h
    rw [show List.replicate (3 * k + 1) 0#8 = List.replicate (3 * k) 0#8 ++ [0#8] by
      rw [List.replicate_succ']]
    rw [h, Out.bind_ok, triples_append k p t hp,
      tailStep_eq t _ ht (fun c hcm => hc c (by simp [hcm])),
      specDecode_split k p t hp (by
        rcases ht with h | h | h | ⟨a, b, c, rfl⟩
        · intro h0; simp [h0] at h
        · intro h0; simp [h0] at h
        · intro h0; simp [h0] at h
        · simp)]

theorem decodeLoop_length (s : List Byte) (L i j : Nat) (buffer r : List Byte)
    (h : decodeLoop s L i j buffer = .ok r) : r.length = buffer.length := by
  induction hn : L - i using Nat.strongRecOn generalizing i j buffer with
  | _ n ih =>
    rw [decodeLoop] at h
    split at h
    · simp only [Out.bind_eq_ok] at h
      obtain ⟨_, _, _, _, _, _, _, _, b1, h1, b2, h2, b3, h3, h4⟩ := h
      have e := ih _ (by omega) _ _ _ h4 rfl
      simp only [put] at h1 h2 h3
      split at h1
      · split at h2
        · split at h3
          · simp only [Out.ok.injEq] at h1 h2 h3
            rw [e, ← h3, ← h2, ← h1]; simp
          · cases h3
        · cases h2
      · cases h1
    · simp only [Out.ok.injEq] at h; rw [h]

theorem decode_ub (s : List Byte) (hc : ∃ c ∈ s, 128 ≤ c.toNat) : decode s = .ub := by
  rcases split_last s with ⟨k, hl, hlast⟩ | ⟨p, t, k, rfl, hp, ht⟩
  · rw [decode_whole s k hl hlast]
    have h := decodeLoop_ub s k 0 (List.replicate (3 * k) 0#8) 0 (by omega) (by simp) (by
      obtain ⟨c, hcm, hcv⟩ := hc
      refine ⟨c, ?_, hcv⟩
      rw [List.drop_zero, ← hl, List.take_length]; exact hcm)
    simpa using h
  · rw [decode_padded p t k hp ht]
    by_cases hpc : ∃ c ∈ p, 128 ≤ c.toNat
    · have h := decodeLoop_ub (p ++ t) k 0 (List.replicate (3 * k + 1) 0#8) 0 (by simp; omega)
        (by simp) (by
        obtain ⟨c, hcm, hcv⟩ := hpc
        refine ⟨c, ?_, hcv⟩
        rw [List.drop_zero, ← hp, List.take_left]; exact hcm)
      rw [Nat.zero_add] at h
      rw [h]; rfl
    · have h := decodeLoop_eq (p ++ t) k 0 [] [0#8] (by simp; omega) (by
        intro c hcm
        rw [List.drop_zero, ← hp, List.take_left] at hcm
        by_cases h : c.toNat < 128
        · exact h
        · exact absurd ⟨c, hcm, by omega⟩ hpc) 0 rfl
      simp only [Nat.zero_add, List.nil_append, List.drop_zero] at h
      rw [show List.replicate (3 * k + 1) 0#8 = List.replicate (3 * k) 0#8 ++ [0#8] by
        rw [List.replicate_succ']]
      rw [h, Out.bind_ok]
      apply tailStep_ub t _ ht (by simp)
      obtain ⟨c, hcm, hcv⟩ := hc
      rcases List.mem_append.1 hcm with h | h
      · exact absurd ⟨c, h, hcv⟩ hpc
      · exact ⟨c, h, hcv⟩

/-! ## encoding -/

theorem value_eq (x : BitVec 32) (n : Nat) (h : x.toNat = n) (hn : n < 64) :
    value x = .ok (Spec.symbol n) := by
  have : ∀ n < 64, at_ valueTable n = .ok (Spec.symbol n) := by decide
  rw [value, h]
  exact this n hn

theorem idx0 (a : Byte) : (a.setWidth 32 >>> 2).toNat = a.toNat / 4 := by
  have := a.isLt
  simp [Nat.shiftRight_eq_div_pow]
  omega

theorem and3 (a : Byte) : ((a.setWidth 32 &&& 0x03#32) <<< 4).toNat = a.toNat % 4 * 16 := by
  have h := a.isLt
  have e : a.toNat &&& 3 = a.toNat % 4 := Nat.and_two_pow_sub_one_eq_mod _ 2
  simp only [BitVec.toNat_shiftLeft, BitVec.toNat_and, BitVec.toNat_setWidth, BitVec.toNat_ofNat,
    Nat.shiftLeft_eq]
  rw [Nat.mod_eq_of_lt (show a.toNat < 2 ^ 32 by omega), show 3 % 2 ^ 32 = 3 by decide, e]
  omega

theorem and15 (a : Byte) : ((a.setWidth 32 &&& 0x0f#32) <<< 2).toNat = a.toNat % 16 * 4 := by
  have h := a.isLt
  have e : a.toNat &&& 15 = a.toNat % 16 := Nat.and_two_pow_sub_one_eq_mod _ 4
  simp only [BitVec.toNat_shiftLeft, BitVec.toNat_and, BitVec.toNat_setWidth, BitVec.toNat_ofNat,
    Nat.shiftLeft_eq]
  rw [Nat.mod_eq_of_lt (show a.toNat < 2 ^ 32 by omega), show 15 % 2 ^ 32 = 15 by decide, e]
  omega

theorem idx1 (a b : Byte) : ((a.setWidth 32 &&& 0x03#32) <<< 4 ||| b.setWidth 32 >>> 4).toNat =
    a.toNat % 4 * 16 + b.toNat / 16 := by
  have h := b.isLt
  rw [BitVec.toNat_or, and3, show (16 : Nat) = 2 ^ 4 by decide]
  have hb : (b.setWidth 32 >>> 4).toNat = b.toNat / 2 ^ 4 := by
    simp [Nat.shiftRight_eq_div_pow]; omega
  rw [hb, or_add _ _ 4 (by omega)]

theorem idx2 (a b : Byte) : ((a.setWidth 32 &&& 0x0f#32) <<< 2 ||| b.setWidth 32 >>> 6).toNat =
    a.toNat % 16 * 4 + b.toNat / 64 := by
  have h := b.isLt
  rw [BitVec.toNat_or, and15, show (4 : Nat) = 2 ^ 2 by decide]
  have hb : (b.setWidth 32 >>> 6).toNat = b.toNat / 64 := by
    simp [Nat.shiftRight_eq_div_pow]; omega
  rw [hb, or_add _ _ 2 (by omega)]

theorem idx3 (a : Byte) : (a.setWidth 32 &&& 0x3f#32).toNat = a.toNat % 64 := by
  have h := a.isLt
  have e : a.toNat &&& 63 = a.toNat % 64 := Nat.and_two_pow_sub_one_eq_mod _ 6
  simp only [BitVec.toNat_and, BitVec.toNat_setWidth, BitVec.toNat_ofNat]
  rw [Nat.mod_eq_of_lt (show a.toNat < 2 ^ 32 by omega), show 63 % 2 ^ 32 = 63 by decide, e]

theorem byteAt_append (p t : List Byte) (m n : Nat) (b : Byte) (hn : n = p.length + m)
    (h : t[m]? = some b) : byteAt (p ++ t) n = .ok (b.setWidth 32) := by
  subst hn
  simp only [byteAt, at_]
  rw [List.getElem?_append_right (by omega)]
  simp [h]

theorem specEncode_length (l : List Byte) : (Spec.encode l).length = 4 * ((l.length + 2) / 3) := by
  fun_induction Spec.encode l <;> simp_all <;> omega

/-- The encoder loop turns whole groups into their characters and stops with at most two bytes
left. -/
theorem encodeLoop_eq (p t : List Byte) (pre : List Byte) (rest : List Byte) (g : List Byte)
    (hg : g.length % 3 = 0) (ht : t.length < 3) (o : Nat) (ho : o = pre.length) :
    encodeLoop (p ++ g ++ t) p.length o (pre ++ List.replicate (Spec.encode g).length 0#8 ++ rest) =
      .ok (pre ++ Spec.encode g ++ rest, (p ++ g).length, (pre ++ Spec.encode g).length) := by
  induction hn : g.length using Nat.strongRecOn generalizing g p pre o with
  | _ n ih =>
    match g, hg with
    | [], _ =>
      rw [encodeLoop, if_neg (by simp; omega)]
      simp [Spec.encode, ho]
    | [_], hg => simp at hg
    | [_, _], hg => simp at hg
    | a :: b :: c :: g', hg =>
      have ha := a.isLt
      have hb := b.isLt
      have hc := c.isLt
      rw [encodeLoop, if_pos (by simp <;> omega)]
      rw [show p ++ (a :: b :: c :: g') ++ t = p ++ (a :: b :: c :: (g' ++ t)) by simp]
      rw [byteAt_append p _ 0 p.length a (by simp) (by simp),
        byteAt_append p _ 1 (p.length + 1) b (by simp) (by simp),
        byteAt_append p _ 2 (p.length + 2) c (by simp) (by simp)]
      simp only [Out.bind_ok]
      rw [value_eq _ _ (idx0 a) (by omega), value_eq _ _ (idx1 a b) (by omega),
        value_eq _ _ (idx2 b c) (by omega), value_eq _ _ (idx3 c) (by omega)]
      simp only [Out.bind_ok]
      have hr : pre ++ List.replicate (Spec.encode (a :: b :: c :: g')).length 0#8 ++ rest =
          pre ++ 0#8 :: (0#8 :: 0#8 :: 0#8 ::
            (List.replicate (Spec.encode g').length 0#8 ++ rest)) := by
        simp [Spec.encode, List.replicate_succ]
      rw [hr, put_append _ _ _ _ _ ho]
      simp only [Out.bind_ok]
      rw [show ∀ (x : Byte) (l : List Byte), pre ++ x :: (0#8 :: l) = (pre ++ [x]) ++ 0#8 :: l by simp,
        put_append _ _ _ _ _ (by simp [ho])]
      simp only [Out.bind_ok]
      rw [show ∀ (x y : Byte) (l : List Byte), pre ++ [x] ++ y :: (0#8 :: l) =
        (pre ++ [x, y]) ++ 0#8 :: l by simp, put_append _ _ _ _ _ (by simp [ho])]
      simp only [Out.bind_ok]
      rw [show ∀ (x y z : Byte) (l : List Byte), pre ++ [x, y] ++ z :: (0#8 :: l) =
        (pre ++ [x, y, z]) ++ 0#8 :: l by simp, put_append _ _ _ _ _ (by simp [ho])]
      simp only [Out.bind_ok]
      rw [show p ++ (a :: b :: c :: (g' ++ t)) = (p ++ [a, b, c]) ++ g' ++ t by simp,
        show p.length + 3 = (p ++ [a, b, c]).length by simp,
        show ∀ (x y z w : Byte), pre ++ [x, y, z] ++ w ::
          (List.replicate (Spec.encode g').length 0#8 ++ rest) =
          (pre ++ [x, y, z, w]) ++ List.replicate (Spec.encode g').length 0#8 ++ rest by simp]
      rw [ih g'.length (by simp at hn; omega) _ _ g' (by simp at hg; omega) (o + 4) (by simp [ho]) rfl]
      simp [Spec.encode]

theorem specEncode_split (g t : List Byte) (hg : g.length % 3 = 0) :
    Spec.encode (g ++ t) = Spec.encode g ++ Spec.encode t := by
  induction hn : g.length using Nat.strongRecOn generalizing g with
  | _ n ih =>
    match g, hg with
    | [], _ => simp [Spec.encode]
    | [_], hg => simp at hg
    | [_, _], hg => simp at hg
    | a :: b :: c :: g', hg =>
      simp [Spec.encode, ih g'.length (by simp at hn; omega) g' (by simp at hg; omega) rfl]

theorem encode_eq (l : List Byte) : encode l = .ok (Spec.encode l) := by
  obtain ⟨g, t, rfl, hg, ht⟩ : ∃ g t, l = g ++ t ∧ g.length % 3 = 0 ∧ t.length < 3 :=
    ⟨l.take (l.length / 3 * 3), l.drop (l.length / 3 * 3), by simp, by simp; omega, by simp; omega⟩
  have hlen : 4 * (((g ++ t).length + 2) / 3) = (Spec.encode g).length + (Spec.encode t).length := by
    rw [← List.length_append, ← specEncode_split g t hg, specEncode_length]
  unfold encode
  simp only
  rw [if_neg (by omega), hlen]
  have h := encodeLoop_eq [] t [] (List.replicate (Spec.encode t).length 0#8) g hg ht 0 rfl
  simp only [List.nil_append, List.length_nil] at h
  rw [← List.replicate_append_replicate, h]
  simp only [Out.bind_ok]
  rw [specEncode_split g t hg]
  match t, ht with
  | [], _ => simp [Spec.encode]
  | [a], _ =>
    have ha := a.isLt
    rw [if_pos (by simp), byteAt_append g _ 0 g.length a (by simp) (by simp)]
    simp only [Out.bind_ok]
    rw [value_eq _ _ (idx0 a) (by omega), value_eq _ _ (and3 a) (by omega)]
    simp only [Spec.encode, List.length_cons, List.length_nil, List.replicate_succ,
      List.replicate_zero, Out.bind_ok]
    rw [put_append _ _ _ _ _ rfl]
    simp only [Out.bind_ok]
    rw [if_pos (by simp)]
    rw [show ∀ (x : Byte) (l : List Byte), Spec.encode g ++ x :: (0#8 :: l) =
      (Spec.encode g ++ [x]) ++ 0#8 :: l by simp, put_append _ _ _ _ _ (by simp)]
    simp only [Out.bind_ok]
    rw [show ∀ (x y : Byte) (l : List Byte), Spec.encode g ++ [x] ++ y :: (0#8 :: l) =
      (Spec.encode g ++ [x, y]) ++ 0#8 :: l by simp, put_append _ _ _ _ _ (by simp)]
    simp only [Out.bind_ok]
    rw [show ∀ (x y z : Byte) (l : List Byte), Spec.encode g ++ [x, y] ++ z :: (0#8 :: l) =
      (Spec.encode g ++ [x, y, z]) ++ 0#8 :: l by simp, put_append _ _ _ _ _ (by simp)]
    simp [padChar, Spec.eqSign]
  | [a, b], _ =>
    have ha := a.isLt
    have hb := b.isLt
    rw [if_pos (by simp), byteAt_append g _ 0 g.length a (by simp) (by simp),
      byteAt_append g _ 1 (g.length + 1) b (by simp) (by simp)]
    simp only [Out.bind_ok]
    rw [value_eq _ _ (idx0 a) (by omega), value_eq _ _ (idx1 a b) (by omega),
      value_eq _ _ (and15 b) (by omega)]
    simp only [Spec.encode, List.length_cons, List.length_nil, List.replicate_succ,
      List.replicate_zero, Out.bind_ok]
    rw [put_append _ _ _ _ _ rfl]
    simp only [Out.bind_ok]
    rw [if_neg (by simp)]
    rw [show ∀ (x : Byte) (l : List Byte), Spec.encode g ++ x :: (0#8 :: l) =
      (Spec.encode g ++ [x]) ++ 0#8 :: l by simp, put_append _ _ _ _ _ (by simp)]
    simp only [Out.bind_ok]
    rw [show ∀ (x y : Byte) (l : List Byte), Spec.encode g ++ [x] ++ y :: (0#8 :: l) =
      (Spec.encode g ++ [x, y]) ++ 0#8 :: l by simp, put_append _ _ _ _ _ (by simp)]
    simp only [Out.bind_ok]
    rw [show ∀ (x y z : Byte) (l : List Byte), Spec.encode g ++ [x, y] ++ z :: (0#8 :: l) =
      (Spec.encode g ++ [x, y, z]) ++ 0#8 :: l by simp, put_append _ _ _ _ _ (by simp)]
    simp [padChar, Spec.eqSign]

/-! ## the specifications invert each other -/

theorem symbol_props : ∀ i < 64, Spec.digit (Spec.symbol i) = i ∧ Spec.symbol i ≠ Spec.eqSign ∧
    (Spec.symbol i).toNat < 128 := by decide

theorem digit_symbol (i : Nat) (h : i < 64) : Spec.digit (Spec.symbol i) = i := (symbol_props i h).1

theorem byte1_symbol (i j : Nat) (hi : i < 64) (hj : j < 64) :
    Spec.byte1 (Spec.symbol i) (Spec.symbol j) = BitVec.ofNat 8 (i * 4 + j / 16) := by
  simp [Spec.byte1, digit_symbol, hi, hj]
theorem byte2_symbol (i j : Nat) (hi : i < 64) (hj : j < 64) :
    Spec.byte2 (Spec.symbol i) (Spec.symbol j) = BitVec.ofNat 8 (i % 16 * 16 + j / 4) := by
  simp [Spec.byte2, digit_symbol, hi, hj]
theorem byte3_symbol (i j : Nat) (hi : i < 64) (hj : j < 64) :
    Spec.byte3 (Spec.symbol i) (Spec.symbol j) = BitVec.ofNat 8 (i % 4 * 64 + j) := by
  simp [Spec.byte3, digit_symbol, hi, hj]

theorem ofNat_eq (a : Byte) (n : Nat) (h : n = a.toNat) : BitVec.ofNat 8 n = a := by
  subst h; simp

theorem specDecode_encode (l : List Byte) : Spec.decode (Spec.encode l) = l := by
  fun_induction Spec.encode l with
  | case1 a b c rest ih =>
    have ha := a.isLt
    have hb := b.isLt
    have hc := c.isLt
    have e1 : Spec.byte1 (Spec.symbol (a.toNat / 4)) (Spec.symbol (a.toNat % 4 * 16 + b.toNat / 16)) = a := by
      rw [byte1_symbol _ _ (by omega) (by omega)]; exact ofNat_eq _ _ (by omega)
    have e2 : Spec.byte2 (Spec.symbol (a.toNat % 4 * 16 + b.toNat / 16))
        (Spec.symbol (b.toNat % 16 * 4 + c.toNat / 64)) = b := by
      rw [byte2_symbol _ _ (by omega) (by omega)]; exact ofNat_eq _ _ (by omega)
    have e3 : Spec.byte3 (Spec.symbol (b.toNat % 16 * 4 + c.toNat / 64))
        (Spec.symbol (c.toNat % 64)) = c := by
      rw [byte3_symbol _ _ (by omega) (by omega)]; exact ofNat_eq _ _ (by omega)
    have hne := (symbol_props (c.toNat % 64) (by omega)).2.1
    cases hr : Spec.encode rest with
    | nil =>
      have : rest = [] := by
        rw [hr] at ih; simpa [Spec.decode] using ih.symm
      subst this
      simp [Spec.decode, hne, e1, e2, e3]
    | cons e r =>
      rw [Spec.decode, e1, e2, e3, ← hr, ih]
  | case2 a b =>
    have ha := a.isLt
    have hb := b.isLt
    have e1 : Spec.byte1 (Spec.symbol (a.toNat / 4)) (Spec.symbol (a.toNat % 4 * 16 + b.toNat / 16)) = a := by
      rw [byte1_symbol _ _ (by omega) (by omega)]; exact ofNat_eq _ _ (by omega)
    have e2 : Spec.byte2 (Spec.symbol (a.toNat % 4 * 16 + b.toNat / 16))
        (Spec.symbol (b.toNat % 16 * 4)) = b := by
      rw [byte2_symbol _ _ (by omega) (by omega)]; exact ofNat_eq _ _ (by omega)
    have hne := (symbol_props (b.toNat % 16 * 4) (by omega)).2.1
    simp [Spec.decode, hne, e1, e2]
  | case3 a =>
    have ha := a.isLt
    have e1 : Spec.byte1 (Spec.symbol (a.toNat / 4)) (Spec.symbol (a.toNat % 4 * 16)) = a := by
      rw [byte1_symbol _ _ (by omega) (by omega)]; exact ofNat_eq _ _ (by omega)
    simp [Spec.decode, e1]
  | case4 => rfl

theorem specEncode_chars (l : List Byte) :
    ∃ body, Spec.encode l = body ++ List.replicate (Spec.padding l.length) Spec.eqSign ∧
      ∀ c ∈ body, ∃ i, i < 64 ∧ c = Spec.symbol i := by
  fun_induction Spec.encode l with
  | case1 a b c rest ih =>
    have ha := a.isLt
    have hb := b.isLt
    have hc := c.isLt
    obtain ⟨body, h1, h2⟩ := ih
    refine ⟨Spec.symbol (a.toNat / 4) :: Spec.symbol (a.toNat % 4 * 16 + b.toNat / 16) ::
      Spec.symbol (b.toNat % 16 * 4 + c.toNat / 64) :: Spec.symbol (c.toNat % 64) :: body, ?_, ?_⟩
    · simp only [List.length_cons]
      rw [show Spec.padding (rest.length + 1 + 1 + 1) = Spec.padding rest.length by
        unfold Spec.padding; omega]
      simp [h1]
    · intro x hx
      simp only [List.mem_cons] at hx
      rcases hx with rfl | rfl | rfl | rfl | hx
      · exact ⟨_, by omega, rfl⟩
      · exact ⟨_, by omega, rfl⟩
      · exact ⟨_, by omega, rfl⟩
      · exact ⟨_, by omega, rfl⟩
      · exact h2 x hx
  | case2 a b =>
    have ha := a.isLt
    have hb := b.isLt
    refine ⟨[Spec.symbol (a.toNat / 4), Spec.symbol (a.toNat % 4 * 16 + b.toNat / 16),
      Spec.symbol (b.toNat % 16 * 4)], by simp [Spec.padding], ?_⟩
    intro x hx
    simp only [List.mem_cons, List.not_mem_nil, or_false] at hx
    rcases hx with rfl | rfl | rfl
    · exact ⟨_, by omega, rfl⟩
    · exact ⟨_, by omega, rfl⟩
    · exact ⟨_, by omega, rfl⟩
  | case3 a =>
    have ha := a.isLt
    refine ⟨[Spec.symbol (a.toNat / 4), Spec.symbol (a.toNat % 4 * 16)],
      by simp [Spec.padding, List.replicate_succ], ?_⟩
    intro x hx
    simp only [List.mem_cons, List.not_mem_nil, or_false] at hx
    rcases hx with rfl | rfl
    · exact ⟨_, by omega, rfl⟩
    · exact ⟨_, by omega, rfl⟩
  | case4 => exact ⟨[], by simp [Spec.padding], by simp⟩

end Verif.Base64
