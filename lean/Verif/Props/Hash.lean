import Verif.Model.Hash
/-!
# C143: hashes of composed values
-/
namespace Verif.Hash

theorem xor_cancel {a b c : BitVec 64} : a ^^^ b = a ^^^ c ↔ b = c := by
  constructor
  · intro h
    have := congrArg (a ^^^ ·) h
    simpa [← BitVec.xor_assoc] using this
  · rintro rfl; rfl

theorem xor_cancel_right {a b c : BitVec 64} : b ^^^ a = c ^^^ a ↔ b = c := by
  rw [BitVec.xor_comm b, BitVec.xor_comm c]; exact xor_cancel

theorem add_cancel {a b c : BitVec 64} : b + a = c + a ↔ b = c := by
  constructor
  · intro h
    have := congrArg (· - a) h
    simpa [BitVec.add_sub_cancel] using this
  · rintro rfl; rfl

/-- C143: for a given seed, combining is one to one and onto: different hashes give different results, and every result
comes from some hash. -/
theorem C143_combine (seed : BitVec 64) :
    (∀ h h', hashCombine seed h = hashCombine seed h' ↔ h = h') ∧ ∀ r, ∃ h, hashCombine seed h = r := by
  constructor
  · intro h h'
    unfold hashCombine
    rw [xor_cancel, add_cancel, add_cancel, add_cancel]
  · intro r
    refine ⟨(seed ^^^ r) - (seed >>> 2) - (seed <<< 6) - 0x9e3779b9#64, ?_⟩
    unfold hashCombine
    rw [BitVec.sub_add_cancel, BitVec.sub_add_cancel, BitVec.sub_add_cancel, ← BitVec.xor_assoc, BitVec.xor_self,
      BitVec.zero_xor]

/-- C143: pairs with the same first part collide exactly if the hashes of their second parts do. -/
theorem C143_pair_second {A B : Type} (hashA : A → BitVec 64) (hashB : B → BitVec 64) (a : A) (b b' : B) :
    hashPair hashA hashB a b = hashPair hashA hashB a b' ↔ hashB b = hashB b' :=
  (C143_combine _).1 _ _

/-- C143: vectors that differ only in the last place collide exactly if the hashes of the last places do; the hash of the
empty vector is zero. -/
theorem C143_vector_last {T : Type} (hash : T → BitVec 64) (v : List T) (x x' : T) :
    (hashVector hash (v ++ [x]) = hashVector hash (v ++ [x']) ↔ hash x = hash x') ∧ hashVector hash [] = 0 := by
  refine ⟨?_, rfl⟩
  unfold hashVector
  rw [List.foldl_append, List.foldl_append]
  exact (C143_combine _).1 _ _

/-- C143: a vector of two is hashed as a pair; a vector of one as the hash plus a constant. -/
theorem C143_vector_pair {T : Type} (hash : T → BitVec 64) (x y : T) :
    hashVector hash [x, y] = hashPair hash hash x y ∧ hashVector hash [x] = hash x + 0x9e3779b9#64 := by
  refine ⟨rfl, ?_⟩
  simp [hashVector, hashCombine]

/-- C143: pairs that differ in the first part only can collide although the hashes of the parts differ; so with whole
numbers, whose hash is the number. The order matters. -/
theorem C143_pair_first_collides :
    hashPair (A := BitVec 64) (B := BitVec 64) id id 1391 1 = hashPair id id 2137 1 ∧
    hashPair (A := BitVec 64) (B := BitVec 64) id id 1 2 ≠ hashPair id id 2 1 := by
  decide

theorem shl_iff (a b : BitVec 64) : a <<< 1 = b <<< 1 ↔ a.setWidth 63 = b.setWidth 63 := by
  constructor
  · intro h
    ext i hi
    have := congrArg (fun v : BitVec 64 => v.getLsbD (i + 1)) h
    simp only [BitVec.getLsbD_shiftLeft] at this
    simp only [BitVec.getElem_setWidth]
    simpa [show i + 1 < 64 by omega] using this
  · intro h
    ext i hi
    simp only [BitVec.getElem_shiftLeft]
    by_cases h1 : i < 1
    · simp [h1]
    · have := congrArg (fun v : BitVec 63 => v.getLsbD (i - 1)) h
      simp only [BitVec.getLsbD_setWidth, show i - 1 < 63 by omega, decide_true, Bool.true_and] at this
      simpa [h1, ← BitVec.getLsbD_eq_getElem] using this

theorem shr_iff (a b : BitVec 64) : (a <<< 1) >>> 1 = (b <<< 1) >>> 1 ↔ a.setWidth 63 = b.setWidth 63 := by
  rw [← shl_iff]
  constructor
  · intro h
    ext i hi
    by_cases h1 : i < 1
    · simp [h1]
    · have := congrArg (fun v : BitVec 64 => v.getLsbD (i - 1)) h
      simp only [BitVec.getLsbD_ushiftRight, show 1 + (i - 1) = i by omega] at this
      simpa [BitVec.getLsbD_eq_getElem hi] using this
  · intro h; rw [h]

/-- C143: vectors of three numbers that differ in the first only collide exactly if its hashes do; those that differ in the
second only, or the third only, if the hashes agree but for the highest bit. The same holds for complex numbers. -/
theorem C143_vector3 {T : Type} (hash : T → BitVec 64) (x y z x' y' z' : T) :
    (hashVector3 hash x y z = hashVector3 hash x' y z ↔ hash x = hash x') ∧
    (hashVector3 hash x y z = hashVector3 hash x y' z ↔ (hash y).setWidth 63 = (hash y').setWidth 63) ∧
    (hashVector3 hash x y z = hashVector3 hash x y z' ↔ (hash z).setWidth 63 = (hash z').setWidth 63) ∧
    (hashComplex hash x y = hashComplex hash x' y ↔ hash x = hash x') ∧
    (hashComplex hash x y = hashComplex hash x y' ↔ (hash y).setWidth 63 = (hash y').setWidth 63) := by
  unfold hashVector3 hashComplex
  refine ⟨?_, ?_, ?_, ?_, ?_⟩
  · rw [xor_cancel_right, xor_cancel_right]
  · rw [xor_cancel_right, xor_cancel, shr_iff]
  · rw [xor_cancel, shl_iff]
  · rw [xor_cancel_right]
  · rw [xor_cancel, shr_iff]

/-- C143: the first two places of a vector of three may be exchanged without a change of the hash, if their hashes have not
the highest bit; so points mirrored at a diagonal plane collide. -/
theorem C143_vector3_mirrored {T : Type} (hash : T → BitVec 64) (x y z : T) (hx : (hash x).msb = false)
    (hy : (hash y).msb = false) : hashVector3 hash x y z = hashVector3 hash y x z := by
  have key : ∀ h : BitVec 64, h.msb = false → (h <<< 1) >>> 1 = h := by
    intro h hm
    ext i hi
    rw [BitVec.getElem_ushiftRight, BitVec.getLsbD_shiftLeft]
    by_cases h1 : i = 63
    · subst h1
      rw [BitVec.msb_eq_getLsbD_last] at hm
      simp only [Nat.add_one_sub_one] at hm
      rw [← BitVec.getLsbD_eq_getElem, hm]
      simp
    · simp [show 1 + i < 64 by omega, show 1 + i - 1 = i by omega, BitVec.getLsbD_eq_getElem hi]
  unfold hashVector3
  rw [key _ hx, key _ hy, BitVec.xor_comm (hash x)]

example : hashVector3 (T := BitVec 64) id 1 2 3 = hashVector3 id 2 1 3 := C143_vector3_mirrored id 1 2 3 (by decide) (by decide)

end Verif.Hash
