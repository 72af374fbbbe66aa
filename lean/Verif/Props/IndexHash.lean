import Verif.Spec.IndexHash
import Verif.Props.Hash

/-!
# C178: the hash of grid indices
-/
namespace Verif.Hash

/-- **C178.** Indices compare equal exactly if they are the same. -/
theorem C178_equal (a b : GridIndex) : a.equal b = true ↔ a = b := by
  cases a; cases b; simp [GridIndex.equal, and_assoc]

/-- **C178.** The hash of a cell. -/
theorem C178_value (x y z : Nat) (hx : x < 2 ^ 63) (hy : y < 2 ^ 63) (hz : z < 2 ^ 63) :
    (hashGridIndex (cell x y z)).toNat = x ^^^ y ^^^ (2 * z) := by
  have h1 : 2 * y % 2 ^ 64 = 2 * y := Nat.mod_eq_of_lt (by omega)
  have h2 : 2 * z % 2 ^ 64 = 2 * z := Nat.mod_eq_of_lt (by omega)
  have e1 : x % 2 ^ 64 = x := Nat.mod_eq_of_lt (by omega)
  have e2 : y % 2 ^ 64 = y := Nat.mod_eq_of_lt (by omega)
  have e3 : z % 2 ^ 64 = z := Nat.mod_eq_of_lt (by omega)
  simp only [hashGridIndex, cell, BitVec.toNat_xor, BitVec.toNat_ofNat, BitVec.toNat_ushiftRight,
    BitVec.toNat_shiftLeft, e1, e2, e3, Nat.shiftLeft_eq, Nat.pow_one, Nat.mul_comm _ 2, h1, h2,
    Nat.shiftRight_eq_div_pow, Nat.mul_div_cancel_left y (show 0 < 2 by decide)]

/-- **C178.** In a cube with `2 ^ k` cells on each side there are `2 ^ (3 * k)` cells, but fewer than `2 ^ (k + 1)` hashes are used. -/
theorem C178_few (k : Nat) (hk : k ≤ 62) (x y z : Nat) (hx : x < 2 ^ k) (hy : y < 2 ^ k) (hz : z < 2 ^ k) :
    (hashGridIndex (cell x y z)).toNat < 2 ^ (k + 1) := by
  have h : 2 ^ k ≤ 2 ^ 62 := Nat.pow_le_pow_right (by decide) hk
  rw [C178_value x y z (by omega) (by omega) (by omega)]
  have e : 2 ^ (k + 1) = 2 * 2 ^ k := by rw [Nat.pow_succ, Nat.mul_comm]
  exact Nat.xor_lt_two_pow (Nat.xor_lt_two_pow (by omega) (by omega)) (by omega)

/-- **C178.** The cells of the cube with hash zero. -/
theorem C178_zero (k : Nat) (hk : k ≤ 62) (x y z : Nat) (hx : x < 2 ^ k) (hy : y < 2 ^ k) (hz : z < 2 ^ k) :
    hashGridIndex (cell x y z) = 0 ↔ y = x ^^^ (2 * z) := by
  have h : 2 ^ k ≤ 2 ^ 62 := Nat.pow_le_pow_right (by decide) hk
  have hv := C178_value x y z (by omega) (by omega) (by omega)
  rw [← BitVec.toNat_inj, hv]
  constructor
  · intro h0
    have h0 : x ^^^ y ^^^ 2 * z = 0 := h0
    have := congrArg (fun n => x ^^^ n ^^^ (2 * z)) h0
    simp only [Nat.xor_zero] at this
    rw [← this, ← Nat.xor_assoc, ← Nat.xor_assoc, Nat.xor_self, Nat.zero_xor, Nat.xor_assoc, Nat.xor_self, Nat.xor_zero]
  · rintro rfl
    show _ = 0
    rw [← Nat.xor_assoc, Nat.xor_self, Nat.zero_xor, Nat.xor_self]

theorem half_lt (k : Nat) (hk : 1 ≤ k) (x z : Nat) (hx : x < 2 ^ k) (hz : z < 2 ^ (k - 1)) :
    x ^^^ (2 * z) < 2 ^ k ∧ z < 2 ^ k := by
  have e : 2 ^ k = 2 * 2 ^ (k - 1) := by
    obtain ⟨m, rfl⟩ : ∃ m, k = m + 1 := ⟨k - 1, by omega⟩
    rw [Nat.pow_succ, Nat.mul_comm]; rfl
  exact ⟨Nat.xor_lt_two_pow hx (by omega), by omega⟩

/-- **C178.** Of the `2 ^ (3 * k)` cells of the cube, `2 ^ (2 * k - 1)` have the hash zero. -/
theorem C178_crowded (k : Nat) (h1 : 1 ≤ k) (hk : k ≤ 62) : ∃ cells : List (Nat × Nat × Nat),
    cells.length = 2 ^ (2 * k - 1) ∧ cells.Nodup ∧
      ∀ c ∈ cells, c.1 < 2 ^ k ∧ c.2.1 < 2 ^ k ∧ c.2.2 < 2 ^ k ∧ hashGridIndex (cell c.1 c.2.1 c.2.2) = 0 := by
  let b := 2 ^ (k - 1)
  have hb : 0 < b := Nat.pow_pos (by decide)
  refine ⟨(List.range (2 ^ k * b)).map fun n => (n / b, (n / b) ^^^ (2 * (n % b)), n % b), ?_, ?_, ?_⟩
  · rw [List.length_map, List.length_range, ← Nat.pow_add]
    congr 1
    omega
  · refine List.Pairwise.map _ ?_ List.nodup_range
    intro m n hne h
    simp only [Prod.mk.injEq] at h
    refine hne ?_
    rw [← Nat.div_add_mod m b, ← Nat.div_add_mod n b, h.1, h.2.2]
  · intro c hc
    obtain ⟨n, hn, rfl⟩ := List.mem_map.1 hc
    have hn := List.mem_range.1 hn
    have hx : n / b < 2 ^ k := Nat.div_lt_of_lt_mul (by rwa [Nat.mul_comm])
    have hz : n % b < 2 ^ (k - 1) := Nat.mod_lt _ hb
    obtain ⟨h2, h3⟩ := half_lt k h1 _ _ hx hz
    exact ⟨hx, h2, h3, (C178_zero k hk _ _ _ hx h2 h3).2 rfl⟩

/-- **C178.** Two cells with the same hash in the same row are the same. -/
theorem C178_rows (x x' y z : BitVec 64) : hashGridIndex ⟨x, y, z⟩ = hashGridIndex ⟨x', y, z⟩ ↔ x = x' := by
  unfold hashGridIndex
  simp only
  rw [xor_cancel_right, xor_cancel_right]

/-- Three cells of a grid with four cells on each side and the hash zero. -/
example : hashGridIndex (cell 1 1 0) = 0 ∧ hashGridIndex (cell 2 2 0) = 0 ∧ hashGridIndex (cell 3 1 1) = 0 :=
  ⟨(C178_zero 2 (by decide) _ _ _ (by decide) (by decide) (by decide)).2 (by decide),
    (C178_zero 2 (by decide) _ _ _ (by decide) (by decide) (by decide)).2 (by decide),
    (C178_zero 2 (by decide) _ _ _ (by decide) (by decide) (by decide)).2 (by decide)⟩

/-- Negative coordinates are also told apart within a row. -/
example : hashGridIndex ⟨-1, 5, 7⟩ ≠ hashGridIndex ⟨1, 5, 7⟩ := fun h => absurd ((C178_rows _ _ _ _).1 h) (by decide)

end Verif.Hash
