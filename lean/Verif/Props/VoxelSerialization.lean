import Verif.Model.VoxelSerialization
import Verif.Lemmas.GraphSerialization
import Verif.Props.SerializationEigen

/-!
# C38: voxel grids survive serialization
-/
namespace Verif.Voxel
open Verif Verif.Serialization Verif.SerializationRos Verif.SerializationEigen Verif.Graph Verif.Rrt

variable {T : Type}

/-- The grid can exist in memory: transforms of 16 coefficients, `int64_t` numbers and fewer than 2^63
cells. The numbers need not fit together. -/
def Storable (validValue : T → Prop) (g : RawGrid T) : Prop :=
  g.origin.length = 16 ∧ g.inverseOrigin.length = 16 ∧ g.data.length < 2 ^ 63 ∧
  (∀ v ∈ g.data, validValue v) ∧ validValue g.default ∧ validValue g.oob ∧
  ∀ n ∈ [g.stride1, g.stride2, g.numX, g.numY, g.numZ], -2 ^ 63 ≤ n ∧ n < 2 ^ 63

theorem serializeEach_eq {α : Type} (P : Pod α) (l : List α) : ∀ buf,
    serializeEach P l buf = .ok (buf ++ l.flatMap P.toBytes) := by
  induction l with
  | nil => intro buf; simp [serializeEach]
  | cons a l ih =>
    intro buf
    simp only [serializeEach, serializeFixedSizePOD_appends P a _, Out.bind_ok, ih, List.flatMap_cons,
      List.append_assoc]

theorem deserializeEach_eq {α : Type} (P : Pod α) (l : List α) : ∀ {buf : Buf} {pos : Nat},
    At buf pos (l.flatMap P.toBytes) →
    deserializeEach P l.length buf pos = .ok (l, pos + (l.flatMap P.toBytes).length) := by
  induction l with
  | nil => intro buf pos _; simp [deserializeEach]
  | cons a l ih =>
    intro buf pos h
    rw [List.flatMap_cons] at h
    simp only [List.length_cons, deserializeEach, (deserializeFixedSizePOD_reads P a).at h.left,
      Out.bind_ok, ih h.right, List.flatMap_cons, List.length_append, Nat.add_assoc]

/-- Every grid is read back as it was written, at every offset, for every value serializer that does
the same. -/
theorem C38_roundtrip (e : Endian) (s : Ser T) (d : Des T) (v : T → Prop) (h : RoundTrips s d v) :
    RoundTrips (serializeGrid e s) (deserializeGrid e d) (Storable v) := by
  intro g ⟨ho, hi, hl, hd, hdef, hoob, hn⟩
  simp only [List.mem_cons, List.not_mem_nil, or_false, forall_eq_or_imp, forall_eq] at hn
  obtain ⟨hn1, hn2, hn3, hn4, hn5⟩ := hn
  obtain ⟨ao, ro⟩ := C06_isometry3_roundtrip (pod64 e) g.origin ho
  obtain ⟨ai, ri⟩ := C06_isometry3_roundtrip (pod64 e) g.inverseOrigin hi
  obtain ⟨bd, nd, ad, rd⟩ := C02_vector_roundtrip e _ _ _ h g.data ⟨hl, hd⟩
  obtain ⟨b1, n1, a1, r1⟩ := h g.default hdef
  obtain ⟨b2, n2, a2, r2⟩ := h g.oob hoob
  beta_reduce at ao ro ai ri
  generalize (g.origin.flatMap (pod64 e).toBytes) = bo at ao ro
  generalize (g.inverseOrigin.flatMap (pod64 e).toBytes) = bi at ai ri
  have hin : decide ((if g.initialized then 1#8 else 0#8) ≠ 0#8) = g.initialized := by
    cases g.initialized <;> decide
  have hasm : assemble (if g.initialized then 1#8 else 0#8) g.origin g.inverseOrigin g.data
      [g.cellX, g.cellY, g.cellZ, g.invCellX, g.invCellY, g.invCellZ, g.sizeX, g.sizeY, g.sizeZ]
      [BitVec.ofInt 64 g.stride1, BitVec.ofInt 64 g.stride2,
        BitVec.ofInt 64 g.numX, BitVec.ofInt 64 g.numY, BitVec.ofInt 64 g.numZ] g.default g.oob = g := by
    have e1 := toInt_ofInt64 hn1
    have e2 := toInt_ofInt64 hn2
    have e3 := toInt_ofInt64 hn3
    have e4 := toInt_ofInt64 hn4
    have e5 := toInt_ofInt64 hn5
    cases g
    simp only [assemble, List.getElem!_cons_zero, List.getElem!_cons_succ, Grid.mk.injEq]
    simp only at e1 e2 e3 e4 e5 hin
    simp only [true_and]
    exact ⟨e1, e2, e3, e4, e5, hin⟩
  have ed := serializeEach_eq (pod64 e)
    [g.cellX, g.cellY, g.cellZ, g.invCellX, g.invCellY, g.invCellZ, g.sizeX, g.sizeY, g.sizeZ]
  have ei := serializeEach_eq (pod64 e) [BitVec.ofInt 64 g.stride1, BitVec.ofInt 64 g.stride2,
        BitVec.ofInt 64 g.numX, BitVec.ofInt 64 g.numY, BitVec.ofInt 64 g.numZ]
  have fd := @deserializeEach_eq _ (pod64 e)
    [g.cellX, g.cellY, g.cellZ, g.invCellX, g.invCellY, g.invCellZ, g.sizeX, g.sizeY, g.sizeZ]
  have fi := @deserializeEach_eq _ (pod64 e) [BitVec.ofInt 64 g.stride1, BitVec.ofInt 64 g.stride2,
        BitVec.ofInt 64 g.numX, BitVec.ofInt 64 g.numY, BitVec.ofInt 64 g.numZ]
  unfold Appends ReadsBack serializeGrid deserializeGrid
  generalize hld : [g.cellX, g.cellY, g.cellZ, g.invCellX, g.invCellY, g.invCellZ, g.sizeX, g.sizeY,
    g.sizeZ] = ld at *
  generalize hli : [BitVec.ofInt 64 g.stride1, BitVec.ofInt 64 g.stride2,
        BitVec.ofInt 64 g.numX, BitVec.ofInt 64 g.numY, BitVec.ofInt 64 g.numZ] = li at *
  have hld' : ld.length = 9 := by rw [← hld]; rfl
  have hli' : li.length = 5 := by rw [← hli]; rfl
  rw [hld'] at fd
  rw [hli'] at fi
  clear hld hli
  generalize ld.flatMap (pod64 e).toBytes = bld at *
  generalize li.flatMap (pod64 e).toBytes = bli at *
  refine ⟨(pod8 e).toBytes (if g.initialized then 1#8 else 0#8) ++ bo ++ bi ++ bd ++
    bld ++ bli ++ b1 ++ b2, by simp [n2], ?_, ?_⟩
  · intro buf
    simp only [serializeFixedSizePOD_appends (pod8 e) _ _, ao _, ai _, ad _, a1 _, a2 _,
      ed, ei, Out.bind_ok]
    simp
  · intro pre suf
    have hat := At.intro pre ((pod8 e).toBytes (if g.initialized then 1#8 else 0#8) ++ bo ++ bi ++ bd ++
      bld ++ bli ++ b1 ++ b2) suf
    generalize pre ++ ((pod8 e).toBytes (if g.initialized then 1#8 else 0#8) ++ bo ++ bi ++ bd ++
      bld ++ bli ++ b1 ++ b2) ++ suf = buf at hat ⊢
    generalize pre.length = pos at hat ⊢
    have h8 := hat.right
    have h7 := hat.left.right
    have h6 := hat.left.left.right
    have h5 := hat.left.left.left.right
    have h4 := hat.left.left.left.left.right
    have h3 := hat.left.left.left.left.left.right
    have h2 := hat.left.left.left.left.left.left.right
    have h1 := hat.left.left.left.left.left.left.left
    simp only [List.length_append, ← Nat.add_assoc] at h2 h3 h4 h5 h6 h7 h8
    simp only [(deserializeFixedSizePOD_reads (pod8 e) _).at h1, Out.bind_ok,
      ro.at h2, ri.at h3, rd.at h4, fd h5, fi h6, r1.at h7, r2.at h8, hasm]
    simp only [List.length_append]
    congr 2
    omega

theorem good_isometry3 {α : Type} (P : Pod α) :
    InBounds (deserializeIsometry3 P) ∧ IgnoresSuffix (deserializeIsometry3 P) ∧
      FailsCleanly (deserializeIsometry3 P) := by
  refine ⟨?_, ?_, ?_⟩
  · intro buf cur a k h
    simp only [deserializeIsometry3, Out.bind_eq_ok, Out.assert_eq_ok] at h
    obtain ⟨_, h1, _, h2, h3⟩ := h
    injection h3 with h3; injection h3 with _ h3; omega
  · intro buf cur r suf h
    simp only [deserializeIsometry3, Out.bind_eq_ok, Out.assert_eq_ok] at h ⊢
    obtain ⟨_, h1, _, h2, h3⟩ := h
    refine ⟨(), by rw [List.length_append]; omega, (), by rw [List.length_append]; omega, ?_⟩
    rw [readScalars_suffix P _ _ _ _ h2]; exact h3
  · intro buf cur
    unfold deserializeIsometry3
    by_cases h1 : cur < buf.length
    · by_cases h2 : cur + 16 * P.size ≤ buf.length
      · simp [Out.assert_true, h1, h2]
      · simp [Out.assert_true, Out.assert_false, h1, h2]
    · simp [Out.assert_false, h1]

/-- reading several values, counting the bytes read instead of the position -/
def desEach {α : Type} (P : Pod α) (n : Nat) : Des (List α) := fun buf pos => do
  let r ← deserializeEach P n buf pos
  .ok (r.1, r.2 - pos)

theorem deserializeEach_le {α : Type} (P : Pod α) (n : Nat) : ∀ {buf : Buf} {pos : Nat} {r},
    deserializeEach P n buf pos = .ok r → pos ≤ r.2 := by
  induction n with
  | zero =>
    intro buf pos r h
    simp only [deserializeEach, Out.ok.injEq] at h
    subst h; exact Nat.le_refl _
  | succ n ih =>
    intro buf pos r h
    simp only [deserializeEach, Out.bind_eq_ok, Out.ok.injEq] at h
    obtain ⟨a, _, b, hb, rfl⟩ := h
    have := ih hb
    dsimp only
    omega

theorem good_each {α : Type} (P : Pod α) (n : Nat) (hn : 0 < n) :
    InBounds (desEach P n) ∧ IgnoresSuffix (desEach P n) ∧ FailsCleanly (desEach P n) := by
  induction n with
  | zero => omega
  | succ n ih =>
    by_cases h0 : n = 0
    · subst h0
      refine good_congr (d := fun buf pos => do
        let a ← deserializeFixedSizePOD P buf pos
        .ok ([a.1], a.2)) ?_ ?_
      · obtain ⟨h1, h2, h3⟩ := good_pod P
        refine ⟨?_, ?_, ?_⟩
        · intro buf cur r k h
          simp only [Out.bind_eq_ok, Out.ok.injEq, Prod.mk.injEq] at h
          obtain ⟨a, ha, _, rfl⟩ := h
          exact h1 buf cur a.1 a.2 ha
        · intro buf cur r suf h
          simp only [Out.bind_eq_ok, Out.ok.injEq] at h ⊢
          obtain ⟨a, ha, h⟩ := h
          exact ⟨a, h2 buf cur a suf ha, h⟩
        · intro buf cur
          rcases h3 buf cur with h | h | ⟨a, h⟩
          · simp [h]
          · simp [h]
          · simp [h]
      · intro buf cur
        simp only [desEach, deserializeEach, Out.bind_ok, out_bind_assoc]
        congr 1; funext a
        congr 2; omega
    · refine good_congr (seq2_props (mk := List.cons) (good_pod P) (ih (by omega))) ?_
      intro buf cur
      simp only [seq2, desEach, deserializeEach, out_bind_assoc, Out.bind_ok]
      congr 1; funext a
      cases hb : deserializeEach P n buf (cur + a.2) with
      | ok b =>
        have := deserializeEach_le P n hb
        simp only [Out.bind_ok]
        congr 2
        omega
      | _ => rfl

/-- Reading a grid from arbitrary bytes never reads outside the buffer and fails only by a failed
assertion or `std::length_error`, provided the value deserializer does. -/
theorem C38_arbitrary_buffers (e : Endian) (d : Des T)
    (h : InBounds d ∧ IgnoresSuffix d ∧ FailsCleanly d) : Robust (deserializeGrid e d) := by
  have i := good_isometry3 (pod64 e)
  have h6 := seq2_props (mk := fun (a : ((((((BitVec 8 × List (BitVec 64)) × List (BitVec 64)) × List T) ×
      List (BitVec 64)) × List (BitVec 64)) × T)) (oob : T) =>
      assemble a.1.1.1.1.1.1 a.1.1.1.1.1.2 a.1.1.1.1.2 a.1.1.1.2 a.1.1.2 a.1.2 a.2 oob)
    (seq2_props (mk := Prod.mk) (seq2_props (mk := Prod.mk) (seq2_props (mk := Prod.mk)
    (seq2_props (mk := Prod.mk) (seq2_props (mk := Prod.mk) (seq2_props (mk := Prod.mk)
    (good_pod (pod8 e)) i) i) (good_vector e h)) (good_each (pod64 e) 9 (by omega)))
      (good_each (pod64 e) 5 (by omega))) h) h
  refine Good.robust (good_congr h6 (fun buf cur => ?_))
  simp only [seq2, deserializeGrid, desEach, out_bind_assoc, Out.bind_ok, ← Nat.add_assoc]
  congr 1; funext a; congr 1; funext b; congr 1; funext c; congr 1; funext f
  cases hd : deserializeEach (pod64 e) 9 buf (cur + a.2 + b.2 + c.2 + f.2) with
  | ok x =>
    have l1 := deserializeEach_le _ _ hd
    have e1 : cur + a.2 + b.2 + c.2 + f.2 + (x.2 - (cur + a.2 + b.2 + c.2 + f.2)) = x.2 := by omega
    simp only [Out.bind_ok, e1]
    cases hi : deserializeEach (pod64 e) 5 buf x.2 with
    | ok y =>
      have l2 := deserializeEach_le _ _ hi
      have e2 : x.2 + (y.2 - x.2) = y.2 := by omega
      simp only [Out.bind_ok, e2]
      congr 1; funext g; congr 1; funext k
      congr 2
      omega
    | _ => rfl
  | _ => rfl

/-- A concrete grid. -/
example : Storable (fun _ : BitVec 8 => True)
    ⟨List.replicate 16 0, List.replicate 16 1, 3, 4, [1, 2], 1, 1, 1, 1, 1, 1, 1, 1, 2, 2, 2, 1, 1, 2,
      true⟩ := by
  simp [Storable]

/-- Its last bytes: the counts, the default and the out-of-bounds value. -/
example : ((serializeGrid .little (serializeFixedSizePOD (pod8 .little)) 
    ⟨List.replicate 16 0, List.replicate 16 1, 3, 4, [1, 2], 1, 1, 1, 1, 1, 1, 1, 1, 2, 2, 2, 1, 1, 2,
      true⟩ []).bind fun r => .ok (r.1, r.2.drop 355)) =
    .ok (381, [1, 0, 0, 0, 0, 0, 0, 0, 1, 0, 0, 0, 0, 0, 0, 0, 2, 0, 0, 0, 0, 0, 0, 0, 3, 4]) := by
  decide +kernel

end Verif.Voxel
