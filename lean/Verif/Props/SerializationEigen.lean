import Verif.Lemmas.SerializationEigen

/-! # C06: Eigen types -/
namespace Verif.SerializationEigen
open Verif Verif.Serialization Verif.SerializationRos

/-- C06: the returned count is `SerializedSizeEigen` and the bytes are the documented layout, for
every matrix type and every value of it. -/
theorem C06_layout {α : Type} (e : Endian) (P : Pod α) (R C : Dim) (m : Mat α)
    (hr : m.rows < 2 ^ 63) (hc : m.cols < 2 ^ 63) :
    Appends (serializeEigen e P R C) m (layout e P R C m) ∧
    serializedSizeEigen P R C m = (layout e P R C m).length := by
  refine ⟨serializeEigen_appends e P R C m (fun _ => hr) (fun _ => hc), ?_⟩
  have hd := flatMap_length P m.data
  by_cases h1 : R = .dynamic <;> by_cases h2 : C = .dynamic <;>
    simp [serializedSizeEigen, layout, h1, h2, hd, field_length] <;> omega

/-- C06, `Vector3d`, `Vector6d`, `Vector7d` (and any other fixed length `n > 0`). -/
theorem C06_fixed_vector_roundtrip {α : Type} (e : Endian) (P : Pod α) (n : Nat) (hn : 0 < n)
    (m : Mat α) (hm : m.HasShape (.fixed n) (.fixed 1)) :
    HasLayout (serializeEigen e P (.fixed n) (.fixed 1)) (deserializeFixedVector P n)
      (layout e P (.fixed n) (.fixed 1)) m := by
  obtain ⟨h1, h2, h3⟩ := hm
  have h1 := h1 n rfl
  have h2 := h2 1 rfl
  refine ⟨serializeEigen_appends e P _ _ m (by simp) (by simp), fun pre suf => ?_⟩
  have hl : layout e P (.fixed n) (.fixed 1) m = m.data.flatMap P.toBytes := by simp [layout]
  rw [hl]
  have hat := At.intro pre (m.data.flatMap P.toBytes) suf
  generalize pre ++ m.data.flatMap P.toBytes ++ suf = buf at hat ⊢
  generalize pre.length = pos at hat ⊢
  have hb := At.bound hat
  have hlen : m.data.length = n * 1 := by rw [h3, h1, h2]
  have hpos : 0 < n * 1 * P.size := by
    have := P.size_pos
    rw [Nat.mul_one]; exact Nat.mul_pos hn this
  rw [flatMap_length, hlen] at hb ⊢
  simp only [deserializeFixedVector]
  rw [Out.assert_true (by omega), Out.assert_true hb]
  have := readScalars_at P m.data hat
  rw [hlen] at this
  simp only [Out.bind_ok, this]
  congr 2
  cases m; simp_all

/-- C06, `VectorXd`. -/
theorem C06_vectorX_roundtrip {α : Type} (e : Endian) (P : Pod α) (m : Mat α)
    (hm : m.HasShape .dynamic (.fixed 1)) (hf : m.Fits P) :
    HasLayout (serializeEigen e P .dynamic (.fixed 1)) (deserializeVectorX e P)
      (layout e P .dynamic (.fixed 1)) m := by
  obtain ⟨_, h2, h3⟩ := hm
  have h2 := h2 1 rfl
  obtain ⟨f1, f2, f3⟩ := hf
  refine ⟨serializeEigen_appends e P _ _ m (fun _ => f1) (by simp), fun pre suf => ?_⟩
  have hl : layout e P .dynamic (.fixed 1) m = field e 8 m.rows ++ m.data.flatMap P.toBytes := by
    simp [layout]
  rw [hl]
  have hat := At.intro pre (field e 8 m.rows ++ m.data.flatMap P.toBytes) suf
  generalize pre ++ (field e 8 m.rows ++ m.data.flatMap P.toBytes) ++ suf = buf at hat ⊢
  generalize pre.length = pos at hat ⊢
  have hb := At.bound hat
  have hlen : m.data.length = m.rows * 1 := by rw [h3, h2]
  rw [List.length_append, field_length, flatMap_length, hlen] at hb ⊢
  simp only [deserializeVectorX, header_at e _ f1 hat.left]
  rw [Out.assert_true (by omega), Out.assert_true (by omega),
    (allocate_eq_ok P m.rows 1).2 ⟨⟨f1, by decide⟩, by rw [h2] at f3; exact f3⟩]
  simp only [Out.bind_ok]
  rw [Out.assert_true (by omega)]
  have hr := hat.right
  rw [field_length] at hr
  have := readScalars_at P m.data hr
  rw [hlen] at this
  simp only [Out.bind_ok, this]
  congr 2
  cases m; simp_all

/-- C06, `MatrixXd`, `MatrixXf`. -/
theorem C06_matrixX_roundtrip {α : Type} (e : Endian) (P : Pod α) (m : Mat α)
    (hm : m.HasShape .dynamic .dynamic) (hf : m.Fits P) :
    HasLayout (serializeEigen e P .dynamic .dynamic) (deserializeMatrixX e P)
      (layout e P .dynamic .dynamic) m := by
  obtain ⟨_, _, h3⟩ := hm
  obtain ⟨f1, f2, f3⟩ := hf
  refine ⟨serializeEigen_appends e P _ _ m (fun _ => f1) (fun _ => f2), fun pre suf => ?_⟩
  have hl : layout e P .dynamic .dynamic m
      = field e 8 m.rows ++ (field e 8 m.cols ++ m.data.flatMap P.toBytes) := by
    simp [layout]
  rw [hl]
  have hat := At.intro pre (field e 8 m.rows ++ (field e 8 m.cols ++ m.data.flatMap P.toBytes)) suf
  generalize pre ++ (field e 8 m.rows ++ (field e 8 m.cols ++ m.data.flatMap P.toBytes)) ++ suf
    = buf at hat ⊢
  generalize pre.length = pos at hat ⊢
  have hb := At.bound hat
  rw [List.length_append, List.length_append, field_length, field_length, flatMap_length, h3] at hb ⊢
  have hr := hat.right
  rw [field_length] at hr
  have hr2 := hr.right
  rw [field_length, Nat.add_assoc] at hr2
  simp only [deserializeMatrixX, header_at e _ f1 hat.left, header_at e _ f2 hr.left]
  rw [Out.assert_true (by omega), Out.assert_true (by omega),
    (allocate_eq_ok P m.rows m.cols).2 ⟨⟨f1, f2⟩, f3⟩]
  simp only [Out.bind_ok]
  rw [Out.assert_true (by omega)]
  have := readScalars_at P m.data hr2
  rw [h3] at this
  simp only [Out.bind_ok, this]
  simp only [Nat.add_assoc]

/-- C06, `Matrix3Xd`, `Matrix3Xf`. -/
theorem C06_matrix3X_roundtrip {α : Type} (e : Endian) (P : Pod α) (m : Mat α)
    (hm : m.HasShape (.fixed 3) .dynamic) (hf : m.Fits P) :
    HasLayout (serializeEigen e P (.fixed 3) .dynamic) (deserializeMatrix3X e P)
      (layout e P (.fixed 3) .dynamic) m := by
  obtain ⟨h1, _, h3⟩ := hm
  have h1 := h1 3 rfl
  obtain ⟨f1, f2, f3⟩ := hf
  refine ⟨serializeEigen_appends e P _ _ m (by simp) (fun _ => f2), fun pre suf => ?_⟩
  have hl : layout e P (.fixed 3) .dynamic m = field e 8 m.cols ++ m.data.flatMap P.toBytes := by
    simp [layout]
  rw [hl]
  have hat := At.intro pre (field e 8 m.cols ++ m.data.flatMap P.toBytes) suf
  generalize pre ++ (field e 8 m.cols ++ m.data.flatMap P.toBytes) ++ suf = buf at hat ⊢
  generalize pre.length = pos at hat ⊢
  have hb := At.bound hat
  have hlen : m.data.length = 3 * m.cols := by rw [h3, h1]
  rw [List.length_append, field_length, flatMap_length, hlen] at hb ⊢
  simp only [deserializeMatrix3X, header_at e _ f2 hat.left]
  rw [Out.assert_true (by omega), Out.assert_true (by omega),
    (allocate_eq_ok P 3 m.cols).2 ⟨⟨by decide, f2⟩, by rw [h1] at f3; exact f3⟩]
  simp only [Out.bind_ok]
  rw [Out.assert_true (by omega)]
  have hr := hat.right
  rw [field_length] at hr
  have := readScalars_at P m.data hr
  rw [hlen] at this
  simp only [Out.bind_ok, this]
  congr 2
  cases m; simp_all

/-- C06, `Isometry3d`: the 16 coefficients of its 4x4 matrix. -/
theorem C06_isometry3_roundtrip {α : Type} (P : Pod α) (m : List α) (hm : m.length = 16) :
    HasLayout (serializeIsometry3 P) (deserializeIsometry3 P) (fun m => m.flatMap P.toBytes) m := by
  have hl := flatMap_length P m
  rw [hm] at hl
  constructor
  · intro buf
    simp only [serializeIsometry3, rawData, hl, Nat.le_refl, if_true]
    rw [List.take_of_length_le (by omega)]
  · intro pre suf
    have hat := At.intro pre (m.flatMap P.toBytes) suf
    generalize hg : pre ++ m.flatMap P.toBytes ++ suf = buf at hat
    generalize pre.length = pos at hat ⊢
    have hb := At.bound hat
    show deserializeIsometry3 P buf pos = .ok (m, (m.flatMap P.toBytes).length)
    rw [hl] at hb ⊢
    have := P.size_pos
    simp only [deserializeIsometry3]
    rw [Out.assert_true (by omega), Out.assert_true hb]
    have := readScalars_at P m hat
    rw [hm] at this
    simp only [Out.bind_ok, this]

/-- C06: on arbitrary bytes every Eigen deserializer stays in bounds, fails only by assertion or
`bad_alloc`, and rejects a value cut off at any byte. -/
theorem C06_arbitrary_buffers {α : Type} (e : Endian) (P : Pod α) (n : Nat) :
    EigenRobust (deserializeFixedVector P n) ∧ EigenRobust (deserializeVectorX e P) ∧
    EigenRobust (deserializeMatrixX e P) ∧ EigenRobust (deserializeMatrix3X e P) ∧
    EigenRobust (deserializeIsometry3 P) := by
  have of : ∀ {β : Type} {d : Des β}, InBounds d → IgnoresSuffix d → EigenFailsCleanly d →
      EigenRobust d := fun h1 h2 h3 => ⟨h1, h3, rejects_of h1 h2⟩
  refine ⟨of ?_ ?_ ?_, of ?_ ?_ ?_, of ?_ ?_ ?_, of ?_ ?_ ?_, of ?_ ?_ ?_⟩
  · intro buf cur a k h
    simp only [deserializeFixedVector, Out.bind_eq_ok, Out.assert_eq_ok] at h
    obtain ⟨_, h1, _, h2, h3⟩ := h
    injection h3 with h3; injection h3 with _ h3; omega
  · intro buf cur r suf h
    simp only [deserializeFixedVector, Out.bind_eq_ok, Out.assert_eq_ok] at h ⊢
    obtain ⟨_, h1, _, h2, h3⟩ := h
    refine ⟨(), by rw [List.length_append]; omega, (), by rw [List.length_append]; omega, ?_⟩
    rw [readScalars_suffix P _ _ _ _ h2]; exact h3
  · intro buf cur
    exact eigenFails_bind (eigenFails_assert _) fun _ => eigenFails_bind (eigenFails_assert _) fun _ =>
      Or.inr (Or.inr ⟨_, rfl⟩)
  · intro buf cur a k h
    simp only [deserializeVectorX, Out.bind_eq_ok, Out.assert_eq_ok] at h
    obtain ⟨_, h1, _, h2, _, h4, _, h5, h3⟩ := h
    injection h3 with h3; injection h3 with _ h3; omega
  · intro buf cur r suf h
    simp only [deserializeVectorX, Out.bind_eq_ok, Out.assert_eq_ok] at h ⊢
    obtain ⟨_, h1, _, h2, _, h4, _, h5, h3⟩ := h
    rw [header_suffix e _ _ _ h2]
    refine ⟨(), by rw [List.length_append]; omega, (), by rw [List.length_append]; omega, (), h4, (), by rw [List.length_append]; omega, ?_⟩
    rw [readScalars_suffix P _ _ _ _ (by omega)]; exact h3
  · intro buf cur
    exact eigenFails_bind (eigenFails_assert _) fun _ => eigenFails_bind (eigenFails_assert _) fun _ =>
      eigenFails_bind (eigenFails_allocate _ _ _) fun _ => eigenFails_bind (eigenFails_assert _)
        fun _ => Or.inr (Or.inr ⟨_, rfl⟩)
  · intro buf cur a k h
    simp only [deserializeMatrixX, Out.bind_eq_ok, Out.assert_eq_ok] at h
    obtain ⟨_, h1, _, h2, _, h4, _, h5, h3⟩ := h
    injection h3 with h3; injection h3 with _ h3; omega
  · intro buf cur r suf h
    simp only [deserializeMatrixX, Out.bind_eq_ok, Out.assert_eq_ok] at h ⊢
    obtain ⟨_, h1, _, h2, _, h4, _, h5, h3⟩ := h
    rw [header_suffix e _ _ _ (by omega), header_suffix e _ _ _ (by omega)]
    refine ⟨(), by rw [List.length_append]; omega, (), by rw [List.length_append]; omega, (), h4, (), by rw [List.length_append]; omega, ?_⟩
    rw [readScalars_suffix P _ _ _ _ (by omega)]; exact h3
  · intro buf cur
    exact eigenFails_bind (eigenFails_assert _) fun _ => eigenFails_bind (eigenFails_assert _) fun _ =>
      eigenFails_bind (eigenFails_allocate _ _ _) fun _ => eigenFails_bind (eigenFails_assert _)
        fun _ => Or.inr (Or.inr ⟨_, rfl⟩)
  · intro buf cur a k h
    simp only [deserializeMatrix3X, Out.bind_eq_ok, Out.assert_eq_ok] at h
    obtain ⟨_, h1, _, h2, _, h4, _, h5, h3⟩ := h
    injection h3 with h3; injection h3 with _ h3; omega
  · intro buf cur r suf h
    simp only [deserializeMatrix3X, Out.bind_eq_ok, Out.assert_eq_ok] at h ⊢
    obtain ⟨_, h1, _, h2, _, h4, _, h5, h3⟩ := h
    rw [header_suffix e _ _ _ h2]
    refine ⟨(), by rw [List.length_append]; omega, (), by rw [List.length_append]; omega, (), h4, (), by rw [List.length_append]; omega, ?_⟩
    rw [readScalars_suffix P _ _ _ _ (by omega)]; exact h3
  · intro buf cur
    exact eigenFails_bind (eigenFails_assert _) fun _ => eigenFails_bind (eigenFails_assert _) fun _ =>
      eigenFails_bind (eigenFails_allocate _ _ _) fun _ => eigenFails_bind (eigenFails_assert _)
        fun _ => Or.inr (Or.inr ⟨_, rfl⟩)
  · intro buf cur a k h
    simp only [deserializeIsometry3, Out.bind_eq_ok, Out.assert_eq_ok] at h
    obtain ⟨_, h1, _, h2, h3⟩ := h
    injection h3 with h3; injection h3 with _ h3; omega
  · intro buf cur r suf h
    simp only [deserializeIsometry3, Out.bind_eq_ok, Out.assert_eq_ok] at h ⊢
    obtain ⟨_, h1, _, h2, h3⟩ := h
    refine ⟨(), by rw [List.length_append]; omega, (), by rw [List.length_append]; omega, ?_⟩
    rw [readScalars_suffix P _ _ _ _ h2]; exact h3
  · intro buf cur
    exact eigenFails_bind (eigenFails_assert _) fun _ => eigenFails_bind (eigenFails_assert _) fun _ =>
      Or.inr (Or.inr ⟨_, rfl⟩)

/-- A 2x2 matrix of 2-byte scalars, headers included. -/
example : serializeEigen .little (podBits .little 2 (by decide)) .dynamic .dynamic
    ⟨2, 2, [1#16, 2#16, 3#16, 4#16]⟩ [] = .ok (24,
    [2#8, 0#8, 0#8, 0#8, 0#8, 0#8, 0#8, 0#8, 2#8, 0#8, 0#8, 0#8, 0#8, 0#8, 0#8, 0#8,
      1#8, 0#8, 2#8, 0#8, 3#8, 0#8, 4#8, 0#8]) := by decide
example : (⟨2, 2, [1#16, 2#16, 3#16, 4#16]⟩ : Mat (BitVec 16)).HasShape .dynamic .dynamic ∧
    (⟨2, 2, [1#16, 2#16, 3#16, 4#16]⟩ : Mat (BitVec 16)).Fits (podBits .little 2 (by decide)) := by
  refine ⟨⟨by simp, by simp, rfl⟩, by decide, by decide, by decide⟩
example : deserializeMatrix3X .little (podBits .little 1 (by decide))
    [1#8, 0#8, 0#8, 0#8, 0#8, 0#8, 0#8, 0#8, 5#8, 6#8, 7#8] 0 = .ok (⟨3, 1, [5#8, 6#8, 7#8]⟩, 11) := by
  decide

end Verif.SerializationEigen
