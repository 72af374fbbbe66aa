import Verif.Model.RrtSerialization
import Verif.Lemmas.GraphSerialization

/-!
# C61: RRT states and trees survive serialization
-/
namespace Verif.Rrt
open Verif Verif.Serialization Verif.SerializationRos Verif.Graph

variable {T : Type}

/-- The state can exist in memory: `int64_t` indices and fewer than 2^63 children. -/
def State.Storable (validValue : T → Prop) (s : State T) : Prop :=
  validValue s.value ∧ (-2 ^ 63 ≤ s.parent ∧ s.parent < 2 ^ 63) ∧
    s.children.length < 2 ^ 63 ∧ ∀ c ∈ s.children, -2 ^ 63 ≤ c ∧ c < 2 ^ 63

/-- Every state is read back as it was written, at every offset, for every value serializer that does
the same; so is a whole tree, written as a vector of states. -/
theorem C61_roundtrip (e : Endian) (s : Ser T) (d : Des T) (v : T → Prop) (h : RoundTrips s d v) :
    RoundTrips (serializeState e s) (deserializeState e d) (State.Storable v) ∧
    RoundTrips (serializeVector e (serializeState e s)) (deserializeVector e (deserializeState e d))
      (fun tree => tree.length < 2 ^ 63 ∧ ∀ x ∈ tree, x.Storable v) := by
  have hstate : RoundTrips (serializeState e s) (deserializeState e d) (State.Storable v) := by
    intro st ⟨hv, hp, hl, hc⟩
    have hpod : RoundTrips (serializeFixedSizePOD (pod64 e)) (deserializeFixedSizePOD (pod64 e))
        (fun _ => True) := by
      intro a _
      refine ⟨(pod64 e).toBytes a, ?_, serializeFixedSizePOD_appends (pod64 e) a,
        deserializeFixedSizePOD_reads (pod64 e) a⟩
      intro h0
      have := (pod64 e).length_toBytes a
      rw [h0] at this
      have := (pod64 e).size_pos
      simp at *; omega
    obtain ⟨b3, n3, a3, r3⟩ := C02_vector_roundtrip e _ _ _ hpod (st.children.map (BitVec.ofInt 64))
      ⟨by simpa using hl, fun _ _ => trivial⟩
    obtain ⟨b4, n4, a4, r4⟩ := h st.value hv
    refine ⟨(pod8 e).toBytes (if st.initialized then 1#8 else 0#8) ++
      (pod64 e).toBytes (BitVec.ofInt 64 st.parent) ++ b3 ++ b4, by simp [n4], ?_, ?_⟩
    · intro buf
      simp only [serializeState, serializeFixedSizePOD_appends (pod8 e) _ _,
        serializeFixedSizePOD_appends (pod64 e) _ _, Out.bind_ok, a3 _, a4 _]
      simp
    · intro pre suf
      have hat := At.intro pre ((pod8 e).toBytes (if st.initialized then 1#8 else 0#8) ++
        (pod64 e).toBytes (BitVec.ofInt 64 st.parent) ++ b3 ++ b4) suf
      generalize pre ++ ((pod8 e).toBytes (if st.initialized then 1#8 else 0#8) ++
        (pod64 e).toBytes (BitVec.ofInt 64 st.parent) ++ b3 ++ b4) ++ suf = buf at hat ⊢
      generalize pre.length = pos at hat ⊢
      have h4 := hat.right
      have h3 := hat.left.right
      have h2 := hat.left.left.right
      have h1 := hat.left.left.left
      simp only [List.length_append, ← Nat.add_assoc] at h2 h3 h4
      simp only [deserializeState]
      simp only [(deserializeFixedSizePOD_reads (pod8 e) _).at h1, Out.bind_ok,
        (deserializeFixedSizePOD_reads (pod64 e) _).at h2, r3.at h3, r4.at h4, List.length_append]
      have hch : (st.children.map (BitVec.ofInt 64)).map BitVec.toInt = st.children := by
        rw [List.map_map]
        conv => rhs; rw [← List.map_id st.children]
        apply List.map_congr_left
        intro c hcm
        exact toInt_ofInt64 (hc c hcm)
      have hin : decide ((if st.initialized then 1#8 else 0#8) ≠ 0#8) = st.initialized := by
        cases st.initialized <;> decide
      rw [toInt_ofInt64 hp, hch, hin]
      congr 2
      omega
  exact ⟨hstate, C02_vector_roundtrip e _ _ _ hstate⟩

example : State.Storable (fun _ => True) (⟨7, [1, 2], -1, true⟩ : State Nat) := by
  simp [State.Storable]
example (e : Endian) : RoundTrips (serializeFixedSizePOD (pod8 e)) (deserializeFixedSizePOD (pod8 e))
    (fun _ => True) := C02_nested_roundtrip e (.pod _)

/-- Reading a state from arbitrary bytes never reads outside the buffer and fails only by a failed
assertion or `std::length_error`, provided the value deserializer does. -/
theorem C61_arbitrary_buffers (e : Endian) (d : Des T)
    (h : InBounds d ∧ IgnoresSuffix d ∧ FailsCleanly d) : Robust (deserializeState e d) := by
  have h' := seq2_props (mk := fun (p : (BitVec 8 × BitVec 64) × List (BitVec 64)) w =>
      State.mk w (p.2.map BitVec.toInt) (BitVec.toInt p.1.2) (decide (p.1.1 ≠ 0#8)))
    (seq2_props (mk := Prod.mk)
    (seq2_props (mk := Prod.mk) (good_pod (pod8 e)) (good_pod (pod64 e)))
      (good_vector e (good_pod (pod64 e)))) h
  refine Good.robust (good_congr h' (fun buf cur => ?_))
  simp only [seq2, deserializeState, out_bind_assoc, Out.bind_ok, ← Nat.add_assoc]
  congr 1; funext a; congr 1; funext b; congr 1; funext c; congr 1; funext d
  congr 2
  omega

/-- The bytes of a concrete state, little endian. -/
example : (serializeState .little (serializeFixedSizePOD (pod8 .little)) ⟨9#8, [1], -1, true⟩ []) =
    .ok (26, [1, 255, 255, 255, 255, 255, 255, 255, 255, 1, 0, 0, 0, 0, 0, 0, 0,
      1, 0, 0, 0, 0, 0, 0, 0, 9]) := by decide

end Verif.Rrt
