import Verif.Spec.Graph
import Verif.Props.Serialization
import Verif.Lemmas.SerializationRos
namespace Verif.Graph
open Verif Verif.Serialization Verif.SerializationRos

theorem toInt_ofInt64 {i : Int} (h : -2 ^ 63 ≤ i ∧ i < 2 ^ 63) : (BitVec.ofInt 64 i).toInt = i := by
  rw [BitVec.toInt_ofInt]
  apply Int.bmod_eq_of_le <;> omega

/-- The bytes of an edge. -/
def edgeBytes (e : Endian) (edge : Edge (BitVec 64)) : List Byte :=
  (pod64 e).toBytes (BitVec.ofInt 64 edge.fromIndex) ++
    (pod64 e).toBytes (BitVec.ofInt 64 edge.toIndex) ++
    (pod64 e).toBytes edge.weight ++ (pod32 e).toBytes edge.validity

theorem edge_roundtrip (e : Endian) :
    RoundTrips (serializeEdge e) (deserializeEdge e) Edge.Storable := by
  intro edge hv
  refine ⟨edgeBytes e edge, ?_, ?_, ?_⟩
  · intro h
    have := congrArg List.length h
    simp only [edgeBytes, List.length_append, (pod64 e).length_toBytes, (pod32 e).length_toBytes,
      List.length_nil] at this
    have := (pod64 e).size_pos
    omega
  · intro buf
    simp only [serializeEdge, serializeFixedSizePOD_appends (pod64 e) _ _,
      serializeFixedSizePOD_appends (pod32 e) _ _, Out.bind_ok, edgeBytes]
    simp
  · intro pre suf
    have hat := At.intro pre (edgeBytes e edge) suf
    generalize pre ++ edgeBytes e edge ++ suf = buf at hat ⊢
    generalize pre.length = pos at hat ⊢
    have h4 := hat.right
    have h3 := hat.left.right
    have h2 := hat.left.left.right
    have h1 := hat.left.left.left
    simp only [List.length_append, ← Nat.add_assoc] at h2 h3 h4
    simp only [deserializeEdge]
    simp only [(deserializeFixedSizePOD_reads (pod64 e) _).at h1, Out.bind_ok,
      (deserializeFixedSizePOD_reads (pod64 e) _).at h2,
      (deserializeFixedSizePOD_reads (pod64 e) _).at h3,
      (deserializeFixedSizePOD_reads (pod32 e) _).at h4, edgeBytes, List.length_append]
    rw [toInt_ofInt64 hv.1, toInt_ofInt64 hv.2]
    congr 2
    omega

theorem node_roundtrip (e : Endian) {ν : Type} {s : Ser ν} {d : Des ν} {v : ν → Prop}
    (h : RoundTrips s d v) :
    RoundTrips (serializeNode e s) (deserializeNode e d) (Node.Storable v) := by
  intro n ⟨hv, hi, ho⟩
  obtain ⟨b1, n1, a1, r1⟩ := h n.value hv
  obtain ⟨b3, n3, a3, r3⟩ := C02_vector_roundtrip e _ _ _ (edge_roundtrip e) n.inEdges hi
  obtain ⟨b4, n4, a4, r4⟩ := C02_vector_roundtrip e _ _ _ (edge_roundtrip e) n.outEdges ho
  refine ⟨b1 ++ (pod64 e).toBytes n.distance ++ b3 ++ b4, ?_, ?_, ?_⟩
  · simp [n1]
  · intro buf
    simp only [serializeNode, serializeFixedSizePOD_appends (pod64 e) _ _, Out.bind_ok, a1 _, a3 _,
      a4 _]
    simp
  · intro pre suf
    have hat := At.intro pre (b1 ++ (pod64 e).toBytes n.distance ++ b3 ++ b4) suf
    generalize pre ++ (b1 ++ (pod64 e).toBytes n.distance ++ b3 ++ b4) ++ suf = buf at hat ⊢
    generalize pre.length = pos at hat ⊢
    have h4 := hat.right
    have h3 := hat.left.right
    have h2 := hat.left.left.right
    have h1 := hat.left.left.left
    simp only [List.length_append, ← Nat.add_assoc] at h2 h3 h4
    simp only [deserializeNode]
    simp only [r1.at h1, Out.bind_ok, (deserializeFixedSizePOD_reads (pod64 e) _).at h2, r3.at h3,
      r4.at h4, List.length_append]
    congr 2
    omega

theorem good_edge (e : Endian) : Good (deserializeEdge e) := by
  have h := seq2_props (mk := fun (p : (BitVec 64 × BitVec 64) × BitVec 64) w =>
      Edge.mk (BitVec.toInt p.1.1) (BitVec.toInt p.1.2) p.2 w)
    (seq2_props (mk := Prod.mk)
    (seq2_props (mk := Prod.mk) (good_pod (pod64 e)) (good_pod (pod64 e))) (good_pod (pod64 e)))
    (good_pod (pod32 e))
  refine good_congr h (fun buf cur => ?_)
  simp only [seq2, deserializeEdge, out_bind_assoc, Out.bind_ok, ← Nat.add_assoc]
  congr 1; funext a; congr 1; funext b; congr 1; funext c; congr 1; funext d
  congr 2
  omega

theorem good_vector (e : Endian) {α : Type} {d : Des α} (h : Good d) :
    Good (deserializeVector e d) := by
  have hu := good_pod (podU64 e)
  exact vectorLike_props hu.1 hu.2.1 hu.2.2 h.1 h.2.1 h.2.2 rfl

theorem good_node (e : Endian) {ν : Type} {d : Des ν} (h : Good d) :
    Good (deserializeNode e d) := by
  have h := seq2_props (mk := fun (p : (ν × BitVec 64) × List (Edge (BitVec 64))) w =>
      Node.mk p.1.1 p.1.2 p.2 w)
    (seq2_props (mk := Prod.mk)
    (seq2_props (mk := Prod.mk) h (good_pod (pod64 e))) (good_vector e (good_edge e)))
    (good_vector e (good_edge e))
  refine good_congr h (fun buf cur => ?_)
  simp only [seq2, deserializeNode, out_bind_assoc, Out.bind_ok, ← Nat.add_assoc]
  congr 1; funext a; congr 1; funext b; congr 1; funext c; congr 1; funext d
  congr 2
  omega

theorem good_graph (e : Endian) {ν : Type} {d : Des ν} (h : Good d) :
    Good (deserializeGraph e d) := by
  refine good_congr (good_vector e (good_node e h)) (fun buf cur => ?_)
  simp only [deserializeGraph]
  cases deserializeVector e (deserializeNode e d) buf cur <;> rfl

end Verif.Graph
