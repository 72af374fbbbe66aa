import Verif.Model.DijkstraSerialization
import Verif.Props.Graph

/-!
# Property C153 (dijkstras.hpp): reading a stored result
-/
namespace Verif.Dijkstra
open Verif Verif.Graph Verif.Serialization Verif.SerializationRos

variable {ν : Type}

/-- `int64_t` numbers written as such. -/
def serializeIndex (e : Endian) : Ser Int := fun i buffer =>
  serializeFixedSizePOD (pod64 e) (BitVec.ofInt 64 i) buffer

theorem index_roundtrip (e : Endian) : RoundTrips (serializeIndex e) (deserializeIndex e)
    (fun i => -2 ^ 63 ≤ i ∧ i < 2 ^ 63) := by
  intro i hi
  refine ⟨(pod64 e).toBytes (BitVec.ofInt 64 i), ?_, ?_, ?_⟩
  · obtain ⟨b, n, a, _⟩ := C02_nested_roundtrip e (.pod (pod64 e)) (BitVec.ofInt 64 i) trivial
    have h1 := a []
    rw [show (serializeFixedSizePOD (pod64 e)) (BitVec.ofInt 64 i) [] = _ from
      serializeFixedSizePOD_appends (pod64 e) _ []] at h1
    injection h1 with h1
    have := (Prod.mk.inj h1).2
    simp only [List.nil_append] at this
    rw [this]; exact n
  · intro buf
    exact serializeFixedSizePOD_appends (pod64 e) _ buf
  · intro pre suf
    unfold deserializeIndex
    rw [deserializeFixedSizePOD_reads (pod64 e) _ pre suf, Out.bind_ok, toInt_ofInt64 hi]

/-- **C153.** A graph, the previous indices and the distances, written one after the other, are read back
from any place in a buffer, with the number of bytes. -/
theorem C153_reads_back (e : Endian) (s : Ser ν) (d : Des ν) (v : ν → Prop) (h : RoundTrips s d v)
    (r : Stored ν) (hg : r.graph.length < 2 ^ 63 ∧ ∀ n ∈ r.graph, n.Storable v)
    (hp : r.previous.length < 2 ^ 63 ∧ ∀ i ∈ r.previous, -2 ^ 63 ≤ i ∧ i < 2 ^ 63)
    (hd : r.distances.length < 2 ^ 63) :
    ∃ bytes, Appends (fun (x : Stored ν) buf => do
        let a ← serializeGraph e s x.graph buf
        let b ← serializeVector e (serializeIndex e) x.previous a.2
        let c ← serializeVector e (serializeFixedSizePOD (pod64 e)) x.distances b.2
        .ok (a.1 + b.1 + c.1, c.2)) r bytes ∧
      ReadsBack (deserializeResult e d) r bytes := by
  obtain ⟨b1, _, a1, r1⟩ := (C14_roundtrip e s d v h).2.2 r.graph hg
  obtain ⟨b2, _, a2, r2⟩ := C02_vector_roundtrip e _ _ _ (index_roundtrip e) r.previous hp
  obtain ⟨b3, _, a3, r3⟩ := C02_vector_roundtrip e _ _ _
    (C02_nested_roundtrip e (.pod (pod64 e))) r.distances ⟨hd, fun _ _ => trivial⟩
  refine ⟨b1 ++ b2 ++ b3, ?_, ?_⟩
  · intro buf
    simp only [a1 _, a2 _, Out.bind_ok]
    have := a3 (buf ++ b1 ++ b2)
    rw [this, Out.bind_ok]
    simp [Nat.add_assoc]
  · intro pre suf
    have hat := At.intro pre (b1 ++ b2 ++ b3) suf
    generalize pre ++ (b1 ++ b2 ++ b3) ++ suf = buf at hat ⊢
    generalize pre.length = pos at hat ⊢
    have h3 := hat.right
    have h2 := hat.left.right
    have h1 := hat.left.left
    simp only [List.length_append, ← Nat.add_assoc] at h2 h3
    simp only [deserializeResult]
    have g3 := r3.at h3
    simp only [r1.at h1, Out.bind_ok, r2.at h2]
    rw [g3, Out.bind_ok]
    simp only [List.length_append]
    congr 2
    omega

theorem good_index (e : Endian) : Good (deserializeIndex e) := by
  have h := good_pod (pod64 e)
  refine ⟨?_, ?_, ?_⟩
  · intro buf cur a n hr
    unfold deserializeIndex at hr
    cases h1 : deserializeFixedSizePOD (pod64 e) buf cur with
    | ok r =>
      rw [h1, Out.bind_ok] at hr
      injection hr with hr
      have h2 := (Prod.mk.inj hr).2
      rw [← h2]
      exact h.1 buf cur r.1 r.2 h1
    | throws x => rw [h1] at hr; cases hr
    | abort => rw [h1] at hr; cases hr
    | ub => rw [h1] at hr; cases hr
  · intro buf cur r suf hr
    unfold deserializeIndex at hr ⊢
    cases h1 : deserializeFixedSizePOD (pod64 e) buf cur with
    | ok x =>
      rw [h1, Out.bind_ok] at hr
      rw [h.2.1 buf cur x suf h1, Out.bind_ok]
      exact hr
    | throws x => rw [h1] at hr; cases hr
    | abort => rw [h1] at hr; cases hr
    | ub => rw [h1] at hr; cases hr
  · intro buf cur
    unfold deserializeIndex
    rcases h.2.2 buf cur with h1 | h1 | ⟨r, h1⟩
    · rw [h1]; exact Or.inl rfl
    · rw [h1]; exact Or.inr (Or.inl rfl)
    · rw [h1]; exact Or.inr (Or.inr ⟨_, rfl⟩)

/-- **C153.** Reading from arbitrary bytes never reads outside the buffer, fails only by a failed assertion
or `std::length_error`, and refuses every cut of something it accepts. -/
theorem C153_arbitrary_buffers (e : Endian) (d : Des ν)
    (h : InBounds d ∧ IgnoresSuffix d ∧ FailsCleanly d) : Robust (deserializeResult e d) := by
  have hg : Good (deserializeResult e d) := by
    have h := seq2_props (mk := fun (p : Graph ν (BitVec 64) × List Int) w => Stored.mk p.1 p.2 w)
      (seq2_props (mk := Prod.mk) (good_graph e h) (good_vector e (good_index e)))
      (good_vector e (good_pod (pod64 e)))
    refine good_congr h (fun buf cur => ?_)
    simp only [seq2, deserializeResult, out_bind_assoc, Out.bind_ok, ← Nat.add_assoc]
    congr 1; funext a; congr 1; funext b; congr 1; funext c
    congr 2
    omega
  exact hg.robust

/-- One byte as the value of a node. -/
def byteSer (e : Endian) : Ser (BitVec 8) := serializeFixedSizePOD (podBits e 1 (by decide))
/-- One byte as the value of a node. -/
def byteDes (e : Endian) : Des (BitVec 8) := deserializeFixedSizePOD (podBits e 1 (by decide))

/-- A node with an edge to a node that does not exist, and no previous indices. -/
def dangling : Stored (BitVec 8) :=
  ⟨[⟨7, 0, [], [⟨0, 5, 0x3ff0000000000000#64, VALID⟩]⟩], [], [0, 0]⟩

/-- **C153.** What is read is not checked: there are bytes from which a result is read whose graph has an
edge to a node that does not exist, with fewer previous indices and more distances than nodes. -/
theorem C153_unchecked (e : Endian) :
    ∃ bytes n, deserializeResult e (byteDes e) bytes 0 = .ok (dangling, n) ∧
      n = bytes.length ∧ checkGraphLinkage dangling.graph = .ok false ∧
      dangling.previous.length < dangling.graph.length ∧
      dangling.graph.length < dangling.distances.length := by
  obtain ⟨b, _, h⟩ := C153_reads_back e (byteSer e) (byteDes e) (fun _ => True)
    (C02_nested_roundtrip e (.pod _)) dangling
    ⟨by decide, by
      intro n hn
      simp only [dangling, List.mem_singleton] at hn
      subst hn
      refine ⟨trivial, ⟨by decide, by simp⟩, by decide, ?_⟩
      intro x hx
      simp only [List.mem_singleton] at hx
      subst hx
      simp [Edge.Storable]⟩
    ⟨by decide, by simp [dangling]⟩ (by decide)
  refine ⟨b, b.length, ?_, rfl, by decide, by decide, by decide⟩
  have := h [] []
  simpa using this

example (e : Endian) : InBounds (byteDes e) ∧ IgnoresSuffix (byteDes e) ∧ FailsCleanly (byteDes e) :=
  good_pod _

end Verif.Dijkstra
