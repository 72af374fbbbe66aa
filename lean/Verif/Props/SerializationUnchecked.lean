import Verif.Spec.SerializationUnchecked
import Verif.Props.Serialization

/-! # Property C170: deserializing in a build without assertions -/
namespace Verif.Serialization.Unchecked
open Verif Verif.Serialization

/-- `u` does what `d` does, except that it is undefined where an assertion of `d` fails; at the end of the buffer an
assertion of `d` fails. -/
structure Same {α : Type} (d u : Des α) : Prop where
  same : ∀ buf cur, u buf cur = withoutAssertions (d buf cur)
  stops : ∀ buf cur, buf.length ≤ cur → d buf cur = .abort

theorem assert_lt {buf : Buf} {cur : Nat} {α : Type} (f : Unit → Out α) :
    (Out.assert (cur < buf.length) >>= f) = if cur < buf.length then f () else .abort := by
  unfold Out.assert
  by_cases h : cur < buf.length <;> simp [h]

theorem bind_without {α β : Type} (r : Out α) (f g : α → Out β) (h : ∀ a, r = .ok a → g a = withoutAssertions (f a)) :
    (withoutAssertions r >>= g) = withoutAssertions (r >>= f) := by
  cases r with
  | ok a => exact h a rfl
  | throws x => rfl
  | abort => rfl
  | ub => rfl

theorem pod_same {α : Type} (P : Pod α) : Same (deserializeFixedSizePOD P) (fixedSizePOD P) := by
  have key : ∀ buf cur, deserializeFixedSizePOD P buf cur = if cur + P.size ≤ buf.length then
      .ok (P.ofBytes ((buf.drop cur).take P.size), P.size) else .abort := by
    intro buf cur
    unfold deserializeFixedSizePOD Out.assert
    by_cases h : cur + P.size ≤ buf.length
    · have : cur ≤ buf.length := by omega
      simp [h, this]
    · by_cases h' : cur ≤ buf.length <;> simp [h, h']
  refine ⟨fun buf cur => ?_, fun buf cur h => ?_⟩
  · rw [key]
    unfold fixedSizePOD
    split <;> rfl
  · rw [key, if_neg]
    have := P.size_pos
    omega

theorem netPod_same (e : Endian) (s : NetSize) : Same (deserializeNetworkFixedSizePOD e s) (networkFixedSizePOD e s) := by
  have key : ∀ buf cur, deserializeNetworkFixedSizePOD e s buf cur = if cur + s.bytes ≤ buf.length then
      .ok (networkValue e s ((buf.drop cur).take s.bytes), s.bytes) else .abort := by
    intro buf cur
    unfold deserializeNetworkFixedSizePOD Out.assert
    by_cases h : cur + s.bytes ≤ buf.length
    · have : cur ≤ buf.length := by omega
      simp [h, this]
    · by_cases h' : cur ≤ buf.length <;> simp [h, h']
  refine ⟨fun buf cur => ?_, fun buf cur h => ?_⟩
  · rw [key]
    unfold networkFixedSizePOD
    split <;> rfl
  · rw [key, if_neg]
    have : 0 < s.bytes := by cases s <;> decide
    omega

theorem items_same {α : Type} {d u : Des α} (h : Same d u) (buf : Buf) : ∀ (n pos : Nat) (acc : List α),
    deserializeItems u buf n pos acc = withoutAssertions (deserializeItems d buf n pos acc)
  | 0, _, _ => rfl
  | n + 1, pos, acc => by
    unfold deserializeItems
    rw [h.same]
    exact bind_without _ _ _ fun a _ => items_same h buf n _ _

theorem mapItems_same {κ ν : Type} {d u : Des (κ × ν)} (lt : κ → κ → Bool) (h : Same d u) (buf : Buf) :
    ∀ (n pos : Nat) (acc : List (κ × ν)),
    deserializeMapItems lt u buf n pos acc = withoutAssertions (deserializeMapItems lt d buf n pos acc)
  | 0, _, _ => rfl
  | n + 1, pos, acc => by
    unfold deserializeMapItems
    rw [h.same]
    exact bind_without _ _ _ fun a _ => mapItems_same lt h buf n _ _

theorem pair_same {α β : Type} {d u : Des α} {d' u' : Des β} (h : Same d u) (h' : Same d' u') :
    Same (deserializePair d d') (pair u u') := by
  refine ⟨fun buf cur => ?_, fun buf cur hc => ?_⟩
  · unfold deserializePair pair
    rw [assert_lt, h.same]
    by_cases hc : cur < buf.length
    · rw [if_pos hc]
      refine bind_without _ _ _ fun a _ => ?_
      rw [h'.same]
      exact bind_without _ _ _ fun b _ => rfl
    · rw [if_neg hc, h.stops buf cur (by omega)]
      rfl
  · unfold deserializePair
    rw [assert_lt, if_neg (by omega)]

theorem vector_same (e : Endian) {α : Type} {d u : Des α} (h : Same d u) :
    Same (deserializeVector e d) (vector e u) := by
  refine ⟨fun buf cur => ?_, fun buf cur hc => ?_⟩
  · unfold deserializeVector vector
    rw [assert_lt, (pod_same _).same]
    by_cases hc : cur < buf.length
    · rw [if_pos hc]
      refine bind_without _ _ _ fun a _ => ?_
      dsimp only
      unfold reserve
      split
      · show (deserializeItems u buf _ _ _ >>= _) = withoutAssertions (deserializeItems d buf _ _ _ >>= _)
        rw [items_same h]
        exact bind_without _ _ _ fun b _ => rfl
      · rfl
    · rw [if_neg hc, (pod_same _).stops buf cur (by omega)]
      rfl
  · unfold deserializeVector
    rw [assert_lt, if_neg (by omega)]

theorem map_same (e : Endian) {α β : Type} {d u : Des α} {d' u' : Des β} (lt : α → α → Bool) (h : Same d u)
    (h' : Same d' u') : Same (deserializeMap e lt d d') (map e lt u u') := by
  refine ⟨fun buf cur => ?_, fun buf cur hc => ?_⟩
  · unfold deserializeMap map
    rw [assert_lt, (pod_same _).same]
    by_cases hc : cur < buf.length
    · rw [if_pos hc]
      refine bind_without _ _ _ fun a _ => ?_
      dsimp only
      rw [mapItems_same lt (pair_same h h')]
      exact bind_without _ _ _ fun b _ => rfl
    · rw [if_neg hc, (pod_same _).stops buf cur (by omega)]
      rfl
  · unfold deserializeMap
    rw [assert_lt, if_neg (by omega)]

theorem netVector_same (e : Endian) {α : Type} {d u : Des α} (h : Same d u) :
    Same (deserializeNetworkVector e d) (networkVector e u) := by
  refine ⟨fun buf cur => ?_, fun buf cur hc => ?_⟩
  · unfold deserializeNetworkVector networkVector deserializeNetworkU64
    rw [assert_lt, (netPod_same e .s8).same]
    by_cases hc : cur < buf.length
    · rw [if_pos hc]
      refine bind_without _ _ _ fun a _ => ?_
      show (reserve (BitVec.toNat a.1) >>= fun _ => deserializeItems u buf (BitVec.toNat a.1) (cur + a.2) [] >>= fun r =>
          Out.ok (r.1, r.2 - cur)) =
        withoutAssertions (reserve (BitVec.toNat a.1) >>= fun _ => deserializeItems d buf (BitVec.toNat a.1) (cur + a.2) [] >>=
          fun r => Out.ok (r.1, r.2 - cur))
      generalize BitVec.toNat a.1 = size
      unfold reserve
      by_cases hsz : size < 2 ^ 63
      · rw [if_pos hsz]
        show (deserializeItems u buf _ _ _ >>= _) = withoutAssertions (deserializeItems d buf _ _ _ >>= _)
        rw [items_same h]
        exact bind_without _ _ _ fun b _ => rfl
      · rw [if_neg hsz]
        rfl
    · rw [if_neg hc, (netPod_same e .s8).stops buf cur (by omega)]
      rfl
  · unfold deserializeNetworkVector
    rw [assert_lt, if_neg (by omega)]

theorem netMap_same (e : Endian) {α β : Type} {d u : Des α} {d' u' : Des β} (lt : α → α → Bool) (h : Same d u)
    (h' : Same d' u') : Same (deserializeNetworkMap e lt d d') (networkMap e lt u u') := by
  refine ⟨fun buf cur => ?_, fun buf cur hc => ?_⟩
  · unfold deserializeNetworkMap networkMap deserializeNetworkU64
    rw [assert_lt, (netPod_same e .s8).same]
    by_cases hc : cur < buf.length
    · rw [if_pos hc]
      refine bind_without _ _ _ fun a _ => ?_
      dsimp only
      rw [show deserializeNetworkPair d d' = deserializePair d d' from rfl, mapItems_same lt (pair_same h h')]
      exact bind_without _ _ _ fun b _ => rfl
    · rw [if_neg hc, (netPod_same e .s8).stops buf cur (by omega)]
      rfl
  · unfold deserializeNetworkMap
    rw [assert_lt, if_neg (by omega)]

theorem same {e : Endian} {α : Type} {d u : Des α} (h : SameSource e d u) : Same d u := by
  induction h with
  | pod P => exact pod_same P
  | string P => exact vector_same e (pod_same P)
  | vector _ ih => exact vector_same e ih
  | pair _ _ ih ih' => exact pair_same ih ih'
  | map lt _ _ ih ih' => exact map_same e lt ih ih'
  | netPod s => exact netPod_same e s
  | netString s => exact netVector_same e (netPod_same e s)
  | netVector _ ih => exact netVector_same e ih
  | netPair _ _ ih ih' => exact pair_same ih ih'
  | netMap lt _ _ ih ih' => exact netMap_same e lt ih ih'

/-- C170: on every buffer and at every offset, a deserializer compiled without assertions does what it does with them,
except that where an assertion would fail the behaviour is undefined. -/
theorem C170_without_assertions {e : Endian} {α : Type} {d u : Des α} (h : SameSource e d u) (buf : Buf) (cur : Nat) :
    (∀ r, d buf cur = .ok r → u buf cur = .ok r) ∧ (∀ x, d buf cur = .throws x → u buf cur = .throws x) ∧
    (d buf cur = .abort → u buf cur = .ub) ∧ u buf cur ≠ .abort := by
  have := (same h).same buf cur
  rw [this]
  refine ⟨fun r hr => by rw [hr]; rfl, fun x hx => by rw [hx]; rfl, fun ha => by rw [ha]; rfl, ?_⟩
  cases d buf cur <;> simp [withoutAssertions]

/-- C170: so what was written is read back as with assertions. -/
theorem C170_round_trip {e : Endian} {α : Type} {s : Ser α} {d u : Des α} {v : α → Prop} (hs : Supported e s d v)
    (h : SameSource e d u) : RoundTrips s u v := by
  intro a ha
  obtain ⟨bytes, hne, hw, hr⟩ := C02_nested_roundtrip e hs a ha
  exact ⟨bytes, hne, hw, fun pre suf => (C170_without_assertions h _ _).1 _ (hr pre suf)⟩

/-- C170: a value that was cut off is not rejected: reading it is undefined, or throws `std::length_error`. -/
theorem C170_truncated {e : Endian} {α : Type} {s : Ser α} {d u : Des α} {v : α → Prop} (hs : Supported e s d v)
    (h : SameSource e d u) (buf : Buf) (cur : Nat) (a : α) (n : Nat) (hr : d buf cur = .ok (a, n)) (k : Nat) (hk : k < n) :
    u (buf.take (cur + k)) cur = .ub ∨ u (buf.take (cur + k)) cur = .throws .lengthError := by
  obtain ⟨_, hc, ht⟩ := C04_arbitrary_buffers e hs
  have h1 := C170_without_assertions h (buf.take (cur + k)) cur
  rcases hc (buf.take (cur + k)) cur with h2 | h2 | ⟨r, h2⟩
  · exact .inl (h1.2.2.1 h2)
  · exact .inr (h1.2.1 _ h2)
  · exact absurd h2 (ht buf cur a n hr k hk r)

/-- A vector of pairs of a number and a string -/
example (e : Endian) (P Q : Pod (BitVec 8)) : SameSource e (deserializeVector e (deserializePair (deserializeFixedSizePOD P)
    (deserializeString e Q))) (vector e (pair (fixedSizePOD P) (vector e (fixedSizePOD Q)))) :=
  .vector (.pair (.pod P) (.string Q))

example : vector .little (fixedSizePOD (podBits .little 1 (by decide))) [2#8, 0#8, 0#8, 0#8, 0#8, 0#8, 0#8, 0#8, 5#8] 0 =
    .ub := by decide

end Verif.Serialization.Unchecked
