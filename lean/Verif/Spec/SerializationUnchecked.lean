import Verif.Model.SerializationUnchecked

/-!
# The same deserializer with and without assertions
-/
namespace Verif.Serialization.Unchecked
open Verif Verif.Serialization

/-- What becomes of an outcome when the assertions are left out: a failed assertion becomes undefined behaviour. -/
def withoutAssertions {α : Type} : Out α → Out α
  | .abort => .ub
  | r => r

/-- The deserializers for one nesting of types: `SameSource d u` says that `d` is compiled with assertions and `u`
without. -/
inductive SameSource (e : Endian) : {α : Type} → Des α → Des α → Prop
  | pod {α : Type} (P : Pod α) : SameSource e (deserializeFixedSizePOD P) (fixedSizePOD P)
  | string {χ : Type} (P : Pod χ) : SameSource e (deserializeString e P) (vector e (fixedSizePOD P))
  | vector {α : Type} {d u : Des α} : SameSource e d u → SameSource e (deserializeVector e d) (vector e u)
  | pair {α β : Type} {d u : Des α} {d' u' : Des β} : SameSource e d u → SameSource e d' u' →
      SameSource e (deserializePair d d') (pair u u')
  | map {α β : Type} {d u : Des α} {d' u' : Des β} (lt : α → α → Bool) : SameSource e d u → SameSource e d' u' →
      SameSource e (deserializeMap e lt d d') (map e lt u u')
  | netPod (s : NetSize) : SameSource e (deserializeNetworkFixedSizePOD e s) (networkFixedSizePOD e s)
  | netString (s : NetSize) :
      SameSource e (deserializeNetworkString e s) (networkVector e (networkFixedSizePOD e s))
  | netVector {α : Type} {d u : Des α} : SameSource e d u →
      SameSource e (deserializeNetworkVector e d) (networkVector e u)
  | netPair {α β : Type} {d u : Des α} {d' u' : Des β} : SameSource e d u → SameSource e d' u' →
      SameSource e (deserializeNetworkPair d d') (pair u u')
  | netMap {α β : Type} {d u : Des α} {d' u' : Des β} (lt : α → α → Bool) : SameSource e d u → SameSource e d' u' →
      SameSource e (deserializeNetworkMap e lt d d') (networkMap e lt u u')

end Verif.Serialization.Unchecked
