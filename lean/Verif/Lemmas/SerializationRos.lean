import Verif.Spec.SerializationRos
import Verif.Lemmas.Serialization

/-! # Helper lemmas for the ROS messages -/
namespace Verif.Serialization
open Verif

/-- `bytes` stand at `pos` in `buf`. -/
def At (buf : Buf) (pos : Nat) (bytes : List Byte) : Prop :=
  ∃ pre suf, buf = pre ++ bytes ++ suf ∧ pos = pre.length

theorem At.intro (pre bytes suf : Buf) : At (pre ++ bytes ++ suf) pre.length bytes :=
  ⟨pre, suf, rfl, rfl⟩

theorem At.left {buf : Buf} {pos : Nat} {a b : List Byte} (h : At buf pos (a ++ b)) :
    At buf pos a := by
  obtain ⟨pre, suf, rfl, rfl⟩ := h
  exact ⟨pre, b ++ suf, by simp, rfl⟩

theorem At.right {buf : Buf} {pos : Nat} {a b : List Byte} (h : At buf pos (a ++ b)) :
    At buf (pos + a.length) b := by
  obtain ⟨pre, suf, rfl, rfl⟩ := h
  exact ⟨pre ++ a, suf, by simp, by simp⟩

theorem ReadsBack.at {α : Type} {d : Des α} {a : α} {b : List Byte} (h : ReadsBack d a b)
    {buf : Buf} {pos : Nat} (ha : At buf pos b) : d buf pos = .ok (a, b.length) := by
  obtain ⟨pre, suf, rfl, rfl⟩ := ha
  exact h pre suf

/-- Reading two fields one after the other, with the offset bookkeeping of the ROS functions. -/
def seq2 {α β γ : Type} (d1 : Des α) (d2 : Des β) (mk : α → β → γ) : Des γ :=
  fun buffer current => do
    let a ← d1 buffer current
    let b ← d2 buffer (current + a.2)
    .ok (mk a.1 b.1, a.2 + b.2)

theorem seq2_props {α β γ : Type} {d1 : Des α} {d2 : Des β} {mk : α → β → γ}
    (a : InBounds d1 ∧ IgnoresSuffix d1 ∧ FailsCleanly d1)
    (b : InBounds d2 ∧ IgnoresSuffix d2 ∧ FailsCleanly d2) :
    InBounds (seq2 d1 d2 mk) ∧ IgnoresSuffix (seq2 d1 d2 mk) ∧ FailsCleanly (seq2 d1 d2 mk) := by
  refine ⟨?_, ?_, ?_⟩
  · intro buf cur r n h
    simp only [seq2, Out.bind_eq_ok] at h
    obtain ⟨⟨x, k⟩, hx, ⟨y, l⟩, hy, he⟩ := h
    have := a.1 _ _ _ _ hx
    have := b.1 _ _ _ _ hy
    injection he with he; injection he with _ he
    simp only at *
    omega
  · intro buf cur r suf h
    simp only [seq2, Out.bind_eq_ok] at h ⊢
    obtain ⟨x, hx, y, hy, he⟩ := h
    exact ⟨x, a.2.1 _ _ _ _ hx, y, b.2.1 _ _ _ _ hy, he⟩
  · intro buf cur
    exact fails_bind (a.2.2 _ _) (fun _ => fails_bind (b.2.2 _ _) (fun _ => Or.inr (Or.inr ⟨_, rfl⟩)))

end Verif.Serialization

namespace Verif.SerializationRos
open Verif Verif.Serialization

theorem hostBytes_field (e : Endian) (n : Nat) (x : BitVec (8 * n)) :
    hostBytes e n x = field e n x.toNat := by
  cases e
  · exact natToBytes_eq _ _
  · simp only [hostBytes, field]; rw [natToBytes_eq, reverse_littleEndian]

theorem u32_appends (e : Endian) (x : BitVec 32) :
    Appends (serializeFixedSizePOD (podU32 e)) x (u32 e x) := by
  have := serializeFixedSizePOD_appends (podU32 e) x
  rwa [show (podU32 e).toBytes x = u32 e x from hostBytes_field e 4 x] at this

theorem u32_reads (e : Endian) (x : BitVec 32) :
    ReadsBack (deserializeFixedSizePOD (podU32 e)) x (u32 e x) := by
  have := deserializeFixedSizePOD_reads (podU32 e) x
  rwa [show (podU32 e).toBytes x = u32 e x from hostBytes_field e 4 x] at this

theorem f64_appends (e : Endian) (x : BitVec 64) :
    Appends (serializeFixedSizePOD (podF64 e)) x (f64 e x) := by
  have := serializeFixedSizePOD_appends (podF64 e) x
  rwa [show (podF64 e).toBytes x = f64 e x from hostBytes_field e 8 x] at this

theorem f64_reads (e : Endian) (x : BitVec 64) :
    ReadsBack (deserializeFixedSizePOD (podF64 e)) x (f64 e x) := by
  have := deserializeFixedSizePOD_reads (podF64 e) x
  rwa [show (podF64 e).toBytes x = f64 e x from hostBytes_field e 8 x] at this

theorem char_bytes (e : Endian) (x : BitVec 8) : (podChar e).toBytes x = [x] := by
  cases e <;> simp [podChar, podBits, hostBytes, natToBytes]

theorem flatMap_char (e : Endian) (s : List Byte) : s.flatMap (podChar e).toBytes = s := by
  induction s with
  | nil => rfl
  | cons x s ih => rw [List.flatMap_cons, char_bytes, ih]; rfl

theorem str_bytes (e : Endian) (s : List Byte) (h : s.length < 2 ^ 63) :
    (podU64 e).toBytes (BitVec.ofNat 64 s.length) ++ s.flatMap (podChar e).toBytes = str e s := by
  rw [flatMap_char, str]
  congr 1
  have := hostBytes_field e 8 (BitVec.ofNat 64 s.length)
  rw [ofNat64_toNat h] at this
  exact this

theorem str_appends (e : Endian) (s : List Byte) (h : s.length < 2 ^ 63) :
    Appends (serializeString e (podChar e)) s (str e s) := by
  rw [← str_bytes e s h]
  exact serializeVector_appends e _ _ s (fun x _ => serializeFixedSizePOD_appends (podChar e) x)

theorem str_reads (e : Endian) (s : List Byte) (h : s.length < 2 ^ 63) :
    ReadsBack (deserializeString e (podChar e)) s (str e s) := by
  rw [← str_bytes e s h]
  exact deserializeVector_reads e _ _ s (fun x _ => deserializeFixedSizePOD_reads (podChar e) x) h

theorem header_layout (e : Endian) (h : Header) (hl : h.frameId.length < 2 ^ 63) :
    HasLayout (serializeHeader e) (deserializeHeader e) (headerLayout e) h := by
  constructor
  · intro buf
    simp only [serializeHeader, u32_appends e _ _, Out.bind_ok, str_appends e _ hl _, headerLayout]
    simp [Nat.add_assoc]
  · intro pre suf
    have hat := At.intro pre (headerLayout e h) suf
    generalize pre ++ headerLayout e h ++ suf = buf at hat ⊢
    generalize pre.length = pos at hat ⊢
    have h4 := hat.right
    have h3 := hat.left.right
    have h2 := hat.left.left.right
    have h1 := hat.left.left.left
    simp only [List.length_append, ← Nat.add_assoc] at h2 h3 h4
    simp only [deserializeHeader, Nat.add_zero, Nat.zero_add]
    simp only [(u32_reads e _).at h1, Out.bind_ok, (u32_reads e _).at h2, ← Nat.add_assoc,
      (u32_reads e _).at h3, (str_reads e _ hl).at h4, headerLayout, List.length_append]

theorem point_layout (e : Endian) (p : Point) :
    HasLayout (serializePoint e) (deserializePoint e) (pointLayout e) p := by
  constructor
  · intro buf
    simp only [serializePoint, f64_appends e _ _, Out.bind_ok, pointLayout]
    simp [Nat.add_assoc]
  · intro pre suf
    have hat := At.intro pre (pointLayout e p) suf
    generalize pre ++ pointLayout e p ++ suf = buf at hat ⊢
    generalize pre.length = pos at hat ⊢
    have h3 := hat.right
    have h2 := hat.left.right
    have h1 := hat.left.left
    simp only [List.length_append, ← Nat.add_assoc] at h2 h3
    simp only [deserializePoint, Nat.add_zero, Nat.zero_add]
    simp only [(f64_reads e _).at h1, Out.bind_ok, (f64_reads e _).at h2, ← Nat.add_assoc,
      (f64_reads e _).at h3, pointLayout, List.length_append]

theorem vector3_layout (e : Endian) (p : Vector3) :
    HasLayout (serializeVector3 e) (deserializeVector3 e) (vector3Layout e) p := by
  constructor
  · intro buf
    simp only [serializeVector3, f64_appends e _ _, Out.bind_ok, vector3Layout]
    simp [Nat.add_assoc]
  · intro pre suf
    have hat := At.intro pre (vector3Layout e p) suf
    generalize pre ++ vector3Layout e p ++ suf = buf at hat ⊢
    generalize pre.length = pos at hat ⊢
    have h3 := hat.right
    have h2 := hat.left.right
    have h1 := hat.left.left
    simp only [List.length_append, ← Nat.add_assoc] at h2 h3
    simp only [deserializeVector3, Nat.add_zero, Nat.zero_add]
    simp only [(f64_reads e _).at h1, Out.bind_ok, (f64_reads e _).at h2, ← Nat.add_assoc,
      (f64_reads e _).at h3, vector3Layout, List.length_append]

theorem quaternion_layout (e : Endian) (p : Quaternion) :
    HasLayout (serializeQuaternion e) (deserializeQuaternion e) (quaternionLayout e) p := by
  constructor
  · intro buf
    simp only [serializeQuaternion, f64_appends e _ _, Out.bind_ok, quaternionLayout]
    simp [Nat.add_assoc]
  · intro pre suf
    have hat := At.intro pre (quaternionLayout e p) suf
    generalize pre ++ quaternionLayout e p ++ suf = buf at hat ⊢
    generalize pre.length = pos at hat ⊢
    have h4 := hat.right
    have h3 := hat.left.right
    have h2 := hat.left.left.right
    have h1 := hat.left.left.left
    simp only [List.length_append, ← Nat.add_assoc] at h2 h3 h4
    simp only [deserializeQuaternion, Nat.add_zero, Nat.zero_add]
    simp only [(f64_reads e _).at h1, Out.bind_ok, (f64_reads e _).at h2, ← Nat.add_assoc,
      (f64_reads e _).at h3, (f64_reads e _).at h4, quaternionLayout, List.length_append]

theorem pose_layout (e : Endian) (p : Pose) :
    HasLayout (serializePose e) (deserializePose e) (poseLayout e) p := by
  constructor
  · intro buf
    simp only [serializePose, (point_layout e _).1 _, (quaternion_layout e _).1 _, Out.bind_ok,
      poseLayout]
    simp
  · intro pre suf
    have hat := At.intro pre (poseLayout e p) suf
    generalize pre ++ poseLayout e p ++ suf = buf at hat ⊢
    generalize pre.length = pos at hat ⊢
    simp only [deserializePose, Nat.add_zero, Nat.zero_add, (point_layout e _).2.at hat.left,
      Out.bind_ok, (quaternion_layout e _).2.at hat.right, poseLayout, List.length_append]

theorem transform_layout (e : Endian) (p : Transform) :
    HasLayout (serializeTransform e) (deserializeTransform e) (transformLayout e) p := by
  constructor
  · intro buf
    simp only [serializeTransform, (vector3_layout e _).1 _, (quaternion_layout e _).1 _, Out.bind_ok,
      transformLayout]
    simp
  · intro pre suf
    have hat := At.intro pre (transformLayout e p) suf
    generalize pre ++ transformLayout e p ++ suf = buf at hat ⊢
    generalize pre.length = pos at hat ⊢
    simp only [deserializeTransform, Nat.add_zero, Nat.zero_add, (vector3_layout e _).2.at hat.left,
      Out.bind_ok, (quaternion_layout e _).2.at hat.right, transformLayout, List.length_append]

theorem poseStamped_layout (e : Endian) (p : PoseStamped) (h : p.header.frameId.length < 2 ^ 63) :
    HasLayout (serializePoseStamped e) (deserializePoseStamped e) (poseStampedLayout e) p := by
  constructor
  · intro buf
    simp only [serializePoseStamped, (header_layout e _ h).1 _, (pose_layout e _).1 _, Out.bind_ok,
      poseStampedLayout]
    simp
  · intro pre suf
    have hat := At.intro pre (poseStampedLayout e p) suf
    generalize pre ++ poseStampedLayout e p ++ suf = buf at hat ⊢
    generalize pre.length = pos at hat ⊢
    simp only [deserializePoseStamped, Nat.add_zero, Nat.zero_add,
      (header_layout e _ h).2.at hat.left,
      Out.bind_ok, (pose_layout e _).2.at hat.right, poseStampedLayout, List.length_append]

theorem transformStamped_layout (e : Endian) (p : TransformStamped)
    (h : p.header.frameId.length < 2 ^ 63) (h' : p.childFrameId.length < 2 ^ 63) :
    HasLayout (serializeTransformStamped e) (deserializeTransformStamped e)
      (transformStampedLayout e) p := by
  constructor
  · intro buf
    simp only [serializeTransformStamped, (header_layout e _ h).1 _, (transform_layout e _).1 _,
      str_appends e _ h' _, Out.bind_ok, transformStampedLayout]
    simp [Nat.add_assoc]
  · intro pre suf
    have hat := At.intro pre (transformStampedLayout e p) suf
    generalize pre ++ transformStampedLayout e p ++ suf = buf at hat ⊢
    generalize pre.length = pos at hat ⊢
    have h3 := hat.right
    simp only [List.length_append, ← Nat.add_assoc] at h3
    simp only [deserializeTransformStamped, Nat.add_zero, Nat.zero_add,
      (header_layout e _ h).2.at hat.left.left, ← Nat.add_assoc,
      Out.bind_ok, (transform_layout e _).2.at hat.left.right, (str_reads e _ h').at h3,
      transformStampedLayout, List.length_append]

/-! ## arbitrary buffers -/

/-- In bounds, suffix-independent, clean failures. -/
abbrev Good {α : Type} (d : Des α) : Prop := InBounds d ∧ IgnoresSuffix d ∧ FailsCleanly d

theorem good_congr {α : Type} {d d' : Des α} (h : Good d) (he : ∀ buf cur, d' buf cur = d buf cur) :
    Good d' := by
  have : d' = d := funext fun b => funext fun c => he b c
  rw [this]; exact h

theorem good_pod {α : Type} (P : Pod α) : Good (deserializeFixedSizePOD P) :=
  ⟨inBounds_pod P, ignoresSuffix_pod P, failsCleanly_pod P⟩

theorem good_str (e : Endian) : Good (deserializeString e (podChar e)) := by
  have hu := good_pod (podU64 e)
  have hc := good_pod (podChar e)
  exact vectorLike_props hu.1 hu.2.1 hu.2.2 hc.1 hc.2.1 hc.2.2 rfl

theorem out_bind_assoc {α β γ : Type} (x : Out α) (f : α → Out β) (g : β → Out γ) :
    (x >>= f) >>= g = x >>= fun a => f a >>= g := by
  cases x <;> rfl

theorem good_point (e : Endian) : Good (deserializePoint e) := by
  have h := seq2_props (mk := fun (p : BitVec 64 × BitVec 64) z => Point.mk p.1 p.2 z)
    (seq2_props (mk := Prod.mk) (good_pod (podF64 e)) (good_pod (podF64 e))) (good_pod (podF64 e))
  refine good_congr h (fun buf cur => ?_)
  simp only [seq2, deserializePoint, out_bind_assoc, Out.bind_ok, Nat.add_zero, Nat.zero_add,
      ← Nat.add_assoc]

theorem good_vector3 (e : Endian) : Good (deserializeVector3 e) := by
  have h := seq2_props (mk := fun (p : BitVec 64 × BitVec 64) z => Vector3.mk p.1 p.2 z)
    (seq2_props (mk := Prod.mk) (good_pod (podF64 e)) (good_pod (podF64 e))) (good_pod (podF64 e))
  refine good_congr h (fun buf cur => ?_)
  simp only [seq2, deserializeVector3, out_bind_assoc, Out.bind_ok, Nat.add_zero, Nat.zero_add,
      ← Nat.add_assoc]

theorem good_quaternion (e : Endian) : Good (deserializeQuaternion e) := by
  have h := seq2_props
    (mk := fun (p : (BitVec 64 × BitVec 64) × BitVec 64) w => Quaternion.mk p.1.1 p.1.2 p.2 w)
    (seq2_props (mk := Prod.mk)
    (seq2_props (mk := Prod.mk) (good_pod (podF64 e)) (good_pod (podF64 e))) (good_pod (podF64 e)))
    (good_pod (podF64 e))
  refine good_congr h (fun buf cur => ?_)
  simp only [seq2, deserializeQuaternion, out_bind_assoc, Out.bind_ok, Nat.add_zero, Nat.zero_add,
      ← Nat.add_assoc]

theorem good_header (e : Endian) : Good (deserializeHeader e) := by
  have h := seq2_props
    (mk := fun (p : (BitVec 32 × BitVec 32) × BitVec 32) w => Header.mk p.1.1 p.1.2 p.2 w)
    (seq2_props (mk := Prod.mk)
    (seq2_props (mk := Prod.mk) (good_pod (podU32 e)) (good_pod (podU32 e))) (good_pod (podU32 e)))
    (good_str e)
  refine good_congr h (fun buf cur => ?_)
  simp only [seq2, deserializeHeader, out_bind_assoc, Out.bind_ok, Nat.add_zero, Nat.zero_add,
      ← Nat.add_assoc]

theorem good_pose (e : Endian) : Good (deserializePose e) := by
  have h := seq2_props (mk := Pose.mk) (good_point e) (good_quaternion e)
  refine good_congr h (fun buf cur => ?_)
  simp only [seq2, deserializePose, Nat.add_zero, Nat.zero_add]

theorem good_transform (e : Endian) : Good (deserializeTransform e) := by
  have h := seq2_props (mk := Transform.mk) (good_vector3 e) (good_quaternion e)
  refine good_congr h (fun buf cur => ?_)
  simp only [seq2, deserializeTransform, Nat.add_zero, Nat.zero_add]

theorem good_poseStamped (e : Endian) : Good (deserializePoseStamped e) := by
  have h := seq2_props (mk := PoseStamped.mk) (good_header e) (good_pose e)
  refine good_congr h (fun buf cur => ?_)
  simp only [seq2, deserializePoseStamped, Nat.add_zero, Nat.zero_add]

theorem good_transformStamped (e : Endian) : Good (deserializeTransformStamped e) := by
  have h := seq2_props (mk := fun (p : Header × Transform) c => TransformStamped.mk p.1 c p.2)
    (seq2_props (mk := Prod.mk) (good_header e) (good_transform e)) (good_str e)
  refine good_congr h (fun buf cur => ?_)
  simp only [seq2, deserializeTransformStamped, out_bind_assoc, Out.bind_ok, Nat.add_zero,
      Nat.zero_add, ← Nat.add_assoc]

theorem Good.robust {α : Type} {d : Des α} (h : Good d) : Robust d :=
  ⟨h.1, h.2.2, rejects_of h.1 h.2.1⟩

end Verif.SerializationRos
