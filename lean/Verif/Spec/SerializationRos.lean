import Verif.Spec.Serialization
import Verif.Model.SerializationRos

/-! # Specification of the message layouts -/
namespace Verif.SerializationRos
open Verif Verif.Serialization

/-- An `n`-byte field on a host of byte order `e`. -/
def field (e : Endian) (n x : Nat) : List Byte :=
  match e with
  | .little => littleEndian n x
  | .big => bigEndian n x

/-- A double: the 8 bytes of its bit pattern. -/
def f64 (e : Endian) (x : BitVec 64) : List Byte := field e 8 x.toNat
/-- A 32-bit unsigned integer. -/
def u32 (e : Endian) (x : BitVec 32) : List Byte := field e 4 x.toNat
/-- A string: its length in 8 bytes, then its characters. -/
def str (e : Endian) (s : List Byte) : List Byte := field e 8 s.length ++ s

/-- sequence number, seconds, nanoseconds, frame name -/
def headerLayout (e : Endian) (h : Header) : List Byte :=
  u32 e h.seq ++ u32 e h.sec ++ u32 e h.nsec ++ str e h.frameId
/-- x, y, z -/
def pointLayout (e : Endian) (p : Point) : List Byte := f64 e p.x ++ f64 e p.y ++ f64 e p.z
/-- x, y, z -/
def vector3Layout (e : Endian) (p : Vector3) : List Byte := f64 e p.x ++ f64 e p.y ++ f64 e p.z
/-- x, y, z, w -/
def quaternionLayout (e : Endian) (q : Quaternion) : List Byte :=
  f64 e q.x ++ f64 e q.y ++ f64 e q.z ++ f64 e q.w
/-- position, orientation -/
def poseLayout (e : Endian) (p : Pose) : List Byte :=
  pointLayout e p.position ++ quaternionLayout e p.orientation
/-- header, pose -/
def poseStampedLayout (e : Endian) (p : PoseStamped) : List Byte :=
  headerLayout e p.header ++ poseLayout e p.pose
/-- translation, rotation -/
def transformLayout (e : Endian) (t : Transform) : List Byte :=
  vector3Layout e t.translation ++ quaternionLayout e t.rotation
/-- header, transform, child frame name -/
def transformStampedLayout (e : Endian) (t : TransformStamped) : List Byte :=
  headerLayout e t.header ++ transformLayout e t.transform ++ str e t.childFrameId

/-- Written as exactly `layout a`, and read back from wherever that stands. -/
def HasLayout {α : Type} (ser : Ser α) (des : Des α) (layout : α → List Byte) (a : α) : Prop :=
  Appends ser a (layout a) ∧ ReadsBack des a (layout a)

/-- What every deserializer guarantees on arbitrary bytes. -/
def Robust {α : Type} (des : Des α) : Prop :=
  InBounds des ∧ FailsCleanly des ∧ RejectsTruncation des

end Verif.SerializationRos
