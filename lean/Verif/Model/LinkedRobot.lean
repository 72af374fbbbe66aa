import Verif.Base.State
import Verif.Model.Pose
import Verif.Model.Averages

/-!
# Model of include/arc_utilities/simple_linked_robot_model.hpp

`double` is a real number and arithmetic is exact. Limits are real numbers, with `none` for minus infinity (lower)
and plus infinity (upper). A new value of a joint is `some` real number or `none` for an infinity or not-a-number.
Messages and the serialization of joints (Model/JointSerialization) are left out here.
-/
namespace Verif.LinkedRobot
open Verif Matrix Verif.Kinematics Verif.Pose

/-! ### Joints -/

/-- simple_linked_robot_model.hpp:20 `JOINT_TYPE`; a deserialized joint can have any value -/
abbrev JointType := BitVec 32

/-- simple_linked_robot_model.hpp:20 `JOINT_TYPE::PRISMATIC`. -/
def PRISMATIC : JointType := 4
/-- simple_linked_robot_model.hpp:20 `JOINT_TYPE::REVOLUTE`. -/
def REVOLUTE : JointType := 1
/-- simple_linked_robot_model.hpp:20 `JOINT_TYPE::CONTINUOUS`. -/
def CONTINUOUS : JointType := 2
/-- simple_linked_robot_model.hpp:20 `JOINT_TYPE::FIXED`. -/
def FIXED : JointType := 0

/-- simple_linked_robot_model.hpp:23-25: the members of `SimpleJointModel` -/
@[ext] structure Joint where
  lower : Option ℝ
  upper : Option ℝ
  value : ℝ
  type : JointType

namespace Joint

/-- simple_linked_robot_model.hpp:94-100 `IsContinuous` -/
def isContinuous (j : Joint) : Bool := if j.type = CONTINUOUS then true else false

/-- simple_linked_robot_model.hpp:102-108 `IsRevolute` -/
def isRevolute (j : Joint) : Bool := if j.type = REVOLUTE ∨ j.type = CONTINUOUS then true else false

/-- simple_linked_robot_model.hpp:110-116 `IsPrismatic` -/
def isPrismatic (j : Joint) : Bool := if j.type = PRISMATIC then true else false

/-- simple_linked_robot_model.hpp:118-124 `IsFixed` -/
def isFixed (j : Joint) : Bool := if j.type = FIXED then true else false

/-- simple_linked_robot_model.hpp:128-134 `IsSameType` -/
def isSameType (j other : Joint) : Bool := if j.type = other.type then true else false

/-- `value < limits_.first`. Used for simple_linked_robot_model.hpp:154-164, 166-182. -/
def belowLower (j : Joint) (v : ℝ) : Prop :=
  match j.lower with
  | none => False
  | some l => v < l

/-- `value > limits_.second`. Used for simple_linked_robot_model.hpp:154-164, 166-182. -/
def aboveUpper (j : Joint) (v : ℝ) : Prop :=
  match j.upper with
  | none => False
  | some u => v > u

noncomputable instance (j : Joint) (v : ℝ) : Decidable (j.belowLower v) := Classical.dec _
noncomputable instance (j : Joint) (v : ℝ) : Decidable (j.aboveUpper v) := Classical.dec _

/-- simple_linked_robot_model.hpp:154-164 `InLimits` -/
noncomputable def inLimits (j : Joint) (v : ℝ) : Bool :=
  if j.isContinuous = true then true
  else if j.belowLower v ∨ j.aboveUpper v then false
  else true

/-- simple_linked_robot_model.hpp:166-182 `EnforceLimits` -/
noncomputable def enforceLimits (j : Joint) (value : Option ℝ) : Out ℝ :=
  match value with
  | some v =>
    if j.isContinuous = true then .ok (Angles.enforceBounds Real.pi v)
    else if j.belowLower v then .ok (j.lower.getD v)
    else if j.aboveUpper v then .ok (j.upper.getD v)
    else .ok v
  | none => .throws .invalidArgument

/-- simple_linked_robot_model.hpp:184-187 `SetValue` -/
noncomputable def setValue (j : Joint) (value : Option ℝ) : Out Joint := do
  let real ← j.enforceLimits value
  .ok { j with value := real }

/-- `limits.first > limits.second`. Used for simple_linked_robot_model.hpp:39-51. -/
def crossed (limits : Option ℝ × Option ℝ) : Prop :=
  match limits.1, limits.2 with
  | some l, some u => l > u
  | _, _ => False

noncomputable instance (limits : Option ℝ × Option ℝ) : Decidable (crossed limits) := Classical.dec _

/-- simple_linked_robot_model.hpp:39-51: the constructor; the member `value_` is not initialized before line 50, here
it is zero, and it is not read -/
noncomputable def make (limits : Option ℝ × Option ℝ) (value : Option ℝ) (type : JointType) : Out Joint :=
  if type = CONTINUOUS then setValue ⟨none, none, 0, type⟩ value
  else if crossed limits then .throws .invalidArgument
  else setValue ⟨limits.1, limits.2, 0, type⟩ value

/-- simple_linked_robot_model.hpp:53-57: the default constructor -/
noncomputable def default : Out Joint := setValue ⟨some 0, some 0, 0, FIXED⟩ (some 0)

/-- simple_linked_robot_model.hpp:189-195 `SignedDistance` of two values -/
noncomputable def signedDistanceValues (j : Joint) (v1 v2 : ℝ) : ℝ :=
  if j.isContinuous = true then Angles.signedDistance Real.pi v1 v2 else v2 - v1

/-- simple_linked_robot_model.hpp:197 `SignedDistance` to a value -/
noncomputable def signedDistanceTo (j : Joint) (v : ℝ) : ℝ := j.signedDistanceValues j.value v

/-- simple_linked_robot_model.hpp:199-205 `SignedDistance` to another joint -/
noncomputable def signedDistance (j other : Joint) : Out ℝ :=
  if j.isSameType other = true then .ok (j.signedDistanceValues j.value other.value)
  else .throws .invalidArgument

/-- simple_linked_robot_model.hpp:207 `Distance` of two values -/
noncomputable def distanceValues (j : Joint) (v1 v2 : ℝ) : ℝ := |j.signedDistanceValues v1 v2|

/-- simple_linked_robot_model.hpp:209 `Distance` to a value -/
noncomputable def distanceTo (j : Joint) (v : ℝ) : ℝ := |j.signedDistanceValues j.value v|

/-- simple_linked_robot_model.hpp:211 `Distance` to another joint -/
noncomputable def distance (j other : Joint) : Out ℝ := do
  let d ← j.signedDistance other
  .ok |d|

/-- simple_linked_robot_model.hpp:213 `CopyWithNewValue` -/
noncomputable def copyWithNewValue (j : Joint) (value : Option ℝ) : Out Joint := make (j.lower, j.upper) value j.type

end Joint

/-! ### Links and joints of a robot -/

/-- simple_linked_robot_model.hpp:242-247: the members of `RobotJoint` -/
structure RobotJoint where
  transform : Transform
  axis : Fin 3 → ℝ
  parent : Int
  child : Int
  model : Joint
  name : String

/-- simple_linked_robot_model.hpp:291-292: the members of `RobotLink`; the transform is not initialized by the
constructors, so it is arbitrary -/
structure Link where
  transform : Transform
  name : String

/-- simple_linked_robot_model.hpp:313-320 `KinematicSkeletonElement` -/
structure Element where
  parentLink : Int
  parentJoint : Int
  childLinks : List Int
  childJoints : List Int

/-- simple_linked_robot_model.hpp:319: the default constructor -/
def Element.empty : Element := ⟨-1, -1, [], []⟩

/-- `v[(size_t)i]`; a negative index becomes a number that no vector reaches. Used for
simple_linked_robot_model.hpp:816-846. -/
def at? {α : Type} (v : List α) (i : Int) : Option α := if 0 ≤ i then v[i.toNat]? else none

/-- Reading `v[(size_t)i]` outside of the vector is undefined. Used for simple_linked_robot_model.hpp:442-463, 466-488.
-/
def read {α : Type} (v : List α) (i : Int) : Out α :=
  match at? v i with
  | some x => .ok x
  | none => .ub

/-- Changing `v[(size_t)i]` outside of the vector is undefined. Used for simple_linked_robot_model.hpp:539-558,
336-366. -/
def change {α : Type} (v : List α) (i : Int) (f : α → α) : Out (List α) :=
  match at? v i with
  | some x => .ok (v.set i.toNat (f x))
  | none => .ub

/-! ### The check of the model -/

/-- simple_linked_robot_model.hpp:518-526 and 528-536: is a name seen twice; `seen` are the names before -/
def namesUnique (seen : List String) : List String → Bool
  | [] => true
  | n :: ns => if n ∈ seen then false else namesUnique (n :: seen) ns

/-- simple_linked_robot_model.hpp:543-545: the check of the axis -/
noncomputable def axisBad (axis : Fin 3 → ℝ) : Prop := |Projection.norm axis - 1| > epsilon

noncomputable instance (axis : Fin 3 → ℝ) : Decidable (axisBad axis) := Classical.dec _

/-- simple_linked_robot_model.hpp:539-558: the loop that makes the skeleton; `none` if an axis is bad -/
noncomputable def skeletonLoop : Nat → List RobotJoint → List Element → Out (Option (List Element))
  | _, [], skeleton => .ok (some skeleton)
  | idx, j :: js, skeleton =>
    if axisBad j.axis then .ok none
    else do
      let s1 ← change skeleton j.child fun e => { e with parentLink := j.parent, parentJoint := (idx : Int) }
      let s2 ← change s1 j.parent fun e =>
        { e with childLinks := e.childLinks ++ [j.child], childJoints := e.childJoints ++ [(idx : Int)] }
      skeletonLoop (idx + 1) js s2

/-- simple_linked_robot_model.hpp:442-463: the check of the link to the parent -/
def checkParent (skeleton : List Element) (idx : Nat) (e : Element) : Out Bool :=
  if 0 ≤ e.parentLink ∧ e.parentLink < skeleton.length then
    if e.parentLink ≠ idx then do
      let p ← read skeleton e.parentLink
      .ok (decide ((idx : Int) ∈ p.childLinks))
    else .ok false
  else if e.parentLink < -1 then .ok false
  else .ok true

/-- simple_linked_robot_model.hpp:466-488: the check of the links to the children -/
def checkChildren (skeleton : List Element) (idx : Nat) : List Int → Out Bool
  | [] => .ok true
  | c :: cs =>
    if 0 < c ∧ c < skeleton.length then
      if c ≠ idx then do
        let e ← read skeleton c
        if e.parentLink ≠ idx then .ok false else checkChildren skeleton idx cs
      else .ok false
    else .ok false

/-- simple_linked_robot_model.hpp:438-489: the loop over the elements; the element at `idx` is the head of the list -/
def linkageLoop (skeleton : List Element) : Nat → List Element → Out Bool
  | _, [] => .ok true
  | idx, e :: es => do
    let p ← checkParent skeleton idx e
    if p = false then .ok false
    else do
      let c ← checkChildren skeleton idx e.childLinks
      if c = false then .ok false else linkageLoop skeleton (idx + 1) es

/-- `cycle_detection_map`: a missing entry counts as zero, and counts are of type `uint8_t`. Used for
simple_linked_robot_model.hpp:413-434, 424-432. -/
abbrev Counts := Int → Nat

mutual
/-- simple_linked_robot_model.hpp:413-434 `ExploreChildren`; true if a cycle is found. The number bounds the depth of
the recursion, which without bound would overflow the stack; C97 shows that the bound used is never reached. -/
def explore (skeleton : List Element) : Nat → Int → Counts → Out (Bool × Counts)
  | 0, _, _ => .ub
  | depth + 1, i, counts =>
    let counts := fun k => if k = i then (counts i + 1) % 256 else counts k
    if counts i ≠ 1 then .ok (true, counts)
    else do
      let e ← read skeleton i
      exploreAll skeleton depth e.childLinks counts

/-- simple_linked_robot_model.hpp:424-432: the loop of `ExploreChildren` -/
def exploreAll (skeleton : List Element) : Nat → List Int → Counts → Out (Bool × Counts)
  | _, [], counts => .ok (false, counts)
  | depth, c :: cs, counts => do
    let r ← explore skeleton depth c counts
    if r.1 = true then .ok (true, r.2) else exploreAll skeleton depth cs r.2
end

/-- simple_linked_robot_model.hpp:436-505 `CheckKinematicSkeleton` -/
def checkSkeleton (skeleton : List Element) : Out Bool := do
  let linkage ← linkageLoop skeleton 0 skeleton
  if linkage = false then .ok false
  else do
    let r ← explore skeleton (skeleton.length + 1) 0 (fun _ => 0)
    if r.1 = true then .ok false
    else .ok ((List.range skeleton.length).all fun i => decide (r.2 (i : Int) = 1))

/-- simple_linked_robot_model.hpp:510-567 `SanityCheckRobotModel` -/
noncomputable def sanityCheck (links : List Link) (joints : List RobotJoint) : Out (List Element × Bool) :=
  if links.length ≠ joints.length + 1 then .ok ([], false)
  else if namesUnique [] (links.map (·.name)) = false then .ok ([], false)
  else if namesUnique [] (joints.map (·.name)) = false then .ok ([], false)
  else do
    let s ← skeletonLoop 0 joints (List.replicate links.length Element.empty)
    match s with
    | none => .ok ([], false)
    | some skeleton => do
      let root ← read skeleton 0
      if root.parentJoint ≠ -1 ∨ root.parentLink ≠ -1 then .ok ([], false)
      else do
        let valid ← checkSkeleton skeleton
        .ok (skeleton, valid)

/-! ### The robot -/

/-- simple_linked_robot_model.hpp:322-330: the members of `SimpleLinkedRobot`. `active` is the map
`active_joint_index_map_`, whose keys are 0, 1, .... -/
structure Robot where
  config : List Joint
  base : Transform
  inverseBase : Transform
  links : List Link
  joints : List RobotJoint
  skeleton : List Element
  active : List Int
  weights : List ℝ
  numActive : Nat

/-- simple_linked_robot_model.hpp:349-365: the transform of the child of a joint, from that of the joint -/
noncomputable def childTransform (j : RobotJoint) (toJoint : Transform) : Transform :=
  if j.model.isRevolute = true then
    toJoint.mul ⟨toRotationMatrix (ofAngleAxis j.model.value j.axis), 0⟩
  else if j.model.isPrismatic = true then
    toJoint.mul ⟨toRotationMatrix ⟨1, 0, 0, 0⟩, j.model.value • j.axis⟩
  else toJoint

/-- simple_linked_robot_model.hpp:336-366: the loop of `UpdateTransforms` -/
noncomputable def updateLoop : List RobotJoint → List Link → Out (List Link)
  | [], links => .ok links
  | j :: js, links => do
    let parent ← read links j.parent
    let links ← change links j.child fun l =>
      { l with transform := childTransform j (parent.transform.mul j.transform) }
    updateLoop js links

/-- simple_linked_robot_model.hpp:332-367 `UpdateTransforms` -/
noncomputable def updateTransforms (base : Transform) (joints : List RobotJoint) (links : List Link) :
    Out (List Link) := do
  let links ← change links 0 fun l => { l with transform := base }
  updateLoop joints links

/-- simple_linked_robot_model.hpp:373-388: the loop of `SetConfig`: the outcome, the joints and the new configuration.
Of the new configuration only the values are read. -/
noncomputable def setLoop : List RobotJoint → List (Option ℝ) → Out Unit × List RobotJoint × List Joint
  | [], _ => (.ok (), [], [])
  | j :: js, values =>
    if j.model.isFixed = true then
      let r := setLoop js values
      (r.1, j :: r.2.1, r.2.2)
    else
      match values with
      | [] => (.throws .runtimeError, j :: js, [])
      | v :: vs =>
        match j.model.setValue v with
        | .ok m =>
          let r := setLoop js vs
          (r.1, { j with model := m } :: r.2.1, m :: r.2.2)
        | .throws e => (.throws e, j :: js, [])
        | .abort => (.abort, j :: js, [])
        | .ub => (.ub, j :: js, [])

/-- simple_linked_robot_model.hpp:369-394 `SetConfig`, and 629-632 `SetPosition`, which returns the configuration -/
noncomputable def setPosition (values : List (Option ℝ)) : M Robot (List Joint) := fun r =>
  if values.length = r.numActive then
    let s := setLoop r.joints values
    let r := { r with joints := s.2.1, config := s.2.2 }
    match s.1 with
    | .ok () =>
      match updateTransforms r.base r.joints r.links with
      | .ok links => (.ok r.config, { r with links := links })
      | .throws e => (.throws e, r)
      | .abort => (.abort, r)
      | .ub => (.ub, r)
    | .throws e => (.throws e, r)
    | .abort => (.abort, r)
    | .ub => (.ub, r)
  else (.throws .invalidArgument, r)

/-- simple_linked_robot_model.hpp:618-621 `UpdateBaseTransform` -/
noncomputable def updateBaseTransform (base : Transform) : M Robot Unit := fun r =>
  let r := { r with base := base }
  match updateTransforms r.base r.joints r.links with
  | .ok links => (.ok (), { r with links := links })
  | .throws e => (.throws e, r)
  | .abort => (.abort, r)
  | .ub => (.ub, r)

/-- simple_linked_robot_model.hpp:400-409: the loop of `MakeActiveJointIndexMap` -/
def activeLoop : Nat → List RobotJoint → Nat × List Int
  | n, [] => (n, [])
  | n, j :: js =>
    if j.model.isFixed = false then
      let r := activeLoop (n + 1) js
      (r.1, (n : Int) :: r.2)
    else
      let r := activeLoop n js
      (r.1, -1 :: r.2)

/-- simple_linked_robot_model.hpp:396-411 `MakeActiveJointIndexMap` -/
def makeActiveJointIndexMap (joints : List RobotJoint) : Nat × List Int := activeLoop 0 joints

/-- simple_linked_robot_model.hpp:569-593: the constructor -/
noncomputable def make (base : Transform) (links : List Link) (joints : List RobotJoint) (initial : List (Option ℝ))
    (weights : List ℝ) : Out Robot := do
  let check ← sanityCheck links joints
  if check.2 = false then .throws .invalidArgument
  else
    let active := makeActiveJointIndexMap joints
    if weights.length ≠ active.1 then .throws .invalidArgument
    else
      let r : Robot := ⟨[], base, base.inverse, links, joints, check.1, active.2, weights.map (|·|), active.1⟩
      match setPosition initial r with
      | (.ok _, r) => .ok r
      | (.throws e, _) => .throws e
      | (.abort, _) => .abort
      | (.ub, _) => .ub

/-- simple_linked_robot_model.hpp:600-616 `GetActiveJointNames` -/
def activeJointNames (r : Robot) : Out (List String) :=
  let names := (r.joints.filter fun j => !j.model.isFixed).map (·.name)
  if names.length = r.numActive then .ok names else .throws .runtimeError

/-- simple_linked_robot_model.hpp:634-641 `GetLinkNames` -/
def linkNames (r : Robot) : List String := r.links.map (·.name)

/-- simple_linked_robot_model.hpp:644-649: the loop of `GetLinkTransform` -/
def linkTransformLoop (name : String) : List Link → Out Transform
  | [] => .throws .invalidArgument
  | l :: ls => if l.name = name then .ok l.transform else linkTransformLoop name ls

/-- simple_linked_robot_model.hpp:643-651 `GetLinkTransform` -/
def linkTransform (r : Robot) (name : String) : Out Transform := linkTransformLoop name r.links

/-- simple_linked_robot_model.hpp:653-660 `GetLinkTransforms` -/
def linkTransforms (r : Robot) : List Transform := r.links.map (·.transform)

/-- simple_linked_robot_model.hpp:662-669 `GetLinkTransformsMap`: the entry of a name, if there is one; later links
replace earlier ones of the same name -/
def linkTransformsMap (r : Robot) (name : String) : Option Transform :=
  r.links.foldl (fun m l => if l.name = name then some l.transform else m) none

/-! ### Configurations -/

/-- simple_linked_robot_model.hpp:675-679: the loop of `ComputeUnweightedPerDimensionConfigurationRawDistance` -/
noncomputable def rawLoop : List Joint → List Joint → Out (List ℝ)
  | [], _ => .ok []
  | _ :: _, [] => .ub
  | a :: as, b :: bs => do
    let d ← a.signedDistance b
    let rest ← rawLoop as bs
    .ok (d :: rest)

/-- simple_linked_robot_model.hpp:671-684 `ComputeUnweightedPerDimensionConfigurationRawDistance` -/
noncomputable def rawDistance (c1 c2 : List Joint) : Out (List ℝ) :=
  if c1.length = c2.length then rawLoop c1 c2 else .throws .invalidArgument

/-- simple_linked_robot_model.hpp:690-696: the loop of `ComputePerDimensionConfigurationSignedDistance` -/
noncomputable def weightedLoop : List Joint → List Joint → List ℝ → Out (List ℝ)
  | [], _, _ => .ok []
  | a :: as, b :: bs, w :: ws => do
    let d ← a.signedDistance b
    let rest ← weightedLoop as bs ws
    .ok (d * w :: rest)
  | _ :: _, _, _ => .ub

/-- simple_linked_robot_model.hpp:686-701 `ComputePerDimensionConfigurationSignedDistance` -/
noncomputable def signedDistances (r : Robot) (c1 c2 : List Joint) : Out (List ℝ) :=
  if c1.length = r.numActive ∧ c2.length = r.numActive then weightedLoop c1 c2 r.weights
  else .throws .invalidArgument

/-- simple_linked_robot_model.hpp:703-706 `ComputeConfigurationDistance` -/
noncomputable def configurationDistance (r : Robot) (c1 c2 : List Joint) : Out ℝ := do
  let ds ← signedDistances r c1 c2
  .ok (Real.sqrt ((ds.map fun d => d * d).sum))

/-- simple_linked_robot_model.hpp:719-726: the value between those of two joints of the same type -/
noncomputable def interpolatedValue (a b : Joint) (ratio : ℝ) : ℝ :=
  if a.isContinuous = true then Angles.interpolateRevolute Real.pi a.value b.value ratio
  else Angles.interpolate a.value b.value ratio

/-- simple_linked_robot_model.hpp:715-730: the loop of `InterpolateBetweenConfigurations` -/
noncomputable def interpolateLoop (ratio : ℝ) : List Joint → List Joint → Out (List Joint)
  | [], _ => .ok []
  | _ :: _, [] => .ub
  | a :: as, b :: bs =>
    if a.isSameType b = true then do
      let j ← a.copyWithNewValue (some (interpolatedValue a b ratio))
      let rest ← interpolateLoop ratio as bs
      .ok (j :: rest)
    else .throws .invalidArgument

/-- simple_linked_robot_model.hpp:708-735 `InterpolateBetweenConfigurations` -/
noncomputable def interpolateConfigurations (start finish : List Joint) (ratio : ℝ) : Out (List Joint) :=
  if start.length = finish.length then interpolateLoop ratio start finish else .throws .invalidArgument

/-- simple_linked_robot_model.hpp:745-752: the types are compared one by one -/
def sameTypes : List Joint → List Joint → Out Unit
  | [], _ => .ok ()
  | _ :: _, [] => .ub
  | a :: as, b :: bs => if a.isSameType b = false then .throws .invalidArgument else sameTypes as bs

/-- simple_linked_robot_model.hpp:742-756: every configuration is compared with the first -/
def sameShape (first : List Joint) : List (List Joint) → Out Unit
  | [] => .ok ()
  | c :: cs =>
    if first.length = c.length then do
      sameTypes first c
      sameShape first cs
    else .throws .invalidArgument

/-- simple_linked_robot_model.hpp:761-767: the values of one joint in all configurations -/
def jointValues (k : Nat) : List (List Joint) → Out (List ℝ)
  | [] => .ok []
  | c :: cs =>
    match c[k]? with
    | none => .ub
    | some j => do
      let rest ← jointValues k cs
      .ok (j.value :: rest)

/-- simple_linked_robot_model.hpp:771-781: the loop that averages each joint; `k` is the index of the head -/
noncomputable def averageLoop (configurations : List (List Joint)) : Nat → List Joint → Out (List Joint)
  | _, [] => .ok []
  | k, j :: js => do
    let values ← jointValues k configurations
    let v ← if j.isContinuous = true then Averages.averageRevolute values [] else Averages.average values []
    let a ← j.copyWithNewValue (some v)
    let rest ← averageLoop configurations (k + 1) js
    .ok (a :: rest)

/-- simple_linked_robot_model.hpp:737-786 `AverageConfigurations` -/
noncomputable def averageConfigurations : List (List Joint) → Out (List Joint)
  | [] => .ok []
  | first :: rest => do
    sameShape first (first :: rest)
    averageLoop (first :: rest) 0 first

/-! ### The Jacobian -/

/-- A Jacobian by columns, rows 0 to 2 and 3 to 5. Used for simple_linked_robot_model.hpp:737-786, 831-843. -/
abbrev Jacobian := Nat → Twist

/-- Writing to one column. Used for simple_linked_robot_model.hpp:831-843. -/
def Jacobian.write (m : Jacobian) (c : Nat) (t : Twist) : Jacobian := fun k => if k = c then t else m k

/-- simple_linked_robot_model.hpp:793: the transform of a point of four numbers, without the last -/
def apply (T : Transform) (p : Fin 4 → ℝ) : Fin 3 → ℝ :=
  T.rotation *ᵥ ![p 0, p 1, p 2] + p 3 • T.translation

/-- simple_linked_robot_model.hpp:831-843: what one joint adds to the Jacobian. A column outside of the matrix would
fail an assertion of Eigen. -/
noncomputable def jacobianStep (numActive : Nat) (world : Fin 3 → ℝ) (active : Int) (j : RobotJoint) (T : Transform)
    (m : Jacobian) : Out Jacobian :=
  if j.model.isRevolute = true then
    let axis := T.rotation *ᵥ j.axis
    if 0 ≤ active ∧ active < numActive then .ok (m.write active.toNat ⟨axis ⨯₃ (world - T.translation), axis⟩)
    else .abort
  else if j.model.isPrismatic = true then
    let axis := T.rotation *ᵥ j.axis + T.translation
    if 0 ≤ active ∧ active < numActive then .ok (m.write active.toNat ⟨axis, (m active.toNat).rot⟩)
    else .abort
  else if j.model.isFixed = false then .throws .runtimeError
  else .ok m

/-- simple_linked_robot_model.hpp:816-846: the walk up the tree. The number bounds the steps; C100 shows that the
bound used is never reached (without it the loop would not end). -/
noncomputable def jacobianLoop (r : Robot) (world : Fin 3 → ℝ) : Nat → Int → Jacobian → Out Jacobian
  | 0, _, _ => .ub
  | steps + 1, i, m =>
    if i > 0 then do
      let e ← read r.skeleton i
      if e.parentJoint < 0 then .throws .runtimeError
      else
        match at? r.active e.parentJoint with
        | none => .throws .outOfRange
        | some active => do
          let j ← read r.joints e.parentJoint
          let child ← read r.links j.child
          let m ← jacobianStep r.numActive world active j child.transform m
          jacobianLoop r world steps e.parentLink m
    else .ok m

/-- simple_linked_robot_model.hpp:798-805: the index of a link -/
def linkIndex (name : String) : Nat → List Link → Int
  | _, [] => -1
  | i, l :: ls => if l.name = name then (i : Int) else linkIndex name (i + 1) ls

/-- simple_linked_robot_model.hpp:788-848 `ComputeLinkPointJacobian` -/
noncomputable def linkPointJacobian (r : Robot) (name : String) (p : Fin 4 → ℝ) : Out Jacobian := do
  let T ← linkTransform r name
  let world := apply T p
  let zero : Jacobian := fun _ => ⟨0, 0⟩
  let i := linkIndex name 0 r.links
  if i < 0 then .ok zero
  else if i = 0 then .ok zero
  else jacobianLoop r world (r.links.length + 1) i zero

/-- simple_linked_robot_model.hpp:850-857 `ComputeLinkPointTranslationJacobian`: by columns -/
noncomputable def linkPointTranslationJacobian (r : Robot) (name : String) (p : Fin 4 → ℝ) :
    Out (Nat → Fin 3 → ℝ) := do
  let m ← linkPointJacobian r name p
  .ok fun k => (m k).trans

end Verif.LinkedRobot
