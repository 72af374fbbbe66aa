/-!
# Model of the choice of the pose type

include/arc_utilities/moveit_pose_type.hpp. The preprocessor computes with integers; an argument of the macro is a number.
-/
namespace Verif.MoveitVersion

/-- The version of MoveIt that the code is compiled with. Used for moveit_pose_type.hpp:11-20. -/
structure Version where
  major : Int
  minor : Int
  patch : Int
  deriving DecidableEq

/-- moveit_pose_type.hpp:11-14 `MOVEIT_VERSION_AT_LEAST` -/
def versionAtLeast (v : Version) (x y z : Int) : Bool :=
  v.major > x || (v.major >= x && (v.minor > y || (v.minor >= y && v.patch >= z)))

/-- The two types of poses. Used for moveit_pose_type.hpp:16-20. -/
inductive PoseType where
  | isometry
  | affine
  deriving DecidableEq

/-- moveit_pose_type.hpp:16-20 `Pose` -/
def poseType (v : Version) : PoseType := if versionAtLeast v 1 0 1 then .isometry else .affine

end Verif.MoveitVersion
