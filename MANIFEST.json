{
 "claims": [
  {
   "property": "C01",
   "status": "proved",
   "theorems": [
    "Verif.Serialization.C01_pod_roundtrip",
    "Verif.Serialization.C01_int_layout"
   ],
   "note": "All fixed-size types (given by sizeof and object representation) and all integer widths, any buffer and offset."
  },
  {
   "property": "C02",
   "status": "proved",
   "theorems": [
    "Verif.Serialization.C02_vector_roundtrip",
    "Verif.Serialization.C02_pair_roundtrip",
    "Verif.Serialization.C02_map_roundtrip",
    "Verif.Serialization.C02_nested_roundtrip",
    "Verif.Serialization.C02_vector_layout",
    "Verif.Serialization.C02_map_layout",
    "Verif.Serialization.C02_map_duplicates",
    "Verif.Serialization.C02_empty_pair_fails"
   ],
   "note": "Every nesting of POD, string, vector, pair and map. C02_empty_pair_fails records the one exception (zero-byte pair at the end of a buffer)."
  },
  {
   "property": "C03",
   "status": "proved",
   "theorems": [
    "Verif.Serialization.C03_sequence"
   ],
   "note": "Any list of values with any supported serializers."
  },
  {
   "property": "C04",
   "status": "proved",
   "theorems": [
    "Verif.Serialization.C04_arbitrary_buffers",
    "Verif.Serialization.C04_pod_exact",
    "Verif.Serialization.C04_vector_count",
    "Verif.Serialization.C04_vector_absurd_count"
   ],
   "note": "Arbitrary buffers and offsets, with assertions enabled."
  },
  {
   "property": "C05",
   "status": "proved",
   "theorems": [
    "Verif.Serialization.C05_big_endian",
    "Verif.Serialization.C05_vector_layout",
    "Verif.Serialization.C05_portable",
    "Verif.Serialization.C05_arbitrary_buffers"
   ],
   "note": "Writer and reader hosts of either byte order."
  },
  {
   "property": "C06",
   "status": "proved",
   "theorems": [
    "Verif.SerializationEigen.C06_layout",
    "Verif.SerializationEigen.C06_fixed_vector_roundtrip",
    "Verif.SerializationEigen.C06_vectorX_roundtrip",
    "Verif.SerializationEigen.C06_matrixX_roundtrip",
    "Verif.SerializationEigen.C06_matrix3X_roundtrip",
    "Verif.SerializationEigen.C06_isometry3_roundtrip",
    "Verif.SerializationEigen.C06_arbitrary_buffers"
   ],
   "note": "Every matrix type with a serializer/deserializer pair; sizes below 2^63 bytes."
  },
  {
   "property": "C07",
   "status": "proved",
   "theorems": [
    "Verif.SerializationRos.C07_messages_roundtrip",
    "Verif.SerializationRos.C07_arbitrary_buffers",
    "Verif.SerializationRos.C07_sizes"
   ],
   "note": "All eight message types."
  },
  {
   "property": "C08",
   "status": "proved",
   "theorems": [
    "Verif.Base64.C08_roundtrip"
   ],
   "note": ""
  },
  {
   "property": "C09",
   "status": "proved",
   "theorems": [
    "Verif.Base64.C09_rfc4648",
    "Verif.Base64.C09_shape",
    "Verif.Base64.C09_injective"
   ],
   "note": ""
  },
  {
   "property": "C10",
   "status": "proved",
   "theorems": [
    "Verif.Base64.C10_decode_ascii",
    "Verif.Base64.C10_decode_ub_iff",
    "Verif.Base64.C10_decode_length"
   ],
   "note": "Decode is undefined exactly when a character has code 128 or more at a position it looks up; this is stated and proved."
  },
  {
   "property": "C100",
   "status": "partial",
   "theorems": [
    "Verif.LinkedRobot.C100_jacobian_partial",
    "Verif.LinkedRobot.C100_prismatic_wrong",
    "Verif.LinkedRobot.C100_family",
    "Verif.LinkedRobot.C100_errors"
   ],
   "note": "Proved for revolute and continuous joints, and for joints that do not move the link. False for prismatic joints, whose column also contains the position of the child link (C100_prismatic_wrong). Exact arithmetic."
  },
  {
   "property": "C101",
   "status": "partial",
   "theorems": [
    "Verif.LinkedRobot.C101_signed",
    "Verif.LinkedRobot.C101_metric",
    "Verif.LinkedRobot.C101_raw",
    "Verif.LinkedRobot.C101_interpolate",
    "Verif.LinkedRobot.C101_interpolate_ends",
    "Verif.LinkedRobot.C101_average_partial",
    "Verif.LinkedRobot.C101_average_continuous_wrong"
   ],
   "note": "Distances and interpolation: proved. Averages: proved to be the mean of the values, which for continuous joints is no average of the angles (C101_average_continuous_wrong). Exact arithmetic."
  },
  {
   "property": "C102",
   "status": "partial",
   "theorems": [
    "Verif.Se2Robot.C102_position",
    "Verif.Se2Robot.C102_distance",
    "Verif.Se2Robot.C102_dimensions",
    "Verif.Se2Robot.C102_interpolate",
    "Verif.Se2Robot.C102_average_partial",
    "Verif.Se2Robot.C102_average_angle_wrong",
    "Verif.Se2Robot.C102_jacobian"
   ],
   "note": "All proved but the average: it has the plain mean of the angles, which is no average of the directions (C102_average_angle_wrong). Exact arithmetic."
  },
  {
   "property": "C103",
   "status": "proved",
   "theorems": [
    "Verif.RobotGeometry.C103_construct",
    "Verif.RobotGeometry.C103_allowed",
    "Verif.RobotGeometry.C103_single"
   ],
   "note": ""
  },
  {
   "property": "C104",
   "status": "partial",
   "theorems": [
    "Verif.Se3Robot.C104_position",
    "Verif.Se3Robot.C104_distance_partial",
    "Verif.Se3Robot.C104_dimensions",
    "Verif.Se3Robot.C104_interpolate",
    "Verif.Se3Robot.C104_average",
    "Verif.Se3Robot.C104_jacobian"
   ],
   "note": "All proved but the triangle inequality of the distance, which holds up to two ten millionths times the weight (see C89_quaternion_triangle_fails). Exact arithmetic."
  },
  {
   "property": "C105",
   "status": "partial",
   "theorems": [
    "Verif.PoseAverage.C105_quaternions",
    "Verif.PoseAverage.C105_single",
    "Verif.PoseAverage.C105_weights_squared_wrong",
    "Verif.PoseAverage.C105_transforms",
    "Verif.PoseAverage.C105_single_transform"
   ],
   "note": "Proved with the squares of the weights as factors for the rotations, which is not the weighted average (C105_weights_squared_wrong); without weights it is. Eigen's EigenSolver is a parameter assumed to find unit eigenvectors and all real eigenvalues of symmetric matrices (such a solver exists, exists_solver). Exact arithmetic."
  },
  {
   "property": "C106",
   "status": "proved",
   "theorems": [
    "Verif.TruncatedNormal.C106_rate",
    "Verif.TruncatedNormal.C106_one_sided",
    "Verif.TruncatedNormal.C106_one_sided_below",
    "Verif.TruncatedNormal.C106_uniform",
    "Verif.TruncatedNormal.C106_choice"
   ],
   "note": "Exact arithmetic with the real exponential and square root. The range from which the uniform method draws is wrong (C45_uniform_rejection_wrong); its acceptance probability is right."
  },
  {
   "property": "C107",
   "status": "proved",
   "theorems": [
    "Verif.Totg.C107_blend",
    "Verif.Totg.C107_no_blend",
    "Verif.Totg.C107_line"
   ],
   "note": "Exact arithmetic; corners that reverse exactly are excluded (radius zero)."
  },
  {
   "property": "C108",
   "status": "proved",
   "theorems": [
    "Verif.Totg.C108_blended",
    "Verif.Totg.C108_polyline",
    "Verif.Totg.C108_short"
   ],
   "note": "Consecutive waypoints more than 2e-6 apart and no exact reversal; the code divides by zero otherwise."
  },
  {
   "property": "C109",
   "status": "proved",
   "theorems": [
    "Verif.Totg.C109_acceleration",
    "Verif.Totg.C109_velocity",
    "Verif.Totg.C109_feasible",
    "Verif.Totg.C109_safe",
    "Verif.Totg.C109_slope"
   ],
   "note": "Exact arithmetic."
  },
  {
   "property": "C11",
   "status": "proved",
   "theorems": [
    "Verif.Graph.C11_history_linked",
    "Verif.Graph.C11_edit_keeps_linked"
   ],
   "note": "Histories of any length, including calls that throw."
  },
  {
   "property": "C110",
   "status": "proved",
   "theorems": [
    "Verif.Totg.C110_sorted",
    "Verif.Totg.C110_boundaries",
    "Verif.Totg.C110_smooth",
    "Verif.Totg.C110_zeros",
    "Verif.Totg.C110_unflagged",
    "Verif.Totg.C110_next"
   ],
   "note": "Exact arithmetic."
  },
  {
   "property": "C111",
   "status": "partial",
   "theorems": [
    "Verif.Totg.Problem.C111_forward",
    "Verif.Totg.Problem.C111_step",
    "Verif.Totg.Problem.C111_backward",
    "Verif.Totg.Problem.C111_switch",
    "Verif.Totg.Problem.C111_ends",
    "Verif.Totg.C111_trajectory",
    "Verif.Totg.C111_short",
    "Verif.Totg.C111_velocity_wrong",
    "Verif.Totg.C111_acceleration_wrong",
    "Verif.Totg.C111_never_ends"
   ],
   "note": "The last sentence is false: C111_velocity_wrong and C111_acceleration_wrong are trajectories, built from waypoints, that break the limits of the joints. Termination is not claimed in general; without acceleration the construction does not end (C111_never_ends)."
  },
  {
   "property": "C112",
   "status": "partial",
   "theorems": [
    "Verif.Totg.C112_history",
    "Verif.Totg.C112_times",
    "Verif.Totg.C112_between",
    "Verif.Totg.C112_motion",
    "Verif.Totg.C112_negative",
    "Verif.Totg.C112_after",
    "Verif.Totg.C112_overrun"
   ],
   "note": "The last sentence is false: after the end the motion is extrapolated with the last acceleration and goes backwards (C112_after, C112_overrun). The rest is proved for lists of steps that move forward."
  },
  {
   "property": "C113",
   "status": "proved",
   "theorems": [
    "Verif.ThinPlateSpline.C113_warps",
    "Verif.ThinPlateSpline.C113_consistent",
    "Verif.ThinPlateSpline.C113_unique",
    "Verif.ThinPlateSpline.C113_affine",
    "Verif.ThinPlateSpline.C113_construct",
    "Verif.ThinPlateSpline.C113_history"
   ],
   "note": "The kernels r^2 log r and -r are proved conditionally positive definite, so the linear system is proved solvable for every consistent choice of points. The QR solver is a parameter that returns a solution of every solvable system; arithmetic is exact."
  },
  {
   "property": "C114",
   "status": "proved",
   "theorems": [
    "Verif.LeastSquares.C114_truncated",
    "Verif.LeastSquares.C114_exact",
    "Verif.LeastSquares.C114_unique",
    "Verif.LeastSquares.C114_solves",
    "Verif.LeastSquares.C114_absolute"
   ],
   "note": "Eigen's JacobiSVD is a parameter with the contract of a singular value decomposition; arithmetic is exact."
  },
  {
   "property": "C115",
   "status": "proved",
   "theorems": [
    "Verif.LeastSquares.C115_weighted",
    "Verif.LeastSquares.C115_underdetermined"
   ],
   "note": "The smallest singular value and the solution by Cholesky decomposition are parameters: the least stretch of a unit vector, and a solution for every positive definite matrix. That the matrix is positive definite is proved."
  },
  {
   "property": "C116",
   "status": "proved",
   "theorems": [
    "Verif.LeastSquares.C116_fit"
   ],
   "note": "Eigen's JacobiSVD is a parameter with the contract of a thin singular value decomposition of the centred points; arithmetic is exact."
  },
  {
   "property": "C117",
   "status": "proved",
   "theorems": [
    "Verif.Totg.Problem.C117_acceleration",
    "Verif.Totg.Problem.C117_velocity",
    "Verif.Totg.Problem.C117_switch",
    "Verif.Totg.Problem.C117_stops",
    "Verif.Totg.Problem.C117_crosses",
    "Verif.Totg.Problem.C117_discontinuity"
   ],
   "note": "Exact arithmetic; infinite slopes and limits are values, 0/0 is no slope and compares false."
  },
  {
   "property": "C118",
   "status": "proved",
   "theorems": [
    "Verif.Multivariate.C118_construct",
    "Verif.Multivariate.C118_transform",
    "Verif.Multivariate.C118_sample",
    "Verif.Multivariate.C118_law"
   ],
   "note": "Eigen's LLT and SelfAdjointEigenSolver are parameters with their contracts (they read the lower triangle); standard normal draws are independent; exact arithmetic."
  },
  {
   "property": "C119",
   "status": "proved",
   "theorems": [
    "Verif.GaussianFunctions.C119_pdf",
    "Verif.GaussianFunctions.C119_cdf",
    "Verif.GaussianFunctions.C119_integrate",
    "Verif.GaussianFunctions.C119_truncated_cdf",
    "Verif.GaussianFunctions.C119_truncated_integrate",
    "Verif.GaussianFunctions.C119_truncated_pdf"
   ],
   "note": "erf is its integral, with its limits at infinity; exact arithmetic."
  },
  {
   "property": "C12",
   "status": "proved",
   "theorems": [
    "Verif.Graph.C12_rejects",
    "Verif.Graph.C12_effect",
    "Verif.Graph.C12_returns_new",
    "Verif.Graph.C12_parallel_returns_old",
    "Verif.Graph.C12_both_directions"
   ],
   "note": "Exact outcomes for every index; the reference is modelled as the position in the out list."
  },
  {
   "property": "C120",
   "status": "proved",
   "theorems": [
    "Verif.RandomRotation.C120_unit",
    "Verif.RandomRotation.C120_raw",
    "Verif.RandomRotation.C120_law",
    "Verif.RandomRotation.C120_rotation",
    "Verif.RandomRotation.C120_unique"
   ],
   "note": "The generator is modelled as independent uniform draws from [0, 1); exact arithmetic."
  },
  {
   "property": "C121",
   "status": "proved",
   "theorems": [
    "Verif.RandomRotation.C121_range",
    "Verif.RandomRotation.C121_raw",
    "Verif.RandomRotation.C121_law"
   ],
   "note": "The generator is modelled as independent uniform draws from [0, 1); exact arithmetic."
  },
  {
   "property": "C122",
   "status": "partial",
   "theorems": [
    "Verif.Log.C122_open",
    "Verif.Log.C122_bare",
    "Verif.Log.C122_history_partial",
    "Verif.Log.C122_one",
    "Verif.Log.C122_copy_loses",
    "Verif.LogThreads.C122_threads",
    "Verif.LogThreads.C122_threads_done",
    "Verif.LogThreads.C122_threads_progress"
   ],
   "note": "False when a logger is used after it was copied (C122_copy_loses), and when a file is opened again while a logger lives; proved for all other histories."
  },
  {
   "property": "C123",
   "status": "proved",
   "theorems": [
    "Verif.Listener.C123_results",
    "Verif.Listener.C123_changes",
    "Verif.Listener.C123_no_race",
    "Verif.Listener.C123_progress",
    "Verif.Listener.C123_wait_returns",
    "Verif.Listener.C123_shutdown"
   ],
   "note": "The polling loop returns under the schedule that steps it; sequential consistency of the mutex."
  },
  {
   "property": "C124",
   "status": "partial",
   "theorems": [
    "Verif.FkFast.C124_links",
    "Verif.FkFast.C124_abb_partial",
    "Verif.FkFast.C124_abb_tool_not_rotation",
    "Verif.FkFast.C124_rigid",
    "Verif.FkFast.C124_distance",
    "Verif.FkFast.C124_prefix",
    "Verif.FkFast.C124_joint_names",
    "Verif.FkFast.C124_link_names"
   ],
   "note": "Exact arithmetic. The tool link of the ABB arm is not exactly rigid; its entries are within 3/10^16."
  },
  {
   "property": "C125",
   "status": "proved",
   "theorems": [
    "Verif.Conversions.C125_coordinates",
    "Verif.Conversions.C125_makers",
    "Verif.Conversions.C125_floats",
    "Verif.Conversions.C125_each",
    "Verif.Conversions.C125_matrices",
    "Verif.Conversions.C125_pose_acts",
    "Verif.Conversions.C125_rotation_part",
    "Verif.Conversions.C125_rotation_part_proper",
    "Verif.Conversions.C125_isometry_roundtrip",
    "Verif.Conversions.C125_pose_roundtrip",
    "Verif.Conversions.C125_matrix",
    "Verif.Conversions.C125_default",
    "Verif.Conversions.C125_not_unit",
    "Verif.Conversions.C125_apply",
    "Verif.Conversions.C125_std_undefined"
   ],
   "note": "Messages to Eigen and back. Quaternions not of length one give transforms that are not rigid, proved as C125_not_unit; ConvertTo of a dynamic vector to a standard vector is undefined, proved as C125_std_undefined."
  },
  {
   "property": "C126",
   "status": "partial",
   "theorems": [
    "Verif.VectorMath.C126_exact",
    "Verif.VectorMath.C126_pairs",
    "Verif.VectorMath.C126_words",
    "Verif.VectorMath.C126_sum",
    "Verif.VectorMath.C126_multiply",
    "Verif.VectorMath.C126_multiply_long",
    "Verif.VectorMath.C126_multiply_long_wrong",
    "Verif.VectorMath.C126_divide_partial",
    "Verif.VectorMath.C126_divide_power",
    "Verif.VectorMath.C126_divide_zero",
    "Verif.VectorMath.C126_divide_wrong"
   ],
   "note": "Division of an integer vector by a number is off by one for some exact quotients, proved as C126_divide_wrong; C126_divide_partial says exactly by how much. 64 bit products beyond 53 digits are rounded, proved as C126_multiply_long_wrong."
  },
  {
   "property": "C127",
   "status": "proved",
   "theorems": [
    "Verif.Algorithms.C127_nested_update",
    "Verif.Algorithms.C127_nested_update_raises",
    "Verif.Algorithms.C127_unique",
    "Verif.Algorithms.C127_repeat",
    "Verif.Algorithms.C127_zip",
    "Verif.Algorithms.C127_zip_raises",
    "Verif.Algorithms.C127_chunks",
    "Verif.Algorithms.C127_reversed_chunks"
   ],
   "note": "Python module algorithms.py. A single list cannot be zipped, part of C127_zip_raises."
  },
  {
   "property": "C128",
   "status": "proved",
   "theorems": [
    "Verif.PyPath.C128_segment",
    "Verif.PyPath.C128_tolerance",
    "Verif.PyPath.C128_closest_point",
    "Verif.PyPath.C128_closest_point_exact",
    "Verif.PyPath.C128_closest_point_empty"
   ],
   "note": "Exact arithmetic. The tolerance comes from the short-segment branch of the code."
  },
  {
   "property": "C129",
   "status": "proved",
   "theorems": [
    "Verif.PyPath.C129_path_length",
    "Verif.PyPath.C129_densify_line",
    "Verif.PyPath.C129_densify",
    "Verif.PyPath.C129_densify_zero",
    "Verif.PyPath.C129_travel_along",
    "Verif.PyPath.C129_travel_along_empty"
   ],
   "note": "Exact arithmetic."
  },
  {
   "property": "C13",
   "status": "proved",
   "theorems": [
    "Verif.Graph.C13_check_exact",
    "Verif.Graph.C13_constructor"
   ],
   "note": "Exact in both directions, no undefined behaviour on any graph value."
  },
  {
   "property": "C130",
   "status": "proved",
   "theorems": [
    "Verif.PyPath.C130_reverse",
    "Verif.PyPath.C130_reverse_empty",
    "Verif.PyPath.C130_reverse_twice",
    "Verif.PyPath.C130_velocities_wrong"
   ],
   "note": "The velocities are not negated, which C130_velocities_wrong shows."
  },
  {
   "property": "C131",
   "status": "proved",
   "theorems": [
    "Verif.TrajectoryPlanning.C131_motion",
    "Verif.TrajectoryPlanning.C131_linear",
    "Verif.TrajectoryPlanning.C131_quadratic",
    "Verif.TrajectoryPlanning.C131_cubic",
    "Verif.TrajectoryPlanning.C131_cubic_unique",
    "Verif.TrajectoryPlanning.C131_zero"
   ],
   "note": "Exact arithmetic."
  },
  {
   "property": "C132",
   "status": "proved",
   "theorems": [
    "Verif.PyColor.C132_rgb_xyz",
    "Verif.PyColor.C132_cielab",
    "Verif.PyColor.C132_xyz_lab",
    "Verif.PyColor.C132_lab_msh",
    "Verif.PyColor.C132_black",
    "Verif.PyColor.C132_red_wrong",
    "Verif.PyColor.C132_rad_diff",
    "Verif.PyColor.C132_coolwarm_raises",
    "Verif.PyColor.C132_coolwarm_ends",
    "Verif.PyColor.C132_coolwarm_middle",
    "Verif.PyColor.C132_jet",
    "Verif.PyColor.C132_hot_to_cold",
    "Verif.PyColor.C132_hot_to_cold_wrong",
    "Verif.PyColor.C132_make_color",
    "Verif.PyColor.C132_adjust_hue"
   ],
   "note": "Exact arithmetic. The defects (lost reference white, hue of negative a, black, last quarter of the map) are part of the statement."
  },
  {
   "property": "C133",
   "status": "proved",
   "theorems": [
    "Verif.TransformationHelper.C133_point",
    "Verif.TransformationHelper.C133_compose",
    "Verif.TransformationHelper.C133_invert",
    "Verif.TransformationHelper.C133_matrix",
    "Verif.TransformationHelper.C133_raw",
    "Verif.TransformationHelper.C133_components",
    "Verif.TransformationHelper.C133_invert_matrix",
    "Verif.TransformationHelper.C133_points",
    "Verif.TransformationHelper.C133_normalize",
    "Verif.TransformationHelper.C133_quaternions",
    "Verif.TransformationHelper.C133_axis_angle",
    "Verif.TransformationHelper.C133_axis_zero",
    "Verif.TransformationHelper.C133_axis",
    "Verif.TransformationHelper.C133_angle",
    "Verif.TransformationHelper.C133_angle_ros_wrong",
    "Verif.TransformationHelper.C133_angle_ros",
    "Verif.TransformationHelper.C133_translation_norm",
    "Verif.TransformationHelper.C133_dh",
    "Verif.TransformationHelper.C133_dh_wrong",
    "Verif.TransformationHelper.C133_spherical",
    "Verif.TransformationHelper.C133_spherical_back",
    "Verif.TransformationHelper.C133_dh_transform",
    "Verif.TransformationHelper.C133_compose_matrices"
   ],
   "note": "Exact arithmetic. The two functions of the transformation library are parameters with the contract IsTf, which is shown to be satisfiable (exists_tf). The defects are part of the statement."
  },
  {
   "property": "C134",
   "status": "proved",
   "theorems": [
    "Verif.Catches.C134_no_alarm_left",
    "Verif.Catches.C134_result",
    "Verif.Catches.C134_reports",
    "Verif.Catches.C134_zero",
    "Verif.Catches.C134_value_lost",
    "Verif.Catches.C134_handler",
    "Verif.Catches.C134_nested",
    "Verif.Catches.C134_retry",
    "Verif.Catches.C134_retry_all",
    "Verif.Catches.C134_skip",
    "Verif.Catches.C134_skip_ends",
    "Verif.Catches.C134_skip_quiet",
    "Verif.Catches.C134_moment",
    "Verif.Catches.C134_conditional"
   ],
   "note": "Every moment at which the alarm can ring is a step of the model; time itself is not modelled. The defects (lost values, limits that do not nest, skipping that ends the iteration) are part of the statement."
  },
  {
   "property": "C135",
   "status": "proved",
   "theorems": [
    "Verif.Filesystem.C135_rm_tree",
    "Verif.Filesystem.C135_rm_tree_link_wrong",
    "Verif.Filesystem.C135_rm_tree_order",
    "Verif.Filesystem.C135_rm_tree_no_dir",
    "Verif.Filesystem.C135_rm_tree_removes",
    "Verif.Filesystem.C135_rm_tree_success",
    "Verif.Filesystem.C135_count_files",
    "Verif.Filesystem.C135_count_files_no_dir",
    "Verif.Filesystem.C135_directory_size",
    "Verif.Filesystem.C135_link_differs",
    "Verif.Filesystem.C135_subdirs",
    "Verif.Filesystem.C135_mkdir_exists",
    "Verif.Filesystem.C135_mkdir_new",
    "Verif.Filesystem.C135_mkdir_made",
    "Verif.Filesystem.C135_mkdir_parents",
    "Verif.Filesystem.C135_stem",
    "Verif.Filesystem.C135_ask",
    "Verif.Filesystem.C135_candidate",
    "Verif.Filesystem.C135_candidate_hidden_wrong",
    "Verif.Filesystem.C135_no_overwrite",
    "Verif.Filesystem.C135_no_overwrite_ends",
    "Verif.Filesystem.C135_no_overwrite_link_wrong"
   ],
   "note": "No other process changes the file system. The defects (links followed, hidden names lost, broken links overwritten, generators not removed) are part of the statement."
  },
  {
   "property": "C136",
   "status": "proved",
   "theorems": [
    "Verif.ReliableTf.C136_one_sender",
    "Verif.ReliableTf.C136_wanted",
    "Verif.ReliableTf.C136_kept",
    "Verif.ReliableTf.C136_sent",
    "Verif.ReliableTf.C136_close",
    "Verif.ReliableTf.C136_goes_on",
    "Verif.ReliableTf.C136_join",
    "Verif.ReliableTf.C136_dead_stays",
    "Verif.ReliableTf.C136_statics_kept",
    "Verif.ReliableTf.C136_static_wrong",
    "Verif.ReliableTf.C136_static_old_value",
    "Verif.ReliableTf.C136_static_grows"
   ],
   "note": "Every schedule of the calling thread and the sending threads. Time is not modelled, and the calling thread is the only one that uses the object. The defects of static transforms (old ones sent again after a stop, messages that grow without bound) are part of the statement."
  },
  {
   "property": "C137",
   "status": "proved",
   "theorems": [
    "Verif.PyListener.C137_get",
    "Verif.PyListener.C137_get_moment",
    "Verif.PyListener.C137_handed",
    "Verif.PyListener.C137_failed",
    "Verif.PyListener.C137_no_callback",
    "Verif.PyListener.C137_missed",
    "Verif.PyListener.C137_progress",
    "Verif.PyListener.C137_deadlock"
   ],
   "note": "Every schedule of any number of threads. Copies of messages and time are not modelled. The defects (a message that comes before the constructor is through is lost to the callback; a callback that calls get blocks for ever) are part of the statement."
  },
  {
   "property": "C138",
   "status": "proved",
   "theorems": [
    "Verif.Joystick.C138_counts",
    "Verif.Joystick.C138_names",
    "Verif.Joystick.C138_no_name",
    "Verif.Joystick.C138_deadzone",
    "Verif.Joystick.C138_axis",
    "Verif.Joystick.C138_delta",
    "Verif.Joystick.C138_delta_mixed",
    "Verif.Joystick.C138_wait",
    "Verif.Joystick.C138_wait_on",
    "Verif.Joystick.C138_wait_button",
    "Verif.Joystick.C138_wait_axis",
    "Verif.Joystick.C138_wait_button_shutdown",
    "Verif.Joystick.C138_publisher",
    "Verif.Joystick.C138_publisher_wrong",
    "Verif.Joystick.C138_subscribers",
    "Verif.Joystick.C138_connect",
    "Verif.Joystick.C138_connect_fails"
   ],
   "note": "What the listener and the publishers answer at each moment is an arbitrary argument; axes are exact numbers; the throttling of warnings is not modelled."
  },
  {
   "property": "C139",
   "status": "proved",
   "theorems": [
    "Verif.FileSize.C139_round",
    "Verif.FileSize.C139_size",
    "Verif.FileSize.C139_no_size",
    "Verif.FileSize.C139_whole"
   ],
   "note": "All texts of ASCII characters. The quantity is an exact decimal fraction, not the float next to it; digits of other scripts, which Python takes too, are left out."
  },
  {
   "property": "C14",
   "status": "proved",
   "theorems": [
    "Verif.Graph.C14_roundtrip",
    "Verif.Graph.C14_arbitrary_buffers"
   ],
   "note": "int64 indices, containers below 2^63 entries; weights and distances as bit patterns."
  },
  {
   "property": "C140",
   "status": "proved",
   "theorems": [
    "Verif.PyConversions.C140_normalize",
    "Verif.PyConversions.C140_six",
    "Verif.PyConversions.C140_pose",
    "Verif.PyConversions.C140_position",
    "Verif.PyConversions.C140_positions",
    "Verif.PyConversions.C140_unit_point",
    "Verif.PyConversions.C140_columns",
    "Verif.PyConversions.C140_markers",
    "Verif.PyConversions.C140_round",
    "Verif.PyConversions.C140_dict_round",
    "Verif.PyConversions.C140_ros_not_started",
    "Verif.PyConversions.C140_ros_started",
    "Verif.PyConversions.C140_ros_shutdown_raises"
   ],
   "note": "Exact arithmetic; quaternion_from_euler is modelled from its library text. The defects (a list raises AttributeError although the signature of normalize_quaternion offers it; a quaternion in a list of seven is not normalized; a started C++ node stays if the Python node does not start) are part of the statements."
  },
  {
   "property": "C141",
   "status": "proved",
   "theorems": [
    "Verif.PrettyPrint.C141_unambiguous",
    "Verif.PrettyPrint.C141_container",
    "Verif.PrettyPrint.C141_fixed",
    "Verif.PrettyPrint.C141_ambiguous"
   ],
   "note": "Texts of single numbers are arbitrary arguments. Dynamic vectors and matrices, whose layout is that of Eigen, are left out, and so is forward_list, whose overload does not compile."
  },
  {
   "property": "C142",
   "status": "proved",
   "theorems": [
    "Verif.RosNode.C142_params",
    "Verif.RosNode.C142_logged",
    "Verif.RosNode.C142_start",
    "Verif.RosNode.C142_gathered",
    "Verif.RosNode.C142_options_wrong",
    "Verif.RosNode.C142_argument_cut",
    "Verif.RosNode.C142_shutdown"
   ],
   "note": "The parameter server is an arbitrary function. That options of init_node have no effect is part of the statement."
  },
  {
   "property": "C143",
   "status": "proved",
   "theorems": [
    "Verif.Hash.C143_combine",
    "Verif.Hash.C143_pair_second",
    "Verif.Hash.C143_vector_last",
    "Verif.Hash.C143_vector_pair",
    "Verif.Hash.C143_pair_first_collides",
    "Verif.Hash.C143_vector3",
    "Verif.Hash.C143_vector3_mirrored"
   ],
   "note": "The hashes of single values are arbitrary functions into 64 bits. The collisions are part of the statement."
  },
  {
   "property": "C144",
   "status": "proved",
   "theorems": [
    "Verif.CleanUp.C144_small",
    "Verif.CleanUp.C144_few",
    "Verif.CleanUp.C144_nothing",
    "Verif.CleanUp.C144_bad_root",
    "Verif.CleanUp.C144_nested_wrong"
   ],
   "note": "No other process changes the file system; no links. The failure with nested roots is part of the statement."
  },
  {
   "property": "C145",
   "status": "proved",
   "theorems": [
    "Verif.TfLookup.C145_waits",
    "Verif.TfLookup.C145_matrix",
    "Verif.TfLookup.C145_send",
    "Verif.TfLookup.C145_static"
   ],
   "note": "What tf answers in each round is an arbitrary argument; exact arithmetic; time is a label."
  },
  {
   "property": "C146",
   "status": "proved",
   "theorems": [
    "Verif.PathOwnership.C146_owned",
    "Verif.PathOwnership.C146_assign_wrong"
   ],
   "note": "Addresses are not used again; what is in a segment is arbitrary. That assignment breaks the ownership is part of the statement."
  },
  {
   "property": "C147",
   "status": "proved",
   "theorems": [
    "Verif.TrajectoryCopies.C147_query",
    "Verif.TrajectoryCopies.C147_alive",
    "Verif.TrajectoryCopies.C147_wrong"
   ],
   "note": "Exact arithmetic. The steps of each trajectory are arbitrary. That copies depend on the original is part of the statement."
  },
  {
   "property": "C148",
   "status": "proved",
   "theorems": [
    "Verif.Timestamps.C148_distinct",
    "Verif.Timestamps.C148_sorted",
    "Verif.Timestamps.C148_milliseconds_distinct",
    "Verif.Timestamps.C148_same_second",
    "Verif.Timestamps.C148_milliseconds_unsorted",
    "Verif.Timestamps.C148_milliseconds_partly_sorted"
   ],
   "note": "What localtime gives for each second is an arbitrary function into valid fields. That the milliseconds are not in order is part of the statement."
  },
  {
   "property": "C149",
   "status": "proved",
   "theorems": [
    "Verif.Closeness.C149_number",
    "Verif.Closeness.C149_all",
    "Verif.Closeness.C149_finite",
    "Verif.Closeness.C149_two_nan",
    "Verif.Closeness.C149_three",
    "Verif.Closeness.C149_three_wrong",
    "Verif.Closeness.C149_equal",
    "Verif.Closeness.C149_vectors"
   ],
   "note": "Doubles are the reals with two infinities and NaN; rounding and overflow are not modelled. The difference between the two overloads is part of the statement."
  },
  {
   "property": "C15",
   "status": "partial",
   "theorems": [
    "Verif.Graph.C15_components_wrong",
    "Verif.Graph.C15_labels_sound_partial",
    "Verif.Graph.C15_labels_exact_partial",
    "Verif.Graph.C15_connected_partial",
    "Verif.Graph.C15_search_exact",
    "Verif.Graph.C15_count_right_iff",
    "Verif.Graph.C15_labels_right_iff",
    "Verif.Graph.C15_any_graph",
    "Verif.Graph.C15_one_way_wrong"
   ],
   "note": "False of the code as stated: isolated nodes keep label 0, the double-counted start node ends the search early, and edges are followed in their own direction only. Proved: exactly what is reported of every graph (C15_any_graph), and for symmetric graphs exactly when the count and the labels are right."
  },
  {
   "property": "C150",
   "status": "proved",
   "theorems": [
    "Verif.Debugger.C150_traced",
    "Verif.Debugger.C150_absent",
    "Verif.Debugger.C150_name_wrong",
    "Verif.Debugger.C150_cut"
   ],
   "note": "The content of the status file is an arbitrary argument, read in one piece. The false report is part of the statement."
  },
  {
   "property": "C151",
   "status": "proved",
   "theorems": [
    "Verif.Prm.C151_walk",
    "Verif.Prm.C151_built",
    "Verif.Prm.C151_blocked_wrong"
   ],
   "note": "The draws are an arbitrary sequence; costs as in C62. That blocked edges are taken and that an isolated start is undefined behaviour is part of the statement."
  },
  {
   "property": "C152",
   "status": "proved",
   "theorems": [
    "Verif.Rrt.C152_target",
    "Verif.Rrt.C152_extremes",
    "Verif.Rrt.C152_plan",
    "Verif.Rrt.C152_returns",
    "Verif.Rrt.C152_no_time",
    "Verif.Rrt.C152_single"
   ],
   "note": "The numbers drawn, the states of the samplers and the readings of the clock are arbitrary sequences; exact times."
  },
  {
   "property": "C153",
   "status": "proved",
   "theorems": [
    "Verif.Dijkstra.C153_reads_back",
    "Verif.Dijkstra.C153_arbitrary_buffers",
    "Verif.Dijkstra.C153_unchecked"
   ],
   "note": "The writing function of the code does not compile when used; the layout is that of its reading function, written with the modelled serializers. That nothing is checked is part of the statement."
  },
  {
   "property": "C154",
   "status": "proved",
   "theorems": [
    "Verif.Console.C154_get_char",
    "Verif.Console.C154_flags",
    "Verif.Console.C154_get_chars",
    "Verif.Console.C154_no_terminal",
    "Verif.Console.C154_line",
    "Verif.Console.C154_debugged",
    "Verif.Console.C154_any_key_wrong",
    "Verif.Console.C154_wait_end",
    "Verif.Console.C154_levels",
    "Verif.Console.C154_text"
   ],
   "note": "The input is everything that will ever be typed. That any key will do and that a missing terminal is undefined behaviour is part of the statement."
  },
  {
   "property": "C155",
   "status": "proved",
   "theorems": [
    "Verif.Describe.C155_edge",
    "Verif.Describe.C155_node",
    "Verif.Describe.C155_graph",
    "Verif.Describe.C155_not_shown",
    "Verif.Describe.C155_index",
    "Verif.Describe.C155_numbers",
    "Verif.Describe.C155_strings",
    "Verif.Describe.C155_collision"
   ],
   "note": "How numbers with decimals are written is an arbitrary function whose texts contain no space, comma, line end or capital O. What is not shown is part of the statement."
  },
  {
   "property": "C156",
   "status": "proved",
   "theorems": [
    "Verif.Aligned.C156_measures",
    "Verif.Aligned.C156_expressions",
    "Verif.Aligned.C156_in_place_point",
    "Verif.Aligned.C156_hidden",
    "Verif.Aligned.C156_error",
    "Verif.Aligned.C156_add_in_place_wrong",
    "Verif.Aligned.C156_normalize_wrong",
    "Verif.Aligned.C156_chains",
    "Verif.Aligned.C156_approx",
    "Verif.Aligned.C156_assign"
   ],
   "note": "Exact real arithmetic; division by zero and roots of negative numbers end the computation. The wrong results after operations in place are part of the statement."
  },
  {
   "property": "C157",
   "status": "proved",
   "theorems": [
    "Verif.Voxel.C157_empty",
    "Verif.Voxel.C157_locations",
    "Verif.Voxel.C157_geometry",
    "Verif.Voxel.C157_raw"
   ],
   "note": "Exact arithmetic as in C35 to C37. That reads give a value that was never set is part of the statement."
  },
  {
   "property": "C158",
   "status": "proved",
   "theorems": [
    "Verif.VoxelRounded.C158_center",
    "Verif.VoxelRounded.C158_center_centred",
    "Verif.VoxelRounded.C158_inside"
   ],
   "note": "Every addition, multiplication and division of the conversions is rounded to 53 binary digits (any rounding that keeps the order and the sign, round to nearest is an instance); exponents are not limited. Origins without rotation."
  },
  {
   "property": "C159",
   "status": "proved",
   "theorems": [
    "Verif.RoundedMath.C159_wrap",
    "Verif.RoundedMath.C159_add",
    "Verif.RoundedMath.C159_signed",
    "Verif.RoundedMath.C159_distance",
    "Verif.RoundedMath.C159_range",
    "Verif.RoundedMath.C159_interpolate",
    "Verif.RoundedMath.C159_zero_wrong"
   ],
   "note": "Every operation is rounded to 53 binary digits (any rounding that keeps the order and the sign; round to nearest even is an instance), fmod is exact, exponents are not limited. A turn is twice M_PI as a double. That the distance of different angles can be computed as zero is proved."
  },
  {
   "property": "C16",
   "status": "proved",
   "theorems": [
    "Verif.Dijkstra.C16_shortest_distances",
    "Verif.Dijkstra.C16_infinity_iff_unreachable",
    "Verif.Dijkstra.C16_edges_are_out_edges"
   ],
   "note": "Every tie-break order; costs over any ordered type with monotone addition (exact reals, or doubles without NaN)."
  },
  {
   "property": "C160",
   "status": "proved",
   "theorems": [
    "Verif.RoundedMath.C160_interpolate",
    "Verif.RoundedMath.C160_squared",
    "Verif.RoundedMath.C160_distance",
    "Verif.RoundedMath.C160_total",
    "Verif.RoundedMath.C160_average"
   ],
   "note": "Rounding as in C159; the square root is rounded once. Averages of at most 2^40 values."
  },
  {
   "property": "C161",
   "status": "proved",
   "theorems": [
    "Verif.Dijkstra.C161_distances"
   ],
   "note": "Weights are non-negative doubles, sums are rounded to 53 binary digits and become infinite beyond the largest double (any rounding that keeps the order and the sign; round to nearest even is an instance). Sums of doubles do not underflow."
  },
  {
   "property": "C162",
   "status": "proved",
   "theorems": [
    "Verif.Astar.C162_bounded",
    "Verif.Astar.C162_bounded_generic",
    "Verif.Astar.C162_doubles",
    "Verif.Astar.C162_doubles_generic"
   ],
   "note": "The first two hold for every cost type of C19 and C21. For doubles the rounding is that of C161. Heuristics are not negative at the goal."
  },
  {
   "property": "C163",
   "status": "proved",
   "theorems": [
    "Verif.HashedGridRounded.C163_history",
    "Verif.HashedGridRounded.C163_last_write",
    "Verif.HashedGridRounded.C163_set_cell_reads_back",
    "Verif.HashedGridRounded.C163_set_chunk_reads_back",
    "Verif.HashedGridRounded.C163_never_fails",
    "Verif.HashedGridRounded.C163_no_overlap",
    "Verif.HashedGridRounded.C163_lost_write"
   ],
   "note": "Every operation on doubles is rounded; overflow and underflow are not modelled. The margin of 16(|i|+n) units is sufficient, not sharp. C163_lost_write is with rounding to nearest."
  },
  {
   "property": "C164",
   "status": "proved",
   "theorems": [
    "Verif.HashedGrid.C164_elements",
    "Verif.HashedGrid.C164_sizes",
    "Verif.HashedGrid.C164_found",
    "Verif.HashedGrid.C164_empty"
   ],
   "note": "Exact arithmetic, the same model as C39. The order in which the hash map lists the chunks is not modelled."
  },
  {
   "property": "C165",
   "status": "proved",
   "theorems": [
    "Verif.Voxel.C165_history",
    "Verif.Voxel.C165_follows",
    "Verif.Voxel.C165_reset_with_own_cell"
   ],
   "note": "References into the std::vector are valid until it is cleared or assigned; an epoch number models this. The grid is not moved or destroyed during the history."
  },
  {
   "property": "C166",
   "status": "proved",
   "theorems": [
    "Verif.Graph.C166_history",
    "Verif.Graph.C166_index_in_range",
    "Verif.Graph.C166_get_edge",
    "Verif.Graph.C166_get_edge_history",
    "Verif.Graph.C166_reverse",
    "Verif.Graph.C166_reverse_wrong"
   ],
   "note": "Indices passed to the edits are arbitrary; edits that abort leave the graph as it was. The reverse of one-way and of parallel edges is a counterexample, part of the statement."
  },
  {
   "property": "C167",
   "status": "proved",
   "theorems": [
    "Verif.Graph.C167_change",
    "Verif.Graph.C167_seen",
    "Verif.Graph.C167_linkage",
    "Verif.Graph.C167_dijkstra_reads",
    "Verif.Graph.C167_astar_reads",
    "Verif.Graph.C167_dijkstra_blind",
    "Verif.Graph.C167_searches_disagree"
   ],
   "note": "The disagreement of the two searches after a change through getEdge is part of the statement."
  },
  {
   "property": "C168",
   "status": "proved",
   "theorems": [
    "Verif.Rrt.C168_own_start",
    "Verif.Rrt.C168_start_in_tree",
    "Verif.Rrt.C168_children",
    "Verif.Rrt.C168_no_duplicates"
   ],
   "note": "Reading an element of the cleared vector is undefined behaviour."
  },
  {
   "property": "C169",
   "status": "proved",
   "theorems": [
    "Verif.Serialization.C169_self",
    "Verif.Serialization.C169_network_self"
   ],
   "note": "The buffer holds fewer than 2^63 bytes."
  },
  {
   "property": "C17",
   "status": "proved",
   "theorems": [
    "Verif.Dijkstra.C17_predecessors",
    "Verif.Dijkstra.C17_bad_start"
   ],
   "note": "Every tie-break order, zero-weight cycles included."
  },
  {
   "property": "C170",
   "status": "proved",
   "theorems": [
    "Verif.Serialization.Unchecked.C170_without_assertions",
    "Verif.Serialization.Unchecked.C170_round_trip",
    "Verif.Serialization.Unchecked.C170_truncated"
   ],
   "note": "The deserializers of serialization.hpp, host and network order. Reading past the end of the buffer is undefined; allocation failure is not modelled."
  },
  {
   "property": "C171",
   "status": "proved",
   "theorems": [
    "Verif.Graph.References.C171_edge",
    "Verif.Graph.References.C171_node",
    "Verif.Graph.References.C171_reserved",
    "Verif.Graph.References.C171_add",
    "Verif.Graph.References.C171_add_both",
    "Verif.Graph.References.C171_add_both_refused",
    "Verif.Graph.References.C171_add_node",
    "Verif.Graph.References.C171_get",
    "Verif.Graph.References.C171_shrink"
   ],
   "note": "The growth of vectors is any function that makes room. Assignments to the mutable vectors of nodes and edges are not modelled."
  },
  {
   "property": "C172",
   "status": "proved",
   "theorems": [
    "Verif.VoxelRounded.C172_cells",
    "Verif.VoxelRounded.C172_multiple",
    "Verif.VoxelRounded.C172_grids",
    "Verif.VoxelRounded.C172_storage",
    "Verif.VoxelRounded.C172_one_more",
    "Verif.VoxelRounded.C172_one_fewer"
   ],
   "note": "As in C158 exponents are not limited."
  },
  {
   "property": "C173",
   "status": "proved",
   "theorems": [
    "Verif.Kmeans.C173_size",
    "Verif.Kmeans.C173_any",
    "Verif.Kmeans.C173_cluster"
   ],
   "note": "With rounding, up to 2^50 points."
  },
  {
   "property": "C174",
   "status": "proved",
   "theorems": [
    "Verif.ResampleRounded.C174_resample",
    "Verif.ResampleRounded.C174_whole",
    "Verif.ResampleRounded.C174_refused",
    "Verif.ResampleRounded.C174_keeps",
    "Verif.ResampleRounded.C174_spacing",
    "Verif.ResampleRounded.C174_too_long"
   ],
   "note": "With rounding; no overflow or underflow; up to 2^32-2 pieces per segment. C174_too_long: the exact bound of C50 fails by a rounding."
  },
  {
   "property": "C175",
   "status": "proved",
   "theorems": [
    "Verif.GeometrySharing.C175_alive",
    "Verif.GeometrySharing.C175_freed",
    "Verif.GeometrySharing.C175_shared",
    "Verif.GeometrySharing.C175_written",
    "Verif.GeometrySharing.C175_starts",
    "Verif.GeometrySharing.C175_position",
    "Verif.GeometrySharing.C175_set"
   ],
   "note": "All histories of making, cloning, deleting, reading and writing. Robots are not used by several threads at once; pointers kept from GetLinkGeometries are left out."
  },
  {
   "property": "C176",
   "status": "proved",
   "theorems": [
    "Verif.TruncatedNormalRounded.C176_bounds",
    "Verif.TruncatedNormalRounded.C176_standard",
    "Verif.TruncatedNormalRounded.C176_method",
    "Verif.TruncatedNormalRounded.C176_naive",
    "Verif.TruncatedNormalRounded.C176_one_sided",
    "Verif.TruncatedNormalRounded.C176_one_sided_below",
    "Verif.TruncatedNormalRounded.C176_two_sided",
    "Verif.TruncatedNormalRounded.C176_choice",
    "Verif.TruncatedNormalRounded.C176_choice_below",
    "Verif.TruncatedNormalRounded.C176_below_method",
    "Verif.TruncatedNormalRounded.C176_uniform",
    "Verif.TruncatedNormalRounded.C176_roots",
    "Verif.TruncatedNormalRounded.C176_outside"
   ],
   "note": "Model with every double operation rounded; sqrt, exp and pow(x,2) are arbitrary functions, of which only sqrt(pow(x,2)+4) >= |x| is assumed (proved for correct rounding to nearest). C176_outside shows that the slack is needed. Overflow, underflow and NaN are not modelled."
  },
  {
   "property": "C177",
   "status": "proved",
   "theorems": [
    "Verif.UpsampleRounded.C177_upsample",
    "Verif.UpsampleRounded.C177_keeps",
    "Verif.UpsampleRounded.C177_spacing",
    "Verif.UpsampleRounded.C177_otherwise"
   ],
   "note": "Every operation on doubles and every conversion of a whole number is rounded; overflow and underflow are not modelled. At most 2^51 points. The distance function returns doubles that are not negative."
  },
  {
   "property": "C178",
   "status": "proved",
   "theorems": [
    "Verif.Hash.C178_equal",
    "Verif.Hash.C178_value",
    "Verif.Hash.C178_few",
    "Verif.Hash.C178_zero",
    "Verif.Hash.C178_crowded",
    "Verif.Hash.C178_rows"
   ],
   "note": "std::hash<int64_t> is taken to be the identity on the bits, as in libstdc++ and libc++. C178_few and C178_crowded: the hash spreads cells poorly (section 5 of DESIGN.md)."
  },
  {
   "property": "C179",
   "status": "proved",
   "theorems": [
    "Verif.RoundedMath.C179_range",
    "Verif.RoundedMath.C179_bounds",
    "Verif.RoundedMath.C179_turns",
    "Verif.RoundedMath.C179_near"
   ],
   "note": "Every operation on doubles is rounded; overflow and special values are not modelled; pi is any positive double (M_PI is one). Angles whose representatives differ by more than half a turn are the subject of C71."
  },
  {
   "property": "C18",
   "status": "proved",
   "theorems": [
    "Verif.Astar.C18_arguments",
    "Verif.Astar.C18_path"
   ],
   "note": "All callbacks, also throwing ones, and all tie-breaks; costs over any ordered type with monotone addition."
  },
  {
   "property": "C180",
   "status": "proved",
   "theorems": [
    "Verif.RoundedMath.C180_given",
    "Verif.RoundedMath.C180_deviation"
   ],
   "note": "Every operation on doubles is rounded, sqrt correctly; overflow and underflow are not modelled. Up to 2^53 values for a given mean and up to 2^40 otherwise."
  },
  {
   "property": "C181",
   "status": "proved",
   "theorems": [
    "Verif.NanKnn.C181_serial",
    "Verif.NanKnn.C181_parallel",
    "Verif.NanKnn.C181_few"
   ],
   "note": "A distance is a number or not a number; comparisons with the latter are false, as for doubles."
  },
  {
   "property": "C182",
   "status": "proved",
   "theorems": [
    "Verif.NanHausdorff.C182_directed",
    "Verif.NanHausdorff.C182_finite"
   ],
   "note": "A distance is a number or not a number; comparisons with the latter are false, as for doubles."
  },
  {
   "property": "C183",
   "status": "proved",
   "theorems": [
    "Verif.NanKmeans.C183_infinite",
    "Verif.NanKmeans.C183_closest",
    "Verif.NanKmeans.C183_abort"
   ],
   "note": "A distance is a number or not a number. As in C31 the number of iterations is limited by fuel, and nothing is claimed of runs that do not end."
  },
  {
   "property": "C184",
   "status": "proved",
   "theorems": [
    "Verif.NanDtw.C184_history",
    "Verif.NanDtw.C184_numbers",
    "Verif.NanDtw.C184_not_a_number",
    "Verif.NanDtw.C184_path",
    "Verif.NanDtw.C184_hidden",
    "Verif.NanDtw.C184_not_least"
   ],
   "note": "Distances are numbers or not a number; the minimum of three is that of std::min, which keeps its first argument if the comparison is false. C184_hidden and C184_not_least: section 5 of DESIGN.md."
  },
  {
   "property": "C185",
   "status": "proved",
   "theorems": [
    "Verif.NanDijkstra.C185_shortest_distances",
    "Verif.NanDijkstra.C185_predecessors",
    "Verif.NanDijkstra.C185_bad_start"
   ],
   "note": "Weights are numbers or not a number. Adding infinity to a number is infinity."
  },
  {
   "property": "C186",
   "status": "proved",
   "theorems": [
    "Verif.VoxelSpecial.C186_cells",
    "Verif.VoxelSpecial.C186_sizes",
    "Verif.VoxelSpecial.C186_not_finite",
    "Verif.VoxelSpecial.C186_fourth",
    "Verif.VoxelSpecial.C186_tiny_cells",
    "Verif.VoxelSpecial.C186_huge_size",
    "Verif.VoxelSpecial.C186_lookups",
    "Verif.VoxelSpecial.C186_agrees",
    "Verif.VoxelSpecial.C186_created"
   ],
   "note": "Doubles are reals that are rounded and overflow, two infinities and not a number; the sign of zero and underflow are not modelled. Converting a double that is out of range or no number to int64_t is undefined. C186_not_finite, C186_tiny_cells and C186_huge_size: section 5 of DESIGN.md."
  },
  {
   "property": "C187",
   "status": "proved",
   "theorems": [
    "Verif.JointSpecial.C187_in_limits",
    "Verif.JointSpecial.C187_set",
    "Verif.JointSpecial.C187_make",
    "Verif.JointSpecial.C187_history",
    "Verif.JointSpecial.C187_infinite_value"
   ],
   "note": "Wrapping an angle is a parameter (C46, C159). C187_in_limits and C187_infinite_value: section 5 of DESIGN.md."
  },
  {
   "property": "C188",
   "status": "proved",
   "theorems": [
    "Verif.HashedGridSpecial.C188_create",
    "Verif.HashedGridSpecial.C188_not_finite",
    "Verif.HashedGridSpecial.C188_origin",
    "Verif.HashedGridSpecial.C188_empty",
    "Verif.HashedGridSpecial.C188_huge_chunks",
    "Verif.HashedGridSpecial.C188_huge_at_origin",
    "Verif.HashedGridSpecial.C188_agrees",
    "Verif.HashedGridSpecial.C188_created"
   ],
   "note": "Doubles as for C186. Not close to overflow: 32 times the translations, locations and chunk sizes do not overflow. C188_not_finite, C188_origin and C188_huge_chunks: section 5 of DESIGN.md."
  },
  {
   "property": "C189",
   "status": "proved",
   "theorems": [
    "Verif.MathSpecial.C189_close",
    "Verif.MathSpecial.C189_close_vectors",
    "Verif.MathSpecial.C189_approx",
    "Verif.MathSpecial.C189_sign",
    "Verif.MathSpecial.C189_ratio",
    "Verif.MathSpecial.C189_interpolate_special",
    "Verif.MathSpecial.C189_interpolate_numbers",
    "Verif.MathSpecial.C189_wrap",
    "Verif.MathSpecial.C189_angles_special",
    "Verif.MathSpecial.C189_angles",
    "Verif.MathSpecial.C189_bounds"
   ],
   "note": "Doubles as for C186. C189_approx is for precisions of at most one. The angle functions take the double that stands for pi as an argument, between zero and four."
  },
  {
   "property": "C19",
   "status": "proved",
   "theorems": [
    "Verif.Astar.C19_complete",
    "Verif.Astar.C19_optimal",
    "Verif.Astar.C19_weights",
    "Verif.Astar.C19_values"
   ],
   "note": "Termination needs no admissibility; all three overloads; zero-cost cycles included."
  },
  {
   "property": "C190",
   "status": "proved",
   "theorems": [
    "Verif.MathSpecial.C190_squared",
    "Verif.MathSpecial.C190_distance",
    "Verif.MathSpecial.C190_refused",
    "Verif.MathSpecial.C190_finite",
    "Verif.MathSpecial.C190_overflow",
    "Verif.MathSpecial.C190_agrees",
    "Verif.MathSpecial.C190_deviation_given",
    "Verif.MathSpecial.C190_deviation",
    "Verif.MathSpecial.C190_deviation_agrees"
   ],
   "note": "Doubles as for C186. C190_overflow shows averages of numbers that are not numbers."
  },
  {
   "property": "C191",
   "status": "proved",
   "theorems": [
    "Verif.PathSpecial.C191_undefined",
    "Verif.PathSpecial.C191_not_finite",
    "Verif.PathSpecial.C191_dropped",
    "Verif.PathSpecial.C191_infinite_resolution",
    "Verif.PathSpecial.C191_agrees",
    "Verif.PathSpecial.C191_ranges"
   ],
   "note": "Doubles as for C186. A run that needs more than the given fuel has no result; a segment of exactly 2^32 - 1 pieces never ends (C50)."
  },
  {
   "property": "C192",
   "status": "proved",
   "theorems": [
    "Verif.PathSpecial.C192_upsample",
    "Verif.PathSpecial.C192_infinite",
    "Verif.PathSpecial.C192_agrees",
    "Verif.PathSpecial.C192_otherwise"
   ],
   "note": "Doubles as for C186. With a length that is not a number the pairs in the queue are not ordered: any entry may be taken then. The container is assumed to stay intact."
  },
  {
   "property": "C193",
   "status": "proved",
   "theorems": [
    "Verif.PathSpecial.C193_undefined",
    "Verif.PathSpecial.C193_shortcut",
    "Verif.PathSpecial.C193_unchanged",
    "Verif.PathSpecial.C193_too_large"
   ],
   "note": "Doubles as for C186. What the distributions draw is arbitrary within their bounds."
  },
  {
   "property": "C194",
   "status": "proved",
   "theorems": [
    "Verif.NanHierarchical.C194_partition",
    "Verif.NanHierarchical.C194_single_link",
    "Verif.NanHierarchical.C194_numbers",
    "Verif.NanHierarchical.C194_complete_link",
    "Verif.NanHierarchical.C194_kept_apart",
    "Verif.NanHierarchical.C194_threshold",
    "Verif.NanHierarchical.C194_infinite_threshold",
    "Verif.NanHierarchical.C194_dimensions",
    "Verif.NanHierarchical.C194_same_cluster"
   ],
   "note": "For a given matrix; the overload with a distance function is covered without NaN (C34)."
  },
  {
   "property": "C195",
   "status": "proved",
   "theorems": [
    "Verif.NanAstar.C195_numbers",
    "Verif.NanAstar.C195_stored_weights",
    "Verif.NanAstar.C195_path",
    "Verif.NanAstar.C195_endless",
    "Verif.NanAstar.C195_arguments",
    "Verif.NanAstar.C195_back_and_forth"
   ],
   "note": "For SimpleGraphAstar; for GenericAstarSearch see C200. With a NaN value the queue lets any entry be first; the container is assumed to stay intact."
  },
  {
   "property": "C196",
   "status": "proved",
   "theorems": [
    "Verif.NanPrm.C196_few",
    "Verif.NanPrm.C196_many",
    "Verif.NanPrm.C196_too_few_numbers",
    "Verif.NanPrm.C196_no_neighbours",
    "Verif.NanPrm.C196_extend",
    "Verif.NanPrm.C196_update",
    "Verif.NanPrm.C196_update_refuses"
   ],
   "note": "Distances may be NaN; sums are exact."
  },
  {
   "property": "C197",
   "status": "proved",
   "theorems": [
    "Verif.NanPrm.C197_multi_start",
    "Verif.NanPrm.C197_multi_goal"
   ],
   "note": "The stored weights and the distances may be NaN; sums are exact. For queries with one start see C199."
  },
  {
   "property": "C198",
   "status": "proved",
   "theorems": [
    "Verif.NanAstar.C198_heuristic",
    "Verif.NanAstar.C198_weights",
    "Verif.NanAstar.C198_values"
   ],
   "note": "With a NaN value the queue lets any entry be first; the container is assumed to stay intact. Sums are exact and adding infinity gives infinity."
  },
  {
   "property": "C199",
   "status": "proved",
   "theorems": [
    "Verif.NanPrm.C199_single",
    "Verif.NanPrm.C199_lazy",
    "Verif.NanPrm.C199_lazy_endless"
   ],
   "note": "Distances and stored weights may be NaN; sums are exact."
  },
  {
   "property": "C20",
   "status": "proved",
   "theorems": [
    "Verif.Astar.C20_limit_flag",
    "Verif.Astar.C20_limit_flag_generic"
   ],
   "note": "Equality of outcomes, exceptions and round counts."
  },
  {
   "property": "C200",
   "status": "proved",
   "theorems": [
    "Verif.NanAstar.C200_numbers",
    "Verif.NanAstar.C200_heuristic",
    "Verif.NanAstar.C200_complete",
    "Verif.NanAstar.C200_path",
    "Verif.NanAstar.C200_endless",
    "Verif.NanAstar.C200_same_ids",
    "Verif.NanAstar.C200_to_and_fro"
   ],
   "note": "As for C195 and C198, for GenericAstarSearch."
  },
  {
   "property": "C201",
   "status": "proved",
   "theorems": [
    "Verif.ColorSpecial.C201_trim",
    "Verif.ColorSpecial.C201_make",
    "Verif.ColorSpecial.C201_to_hex",
    "Verif.ColorSpecial.C201_multiply",
    "Verif.ColorSpecial.C201_product",
    "Verif.ColorSpecial.C201_interpolate",
    "Verif.ColorSpecial.C201_ends",
    "Verif.ColorSpecial.C201_bounds",
    "Verif.ColorSpecial.C201_outside",
    "Verif.ColorSpecial.C201_infinite_range",
    "Verif.ColorSpecial.C201_ramp"
   ],
   "note": "Doubles as for C186; the format float is given by what is assumed of its rounding. The accuracy is for ranges that are a power of two and whose quarters are doubles."
  },
  {
   "property": "C202",
   "status": "proved",
   "theorems": [
    "Verif.VectorSpecial.C202_eigen_norm",
    "Verif.VectorSpecial.C202_norm",
    "Verif.VectorSpecial.C202_accuracy",
    "Verif.VectorSpecial.C202_safe_normal",
    "Verif.VectorSpecial.C202_clamp_norm",
    "Verif.VectorSpecial.C202_clamp_shrinks"
   ],
   "note": "Doubles as for C186. Eigen may add up in any order."
  },
  {
   "property": "C203",
   "status": "proved",
   "theorems": [
    "Verif.AngleSpecial.C203_limit",
    "Verif.AngleSpecial.C203_not_a_number",
    "Verif.AngleSpecial.C203_weighted_norm",
    "Verif.AngleSpecial.C203_infinite",
    "Verif.AngleSpecial.C203_overflow",
    "Verif.AngleSpecial.C203_opposite_to_itself",
    "Verif.AngleSpecial.C203_numbers",
    "Verif.AngleSpecial.C203_angle",
    "Verif.AngleSpecial.C203_points",
    "Verif.AngleSpecial.C203_far_points",
    "Verif.AngleSpecial.C203_normalized"
   ],
   "note": "In every order of summation. The sign of zero and underflow are left out. With NDEBUG the assertion is not compiled and its failure cases are outside the theorems."
  },
  {
   "property": "C204",
   "status": "proved",
   "theorems": [
    "Verif.ProjectionSpecial.C204_nan_base",
    "Verif.ProjectionSpecial.C204_infinite_base",
    "Verif.ProjectionSpecial.C204_long_base",
    "Verif.ProjectionSpecial.C204_onto_itself",
    "Verif.ProjectionSpecial.C204_vector",
    "Verif.ProjectionSpecial.C204_numbers",
    "Verif.ProjectionSpecial.C204_line",
    "Verif.ProjectionSpecial.C204_line_result",
    "Verif.ProjectionSpecial.C204_largest",
    "Verif.ProjectionSpecial.C204_smallest"
   ],
   "note": "Doubles as for C186. Eigen may add up in any order; its decompositions are parameters: the eigenvalues and singular values are the arguments."
  },
  {
   "property": "C205",
   "status": "proved",
   "theorems": [
    "Verif.VectorAverageSpecial.C205_interpolate",
    "Verif.VectorAverageSpecial.C205_ends",
    "Verif.VectorAverageSpecial.C205_coordinate",
    "Verif.VectorAverageSpecial.C205_refused",
    "Verif.VectorAverageSpecial.C205_finite",
    "Verif.VectorAverageSpecial.C205_independent"
   ],
   "note": "Doubles as for C186. The vectors of an average have one size."
  },
  {
   "property": "C206",
   "status": "proved",
   "theorems": [
    "Verif.LinkedRobotAlias.C206_separate",
    "Verif.LinkedRobotAlias.C206_position",
    "Verif.LinkedRobotAlias.C206_own",
    "Verif.LinkedRobotAlias.C206_recovers",
    "Verif.LinkedRobotAlias.C206_copy"
   ],
   "note": "the argument of SetPosition is a reference, read while the position is cleared and filled; theorems over all robots and histories"
  },
  {
   "property": "C207",
   "status": "proved",
   "theorems": [
    "Verif.HashedGridReferences.C207_history",
    "Verif.HashedGridReferences.C207_follows",
    "Verif.HashedGridReferences.C207_expires",
    "Verif.HashedGridReferences.C207_default",
    "Verif.HashedGridReferences.C207_own",
    "Verif.HashedGridReferences.C207_separate"
   ],
   "note": "References into the std::vector of a chunk are valid until a new chunk is assigned in its place; a number for each chunk models this. The map does not move its elements. Initialize on a grid in use is not part of these histories."
  },
  {
   "property": "C208",
   "status": "proved",
   "theorems": [
    "Verif.ArcExceptions.C208_text",
    "Verif.ArcExceptions.C208_different",
    "Verif.ArcExceptions.C208_ambiguous"
   ],
   "note": "The line is written as in the \"C\" locale. C208_ambiguous shows the limit: message and file cannot be told apart from the text alone."
  },
  {
   "property": "C209",
   "status": "proved",
   "theorems": [
    "Verif.MoveitVersion.C209_order",
    "Verif.MoveitVersion.C209_total",
    "Verif.MoveitVersion.C209_pose"
   ],
   "note": "The arguments of the macro are numbers; an argument that is an expression with operators is not modelled."
  },
  {
   "property": "C21",
   "status": "proved",
   "theorems": [
    "Verif.Astar.C21_same_ids",
    "Verif.Astar.C21_path",
    "Verif.Astar.C21_complete",
    "Verif.Astar.C21_optimal",
    "Verif.Astar.C21_negative_ids_lose_start"
   ],
   "note": "The non-negativity of ids is needed: the last theorem is the counterexample."
  },
  {
   "property": "C210",
   "status": "proved",
   "theorems": [
    "Verif.JointNames.C210_name",
    "Verif.JointNames.C210_same",
    "Verif.JointNames.C210_made"
   ],
   "note": ""
  },
  {
   "property": "C211",
   "status": "proved",
   "theorems": [
    "Verif.TransformData.C211_points",
    "Verif.TransformData.C211_poses",
    "Verif.TransformData.C211_twice",
    "Verif.TransformData.C211_back",
    "Verif.TransformData.C211_rigid"
   ],
   "note": "Exact arithmetic."
  },
  {
   "property": "C212",
   "status": "proved",
   "theorems": [
    "Verif.Threads.C212_value",
    "Verif.Threads.C212_race"
   ],
   "note": "Assignments of a word are atomic in the model; C212_race shows that they are not ordered, so the language does not promise the value."
  },
  {
   "property": "C213",
   "status": "proved",
   "theorems": [
    "Verif.Threads.C213_check",
    "Verif.Threads.C213_layout"
   ],
   "note": "An object is its address, a natural number."
  },
  {
   "property": "C214",
   "status": "proved",
   "theorems": [
    "Verif.ConditionalLog.C214_alone",
    "Verif.ConditionalLog.C214_before_else",
    "Verif.ConditionalLog.C214_any_else",
    "Verif.ConditionalLog.C214_braces",
    "Verif.ConditionalLog.C214_braces_matter",
    "Verif.ConditionalLog.C214_in_else"
   ],
   "note": "Statements are parsed from tokens; conditions have no effects. C214_before_else is the surprising case."
  },
  {
   "property": "C215",
   "status": "proved",
   "theorems": [
    "Verif.AppendToPath.C215_root",
    "Verif.AppendToPath.C215_same",
    "Verif.AppendToPath.C215_text",
    "Verif.AppendToPath.C215_sibling",
    "Verif.AppendToPath.C215_nothing",
    "Verif.AppendToPath.C215_distinct",
    "Verif.AppendToPath.C215_slash",
    "Verif.AppendToPath.C215_no_name"
   ],
   "note": "pathlib is modelled for POSIX systems. C215_no_name is the case of paths without a name."
  },
  {
   "property": "C216",
   "status": "proved",
   "theorems": [
    "Verif.Prm.C216_again",
    "Verif.Prm.C216_growth",
    "Verif.Prm.C216_duplicates",
    "Verif.Prm.C216_copies"
   ],
   "note": "All queries of a history are given the same functions and options. Distances are declared symmetric, as C54 shows that starts cannot be added otherwise."
  },
  {
   "property": "C22",
   "status": "proved",
   "theorems": [
    "Verif.RandomWalk.C22_simple_path",
    "Verif.RandomWalk.C22_follows_draws",
    "Verif.RandomWalk.C22_safe",
    "Verif.RandomWalk.C22_dead_end"
   ],
   "note": "All draw sequences."
  },
  {
   "property": "C23",
   "status": "proved",
   "theorems": [
    "Verif.Rrt.C23_growth",
    "Verif.Rrt.C23_contract",
    "Verif.Rrt.C23_terminates",
    "Verif.Rrt.C23_round",
    "Verif.Rrt.C23_linkage",
    "Verif.Rrt.C23_rejects"
   ],
   "note": "All callbacks and all histories; progress callbacks are assumed not to edit the tree."
  },
  {
   "property": "C24",
   "status": "proved",
   "theorems": [
    "Verif.Rrt.C24_result",
    "Verif.Rrt.C24_paths",
    "Verif.Rrt.C24_root",
    "Verif.Rrt.C24_plan"
   ],
   "note": "All callbacks and all histories; planning time is left out of the statistics."
  },
  {
   "property": "C25",
   "status": "partial",
   "theorems": [
    "Verif.Rrt.C25_check",
    "Verif.Rrt.C25_extract_partial",
    "Verif.Rrt.C25_extract_exact",
    "Verif.Rrt.C25_first_is_root",
    "Verif.Rrt.C25_accepts_cycle",
    "Verif.Rrt.C25_accepts_missing_parent",
    "Verif.Rrt.C25_corrupted_later"
   ],
   "note": "False of the code: cycles away from node 0 and parents beyond the end are accepted (proved). Exactly what the check accepts is proved, and exactly what extraction does on accepted trees."
  },
  {
   "property": "C26",
   "status": "proved",
   "theorems": [
    "Verif.Knn.C26_serial",
    "Verif.Knn.C26_smallest",
    "Verif.Knn.C26_few",
    "Verif.Knn.C26_infinite_distance"
   ],
   "note": "Finite distances are needed once there are more items than K: the last theorem is the counterexample."
  },
  {
   "property": "C27",
   "status": "proved",
   "theorems": [
    "Verif.Knn.C27_parallel",
    "Verif.Knn.C27_agrees"
   ],
   "note": "Every distribution of the items over any number of threads."
  },
  {
   "property": "C28",
   "status": "partial",
   "theorems": [
    "Verif.DistanceMatrix.C28_parallel",
    "Verif.DistanceMatrix.C28_serial",
    "Verif.DistanceMatrix.C28_same",
    "Verif.DistanceMatrix.C28_no_race",
    "Verif.DistanceMatrix.C28_two_sets_partial",
    "Verif.DistanceMatrix.C28_two_sets_out_of_bounds",
    "Verif.DistanceMatrix.C28_two_sets_wrong",
    "Verif.DistanceMatrix.C28_two_sets_schedule"
   ],
   "note": "One set: proved for every interleaving. Two sets: false of the code; what it computes is proved instead."
  },
  {
   "property": "C29",
   "status": "proved",
   "theorems": [
    "Verif.Hausdorff.C29_directed",
    "Verif.Hausdorff.C29_schedule",
    "Verif.Hausdorff.C29_attained",
    "Verif.Hausdorff.C29_not_symmetric"
   ],
   "note": "The code computes the one-directed distance; the last theorem shows it is not symmetric."
  },
  {
   "property": "C30",
   "status": "partial",
   "theorems": [
    "Verif.Dtw.C30_total",
    "Verif.Dtw.C30_history",
    "Verif.Dtw.C30_is_path_cost",
    "Verif.Dtw.C30_recurrence",
    "Verif.Dtw.C30_minimal_partial",
    "Verif.Dtw.C30_not_minimal",
    "Verif.Dtw.C30_empty_history"
   ],
   "note": "Minimality is false of the code when two predecessors tie below the third; exactly what is computed instead is proved (C30_recurrence); history matters for empty sequences only."
  },
  {
   "property": "C31",
   "status": "proved",
   "theorems": [
    "Verif.Kmeans.C31_fixed_point",
    "Verif.Kmeans.C31_lloyd",
    "Verif.Kmeans.C31_weighted",
    "Verif.Kmeans.C31_weights_missing",
    "Verif.Kmeans.C31_infinite",
    "Verif.Kmeans.C31_terminates",
    "Verif.Kmeans.C31_may_not_terminate"
   ],
   "note": "All data, distances and averages; also the weighted function. Termination in exact arithmetic when the average minimises the total distance, and a witness that the condition is needed. Fewer than 2^32 - 1 centers."
  },
  {
   "property": "C32",
   "status": "proved",
   "theorems": [
    "Verif.Kmeans.C32_initial_centers",
    "Verif.Kmeans.C32_enough_draws",
    "Verif.Kmeans.C32_too_many_clusters",
    "Verif.Kmeans.C32_one_cluster",
    "Verif.Kmeans.C32_bad_arguments",
    "Verif.Kmeans.C32_preliminary",
    "Verif.Kmeans.C32_no_preliminary",
    "Verif.Kmeans.C32_weighted_preliminary_wrong"
   ],
   "note": "All random sequences. ceil(0.1 * size) is a parameter here, computed in C173. The weighted preliminary round uses the weights of other points (proved)."
  },
  {
   "property": "C33",
   "status": "proved",
   "theorems": [
    "Verif.Hierarchical.C33_partition",
    "Verif.Hierarchical.C33_infinite_threshold",
    "Verif.Hierarchical.C33_dimensions"
   ],
   "note": "Serial and parallel builds, every schedule; an infinite threshold always fails an assertion (proved)."
  },
  {
   "property": "C34",
   "status": "proved",
   "theorems": [
    "Verif.Hierarchical.C34_clustering",
    "Verif.Hierarchical.C34_single_link_components",
    "Verif.Hierarchical.C34_distance_function"
   ],
   "note": "Serial and parallel builds, every schedule. Symmetric matrices without negative entries."
  },
  {
   "property": "C35",
   "status": "proved",
   "theorems": [
    "Verif.Voxel.C35_addressing",
    "Verif.Voxel.C35_hash_data_index"
   ],
   "note": "After any history on any created grid; also shows that the index arithmetic never overflows int64_t."
  },
  {
   "property": "C36",
   "status": "proved",
   "theorems": [
    "Verif.Voxel.C36_history",
    "Verif.Voxel.C36_write_then_read"
   ],
   "note": "Refinement of every history (including writes through mutable references, raw data and new origins) to an abstract map."
  },
  {
   "property": "C37",
   "status": "partial",
   "theorems": [
    "Verif.Voxel.C37_every_location",
    "Verif.Voxel.C37_center",
    "Verif.Voxel.C37_location_in_bounds",
    "Verif.Voxel.C37_box_partial",
    "Verif.Voxel.C37_below_origin"
   ],
   "note": "Exact arithmetic. The half-open box claim is false for points less than one cell below a lower face (C37_below_origin); C37_location_in_bounds says exactly which locations are in bounds."
  },
  {
   "property": "C38",
   "status": "proved",
   "theorems": [
    "Verif.Voxel.C38_roundtrip",
    "Verif.Voxel.C38_arbitrary_buffers"
   ],
   "note": ""
  },
  {
   "property": "C39",
   "status": "partial",
   "theorems": [
    "Verif.HashedGrid.C39_history",
    "Verif.HashedGrid.C39_last_write_partial",
    "Verif.HashedGrid.C39_outside",
    "Verif.HashedGrid.C39_neighbour_status"
   ],
   "note": "The values read are exactly the latest writes. That the status tells which of the three it was is false of the code: C39_neighbour_status shows an unwritten cell reporting FOUND_IN_CELL. Locations whose chunk number does not fit int64 are undefined (C39_outside)."
  },
  {
   "property": "C40",
   "status": "proved",
   "theorems": [
    "Verif.Prng.C40_discard",
    "Verif.Prng.C40_splitmix_period",
    "Verif.Prng.C40_xorshift128_bijective",
    "Verif.Prng.C40_xorshift128_never_zero",
    "Verif.Prng.C40_xorshift1024_bijective",
    "Verif.Prng.C40_xorshift1024_never_zero",
    "Verif.Prng.C40_reproducible",
    "Verif.Prng.C40_splitmix_sequence",
    "Verif.Prng.C40_xorshift128_sequence",
    "Verif.Prng.C40_xorshift1024_sequence"
   ],
   "note": "All seeds, states and numbers of draws."
  },
  {
   "property": "C41",
   "status": "partial",
   "theorems": [
    "Verif.Prng.C41_reseed_partial",
    "Verif.Prng.C41_reseed_1024",
    "Verif.Prng.C41_reseed_1024_wrong"
   ],
   "note": "Proved for SplitMix64 and XorShift128Plus. False of XorShift1024Star, which keeps its position when reseeded: negation proved, and exactly when it agrees."
  },
  {
   "property": "C42",
   "status": "partial",
   "theorems": [
    "Verif.Bits.C42_set_bit",
    "Verif.Bits.C42_set_bit_beyond",
    "Verif.Bits.C42_get_bit",
    "Verif.Bits.C42_set_then_get_partial",
    "Verif.Bits.C42_high_bits_unreadable"
   ],
   "note": "All widths, values and positions. Reading a bit at 32 or above of a 64 bit word is false of the code (negation proved)."
  },
  {
   "property": "C43",
   "status": "proved",
   "theorems": [
    "Verif.Clamp.C43_clamp",
    "Verif.Clamp.C43_warn",
    "Verif.Clamp.C43_bad_bounds",
    "Verif.Clamp.C43_nearest",
    "Verif.Clamp.C43_nan"
   ],
   "note": "All ordered types; what happens with not-a-number values is proved separately: the two versions disagree."
  },
  {
   "property": "C44",
   "status": "proved",
   "theorems": [
    "Verif.Colors.C44_roundtrip",
    "Verif.Colors.C44_to_hex",
    "Verif.Colors.C44_nearest",
    "Verif.Colors.C44_valid",
    "Verif.Colors.C44_setters",
    "Verif.Colors.C44_unique"
   ],
   "note": "For every rounding that is monotone, exact on 0..255 and has relative error 2^-24."
  },
  {
   "property": "C45",
   "status": "partial",
   "theorems": [
    "Verif.TruncatedNormal.C45_within_partial",
    "Verif.TruncatedNormal.C45_method",
    "Verif.TruncatedNormal.C45_naive",
    "Verif.TruncatedNormal.C45_negative_deviation",
    "Verif.TruncatedNormal.C45_uniform_rejection",
    "Verif.TruncatedNormal.C45_uniform_rejection_wrong"
   ],
   "note": "Exact arithmetic. Proved for all methods but the uniform rejection, where it is false of the code (proved with the real exp and sqrt)."
  },
  {
   "property": "C46",
   "status": "proved",
   "theorems": [
    "Verif.Angles.C46_wrap",
    "Verif.Angles.C46_add"
   ],
   "note": "Exact arithmetic over any ordered field with floors; pi is any positive number. Rounding, infinities and NaN are outside the model."
  },
  {
   "property": "C47",
   "status": "partial",
   "theorems": [
    "Verif.Angles.C47_distance",
    "Verif.Angles.C47_signed_partial",
    "Verif.Angles.C47_signed_wrong",
    "Verif.Angles.C47_signed_example"
   ],
   "note": "The absolute distance is proved in full. The signed claim is false when the shortest way crosses pi: C47_signed_wrong characterises those inputs (the result is the negated shortest difference); C47_signed_partial covers the rest."
  },
  {
   "property": "C48",
   "status": "proved",
   "theorems": [
    "Verif.Averages.C48_weighted",
    "Verif.Averages.C48_unweighted",
    "Verif.Averages.C48_aborts",
    "Verif.Averages.C48_vectors",
    "Verif.Averages.C48_deviation"
   ],
   "note": "Exact arithmetic. The Eigen vector version is covered by C48_vectors through linear functionals (components); the quaternion average (an eigenvalue solver) is not modelled."
  },
  {
   "property": "C49",
   "status": "proved",
   "theorems": [
    "Verif.PathUtils.C49_shortcut",
    "Verif.PathUtils.C49_unchanged"
   ],
   "note": "For every sequence of draws and every (possibly changing) validity check; exact arithmetic; paths below 2^62 states."
  },
  {
   "property": "C50",
   "status": "proved",
   "theorems": [
    "Verif.PathUtils.C50_resample",
    "Verif.PathUtils.C50_whole",
    "Verif.PathUtils.C50_keeps",
    "Verif.PathUtils.C50_spacing",
    "Verif.PathUtils.C50_errors"
   ],
   "note": "Exact arithmetic; up to 2^32-2 pieces per segment. Beyond that C50_errors: 2^32-1 pieces never end, more are undefined behaviour."
  },
  {
   "property": "C51",
   "status": "proved",
   "theorems": [
    "Verif.PathUtils.C51_upsample",
    "Verif.PathUtils.C51_keeps",
    "Verif.PathUtils.C51_enough",
    "Verif.PathUtils.C51_errors",
    "Verif.PathUtils.C51_whole"
   ],
   "note": "For every way of breaking ties among equally long pieces."
  },
  {
   "property": "C52",
   "status": "proved",
   "theorems": [
    "Verif.ZlibFiles.C52_small",
    "Verif.ZlibFiles.C52_large",
    "Verif.ZlibFiles.C52_stale_file_wrong",
    "Verif.ZlibFiles.C52_faults",
    "Verif.ZlibFiles.C52_close_failure_unnoticed",
    "Verif.ZlibFiles.C52_load_errors"
   ],
   "note": "Assuming decompression inverts compression of each slice. C52_large also says exactly what happens with stale slice files; C52_stale_file_wrong: a stale whole file hides the slices; C52_close_failure_unnoticed: a failure when closing is not reported."
  },
  {
   "property": "C53",
   "status": "proved",
   "theorems": [
    "Verif.ZlibStream.C53_compress",
    "Verif.ZlibStream.C53_decompress",
    "Verif.ZlibStream.C53_round_trip",
    "Verif.ZlibStream.C53_ends"
   ],
   "note": "For every library behaviour within the stated contract. C53_round_trip: output longer than the limit cannot be decompressed again, which can happen to incompressible buffers near 4 GiB."
  },
  {
   "property": "C54",
   "status": "proved",
   "theorems": [
    "Verif.Prm.C54_add",
    "Verif.Prm.C54_duplicate",
    "Verif.Prm.C54_stays_linked",
    "Verif.Prm.C54_asymmetric_start",
    "Verif.Prm.C54_asymmetric_start_aborts",
    "Verif.Prm.C54_extend",
    "Verif.Prm.C54_build",
    "Verif.Prm.C54_infinite_distance"
   ],
   "note": "Serial and parallel nearest-neighbour queries, all callbacks and sample histories; finite distances where stated. The assertion reached with asymmetric distances and the exception with infinite distances are proved as such."
  },
  {
   "property": "C55",
   "status": "proved",
   "theorems": [
    "Verif.Prm.C55_update",
    "Verif.Prm.C55_order",
    "Verif.Prm.C55_stays_linked",
    "Verif.Prm.C55_refuses"
   ],
   "note": "Every order of the nodes, so also the parallel loop."
  },
  {
   "property": "C56",
   "status": "proved",
   "theorems": [
    "Verif.Deformation.C56_deformation",
    "Verif.Deformation.C56_neighbours"
   ],
   "note": ""
  },
  {
   "property": "C57",
   "status": "proved",
   "theorems": [
    "Verif.Profiler.C57_get_data",
    "Verif.Profiler.C57_record",
    "Verif.Profiler.C57_not_negative"
   ],
   "note": ""
  },
  {
   "property": "C58",
   "status": "partial",
   "theorems": [
    "Verif.Trajectory.C58_append",
    "Verif.Trajectory.C58_refuse_partial",
    "Verif.Trajectory.C58_prefix_wrong",
    "Verif.Trajectory.C58_overflow",
    "Verif.Trajectory.C58_self"
   ],
   "note": "False of the code for joint names of which one list is a proper prefix of the other: accepted when the second has more, undefined when it has fewer (C58_prefix_wrong). Appending a trajectory to itself is undefined behaviour if it has points (C58_self)."
  },
  {
   "property": "C59",
   "status": "partial",
   "theorems": [
    "Verif.SerializationRos.C59_wrapper_out_of_bounds",
    "Verif.SerializationRos.C59_wrapper_roundtrip_partial"
   ],
   "note": "False of the code: the wrapper always reads four bytes past the message buffer (proved against the roscpp contract). The round trip holds only if those bytes are readable."
  },
  {
   "property": "C60",
   "status": "proved",
   "theorems": [
    "Verif.BiRrt.C60_growth",
    "Verif.BiRrt.C60_paths",
    "Verif.BiRrt.C60_statistics",
    "Verif.BiRrt.C60_complete",
    "Verif.BiRrt.C60_connected_at_once",
    "Verif.BiRrt.C60_plan",
    "Verif.BiRrt.C60_turns"
   ],
   "note": "All callbacks and all random decisions; progress callbacks are assumed not to edit the trees."
  },
  {
   "property": "C61",
   "status": "proved",
   "theorems": [
    "Verif.Rrt.C61_roundtrip",
    "Verif.Rrt.C61_arbitrary_buffers"
   ],
   "note": "Both byte orders, every value serializer that round-trips."
  },
  {
   "property": "C62",
   "status": "proved",
   "theorems": [
    "Verif.Prm.C62_multi_start",
    "Verif.Prm.C62_multi_goal"
   ],
   "note": "For distances declared symmetric (asymmetric ones fail the assertion of C54)."
  },
  {
   "property": "C63",
   "status": "proved",
   "theorems": [
    "Verif.Prm.C63_single",
    "Verif.Prm.C63_lazy",
    "Verif.Prm.C63_built"
   ],
   "note": "For distances declared symmetric that satisfy the triangle inequality."
  },
  {
   "property": "C64",
   "status": "proved",
   "theorems": [
    "Verif.Voxel.C64_cells",
    "Verif.Voxel.C64_sizes",
    "Verif.Voxel.C64_contents"
   ],
   "note": "Exact arithmetic; NaN and infinite sizes are left out."
  },
  {
   "property": "C65",
   "status": "proved",
   "theorems": [
    "Verif.HashedGrid.C65_creation",
    "Verif.HashedGrid.C39_status",
    "Verif.HashedGrid.C65_set_chunk_by_coordinates",
    "Verif.HashedGrid.C39_outside"
   ],
   "note": "Exact arithmetic; chunk cell count below 2^63."
  },
  {
   "property": "C66",
   "status": "proved",
   "theorems": [
    "Verif.Colors.C66_hot_to_cold",
    "Verif.Colors.C66_interpolate",
    "Verif.Colors.C66_multiply"
   ],
   "note": "Exact arithmetic."
  },
  {
   "property": "C67",
   "status": "proved",
   "theorems": [
    "Verif.Clamp.C67_spread",
    "Verif.Clamp.C67_spread_warn"
   ],
   "note": "All ordered types."
  },
  {
   "property": "C68",
   "status": "proved",
   "theorems": [
    "Verif.Containers.C68_make_then_retrieve",
    "Verif.Containers.C68_roundtrip",
    "Verif.Containers.C68_two_vectors",
    "Verif.Containers.C68_unordered",
    "Verif.Containers.C68_substring"
   ],
   "note": "Every strict total order on keys."
  },
  {
   "property": "C69",
   "status": "partial",
   "theorems": [
    "Verif.Colors.C69_generator_partial",
    "Verif.Colors.C69_generator_repeats"
   ],
   "note": "Proved for the first twenty colors; false of the code after that (proved: black from the 21st on)."
  },
  {
   "property": "C70",
   "status": "proved",
   "theorems": [
    "Verif.Containers.C70_find",
    "Verif.Containers.C70_find_long",
    "Verif.Containers.C70_enumerate",
    "Verif.Containers.C70_maybe"
   ],
   "note": "Vectors of at most 2^31 elements; what happens beyond is proved too."
  },
  {
   "property": "C71",
   "status": "partial",
   "theorems": [
    "Verif.Angles.C71_range_partial",
    "Verif.Angles.C71_check_partial",
    "Verif.Angles.C71_check_wrong"
   ],
   "note": "True when the wrapped angles differ by at most half a turn; otherwise the clockwise range is returned (C71_range_partial says so exactly) and the checks give wrong answers (C71_check_wrong)."
  },
  {
   "property": "C72",
   "status": "proved",
   "theorems": [
    "Verif.Angles.C72_revolute",
    "Verif.Angles.C72_interpolate",
    "Verif.Angles.C72_comparisons",
    "Verif.Angles.C72_ratio"
   ],
   "note": "Exact arithmetic."
  },
  {
   "property": "C73",
   "status": "proved",
   "theorems": [
    "Verif.Averages.C73_squared",
    "Verif.Averages.C73_distance",
    "Verif.Averages.C73_total"
   ],
   "note": "Exact real arithmetic."
  },
  {
   "property": "C74",
   "status": "proved",
   "theorems": [
    "Verif.Profiler.C57_summary",
    "Verif.Profiler.C57_group",
    "Verif.Profiler.C57_names",
    "Verif.Profiler.C57_write_all"
   ],
   "note": "Exact behaviour including the cases that go wrong: undefined behaviour for a known name without data or when there are no names, and names used for both kinds of data listed and written twice. Text layout not modelled."
  },
  {
   "property": "C75",
   "status": "proved",
   "theorems": [
    "Verif.SimpleAstar.C75_plan",
    "Verif.SimpleAstar.C75_ends"
   ],
   "note": "The queue may give out its entries in any order at all."
  },
  {
   "property": "C76",
   "status": "partial",
   "theorems": [
    "Verif.SimpleAstar.C76_shortest_partial",
    "Verif.SimpleAstar.C76_queue",
    "Verif.SimpleAstar.C76_separated_integers",
    "Verif.SimpleAstar.C76_comparator_cycle",
    "Verif.SimpleAstar.C76_near_ties_wrong",
    "Verif.SimpleAstar.C76_admissible_not_enough"
   ],
   "note": "Exact arithmetic. Proved when no two priorities are nearly but not exactly equal (for example whole numbers below 10^10). False otherwise: the comparator need not be an order (C76_comparator_cycle) and the path need not be shortest (C76_near_ties_wrong). A merely admissible heuristic is not enough (C76_admissible_not_enough)."
  },
  {
   "property": "C77",
   "status": "proved",
   "theorems": [
    "Verif.GetNeighbours.C77_within",
    "Verif.GetNeighbours.C77_within_3d",
    "Verif.GetNeighbours.C77_grid",
    "Verif.GetNeighbours.C77_grid_3d",
    "Verif.GetNeighbours.C77_once",
    "Verif.GetNeighbours.C77_symmetric",
    "Verif.GetNeighbours.C77_bounds_wrong",
    "Verif.GetNeighbours.C77_off_grid"
   ],
   "note": "Exact arithmetic. With bounds off the grid a neighbour can lie outside them (C77_bounds_wrong)."
  },
  {
   "property": "C78",
   "status": "proved",
   "theorems": [
    "Verif.Projection.C78_projection",
    "Verif.Projection.C78_rejection",
    "Verif.Projection.C78_nearest"
   ],
   "note": "Exact arithmetic."
  },
  {
   "property": "C79",
   "status": "partial",
   "theorems": [
    "Verif.Projection.C79_throws",
    "Verif.Projection.C79_plane",
    "Verif.Projection.C79_zero_accepted"
   ],
   "note": "Proved for vectors other than zero. False for a zero vector, which is accepted (C79_zero_accepted)."
  },
  {
   "property": "C80",
   "status": "proved",
   "theorems": [
    "Verif.Projection.C80_line",
    "Verif.Projection.C80_zero"
   ],
   "note": "Exact arithmetic."
  },
  {
   "property": "C81",
   "status": "proved",
   "theorems": [
    "Verif.Projection.C81_project_point",
    "Verif.Projection.C81_project_vector",
    "Verif.Projection.C81_raw",
    "Verif.Projection.C81_normed"
   ],
   "note": "Exact arithmetic."
  },
  {
   "property": "C82",
   "status": "partial",
   "theorems": [
    "Verif.Projection.C82_accepts",
    "Verif.Projection.C82_shape",
    "Verif.Projection.C82_inside",
    "Verif.Projection.C82_diagonal_fails",
    "Verif.Projection.C82_zero_angle"
   ],
   "note": "Proved for all directions but (nearly) plus or minus (1,1,1), where the assertion fails (C82_diagonal_fails), and for angles other than 0, 90 and 180 degrees; for angle zero it is false (C82_zero_angle). Exact arithmetic."
  },
  {
   "property": "C83",
   "status": "proved",
   "theorems": [
    "Verif.Projection.C83_clamp",
    "Verif.Projection.C83_safe_normal"
   ],
   "note": "Exact arithmetic."
  },
  {
   "property": "C84",
   "status": "proved",
   "theorems": [
    "Verif.Projection.C84_cosine",
    "Verif.Projection.C84_angle",
    "Verif.Projection.C84_points"
   ],
   "note": "Exact arithmetic; weights not negative."
  },
  {
   "property": "C85",
   "status": "proved",
   "theorems": [
    "Verif.Kinematics.C85_rotation",
    "Verif.Kinematics.C85_axis_angle",
    "Verif.Kinematics.C85_product",
    "Verif.Kinematics.C85_reverse",
    "Verif.Kinematics.C85_zero"
   ],
   "note": "Exact arithmetic."
  },
  {
   "property": "C86",
   "status": "proved",
   "theorems": [
    "Verif.Kinematics.C86_skew",
    "Verif.Kinematics.C86_unskew",
    "Verif.Kinematics.C86_twist"
   ],
   "note": ""
  },
  {
   "property": "C87",
   "status": "proved",
   "theorems": [
    "Verif.Kinematics.C87_frame",
    "Verif.Kinematics.C87_product"
   ],
   "note": ""
  },
  {
   "property": "C88",
   "status": "partial",
   "theorems": [
    "Verif.Kinematics.C88_exponential_partial",
    "Verif.Kinematics.C88_rotation_lost",
    "Verif.Kinematics.C88_rotation_lost_wrong",
    "Verif.Kinematics.C88_between"
   ],
   "note": "False for rotation speeds under 1e-100 (not zero) with an ordinary translation, where the rotation is dropped (C88_rotation_lost_wrong); proved for all other twists. The matrix logarithm of Eigen is a parameter assumed to be a logarithm. Exact arithmetic."
  },
  {
   "property": "C89",
   "status": "partial",
   "theorems": [
    "Verif.Pose.C89_rotation_angle",
    "Verif.Pose.C89_rotation_metric",
    "Verif.Pose.C89_quaternion",
    "Verif.Pose.C89_quaternion_triangle_partial",
    "Verif.Pose.C89_quaternion_triangle_fails",
    "Verif.Pose.C89_isometry"
   ],
   "note": "Proved for rotation matrices. For quaternions the triangle inequality holds up to two ten millionths of a radian only, as nearly equal rotations are reported at distance zero (C89_quaternion_triangle_fails). Exact arithmetic."
  },
  {
   "property": "C90",
   "status": "proved",
   "theorems": [
    "Verif.Pose.C90_vector",
    "Verif.Pose.C90_quaternion",
    "Verif.Pose.C90_quaternion_ends",
    "Verif.Pose.C90_isometry"
   ],
   "note": "Exact arithmetic. Rotations closer than a ten millionth of a radian are mixed linearly, for which the squared length is at least 1 - 2^-53."
  },
  {
   "property": "C91",
   "status": "partial",
   "theorems": [
    "Verif.Pose.C91_rpy",
    "Verif.Pose.C91_round_trip",
    "Verif.Pose.C91_angles",
    "Verif.Pose.C91_negative_roll",
    "Verif.Pose.C91_size",
    "Verif.Pose.C91_euler"
   ],
   "note": "From transform to angles and back: proved for all rigid transforms. From angles to transform and back: proved for roll in [0, pi), pitch in (-pi/2, pi/2) and yaw in [-pi, pi); false for a negative roll (C91_negative_roll). Exact arithmetic."
  },
  {
   "property": "C92",
   "status": "proved",
   "theorems": [
    "Verif.PointSets.C92_total",
    "Verif.PointSets.C92_individual",
    "Verif.PointSets.C92_cumulative"
   ],
   "note": "Exact arithmetic."
  },
  {
   "property": "C93",
   "status": "proved",
   "theorems": [
    "Verif.PointSets.C93_matrix",
    "Verif.PointSets.C93_race_free",
    "Verif.PointSets.C93_closest",
    "Verif.PointSets.C93_sets",
    "Verif.PointSets.C93_squared_distance"
   ],
   "note": "Exact arithmetic."
  },
  {
   "property": "C94",
   "status": "proved",
   "theorems": [
    "Verif.PointSets.C94_small",
    "Verif.PointSets.C94_concatenate",
    "Verif.PointSets.C94_split",
    "Verif.PointSets.C94_round_trip"
   ],
   "note": ""
  },
  {
   "property": "C95",
   "status": "proved",
   "theorems": [
    "Verif.LinkedRobot.C95_construct",
    "Verif.LinkedRobot.C95_set",
    "Verif.LinkedRobot.C95_distance"
   ],
   "note": "Exact arithmetic."
  },
  {
   "property": "C96",
   "status": "proved",
   "theorems": [
    "Verif.JointSerialization.C96_joint",
    "Verif.JointSerialization.C96_configuration",
    "Verif.JointSerialization.C96_any_bytes"
   ],
   "note": "Doubles as their 64 bits. The reader checks neither limits nor type (C96_any_bytes)."
  },
  {
   "property": "C97",
   "status": "proved",
   "theorems": [
    "Verif.LinkedRobot.C97_check",
    "Verif.LinkedRobot.C97_tree",
    "Verif.LinkedRobot.C97_index_undefined"
   ],
   "note": ""
  },
  {
   "property": "C98",
   "status": "partial",
   "theorems": [
    "Verif.LinkedRobot.C98_poses_partial",
    "Verif.LinkedRobot.C98_unique",
    "Verif.LinkedRobot.C98_lookup",
    "Verif.LinkedRobot.C98_inverse_base_wrong",
    "Verif.LinkedRobot.C98_unordered_wrong"
   ],
   "note": "Proved if each joint comes after the joint that moves its parent link and axes have length exactly one. False for joints in another order, which the check accepts (C98_unordered_wrong); the inverse of the base is not updated (C98_inverse_base_wrong). Exact arithmetic."
  },
  {
   "property": "C99",
   "status": "proved",
   "theorems": [
    "Verif.LinkedRobot.C99_construct",
    "Verif.LinkedRobot.C99_set",
    "Verif.LinkedRobot.C99_failed_set"
   ],
   "note": ""
  }
 ]
}