import Verif.Base.Cost
import Verif.Base.Double
import Verif.Base.Ieee
import Verif.Base.Matrix
import Verif.Base.NotANumber
import Verif.Base.Outcome
import Verif.Base.PQueue
import Verif.Base.Python
import Verif.Base.Rounding
import Verif.Base.State
import Verif.Lemmas.Astar
import Verif.Lemmas.AstarCore
import Verif.Lemmas.Base64
import Verif.Lemmas.BiRrt
import Verif.Lemmas.Dijkstra
import Verif.Lemmas.Draws
import Verif.Lemmas.Dtw
import Verif.Lemmas.Graph
import Verif.Lemmas.GraphComponents
import Verif.Lemmas.GraphComponentsAny
import Verif.Lemmas.GraphComponentsExact
import Verif.Lemmas.GraphEdges
import Verif.Lemmas.GraphReads
import Verif.Lemmas.GraphReferences
import Verif.Lemmas.GraphSerialization
import Verif.Lemmas.HashedGrid
import Verif.Lemmas.HashedGridIndex
import Verif.Lemmas.HashedGridReferences
import Verif.Lemmas.HashedGridRounded
import Verif.Lemmas.HashedGridRoundedAxis
import Verif.Lemmas.HashedGridSpecial
import Verif.Lemmas.Hierarchical
import Verif.Lemmas.HierarchicalLoop
import Verif.Lemmas.Kernel
import Verif.Lemmas.Kmeans
import Verif.Lemmas.KmeansTermination
import Verif.Lemmas.Knn
import Verif.Lemmas.LinkTree
import Verif.Lemmas.LinkedRobotBuild
import Verif.Lemmas.LinkedRobotCheck
import Verif.Lemmas.MatrixExp
import Verif.Lemmas.NanDtw
import Verif.Lemmas.NanHierarchical
import Verif.Lemmas.NanKnn
import Verif.Lemmas.NanPrm
import Verif.Lemmas.PoseAverage
import Verif.Lemmas.Prm
import Verif.Lemmas.Prng
import Verif.Lemmas.Quaternion
import Verif.Lemmas.RobotJacobian
import Verif.Lemmas.Rotation
import Verif.Lemmas.Rrt
import Verif.Lemmas.Serialization
import Verif.Lemmas.SerializationEigen
import Verif.Lemmas.SerializationRos
import Verif.Lemmas.SimpleAstar
import Verif.Lemmas.Sphere
import Verif.Lemmas.ThinPlateSpline
import Verif.Lemmas.TotgArc
import Verif.Lemmas.TotgBackward
import Verif.Lemmas.TotgBlended
import Verif.Lemmas.TotgChain
import Verif.Lemmas.TotgIntegrate
import Verif.Lemmas.TotgQuery
import Verif.Lemmas.TotgSwitch
import Verif.Lemmas.TotgSwitching
import Verif.Lemmas.UniformDraws
import Verif.Lemmas.VectorMath
import Verif.Lemmas.Voxel
import Verif.Lemmas.VoxelLocation
import Verif.Lemmas.VoxelReferences
import Verif.Model.Algorithms
import Verif.Model.Aligned
import Verif.Model.AngleSpecial
import Verif.Model.Angles
import Verif.Model.AppendToPath
import Verif.Model.ArcExceptions
import Verif.Model.Astar
import Verif.Model.Averages
import Verif.Model.Base64
import Verif.Model.BiRrt
import Verif.Model.Bits
import Verif.Model.Catches
import Verif.Model.Clamp
import Verif.Model.CleanUp
import Verif.Model.Closeness
import Verif.Model.Color
import Verif.Model.ColorSpecial
import Verif.Model.ConditionalLog
import Verif.Model.Console
import Verif.Model.Containers
import Verif.Model.Conversions
import Verif.Model.Debugger
import Verif.Model.Deformation
import Verif.Model.Describe
import Verif.Model.Dijkstra
import Verif.Model.DijkstraSerialization
import Verif.Model.DistanceMatrix
import Verif.Model.Dtw
import Verif.Model.FileSize
import Verif.Model.Filesystem
import Verif.Model.FkFast
import Verif.Model.GaussianFunctions
import Verif.Model.GeometrySharing
import Verif.Model.GetNeighbours
import Verif.Model.Graph
import Verif.Model.GraphEdges
import Verif.Model.GraphReferences
import Verif.Model.Hash
import Verif.Model.HashedGrid
import Verif.Model.HashedGridReferences
import Verif.Model.HashedGridRounded
import Verif.Model.HashedGridSpecial
import Verif.Model.Hausdorff
import Verif.Model.Hierarchical
import Verif.Model.JointNames
import Verif.Model.JointSerialization
import Verif.Model.JointSpecial
import Verif.Model.Joystick
import Verif.Model.Kinematics
import Verif.Model.Kmeans
import Verif.Model.KmeansSubset
import Verif.Model.Knn
import Verif.Model.LeastSquares
import Verif.Model.LinkedRobot
import Verif.Model.LinkedRobotAlias
import Verif.Model.Listener
import Verif.Model.Log
import Verif.Model.LogThreads
import Verif.Model.MathSpecial
import Verif.Model.MoveitVersion
import Verif.Model.Multivariate
import Verif.Model.NanAstar
import Verif.Model.NanDijkstra
import Verif.Model.NanDtw
import Verif.Model.NanGeneric
import Verif.Model.NanHausdorff
import Verif.Model.NanHierarchical
import Verif.Model.NanKmeans
import Verif.Model.NanKnn
import Verif.Model.NanPrm
import Verif.Model.PathOwnership
import Verif.Model.PathSpecial
import Verif.Model.PathUtils
import Verif.Model.PointSets
import Verif.Model.Pose
import Verif.Model.PoseAverage
import Verif.Model.PrettyPrint
import Verif.Model.Prm
import Verif.Model.PrmQueries
import Verif.Model.PrmRandomWalk
import Verif.Model.Prng
import Verif.Model.Profiler
import Verif.Model.Projection
import Verif.Model.ProjectionSpecial
import Verif.Model.PyColor
import Verif.Model.PyConversions
import Verif.Model.PyListener
import Verif.Model.PyPath
import Verif.Model.RandomRotation
import Verif.Model.RandomWalk
import Verif.Model.ReliableTf
import Verif.Model.ResampleRounded
import Verif.Model.RobotGeometry
import Verif.Model.RosNode
import Verif.Model.RoundedChecks
import Verif.Model.RoundedMath
import Verif.Model.Rrt
import Verif.Model.RrtReuse
import Verif.Model.RrtSampling
import Verif.Model.RrtSerialization
import Verif.Model.Se2Robot
import Verif.Model.Se3Robot
import Verif.Model.Serialization
import Verif.Model.SerializationEigen
import Verif.Model.SerializationRos
import Verif.Model.SerializationSelf
import Verif.Model.SerializationUnchecked
import Verif.Model.SimpleAstar
import Verif.Model.TfLookup
import Verif.Model.ThinPlateSpline
import Verif.Model.Threads
import Verif.Model.Timestamps
import Verif.Model.Totg
import Verif.Model.TotgLimits
import Verif.Model.TotgPath
import Verif.Model.Trajectory
import Verif.Model.TrajectoryCopies
import Verif.Model.TrajectoryPlanning
import Verif.Model.TransformData
import Verif.Model.TransformationHelper
import Verif.Model.TruncatedNormal
import Verif.Model.TruncatedNormalRounded
import Verif.Model.UpsampleRounded
import Verif.Model.VectorAverageSpecial
import Verif.Model.VectorMath
import Verif.Model.VectorSpecial
import Verif.Model.Voxel
import Verif.Model.VoxelEmpty
import Verif.Model.VoxelReferences
import Verif.Model.VoxelRounded
import Verif.Model.VoxelRoundedSizes
import Verif.Model.VoxelSerialization
import Verif.Model.VoxelSpecial
import Verif.Model.ZlibFiles
import Verif.Model.ZlibStream
import Verif.Props.Algorithms
import Verif.Props.Aligned
import Verif.Props.AngleSpecial
import Verif.Props.Angles
import Verif.Props.AnglesRounded
import Verif.Props.AnglesSpecial
import Verif.Props.AppendToPath
import Verif.Props.ArcExceptions
import Verif.Props.Astar
import Verif.Props.AstarBounded
import Verif.Props.Averages
import Verif.Props.AveragesSpecial
import Verif.Props.Base64
import Verif.Props.BiRrt
import Verif.Props.BiRrtTurns
import Verif.Props.Bits
import Verif.Props.Catches
import Verif.Props.Clamp
import Verif.Props.CleanUp
import Verif.Props.Closeness
import Verif.Props.Color
import Verif.Props.ColorRamp
import Verif.Props.ColorSpecial
import Verif.Props.ConditionalLog
import Verif.Props.Console
import Verif.Props.Containers
import Verif.Props.Conversions
import Verif.Props.Debugger
import Verif.Props.Deformation
import Verif.Props.Describe
import Verif.Props.Dijkstra
import Verif.Props.DijkstraRounded
import Verif.Props.DijkstraSerialization
import Verif.Props.DistanceMatrix
import Verif.Props.Dtw
import Verif.Props.FileSize
import Verif.Props.Filesystem
import Verif.Props.FkFast
import Verif.Props.GaussianFunctions
import Verif.Props.GeometrySharing
import Verif.Props.GetNeighbours
import Verif.Props.Graph
import Verif.Props.GraphComponents
import Verif.Props.GraphEdges
import Verif.Props.GraphReads
import Verif.Props.GraphReferences
import Verif.Props.Hash
import Verif.Props.HashedGrid
import Verif.Props.HashedGridAnywhere
import Verif.Props.HashedGridIndex
import Verif.Props.HashedGridReferences
import Verif.Props.HashedGridRounded
import Verif.Props.HashedGridSpecial
import Verif.Props.Hausdorff
import Verif.Props.Hierarchical
import Verif.Props.IndexHash
import Verif.Props.JointNames
import Verif.Props.JointSerialization
import Verif.Props.JointSpecial
import Verif.Props.Joystick
import Verif.Props.Kinematics
import Verif.Props.Kmeans
import Verif.Props.KmeansSubset
import Verif.Props.Knn
import Verif.Props.LeastSquares
import Verif.Props.LinkedRobot
import Verif.Props.LinkedRobotAlias
import Verif.Props.LinkedRobotCheck
import Verif.Props.Listener
import Verif.Props.Log
import Verif.Props.LogThreads
import Verif.Props.MathSpecial
import Verif.Props.MoveitVersion
import Verif.Props.Multivariate
import Verif.Props.NanAstar
import Verif.Props.NanAstarHeuristic
import Verif.Props.NanDijkstra
import Verif.Props.NanDtw
import Verif.Props.NanGeneric
import Verif.Props.NanHausdorff
import Verif.Props.NanHierarchical
import Verif.Props.NanKmeans
import Verif.Props.NanKnn
import Verif.Props.NanPrm
import Verif.Props.NanPrmQuery
import Verif.Props.NanPrmSingle
import Verif.Props.PathOwnership
import Verif.Props.PathSpecial
import Verif.Props.PathUtils
import Verif.Props.PlaneFit
import Verif.Props.PointSets
import Verif.Props.Pose
import Verif.Props.PoseAverage
import Verif.Props.PrettyPrint
import Verif.Props.Prm
import Verif.Props.PrmQueries
import Verif.Props.PrmQuery
import Verif.Props.PrmRandomWalk
import Verif.Props.Prng
import Verif.Props.PrngSequence
import Verif.Props.Profiler
import Verif.Props.Projection
import Verif.Props.ProjectionSpecial
import Verif.Props.Pseudoinverse
import Verif.Props.PyColor
import Verif.Props.PyConversions
import Verif.Props.PyListener
import Verif.Props.PyPath
import Verif.Props.RandomEuler
import Verif.Props.RandomRotation
import Verif.Props.RandomWalk
import Verif.Props.Rejection
import Verif.Props.ReliableTf
import Verif.Props.Resample
import Verif.Props.ResampleRounded
import Verif.Props.RobotConfig
import Verif.Props.RobotGeometry
import Verif.Props.RobotJacobian
import Verif.Props.RobotJoint
import Verif.Props.RosNode
import Verif.Props.RoundedChecks
import Verif.Props.RoundedMath
import Verif.Props.Rrt
import Verif.Props.RrtReuse
import Verif.Props.RrtSampling
import Verif.Props.RrtSerialization
import Verif.Props.Se2Robot
import Verif.Props.Se3Robot
import Verif.Props.Serialization
import Verif.Props.SerializationEigen
import Verif.Props.SerializationRos
import Verif.Props.SerializationSelf
import Verif.Props.SerializationUnchecked
import Verif.Props.ShortcutSpecial
import Verif.Props.SimpleAstar
import Verif.Props.TfLookup
import Verif.Props.ThinPlateSpline
import Verif.Props.Threads
import Verif.Props.Timestamps
import Verif.Props.TotgArc
import Verif.Props.TotgExamples
import Verif.Props.TotgLimits
import Verif.Props.TotgLimitsWrong
import Verif.Props.TotgPath
import Verif.Props.TotgQuery
import Verif.Props.TotgQueryExamples
import Verif.Props.TotgSwitches
import Verif.Props.TotgSwitching
import Verif.Props.TotgTrajectory
import Verif.Props.TotgTrajectoryExamples
import Verif.Props.Trajectory
import Verif.Props.TrajectoryCopies
import Verif.Props.TrajectoryCopiesExamples
import Verif.Props.TrajectoryPlanning
import Verif.Props.TransformData
import Verif.Props.TransformationHelper
import Verif.Props.TruncatedNormal
import Verif.Props.TruncatedNormalRounded
import Verif.Props.Upsample
import Verif.Props.UpsampleRounded
import Verif.Props.UpsampleSpecial
import Verif.Props.VectorAverageSpecial
import Verif.Props.VectorMath
import Verif.Props.VectorSpecial
import Verif.Props.Voxel
import Verif.Props.VoxelEmpty
import Verif.Props.VoxelReferences
import Verif.Props.VoxelRounded
import Verif.Props.VoxelRoundedSizes
import Verif.Props.VoxelSerialization
import Verif.Props.VoxelSpecial
import Verif.Props.ZlibFiles
import Verif.Props.ZlibStream
import Verif.Spec.Algorithms
import Verif.Spec.Aligned
import Verif.Spec.Angles
import Verif.Spec.ArcExceptions
import Verif.Spec.Astar
import Verif.Spec.AstarBounded
import Verif.Spec.Base64
import Verif.Spec.BiRrt
import Verif.Spec.CleanUp
import Verif.Spec.Color
import Verif.Spec.ColorSpecial
import Verif.Spec.Conversions
import Verif.Spec.Deformation
import Verif.Spec.Dijkstra
import Verif.Spec.DijkstraRounded
import Verif.Spec.DistanceMatrix
import Verif.Spec.Draws
import Verif.Spec.Dtw
import Verif.Spec.FileSize
import Verif.Spec.Filesystem
import Verif.Spec.FkFast
import Verif.Spec.GaussianFunctions
import Verif.Spec.GeometrySharing
import Verif.Spec.Graph
import Verif.Spec.GraphComponents
import Verif.Spec.GraphEdges
import Verif.Spec.GraphReferences
import Verif.Spec.HashedGrid
import Verif.Spec.HashedGridAnywhere
import Verif.Spec.HashedGridReferences
import Verif.Spec.HashedGridRounded
import Verif.Spec.HashedGridSpecial
import Verif.Spec.Hausdorff
import Verif.Spec.Hierarchical
import Verif.Spec.IndexHash
import Verif.Spec.JointSpecial
import Verif.Spec.Joystick
import Verif.Spec.Kinematics
import Verif.Spec.Kmeans
import Verif.Spec.KmeansSubset
import Verif.Spec.Knn
import Verif.Spec.LeastSquares
import Verif.Spec.LinkedRobot
import Verif.Spec.Listener
import Verif.Spec.Log
import Verif.Spec.MathSpecial
import Verif.Spec.Multivariate
import Verif.Spec.NanAstar
import Verif.Spec.NanDijkstra
import Verif.Spec.NanDtw
import Verif.Spec.NanGeneric
import Verif.Spec.NanKmeans
import Verif.Spec.NanPrm
import Verif.Spec.NotANumber
import Verif.Spec.PathOwnership
import Verif.Spec.PathSpecial
import Verif.Spec.PathUtils
import Verif.Spec.Pose
import Verif.Spec.PoseAverage
import Verif.Spec.PrettyPrint
import Verif.Spec.Prm
import Verif.Spec.PrmRandomWalk
import Verif.Spec.Prng
import Verif.Spec.PrngSequence
import Verif.Spec.Profiler
import Verif.Spec.Projection
import Verif.Spec.ProjectionSpecial
import Verif.Spec.PyColor
import Verif.Spec.PyListener
import Verif.Spec.PyPath
import Verif.Spec.RandomRotation
import Verif.Spec.RandomWalk
import Verif.Spec.Rejection
import Verif.Spec.ReliableTf
import Verif.Spec.ResampleRounded
import Verif.Spec.RobotBody
import Verif.Spec.RobotJoint
import Verif.Spec.RobotMotion
import Verif.Spec.Rrt
import Verif.Spec.Serialization
import Verif.Spec.SerializationEigen
import Verif.Spec.SerializationRos
import Verif.Spec.SerializationUnchecked
import Verif.Spec.SimpleAstar
import Verif.Spec.ThinPlateSpline
import Verif.Spec.Threads
import Verif.Spec.Timestamps
import Verif.Spec.Totg
import Verif.Spec.TotgLimits
import Verif.Spec.TotgQuery
import Verif.Spec.TotgSwitch
import Verif.Spec.TotgTrajectory
import Verif.Spec.Trajectory
import Verif.Spec.TrajectoryCopies
import Verif.Spec.TransformationHelper
import Verif.Spec.TruncatedNormalRounded
import Verif.Spec.UpsampleRounded
import Verif.Spec.VectorMath
import Verif.Spec.VectorSpecial
import Verif.Spec.Voxel
import Verif.Spec.VoxelReferences
import Verif.Spec.VoxelRoundedSizes
import Verif.Spec.VoxelSpecial
import Verif.Spec.ZlibStream
