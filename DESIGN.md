# Formal model of arc_utilities in Lean 4

## 1. Approach

The C++ code in /repo is read as text and rewritten, function by function, as total
computable Lean definitions. Every definition carries a comment citing the file and lines it
models and the simplifications made. Properties are stated over those definitions and proved
for all inputs.

Layout under `lean/Verif/`:

| directory | content |
|---|---|
| `Base/` | outcome type (`ok`, exception, assertion failure, undefined behaviour), number assumptions, shared list lemmas |
| `Model/` | the model of the code |
| `Spec/` | short specifications, written without reference to the model |
| `Lemmas/` | helper lemmas |
| `Props/` | the property theorems, each followed by a concrete example meeting its hypotheses |

### Modelling conventions

* **Outcomes.** A C++ call has one of four outcomes: `ok v`, `throws e` (a C++ exception),
  `abort` (an `assert` fails; in an NDEBUG build execution would continue into undefined
  behaviour) and `ub` (undefined behaviour that no assertion guards, e.g. an out-of-range
  `operator[]`).
* **Mutation.** A function that changes an argument or member returns the new value.
* **Callbacks** (`std::function` parameters) are arbitrary Lean functions. They are assumed to
  be deterministic and to terminate; where the code gives a callback a mutable reference, the
  model passes the new value along.
* **Priority queues.** `std::priority_queue` returns *some* element of best priority. The model
  leaves the choice among equal priorities to an arbitrary oracle, so a theorem holds for every
  tie-break order.
* **Threads.** An OpenMP loop is modelled as an arbitrary assignment of loop indices to threads
  with per-thread accumulators, so a theorem holds for every schedule. Data races are not
  modelled; each model comment says why the modelled loop has none or where one is assumed absent.
* **Random draws** are arbitrary input sequences.
* **Integers.** `size_t`/`uint64_t` that index containers are `Nat` (containers hold fewer than
  2^63 elements on the platforms concerned); where wrap-around or truncation matters (bit
  helpers, generators, headers) `BitVec` is used. Signed indices are `Int`.
* **Floating point.** Where code only compares and adds doubles (graph search, nearest
  neighbours, clustering, Hausdorff, DTW) theorems are proved over an abstract ordered type with only
  the laws stated in the theorem's type-class hypotheses (all of them true of IEEE doubles
  without NaN wherever possible; the exceptions are named in the property notes). Where code does
  real arithmetic (angles, averages, interpolation, voxel locations) the model uses an
  arbitrary linearly ordered field, i.e. exact arithmetic. For the functions of math_helpers.hpp
  and the look-ups of voxel grids there is a second model in which the result of every operation
  is rounded (C158 to C160): `Base/Rounding.lean` states what is assumed of rounding (relative error
  2^-53, order and sign kept, exactly the numbers with at most 53 binary digits unchanged) and shows
  that round to nearest even meets it. Exponents are unlimited there: no overflow, no underflow.

## 2. Plan per property

| id | model | proof |
|---|---|---|
| C01-C04 | byte lists, serializers as state transformers, deserializers as functions of buffer and offset | round-trip by induction on the container; "no over-read" by induction for arbitrary buffers |
| C05 | host byte order as a parameter | byte layout computed, round-trip between two host parameters |
| C06-C07 | as C01 with the headers and field orders of the files | composition of the round-trip lemmas |
| C08-C10 | table of 256 entries, loops with explicit index arithmetic, writes checked against the allocated length | induction over 3-byte groups, whole-table `decide` |
| C11-C14 | graph as list of nodes with in/out edge lists, `CheckGraphLinkage` as the nested loops of the code | invariant by induction over histories; exact characterisation of the check |
| C15 | worklist loop with the code's counting | negation by witnesses; exactly the labels and count reported of any graph, from an invariant over the searches in the order of their start nodes; on symmetric graphs also in terms of components and exactly when they are right |
| C16-C17 | priority queue with oracle; loop invariant | invariant: settled nodes final, queue covers frontier |
| C18-C21 | same queue model, explored map | invariant; termination by a decreasing measure on explored costs |
| C22 | walk driven by arbitrary draws | invariant over steps |
| C23-C25 | tree as list of nodes; step function per propagation | invariant over histories; negation by witness for C25 |
| C26-C27 | replace-the-worst loop; per-thread lists and merge | multiset argument on sorted distances |
| C28 | matrix writes in arbitrary order | frame argument; negation for the two-set version |
| C29 | per-thread maxima | fold over an arbitrary partition |
| C30 | the matrix of the evaluator, cell by cell | the table by induction over rows and columns; the recurrence it satisfies and that it is the only one; negation of minimality by witness |
| C31-C32 | iteration with fuel; relational divergence | fixed-point at exit; counting argument |
| C33-C34 | state = mask + cluster lists; GetClosestPair loops | partition invariant; measure = number of elements |
| C35-C38 | grid as flat list with strides | div/mod arithmetic; history induction |
| C39 | hash map keyed by chunk region | refinement to a function from cells to values |
| C40-C41 | `BitVec 64` arithmetic | invertibility of each xorshift and multiply by exhibiting inverses |
| C42-C44 | `BitVec`, tables | bit extensionality; whole-table decision |
| C45 | each sampling branch with arbitrary draws | case analysis; negation by witness |
| C46-C48 | ordered field with floor | field arithmetic, induction |
| C49-C51 | loops over arbitrary draws, queue with oracle | invariant; exchange argument for the greedy split |
| C52-C53 | abstract file system map, abstract stream library with a contract | induction on slices / chunks; negation by witness for stale files |
| C54-C55 | built on the graph and nearest-neighbour models | invariant over insertions |
| C56 | built like graph search | invariant |
| C57 | maps from names to lists | history induction |
| C58 | lists | direct; negation by witness |
| C59 | the roscpp contract for message buffers | negation: the read past the end; partial round trip |
| C60 | two trees and a turn flag, step per round | invariant over rounds, completeness of the connection check |
| C61 | as C01 with the tree state layout | composition of the round-trip lemmas |
| C62-C63 | the planner on top of C54 and C16/C17 | reduction to shortest distances in the extended graph |
| C64-C65 | constructors with exact sizes | arithmetic on cell counts; case analysis of the status |
| C66-C67 | ordered field | case analysis |
| C68, C70 | association lists, 32 bit results | induction |
| C69 | the table of twenty colors | decision over the whole table; negation after the twentieth |
| C71-C73 | as C46-C48 | field arithmetic |
| C74 | text as a list of lines | induction over names |
| C75-C76 | priority queue that gives out any of its entries, fuel for the loop | invariants by induction over the loop; negation by concrete graphs and entries |
| C77 | integer grids with an abstract rounding function | list membership |
| C78-C84 | real vectors as functions from `Fin n` | vector algebra, Cauchy-Schwarz |
| C85 | The Hamilton product and Eigen's inverse on quaternions over the reals. | The product form is equal to a vector formula; polynomial identities give dot products, cross products and composition. |
| C86 | Matrices over the reals, 4 by 4 ones by blocks. | Entry by entry. |
| C87 | The adjoint by blocks; rigid transforms as rotation and translation. | A rotation matrix commutes with the cross product (through the determinant); blocks multiplied out. |
| C88 | `ExpTwist` with its three branches and the assertion as an outcome; the matrix logarithm is a parameter. | The result as a function of time solves the linear differential equation, and so is the exponential of Mathlib. The slow rotation branch is proved to lose the rotation. |
| C89 | `Distance` of vectors, quaternions, rotation matrices and transforms (Model/Pose), with the quaternion of a matrix as in Eigen 3.3 | trace of the relative rotation gives the angle; an axis exists because the rotation minus its inverse and the rank-one part vanish only at the identity; triangle inequality through angles in 4-space |
| C90 | `Interpolate` with Eigen 3.3's slerp | dot products of slerp weights by addition formulas |
| C91 | quaternion products of the three axis rotations, Eigen 3.3's `eulerAngles(0,1,2)` | multiplication of the three matrices; the arctangents give back the entries, case split on gimbal lock |
| C92 | the three loops | induction over the path; triangle inequality |
| C93 | the parallel writes as any permutation of the list of writes over an uninitialised matrix; first minimum loop of Eigen | all writes to a cell agree; injectivity of the cells; induction over the columns |
| C94 | conversions, the writes to segments one after the other | induction over the list with the part already written |
| C95 | joints with limits that may be infinite, over the reals | case split on the type; wrap and distance from the angle theorems |
| C97 | the skeleton, the two checks and the recursive exploration with a bound on the depth | an invariant of the exploration (visited links are reached), termination by the number of links not seen, and counting for the tree |
| C98 | the joints and links as a state changed by calls | an invariant over all histories of calls; the placement as a separate specification (`Placed`), proved by induction over the joints in order |
| C99 | as C98, with outcome and state also when a call fails | the same invariant; exact outcomes of each failing call |
| C100 | the recursive search for the joint chain and the columns as in the code; the specification says which joints move a link, and what the derivative is of: the placement of the links as a function of one joint value | derivative of a rotation about an axis by its angle, carried along the chain of joints; prismatic columns proved wrong |
| C101 | loops over joints with checks of sizes and types | a weighted l2 triangle inequality (Minkowski) over the joint distances of C95 and C47; interpolation and averages from C72 and C48 |
| C96 | joints as bits, the serializers of C01 and C02 in sequence | append and read-back laws composed |
| C102 | a robot with one link in the plane, positions as a fold | wrapping (C46), distance (C47), interpolation (C72), means (C48); derivatives of rotations about z |
| C103 | the loop that fills the matrix of allowed pairs, over the linked robot of C97 | induction over the pairs with the matrix generalised |
| C104 | a robot with one link, positions as a fold; distances, interpolation and averages from eigen_helpers | C89, C90, C105; derivative of turning at time zero for the Jacobian |
| C105 | the columns, the square matrix and the loop for the largest eigenvalue; Eigen's solver is a parameter | the eigenvalues are real; Rayleigh's bound from the spectral theorem; traces of products of rotation matrices in terms of quaternions |
| C106 | acceptance tests of the two rejection samplers over ℝ | densities compared by calculus; optimal rate and constant by AM-GM style inequalities |
| C107 | `Segment.line`, `Segment.arc`, `blend` as the constructors compute them | trigonometry of half the angle at the corner; derivatives of cosine and sine |
| C108 | `makePath` as a fold over the waypoints with the switching points, lookup by position | the segments are a chain whose joints meet up to the tolerance; lookup finds the segment that contains the position; facts of C107 on each |
| C109 | the loops over joints as folds | each joint limits the acceleration to an interval; intervals that meet pairwise have a common point |
| C110 | the list built by `Path.add`, `trim`, and the search | invariant of the fold: what is listed is boundaries and zeros of a coordinate of the tangent, before the end |
| C111 | `Problem.forward`, `backward`, `nextSwitch`, `alternate`, `integrate` with a number of rounds; slopes may be infinite or not a number; the list of steps reversed | invariants of the loops by induction on the rounds; the backward points are those of the recursion `back`; C109 turns the limit curves into limits of the joints |
| C112 | `timed`, `trajectorySegment` with its cache, `between`, `positionVelocity` | invariant of the cache (steps before the cached one are not later); algebra of motion with constant acceleration; chain rule for right derivatives |
| C113 | the members, both setters, solveForCoeffs, interpolate and both constructors, on lists of points; the solver of the linear system is a parameter | the kernels are conditionally positive definite (exponential series, Gaussian, inverse of the squared distance, then logarithm and square root as limits of functions with positive derivative); a symmetric system is solvable if the right hand side is orthogonal to its kernel; an invariant over all histories of calls |
| C114 | Pinv with the flip; the singular value decomposition is a parameter | products of assembled decompositions; the Penrose equations; orthogonality for the shortest least squares solution |
| C115 | both solvers with the damping; smallest singular value and Cholesky solution are parameters | the damped normal matrix is positive definite; a step changes the cost by its quadratic form |
| C116 | FitPlaneToPoints on AverageEigenVector of C48 and SafeNormal of C79; the thin decomposition is a parameter | moments about the centroid; the smallest singular value bounds the squares in every direction, or is zero because the centred points add up to zero |
| C117 | `nextAcceleration`, `nextVelocity`, `nextSwitch`, `forward` of the model of C111 | slopes denote extended reals; induction over the fuel of each search; first in a sorted list; bisection invariants |
| C118 | multivariate normal distribution with the square root of the covariance by Cholesky or eigenvalues as parameters, the loop that draws | the square of the transformation is the positive part; characteristic functions give the law of one sample, blocks of an infinite product measure give independence |
| C119 | the six Gaussian functions on extended real limits, erf as an integral | substitution in the integral, symmetry, conditional probability |
| C120 | random rotation generator over any generator of draws | two pairs of polar coordinates turn the volume of the ball in four dimensions into the three draws; volume is unchanged by isometries; quaternion multiplication is an isometry |
| C121 | random Euler angles over any generator of draws | rotations about z, y, z are quaternions in the same coordinates up to a shear of periodic angles; a quarter turn about y exchanges x and z |
| C122 | file system as partial maps of folders and files with denials; streams with a position or in append mode; histories of operations on numbered loggers; threads that lock, write character by character, unlock | simulation of a reference that keeps the lines of each file; induction over schedules with the mutex invariant |
| C123 | threads at program points of callback, `get` and `waitForNew` over the mutex and the stored message, with a history of events | invariant over all moves; every event of the history is justified by those before it |
| C124 | one function per joint of each header, the chain, both overloads, the map | quaternion of roll, pitch, yaw is the product of three rotations; induction over the chain |
| C125 | each conversion of the five headers, generic in the number type; rotations through Eigen's quaternion and matrix functions; Eigen's rotation part from a singular value decomposition given as a parameter | computation; uniqueness of the positive square root; unit quaternions of one rotation are equal or opposite |
| C126 | the loops with the arithmetic of the element type as a parameter; integers of `w` bits with undefined overflow; `double` as rationals rounded to 53 digits, ties to even | induction over the loop; numbers of 53 digits are not rounded; relative error of rounding |
| C127 | dictionaries as trees with ordered items; generators as the list of what they yield and how they end | induction over the items, then over the path; strong induction over the list |
| C128 | paths are lists of points of an inner product space; the loop over the segments keeps the best point so far | minimum of a quadratic clamped to [0, 1]; invariant of the loop |
| C129 | the loops as they are; both directions of travel as structural recursion | the loops equal one function which follows a list of waypoints; induction; the cut of a line by equal steps |
| C130 | the loop over the points from the back | induction |
| C131 | the coefficients in a real normed space | derivatives of powers; scalars compared by `module` |
| C132 | every function over the real numbers; division by zero raises | algebra of the piecewise functions; the inverse of the matrix; trigonometric identities; case analysis of the maps |
| C133 | `Model/TransformationHelper`: the functions of transformation_helper.py on messages, 4x4 real matrices and quaternions; `quaternion_matrix` and `quaternion_from_matrix` of tf are parameters with the contract `IsTf` | block form of the matrices and the rotation theorems of C85 and C89; the contract is met by the formulas of Eigen |
| C134 | `Model/Catches`: a call is a tree of steps (points at which the alarm may ring, setting the alarm, installing the handler, end); generators are lists of items with an end | induction on runs for the calls, on the list of moments for the loops; each moment of a loop is a run of `catch_timeout` (`C134_moment`) |
| C135 | `Model/Filesystem`: a file system is the list of its entries (path with file, directory or link); the functions of pathlib used, and the recursions with Python's limit of nested calls | induction on the limit; every entry below a directory is below exactly one path in it (`below_child`, `sum_below`); pigeonhole for the numbered names |
| C136 | transition system of the caller and the sending threads, with the dictionary of threads, the events, the list of static transforms and the messages sent | invariant by induction on reachability: which threads run, what the rest of the current call does to what is kept, and that this gives what the history of calls asks for; explicit runs for the defects |
| C137 | transition system of the object and any number of threads, each step of `callback` and `get` by itself, with the history of what happened | invariant by induction on the schedule: who holds the lock, what is kept, what was handed over; a second induction for the callback that calls `get` |
| C138 | functions over messages; waiting and connecting as loops over rounds with arbitrary answers in each | case analysis on the lengths of lists; induction on the rounds; first match of a list of rounds |
| C139 | the regular expression as greedy parts over lists of characters; the quantity as an exact decimal fraction | the parts of a matching text are found by `takeWhile`; conversely every match is a text of the specification; rounding by division with remainder |
| C140 | each function over exact numbers; the `with` statement as a sequence of acts with outcomes | the quaternion of the angles equals that of the C++ side, whose matrix is known; induction over the dictionary; floor for rounding |
| C141 | types as a grammar (numbers, booleans, geometric types, pairs, sequences, sets, maps), values by recursion on the type | a text followed by a separating or closing character has one reading, by induction on the type and the list |
| C142 | the server as a function; a call's outcome with the severities it logs; the process as the record of what ROS was asked | cases on the server's answer; cases on the level |
| C143 | 64-bit words, with the shifts and sums of the code | sums and exclusive ors cancel; bit by bit for the shifts |
| C144 | the scripts over the file system of C135 and the size parser of C139 | the listing is shown to be the filtered children; roots apart give directories apart, so the removals do not meet |
| C145 | rounds of waiting with arbitrary answers; the broadcaster as the list of messages on both topics | induction on the rounds; matrices from C133; induction on the calls |
| C146 | heap of segments with fresh addresses, pointers of each path; construct, copy, assign, destroy | invariant: the paths have disjoint lists of live addresses that cover the heap; refinement to paths as values; from any such state the assignment leads to a double deletion |
| C147 | objects in order of construction, each with its steps, cache and the owner of the cached iterator | invariant: the owner's list, if it is alive, equals the own list and the cache is valid in it; then the lookup lemma of C112 |
| C148 | `Model/Timestamps.lean`: the characters that put_time writes for the fields of a local time, the milliseconds after them | a spec of the order of times; the strings split at the dashes, decimal numbers compared digit by digit |
| C149 | `Model/Closeness.lean`: doubles as reals with two infinities and NaN, all comparisons as IEEE has them | cases on the kinds of numbers; induction on the lengths |
| C150 | `Model/Debugger.lean`: the first 1023 characters, strstr and atoi | induction on the lines before the one that is found |
| C151 | `Model/PrmRandomWalk.lean`: the composition of the models of `AddNodeToRoadmap`, `PerformRandomWalk`, `ExtractSolutionPath` and `CalculateTotalDistance` | edges in both directions are an invariant of adding nodes, so the walk cannot get stuck; for each path without loops the draws that lead to it |
| C152 | `Model/RrtSampling.lean`: the samplers behind the goal bias, call by call, and the check of the clock, on top of `plan` | induction on the calls for the number of calls of each sampler; the theorems of C23 and C24 for the planner they are handed to |
| C153 | the reader of stored results, over the modelled deserializers | round trip and robustness composed from C02 and C14; unchecked graphs by witness |
| C154 | `std::cin` with its flags, the two output streams and the local flags of the terminal as a state | exact results by cases; induction over calls; the text is split uniquely |
| C155 | `Model/Describe`: the texts as lists of characters, numbers with decimals written by an arbitrary function | each separator does not occur in the parts before it, so texts split uniquely; induction over the lists |
| C156 | `Model/Aligned`: four real coefficients, expressions and sequences of operations in place; `Spec/Aligned`: Mathlib's dot and cross product | induction over expressions and sequences; ring arithmetic |
| C157 | `Model/VoxelEmpty`: the default constructed grid, values that were never set as `none`; replacement of the storage | invariant over histories; the index computation of C35 |
| C158 | Model/VoxelRounded.lean: making a grid, location of an index and index of a location with each operation rounded (Base/Rounding.lean: relative error 2^-53, monotone, odd, exactly the numbers of at most 53 binary digits are kept; exponents not limited; `Nearest.nearest` is a concrete instance) | error bounds per axis; the computed place of a centre stays 9/64 of a cell around the exact one, the look-up is off by less than 1/8 |
| C159 | Model/RoundedMath.lean: the angle functions with each operation rounded; `fmod` exact | differences of doubles within a factor of two and remainders are doubles (Sterbenz), so wrapping is exact; the correction of a difference is 1-Lipschitz; witness computed with round to nearest even |
| C160 | Model/RoundedMath.lean: interpolation, distances, path length, weighted average with each operation rounded | error terms per operation; induction over the lists with the exact run alongside |
| C161 | Base/Double.lean: non-negative doubles of a format (53 digits, a largest value, infinity) as an instance of the costs of Model/Dijkstra.lean; Spec/DijkstraRounded.lean: routes with exact costs | C16 and C17 hold for every cost type, so also for these; induction on the route bounds the rounding of the sums in both directions |
| C162 | Model/Astar.lean as in C18 to C21 with the doubles of Base/Double.lean; Spec/AstarBounded.lean: paths below a bound, exact costs of paths | the loop invariant of C19 keeps an entry of the queue on the path below the bound; induction on the path bounds the rounding of its costs and of its values |
| C163 | Model/HashedGridRounded: the hashed grid with every result rounded by an arbitrary `Rounding` | per-axis error bounds in units of cells (Lemmas/HashedGridRoundedAxis), then the same refinement to the abstract grid as C39, restricted to chunks whose bases are distinct after rounding; read-back needs no invariant; that nothing fails and cells do not overlap at any location is an invariant on the chunks (Props/HashedGridAnywhere); the lost write is computed with rounding to nearest |
| C164 | Model/HashedGrid: `getByIndex`, `getIndexLocationInGrid`, `getElementSize`, `emptyGrid` over the chunks that the operations of C39 store | invariant over histories: each stored chunk is keyed by the base of a representable chunk and has the shape of the grid or one element; the centre of an element falls into that element |
| C165 | Model/VoxelReferences: the grid with an epoch number of its storage and the list of kept references; arguments are values or kept references | refinement to an abstract grid whose references name cells, with equality of all reports and of undefinedness |
| C166 | Model/Graph, Model/GraphEdges: `getEdge`, `getReverseEdge`, `indexInRange`, the editing calls; Spec/GraphEdges: the list of nodes and the list of edges added | refinement: the graph after a history is the one built from the two lists; the first match in the list is the first match in the out edges |
| C167 | Model/GraphEdges: writing through the reference returned by `getEdge`; Model/Dijkstra and Model/Astar read the changed graph | simulation: two graphs with equal in edges give equal Dijkstra runs, two with equal out edges equal A* runs |
| C168 | Model/RrtReuse: a start that is a separate value or a state of the tree; histories of child edits | unfolding to C23 and C24 for a separate start; induction over the history of child edits |
| C169 | Model/SerializationSelf: the loops of `SerializeVector` and `SerializeNetworkVector` reading each item from the growing buffer | induction over the rounds: the old bytes stay in place, so each item read is the old one |
| C170 | Model/SerializationUnchecked: the deserializers with the assertions left out; reading bytes the buffer does not have is undefined | simulation by induction over the nesting: equal outcomes, a failed assertion becoming undefined behaviour |
| C171 | `Model/GraphReferences`: the vectors of a graph with numbered storages and capacities; any growth; nodes moved or copied; references as storage and position, undefined when the storage is gone | invariant over all operations: storages have different numbers, and the storage of a kept reference is still in use exactly while its vector has not outgrown its capacity; refinement to the model without storages |
| C172 | `Model/VoxelRoundedSizes`: numbers of cells from sizes with the quotient rounded | monotone rounding that keeps whole numbers; the two surprising counts by computing with round to nearest |
| C173 | `Model/KmeansSubset`: the size of the subset as computed, with `Base/Rounding` | the double 0.1 is 1/10 (1 + 2^-54); ten times k of it is rounded to k, other products stay away from whole numbers |
| C174 | `Model/ResampleRounded`: resampling with `Base/Rounding` | refinement to the exact model of C50 with a rounded distance and a rounded ratio, then bounds on ceilings of rounded quotients; too long pieces: concrete doubles near 3 |
| C175 | `Model/GeometrySharing`: the heap of point vectors with the counts of `std::shared_ptr`, robots, and the pointers of the caller | refinement to robots whose points are never freed: the counts equal the number of references at every step |
| C176 | `TruncatedNormalRounded`: the distribution of C45 with every result rounded (`Rounding`), and arbitrary `sqrt`, `exp`, `pow` | monotonicity of rounding carries the standardized bound through the draws; error bound for standardizing and scaling a bound; exact methods and accepted draws; witness with rounding to nearest |
| C177 | `UpsampleRounded`: the splitting and building loops of C51 with every result rounded | the greedy invariant of C51 for the rounded length of a piece, which falls with the number of pieces because rounding is monotone; error bounds for the ratios |
| C178 | `Hash.GridIndex`, `hashGridIndex`: bit vectors of 64 bits | arithmetic of exclusive or; a list of colliding cells written down |
| C179 | `RoundedChecks.checkInRange`, `checkInBounds`: the checks of C71 with every result rounded | wrapping of doubles is exact and idempotent (C159), so the check compares computed ranges; error bound of one subtraction and one addition |
| C180 | `RoundedChecks.stdDevWithMean`, `stdDev` with every result rounded | the sum of squares of C160 for a constant second argument; the mean of C160; the variance about another point |
| C181 | `NanKnn`: the queries of C26 and C27 with distances in `Option W`, `none` being not a number, and comparisons that are false for it | the run is that with infinite distances, and scanning skips entries that are not below infinity; C26's and C27's invariants on the indices that remain |
| C182 | `NanHausdorff.computeDistance` with distances in `Option W` | the run is that with infinite distances (C29) |
| C183 | `NanKmeans.cluster` with distances in `Option W` | equal to the model of C31 with infinite distances; `getClosestCluster` by induction |
| C184 | `NanDtw`: the evaluator of C30 with a table of `Option W` and std::min of doubles | the table's recursion; an entry is `none` exactly if its diagonal has a `none` (induction); numbers are costs of warping paths |
| C185 | `NanDijkstra.performDijkstras` with weights and distances in `Option W`; keys of the queue are numbers because only sums that compare below a number are pushed | simulation by the model of C16 with infinite weights; routes of finite cost use no infinite edge |
| C186 | Model/VoxelSpecial: making a grid and looking up locations with doubles from Base/Ieee (rounded reals that overflow, infinities, not a number); conversion to `int64_t` of anything else than a number in range is undefined | what is not finite stays so in sums, products and transforms, so that the conversion is undefined; bounds on every intermediate result for the agreement with Model/VoxelRounded |
| C187 | Model/JointSpecial: construction, `InLimits`, `EnforceLimits`, `SetValue` with doubles from Base/Ieee; wrapping an angle is a parameter | cases on the kinds of doubles; an invariant of all histories by induction |
| C188 | Model/HashedGridSpecial: the hashed grid with doubles from Base/Ieee; regions with a coordinate that is not a number are never found | as C186; the base of an infinitely wide chunk is zero times infinity; agreement with Model/HashedGridRounded by simulation over all histories |
| C189 | Model/MathSpecial: math_helpers.hpp:16-119, 175-233 with doubles from Base/Ieee | case analysis on number, infinity and NaN; bounds on the intermediate results for the agreement with Model/RoundedMath |
| C190 | Model/MathSpecial: math_helpers.hpp:155-173, 251-299 with doubles from Base/Ieee | induction over the lists: what is not finite stays so in sums of squares and in the running average; the agreement with Model/RoundedMath by induction with the absence of overflow as hypothesis |
| C191 | Model/PathSpecial: resampling with doubles from Base/Ieee; the conversion to `uint32_t` is undefined outside of its range | the first bad segment is reached by induction over the loop; agreement with Model/ResampleRounded step by step: a quotient that overflows is out of range in both |
| C192 | Model/PathSpecial: upsampling with doubles from Base/Ieee; the queue returns a largest entry, or any entry if one is not a number | invariant: the segments in the queue are a permutation of all segments; entries of infinitely long segments stay infinite and win; agreement with Model/UpsampleRounded |
| C193 | Model/PathSpecial: the smoothing loop with doubles from Base/Ieee and a distribution that needs ordered bounds with a finite difference | simulation: every run with rounding is a run of Model/PathUtils with other draws, within twice the bounds |
| C194 | Model/NanHierarchical: Model/Hierarchical with a matrix and a threshold that may be NaN; `std::max` and `std::min` keep their first argument then | links equal those of the entries that are numbers; with single link the run equals the one with infinity for NaN; with complete link an invariant over the merges |
| C195 | Model/NanAstar: Model/Astar with costs that may be NaN; a queue with a NaN value lets any entry be first | simulation of Model/Astar while all answers are numbers; invariant: each backpointer is an accepted edge; for endless searches: the queue always has an entry with the cost NaN from which one can walk on |
| C196 | Model/NanPrm: Model/Prm with distances that may be NaN, on top of Model/NanKnn | outcome of the neighbour query (C181) pushed through the insertion; edges named exactly; updates transferred from C55, whose proof needs no order on weights |
| C197 | Model/NanPrm: multi-start and multi-goal queries with NaN, on top of Model/NanDijkstra | invariant of adding states, then C185 for the search; cheapest route along number weights as separate specification |
| C198 | Model/NanAstar as for C195, with the overload on node values | step-by-step simulation of any search by one whose heuristic is infinite everywhere, the tie breaks chosen along the run; then C195 and C19 |
| C199 | Model/NanPrm: single-start queries on top of Model/NanAstar | how adding states ends (C196), then C198; the endless lazy query is an instance of C195_endless |
| C200 | Model/NanGeneric.lean: GenericAstarSearch on the queue of Model/NanAstar.lean, distances and heuristics as `Option W` | lifting to the model of C21 for numbers; simulation by a search with an infinite heuristic; invariant on backpointers; a NaN entry that is never dropped |
| C201 | Model/ColorSpecial.lean: the color functions on special doubles, with `Single` for rounding to float | case analysis on special values; error bounds through the branches of the ramp, continuous at their ends |
| C202 | Model/VectorSpecial.lean: norms on special doubles; a sum in any order is an inductive relation | induction on the sum: NaN and infinities are kept, squares never cancel; error bound by induction on the loop |
| C203 | Model/AngleSpecial: entries are special doubles, sums in any order are a relation (`Total`), the limits on the cosine as the two comparisons of `std::min` and `std::max`, Eigen 3.3's `normalized`, which divides only if the squared norm is positive | case analysis on the special values, induction over the sums |
| C204 | Model/ProjectionSpecial: as for C203; `DistanceToLine` as a relation because it forms four sums whose order is open; the two loops over eigenvalues and singular values with an optional index for -1 | case analysis on the special values, loop invariants (what has been found among the values seen), the second loop is the first one on negated values |
| C205 | Model/VectorAverageSpecial: `Interpolate` on lists of special doubles, `AverageEigenVector` on functions of a coordinate | induction over the vectors shows that each coordinate runs the loop for numbers of C190 |
| C206 | `Model/LinkedRobotAlias`: `SetPosition` with an argument that is a reference, to a configuration of the caller or to the position of the robot itself, read in each round of the loop | for a configuration of the caller equal to the model of C99 (`C206_separate`); induction over histories for the position being a prefix of the joints that move; exact outcome with the robot's own position, and that nothing else is lost |
| C207 | Model/HashedGridReferences: the hashed grid with, for each chunk, the number of chunks assigned in its place, and the list of kept references; arguments are values or kept references | refinement to a table of values whose references name a cell, a chunk or the default, with equality of all reports and of undefinedness; then invariants of single references over all later histories |
| C208 | Model/ArcExceptions: the text of the exception as a list of characters, with the position that the macro adds | the text after the last space is the decimal number of the line; cancellation of common ends |
| C209 | Model/MoveitVersion: the condition of the macro on integers | equivalence with the lexicographic order of triples |
| C210 | Model/JointNames: `GetTypeString` on the joints of Model/LinkedRobot, with all 2^32 values of the type | case distinction; the functions that change the value keep the type |
| C211 | Model/TransformData: the loop, with affine transforms of any dimension on points and on transforms | induction on the loop; matrix algebra |
| C212 | Model/Threads: the parallel region as a shared variable and the assignments of the threads in any order; a separate table of which accesses are ordered | invariant over schedules; a schedule ends the region exactly when it is a permutation of the team |
| C213 | Model/Threads: an object is its address; the remainder by zero is undefined | divisibility |
| C214 | Model/ConditionalLog: the tokens of the macros, a parser of statements in which an `else` belongs to the nearest `if`, and what statements do | evaluation of the parser on texts with variable parts, for all values of the conditions |
| C215 | Model/AppendToPath: paths as their leading slashes and names, made from text, joined and printed as `pathlib` does on POSIX systems | induction on the text for splitting at slashes; induction on the names for printing |
| C216 | Model/PrmQueries: the queries on a copy and histories of queries, over Model/Prm | induction on the history, with the different states of the added nodes as a ledger; C54 for each added state |

## 3. Trusted base

* Lean 4.33.0 kernel, and the axioms `propext`, `Classical.choice`, `Quot.sound` (at most; listed
  per theorem in section 6).
* Mathlib definitions used in statements.
* The reading of the C++ source recorded in the comments of `Model/`.
* The conventions of section 1.

## 4. What is modelled and what is not

Paths are under include/arc_utilities unless they start with src.

| file | modelled | not modelled |
|---|---|---|
| serialization.hpp | POD, network, string, vector, pair, map serializers and deserializers | `SerializeNetworkString<char>` (does not compile) |
| serialization_eigen.hpp | all serializer/deserializer pairs | |
| serialization_ros.hpp | all message types, the generic wrapper | |
| src base64_helpers.cpp | all | |
| graph.hpp | nodes, edges, linkage check, serialization, connected components, printing | the functions `operator<<` that only call printing |
| dijkstras.hpp | all that compiles | `SerializeDijstrasResult` (does not compile) |
| arc_helpers.hpp | nearest neighbours, distance matrices, A* (three overloads), generators, bit helpers, clamp and spread, colors (also with infinities, NaN and overflow, C201), truncated normal, map and string helpers, Gaussian functions, multivariate Gaussian, random rotations, time strings, detection of a debugger, console input and messages, number of threads (C212), alignment checks (C213) | texts of messages |
| simple_hausdorff_distance.hpp, simple_dtw.hpp | all | |
| simple_kmeans_clustering.hpp, simple_hierarchical_clustering.hpp | all | log output |
| simple_rrt_planner.hpp | both planners, tree checks, state serialization | planning time; `PlanMultiPath` wrapper that does not compile |
| simple_prm_planner.hpp | all | |
| voxel_grid.hpp | all; also with rounding (C158), with references kept by callers (C165) and with infinite sizes, NaN and overflow (C186) | underflow, the sign of zero |
| dynamic_spatial_hashed_voxel_grid.hpp | all, exact (C39, C65, C164), with references kept by callers (C207), with rounding for translated origins (C163) and with infinities, NaN and overflow (C188) | hash quality, iteration order of the map, underflow, `Initialize` on a grid in use with kept references |
| math_helpers.hpp, path_utils.hpp | all; math_helpers.hpp also with rounding (C159, C160, C179, C180), infinities, NaN and overflow (C189, C190); path_utils.hpp also with rounding (C174, C177), infinities, NaN and overflow (C191-C193) | underflow |
| stl_wrappers.hpp, enumerate.h, maybe.hpp | all | |
| eigen_helpers.hpp | comparisons 33-93; `TransformData` (C211); rotation of vectors, skew matrices, twists, adjoints and exponentials 125-264; distances, interpolation, roll pitch yaw; `AverageEigenVector`, averages of rotations and transforms; path lengths, distance matrices and sets; conversions; `ClampNorm`, `SafeNormal`, projections, rejections, planes, lines, cones, weighted norms and angles (norms, `ClampNorm`, `SafeNormal`, angles, projections, `DistanceToLine`, the choice of eigenvectors, and interpolation and averages of vectors also with infinities, NaN and overflow, C202–C205); `FitPlaneToPoints`, `Pinv`, `WeightedLeastSquaresSolver`, `UnderdeterminedSolver`. Eigen's slerp, conversions between quaternion and matrix, and `eulerAngles` are modelled from Eigen 3.3; its decompositions are parameters | the rest |
| src trajectory_utils.cpp, first_order_deformation.cpp, timing.cpp, zlib_helpers.cpp | all | text layout; the compression algorithm (a contract) |
| simple_astar_planner.hpp, get_neighbours.hpp | all | |
| simple_linked_robot_model.hpp | joints (also with limits and values that are infinite or NaN, C187), the names of their types (C210), the check, construction, setting positions (also with the robot's own position as the argument, C206), poses, configurations, the Jacobian | printing, collision (see simple_robot_models.hpp) |
| simple_se2_robot_model.hpp | all but the serializer, which is the one of eigen_helpers_conversions for vectors (C06) | printing, random positions |
| simple_robot_models.hpp | geometry and allowed self collisions of linked robots | the geometry classes, which only hold data |
| simple_robot_model_interface.hpp | the derived distances | virtual functions without a body |
| simple_se3_robot_model.hpp | all but the serializer, which is the one for isometries (C06) | printing, random positions |
| time_optimal_trajectory_parametrization.cpp | path segments, path, limits and their slopes, switching points, forward and backward integration, timing, queries with the cache, exact arithmetic (C107-C112); ownership of the segments (C146); copies of trajectories (C147) | double rounding; `OutputPhasePlaneTrajectory` |
| thin_plate_spline.hpp | everything (9-159) | colPivHouseholderQr is a parameter with a contract; rounding; aligned allocation |
| log.hpp, filesystem.hpp | `Log`, `CreateDirectory`, the logging macros as statements (C214) | formatting of messages; ROS console output |
| listener.hpp | `Listener` | the subscription itself: callbacks come from any thread at any time |
| ur_10_fk_fast.hpp, iiwa_7_fk_fast.hpp, iiwa_14_fk_fast.hpp, abb_irb1600_145_fk_fast.hpp | all functions | rounding |
| eigen_helpers_conversions.hpp, eigen_ros_conversions.hpp, geometry_msgs_builders.hpp, eigen_transforms.hpp, eigen_std_conversions.hpp | the conversions, makers and applications of transforms | rounding from double to float is a parameter; headers have a frame only |
| vector_math.hpp | all, with exact numbers and with integers | rounding when the elements are `double`; mixed types |
| src algorithms.py | all | sharing of inner dictionaries between keys |
| src/arc_utilities/path_utils.py | all functions; arithmetic is exact | the other fields of the trajectory message |
| src/arc_utilities/trajectory_planning.py | all functions; arithmetic is exact | NaN of arrays divided by zero |
| src/arc_utilities/color.py | all functions but `to_color_msg`; arithmetic is exact | single precision of the colour message |
| src/arc_utilities/transformation_helper.py | all functions | duplicates of the same formula for another message type (NormalizeQuaternionRos, BuildMatrixFromTransRot, ExtractFromDH, PoseFromDH), rounding |
| src/arc_utilities/catches.py | all functions | seconds, printing, generators that catch `TimeoutError` themselves, alarms with a foreign handler |
| src/arc_utilities/conditional_try.py | `conditional_try` | printing |
| src/arc_utilities/filesystem_utils.py | all functions | permissions, other processes, links in the middle of a path, printing, paths of Windows |
| src/arc_utilities/reliable_tf.py | `ReliableTF`, `send_at_rate`, and the sending of `TF2Wrapper` | comparing the received transform with the one sent (the wait ends at any moment or raises), rates and time, use of the object from several threads |
| src/arc_utilities/listener.py | `Listener` with all its steps | copying of messages, time and warnings, exceptions raised by the user's callback (the lock is given back as after its end) |
| src/arc_utilities/ros_helpers.py | `joy_to_xbox`, `wait_for`, `get_connected_publisher`, `_get_subscribers`, `try_to_connect` | throttling of warnings, `logfatal`, resolving names |
| src/arc_utilities/xbox.py | `deadzone`, `Xbox` | `x_clicked`, the text of messages |
| src/arc_utilities/conversions.py | all functions | floating point, digits of other scripts, sharing of message objects |
| src/arc_utilities/normalize_point_msg.py, numpy_conversions.py, marker_utils.py, dict_tools.py, ros_init.py | all functions | floating point, the ROS libraries themselves |
| include/arc_utilities/pretty_print.hpp | PrettyPrint of numbers, booleans, Vector2d/3d/4d, Quaterniond, Isometry3d/Affine3d, pairs, sequences, sets, maps | VectorXd, MatrixXd (the layout is Eigen's), forward_list (does not compile), messages |
| include/arc_utilities/hash.hpp | all | hashes of single values are arguments |
| include/arc_utilities/ros_helpers.hpp | GetParam, GetParamOptional, GetParamRequired, GetVector and their variants | Spin; texts of the messages |
| src/roscpp_initializer.cpp | init_node, shutdown | the work of roscpp itself |
| scripts/remove_small_directories.py, scripts/remove_directories_with_few_files.py | main | the parsing of the command line |
| src/arc_utilities/tf2wrapper.py | get_transform_msg, get_transform, send_transform, send_transform_matrix, send_transform_from_pose_msg | transform_to_frame (the work of tf2) |
| ostream_operators.hpp, moveit_ostream_operators.hpp | all | |
| aligned_eigen_types.hpp | the arithmetic of `Aligned4Vector3` | how Eigen evaluates mixed expressions, `data`, strides |
| graph.hpp (references) | validity of references to nodes and edges under additions, changes and `shrinkToFit` | assignment through the mutable vectors `getNodes()`, `getInEdges()`, `getOutEdges()` |
| simple_kmeans_clustering.hpp (size of the subset) | the conversion to double, the product with the literal 0.1 and `ceil`, with rounding | more than 2^50 points |
| path_utils.hpp (resampling with rounding) | the quotient, `ceil`, the conversion to `uint32_t` and the ratios | rounding inside the distance and interpolation functions, which are arguments; overflow and underflow |
| simple_robot_models.hpp (ownership of points) | `PointSphereGeometry`, the constructors and `Clone` as far as pointers to points go, histories of them | several threads; replacing the pointer of a geometry before a robot is made from it (the same as making the robot from the other pointer) |
| arc_helpers.hpp, simple_hausdorff_distance.hpp, simple_kmeans_clustering.hpp, simple_hierarchical_clustering.hpp, simple_dtw.hpp, dijkstras.hpp, simple_prm_planner.hpp with values that are not a number | the functions of C16–C20, C26, C27, C29–C31, C33, C54, C55, C62, C63 again (C181–C185, C194–C200), with comparisons that are false and sums that are not a number | the sign and payload of NaN |
| arc_exceptions.hpp, moveit_pose_type.hpp | all | locales other than "C"; arguments of the version macro that are expressions with operators |
| everything else | | not modelled |

## 5. Disagreements between the properties and the code

Each is proved as a theorem with a concrete witness or an exact characterisation.

| property | what the code does | theorem |
|---|---|---|
| C02 | a pair that takes zero bytes fails an assertion at the end of a buffer | `C02_empty_pair_fails` |
| C10 | `Decode` indexes its table with a signed character: undefined for codes of 128 and above | `C10_decode_ub_iff` |
| C12 | with a parallel edge, the returned reference is to the old edge | `C12_parallel_returns_old` |
| C15 | connected components: isolated nodes keep label 0, a start node counted twice ends the search early, and one-way edges are followed in their own direction only | `C15_components_wrong`, `C15_one_way_wrong` |
| C20 | `limit_pqueue_duplicates` has no effect | `C20_limit_flag` |
| C21 | generic A*: negative ids lose the start | `C21_negative_ids_lose_start` |
| C22 | a random walk that reaches a node without out edges is undefined | `C22_dead_end` |
| C25 | `CheckTreeLinkage` accepts cycles and missing parents, and later extraction goes wrong | `C25_accepts_cycle`, `C25_accepts_missing_parent`, `C25_corrupted_later` |
| C26 | infinite distances: an index of -1 is returned | `C26_infinite_distance` |
| C28 | the two-set distance matrix is sized and filled wrongly | `C28_two_sets_out_of_bounds`, `C28_two_sets_wrong` |
| C29 | the Hausdorff distance is one-directed only | `C29_not_symmetric` |
| C30 | DTW misses the least predecessor on ties; results for empty sequences depend on earlier calls | `C30_not_minimal`, `C30_empty_history` |
| C31, C32 | k-means may never end; more clusters than distinct points never ends; the weighted version uses the weights of other points | `C31_may_not_terminate`, `C32_too_many_clusters`, `C32_weighted_preliminary_wrong` |
| C33 | an infinite threshold fails an assertion | `C33_infinite_threshold` |
| C37 | points less than one cell below the origin map to cell 0 | `C37_below_origin` |
| C39, C65 | an unwritten cell of a chunk reports FOUND_IN_CELL; `SetChunkValue(x, y, z)` sets a cell | `C39_neighbour_status`, `C65_set_chunk_by_coordinates` |
| C41 | reseeding XorShift1024Star keeps its position | `C41_reseed_1024_wrong` |
| C42 | `GetBit` cannot read bits from 32 on | `C42_high_bits_unreadable` |
| C43 | the two clamps disagree on not-a-number | `C43_nan` |
| C45 | the uniform rejection method draws from unstandardised bounds; a negative deviation selects it | `C45_uniform_rejection_wrong`, `C45_negative_deviation` |
| C47, C71 | the signed angle distance has the wrong sign across pi, and range checks built on it are wrong | `C47_signed_wrong`, `C71_check_wrong` |
| C50 | 2^32 - 1 pieces never end, more are undefined | `C50_errors` |
| C51 | the partial upsampling returns the whole path when there are enough points; a negative start is unchecked | `C51_enough`, `C51_errors` |
| C52 | a stale whole file hides the slices; a failure to close is not noticed | `C52_stale_file_wrong`, `C52_close_failure_unnoticed` |
| C53 | compressed output beyond the limit cannot be decompressed | `C53_round_trip` |
| C54 | asymmetric distances fail an assertion; infinite distances throw | `C54_asymmetric_start_aborts`, `C54_infinite_distance` |
| C58 | joint names that are a prefix are accepted or read past the end; appending a trajectory with points to itself iterates over the vector it adds to | `C58_prefix_wrong`, `C58_self` |
| C59 | the generic ROS wrapper reads four bytes past its buffer | `C59_wrapper_out_of_bounds` |
| C69 | the unique color generator repeats black after twenty colors | `C69_generator_repeats` |
| C70 | `find` and `enumerate` overflow beyond 2^31 elements | `C70_find_long`, `C70_enumerate` |
| C74 | summaries of no names, or of a name without data, are undefined; a name used for both kinds is listed twice | `C57_summary`, `C57_group`, `C57_names`, `C57_write_all` |
| C76 | the comparator of the A* planner is not an order for nearly equal values; then, or with a merely admissible heuristic, the path need not be shortest | `C76_comparator_cycle`, `C76_near_ties_wrong`, `C76_admissible_not_enough` |
| C77 | bounds that are not on the grid are not respected; a point off the grid has nine neighbours | `C77_bounds_wrong`, `C77_off_grid` |
| C79 | a zero vector is accepted as one of the vectors that span a plane | `C79_zero_accepted` |
| C82 | the pyramid of a cone around (1, 1, 1) fails an assertion; a cone of angle zero gives a pyramid that excludes nothing | `C82_diagonal_fails`, `C82_zero_angle` |
| C88 | `ExpTwist` drops the rotation of a twist whose rotation speed is under 1e-100 but not zero when its translation speed is at least 1e-100, however long it runs. | `C88_rotation_lost_wrong` |
| C89 | quaternions closer than about 1e-8 are at distance zero, so two rotations at distance zero from a third one can have a positive distance: not a metric | `C89_quaternion_triangle_fails` |
| C91 | angles with a negative roll are not returned: the extracted roll is always in [0, pi) with another pitch and yaw | `C91_negative_roll` |
| C97 | A joint whose parent or child index is not that of a link is undefined behaviour in the check that is meant to reject bad models. | `C97_index_undefined` |
| C98 | joints in an order where a joint comes before the one that moves its parent link are accepted, but the poses are computed from old ones, at construction from uninitialized ones; `UpdateBaseTransform` does not update the inverse of the base | `C98_unordered_wrong`, `C98_inverse_base_wrong` |
| C99 | A failed `SetPosition` leaves some joints changed, a short configuration and old poses. | `C99_failed_set` |
| C100 | the column of a prismatic joint is the derivative plus the position of the child link of the joint in the world | `C100_prismatic_wrong` |
| C101 | averaging continuous joints takes the plain mean of the angles: 3 and -3 average to 0, far from both | `C101_average_continuous_wrong` |
| C96 | reading a joint back checks neither its limits nor its type: any 28 bytes make a joint | `C96_any_bytes` |
| C102 | averaging planar configurations takes the plain mean of the angles: 3 and -3 average to 0 | `C102_average_angle_wrong` |
| C105 | the weights of rotations count as their squares (the columns are multiplied by the weight before the square), while the paper and the translations use the weights themselves | `C105_weights_squared_wrong` |
| C108 | If the last two waypoints are less than the tolerance apart the last segment has length zero and evaluating the end divides by zero. Exact reversals give an arc of radius zero. Joins may jump by up to 1e-6. | hypotheses of `C108_blended` |
| C111 | The finished trajectory can break the limits of the joints: a last step forward beyond the end of the path, the points of backward integration and the intersections are not checked against the velocity limits, and where the velocity limit falls abruptly (a corner without blend) the velocity is lowered to it in one step, whatever acceleration that takes. An intersection may be accepted up to 1e-6 outside the segments. `IntegrateForward` reads `next_discontinuity` without checking that there is one (line 482): undefined behaviour if the acceleration limit is met after the last discontinuity; the model reports it. A point may be recorded twice. With an acceleration limit of zero the constructor does not end. | `C111_velocity_wrong`, `C111_acceleration_wrong`, `C111_never_ends`, `C111_forward`, `C111_backward`, `C111_ends` |
| C112 | After the end `GetPositionVelocity` extrapolates with the last acceleration: a trajectory at rest moves backwards. A negative time decrements the first iterator. | `C112_after`, `C112_overrun`, `C112_negative` |
| C122 | a message is lost when a logger and its copy are both used, because the original writes at its own position; a bare file name without a folder cannot be logged to | `Log.C122_copy_loses`, `Log.C122_bare` |
| C124 | the tool of the ABB arm has a rotation that is not exactly a rotation matrix: its constants are rounded to 16 digits | `FkFast.C124_abb_tool_not_rotation` |
| C125 | a quaternion that does not have length one becomes an isometry that is no rigid motion; one never filled in becomes the identity; `ConvertTo<std::vector<double>>` reads past the end of every vector that is not empty | `Conversions.C125_not_unit`, `Conversions.C125_default`, `Conversions.C125_std_undefined` |
| C126 | `Multiply` of 64 bit integers loses digits beyond 53; `Divide` of an integer vector by a number may be one too small where the number divides, `Divide({49}, 49)` is `{0}` | `VectorMath.C126_multiply_long_wrong`, `VectorMath.C126_divide_wrong` |
| C127 | `zip_repeat_shorter` of a single list raises a `TypeError`, for `max` is called with one number | `Algorithms.C127_zip_raises` |
| C130 | `reverse_trajectory` keeps the velocities, which should change sign | `PyPath.C130_velocities_wrong` |
| C132 | `convert_lab_to_xyz` forgets the reference white, `convert_lab_to_msh` takes `atan(b / a)` for the hue, black raises, and the last quarter of `interpolate_hot_to_cold` is yellow instead of going to red | `PyColor.C132_red_wrong`, `PyColor.C132_lab_msh`, `PyColor.C132_black`, `PyColor.C132_hot_to_cold_wrong` |
| C133 | `InvertMatrix` calls `np.np`, which does not exist, and always raises; `AngleBetweenQuaternionsRos` multiplies z by w in the last product, so that identity against identity is half a turn; `BuildMatrixFromDH` puts alpha where the length a belongs; `SubtractPoints(p, q)` is q - p | `C133_invert_matrix`, `C133_angle_ros_wrong`, `C133_dh_wrong`, `C133_points` |
| C134 | the value of a call that has returned can be lost; limits do not nest; `skip_on_timeout` does not skip but ends, as a generator through which an exception went is finished; `retry_on_timeout` repeats items | `C134_value_lost`, `C134_nested`, `C134_skip_ends`, `C134_retry_all` |
| C135 | `rm_tree` follows links to directories, deletes the files there and then raises; with a link to a file of the tree it raises or not by the order of the directory; `no_overwrite_path` loses the names of hidden files and gives out links that lead nowhere; `ask_to_remove_directories` removes nothing when given a generator | `C135_rm_tree_link_wrong`, `C135_rm_tree_order`, `C135_candidate_hidden_wrong`, `C135_no_overwrite_link_wrong`, `C135_ask` |
| C136 | a static transform that was stopped or given another value is sent again with every later static message; a single one makes messages without bound | C136_static_wrong, C136_static_old_value, C136_static_grows |
| C137 | a message that comes before the constructor has kept the callback never reaches it; a callback that calls `get` blocks the listener for ever | C137_missed, C137_deadlock |
| C138 | the direction of motion may mix messages and does not use the directional pad its documentation names; waiting for a button raises if ROS is shut down before the first message; a publisher with more connections than subscribers counted is refused | C138_delta_mixed, C138_delta, C138_wait_button_shutdown, C138_publisher_wrong |
| C140 | a list, which the signature of `normalize_quaternion` offers, always raises; a C++ node is left running if the Python node does not start; an exception while shutting down hides that of the function | `C140_normalize`, `C140_ros_not_started`, `C140_ros_shutdown_raises` |
| C141 | without delimiters values with different grouping have the same text | `C141_ambiguous` |
| C142 | the options of `init_node` (anonymous, disable_rosout, disable_signals) are gathered and never passed on, so `disable_signals` has no effect | `C142_options_wrong` |
| C143 | `(y << 1) >> 1` only clears the highest bit, so exchanging the first two coordinates of a Vector3d whose hashes lack it gives the same hash | `C143_vector3_mirrored` |
| C144 | nested or repeated roots make the clean-up scripts raise halfway | `C144_nested_wrong` |
| C146 | `Path` defines a copy constructor and a destructor but no assignment, so assigning a path shares the segments: they are deleted twice, and the old ones leak | C146_assign_wrong |
| C147 | the copy constructor of `Trajectory` copies an iterator into the list of the original; a query of the copy after the original is gone is undefined behaviour | C147_wrong |
| C148 | The milliseconds at the end of the time string are written without leading zeros, so that names made in the same second do not sort in the order of time. | `C148_milliseconds_unsorted` |
| C149 | `CloseEnough` for three coordinates tests for a difference that is too large, so NaN counts as close; the overload for two coordinates is the other way round. | `C149_three_wrong` |
| C150 | The name of the process comes before the line that is looked for: a process named `TracerPid:1` is reported as debugged. | `C150_name_wrong` |
| C151 | The random walk query does not look at the weights of the edges, so it takes edges that `UpdateRoadMapEdges` set to infinity because they are impossible; and a start that cannot be joined to the roadmap is undefined behaviour (a draw from an empty range) instead of an empty path. | `C151_blocked_wrong`, `C151_walk` |
| C153 | a stored result is not checked when it is read | `C153_unchecked` |
| C154 | any character ends a wait for ENTER and only one is used; without a terminal unset flags are read | `C154_any_key_wrong`, `C154_no_terminal` |
| C155 | the text of a list of strings with line ends, and of a collision whose first pair has no contacts, says too little | `C155_strings`, `C155_collision` |
| C156 | `+=`, `-=`, `*=`, `/=` and `normalize` leave the hidden coefficient different from one, so that dot products and norms are wrong or the program ends; `-=` returns a copy | `C156_error`, `C156_add_in_place_wrong`, `C156_normalize_wrong`, `C156_chains` |
| C157 | a default constructed grid gives, for every index, a value that was never set | `C157_empty` |
| C159 | `ContinuousRevoluteDistance(M_PI, nextafter(-M_PI, 0))` is computed as zero although the angles differ | `Verif.RoundedMath.C159_zero_wrong` |
| C163 | With rounded arithmetic `SetCellValue` can report NOT_SET and drop the value: at -2^-60 the chunk number is -1, the offset from the base rounds up to the size of the chunk, and the cell index is one too large. With exact arithmetic this never happens | `C163_lost_write` |
| C164 | A grid made with the default constructor has `initialized_` set to true with chunks of size 0: IsInitialized reports true and the first access divides by 0 and converts the result to an integer | `C164_empty` |
| C165 | `ResetWithNewValue(grid.GetImmutable(i).first)` clears the storage and then copies the destroyed element: undefined. `ResetWithNewDefault` with the same argument is fine | `C165_reset_with_own_cell` |
| C166 | `getReverseEdge` throws for an edge added one way. With two pairs of edges between the same nodes it returns the edge of the first pair for an edge of the second | `C166_reverse_wrong` |
| C167 | Each edge is stored twice. A change through `getEdge` reaches only the out copy; A* search reads that copy, Dijkstra's search reads the other one and never the validity, so they disagree | `C167_searches_disagree` |
| C168 | `Plan(nodes, nodes[i].GetValueImmutable(), ...)` clears `nodes` and then copies the destroyed start: undefined | `C168_start_in_tree` |
| C170 | Truncated and corrupted data is rejected by assertions only: with `NDEBUG` reading it is undefined | `C170_truncated` |
| C171 | `auto& a = g.addEdgeBetweenNodes(0, 1, w); g.addEdgeBetweenNodes(0, 2, w); a.setValidity(...)` is undefined when the vector of edges of node 0 was full; the returned reference carries no warning of this | `C171_edge`, and the example beside it |
| C172 | a grid of size `3 * 0.1` with cells of `0.1` has four cells, and there are sizes that the cells do not fully cover | `C172_one_more`, `C172_one_fewer` |
| C174 | neighbouring states of a resampled path can be further apart than the resampling distance, by a rounding | `C174_too_long` |
| C175 | A clone of a robot does not have its own points: writing to the points got from a clone, which a constant robot allows, changes those of the robot and of all its clones | `C175_shared`, `C175_written` |
| C176 | "Samples are within the bounds" also fails by rounding: mean 0, standard deviation 49, lower bound 1 can yield 1 - 2^-53 | `C176_outside` |
| C178 | the hash of grid indices is meant to spread cells over buckets; a cube of 2^k cells per side has only 2^(k+1) hashes and 2^(2k-1) cells with hash zero, because the shift of y is undone at once (precedence of the operators) | `Hash.C178_few`, `Hash.C178_crowded` |
| C181 | a nearest neighbour query with more items than neighbours never returns an item whose distance is not a number, but with at most as many items it returns all of them, and the parallel query returns fewer entries than the serial one | `NanKnn.C181_serial`, `NanKnn.C181_parallel`, `NanKnn.C181_few` |
| C184 | a warping cost that is a number is expected to be the least over all warping paths; distances that are not a number are ignored off the diagonal, and can hide the cheapest path | `NanDtw.C184_hidden`, `NanDtw.C184_not_least` |
| C186 | sizes are checked for NaN and infinity, so one expects locations to be handled as well; a location with such a coordinate is converted to `int64_t`, which is undefined. Grids with cells so small that 1/c overflows, or so large that a centred grid's size overflows, are accepted and every lookup is undefined | `VoxelSpecial.C186_not_finite`, `VoxelSpecial.C186_tiny_cells`, `VoxelSpecial.C186_huge_size` |
| C187 | `SetValue` rejects infinities and NaN so that a joint's value is a number, but limits are not checked: with both limits plus infinity the value is infinite. `InLimits` says that NaN is within every joint's limits | `JointSpecial.C187_infinite_value`, `JointSpecial.C187_in_limits` |
| C188 | a location or an origin with an infinite or NaN entry makes every access undefined. A grid whose chunk size overflows is accepted, but its regions are NaN: nothing can be stored, `SetChunkValue` throws, `SetCellValue` is undefined | `HashedGridSpecial.C188_not_finite`, `HashedGridSpecial.C188_origin`, `HashedGridSpecial.C188_huge_chunks`, `HashedGridSpecial.C188_huge_at_origin` |
| C189 | one expects an infinity to be close to itself and far from the other; `IsApprox` says the opposite, and `CloseEnough` denies that an infinity is close to itself even with an infinite threshold. `Interpolate` at ratio 0 or 1 returns NaN instead of the end if the other end is infinite. A NaN ratio passes the check without the message | `MathSpecial.C189_approx`, `MathSpecial.C189_close`, `MathSpecial.C189_interpolate_special`, `MathSpecial.C189_ratio` |
| C190 | one expects the average of numbers to be a number between them; the average of M and -M is minus infinity when 2M overflows, and that of M, -M and M is NaN. A NaN with weight zero spoils the average unless all weights before it are zero. The deviation of a single NaN is 0 | `MathSpecial.C190_overflow`, `MathSpecial.C190_finite`, `MathSpecial.C190_deviation` |
| C191 | one expects a resampled path to end where the path ends; with an infinite resolution, or negative ones larger than the distances, only the first state is left. Distances that are infinite or NaN and a resolution of zero are not refused but undefined | `PathSpecial.C191_infinite_resolution`, `PathSpecial.C191_dropped`, `PathSpecial.C191_undefined` |
| C193 | one expects a fraction outside of [0, 1] to be refused; NaN, negative and huge fractions are undefined behaviour | `PathSpecial.C193_undefined`, `PathSpecial.C193_too_large` |
| C194 | one expects two data whose distance is not a number not to be put together by complete link; they are, because NaN counts as zero between clusters | `NanHierarchical.C194_same_cluster`, `NanHierarchical.C194_kept_apart` |
| C195 | one expects A* to end on a finite graph, as Dijkstra's algorithm does (C185); with a distance of NaN on a cycle PerformLazyAstar does not, because no comparison with NaN lets it drop a node | `NanAstar.C195_endless`, `NanAstar.C195_back_and_forth` |
| C196 | one expects a NaN distance to mean "not joined", as with few nodes; with more nodes than K a serial query with fewer than K usable distances throws, and leaves the new state in the roadmap without edges, while the parallel query succeeds | `NanPrm.C196_too_few_numbers`, `NanPrm.C196_many` |
| C199 | one expects a lazy query on a finite roadmap to end; if the edge check accepts edges whose distance is NaN, it need not, while the query on stored weights does | `NanPrm.C199_lazy_endless`, `NanPrm.C199_single` |
| C200 | The generic A* search need not end on two states if a distance is NaN | `C200_endless`, `C200_to_and_fro` |
| C201 | InterpolateHotToCold shows one color for all values if the difference of the bounds overflows or is infinite. InterpolateColor with a NaN ratio returns transparent black without a message, and a channel of an end is lost if the other color's channel is infinite | `C201_infinite_range`, `C201_interpolate`, `C201_ends` |
| C202 | SafeNormal returns the zero vector, not one of length one, and ClampNorm the zero vector, not one of the limit's length, if the square of an entry overflows; ClampNorm does not clamp a vector with a NaN entry | `C202_safe_normal`, `C202_clamp_norm` |
| C203 | A NaN cosine becomes -1, so AngleDefinedByPoints reports a straight angle for points with infinite or NaN coordinates, and a vector with an infinite or very large entry is reported as opposite to itself | C203_points, C203_infinite, C203_opposite_to_itself |
| C204 | VectorProjection onto a base with a NaN entry silently returns the zero vector, and a long vector projected onto itself gives NaN | C204_nan_base, C204_onto_itself |
| C205 | Interpolate at ratio 0 gives NaN where the second vector is infinite, and vectors with weight zero still spoil an average with their infinite or NaN entries | C205_ends, C205_finite |
| C206 | `robot.SetPosition(robot.GetPosition())` throws for every robot with a joint that moves, because `SetConfig` clears the position it reads from; afterwards `GetPosition` is empty. The robot works again after `SetPosition` with a configuration of the caller. | `C206_own`, `C206_recovers` |
| C207 | A reference from `GetMutable` at a location without a value stays a reference to the default of the whole grid after the location has been set: writing through it then changes other locations and not this one | `C207_default` |
| C208 | Message and file cannot always be told apart in the text of an exception, because both may contain a colon and a space | `C208_ambiguous` |
| C212 | The threads in `GetNumOMPThreads` all assign to the same variable without synchronization: a data race with two threads or more | `C212_race` |
| C213 | `CheckAlignment` with an alignment of zero divides by zero | `C213_check` |
| C214 | `if (a) ARC_LOG_COND(log, c, m); else f();` calls `f` when `a` holds and `c` does not, and not when `a` fails, because the macro is an `if` without braces | `C214_before_else` |
| C215 | `append_str_to_path` of the current directory gives the appended text alone, which may be an absolute path elsewhere | `C215_no_name` |

## 6. Axioms per theorem

Generated with `#print axioms` for every theorem named in MANIFEST.json. No other axiom occurs.

### no axioms (3 theorems)

`RobotGeometry.C103_single`, `Conversions.C125_makers`, `RosNode.C142_shutdown`

### `propext` (52 theorems)

`Listener.C123_shutdown`, `Conversions.C125_coordinates`, `Algorithms.C127_nested_update_raises`, `Catches.C134_skip_ends`, `Catches.C134_skip_quiet`, `Catches.C134_conditional`, `Filesystem.C135_rm_tree_link_wrong`, `Filesystem.C135_rm_tree_order`, `Filesystem.C135_rm_tree_no_dir`, `Filesystem.C135_rm_tree_removes`, `Filesystem.C135_count_files_no_dir`, `Filesystem.C135_link_differs`, `Filesystem.C135_mkdir_made`, `Filesystem.C135_ask`, `Filesystem.C135_no_overwrite_link_wrong`, `ReliableTf.C136_static_wrong`, `ReliableTf.C136_static_old_value`, `ReliableTf.C136_static_grows`, `PyListener.C137_missed`, `Joystick.C138_subscribers`, `PyConversions.C140_ros_not_started`, `PyConversions.C140_ros_started`, `PyConversions.C140_ros_shutdown_raises`, `RosNode.C142_argument_cut`, `CleanUp.C144_nested_wrong`, `GeometrySharing.C175_shared`, `GeometrySharing.C175_written`, `GeometrySharing.C175_starts`, `GeometrySharing.C175_position`, `GeometrySharing.C175_set`, `Hash.C178_equal`, `Astar.C18_arguments`, `NanHierarchical.C194_dimensions`, `NanAstar.C200_same_ids`, `Astar.C21_same_ids`, `ConditionalLog.C214_alone`, `ConditionalLog.C214_before_else`, `ConditionalLog.C214_any_else`, `ConditionalLog.C214_braces`, `ConditionalLog.C214_braces_matter`, `ConditionalLog.C214_in_else`, `AppendToPath.C215_no_name`, `Prm.C216_copies`, `DistanceMatrix.C28_two_sets_wrong`, `DistanceMatrix.C28_two_sets_schedule`, `Hierarchical.C33_dimensions`, `Clamp.C43_clamp`, `Clamp.C43_bad_bounds`, `ZlibFiles.C52_load_errors`, `Prm.C63_built`, `Clamp.C67_spread`, `Containers.C68_two_vectors`

### `Quot.sound`, `propext` (181 theorems)

`Serialization.C01_pod_roundtrip`, `Serialization.C02_pair_roundtrip`, `Serialization.C02_empty_pair_fails`, `Serialization.C04_pod_exact`, `Serialization.C05_big_endian`, `Serialization.C05_vector_layout`, `SerializationEigen.C06_layout`, `SerializationEigen.C06_fixed_vector_roundtrip`, `SerializationEigen.C06_isometry3_roundtrip`, `SerializationEigen.C06_arbitrary_buffers`, `SerializationRos.C07_sizes`, `Graph.C12_rejects`, `Listener.C123_results`, `Listener.C123_changes`, `Listener.C123_no_race`, `Listener.C123_progress`, `Listener.C123_wait_returns`, `Conversions.C125_each`, `Conversions.C125_std_undefined`, `VectorMath.C126_exact`, `VectorMath.C126_pairs`, `Algorithms.C127_nested_update`, `Algorithms.C127_unique`, `Algorithms.C127_repeat`, `Algorithms.C127_zip`, `Algorithms.C127_zip_raises`, `Algorithms.C127_reversed_chunks`, `Catches.C134_no_alarm_left`, `Catches.C134_result`, `Catches.C134_reports`, `Catches.C134_zero`, `Catches.C134_value_lost`, `Catches.C134_handler`, `Catches.C134_nested`, `Catches.C134_retry`, `Catches.C134_retry_all`, `Catches.C134_skip`, `Catches.C134_moment`, `Filesystem.C135_rm_tree_success`, `Filesystem.C135_subdirs`, `Filesystem.C135_mkdir_new`, `Filesystem.C135_mkdir_parents`, `Filesystem.C135_candidate`, `Filesystem.C135_no_overwrite`, `ReliableTf.C136_statics_kept`, `PyListener.C137_get`, `PyListener.C137_handed`, `PyListener.C137_failed`, `PyListener.C137_no_callback`, `PyListener.C137_progress`, `PyListener.C137_deadlock`, `Joystick.C138_wait`, `Joystick.C138_wait_on`, `FileSize.C139_round`, `FileSize.C139_size`, `FileSize.C139_no_size`, `RosNode.C142_params`, `RosNode.C142_logged`, `RosNode.C142_start`, `RosNode.C142_gathered`, `RosNode.C142_options_wrong`, `Hash.C143_combine`, `Hash.C143_pair_second`, `Hash.C143_vector_last`, `Hash.C143_vector_pair`, `Hash.C143_pair_first_collides`, `Hash.C143_vector3`, `Hash.C143_vector3_mirrored`, `CleanUp.C144_nothing`, `CleanUp.C144_bad_root`, `TfLookup.C145_waits`, `Closeness.C149_vectors`, `Console.C154_get_char`, `Console.C154_get_chars`, `Console.C154_no_terminal`, `Console.C154_line`, `Console.C154_text`, `Describe.C155_edge`, `Voxel.C157_empty`, `Voxel.C157_geometry`, `Dijkstra.C16_edges_are_out_edges`, `HashedGrid.C164_empty`, `Graph.C166_reverse_wrong`, `Graph.C167_searches_disagree`, `Rrt.C168_start_in_tree`, `Rrt.C168_children`, `Rrt.C168_no_duplicates`, `Dijkstra.C17_bad_start`, `Graph.References.C171_add_node`, `Hash.C178_value`, `Hash.C178_few`, `Hash.C178_zero`, `Hash.C178_rows`, `NanHausdorff.C182_directed`, `NanHausdorff.C182_finite`, `NanKmeans.C183_infinite`, `NanKmeans.C183_closest`, `NanKmeans.C183_abort`, `NanDtw.C184_hidden`, `NanDtw.C184_not_least`, `NanDijkstra.C185_bad_start`, `NanHierarchical.C194_single_link`, `NanHierarchical.C194_numbers`, `NanHierarchical.C194_threshold`, `NanHierarchical.C194_same_cluster`, `NanAstar.C195_arguments`, `NanPrm.C196_no_neighbours`, `NanAstar.C198_heuristic`, `NanAstar.C200_numbers`, `NanAstar.C200_heuristic`, `HashedGridReferences.C207_own`, `HashedGridReferences.C207_separate`, `Threads.C212_race`, `AppendToPath.C215_root`, `AppendToPath.C215_same`, `AppendToPath.C215_text`, `AppendToPath.C215_sibling`, `AppendToPath.C215_nothing`, `AppendToPath.C215_distinct`, `AppendToPath.C215_slash`, `Rrt.C23_rejects`, `Rrt.C25_accepts_cycle`, `Rrt.C25_accepts_missing_parent`, `Rrt.C25_corrupted_later`, `Knn.C26_infinite_distance`, `Hausdorff.C29_directed`, `Hausdorff.C29_schedule`, `Hausdorff.C29_attained`, `Hausdorff.C29_not_symmetric`, `Dtw.C30_not_minimal`, `Dtw.C30_empty_history`, `Kmeans.C31_fixed_point`, `Kmeans.C31_lloyd`, `Kmeans.C31_weighted`, `Kmeans.C31_weights_missing`, `Kmeans.C31_infinite`, `Kmeans.C31_may_not_terminate`, `Kmeans.C32_initial_centers`, `Kmeans.C32_one_cluster`, `Kmeans.C32_preliminary`, `Kmeans.C32_no_preliminary`, `Kmeans.C32_weighted_preliminary_wrong`, `Hierarchical.C34_single_link_components`, `Voxel.C37_every_location`, `Prng.C40_discard`, `Prng.C40_splitmix_period`, `Prng.C40_reproducible`, `Prng.C40_splitmix_sequence`, `Prng.C40_xorshift128_sequence`, `Prng.C41_reseed_partial`, `Bits.C42_get_bit`, `Clamp.C43_warn`, `Clamp.C43_nan`, `Colors.C44_setters`, `PathUtils.C49_unchanged`, `PathUtils.C51_enough`, `PathUtils.C51_errors`, `ZlibFiles.C52_small`, `ZlibFiles.C52_close_failure_unnoticed`, `ZlibStream.C53_compress`, `ZlibStream.C53_decompress`, `ZlibStream.C53_round_trip`, `Prm.C54_asymmetric_start_aborts`, `Profiler.C57_get_data`, `Profiler.C57_record`, `Trajectory.C58_refuse_partial`, `SerializationRos.C59_wrapper_out_of_bounds`, `SerializationRos.C59_wrapper_roundtrip_partial`, `Colors.C66_multiply`, `Clamp.C67_spread_warn`, `Containers.C68_make_then_retrieve`, `Containers.C68_roundtrip`, `Containers.C68_unordered`, `Containers.C70_find_long`, `Containers.C70_enumerate`, `Containers.C70_maybe`, `Averages.C73_squared`, `Profiler.C57_summary`, `GetNeighbours.C77_within`, `GetNeighbours.C77_within_3d`, `PointSets.C94_concatenate`

### `Classical.choice`, `Quot.sound`, `propext` (884 theorems)

`Serialization.C01_int_layout`, `Serialization.C02_vector_roundtrip`, `Serialization.C02_map_roundtrip`, `Serialization.C02_nested_roundtrip`, `Serialization.C02_vector_layout`, `Serialization.C02_map_layout`, `Serialization.C02_map_duplicates`, `Serialization.C03_sequence`, `Serialization.C04_arbitrary_buffers`, `Serialization.C04_vector_count`, `Serialization.C04_vector_absurd_count`, `Serialization.C05_portable`, `Serialization.C05_arbitrary_buffers`, `SerializationEigen.C06_vectorX_roundtrip`, `SerializationEigen.C06_matrixX_roundtrip`, `SerializationEigen.C06_matrix3X_roundtrip`, `SerializationRos.C07_messages_roundtrip`, `SerializationRos.C07_arbitrary_buffers`, `Base64.C08_roundtrip`, `Base64.C09_rfc4648`, `Base64.C09_shape`, `Base64.C09_injective`, `Base64.C10_decode_ascii`, `Base64.C10_decode_ub_iff`, `Base64.C10_decode_length`, `LinkedRobot.C100_jacobian_partial`, `LinkedRobot.C100_prismatic_wrong`, `LinkedRobot.C100_family`, `LinkedRobot.C100_errors`, `LinkedRobot.C101_signed`, `LinkedRobot.C101_metric`, `LinkedRobot.C101_raw`, `LinkedRobot.C101_interpolate`, `LinkedRobot.C101_interpolate_ends`, `LinkedRobot.C101_average_partial`, `LinkedRobot.C101_average_continuous_wrong`, `Se2Robot.C102_position`, `Se2Robot.C102_distance`, `Se2Robot.C102_dimensions`, `Se2Robot.C102_interpolate`, `Se2Robot.C102_average_partial`, `Se2Robot.C102_average_angle_wrong`, `Se2Robot.C102_jacobian`, `RobotGeometry.C103_construct`, `RobotGeometry.C103_allowed`, `Se3Robot.C104_position`, `Se3Robot.C104_distance_partial`, `Se3Robot.C104_dimensions`, `Se3Robot.C104_interpolate`, `Se3Robot.C104_average`, `Se3Robot.C104_jacobian`, `PoseAverage.C105_quaternions`, `PoseAverage.C105_single`, `PoseAverage.C105_weights_squared_wrong`, `PoseAverage.C105_transforms`, `PoseAverage.C105_single_transform`, `TruncatedNormal.C106_rate`, `TruncatedNormal.C106_one_sided`, `TruncatedNormal.C106_one_sided_below`, `TruncatedNormal.C106_uniform`, `TruncatedNormal.C106_choice`, `Totg.C107_blend`, `Totg.C107_no_blend`, `Totg.C107_line`, `Totg.C108_blended`, `Totg.C108_polyline`, `Totg.C108_short`, `Totg.C109_acceleration`, `Totg.C109_velocity`, `Totg.C109_feasible`, `Totg.C109_safe`, `Totg.C109_slope`, `Graph.C11_history_linked`, `Graph.C11_edit_keeps_linked`, `Totg.C110_sorted`, `Totg.C110_boundaries`, `Totg.C110_smooth`, `Totg.C110_zeros`, `Totg.C110_unflagged`, `Totg.C110_next`, `Totg.Problem.C111_forward`, `Totg.Problem.C111_step`, `Totg.Problem.C111_backward`, `Totg.Problem.C111_switch`, `Totg.Problem.C111_ends`, `Totg.C111_trajectory`, `Totg.C111_short`, `Totg.C111_velocity_wrong`, `Totg.C111_acceleration_wrong`, `Totg.C111_never_ends`, `Totg.C112_history`, `Totg.C112_times`, `Totg.C112_between`, `Totg.C112_motion`, `Totg.C112_negative`, `Totg.C112_after`, `Totg.C112_overrun`, `ThinPlateSpline.C113_warps`, `ThinPlateSpline.C113_consistent`, `ThinPlateSpline.C113_unique`, `ThinPlateSpline.C113_affine`, `ThinPlateSpline.C113_construct`, `ThinPlateSpline.C113_history`, `LeastSquares.C114_truncated`, `LeastSquares.C114_exact`, `LeastSquares.C114_unique`, `LeastSquares.C114_solves`, `LeastSquares.C114_absolute`, `LeastSquares.C115_weighted`, `LeastSquares.C115_underdetermined`, `LeastSquares.C116_fit`, `Totg.Problem.C117_acceleration`, `Totg.Problem.C117_velocity`, `Totg.Problem.C117_switch`, `Totg.Problem.C117_stops`, `Totg.Problem.C117_crosses`, `Totg.Problem.C117_discontinuity`, `Multivariate.C118_construct`, `Multivariate.C118_transform`, `Multivariate.C118_sample`, `Multivariate.C118_law`, `GaussianFunctions.C119_pdf`, `GaussianFunctions.C119_cdf`, `GaussianFunctions.C119_integrate`, `GaussianFunctions.C119_truncated_cdf`, `GaussianFunctions.C119_truncated_integrate`, `GaussianFunctions.C119_truncated_pdf`, `Graph.C12_effect`, `Graph.C12_returns_new`, `Graph.C12_parallel_returns_old`, `Graph.C12_both_directions`, `RandomRotation.C120_unit`, `RandomRotation.C120_raw`, `RandomRotation.C120_law`, `RandomRotation.C120_rotation`, `RandomRotation.C120_unique`, `RandomRotation.C121_range`, `RandomRotation.C121_raw`, `RandomRotation.C121_law`, `Log.C122_open`, `Log.C122_bare`, `Log.C122_history_partial`, `Log.C122_one`, `Log.C122_copy_loses`, `LogThreads.C122_threads`, `LogThreads.C122_threads_done`, `LogThreads.C122_threads_progress`, `FkFast.C124_links`, `FkFast.C124_abb_partial`, `FkFast.C124_abb_tool_not_rotation`, `FkFast.C124_rigid`, `FkFast.C124_distance`, `FkFast.C124_prefix`, `FkFast.C124_joint_names`, `FkFast.C124_link_names`, `Conversions.C125_floats`, `Conversions.C125_matrices`, `Conversions.C125_pose_acts`, `Conversions.C125_rotation_part`, `Conversions.C125_rotation_part_proper`, `Conversions.C125_isometry_roundtrip`, `Conversions.C125_pose_roundtrip`, `Conversions.C125_matrix`, `Conversions.C125_default`, `Conversions.C125_not_unit`, `Conversions.C125_apply`, `VectorMath.C126_words`, `VectorMath.C126_sum`, `VectorMath.C126_multiply`, `VectorMath.C126_multiply_long`, `VectorMath.C126_multiply_long_wrong`, `VectorMath.C126_divide_partial`, `VectorMath.C126_divide_power`, `VectorMath.C126_divide_zero`, `VectorMath.C126_divide_wrong`, `Algorithms.C127_chunks`, `PyPath.C128_segment`, `PyPath.C128_tolerance`, `PyPath.C128_closest_point`, `PyPath.C128_closest_point_exact`, `PyPath.C128_closest_point_empty`, `PyPath.C129_path_length`, `PyPath.C129_densify_line`, `PyPath.C129_densify`, `PyPath.C129_densify_zero`, `PyPath.C129_travel_along`, `PyPath.C129_travel_along_empty`, `Graph.C13_check_exact`, `Graph.C13_constructor`, `PyPath.C130_reverse`, `PyPath.C130_reverse_empty`, `PyPath.C130_reverse_twice`, `PyPath.C130_velocities_wrong`, `TrajectoryPlanning.C131_motion`, `TrajectoryPlanning.C131_linear`, `TrajectoryPlanning.C131_quadratic`, `TrajectoryPlanning.C131_cubic`, `TrajectoryPlanning.C131_cubic_unique`, `TrajectoryPlanning.C131_zero`, `PyColor.C132_rgb_xyz`, `PyColor.C132_cielab`, `PyColor.C132_xyz_lab`, `PyColor.C132_lab_msh`, `PyColor.C132_black`, `PyColor.C132_red_wrong`, `PyColor.C132_rad_diff`, `PyColor.C132_coolwarm_raises`, `PyColor.C132_coolwarm_ends`, `PyColor.C132_coolwarm_middle`, `PyColor.C132_jet`, `PyColor.C132_hot_to_cold`, `PyColor.C132_hot_to_cold_wrong`, `PyColor.C132_make_color`, `PyColor.C132_adjust_hue`, `TransformationHelper.C133_point`, `TransformationHelper.C133_compose`, `TransformationHelper.C133_invert`, `TransformationHelper.C133_matrix`, `TransformationHelper.C133_raw`, `TransformationHelper.C133_components`, `TransformationHelper.C133_invert_matrix`, `TransformationHelper.C133_points`, `TransformationHelper.C133_normalize`, `TransformationHelper.C133_quaternions`, `TransformationHelper.C133_axis_angle`, `TransformationHelper.C133_axis_zero`, `TransformationHelper.C133_axis`, `TransformationHelper.C133_angle`, `TransformationHelper.C133_angle_ros_wrong`, `TransformationHelper.C133_angle_ros`, `TransformationHelper.C133_translation_norm`, `TransformationHelper.C133_dh`, `TransformationHelper.C133_dh_wrong`, `TransformationHelper.C133_spherical`, `TransformationHelper.C133_spherical_back`, `TransformationHelper.C133_dh_transform`, `TransformationHelper.C133_compose_matrices`, `Filesystem.C135_rm_tree`, `Filesystem.C135_count_files`, `Filesystem.C135_directory_size`, `Filesystem.C135_mkdir_exists`, `Filesystem.C135_stem`, `Filesystem.C135_candidate_hidden_wrong`, `Filesystem.C135_no_overwrite_ends`, `ReliableTf.C136_one_sender`, `ReliableTf.C136_wanted`, `ReliableTf.C136_kept`, `ReliableTf.C136_sent`, `ReliableTf.C136_close`, `ReliableTf.C136_goes_on`, `ReliableTf.C136_join`, `ReliableTf.C136_dead_stays`, `PyListener.C137_get_moment`, `Joystick.C138_counts`, `Joystick.C138_names`, `Joystick.C138_no_name`, `Joystick.C138_deadzone`, `Joystick.C138_axis`, `Joystick.C138_delta`, `Joystick.C138_delta_mixed`, `Joystick.C138_wait_button`, `Joystick.C138_wait_axis`, `Joystick.C138_wait_button_shutdown`, `Joystick.C138_publisher`, `Joystick.C138_publisher_wrong`, `Joystick.C138_connect`, `Joystick.C138_connect_fails`, `FileSize.C139_whole`, `Graph.C14_roundtrip`, `Graph.C14_arbitrary_buffers`, `PyConversions.C140_normalize`, `PyConversions.C140_six`, `PyConversions.C140_pose`, `PyConversions.C140_position`, `PyConversions.C140_positions`, `PyConversions.C140_unit_point`, `PyConversions.C140_columns`, `PyConversions.C140_markers`, `PyConversions.C140_round`, `PyConversions.C140_dict_round`, `PrettyPrint.C141_unambiguous`, `PrettyPrint.C141_container`, `PrettyPrint.C141_fixed`, `PrettyPrint.C141_ambiguous`, `CleanUp.C144_small`, `CleanUp.C144_few`, `TfLookup.C145_matrix`, `TfLookup.C145_send`, `TfLookup.C145_static`, `PathOwnership.C146_owned`, `PathOwnership.C146_assign_wrong`, `TrajectoryCopies.C147_query`, `TrajectoryCopies.C147_alive`, `TrajectoryCopies.C147_wrong`, `Timestamps.C148_distinct`, `Timestamps.C148_sorted`, `Timestamps.C148_milliseconds_distinct`, `Timestamps.C148_same_second`, `Timestamps.C148_milliseconds_unsorted`, `Timestamps.C148_milliseconds_partly_sorted`, `Closeness.C149_number`, `Closeness.C149_all`, `Closeness.C149_finite`, `Closeness.C149_two_nan`, `Closeness.C149_three`, `Closeness.C149_three_wrong`, `Closeness.C149_equal`, `Graph.C15_components_wrong`, `Graph.C15_labels_sound_partial`, `Graph.C15_labels_exact_partial`, `Graph.C15_connected_partial`, `Graph.C15_search_exact`, `Graph.C15_count_right_iff`, `Graph.C15_labels_right_iff`, `Graph.C15_any_graph`, `Graph.C15_one_way_wrong`, `Debugger.C150_traced`, `Debugger.C150_absent`, `Debugger.C150_name_wrong`, `Debugger.C150_cut`, `Prm.C151_walk`, `Prm.C151_built`, `Prm.C151_blocked_wrong`, `Rrt.C152_target`, `Rrt.C152_extremes`, `Rrt.C152_plan`, `Rrt.C152_returns`, `Rrt.C152_no_time`, `Rrt.C152_single`, `Dijkstra.C153_reads_back`, `Dijkstra.C153_arbitrary_buffers`, `Dijkstra.C153_unchecked`, `Console.C154_flags`, `Console.C154_debugged`, `Console.C154_any_key_wrong`, `Console.C154_wait_end`, `Console.C154_levels`, `Describe.C155_node`, `Describe.C155_graph`, `Describe.C155_not_shown`, `Describe.C155_index`, `Describe.C155_numbers`, `Describe.C155_strings`, `Describe.C155_collision`, `Aligned.C156_measures`, `Aligned.C156_expressions`, `Aligned.C156_in_place_point`, `Aligned.C156_hidden`, `Aligned.C156_error`, `Aligned.C156_add_in_place_wrong`, `Aligned.C156_normalize_wrong`, `Aligned.C156_chains`, `Aligned.C156_approx`, `Aligned.C156_assign`, `Voxel.C157_locations`, `Voxel.C157_raw`, `VoxelRounded.C158_center`, `VoxelRounded.C158_center_centred`, `VoxelRounded.C158_inside`, `RoundedMath.C159_wrap`, `RoundedMath.C159_add`, `RoundedMath.C159_signed`, `RoundedMath.C159_distance`, `RoundedMath.C159_range`, `RoundedMath.C159_interpolate`, `RoundedMath.C159_zero_wrong`, `Dijkstra.C16_shortest_distances`, `Dijkstra.C16_infinity_iff_unreachable`, `RoundedMath.C160_interpolate`, `RoundedMath.C160_squared`, `RoundedMath.C160_distance`, `RoundedMath.C160_total`, `RoundedMath.C160_average`, `Dijkstra.C161_distances`, `Astar.C162_bounded`, `Astar.C162_bounded_generic`, `Astar.C162_doubles`, `Astar.C162_doubles_generic`, `HashedGridRounded.C163_history`, `HashedGridRounded.C163_last_write`, `HashedGridRounded.C163_set_cell_reads_back`, `HashedGridRounded.C163_set_chunk_reads_back`, `HashedGridRounded.C163_never_fails`, `HashedGridRounded.C163_no_overlap`, `HashedGridRounded.C163_lost_write`, `HashedGrid.C164_elements`, `HashedGrid.C164_sizes`, `HashedGrid.C164_found`, `Voxel.C165_history`, `Voxel.C165_follows`, `Voxel.C165_reset_with_own_cell`, `Graph.C166_history`, `Graph.C166_index_in_range`, `Graph.C166_get_edge`, `Graph.C166_get_edge_history`, `Graph.C166_reverse`, `Graph.C167_change`, `Graph.C167_seen`, `Graph.C167_linkage`, `Graph.C167_dijkstra_reads`, `Graph.C167_astar_reads`, `Graph.C167_dijkstra_blind`, `Rrt.C168_own_start`, `Serialization.C169_self`, `Serialization.C169_network_self`, `Dijkstra.C17_predecessors`, `Serialization.Unchecked.C170_without_assertions`, `Serialization.Unchecked.C170_round_trip`, `Serialization.Unchecked.C170_truncated`, `Graph.References.C171_edge`, `Graph.References.C171_node`, `Graph.References.C171_reserved`, `Graph.References.C171_add`, `Graph.References.C171_add_both`, `Graph.References.C171_add_both_refused`, `Graph.References.C171_get`, `Graph.References.C171_shrink`, `VoxelRounded.C172_cells`, `VoxelRounded.C172_multiple`, `VoxelRounded.C172_grids`, `VoxelRounded.C172_storage`, `VoxelRounded.C172_one_more`, `VoxelRounded.C172_one_fewer`, `Kmeans.C173_size`, `Kmeans.C173_any`, `Kmeans.C173_cluster`, `ResampleRounded.C174_resample`, `ResampleRounded.C174_whole`, `ResampleRounded.C174_refused`, `ResampleRounded.C174_keeps`, `ResampleRounded.C174_spacing`, `ResampleRounded.C174_too_long`, `GeometrySharing.C175_alive`, `GeometrySharing.C175_freed`, `TruncatedNormalRounded.C176_bounds`, `TruncatedNormalRounded.C176_standard`, `TruncatedNormalRounded.C176_method`, `TruncatedNormalRounded.C176_naive`, `TruncatedNormalRounded.C176_one_sided`, `TruncatedNormalRounded.C176_one_sided_below`, `TruncatedNormalRounded.C176_two_sided`, `TruncatedNormalRounded.C176_choice`, `TruncatedNormalRounded.C176_choice_below`, `TruncatedNormalRounded.C176_below_method`, `TruncatedNormalRounded.C176_uniform`, `TruncatedNormalRounded.C176_roots`, `TruncatedNormalRounded.C176_outside`, `UpsampleRounded.C177_upsample`, `UpsampleRounded.C177_keeps`, `UpsampleRounded.C177_spacing`, `UpsampleRounded.C177_otherwise`, `Hash.C178_crowded`, `RoundedMath.C179_range`, `RoundedMath.C179_bounds`, `RoundedMath.C179_turns`, `RoundedMath.C179_near`, `Astar.C18_path`, `RoundedMath.C180_given`, `RoundedMath.C180_deviation`, `NanKnn.C181_serial`, `NanKnn.C181_parallel`, `NanKnn.C181_few`, `NanDtw.C184_history`, `NanDtw.C184_numbers`, `NanDtw.C184_not_a_number`, `NanDtw.C184_path`, `NanDijkstra.C185_shortest_distances`, `NanDijkstra.C185_predecessors`, `VoxelSpecial.C186_cells`, `VoxelSpecial.C186_sizes`, `VoxelSpecial.C186_not_finite`, `VoxelSpecial.C186_fourth`, `VoxelSpecial.C186_tiny_cells`, `VoxelSpecial.C186_huge_size`, `VoxelSpecial.C186_lookups`, `VoxelSpecial.C186_agrees`, `VoxelSpecial.C186_created`, `JointSpecial.C187_in_limits`, `JointSpecial.C187_set`, `JointSpecial.C187_make`, `JointSpecial.C187_history`, `JointSpecial.C187_infinite_value`, `HashedGridSpecial.C188_create`, `HashedGridSpecial.C188_not_finite`, `HashedGridSpecial.C188_origin`, `HashedGridSpecial.C188_empty`, `HashedGridSpecial.C188_huge_chunks`, `HashedGridSpecial.C188_huge_at_origin`, `HashedGridSpecial.C188_agrees`, `HashedGridSpecial.C188_created`, `MathSpecial.C189_close`, `MathSpecial.C189_close_vectors`, `MathSpecial.C189_approx`, `MathSpecial.C189_sign`, `MathSpecial.C189_ratio`, `MathSpecial.C189_interpolate_special`, `MathSpecial.C189_interpolate_numbers`, `MathSpecial.C189_wrap`, `MathSpecial.C189_angles_special`, `MathSpecial.C189_angles`, `MathSpecial.C189_bounds`, `Astar.C19_complete`, `Astar.C19_optimal`, `Astar.C19_weights`, `Astar.C19_values`, `MathSpecial.C190_squared`, `MathSpecial.C190_distance`, `MathSpecial.C190_refused`, `MathSpecial.C190_finite`, `MathSpecial.C190_overflow`, `MathSpecial.C190_agrees`, `MathSpecial.C190_deviation_given`, `MathSpecial.C190_deviation`, `MathSpecial.C190_deviation_agrees`, `PathSpecial.C191_undefined`, `PathSpecial.C191_not_finite`, `PathSpecial.C191_dropped`, `PathSpecial.C191_infinite_resolution`, `PathSpecial.C191_agrees`, `PathSpecial.C191_ranges`, `PathSpecial.C192_upsample`, `PathSpecial.C192_infinite`, `PathSpecial.C192_agrees`, `PathSpecial.C192_otherwise`, `PathSpecial.C193_undefined`, `PathSpecial.C193_shortcut`, `PathSpecial.C193_unchanged`, `PathSpecial.C193_too_large`, `NanHierarchical.C194_partition`, `NanHierarchical.C194_complete_link`, `NanHierarchical.C194_kept_apart`, `NanHierarchical.C194_infinite_threshold`, `NanAstar.C195_numbers`, `NanAstar.C195_stored_weights`, `NanAstar.C195_path`, `NanAstar.C195_endless`, `NanAstar.C195_back_and_forth`, `NanPrm.C196_few`, `NanPrm.C196_many`, `NanPrm.C196_too_few_numbers`, `NanPrm.C196_extend`, `NanPrm.C196_update`, `NanPrm.C196_update_refuses`, `NanPrm.C197_multi_start`, `NanPrm.C197_multi_goal`, `NanAstar.C198_weights`, `NanAstar.C198_values`, `NanPrm.C199_single`, `NanPrm.C199_lazy`, `NanPrm.C199_lazy_endless`, `Astar.C20_limit_flag`, `Astar.C20_limit_flag_generic`, `NanAstar.C200_complete`, `NanAstar.C200_path`, `NanAstar.C200_endless`, `NanAstar.C200_to_and_fro`, `ColorSpecial.C201_trim`, `ColorSpecial.C201_make`, `ColorSpecial.C201_to_hex`, `ColorSpecial.C201_multiply`, `ColorSpecial.C201_product`, `ColorSpecial.C201_interpolate`, `ColorSpecial.C201_ends`, `ColorSpecial.C201_bounds`, `ColorSpecial.C201_outside`, `ColorSpecial.C201_infinite_range`, `ColorSpecial.C201_ramp`, `VectorSpecial.C202_eigen_norm`, `VectorSpecial.C202_norm`, `VectorSpecial.C202_accuracy`, `VectorSpecial.C202_safe_normal`, `VectorSpecial.C202_clamp_norm`, `VectorSpecial.C202_clamp_shrinks`, `AngleSpecial.C203_limit`, `AngleSpecial.C203_not_a_number`, `AngleSpecial.C203_weighted_norm`, `AngleSpecial.C203_infinite`, `AngleSpecial.C203_overflow`, `AngleSpecial.C203_opposite_to_itself`, `AngleSpecial.C203_numbers`, `AngleSpecial.C203_angle`, `AngleSpecial.C203_points`, `AngleSpecial.C203_far_points`, `AngleSpecial.C203_normalized`, `ProjectionSpecial.C204_nan_base`, `ProjectionSpecial.C204_infinite_base`, `ProjectionSpecial.C204_long_base`, `ProjectionSpecial.C204_onto_itself`, `ProjectionSpecial.C204_vector`, `ProjectionSpecial.C204_numbers`, `ProjectionSpecial.C204_line`, `ProjectionSpecial.C204_line_result`, `ProjectionSpecial.C204_largest`, `ProjectionSpecial.C204_smallest`, `VectorAverageSpecial.C205_interpolate`, `VectorAverageSpecial.C205_ends`, `VectorAverageSpecial.C205_coordinate`, `VectorAverageSpecial.C205_refused`, `VectorAverageSpecial.C205_finite`, `VectorAverageSpecial.C205_independent`, `LinkedRobotAlias.C206_separate`, `LinkedRobotAlias.C206_position`, `LinkedRobotAlias.C206_own`, `LinkedRobotAlias.C206_recovers`, `LinkedRobotAlias.C206_copy`, `HashedGridReferences.C207_history`, `HashedGridReferences.C207_follows`, `HashedGridReferences.C207_expires`, `HashedGridReferences.C207_default`, `ArcExceptions.C208_text`, `ArcExceptions.C208_different`, `ArcExceptions.C208_ambiguous`, `MoveitVersion.C209_order`, `MoveitVersion.C209_total`, `MoveitVersion.C209_pose`, `Astar.C21_path`, `Astar.C21_complete`, `Astar.C21_optimal`, `Astar.C21_negative_ids_lose_start`, `JointNames.C210_name`, `JointNames.C210_same`, `JointNames.C210_made`, `TransformData.C211_points`, `TransformData.C211_poses`, `TransformData.C211_twice`, `TransformData.C211_back`, `TransformData.C211_rigid`, `Threads.C212_value`, `Threads.C213_check`, `Threads.C213_layout`, `Prm.C216_again`, `Prm.C216_growth`, `Prm.C216_duplicates`, `RandomWalk.C22_simple_path`, `RandomWalk.C22_follows_draws`, `RandomWalk.C22_safe`, `RandomWalk.C22_dead_end`, `Rrt.C23_growth`, `Rrt.C23_contract`, `Rrt.C23_terminates`, `Rrt.C23_round`, `Rrt.C23_linkage`, `Rrt.C24_result`, `Rrt.C24_paths`, `Rrt.C24_root`, `Rrt.C24_plan`, `Rrt.C25_check`, `Rrt.C25_extract_partial`, `Rrt.C25_extract_exact`, `Rrt.C25_first_is_root`, `Knn.C26_serial`, `Knn.C26_smallest`, `Knn.C26_few`, `Knn.C27_parallel`, `Knn.C27_agrees`, `DistanceMatrix.C28_parallel`, `DistanceMatrix.C28_serial`, `DistanceMatrix.C28_same`, `DistanceMatrix.C28_no_race`, `DistanceMatrix.C28_two_sets_partial`, `DistanceMatrix.C28_two_sets_out_of_bounds`, `Dtw.C30_total`, `Dtw.C30_history`, `Dtw.C30_is_path_cost`, `Dtw.C30_recurrence`, `Dtw.C30_minimal_partial`, `Kmeans.C31_terminates`, `Kmeans.C32_enough_draws`, `Kmeans.C32_too_many_clusters`, `Kmeans.C32_bad_arguments`, `Hierarchical.C33_partition`, `Hierarchical.C33_infinite_threshold`, `Hierarchical.C34_clustering`, `Hierarchical.C34_distance_function`, `Voxel.C35_addressing`, `Voxel.C35_hash_data_index`, `Voxel.C36_history`, `Voxel.C36_write_then_read`, `Voxel.C37_center`, `Voxel.C37_location_in_bounds`, `Voxel.C37_box_partial`, `Voxel.C37_below_origin`, `Voxel.C38_roundtrip`, `Voxel.C38_arbitrary_buffers`, `HashedGrid.C39_history`, `HashedGrid.C39_last_write_partial`, `HashedGrid.C39_outside`, `HashedGrid.C39_neighbour_status`, `Prng.C40_xorshift128_bijective`, `Prng.C40_xorshift128_never_zero`, `Prng.C40_xorshift1024_bijective`, `Prng.C40_xorshift1024_never_zero`, `Prng.C40_xorshift1024_sequence`, `Prng.C41_reseed_1024`, `Prng.C41_reseed_1024_wrong`, `Bits.C42_set_bit`, `Bits.C42_set_bit_beyond`, `Bits.C42_set_then_get_partial`, `Bits.C42_high_bits_unreadable`, `Clamp.C43_nearest`, `Colors.C44_roundtrip`, `Colors.C44_to_hex`, `Colors.C44_nearest`, `Colors.C44_valid`, `Colors.C44_unique`, `TruncatedNormal.C45_within_partial`, `TruncatedNormal.C45_method`, `TruncatedNormal.C45_naive`, `TruncatedNormal.C45_negative_deviation`, `TruncatedNormal.C45_uniform_rejection`, `TruncatedNormal.C45_uniform_rejection_wrong`, `Angles.C46_wrap`, `Angles.C46_add`, `Angles.C47_distance`, `Angles.C47_signed_partial`, `Angles.C47_signed_wrong`, `Angles.C47_signed_example`, `Averages.C48_weighted`, `Averages.C48_unweighted`, `Averages.C48_aborts`, `Averages.C48_vectors`, `Averages.C48_deviation`, `PathUtils.C49_shortcut`, `PathUtils.C50_resample`, `PathUtils.C50_whole`, `PathUtils.C50_keeps`, `PathUtils.C50_spacing`, `PathUtils.C50_errors`, `PathUtils.C51_upsample`, `PathUtils.C51_keeps`, `PathUtils.C51_whole`, `ZlibFiles.C52_large`, `ZlibFiles.C52_stale_file_wrong`, `ZlibFiles.C52_faults`, `ZlibStream.C53_ends`, `Prm.C54_add`, `Prm.C54_duplicate`, `Prm.C54_stays_linked`, `Prm.C54_asymmetric_start`, `Prm.C54_extend`, `Prm.C54_build`, `Prm.C54_infinite_distance`, `Prm.C55_update`, `Prm.C55_order`, `Prm.C55_stays_linked`, `Prm.C55_refuses`, `Deformation.C56_deformation`, `Deformation.C56_neighbours`, `Profiler.C57_not_negative`, `Trajectory.C58_append`, `Trajectory.C58_prefix_wrong`, `Trajectory.C58_overflow`, `Trajectory.C58_self`, `BiRrt.C60_growth`, `BiRrt.C60_paths`, `BiRrt.C60_statistics`, `BiRrt.C60_complete`, `BiRrt.C60_connected_at_once`, `BiRrt.C60_plan`, `BiRrt.C60_turns`, `Rrt.C61_roundtrip`, `Rrt.C61_arbitrary_buffers`, `Prm.C62_multi_start`, `Prm.C62_multi_goal`, `Prm.C63_single`, `Prm.C63_lazy`, `Voxel.C64_cells`, `Voxel.C64_sizes`, `Voxel.C64_contents`, `HashedGrid.C65_creation`, `HashedGrid.C39_status`, `HashedGrid.C65_set_chunk_by_coordinates`, `Colors.C66_hot_to_cold`, `Colors.C66_interpolate`, `Containers.C68_substring`, `Colors.C69_generator_partial`, `Colors.C69_generator_repeats`, `Containers.C70_find`, `Angles.C71_range_partial`, `Angles.C71_check_partial`, `Angles.C71_check_wrong`, `Angles.C72_revolute`, `Angles.C72_interpolate`, `Angles.C72_comparisons`, `Angles.C72_ratio`, `Averages.C73_distance`, `Averages.C73_total`, `Profiler.C57_group`, `Profiler.C57_names`, `Profiler.C57_write_all`, `SimpleAstar.C75_plan`, `SimpleAstar.C75_ends`, `SimpleAstar.C76_shortest_partial`, `SimpleAstar.C76_queue`, `SimpleAstar.C76_separated_integers`, `SimpleAstar.C76_comparator_cycle`, `SimpleAstar.C76_near_ties_wrong`, `SimpleAstar.C76_admissible_not_enough`, `GetNeighbours.C77_grid`, `GetNeighbours.C77_grid_3d`, `GetNeighbours.C77_once`, `GetNeighbours.C77_symmetric`, `GetNeighbours.C77_bounds_wrong`, `GetNeighbours.C77_off_grid`, `Projection.C78_projection`, `Projection.C78_rejection`, `Projection.C78_nearest`, `Projection.C79_throws`, `Projection.C79_plane`, `Projection.C79_zero_accepted`, `Projection.C80_line`, `Projection.C80_zero`, `Projection.C81_project_point`, `Projection.C81_project_vector`, `Projection.C81_raw`, `Projection.C81_normed`, `Projection.C82_accepts`, `Projection.C82_shape`, `Projection.C82_inside`, `Projection.C82_diagonal_fails`, `Projection.C82_zero_angle`, `Projection.C83_clamp`, `Projection.C83_safe_normal`, `Projection.C84_cosine`, `Projection.C84_angle`, `Projection.C84_points`, `Kinematics.C85_rotation`, `Kinematics.C85_axis_angle`, `Kinematics.C85_product`, `Kinematics.C85_reverse`, `Kinematics.C85_zero`, `Kinematics.C86_skew`, `Kinematics.C86_unskew`, `Kinematics.C86_twist`, `Kinematics.C87_frame`, `Kinematics.C87_product`, `Kinematics.C88_exponential_partial`, `Kinematics.C88_rotation_lost`, `Kinematics.C88_rotation_lost_wrong`, `Kinematics.C88_between`, `Pose.C89_rotation_angle`, `Pose.C89_rotation_metric`, `Pose.C89_quaternion`, `Pose.C89_quaternion_triangle_partial`, `Pose.C89_quaternion_triangle_fails`, `Pose.C89_isometry`, `Pose.C90_vector`, `Pose.C90_quaternion`, `Pose.C90_quaternion_ends`, `Pose.C90_isometry`, `Pose.C91_rpy`, `Pose.C91_round_trip`, `Pose.C91_angles`, `Pose.C91_negative_roll`, `Pose.C91_size`, `Pose.C91_euler`, `PointSets.C92_total`, `PointSets.C92_individual`, `PointSets.C92_cumulative`, `PointSets.C93_matrix`, `PointSets.C93_race_free`, `PointSets.C93_closest`, `PointSets.C93_sets`, `PointSets.C93_squared_distance`, `PointSets.C94_small`, `PointSets.C94_split`, `PointSets.C94_round_trip`, `LinkedRobot.C95_construct`, `LinkedRobot.C95_set`, `LinkedRobot.C95_distance`, `JointSerialization.C96_joint`, `JointSerialization.C96_configuration`, `JointSerialization.C96_any_bytes`, `LinkedRobot.C97_check`, `LinkedRobot.C97_tree`, `LinkedRobot.C97_index_undefined`, `LinkedRobot.C98_poses_partial`, `LinkedRobot.C98_unique`, `LinkedRobot.C98_lookup`, `LinkedRobot.C98_inverse_base_wrong`, `LinkedRobot.C98_unordered_wrong`, `LinkedRobot.C99_construct`, `LinkedRobot.C99_set`, `LinkedRobot.C99_failed_set`
