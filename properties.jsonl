{"id": "C01", "title": "Fixed-size values survive serialization at any position", "statement": "SerializeFixedSizePOD appends exactly sizeof(T) bytes to the buffer, leaves all earlier bytes unchanged and returns sizeof(T). DeserializeFixedSizePOD at the offset where the value was written returns the same value and sizeof(T), whatever bytes precede or follow it.", "quantifier": "every value of every fixed-size type, every earlier buffer content, every later suffix", "why_tests_cant": "The value space, the prefix and the suffix are unbounded; a test samples a few values at offset 0.", "anchors": ["include/arc_utilities/serialization.hpp: SerializeFixedSizePOD, DeserializeFixedSizePOD"]}
{"id": "C02", "title": "Strings, vectors, pairs and maps of any nesting survive serialization", "statement": "If the item (key, value) serializers round-trip, then SerializeVector/VectorLike/String/Pair/Map followed by the matching Deserialize call at the same offset returns an equal container, for any nesting of containers and any surrounding bytes.", "quantifier": "every container value, every nesting of container types, every prefix and suffix of the buffer", "why_tests_cant": "Nesting depth, container length and surrounding bytes are unbounded.", "anchors": ["include/arc_utilities/serialization.hpp: SerializeVector, DeserializeVector, SerializeVectorLike, DeserializeVectorLike, SerializeString, DeserializeString, SerializePair, DeserializePair, SerializeMap, DeserializeMap"]}
{"id": "C03", "title": "Serialization byte counts are exact", "statement": "The number returned by a serialize call equals the number of bytes appended, and equals the number of bytes the matching deserialize call reports as read, so that values written one after the other can be read back one after the other.", "quantifier": "every sequence of values written back to back with any mix of the serializers", "why_tests_cant": "Off-by-some-bytes errors only show for particular lengths and sequences; sequences are unbounded.", "anchors": ["include/arc_utilities/serialization.hpp: all Serialize*/Deserialize* functions"]}
{"id": "C04", "title": "Deserialization never reads outside the buffer and rejects truncated data", "statement": "For every buffer and offset, a deserialize call either consumes bytes that all lie inside the buffer, or fails (assertion, or length_error from reserve); in particular a serialized value cut off at any byte is never accepted as a complete value.", "quantifier": "every byte buffer (including corrupted and truncated ones), every offset", "why_tests_cant": "The set of malformed buffers is unbounded; fuzzing samples it.", "anchors": ["include/arc_utilities/serialization.hpp: DeserializeFixedSizePOD, DeserializeVector, DeserializeString, DeserializePair, DeserializeMap"]}
{"id": "C05", "title": "Network serialization is big-endian on every host and portable between hosts", "statement": "SerializeNetwork* writes integers most significant byte first whatever the byte order of the host, and a buffer written on one host is read back to the same value by DeserializeNetwork* on a host of either byte order.", "quantifier": "every 1/2/4/8-byte value, both host byte orders on each side, every container", "why_tests_cant": "Tests run on one host with one byte order.", "anchors": ["include/arc_utilities/serialization.hpp: SerializeNetworkFixedSizePOD, DeserializeNetworkFixedSizePOD, SerializeNetworkVector, DeserializeNetworkVector, SerializeNetworkMap, SerializeNetworkPair, SerializeNetworkString"]}
{"id": "C06", "title": "Eigen vectors, matrices and transforms survive serialization", "statement": "SerializeEigen appends exactly SerializedSizeEigen(value) bytes (a row header if the row count is dynamic, a column header if the column count is dynamic, then the coefficients in storage order) and DeserializeEigen of the same type at that offset returns an equal object of the same dimensions and the same byte count; short buffers fail an assertion.", "quantifier": "every matrix shape and content including empty ones, every offset and surrounding bytes", "why_tests_cant": "Shapes and contents are unbounded; empty and single-row shapes are easy to miss.", "anchors": ["include/arc_utilities/serialization_eigen.hpp: SerializedSizeEigen, SerializeEigen, DeserializeEigen"]}
{"id": "C07", "title": "ROS geometry messages survive serialization", "statement": "Header, Point, Vector3, Quaternion, Pose, PoseStamped, Transform and TransformStamped serialized and deserialized at any offset give an equal message and equal byte counts.", "quantifier": "every message value, every offset and surrounding bytes", "why_tests_cant": "A swapped or dropped field shows only for values where the fields differ; strings are unbounded.", "anchors": ["include/arc_utilities/serialization_ros.hpp: SerializeHeader..DeserializeTransformStamped"]}
{"id": "C08", "title": "Base64 decoding inverts encoding", "statement": "Decode(Encode(x)) = x for every byte vector x.", "quantifier": "every byte vector of every length", "why_tests_cant": "Lengths and contents are unbounded; the three length residues interact with padding.", "anchors": ["src/arc_utilities/base64_helpers.cpp: Encode, Decode"]}
{"id": "C09", "title": "Base64 output has the standard shape", "statement": "Encode(x) has length 4*ceil(n/3), uses only the 64 alphabet characters, and ends in zero, one or two '=' according to n mod 3, with '=' nowhere else; distinct inputs give distinct outputs.", "quantifier": "every byte vector of every length", "why_tests_cant": "Unbounded input space.", "anchors": ["src/arc_utilities/base64_helpers.cpp: Encode"]}
{"id": "C10", "title": "Base64 decoding stays in bounds", "statement": "For every string of 7-bit characters, Decode reads only inside the string and the table and writes only inside the output vector it allocated; for a string containing a character of 128 or above the table is indexed with a negative number, which is undefined behaviour.", "quantifier": "every input string, well formed or not", "why_tests_cant": "Malformed inputs are unbounded.", "anchors": ["src/arc_utilities/base64_helpers.cpp: Decode, B64index"]}
{"id": "C11", "title": "Graph edits keep the in/out edge lists consistent", "statement": "Every graph obtained from the empty graph by addNode, addEdgeBetweenNodes and addEdgesBetweenNodes passes CheckGraphLinkage: every out edge is mirrored by an in edge of its target and conversely, and every stored index is in range.", "quantifier": "every history of node and edge insertions", "why_tests_cant": "Histories are unbounded.", "anchors": ["include/arc_utilities/graph.hpp: Graph::addNode, Graph::addEdgeBetweenNodes, Graph::addEdgesBetweenNodes, Graph::CheckGraphLinkage"]}
{"id": "C12", "title": "Edge insertion validates its arguments and has exactly the documented effect", "statement": "addEdgeBetweenNodes throws for an out-of-range index or a self-loop and then leaves the graph unchanged; otherwise it adds one edge to the out list of the source and one to the in list of the target and changes nothing else. The reference it returns is the first edge between the two nodes, which is not the new one when a parallel edge already exists.", "quantifier": "every graph and every pair of indices (including negative and too large ones) and weight", "why_tests_cant": "All graphs and all indices.", "anchors": ["include/arc_utilities/graph.hpp: Graph::addEdgeBetweenNodes, GraphNode::getEdgeTo"]}
{"id": "C13", "title": "CheckGraphLinkage decides consistency exactly", "statement": "CheckGraphLinkage returns true if and only if every in edge of node i is labelled to i, has an in-range source different from i, and is mirrored by an out edge of that source to i, and symmetrically for out edges.", "quantifier": "every graph value, including ones built by hand or read from a file", "why_tests_cant": "All graphs.", "anchors": ["include/arc_utilities/graph.hpp: Graph::CheckGraphLinkage"]}
{"id": "C14", "title": "Graphs survive serialization", "statement": "Serializing edges, nodes and graphs and deserializing them at the same offset gives an equal object, for any value serializer that round-trips.", "quantifier": "every graph, every value type with a round-tripping serializer, every surrounding bytes", "why_tests_cant": "Unbounded structures.", "anchors": ["include/arc_utilities/graph.hpp: GraphEdge/GraphNode/Graph serialize, deserialize"]}
{"id": "C15", "title": "Connected components labels", "statement": "getConnectedComponentsUndirected gives two nodes the same label exactly when they are connected by a chain of edges ignoring direction, and reports the number of components. (False of the code: see DESIGN.md; the part that holds is proved.)", "quantifier": "every graph", "why_tests_cant": "All graphs and traversal orders.", "anchors": ["include/arc_utilities/graph.hpp: Graph::getConnectedComponentsUndirected, Graph::markConnectedComponentUndirected"]}
{"id": "C16", "title": "Dijkstra returns shortest distances", "statement": "For a graph with valid linkage and non-negative weights, after PerformDijkstrasAlgorithm(graph, start) the distance reported for node v is the least cost of any path along the edges from v to start, and infinity exactly when there is no such path.", "quantifier": "every graph, start node, and every order in which the priority queue breaks ties", "why_tests_cant": "All graphs and tie-break orders.", "anchors": ["include/arc_utilities/dijkstras.hpp: SimpleDijkstrasAlgorithm::PerformDijkstrasAlgorithm"]}
{"id": "C17", "title": "Dijkstra predecessor pointers trace a shortest path", "statement": "Following the returned predecessor indices from any reached node walks along edges of the graph, ends at start after fewer steps than there are nodes, and its total cost is the reported distance; unreached nodes have predecessor -1; an out-of-range start index throws.", "quantifier": "every graph, start node, tie-break order", "why_tests_cant": "All graphs and tie-break orders; cycles of zero weight.", "anchors": ["include/arc_utilities/dijkstras.hpp: SimpleDijkstrasAlgorithm::PerformDijkstrasAlgorithm"]}
{"id": "C18", "title": "Graph A* returns a real path with its cost", "statement": "If PerformLazyAstar/PerformAstar returns a non-empty path, it starts at start, ends at goal and every step is an edge accepted by the edge validity function, for any costs; with non-negative costs the reported cost is at least the summed cost of the path. Out-of-range indices and start = goal throw.", "quantifier": "every graph, edge validity, distance and heuristic function, and tie-break order", "why_tests_cant": "User callbacks, graphs and tie-breaks are unbounded.", "anchors": ["include/arc_utilities/dijkstras.hpp: SimpleGraphAstar::PerformLazyAstar, PerformAstar", "include/arc_utilities/arc_helpers.hpp: ExtractAstarResult"]}
{"id": "C19", "title": "Graph A* is optimal and complete", "statement": "With non-negative edge costs and an admissible heuristic, the path returned has the least cost among all valid paths from start to goal, and ([], infinity) is returned exactly when no valid path exists; the search always terminates.", "quantifier": "every finite graph, non-negative cost, admissible heuristic and tie-break order", "why_tests_cant": "All graphs, heuristics and tie-breaks.", "anchors": ["include/arc_utilities/dijkstras.hpp: SimpleGraphAstar::PerformLazyAstar"]}
{"id": "C20", "title": "limit_pqueue_duplicates does not change the A* result", "statement": "The limit_pqueue_duplicates flag changes neither the path nor the cost returned (in this code it has no effect at all, because the set it consults never holds anything but the start node).", "quantifier": "every graph and callbacks", "why_tests_cant": "All inputs, both flag values.", "anchors": ["include/arc_utilities/dijkstras.hpp: SimpleGraphAstar::PerformLazyAstar", "include/arc_utilities/arc_helpers.hpp: GenericAstarSearch"]}
{"id": "C21", "title": "Generic A* search: valid, optimal, complete", "statement": "GenericAstarSearch over an arbitrary finite child-generating function with non-negative ids returns a path from start to goal whose steps are generated children, whose cost is least when costs are non-negative and the heuristic admissible, and returns ([], infinity) exactly when the goal is unreachable; start = goal throws. (With a negative start id the returned path lacks the start.)", "quantifier": "every finite state space, child generator, distance, heuristic and tie-break order", "why_tests_cant": "Callbacks are arbitrary.", "anchors": ["include/arc_utilities/arc_helpers.hpp: GenericAstarSearch, ExtractAstarResult"]}
{"id": "C22", "title": "Random walk output is a loop-free path", "statement": "If PerformRandomWalk returns, the path starts at start, ends at goal, visits no node twice and each step is an out edge of the graph; it neither throws nor has undefined behaviour if every node has an out edge (a dead end is undefined behaviour).", "quantifier": "every graph and every sequence of random draws", "why_tests_cant": "All random sequences.", "anchors": ["include/arc_utilities/dijkstras.hpp: GraphRandomWalk::PerformRandomWalk"]}
{"id": "C23", "title": "RRT growth keeps the tree well formed", "statement": "Every tree grown by the planner from one root passes CheckTreeLinkage; every node's parent index is smaller than its own index (so the tree has no cycles), parents and children agree, and a propagation result that refers to a missing relative parent throws instead of corrupting the tree.", "quantifier": "every sequence of samples, nearest-neighbour choices and propagation results", "why_tests_cant": "All histories of growth.", "anchors": ["include/arc_utilities/simple_rrt_planner.hpp: SimpleHybridRRTPlanner::PlanMultiPath, CheckTreeLinkage"]}
{"id": "C24", "title": "RRT solution paths run from the root to the goal along parent links", "statement": "For each goal node found, the returned path starts at the root state, ends at that goal state and consecutive states are parent and child in the tree; the reported statistics satisfy total samples = successful + failed samples.", "quantifier": "every tree and goal node; every history", "why_tests_cant": "All histories.", "anchors": ["include/arc_utilities/simple_rrt_planner.hpp: ExtractSolutionPaths, ExtractSolutionPath, PlanMultiPath"]}
{"id": "C25", "title": "CheckTreeLinkage soundness", "statement": "If CheckTreeLinkage returns true then every parent index is valid and following parents from any node reaches a root, so path extraction terminates. (False of the code: out-of-range parents and cycles away from node 0 are accepted; the part that holds is proved.)", "quantifier": "every tree value", "why_tests_cant": "All trees, including hand-built and deserialized ones.", "anchors": ["include/arc_utilities/simple_rrt_planner.hpp: CheckTreeLinkage"]}
{"id": "C26", "title": "K-nearest-neighbour query is exact", "statement": "If all distances are finite, GetKNearestNeighborsSerial returns min(K, n) pairs with pairwise distinct in-range indices, each with the true distance to the query, such that no item left out is strictly closer than an item returned; K = 0 returns nothing, and with at most K items all are listed in order. (With infinite distances and more than K items, entries (-1, infinity) can be returned.)", "quantifier": "every item list, query, distance function and K", "why_tests_cant": "All inputs including ties.", "anchors": ["include/arc_utilities/arc_helpers.hpp: GetKNearestNeighborsSerial"]}
{"id": "C27", "title": "Parallel K-nearest-neighbours agrees with serial for every thread schedule", "statement": "If all distances are finite, GetKNearestNeighborsParallel returns a correct answer (as in C26) with the same multiset of distances as the serial version however the items are distributed over threads.", "quantifier": "every assignment of items to any number of threads, every input", "why_tests_cant": "Schedules cannot be enumerated by tests.", "anchors": ["include/arc_utilities/arc_helpers.hpp: GetKNearestNeighborsParallel"]}
{"id": "C28", "title": "Distance matrices", "statement": "BuildDistanceMatrix over one set gives, for every i, j, the distance between items i and j (for a symmetric distance function) with a zero diagonal, whatever the parallel schedule. The two-set version gives the distance between item i of the first set and item j of the second. (The two-set claim is false of the code: it allocates n1 x n1 and also writes mirrored entries.)", "quantifier": "every data set, distance function and schedule", "why_tests_cant": "All sizes; schedules.", "anchors": ["include/arc_utilities/arc_helpers.hpp: BuildDistanceMatrixParallel, BuildDistanceMatrixSerial"]}
{"id": "C29", "title": "Hausdorff distance is the directed max-min distance for every schedule", "statement": "ComputeDistance returns the largest, over the items of the first set, of the distance to the nearest item of the second set (at least 0, infinite if only the second set is empty), irrespective of the number of threads and the assignment of elements to threads. It is the one-directed value, which is not symmetric in the two sets even for a symmetric distance.", "quantifier": "every pair of data sets, distance, number of threads and schedule", "why_tests_cant": "Schedules cannot be enumerated.", "anchors": ["include/arc_utilities/simple_hausdorff_distance.hpp: SimpleHausdorffDistance::ComputeDistance"]}
{"id": "C30", "title": "DTW distance", "statement": "EvaluateWarpingCost on non-empty sequences returns the minimum over all monotone warping paths of the summed point distances, and does not depend on what the evaluator object computed before. (Minimality is false of the code in one tie case; history independence is proved for non-empty sequences and refuted for empty ones.)", "quantifier": "every pair of sequences, every evaluator history", "why_tests_cant": "Histories and sequences unbounded.", "anchors": ["include/arc_utilities/simple_dtw.hpp: SimpleDTW::EvaluateWarpingCost, InitializeMatrix"]}
{"id": "C31", "title": "k-means output is a fixed point", "statement": "When Cluster(data, distance, average, centers) returns (labels, centers), there is one label per data point, each label is the index of a closest returned center, and every returned center is the average of the points that carry its label.", "quantifier": "every data set, distance, averaging function and initial centers", "why_tests_cant": "All inputs; convergence after any number of iterations.", "anchors": ["include/arc_utilities/simple_kmeans_clustering.hpp: Cluster, GetClosestCluster, ComputeClusterCenters"]}
{"id": "C32", "title": "k-means initialization picks distinct points, and never terminates when asked for more clusters than points", "statement": "Initial centers are taken from distinct data indices; if num_clusters exceeds the number of data points the initialization loop cannot terminate.", "quantifier": "every random sequence", "why_tests_cant": "Non-termination cannot be observed by a test.", "anchors": ["include/arc_utilities/simple_kmeans_clustering.hpp: Cluster"]}
{"id": "C33", "title": "Hierarchical clustering returns a partition", "statement": "Every data index appears in exactly one returned cluster, no returned cluster is empty, and the algorithm terminates whenever the threshold is finite.", "quantifier": "every distance matrix, threshold and linkage strategy", "why_tests_cant": "All inputs.", "anchors": ["include/arc_utilities/simple_hierarchical_clustering.hpp: SimpleHierarchicalClustering::Cluster, GetClosestPair"]}
{"id": "C34", "title": "Complete-link clusters respect the threshold and cannot be merged further", "statement": "With COMPLETE_LINK every two points of a returned cluster are at distance at most max_cluster_distance; with either strategy any two returned clusters have link distance greater than the threshold, and the returned distance is the smallest such link distance.", "quantifier": "every symmetric distance matrix and threshold", "why_tests_cant": "All inputs.", "anchors": ["include/arc_utilities/simple_hierarchical_clustering.hpp: SimpleHierarchicalClustering::Cluster, GetClosestPair"]}
{"id": "C35", "title": "Voxel grid addressing is one-to-one and in bounds", "statement": "Distinct in-bounds indices address distinct cells, every in-bounds index addresses a cell inside the storage, and every storage cell is addressed by exactly one index.", "quantifier": "every grid size and index", "why_tests_cant": "All sizes.", "anchors": ["include/arc_utilities/voxel_grid.hpp: VoxelGrid::GetDataIndex, IndexInBounds"]}
{"id": "C36", "title": "Voxel grid reads return the last write", "statement": "After any history of SetValue/Reset operations, reading an in-bounds index returns the value of the latest write to that cell or the default; out-of-bounds reads return the out-of-bounds value and report false; out-of-bounds writes fail and change nothing. (A mutable out-of-bounds read hands out the stored out-of-bounds value, which a caller can change; see DESIGN.md.)", "quantifier": "every history of operations, every index including negative and too large ones", "why_tests_cant": "Histories unbounded.", "anchors": ["include/arc_utilities/voxel_grid.hpp: SetValue, GetImmutable, GetMutable, ResetWithDefault, ResetWithNewValue"]}
{"id": "C37", "title": "Voxel grid location/index conversion", "statement": "The centre of every in-bounds cell maps back to that cell, and a location is reported in bounds exactly when it lies in the half-open box covered by the grid. (The second part is false of the code for points less than one cell below the origin, which truncate to index 0; see DESIGN.md.)", "quantifier": "every cell size, grid size, index and location (exact arithmetic)", "why_tests_cant": "Uncountably many locations.", "anchors": ["include/arc_utilities/voxel_grid.hpp: GridIndexToLocation, LocationToGridIndex, PointInFrameToGridIndex, LocationInBounds"]}
{"id": "C38", "title": "Voxel grids survive serialization", "statement": "SerializeSelf followed by DeserializeSelf at the same offset restores an equal grid.", "quantifier": "every grid and value serializer that round-trips", "why_tests_cant": "Unbounded.", "anchors": ["include/arc_utilities/voxel_grid.hpp: SerializeSelf, DeserializeSelf"]}
{"id": "C39", "title": "Hashed voxel grid: reads return the last write at cell or chunk granularity", "statement": "After any history of SetCellValue and SetChunkValue calls, a read at a location returns the latest value written to its cell or to its whole chunk, or the default if neither was written, and reports which of the three it was.", "quantifier": "every history of writes and every location", "why_tests_cant": "Histories unbounded.", "anchors": ["include/arc_utilities/dynamic_spatial_hashed_voxel_grid.hpp: SetCellValue, SetChunkValue, GetImmutable"]}
{"id": "C40", "title": "Pseudo-random generators never get stuck at zero and are reproducible", "statement": "For every seed the xorshift generators start from a state that is not all zero and never reach the all-zero state; two generators constructed with equal seeds produce equal outputs forever; discard(n) equals n calls; the state update is invertible, so no two states merge.", "quantifier": "every 64-bit seed and every number of steps", "why_tests_cant": "2^64 seeds, unbounded steps.", "anchors": ["include/arc_utilities/arc_helpers.hpp: SplitMix64PRNG, XorShift128PlusPRNG, XorShift1024StarPRNG"]}
{"id": "C41", "title": "Re-seeding restarts the generator", "statement": "Calling seed(s) on a used generator makes it behave like a freshly constructed generator with seed s. (False of the code for XorShift1024Star, whose index is not reset; proved for the others.)", "quantifier": "every seed and every number of earlier draws", "why_tests_cant": "Unbounded histories.", "anchors": ["include/arc_utilities/arc_helpers.hpp: XorShift1024StarPRNG::seed"]}
{"id": "C42", "title": "Bit helpers", "statement": "After SetBit(x, k, b), GetBit(x, k) is b and all other bits are unchanged. (False of the code for 64-bit values and k >= 32, where GetBit always answers false.)", "quantifier": "every value and bit position", "why_tests_cant": "All values and positions.", "anchors": ["include/arc_utilities/arc_helpers.hpp: SetBit, GetBit"]}
{"id": "C43", "title": "Clamping", "statement": "ClampValue(v, lo, hi) with lo <= hi lies in [lo, hi], equals v when v already does, and is the nearest such value; ClampValueAndWarn agrees with it and warns exactly when it changes the value.", "quantifier": "every value and bounds", "why_tests_cant": "All values.", "anchors": ["include/arc_utilities/arc_helpers.hpp: ClampValue, ClampValueAndWarn"]}
{"id": "C44", "title": "Color channel conversions", "statement": "ColorChannelFromHex and ColorChannelToHex are inverse on the 256 channel values, results always lie in [0,1] resp. [0,255], and GenerateUniqueColor gives pairwise different colors for codes 1..20 and black for every larger code.", "quantifier": "every channel value and color code", "why_tests_cant": "Full tables and unbounded codes.", "anchors": ["include/arc_utilities/arc_helpers.hpp: ColorChannelFromHex, ColorChannelToHex, TrimColorValue, GenerateUniqueColor"]}
{"id": "C45", "title": "Truncated normal samples stay within bounds", "statement": "Every sample returned by TruncatedNormalDistribution lies in [lower, upper]. (False of the code for the uniform-rejection case; proved for the others.)", "quantifier": "every parameter setting and every random sequence", "why_tests_cant": "All random sequences.", "anchors": ["include/arc_utilities/arc_helpers.hpp: TruncatedNormalDistribution"]}
{"id": "C46", "title": "Angle wrapping", "statement": "EnforceContinuousRevoluteBounds returns an angle in (-pi, pi] that differs from its argument by a whole number of turns, and returns angles already in range unchanged.", "quantifier": "every real angle", "why_tests_cant": "Uncountable.", "anchors": ["include/arc_utilities/math_helpers.hpp: EnforceContinuousRevoluteBounds"]}
{"id": "C47", "title": "Angle distances", "statement": "ContinuousRevoluteDistance is the least absolute difference of the two angles over all whole-turn shifts, symmetric and at most pi; the signed distance added to the first angle gives the second up to whole turns. (The signed claim is false of the code when the shortest way crosses pi: the sign is reversed.)", "quantifier": "every pair of real angles", "why_tests_cant": "Uncountable.", "anchors": ["include/arc_utilities/math_helpers.hpp: ContinuousRevoluteSignedDistance, ContinuousRevoluteDistance"]}
{"id": "C48", "title": "Averages", "statement": "AverageStdVectorDouble (and the Eigen versions) return the weighted mean sum(|w_i| v_i)/sum |w_i| for weights not all zero, the plain mean without weights, and fail an assertion when all weights are zero or sizes differ.", "quantifier": "every value and weight vector (exact arithmetic)", "why_tests_cant": "All inputs; leading zero weights.", "anchors": ["include/arc_utilities/math_helpers.hpp: AverageStdVectorDouble", "include/arc_utilities/eigen_helpers.hpp: AverageEigenVector"]}
{"id": "C49", "title": "Shortcut smoothing keeps a valid sub-path", "statement": "ShortcutSmoothPath returns a subsequence of the input with the same first and last configuration, in which every consecutive pair was consecutive in the input or was approved by the validity check; it stops after at most max_iterations rounds.", "quantifier": "every path, every random sequence and validity check", "why_tests_cant": "All random sequences.", "anchors": ["include/arc_utilities/path_utils.hpp: ShortcutSmoothPath"]}
{"id": "C50", "title": "Resampling keeps endpoints and bounds spacing", "statement": "ResamplePath keeps the first state, contains every original state that is at positive distance from its predecessor, in order, and splits each segment into the least number of equal-ratio pieces of length at most the resampling distance; bad index ranges throw.", "quantifier": "every path, distance and interpolation function", "why_tests_cant": "All paths.", "anchors": ["include/arc_utilities/path_utils.hpp: ResamplePathPartial, ResamplePath"]}
{"id": "C51", "title": "Upsampling returns exactly the requested number of points and splits evenly", "statement": "UpsamplePath with more points than the path has returns exactly num_points states containing all original states in order, and the largest resulting piece length is the least achievable with that many points.", "quantifier": "every path, number of points, tie-break", "why_tests_cant": "All inputs.", "anchors": ["include/arc_utilities/path_utils.hpp: UpsamplePathPartial, UpsamplePath"]}
{"id": "C52", "title": "Compressed files: slicing round-trip", "statement": "CompressAndWriteToFile to a path with no earlier files followed by LoadFromFileAndDecompress returns the original bytes, for buffers below and above the 4 GiB slice limit, assuming DecompressBytes inverts CompressBytes. With earlier files at that path the claim can fail (a stale whole file or stale extra slices are read); see DESIGN.md.", "quantifier": "every buffer size and every earlier content of the file system", "why_tests_cant": "Buffers above 4 GiB and file histories are impractical to test.", "anchors": ["src/arc_utilities/zlib_helpers.cpp: CompressAndWriteToFile, LoadFromFileAndDecompress"]}
{"id": "C53", "title": "Streaming compression loops lose and invent no bytes", "statement": "For every behaviour of the zlib deflate/inflate calls allowed by their contract (any chunking of input and output), CompressBytes returns the complete output stream in order and DecompressBytes returns the complete decompressed stream or throws.", "quantifier": "every chunking behaviour of the stream library and every input", "why_tests_cant": "Chunk boundaries depend on data and library version.", "anchors": ["src/arc_utilities/zlib_helpers.cpp: CompressBytes, DecompressBytes"]}
{"id": "C54", "title": "PRM node insertion keeps the roadmap well formed", "statement": "AddNodeToRoadmap (via ExtendRoadMap and the Query* functions) keeps the graph linkage valid, connects the new node only to its K nearest neighbours that pass the edge validity check, with both directions added together and non-negative weights, and returns the index of a node holding the state or a zero-distance duplicate. (With an asymmetric distance and a start insertion the code reaches an assertion; see DESIGN.md.)", "quantifier": "every roadmap, sample history, distance and validity function", "why_tests_cant": "Histories and callbacks unbounded.", "anchors": ["include/arc_utilities/simple_prm_planner.hpp: AddNodeToRoadmap, ExtendRoadMap"]}
{"id": "C55", "title": "Roadmap edge update keeps both copies of an edge equal", "statement": "After UpdateRoadMapEdges every out edge and its mirrored in edge carry the distance-function value if the edge is valid and infinity otherwise; nothing else changes; a roadmap with invalid linkage throws.", "quantifier": "every roadmap, validity and distance function", "why_tests_cant": "All graphs.", "anchors": ["include/arc_utilities/simple_prm_planner.hpp: UpdateRoadMapEdges"]}
{"id": "C56", "title": "First-order deformation path", "statement": "GetFirstOrderDeformation returns a non-empty path exactly when the far corner can be reached from (0,0) through valid cells by king moves; the path is such a chain from (0,0) to (rows-1, cols-1).", "quantifier": "every grid size, distance and validity function and tie-break order", "why_tests_cant": "All grids and tie-breaks.", "anchors": ["src/arc_utilities/first_order_deformation.cpp: GetFirstOrderDeformation, GetNeighbours"]}
{"id": "C57", "title": "Profiler data", "statement": "getData(name) returns exactly the data recorded under that name since the last reset, in order, for every interleaving of names; record on a timer never started throws.", "quantifier": "every history of profiler calls", "why_tests_cant": "Histories unbounded.", "anchors": ["src/arc_utilities/timing.cpp: Profiler"]}
{"id": "C58", "title": "Appending trajectories", "statement": "append offsets the second trajectory's times by the last time of the first, keeps the first trajectory's points, and refuses different joint names. (Refusal is false of the code when one name list is a proper prefix of the other. Appending a trajectory with points to itself is undefined behaviour.)", "quantifier": "every pair of trajectories", "why_tests_cant": "All lengths.", "anchors": ["src/arc_utilities/trajectory_utils.cpp: append"]}
{"id": "C59", "title": "Generic ROS message wrapper copies only the message", "statement": "Serializing any ROS message with RosMessageSerializationWrapper appends only bytes that belong to that message's serialized form, reports how many, and RosMessageDeserializationWrapper at that offset returns the message and the same count.", "quantifier": "every message type, every message, every buffer", "why_tests_cant": "An out-of-bounds heap read of four bytes is silent in a test unless it runs under a memory checker; the round trip still appears to work.", "anchors": ["include/arc_utilities/serialization_ros.hpp: RosMessageSerializationWrapper", "include/arc_utilities/serialization_ros.hpp: RosMessageDeserializationWrapper"]}
{"id": "C60", "title": "Bidirectional RRT returns paths from start to goal", "statement": "Each path the bidirectional planner returns starts at the start state, ends at the goal state, follows propagated steps in the start tree, crosses at two states the connection test accepted, and then follows the goal tree's steps backwards. Both trees stay well formed; if no path is returned, no connection was overlooked. If start and goal are connected, Plan returns exactly these two states.", "quantifier": "every sequence of samples, nearest neighbours, propagations, random choices of target and of active tree, and stopping time", "why_tests_cant": "All random histories of two trees.", "anchors": ["include/arc_utilities/simple_rrt_planner.hpp: SimpleBidirectionalRRTPlanner::Plan, PlanMultiPath"]}
{"id": "C61", "title": "RRT states survive serialization", "statement": "A state written by SerializeSelf into any buffer is read back by DeserializeSelf at that offset with the same value, parent, children and initialized flag, consuming exactly the bytes written; reading arbitrary bytes never reads outside the buffer.", "quantifier": "every state with 64-bit indices, every value serializer that round-trips, every offset and surrounding bytes", "why_tests_cant": "All values and all byte strings.", "anchors": ["include/arc_utilities/simple_rrt_planner.hpp: SimpleRRTPlannerState::SerializeSelf, DeserializeSelf"]}
{"id": "C62", "title": "Multi-start roadmap queries return a cheapest route", "statement": "QueryPathAndAddNodesMultiStartSingleGoal adds nodes standing for the starts and the goal, keeps all roadmap states and the linkage, and returns the states along a cheapest route from any of the starts to the goal with its cost, or an empty path and infinity if no start has a route of finite cost. QueryPathMultiStartMultiGoal returns the best answer over the goals and leaves the roadmap unchanged.", "quantifier": "every consistent roadmap with non-negative weights, all starts, goals, finite symmetric distance functions, edge checks, K, tie-breaks and thread schedules", "why_tests_cant": "Optimality is a claim about all routes in all roadmaps.", "anchors": ["include/arc_utilities/simple_prm_planner.hpp: QueryPathAndAddNodesMultiStartSingleGoal, QueryPathMultiStartMultiGoal, QueryPathMultiStartSingleGoal"]}
{"id": "C63", "title": "Single-start roadmap queries return a cheapest path", "statement": "QueryPathAndAddNodesSingleStartSingleGoal returns the states of a cheapest path over roadmap edges of finite weight, with its cost; the lazy variant a cheapest path over the edges the check accepts at query time; both report an empty path and infinity exactly when there is none, and throw invalid_argument when start and goal coincide.", "quantifier": "every consistent roadmap whose weights are distances, every distance with the triangle inequality, all starts, goals, edge checks, K, tie-breaks and thread schedules", "why_tests_cant": "Optimality and completeness over all paths of all roadmaps.", "anchors": ["include/arc_utilities/simple_prm_planner.hpp: QueryPathAndAddNodesSingleStartSingleGoal, LazyQueryPathAndAddNodesSingleStartSingleGoal"]}
{"id": "C64", "title": "Voxel grid creation", "statement": "Creating a grid throws std::invalid_argument exactly when a cell size, size or number of cells is not positive; otherwise the grid has the given numbers of cells, or the least numbers of cells that cover the given sizes, is centred on zero when no origin is given, reads as the default value everywhere inside and as the out-of-bounds value outside.", "quantifier": "every origin, cell size, size and number of cells (exact arithmetic)", "why_tests_cant": "Uncountably many sizes.", "anchors": ["include/arc_utilities/voxel_grid.hpp: VoxelGrid::Initialize, CoreInitialize, SafetyCheckSizes"]}
{"id": "C65", "title": "Hashed voxel grid: creation, status codes and the coordinate overloads", "statement": "Creating a hashed grid throws std::invalid_argument exactly when a cell size or a cell count is not positive. After any history a read reports FOUND_IN_CELL exactly when some cell of the containing chunk was set since the chunk was last set as a whole, FOUND_IN_CHUNK exactly when the chunk was last set as a whole, and NOT_FOUND when neither ever happened. SetChunkValue given three coordinates sets one cell and reports SET_CELL, leaving the other cells of the chunk as they were. A location whose chunk number does not fit int64 is undefined for every operation.", "quantifier": "every origin isometry, cell size, chunk shape, history and location", "why_tests_cant": "Histories and locations are unbounded; the status of a location depends on writes to other locations.", "anchors": ["include/arc_utilities/dynamic_spatial_hashed_voxel_grid.hpp: Initialize, GetImmutable, GetMutable, SetCellValue, SetChunkValue"]}
{"id": "C67", "title": "Spreading a value out of a gap", "statement": "SpreadValue(val, low, mid, high) with low <= mid <= high never returns a value strictly between low and high unless the assertion fails: values in [mid, high) become high, values in (low, mid) become low, all others are returned unchanged; SpreadValueAndWarn returns the same value and warns exactly when it differs from the input.", "quantifier": "every ordered type and all values and thresholds", "why_tests_cant": "All orderings of four values, including every tie.", "anchors": ["include/arc_utilities/arc_helpers.hpp: SpreadValue, SpreadValueAndWarn"]}
{"id": "C66", "title": "Color interpolation", "statement": "InterpolateHotToCold with min < max moves from blue over cyan, green and yellow to red as the value goes from min to max, stays at the ends outside, gives an opaque valid color and different colors for different values in the range, and fails an assertion otherwise. InterpolateColor of two valid colors is valid, equals the first color for ratios up to 0, the second from 1 on, and is the linear mix in between. Multiply scales red, green and blue cut off at [0,1] and keeps alpha.", "quantifier": "every value, range, ratio, factor and pair of colors (exact arithmetic)", "why_tests_cant": "A continuum of values.", "anchors": ["include/arc_utilities/arc_helpers.hpp: RGBAColorBuilder::InterpolateHotToCold, InterpolateColor, Multiply"]}
{"id": "C69", "title": "The unique color generator yields a sequence of different colors", "statement": "Successive calls to UniqueColorGenerator::next return pairwise different colors.", "quantifier": "every number of calls", "why_tests_cant": "Unbounded call histories, including wrap-around of the counter.", "anchors": ["include/arc_utilities/arc_helpers.hpp: UniqueColorGenerator"]}
{"id": "C68", "title": "Map and string helpers", "statement": "MakeFromKeysAndValues gives each key the value of its last pair, fails an assertion for two vectors of different sizes, and rebuilds a map from GetKeysAndValues; GetKeys lists exactly the stored keys in ascending order; RetrieveOrDefault gives the stored value or the default for ordered and unordered maps; CheckAllStringsForSubstring is true exactly if every string contains the substring.", "quantifier": "every map, key order, list of pairs and strings", "why_tests_cant": "All sizes, orders and repetitions of keys.", "anchors": ["include/arc_utilities/arc_helpers.hpp: RetrieveOrDefault, GetKeys, GetKeysAndValues, MakeFromKeysAndValues, CheckAllStringsForSubstring"]}
{"id": "C70", "title": "Searching, enumerating and optional values", "statement": "arc_std::find gives the first position of an element, or -1 exactly if it does not occur; enumerate pairs each element with its position in order; a Maybe holds the last value assigned to it and throws std::invalid_argument when it never got one.", "quantifier": "every vector of up to 2^31 elements, every sequence of assignments", "why_tests_cant": "All sizes and assignment histories; integer limits at 2^31.", "anchors": ["include/arc_utilities/stl_wrappers.hpp: find", "include/arc_utilities/enumerate.h: enumerate", "include/arc_utilities/maybe.hpp: Maybe"]}
{"id": "C71", "title": "Angle ranges", "statement": "GetContinuousRevoluteRange(start, end) is how far to turn counter-clockwise from start to end, and CheckInContinuousRevoluteRange/Bounds report whether an angle is met on that turn. (False of the code when the wrapped angles differ by more than half a turn.)", "quantifier": "all angles and ranges", "why_tests_cant": "holds or fails depending on where the three angles lie relative to the cut at pi, for a continuum of inputs", "anchors": ["include/arc_utilities/math_helpers.hpp: GetContinuousRevoluteRange, CheckInContinuousRevoluteRange, CheckInContinuousRevoluteBounds"]}
{"id": "C72", "title": "Interpolation", "statement": "InterpolateContinuousRevolute moves along a shortest way: with the ratio cut off at 0 and 1 the result is ratio times the distance from the first angle and (1 - ratio) times the distance from the second, within [-pi, pi]. Interpolate of numbers, pairs and vectors is linear in each component, hits the end points at ratios 0 and 1, stays between them, and returns an empty vector for vectors of different sizes. CloseEnough and IsApprox are symmetric and compare with the absolute threshold.", "quantifier": "all angles, numbers, vectors and ratios", "why_tests_cant": "a continuum of inputs with case splits at the cut of the circle", "anchors": ["include/arc_utilities/math_helpers.hpp: InterpolateContinuousRevolute, Interpolate, CloseEnough, IsApprox, Sign"]}
{"id": "C73", "title": "Vector distances and path lengths", "statement": "Distance is a metric on vectors of equal size (zero only for equal vectors, symmetric, triangle inequality) and infinite for different sizes; CalculateTotalDistance is the sum over consecutive pairs, additive over concatenation at a shared point and at least the direct distance for a metric.", "quantifier": "all vectors, paths and distance functions", "why_tests_cant": "quantifies over vectors of every dimension and paths of every length", "anchors": ["include/arc_utilities/math_helpers.hpp: SquaredDistance, Distance, CalculateTotalDistance"]}
{"id": "C74", "title": "Profiler summaries and dumps", "statement": "Summaries show sum, number, least, greatest and average of exactly the data recorded under a name; writing everything writes each datum of each name with fewer data than the limit, in the order of names. Not so in the code: a name used with and without values is listed and written twice; a summary of a name whose data was reset, or of no names at all, is undefined behaviour.", "quantifier": "every history of profiler calls, every clock and every list of names", "why_tests_cant": "Histories and name lists are unbounded.", "anchors": ["src/arc_utilities/timing.cpp: printSingleSummary, printGroupSummary, writeGroupSummary, getAllNames, writeAll"]}
{"id": "C75", "title": "SimpleAStarPlanner finds a way exactly when there is one", "statement": "SimpleAStarPlanner::Plan never throws and fails no assertion. If it returns a non-empty path, the path begins at the start, each state is a neighbour of the one before, no state occurs twice and the last one is a goal. If it returns an empty path, no goal can be reached, and the statistic 'nodes explored' is the number of reachable states. It ends whenever finitely many states can be reached.", "quantifier": "all neighbour, distance, heuristic and goal functions (also negative distances and arbitrary heuristics), all start states, and every order in which the priority queue gives out its entries", "why_tests_cant": "Tests run a few maps with one queue implementation; the claim is about every graph, every heuristic and every tie-break.", "anchors": ["include/arc_utilities/simple_astar_planner.hpp: SimpleAStarPlanner::Plan", "include/arc_utilities/simple_astar_planner.hpp: SimpleAStarPlanner::ExtractPathBasic"]}
{"id": "C76", "title": "SimpleAStarPlanner returns a shortest path", "statement": "With a heuristic that never drops by more than the distance along a step and is zero at the goals, the path returned by SimpleAStarPlanner::Plan is no longer than any path from the start to any goal.", "quantifier": "all graphs and distances, all consistent heuristics, every order of equal entries in the priority queue", "why_tests_cant": "Optimality quantifies over all paths of all graphs; it also depends on the comparator being an order, which only fails for values that are nearly equal.", "anchors": ["include/arc_utilities/simple_astar_planner.hpp: SimpleAStarPlanner::Plan", "include/arc_utilities/simple_astar_planner.hpp: AStarComparator"]}
{"id": "C77", "title": "Grid neighbours are exactly the adjacent valid cells within the bounds", "statement": "TwoDimensional8Connected and ThreeDimensional8Connected return, for a point on a grid that the rounding function keeps and for bounds on the grid, exactly the valid grid points within the bounds that are at most one step away in each coordinate, without the point itself and each once; being neighbours is mutual. For any order-preserving rounding the neighbours lie between the rounded bounds.", "quantifier": "all grid points, steps, bounds, rounding functions and validity checks", "why_tests_cant": "Tests look at single cells; the claim covers every position relative to every bound.", "anchors": ["include/arc_utilities/get_neighbours.hpp: TwoDimensional8Connected", "include/arc_utilities/get_neighbours.hpp: ThreeDimensional8Connected"]}
{"id": "C78", "title": "Vector projection and rejection split a vector at a right angle", "statement": "VectorProjection(base, v) is the unique multiple of base that leaves a remainder at a right angle to base (zero for a zero base); VectorRejection is that remainder, the two add up to v, and no multiple of base is nearer to v than the projection.", "quantifier": "all vectors of all dimensions, also zero vectors", "why_tests_cant": "Geometric law over all real vectors and dimensions.", "anchors": ["include/arc_utilities/eigen_helpers.hpp: VectorProjection", "include/arc_utilities/eigen_helpers.hpp: VectorRejection"]}
{"id": "C79", "title": "Projection to a plane given by two vectors", "statement": "VectorProjectionToPlane throws invalid_argument exactly when the two vectors do not define a plane (up to the tolerance), and otherwise returns the vector of the plane that differs from the given one by something at a right angle to both.", "quantifier": "all triples of vectors", "why_tests_cant": "Continuum of inputs including parallel and zero vectors.", "anchors": ["include/arc_utilities/eigen_helpers.hpp: VectorProjectionToPlane"]}
{"id": "C80", "title": "Distance to a line", "statement": "DistanceToLine never fails its internal check; the distance it returns is the least distance from x to any point of the line and the displacement is the position of the nearest point along the line, also if the direction is not of length one.", "quantifier": "all points and directions", "why_tests_cant": "Minimum over all points of the line, for all lines.", "anchors": ["include/arc_utilities/eigen_helpers.hpp: DistanceToLine"]}
{"id": "C81", "title": "Hyperplanes", "statement": "ProjectPointOntoPlane returns the nearest point of the plane, GetDistanceToPlane and its square are the distance to it, vectors are split into normal and tangential part, the raw dot product is zero exactly on the plane and is otherwise plus or minus distance times length of the normal, the normed one is the raw one over the distance from the origin.", "quantifier": "all planes (also with normals of any length), points and vectors in all dimensions", "why_tests_cant": "Minimum over all points of the plane.", "anchors": ["include/arc_utilities/eigen_helpers.hpp: Hyperplane"]}
{"id": "C82", "title": "The pyramid inside a cone", "statement": "For every direction of length one ConvertConeToPyramid returns four outward normals such that every vector on the inner side of all of them is within the given angle of the cone direction.", "quantifier": "all unit directions, all angles and all vectors", "why_tests_cant": "The failing directions are a set of measure zero that tests miss.", "anchors": ["include/arc_utilities/eigen_helpers.hpp: ConvertConeToPyramid"]}
{"id": "C83", "title": "Norm clamping and safe normalisation", "statement": "ClampNorm returns a vector of the same direction whose length is the smaller of the old length and the maximum, unchanged if short enough, and fails its assertion for a maximum that is not positive. SafeNormal returns a vector of length one of the same direction, or the vector itself if it is not longer than 2^-52.", "quantifier": "all vectors and limits", "why_tests_cant": "Continuum of inputs.", "anchors": ["include/arc_utilities/eigen_helpers.hpp: ClampNorm", "include/arc_utilities/eigen_helpers.hpp: SafeNormal"]}
{"id": "C84", "title": "Weighted angles and angles between points", "statement": "With weights that are not negative the weighted cosine is the weighted product over the weighted norms, lies between -1 and 1 without being cut off, and the angles returned are those between 0 and pi with that cosine; a vector of weighted norm zero fails the assertion. AngleDefinedByPoints is the angle at the middle point.", "quantifier": "all vectors and weights in all dimensions", "why_tests_cant": "Cauchy-Schwarz over all vectors.", "anchors": ["include/arc_utilities/eigen_helpers.hpp: WeightedCosineAngleBetweenVectors", "include/arc_utilities/eigen_helpers.hpp: WeightedAngleBetweenVectors", "include/arc_utilities/eigen_helpers.hpp: AngleDefinedByPoints"]}
{"id": "C85", "title": "Rotating vectors by quaternions", "statement": "For every quaternion but zero, of any length, RotateVector is a rotation: it keeps sums, multiples, lengths, angles and orientation. For a unit quaternion of axis u and angle a it turns by a about u. A product of quaternions rotates by the right factor and then the left one. RotateVectorReverse undoes RotateVector, both ways. The zero quaternion sends every vector to zero.", "quantifier": "all quaternions and vectors", "why_tests_cant": "An identity over all real inputs.", "anchors": ["include/arc_utilities/eigen_helpers.hpp: RotateVector", "include/arc_utilities/eigen_helpers.hpp: RotateVectorReverse"]}
{"id": "C86", "title": "Skew matrices and twists", "statement": "Skew(v) times x is the cross product of v and x; Unskew(Skew(v)) is v; Skew(Unskew(m)) is the skew part of m, so it is m exactly for skew matrices; TwistUnhat undoes TwistHat.", "quantifier": "all vectors, matrices and twists", "why_tests_cant": "An identity over all real inputs.", "anchors": ["include/arc_utilities/eigen_helpers.hpp: Skew", "include/arc_utilities/eigen_helpers.hpp: Unskew", "include/arc_utilities/eigen_helpers.hpp: TwistHat", "include/arc_utilities/eigen_helpers.hpp: TwistUnhat"]}
{"id": "C87", "title": "The adjoint changes the frame of a twist", "statement": "For every rigid transform T and twist x, the hat of TransformTwist(T, x) times T is T times the hat of x; AdjointFromTransform of a product is the product of the adjoints, and of the identity the identity.", "quantifier": "all rigid transforms and twists", "why_tests_cant": "An identity over all rotations.", "anchors": ["include/arc_utilities/eigen_helpers.hpp: AdjointFromTransform", "include/arc_utilities/eigen_helpers.hpp: TransformTwist"]}
{"id": "C88", "title": "The exponential of a twist", "statement": "ExpTwist(x, t) never fails its assertion and returns the matrix exponential of t times the hat of x, a rotation with a translation. Starting from a transform and following TwistBetweenTransforms for one unit of time arrives at the other transform.", "quantifier": "all twists, times and rigid transforms", "why_tests_cant": "The exponential is an infinite sum; the claim is over all twists and times.", "anchors": ["include/arc_utilities/eigen_helpers.hpp: ExpMatrixExact", "include/arc_utilities/eigen_helpers.hpp: ExpTwist", "include/arc_utilities/eigen_helpers.hpp: TwistBetweenTransforms"]}
{"id": "C89", "title": "Distances of rotations and poses", "statement": "Distance of two rotation matrices is the smallest angle that turns one into the other, between zero and a half turn, and is a metric. Distance of two unit quaternions is that of their matrices, does not depend on signs or order, and satisfies the triangle inequality. Distance of two rigid transforms weighs the distance of the translations by 1 - alpha and the angle by alpha, and aborts for alpha outside [0, 1].", "quantifier": "all rotations, unit quaternions, rigid transforms and weights", "why_tests_cant": "Metric laws over three rotations; the angle is compared with all rotations that do the same.", "anchors": ["include/arc_utilities/eigen_helpers.hpp: Distance"]}
{"id": "C90", "title": "Interpolation of vectors, rotations and poses", "statement": "Interpolate cuts the ratio to [0, 1]; vectors of different sizes throw; the result divides the distance (of vectors number by number, of rotations by angle, of transforms both) in the ratio; ratio 0 gives the first and ratio 1 the second; interpolated rotations are rotations.", "quantifier": "all vectors, unit quaternions, rigid transforms and ratios", "why_tests_cant": "The division must be exact for every pair and ratio, including opposite quaternions.", "anchors": ["include/arc_utilities/eigen_helpers.hpp: Interpolate", "include/arc_utilities/eigen_helpers.hpp: Interpolate3d"]}
{"id": "C91", "title": "Roll, pitch and yaw", "statement": "QuaternionFromRPY is the rotation about x, then y, then z of the moving frame (QuaternionFromUrdfRPY the opposite order). Extracting the angles of any rigid transform and building the transform from them gives it back, at gimbal lock too; building from angles and extracting gives the angles. Lists of other than six numbers abort.", "quantifier": "all rigid transforms and angles", "why_tests_cant": "Gimbal lock and the ranges of the angles are measure zero or boundary cases.", "anchors": ["include/arc_utilities/eigen_helpers.hpp: QuaternionFromRPY", "include/arc_utilities/eigen_helpers.hpp: QuaternionFromUrdfRPY", "include/arc_utilities/eigen_helpers.hpp: TransformFromRPY", "include/arc_utilities/eigen_helpers.hpp: EulerAnglesFromRotationMatrix", "include/arc_utilities/eigen_helpers.hpp: EulerAnglesFromQuaternion", "include/arc_utilities/eigen_helpers.hpp: EulerAnglesFromIsometry3d", "include/arc_utilities/eigen_helpers.hpp: TransformToRPY"]}
{"id": "C92", "title": "Path lengths", "statement": "CalculateTotalDistance is the sum of the distances of neighbouring points and at least the distance of the ends; CalculateIndividualDistances starts with zero and then lists the distance of each point to the one before; CalculateCumulativeDistances gives for each point the total of the path up to it, never decreases and ends with the total.", "quantifier": "all paths", "why_tests_cant": "Induction over the length of the path.", "anchors": ["include/arc_utilities/eigen_helpers.hpp: CalculateTotalDistance", "include/arc_utilities/eigen_helpers.hpp: CalculateIndividualDistances", "include/arc_utilities/eigen_helpers.hpp: CalculateCumulativeDistances"]}
{"id": "C93", "title": "Distances in point sets", "statement": "CalculateSquaredDistanceMatrix and CalculateDistanceMatrix give the (squared) distance of every pair, in any order of the parallel writes, which never write one cell twice; ClosestPointInSet returns the first of the nearest points; empty sets abort; distances to a set and between sets are those of the points.", "quantifier": "all point sets and all schedules of the threads", "why_tests_cant": "All interleavings of the parallel loop and all sizes of sets.", "anchors": ["include/arc_utilities/eigen_helpers.hpp: SquaredDistance", "include/arc_utilities/eigen_helpers.hpp: CalculateSquaredDistanceMatrix", "include/arc_utilities/eigen_helpers.hpp: CalculateDistanceMatrix", "include/arc_utilities/eigen_helpers.hpp: CalculateSquaredDistanceToSet", "include/arc_utilities/eigen_helpers.hpp: CalculateDistanceToSet", "include/arc_utilities/eigen_helpers.hpp: ClosestPointInSet", "include/arc_utilities/eigen_helpers.hpp: SquaredDistancesBetweenPointSets"]}
{"id": "C94", "title": "Conversions between Eigen vectors and lists", "statement": "Vectors of three numbers and quaternions go to lists and back unchanged (order x, y, z, w) and lists of the wrong length abort. A list of vectors becomes one vector by concatenation; cutting that vector returns the list, never reads outside, and aborts exactly when the size is not a multiple of the length.", "quantifier": "all vectors, lists and lengths", "why_tests_cant": "Index arithmetic over all lengths.", "anchors": ["include/arc_utilities/eigen_helpers.hpp: StdVectorDoubleToEigenVector3d", "include/arc_utilities/eigen_helpers.hpp: EigenVector3dToStdVectorDouble", "include/arc_utilities/eigen_helpers.hpp: StdVectorDoubleToEigenQuaterniond", "include/arc_utilities/eigen_helpers.hpp: EigenQuaterniondToStdVectorDouble", "include/arc_utilities/eigen_helpers.hpp: VectorEigenVectorToEigenVectorX", "include/arc_utilities/eigen_helpers.hpp: EigenVectorXToVectorEigenVector"]}
{"id": "C95", "title": "Joint values respect the limits", "statement": "Constructing a joint or setting its value throws for an infinite or undefined value and for crossed limits (unless continuous); otherwise the value is the closest one between the limits, or for a continuous joint the same angle in (-pi, pi]. Distances between joints are symmetric, zero only for equal values, keep the triangle inequality, are the smallest angle for continuous joints, and throw for different types.", "quantifier": "all limits (finite or not), values, types and pairs of joints", "why_tests_cant": "Values and limits are unbounded real numbers; the wrap and clamp must hold for each.", "anchors": ["include/arc_utilities/simple_linked_robot_model.hpp: SimpleJointModel"]}
{"id": "C97", "title": "Robot models are accepted exactly when they are trees", "statement": "When all joints refer to links, the check of a linked robot model terminates with a verdict and accepts exactly the models with one link more than joints, different names, unit axes, and every link reached from link 0; then every other link has exactly one parent joint and there are no cycles. A joint that refers to no link is undefined behaviour.", "quantifier": "all lists of links and joints", "why_tests_cant": "The graphs are of any size and shape, including cycles.", "anchors": ["include/arc_utilities/simple_linked_robot_model.hpp: SimpleLinkedRobot::SanityCheckRobotModel, CheckKinematicSkeleton, ExploreChildren"]}
{"id": "C98", "title": "Link poses agree with the joint values", "statement": "After construction and after every call that succeeds, in any history, the pose of link 0 is the base, and that of the child of each joint is the pose of the parent followed by the transform and the motion of the joint; there is only one such placement. Lookups by name return these poses and throw for unknown names.", "quantifier": "all robots, and all sequences of calls of SetPosition and UpdateBaseTransform, whether they succeed or fail", "why_tests_cant": "Trees of any size and histories of any length.", "anchors": ["include/arc_utilities/simple_linked_robot_model.hpp: SimpleLinkedRobot::UpdateTransforms, SetPosition, UpdateBaseTransform, GetLinkTransform, GetLinkTransforms, GetLinkTransformsMap, GetInverseBaseTransform"]}
{"id": "C99", "title": "Robot construction and SetPosition", "statement": "A linked robot is constructed exactly if the model is accepted, there are as many weights and initial values as joints that move, and all values are finite; otherwise the constructor throws. SetPosition with the wrong number of values throws and changes nothing; with finite values it sets each joint in order and keeps types and limits. A value that is not finite throws after the joints before it have changed.", "quantifier": "all models, weights, values and histories of calls", "why_tests_cant": "All sizes, all positions of a bad value and all histories.", "anchors": ["include/arc_utilities/simple_linked_robot_model.hpp: SimpleLinkedRobot, SetPosition, SetConfig, GetActiveJointNames"]}
{"id": "C100", "title": "Jacobians are derivatives", "statement": "For a robot whose poses agree with its joint values, the Jacobian of a point of a link has one column per joint that can move, in order; the upper part is the derivative of the position of the point in the world by the value of the joint, the lower part the angular velocity. Unknown link names and joint types throw.", "quantifier": "all accepted robots with rotation matrices and unit axes, all histories of calls, links and points", "why_tests_cant": "Derivatives for trees of every shape and every position.", "anchors": ["include/arc_utilities/simple_linked_robot_model.hpp: SimpleLinkedRobot::ComputeLinkPointJacobian, ComputeLinkPointTranslationJacobian"]}
{"id": "C101", "title": "Distances, interpolation and averages of robot configurations", "statement": "The distance between configurations is the norm of the weighted distances of the joints and a metric, where continuous joints use the shortest way round. Interpolation moves each joint the given fraction on a shortest way, starts at the start and ends at the end. Averages are means of the joint values. Configurations with different numbers or types of joints throw.", "quantifier": "all robots, configurations, ratios and lists of configurations", "why_tests_cant": "The triangle inequality and shortest ways range over all real values.", "anchors": ["include/arc_utilities/simple_linked_robot_model.hpp: SimpleLinkedRobot::ComputePerDimensionConfigurationSignedDistance, ComputeConfigurationDistance, ComputeUnweightedPerDimensionConfigurationRawDistance, InterpolateBetweenConfigurations, AverageConfigurations"]}
{"id": "C96", "title": "Joints and configurations survive serialization", "statement": "A joint is written as 28 bytes (lower limit, upper limit, value, type) and read back from them as it was, with all bits of its doubles; so are configurations, joint by joint, after their number. Reading consumes exactly these bytes, and aborts if fewer than 28 are left.", "quantifier": "all joints, configurations, buffers, positions and both byte orders", "why_tests_cant": "All bit patterns, lists and surrounding buffers.", "anchors": ["include/arc_utilities/simple_linked_robot_model.hpp: SimpleJointModel::SerializeSelf, SimpleJointModel::DeserializeSelf, SimpleLinkedConfigSerializer"]}
{"id": "C102", "title": "The planar robot moves rigidly in the plane", "statement": "After any positions set, the planar robot is at the last one, with the angle wrapped; its link's transform moves points by the rotation about z and the place. The distance is a weighted sum of plane distance and shortest turn and a metric. Interpolation goes straight and turns the shortest way; averages have the mean of the places. The Jacobian has the derivatives of the point by x, y and the angle. Other link names throw.", "quantifier": "all initial positions, weights, histories, points, configurations and ratios", "why_tests_cant": "Derivatives and metric laws over all real values, and all histories.", "anchors": ["include/arc_utilities/simple_se2_robot_model.hpp: SimpleSE2Robot"]}
{"id": "C103", "title": "Self collisions are allowed exactly as listed", "statement": "A linked robot with geometry is constructed exactly if the robot is, the geometries carry the names of the links in order and the allowed pairs are pairs of links; otherwise the constructor throws. A self collision is allowed exactly for equal links and for pairs listed in one of the two orders, whatever positions are set later; queries for indices that are not links throw.", "quantifier": "all robots, lists of geometries and pairs, histories and queries", "why_tests_cant": "All lists of pairs in both orders, and all histories.", "anchors": ["include/arc_utilities/simple_robot_models.hpp: LinkedRobotWithGeometry, GenerateAllowedSelfColllisionMap, CheckIfSelfCollisionAllowed, GetLinkGeometries"]}
{"id": "C104", "title": "The robot in space moves rigidly", "statement": "After any positions set, the robot with one link in space is at the last one, and its link is found there by its name only. The distance is a weighted sum of the distance of the places and the angle between the rotations, symmetric and with a triangle inequality. Interpolation goes straight and turns at a constant rate, averages have the mean of the places and a mean rotation (the identity for no configurations). The Jacobian maps body velocities to velocities of the point.", "quantifier": "all initial poses, weights, histories, points, velocities, configurations and ratios", "why_tests_cant": "Derivatives and metric laws over all rigid motions, and all histories.", "anchors": ["include/arc_utilities/simple_se3_robot_model.hpp: SimpleSE3Robot"]}
{"id": "C105", "title": "Average rotations deviate least", "statement": "The average of unit quaternions is a unit quaternion whose rotation minimises the weighted sum of squared differences (of rotation matrices) to the given rotations, among all rotations. The average of transforms has this rotation and the weighted mean of the translations. Single ones are returned as they are; no values or a wrong number of weights fail an assertion.", "quantifier": "all lists of unit quaternions or rigid transforms and weights", "why_tests_cant": "Optimality among all rotations.", "anchors": ["include/arc_utilities/eigen_helpers.hpp: AverageEigenQuaterniond, AverageEigenIsometry3d"]}
{"id": "C106", "title": "The truncated normal distribution accepts with the right probability", "statement": "With one bound beyond the mean, a draw is an exponentially distributed distance beyond the bound, accepted with probability target density / (constant * proposal density), where the constant is the smallest that makes this at most 1 and the rate of the exponential is the one for which this constant is smallest; the first accepted candidate is returned. In the uniform method the acceptance probability is the target density divided by its largest value between the bounds. With two bounds above the mean the method with the smaller expected number of candidates is chosen.", "quantifier": "all bounds, means, standard deviations and draws", "why_tests_cant": "a wrong acceptance probability still returns values within the bounds; only their distribution changes", "anchors": ["include/arc_utilities/arc_helpers.hpp: TruncatedNormalDistribution"]}
{"id": "C107", "title": "Blends at corners are circular arcs", "statement": "The blend of a corner of a path is an arc of a circle that leaves the incoming edge and joins the outgoing edge in their directions, starts and ends at the same distance from the corner within the two edges, and deviates at most by the allowed deviation; its tangent is the derivative of its points and has length one, its curvature is the derivative of the tangent. The deviation or one edge is used up. Short edges and nearly straight corners give an empty blend at the corner.", "quantifier": "all corners (three points in any dimension) and deviations", "why_tests_cant": "Derivatives and bounds along every point of every arc.", "anchors": ["src/arc_utilities/time_optimal_trajectory_parametrization.cpp: CircularPathSegment, LinearPathSegment"]}
{"id": "C108", "title": "The path follows the waypoints within the deviation", "statement": "A path through waypoints starts at the first and ends at the last waypoint, is parametrised by its arc length (the tangent is the derivative and has length one, the curvature is the derivative of the tangent), has no jumps of position or direction larger than the tolerance 1e-6, and stays everywhere within the allowed deviation of the polyline; every waypoint is passed within this deviation. Without deviation it is the polyline. With fewer than two waypoints its length is zero and it must not be evaluated.", "quantifier": "all lists of waypoints more than the tolerance apart that do not reverse, all deviations, all positions", "why_tests_cant": "Holds at every point of every path.", "anchors": ["src/arc_utilities/time_optimal_trajectory_parametrization.cpp: Path, GetConfig, GetTangent, GetCurvature, GetPathSegment"]}
{"id": "C109", "title": "Limits on the path are the limits of the joints", "statement": "An acceleration on the path lies between the computed minimum and maximum exactly if every moving joint keeps its acceleration limit. A velocity is at most the velocity limit exactly if every joint keeps its velocity limit, and at most the acceleration limit curve exactly if some acceleration keeps all joints within their acceleration limits. The computed slope of the velocity limit is its derivative.", "quantifier": "all numbers of joints, limits, derivatives of the path, velocities and accelerations", "why_tests_cant": "An equivalence over all velocities and accelerations, in any number of dimensions.", "anchors": ["src/arc_utilities/time_optimal_trajectory_parametrization.cpp: GetMinMaxPathAcceleration, GetAccelerationMaxPathVelocity, GetVelocityMaxPathVelocity, GetVelocityMaxPathVelocityDeriv"]}
{"id": "C110", "title": "Switching points of a path are complete", "statement": "The switching points of a path are sorted and lie before its end. Those marked as discontinuities are exactly the places where segments meet; everywhere else position, tangent and curvature are continuous. Every place where the velocity of a joint passes zero is listed, and the next switching point after a position is the first listed one after it, or the end.", "quantifier": "all waypoints, deviations and positions", "why_tests_cant": "Completeness over all positions of all paths.", "anchors": ["src/arc_utilities/time_optimal_trajectory_parametrization.cpp: GetSwitchingPoints, GetNextSwitchingPoint, SwitchingPoints"]}
{"id": "C111", "title": "A trajectory starts and ends at rest and keeps the limits", "statement": "If the construction of a trajectory through waypoints returns, the trajectory starts at time zero at rest at the first waypoint and ends at rest at the last, and its position on the path never goes back by more than 1e-6. Forward integration uses the highest acceleration, one time step at a time, and adds only points at which all joints keep their velocity limits and can keep their acceleration limits; backward integration uses the lowest acceleration and joins the trajectory where the two meet. Failures are reported as runtime errors or invalid arguments; the trajectory walked backwards is never left. Every point of the finished trajectory keeps the limits of the joints.", "quantifier": "all waypoints, limits, time steps and numbers of rounds", "why_tests_cant": "All paths, limits and step sizes; the construction may need any number of rounds.", "anchors": ["src/arc_utilities/time_optimal_trajectory_parametrization.cpp: Trajectory, IntegrateForward, IntegrateBackward, GetNextSwitchingPoint, GetNextAccelerationSwitchingPoint, GetNextVelocitySwitchingPoint"]}
{"id": "C112", "title": "Queries of a trajectory give one motion, whatever was asked before", "statement": "The answer to a query for a time does not depend on earlier queries. Over the duration the answers describe one motion from the first to the last step: the velocity answered is the rate of change of the position, it changes at a constant rate between steps, and at the time of a step position and velocity are those of the step; times are those needed at the mean velocities. Before the start the query is undefined. After the end the trajectory stays at rest at the last waypoint.", "quantifier": "all paths, lists of steps, histories of queries and times", "why_tests_cant": "All histories of queries with a mutable cache, and all times.", "anchors": ["src/arc_utilities/time_optimal_trajectory_parametrization.cpp: GetPositionVelocity, GetTrajectorySegment, Duration"]}
{"id": "C113", "title": "A thin plate spline maps its template points to its targets", "statement": "A ThinPlateSpline made of template and target points maps every template point exactly to its target (up to rounding) whenever coinciding template points have the same target; what it computes is a thin plate spline (an affine map plus radial functions at the template points whose weights have no sum and no moment), and when the template points are not all on a line (plane) it is the only one, so an affine map is reproduced everywhere. Interpolation depends only on the template and target points set last, not on earlier points or on when the coefficients were computed. std::invalid_argument is thrown exactly if a point set is empty or the numbers of points differ.", "quantifier": "all dimensions two and three, all lists of template, target and interpolated points, all histories of calls, all solvers that find a solution where there is one", "why_tests_cant": "tests warp a few point sets; that the linear system always has a solution, and that it is unique, is a statement about all configurations of points, and stale coefficients depend on the history of calls", "anchors": ["include/arc_utilities/thin_plate_spline.hpp: ThinPlateSpline", "include/arc_utilities/thin_plate_spline.hpp: setTemplatePoints", "include/arc_utilities/thin_plate_spline.hpp: setTargetPoints", "include/arc_utilities/thin_plate_spline.hpp: solveForCoeffs", "include/arc_utilities/thin_plate_spline.hpp: interpolate", "include/arc_utilities/thin_plate_spline.hpp: KernelFunction"]}
{"id": "C114", "title": "Pinv gives the pseudoinverse", "statement": "Pinv(b, rcond) with rcond not negative is the Moore-Penrose pseudoinverse of some matrix that differs from b, as a map, by at most rcond; if every singular value of b is zero or above rcond it is the pseudoinverse of b itself, with or without flipping, and there is only one pseudoinverse. The product of the pseudoinverse of a and y is a least squares solution of a x = y and is shorter than every other one. The cut off is absolute: singular values at most rcond are dropped even from a regular matrix.", "quantifier": "all sizes and matrices, all cut offs that are not negative, all right hand sides, all singular value decompositions", "why_tests_cant": "tests invert a few matrices; the four Penrose equations and the optimality of the solution are about all matrices and right hand sides", "anchors": ["include/arc_utilities/eigen_helpers.hpp: Pinv", "include/arc_utilities/eigen_helpers.hpp: SuggestedRcond"]}
{"id": "C115", "title": "The least squares solvers minimise what they document", "statement": "For weights that are not negative, a positive threshold and a positive damping value, WeightedLeastSquaresSolver returns the only vector x that minimises the weighted sum of squares of A x - b, to which the damping value times the squared length of x is added exactly if the smallest singular value of A' W A is below the threshold. UnderdeterminedSolver asserts that A has at least one row and more columns than rows; it returns the shortest solution of A x = b if the smallest singular value of A A' reaches the threshold, and otherwise the only minimum of the squares of A x - b plus the damped square of x.", "quantifier": "all sizes, matrices, right hand sides, weights that are not negative, positive thresholds and damping values", "why_tests_cant": "optimality against all other vectors, for all matrices, and the choice at the threshold", "anchors": ["include/arc_utilities/eigen_helpers.hpp: WeightedLeastSquaresSolver", "include/arc_utilities/eigen_helpers.hpp: UnderdeterminedSolver"]}
{"id": "C116", "title": "FitPlaneToPoints gives the plane of best fit", "statement": "For at least one point with at least one coordinate, FitPlaneToPoints returns a plane through the centroid of the points with a normal of length one, and no plane at all has a smaller sum of squared distances to the points, whether there are more or fewer points than coordinates. Without points or without coordinates an assertion fails.", "quantifier": "all dimensions, all lists of points, all thin singular value decompositions, all other planes", "why_tests_cant": "optimality against all planes, for all lists of points", "anchors": ["include/arc_utilities/eigen_helpers.hpp: FitPlaneToPoints", "include/arc_utilities/eigen_helpers.hpp: Hyperplane"]}
{"id": "C117", "title": "Switching points are the first places where the trajectory may touch a limit, and integration stops only when trapped", "statement": "From a position the search gives the first listed switching point of the path after it at which the acceleration limit can be touched (a discontinuity that can be reached from below and left below, or a minimum) and at which the velocity limits are kept, or the first place, found in steps of 1/1000 and then up to 1/1000000, at which the trajectory stops leaving the velocity limit, whichever is earlier. Both searches end. Forward integration stops before the end of the path only at a point within 1/1000000 of a crossing of a limit at which the trajectory is steeper than the limit; at a crossing where it is not, it goes on.", "quantifier": "all paths, limits, positions and starting states", "why_tests_cant": "Limits are arbitrary curves with discontinuities and infinite slopes; the comparisons must be right for every one.", "anchors": ["src/arc_utilities/time_optimal_trajectory_parametrization.cpp: GetNextSwitchingPoint, GetNextAccelerationSwitchingPoint, GetNextVelocitySwitchingPoint, IntegrateForward"]}
{"id": "C118", "title": "Multivariate normal samples have the requested mean and covariance", "statement": "A MultivariteGaussianDistribution is made exactly if the covariance is square and of the size of the mean; otherwise an assertion fails. From independent standard normal draws, repeated calls give independent samples of the normal distribution with the given mean and covariance if the covariance is symmetric and positive semidefinite, singular or not. Only the lower triangle of the covariance is read, and if it is not positive semidefinite its positive part takes its place. Each sample takes exactly as many draws as the mean has components, in order.", "quantifier": "all sizes, means and covariances, all generators, all numbers of samples", "why_tests_cant": "a sample histogram cannot establish a joint distribution, let alone for every covariance and for the independence of all samples", "anchors": ["include/arc_utilities/arc_helpers.hpp: MultivariteGaussianDistribution", "include/arc_utilities/arc_helpers.hpp: CalculateNormTransform"]}
{"id": "C119", "title": "The Gaussian functions are the densities and probabilities they name", "statement": "For a positive standard deviation, EvaluateGaussianPDF is the density of the normal distribution, EvaluateGaussianCDF the probability of numbers up to the value and IntegrateGaussian the probability of numbers between the limits, which may be infinite; limits in the wrong order fail an assertion. EvaluateTruncatedGaussianCDF, IntegrateTruncatedGaussian and EvaluateTruncatedGaussianPDF are the probability and density of the normal distribution given that the number is between the bounds, with values outside of the bounds allowed. For equal bounds the truncated distribution function is 0 at the bound and 1 above it.", "quantifier": "all means, positive standard deviations, values, limits and bounds, finite or infinite", "why_tests_cant": "identities between functions on all numbers, and a conditional probability for every pair of bounds", "anchors": ["include/arc_utilities/arc_helpers.hpp: EvaluateGaussianPDF", "include/arc_utilities/arc_helpers.hpp: EvaluateGaussianCDF", "include/arc_utilities/arc_helpers.hpp: IntegrateGaussian", "include/arc_utilities/arc_helpers.hpp: EvaluateTruncatedGaussianCDF", "include/arc_utilities/arc_helpers.hpp: EvaluateTruncatedGaussianPDF", "include/arc_utilities/arc_helpers.hpp: IntegrateTruncatedGaussian"]}
{"id": "C120", "title": "Random quaternions are uniform rotations", "statement": "GetQuaternion takes three draws from the generator and returns a quaternion of norm one for all draws between 0 and 1. From independent uniform draws, repeated calls give independent quaternions uniformly distributed on the unit sphere (the law is unchanged by every linear isometry), and their rotation matrices are independent and have the one distribution on rotations that is unchanged by composition with any fixed rotation on either side. GetRawQuaternion lists x, y, z, w of the same quaternion.", "quantifier": "all generators, all draws, all numbers of calls, all sets of rotations, all fixed rotations", "why_tests_cant": "uniformity is a statement about every measurable set of rotations and every rotation of it; sampled statistics cannot settle it", "anchors": ["include/arc_utilities/arc_helpers.hpp: RandomRotationGenerator", "include/arc_utilities/arc_helpers.hpp: GenerateUniformRandomQuaternion", "include/arc_utilities/arc_helpers.hpp: GetRawQuaternion"]}
{"id": "C121", "title": "Random Euler angles are uniform rotations", "statement": "GetEulerAngles takes four draws; for draws in [0, 1) roll and yaw are in [-pi, pi) and pitch is in [0, 2 pi). From independent uniform draws, repeated calls give independent triples, and the rotations about x, y and z by roll, pitch and yaw, composed in either order, have the uniform distribution on rotations. GetRawEulerAngles lists roll, pitch, yaw of the same triple.", "quantifier": "all generators, all draws, all numbers of calls, all sets of rotations", "why_tests_cant": "uniformity is a statement about every measurable set of rotations; it depends on the arc cosine, the shift by a quarter turn and the coin flip fitting together", "anchors": ["include/arc_utilities/arc_helpers.hpp: RandomRotationGenerator", "include/arc_utilities/arc_helpers.hpp: GenerateUniformRandomEulerAngles", "include/arc_utilities/arc_helpers.hpp: GetRawEulerAngles"]}
{"id": "C122", "title": "A log file holds exactly the messages logged, whole and in order", "statement": "Constructing a Log makes the folders above the file that are missing, replaces the file by one that holds the header line alone, and touches no other file; when a folder cannot be made it throws a runtime error and when the file cannot be opened an invalid argument error. Whatever sequence of constructions, copies, moves, assignments, messages and destructions follows, every log file holds exactly the lines logged to it, once each, in the order of the calls. When many threads log through one Log, under every schedule lines are never mixed, lost or repeated, the lines of a thread keep their order, and no deadlock occurs.", "quantifier": "all file systems, paths, headers and messages; all histories of operations on any number of loggers; all numbers of threads and all schedules", "why_tests_cant": "interleavings of threads and histories of copies and moves are unbounded; a lost or torn line shows only under some of them", "anchors": ["include/arc_utilities/log.hpp: Log", "include/arc_utilities/filesystem.hpp: CreateDirectory"]}
{"id": "C123", "title": "A listener hands over messages without races, stale results or deadlock", "statement": "Under every interleaving of callbacks and callers: get returns the message stored at some moment of the call (null when there is none); waitForNew returns only a message delivered during that call, never null and never an older one, and throws only once the node has been shut down; the stored message changes only through a callback or a waitForNew; no two threads access it at once; and some thread can always move. Once a message is stored and the others leave the listener alone, a polling waitForNew returns it.", "quantifier": "all numbers of threads, all sequences of calls and deliveries, all schedules", "why_tests_cant": "the result depends on the interleaving of the subscriber's callback thread with callers", "anchors": ["include/arc_utilities/listener.hpp: Listener", "include/arc_utilities/listener.hpp: waitForNew", "include/arc_utilities/listener.hpp: get"]}
{"id": "C124", "title": "Fast forward kinematics gives the links of the robot description", "statement": "For each of the four robot arms and every configuration, GetLinkTransforms returns the base and then every link in the frame of the link before it, as its joint's offset, roll, pitch, yaw and axis place it; a configuration of the wrong length stops the program. Every link transform is a rigid motion if the base is, the distance between consecutive link origins never depends on the configuration, and a link depends only on the joints before it. In a map configuration missing joints are at zero and other names are ignored. The link map has every link under its name and no other entry.", "quantifier": "all configurations, base transforms and maps; the four arms UR10, iiwa 7, iiwa 14 and ABB IRB 1600-1.45", "why_tests_cant": "the configuration space is a continuum, and a swapped axis or offset of one joint shows only away from the zero configuration", "anchors": ["include/arc_utilities/ur_10_fk_fast.hpp: GetLinkTransforms", "include/arc_utilities/iiwa_7_fk_fast.hpp: GetLinkTransforms", "include/arc_utilities/iiwa_14_fk_fast.hpp: GetLinkTransformsMap", "include/arc_utilities/abb_irb1600_145_fk_fast.hpp: GetLinkTransforms"]}
{"id": "C125", "title": "Conversions between messages and Eigen keep points, rotations and transforms", "statement": "Points, vectors, quaternions and wrenches keep every coordinate in both directions; a point has homogeneous coordinate one and a vector zero. A vector of messages converts element by element. A pose or transform whose quaternion has length one acts on points as the rotation by its angle about its axis followed by its translation; rigid transforms come back from messages as they were, and messages come back with the same translation and the same or the opposite quaternion. A transform that also stretches gives the rotation left after the stretch. Applying a transform to pairs, lists of points and lists of poses applies it to each, and composes.", "quantifier": "all coordinates, quaternions of length one, rigid transforms, positive stretches and lists", "why_tests_cant": "swapped components and the branches of the matrix to quaternion conversion show only on part of the rotation group, a continuum", "anchors": ["include/arc_utilities/eigen_helpers_conversions.hpp: GeometryPoseToEigenIsometry3d", "include/arc_utilities/eigen_helpers_conversions.hpp: EigenIsometry3dToGeometryPose", "include/arc_utilities/eigen_helpers_conversions.hpp: EigenMatrix3XdToVectorGeometryPoint", "include/arc_utilities/eigen_ros_conversions.hpp: ConvertTo", "include/arc_utilities/geometry_msgs_builders.hpp: MakePose", "include/arc_utilities/eigen_transforms.hpp: Transform"]}
{"id": "C126", "title": "Arithmetic on pairs and vectors is elementwise", "statement": "Abs, Multiply, Divide, Add and Sub of pairs and vectors give the result of the operation at every place, Sum gives the sum, and two vectors of different sizes give the empty vector. On vectors of integers the results are the integer results, quotients truncated, whenever they fit into the type, though products are computed through double.", "quantifier": "all vectors of numbers or of signed integers of any width, and all scalars", "why_tests_cant": "rounding of double products and inverses shows only for some of the integers", "anchors": ["include/arc_utilities/vector_math.hpp: Multiply", "include/arc_utilities/vector_math.hpp: Divide", "include/arc_utilities/vector_math.hpp: Add", "include/arc_utilities/vector_math.hpp: Sub", "include/arc_utilities/vector_math.hpp: Sum", "include/arc_utilities/vector_math.hpp: Abs"]}
{"id": "C127", "title": "Nested updates, uniqueness and chunks of lists", "statement": "nested_dict_update leads every path of keys that reaches or runs through a value of the update where the update leads, and leaves every other path alone; it raises exactly when the update has a dictionary with items where the base has another value. is_list_unique says whether an element occurs twice. repeat_last continues with the last element. zip_repeat_shorter gives as many rows as the longest list, shorter lists repeating their last element. chunked_drop_last and reversed_chunked cut a list into chunks of the size asked for, dropping less than a chunk at the end or at the start.", "quantifier": "all dictionaries of any depth, all lists and sizes", "why_tests_cant": "dictionaries of arbitrary depth and shape, and all lengths and sizes", "anchors": ["src/arc_utilities/algorithms.py: nested_dict_update", "src/arc_utilities/algorithms.py: is_list_unique", "src/arc_utilities/algorithms.py: zip_repeat_shorter", "src/arc_utilities/algorithms.py: chunked_drop_last", "src/arc_utilities/algorithms.py: reversed_chunked"]}
{"id": "C128", "title": "The closest point of a path (Python)", "statement": "closest_point returns a point of the path, the index of the waypoint before it and the fraction of the way to the next waypoint, a fraction below one, and no point of the path is closer to the query point, except by less than ten units of rounding when the path has segments shorter than that. closest_point_to_line_segment returns the point of the segment closest to the query point and its fraction. An empty path raises.", "quantifier": "all paths in every Euclidean space, all query points, and all points of the path", "why_tests_cant": "the claim compares with every one of the infinitely many points of every path", "anchors": ["src/arc_utilities/path_utils.py: closest_point", "src/arc_utilities/path_utils.py: closest_point_to_line_segment"]}
{"id": "C129", "title": "Densifying, travelling along and measuring a path (Python)", "statement": "densify gives a path which starts and ends where the given one does, has every waypoint, has consecutive points at most max_dist apart, has the same length and lies on the given path in order; each line is cut into the least number of equal steps. travel_along starts at the point of the path closest to the starting point and follows the path forwards or backwards for exactly the distance, or to the end of the path. path_length is the sum of the distances of consecutive points.", "quantifier": "all paths in every Euclidean space, all spacings, distances and starting points", "why_tests_cant": "the number of points, the place of the start and the distance are unbounded, and rounding up sits at every boundary", "anchors": ["src/arc_utilities/path_utils.py: densify", "src/arc_utilities/path_utils.py: densify_line", "src/arc_utilities/path_utils.py: travel_along", "src/arc_utilities/path_utils.py: path_length"]}
{"id": "C130", "title": "Reversed trajectories (Python)", "statement": "reverse_trajectory gives the points in reverse order; the time of each is how long before the end of the trajectory it was. Reversing twice gives the trajectory back, moved in time to start at zero. An empty trajectory raises. The velocities keep their sign, so that those of a reversed moving trajectory point the wrong way.", "quantifier": "all trajectories of any length", "why_tests_cant": "trajectories of every length with arbitrary times", "anchors": ["src/arc_utilities/path_utils.py: reverse_trajectory"]}
{"id": "C131", "title": "Polynomial trajectories (Python)", "statement": "The velocity and the acceleration which a trajectory returns are the derivatives of its position. The linear trajectory starts at x_0 and keeps the velocity v_0; the quadratic one starts at x_0 with v_0, is at x_t at time t and has one acceleration; the cubic one starts at x_0 with v_0 and is at x_t with velocity v_t at time t, and is the only cubic that does. The time zero raises.", "quantifier": "all start and end positions and velocities in every normed space, all times", "why_tests_cant": "derivatives and boundary conditions for all real data", "anchors": ["src/arc_utilities/trajectory_planning.py: get_trajectory_fn", "src/arc_utilities/trajectory_planning.py: get_linear_trajectory", "src/arc_utilities/trajectory_planning.py: get_quadratic_trajectory", "src/arc_utilities/trajectory_planning.py: get_cubic_trajectory"]}
{"id": "C132", "title": "Colour spaces and colour maps (Python)", "statement": "RGB to XYZ and back is the identity, and the two CIELAB functions are inverse to each other. XYZ to LAB and back divides each coordinate by that of the reference white; LAB to MSH and back is the identity for positive a, changes the sign of a and b for negative a, and raises for a = 0, so that black raises. rad_diff is the shortest way around the circle. interpolate_coolwarm raises exactly outside [0, 1] and for colours without an MSH form, starts at the first and ends at the second of two saturated colours, and is a grey half-way between different hues. interpolate_jet is three tents cut off at one on either range. interpolate_hot_to_cold goes from blue over cyan and green to yellow in the first three quarters; in the last its green part is four. make_color moves the components into [0, 1].", "quantifier": "all real colours, values, ranges and interpolations", "why_tests_cant": "claims about all real inputs, with different formulas on each side of several boundaries", "anchors": ["src/arc_utilities/color.py: convert_rgb_to_xyz", "src/arc_utilities/color.py: convert_xyz_to_lab", "src/arc_utilities/color.py: convert_lab_to_msh", "src/arc_utilities/color.py: interpolate_coolwarm", "src/arc_utilities/color.py: interpolate_jet", "src/arc_utilities/color.py: interpolate_hot_to_cold", "src/arc_utilities/color.py: make_color"]}
{"id": "C133", "title": "Rigid motions in Python", "statement": "For transforms and poses whose quaternion has length one: applying one to a point turns and then moves it; composing two acts as the second and then the first; the inverse undoes both ways; message to matrix and back gives the same translation and the quaternion up to sign. ComposeQuaternions and NormalizeQuaternion give quaternions of length one and the right rotation for quaternions of any length other than zero. QuaternionFromAxisAngle turns by the angle about the axis, and gives the identity for an axis that is zero or has not three coordinates; AxisFromQuaternion gives an axis of length one and an angle in [0, 2 pi] of the rotation, or angle zero within a billionth of the identity. AngleBetweenQuaternions is the angle of the rotation from one to the other, or zero where that is below 1/30. Spherical coordinates and points convert both ways. InvertMatrix always raises, AngleBetweenQuaternionsRos gives half a turn between the identity and itself, and BuildMatrixFromDH uses alpha where a belongs.", "quantifier": "all points, unit transforms and poses, quaternions, axes, angles, Denavit-Hartenberg parameters and spherical coordinates", "why_tests_cant": "identities over all real inputs, with branches near the identity and the origin", "anchors": ["src/arc_utilities/transformation_helper.py: ComposeTransforms", "src/arc_utilities/transformation_helper.py: InvertTransform", "src/arc_utilities/transformation_helper.py: ComposeTransformWithPoint", "src/arc_utilities/transformation_helper.py: ComposeQuaternions", "src/arc_utilities/transformation_helper.py: QuaternionFromAxisAngle", "src/arc_utilities/transformation_helper.py: AxisFromQuaternion", "src/arc_utilities/transformation_helper.py: AngleBetweenQuaternions", "src/arc_utilities/transformation_helper.py: AngleBetweenQuaternionsRos", "src/arc_utilities/transformation_helper.py: BuildMatrixFromDH", "src/arc_utilities/transformation_helper.py: InvertMatrix", "src/arc_utilities/transformation_helper.py: vector3_to_spherical"]}
{"id": "C134", "title": "Calls and generators with a time limit", "statement": "However the call and the alarm interleave, catch_timeout leaves no alarm on. A value with False is the value the call returned, an exception is the one the call raised and not TimeoutError, and otherwise the result is (None, True). Zero seconds means no limit. A call that has returned may still be reported as a timeout, the previous alarm handler is not put back, and limits do not nest: after an inner call with a limit the rest of the outer call is not limited. retry_on_timeout gives whole beginnings of the generator, each ended by a timeout, and ends only with a complete one. skip_on_timeout gives the items at which the alarm did not ring up to the first at which it rang inside the generator, and then ends. conditional_try replaces every exception but KeyboardInterrupt by the value given.", "quantifier": "all calls, generators, time limits and moments at which the alarm rings", "why_tests_cant": "the alarm may ring between any two steps; a test sees few of these moments", "anchors": ["src/arc_utilities/catches.py: catch_timeout", "src/arc_utilities/catches.py: retry_on_timeout", "src/arc_utilities/catches.py: skip_on_timeout", "src/arc_utilities/conditional_try.py: conditional_try"]}
{"id": "C135", "title": "Directory trees", "statement": "rm_tree of a directory whose links lead to files outside removes it with all below it and nothing else; it never adds or changes an entry, and succeeds only for a directory that is not a link. A link to a directory in it is followed: files elsewhere are deleted and the call raises. count_files_recursive is the number of entries below that are not directories, when no link leads to a directory; directory_size is the sum of the sizes of the files below, a link to a file counting as the file. get_all_subdirs gives the directories in each directory in turn. mkdir_and_ask changes nothing for a path that exists and otherwise makes only directories on the path, without asking. ask_to_remove_directories removes nothing without agreement, nor from a generator. no_overwrite_path always ends with a path that does not exist: the one given, or the same name with the first free number before its first dot; names that begin with a dot are lost, and a link that leads nowhere counts as free.", "quantifier": "all file systems, paths, names, answers and nesting depths", "why_tests_cant": "claims about every tree of directories, files and links; a test sees a few", "anchors": ["src/arc_utilities/filesystem_utils.py: rm_tree", "src/arc_utilities/filesystem_utils.py: count_files_recursive", "src/arc_utilities/filesystem_utils.py: directory_size", "src/arc_utilities/filesystem_utils.py: get_all_subdirs", "src/arc_utilities/filesystem_utils.py: mkdir_and_ask", "src/arc_utilities/filesystem_utils.py: ask_to_remove_directories", "src/arc_utilities/filesystem_utils.py: no_overwrite_path"]}
{"id": "C136", "title": "Transforms sent again and again", "statement": "With ReliableTF, at every moment at most one thread sends the transform between two frames. When no call is going on, the threads that run are those of transforms started and since neither stopped nor closed, each with the value last given, and each sends it again within two steps of its thread. Stopping and closing return once the thread ends, which takes it at most two more steps and one more message; after a close nothing is sent. For static transforms this fails: whatever was sent as static before, stopped or given another value since, is sent again with every static message, and a single static transform makes messages that grow without bound.", "quantifier": "all histories of calls to start, stop and close, and all schedules of the caller and the sending threads, including threads and waits that end with an exception", "why_tests_cant": "a test sees one interleaving of the threads; a second sender, or an old value sent after a new one, shows only in some", "anchors": ["src/arc_utilities/reliable_tf.py: ReliableTF", "src/arc_utilities/reliable_tf.py: start_send", "src/arc_utilities/reliable_tf.py: stop_send", "src/arc_utilities/reliable_tf.py: close", "src/arc_utilities/reliable_tf.py: send_at_rate", "src/arc_utilities/tf2wrapper.py: send_transform"]}
{"id": "C137", "title": "The Python listener", "statement": "A call of get on a Python Listener returns the message last received at a moment of the call, and nothing only if none has been received; if it is to wait, it returns nothing only after ROS was shut down. The user's callback is called once with each message, in the order of receiving, except that messages that arrive before the constructor has kept the callback raise AttributeError and never reach it. If the callback leaves the listener alone nothing blocks but a get that waits for the first message; if it calls get of the same listener, it blocks for ever with its first message and so does every other call.", "quantifier": "all schedules of any number of threads delivering messages and calling get, and all moments of the end of the constructor and of shutting down", "why_tests_cant": "a test sees one interleaving; the message that arrives between subscribing and the end of the constructor is a matter of timing", "anchors": ["src/arc_utilities/listener.py: Listener", "src/arc_utilities/listener.py: callback", "src/arc_utilities/listener.py: get", "src/arc_utilities/ros_helpers.py: wait_for"]}
{"id": "C138", "title": "The joystick, waiting and connecting", "statement": "Asking a joystick message for a button or an axis by name gives the value at the place of that name for the chosen driver; a message with another number of buttons or axes raises ValueError, and an unknown name AttributeError. Axes within a twentieth of zero count as zero; the direction of motion is the left stick, its first axis turned round, and the second axis of the right stick, each within [-1, 1] if the axes are. wait_for ends in the first round in which its function is true or ROS is shut down, or with the function's exception, and warns in exactly the late rounds before. get_connected_publisher returns in the first of five rounds in which the number of connections equals the number of subscribers and raises otherwise; try_to_connect ends in the first round in which all publishers are connected, and otherwise names those that are not. The direction of motion may mix several messages, a wait for a button raises AttributeError if ROS is shut down before the first message, and a publisher with more connections than subscribers counted is refused.", "quantifier": "all messages, names, drivers and axes; all sequences of messages, function values, shutdowns and numbers of connections over time", "why_tests_cant": "the answers depend on what the other side does in each round of waiting, and on every number of buttons and axes a driver may send", "anchors": ["src/arc_utilities/ros_helpers.py: joy_to_xbox", "src/arc_utilities/ros_helpers.py: wait_for", "src/arc_utilities/ros_helpers.py: get_connected_publisher", "src/arc_utilities/ros_helpers.py: try_to_connect", "src/arc_utilities/xbox.py: Xbox", "src/arc_utilities/xbox.py: deadzone"]}
{"id": "C139", "title": "File sizes as text", "statement": "parse_file_size reads exactly the texts made of digits with at most one dot and at least one digit, then at most one of k, m, g in either case, then at most one b in either case. The result is the whole number nearest to the number times 1, 10^3, 10^6 or 10^9, and of two the even one; any other text raises ValueError. The decimal digits of n followed by a unit give back n times the factor.", "quantifier": "all texts", "why_tests_cant": "there are infinitely many texts on both sides of the regular expression and every fraction may need rounding", "anchors": ["src/arc_utilities/conversions.py: parse_file_size"]}
{"id": "C140", "title": "Small conversions of the Python side", "statement": "normalize_quaternion scales a message by a positive number to length one, gives NaN only for zeros, and raises AttributeError for every list. convert_to_pose_msg takes a list of six as a position with roll, pitch and yaw about fixed axes (a unit quaternion whose matrix is Rz*Ry*Rx), a list of seven as a position and a quaternion taken as it is, messages as they are, and refuses every other length and type. convert_to_position and convert_to_positions take messages or the first three places, keep the keys, and raise IndexError exactly if some entry is too short. normalize_point scales to length one and fails its assertion only at the origin. ListPointsToNpArray has the points, or their images under a rigid motion, as columns. scale_marker_array multiplies the scales and changes nothing else. dict_round keeps the keys and rounds each value to the nearest multiple. A function wrapped by with_ros is called once, after both nodes have started; both are shut down after it whether it returns or raises, and its outcome is the outcome; if a node does not start the function is not called, and a started C++ node is left running.", "quantifier": "all messages, lists, angles, matrices, dictionaries and numbers of places; all ways in which the wrapped function, the starts and the shutdowns end", "why_tests_cant": "rounding, normalization and angles range over all numbers, and the order of clean-up must hold for every way a function ends", "anchors": ["src/arc_utilities/conversions.py: normalize_quaternion", "src/arc_utilities/conversions.py: convert_to_pose_msg", "src/arc_utilities/conversions.py: convert_to_positions", "src/arc_utilities/normalize_point_msg.py: make_unit_point", "src/arc_utilities/numpy_conversions.py: ListPointsToNpArray", "src/arc_utilities/marker_utils.py: scale_marker_array", "src/arc_utilities/dict_tools.py: dict_round", "src/arc_utilities/ros_init.py: with_ros"]}
{"id": "C141", "title": "Pretty printed values", "statement": "With delimiters, two values of one type with the same pretty printed text are equal, however vectors, sets, maps and pairs are nested, if the texts of the numbers have none of the delimiting characters and the separator starts with a comma. The text of a container is the texts of its elements with the separator between them, in square brackets for sequences, round ones for sets and braces for maps if delimiters are asked for; an empty container gives the empty text even so. Pairs and geometric types have the texts listed. Without delimiters values with different grouping have the same text.", "quantifier": "all types nested to any depth, all values, separators and choices of delimiters", "why_tests_cant": "that no two values share a text is a statement about all pairs of values of all types", "anchors": ["include/arc_utilities/pretty_print.hpp: PrettyPrint"]}
{"id": "C142", "title": "Parameters and the start of a node", "statement": "GetParam and its relatives return the value on the parameter server if it is there; otherwise the default, an empty Maybe, or invalid_argument for a required one. A default is warned of, the variants for debugging log nothing above debug level, and only a missing required parameter is logged as fatal. init_node accepts exactly the log levels 0 to 4, sets that level and starts the node with the name and the arguments given; for other levels it throws before anything is done. The options for anonymous names, signals and rosout have no effect, whatever is asked for; an argument is cut at its first zero.", "quantifier": "all servers, names, values, arguments, levels and options", "why_tests_cant": "the statement is about every server and every combination of options, and about the absence of an effect", "anchors": ["include/arc_utilities/ros_helpers.hpp: GetParam", "include/arc_utilities/ros_helpers.hpp: GetParamRequired", "include/arc_utilities/ros_helpers.hpp: GetVectorOptional", "src/roscpp_initializer.cpp: init_node"]}
{"id": "C143", "title": "Which hashes collide", "statement": "For a given seed, combining a hash is one to one and onto. Pairs with the same first part, and vectors that differ in the last place only, collide exactly if the hashes of those parts do. Vectors of three that differ in the first place only collide exactly if its hashes do; in the second or third only, if the hashes agree but for the highest bit; likewise complex numbers. The first two places of a vector of three can be exchanged without a change if their hashes have not the highest bit. Pairs that differ in the first part only can collide although the parts' hashes differ.", "quantifier": "all seeds, all hashes of parts, vectors of all lengths", "why_tests_cant": "2^128 pairs of hashes; absence of collisions cannot be sampled", "anchors": ["include/arc_utilities/hash.hpp: hash_combine", "include/arc_utilities/hash.hpp: hash<Eigen::Vector3d>", "include/arc_utilities/hash.hpp: hash<std::pair<T1, T2>>"]}
{"id": "C144", "title": "Clean-up scripts remove what they say", "statement": "In a file system without links, with roots that are directories and not inside one another, remove_small_directories removes exactly the directories directly in a root whose files have fewer bytes in all than the size given, with everything in them, if the user agrees; remove_directories_with_few_files those with fewer files, counted at all depths, than the number given. Without agreement, with a text that is no size, or with a root that is no directory, nothing is removed. With nested or repeated roots the script can raise halfway and leave later directories.", "quantifier": "all finite trees, lists of roots, sizes, counts and answers", "why_tests_cant": "deletion must be exact for every tree", "anchors": ["scripts/remove_small_directories.py: main", "scripts/remove_directories_with_few_files.py: main", "src/arc_utilities/filesystem_utils.py: ask_to_remove_directories"]}
{"id": "C145", "title": "Looking up and sending transforms in Python", "statement": "get_transform_msg ends in the first round in which the transform can be had or ROS is shut down, with the lookup of that round in the first case and with KeyboardInterrupt otherwise; with no such round it waits for ever. The matrix of get_transform moves points as the message of the lookup does; None is returned exactly for the three exceptions of tf and every other exception is raised. A pose is sent as its position and orientation, a rigid matrix as a message that moves points as the matrix does, stamped with the time given or the present one. After any calls, /tf has had the transforms that are not static one by one, and each message on /tf_static had all static ones so far in their order.", "quantifier": "all sequences of answers of tf, all unit quaternions and rigid matrices, all sequences of calls", "why_tests_cant": "waiting, histories of calls and rotations range over infinite sets", "anchors": ["src/arc_utilities/tf2wrapper.py: TF2Wrapper"]}
{"id": "C146", "title": "Paths own their segments, unless they are assigned", "statement": "In every program that constructs paths from waypoints, copies them by construction and destroys them, each path keeps its own segments until it is destroyed, no segment is deleted twice or used after it is deleted, each segment in memory belongs to exactly one path, and nothing is left when all paths are gone. Assigning one path to another breaks this: the value is right at first, but after one of the two is destroyed the other must not be used, destroying both deletes the segments twice, and the segments the assigned path had before are never freed.", "quantifier": "all sequences of constructions, copies, assignments and destructions of any number of paths with any segments", "why_tests_cant": "a double deletion or a leak depends on the whole history of objects, and often goes unnoticed when it happens", "anchors": ["include/arc_utilities/time_optimal_trajectory_parametrization.hpp: Path", "src/arc_utilities/time_optimal_trajectory_parametrization.cpp: Path::Path, Path::~Path"]}
{"id": "C147", "title": "Copies of a trajectory depend on the original", "statement": "However trajectories are constructed, copied, queried and destroyed, a query answers as a trajectory would that was never queried before, with one exception: when the time is not before that of the last query the trajectory or the one it was copied from answered before its end, and the trajectory in whose list of steps that query was answered is destroyed, the behaviour is undefined. So copies are safe as long as no trajectory is destroyed, and a copy of a trajectory that was queried is not safe when the original is gone.", "quantifier": "all sequences of constructions, copies, queries and destructions of any number of trajectories with any steps, all times", "why_tests_cant": "whether the copied iterator is still valid depends on the order of all earlier queries, copies and destructions", "anchors": ["include/arc_utilities/time_optimal_trajectory_parametrization.hpp: Trajectory", "src/arc_utilities/time_optimal_trajectory_parametrization.cpp: Trajectory::GetTrajectorySegment, Trajectory::GetPositionVelocity, Trajectory::~Trajectory"]}
{"id": "C148", "title": "Time strings as names", "statement": "GetCurrentTimeAsString gives the same string for two moments exactly if their local times agree in all fields from the year to the second; from the year 1000 to 9999 the alphabetical order of these strings is the order of the local times. With milliseconds two strings are the same exactly if the local times and the milliseconds are, but the strings are not in the order of time: the milliseconds are written without leading zeros, so moments of one second are in order only if their milliseconds have equally many digits, and in every second there are later moments whose strings come before earlier ones.", "quantifier": "all moments and all conversions to local time", "why_tests_cant": "the order of two strings depends on the moments at which they are made, and only some pairs of moments show the error", "anchors": ["include/arc_utilities/arc_helpers.hpp: GetCurrentTimeAsString, GetCurrentTimeAsStringWithMilliseconds"]}
{"id": "C149", "title": "Comparisons of vectors", "statement": "For finite vectors of two or three coordinates, CloseEnough holds exactly if each coordinate differs by at most the size of the threshold, whose sign has no effect. With two coordinates it fails whenever a coordinate or the threshold is NaN or a coordinate is the same infinity in both vectors; with three coordinates it is the other way round, so a vector of NaNs is close enough to every vector. Equal3d and Equal4d hold exactly if all coordinates are equal and none is NaN. Vectors of vectors are compared element by element and must be equally long.", "quantifier": "all vectors of doubles including infinities and NaN, all thresholds, vectors of any length", "why_tests_cant": "it ranges over all numbers and lengths, and the failure needs values that are not numbers", "anchors": ["include/arc_utilities/eigen_helpers.hpp: CloseEnough, Equal3d, Equal4d, IsApprox", "include/arc_utilities/math_helpers.hpp: CloseEnough"]}
{"id": "C150", "title": "Detecting a debugger", "statement": "If the status file has a line TracerPid: with a number within its first 1023 characters and no line before it has this word in it, IsDebuggerPresent is true exactly if the number is not zero, whatever follows. Without the file, without the word, or with the word only after the first 1023 characters, it is false. It is true for a process that is not traced if the name of the process is such that the word is found in it followed by a number that is not zero.", "quantifier": "all contents of the status file", "why_tests_cant": "it ranges over all texts, and the answer is wrong only for unusual names and for long files", "anchors": ["include/arc_utilities/arc_helpers.hpp: IsDebuggerPresent"]}
{"id": "C151", "title": "Random walk query of the roadmap planner", "statement": "On a consistent roadmap with edges in both directions, as the planner builds them, the random walk query gives start and goal nodes that stand for them and keeps the roadmap's states and consistency. The answers it can give are exactly the paths without loops between the two nodes, each with the sum of the distances between its states. If the start is not the goal and could not be joined to any node, the behaviour is undefined; otherwise the query returns such an answer or goes on walking, whatever is drawn. It takes no notice of edges that UpdateRoadMapEdges found impossible: it can answer with a path along them and a finite length.", "quantifier": "all roadmaps, states, distances, edge checks and sequences of random draws", "why_tests_cant": "it ranges over all random draws and all roadmaps", "anchors": ["include/arc_utilities/simple_prm_planner.hpp: QueryPathAndAddNodesSingleStartSingleGoalRandomWalk, UpdateRoadMapEdges", "include/arc_utilities/dijkstras.hpp: GraphRandomWalk", "include/arc_utilities/math_helpers.hpp: CalculateTotalDistance"]}
{"id": "C152", "title": "Goal bias and time limit of the planner", "statement": "With a goal bias, the target of each round is the next state of the state sampler if the number drawn for the round is larger than the bias and the next goal otherwise; each sampler is called only for its own rounds. With a bias of one or more every target is a goal, with a negative bias none is, with a bias of zero the goal is a target in exactly the rounds in which zero is drawn. With a time limit no round begins after the limit has passed, the planner returns once the clock has passed the limit, and a planner without time returns the start if it passes the goal test and no path otherwise. What is returned is a path from the start to a state that passes the goal test, propagated towards these targets, or no path if no state of the tree passes the test.", "quantifier": "all sequences of numbers drawn, of sampled states and of clock readings, all callbacks, all biases and limits", "why_tests_cant": "it ranges over all random numbers and all timings", "anchors": ["include/arc_utilities/simple_rrt_planner.hpp: SimpleHybridRRTPlanner, Plan"]}
{"id": "C153", "title": "Reading a stored result of Dijkstra's algorithm", "statement": "A graph, the previous indices and the distances, written one after the other with the library's serializers, are read back unchanged from any place in a buffer, and the number of bytes reported is the number used. From arbitrary bytes the reader never reads outside the buffer, fails only by an assertion or std::length_error, and refuses every truncation of something it accepts. What is read is not checked: it can be a graph with edges to nodes that do not exist, or indices and distances that do not match the nodes.", "quantifier": "every result of every size, every offset and surroundings in a buffer, every byte buffer, every value type with a correct serializer", "why_tests_cant": "All byte buffers and all graphs, indices and distances.", "anchors": ["include/arc_utilities/dijkstras.hpp: DijstrasResult", "include/arc_utilities/graph.hpp: Deserialize", "include/arc_utilities/serialization.hpp: DeserializeVector"]}
{"id": "C154", "title": "Asking and telling the user", "statement": "On a terminal GetChar returns and removes the next character typed, in order over successive calls, reports the end of the input without getting stuck, repairs a stream on which a read has failed, and always leaves the terminal with the flags it had; only line buffering is off while it waits. Without a terminal it reads flags that were never set. WaitForInput returns the next line without its end. InteractiveWaitToContinue does not wait under a debugger; otherwise it uses exactly one character, whatever it is, so a longer line lets several waits through although the prompt asks for ENTER. Messages are printed exactly when their level is at most the level asked for, to the right stream, and the text tells the message and both levels.", "quantifier": "every input, stream state, terminal flags, message and pair of levels, every number of calls", "why_tests_cant": "All inputs and states of the stream and the terminal.", "anchors": ["include/arc_utilities/arc_helpers.hpp: GetChar", "include/arc_utilities/arc_helpers.hpp: WaitForInput", "include/arc_utilities/arc_helpers.hpp: InteractiveWaitToContinue", "include/arc_utilities/arc_helpers.hpp: ConditionalPrint", "include/arc_utilities/arc_helpers.hpp: ConditionalError", "include/arc_utilities/arc_helpers.hpp: ConditionalPrintWaitForInteractiveInput"]}
{"id": "C155", "title": "What the printed texts of graphs, grid indices, lists and collisions tell", "statement": "Two edges are printed alike exactly if they join the same nodes, in the same direction, with weights written alike. Two nodes are printed alike exactly if their distances are written alike and their edges in and out are printed alike, in order; two graphs printed alike have nodes printed alike, in order. The values of nodes and the validity of edges are not shown. The text of a grid index or of a list of whole numbers determines it; the text of a list of strings determines it only if no string contains a line end. The text of a collision result names the bodies of the first contact and adds that there are others exactly if there are more contacts or more pairs of bodies; it is empty if the first pair has no contacts.", "quantifier": "all edges, nodes and graphs, all ways of writing numbers without space, comma, line end or capital O, all indices, lists of numbers, lists of strings and collision results", "why_tests_cant": "That two different graphs are never printed alike is a statement about all pairs of graphs; tests compare single texts.", "anchors": ["include/arc_utilities/graph.hpp: GraphEdge::print, GraphNode::print, Graph::print", "include/arc_utilities/voxel_grid.hpp: operator<<", "include/arc_utilities/ostream_operators.hpp: operator<<", "include/arc_utilities/moveit_ostream_operators.hpp: operator<<"]}
{"id": "C156", "title": "Arithmetic of the padded three-dimensional vector type", "statement": "Every expression built from Aligned4Vector3 constructors, +, -, * and / with numbers, cross and normalized has the value of the same expression on ordinary three-dimensional vectors, and dot, sum, squaredNorm and norm of such values are the ordinary ones; no assertion fails. After the operators that change a vector in place the three visible coordinates are still right, but the hidden fourth coefficient is not one any more: the measures then end the program if assertions are on, and are otherwise off by exactly w - 1 or w squared - 1. In particular norm() after normalize() gives one over the former length. (a -= b) += c does not add c to a. isApprox depends on the visible coordinates only.", "quantifier": "all expressions, all sequences of operations in place, all vectors and numbers, assertions on or off", "why_tests_cant": "It is about all expressions and all sequences of operations; a test with a fixed sequence sees the hidden coefficient only if it asks for a measure at the right moment.", "anchors": ["include/arc_utilities/aligned_eigen_types.hpp: Aligned4Vector3, operator+=, operator-=, normalize, normalized, dot, squaredNorm, norm, cross, isApprox"]}
{"id": "C157", "title": "Voxel grids without cells and storage changed from outside", "statement": "A voxel grid made by the default constructor stays without cells and not initialized under any sequence of reads, writes, resets and changes of its values: nothing fails, writes are refused, and reads give the last value set for indices out of bounds, or a value that was never set if there is none. All locations have index (0,0,0) and are out of bounds; all indices have the location of the origin. The origin is the identity until UpdateOriginTransform gives another one, its inverse follows it, and all sizes and numbers of cells are zero. If the storage of an initialized grid is replaced through GetMutableRawData by one of another length, access to a cell whose place is missing throws out_of_range and nothing outside the storage is touched.", "quantifier": "all sequences of operations on a default constructed grid, all locations and indices; all initialized grids, histories, storages and cells", "why_tests_cant": "It ranges over all histories, all locations and all lengths of the storage.", "anchors": ["include/arc_utilities/voxel_grid.hpp: VoxelGrid, IsInitialized, GetImmutable, SetValue, SetOOBValue, GetMutableRawData, AccessIndex, LocationToGridIndex"]}
{"id": "C158", "title": "Indices and locations of voxel grids with rounding", "statement": "With the rounding of double arithmetic taken into account, in a voxel grid whose origin is translated but not rotated, by at most 2^48 cells, with at most 2^48 cells along each axis, the computed location of every cell is looked up as that very cell, for any cell sizes, including grids centred at zero. A location that lies inside a cell by more than 4(i+1) rounding units (as a fraction of a cell) is looked up as that cell.", "quantifier": "all roundings to 53 binary digits that keep order and sign, all translations, cell sizes, numbers of cells, indices within bounds and locations", "why_tests_cant": "A test tries a few cell sizes; whether rounding ever moves the centre of a cell into its neighbour depends on every combination of cell size, origin and index.", "anchors": [{"file": "include/arc_utilities/voxel_grid.hpp", "symbols": ["GridIndexToLocation", "LocationToGridIndex", "LocationToGridIndex3d", "Initialize"]}]}
{"id": "C159", "title": "Angles with rounding", "statement": "With the rounding of double arithmetic taken into account: EnforceContinuousRevoluteBounds makes no rounding error at all, for every double it returns the one double in (-pi, pi] that differs from it by whole turns of 2*M_PI. Adding makes only the error of the sum. Signed distances and distances are off by at most 2*unit*pi, exactly antisymmetric and symmetric, at most pi, zero for the same angle, and satisfy the triangle inequality up to 6*unit*pi; the range is within [0, 2*pi]. Interpolation stays within 5*unit*pi of a point on a way between the angles no longer than pi (up to rounding) and is exact at the start. The distance of two different angles can however be computed as zero.", "quantifier": "all roundings to 53 binary digits that keep order and sign, all positive doubles for M_PI, all doubles for the angles, all ratios", "why_tests_cant": "Rounding errors depend on every bit of the arguments; a test cannot rule out one angle among 2^64 that is wrapped outside the interval.", "anchors": [{"file": "include/arc_utilities/math_helpers.hpp", "symbols": ["EnforceContinuousRevoluteBounds", "ContinuousRevoluteSignedDistance", "ContinuousRevoluteDistance", "AddContinuousRevoluteValues", "GetContinuousRevoluteRange", "InterpolateContinuousRevolute"]}]}
{"id": "C160", "title": "Interpolation, distances and averages with rounding", "statement": "With the rounding of double arithmetic taken into account: Interpolate is exact at both ends, never decreasing in either number and at most 4*unit*max(|p|,|q|) off. SquaredDistance and Distance are not negative, exactly symmetric, zero exactly for equal vectors, and off by a factor of at most (1 +- unit)^(n+3), for the square of the distance (1 +- unit)^(n+5). The total length of a path of n segments is off by a factor of at most (1 +- unit)^n and never decreases when a point is added. The weighted average of n values stays within the range of the values up to 4*unit*M however many values there are, differs from the exact average by at most 20*n*unit*M, is exact for equal values, and fails an assertion exactly when the exact one does (M bounds the absolute values).", "quantifier": "all roundings to 53 binary digits that keep order and sign, all lists of doubles and weights (up to 2^40 values for the average), all paths and non-negative distances", "why_tests_cant": "Errors accumulate over lists of any length; a test tries a few lists and cannot bound the worst one.", "anchors": [{"file": "include/arc_utilities/math_helpers.hpp", "symbols": ["Interpolate", "SquaredDistance", "Distance", "CalculateTotalDistance", "AverageStdVectorDouble"]}]}
{"id": "C161", "title": "Shortest distances with rounded sums", "statement": "When PerformDijkstrasAlgorithm runs on doubles, adding them with rounding and overflowing to infinity, the call still returns; every finite distance reported for a node is at most the exact cost of each route of k edges times (1+2^-53)^k, and at least the exact cost of some route of fewer edges than the graph has nodes times (1-2^-53)^k; it is infinite only if the exact cost of every route times (1+2^-53)^k exceeds the largest double.", "quantifier": "every linked graph with non-negative double weights, every start node, every order in which ties are broken, every rounding that keeps the order and the sign", "why_tests_cant": "The error grows with the length of routes that tests do not reach, and all graphs and weights are covered.", "anchors": [{"file": "include/arc_utilities/dijkstras.hpp", "symbols": ["SimpleDijkstrasAlgorithm::PerformDijkstrasAlgorithm"]}]}
{"id": "C162", "title": "A* with heuristics that overestimate and with rounded sums", "statement": "For any heuristic that is not negative at the goal, PerformLazyAstar and GenericAstarSearch return and report a path exactly when there is one; if along some path cost so far plus heuristic never exceed a bound, the cost reported does not exceed it. With doubles added with rounding, and a heuristic that is at most e times the exact cost to the goal (e = 1 for an admissible one), the cost reported is at most e times the exact cost of every path of k steps times (1+2^-53)^k, and the exact cost of the path returned times (1-2^-53)^k is at most the cost reported; it is infinite only if those products exceed the largest double.", "quantifier": "every graph or finite state space with non-negative costs, all callbacks and heuristics, every order in which ties are broken, both values of limit_pqueue_duplicates, every factor e >= 1 and every rounding that keeps the order and the sign", "why_tests_cant": "The bound ranges over all heuristics, all graphs and all tie-breaks; rounding makes even admissible heuristics overestimate slightly.", "anchors": [{"file": "include/arc_utilities/dijkstras.hpp", "symbols": ["SimpleGraphAstar::PerformLazyAstar"]}, {"file": "include/arc_utilities/arc_helpers.hpp", "symbols": ["GenericAstarSearch"]}]}
{"id": "C163", "title": "Hashed voxel grids with rounded arithmetic", "statement": "With the rounding of double arithmetic taken into account, in a hashed voxel grid whose origin is translated but not rotated, every history of operations at locations that lie inside their cells by more than 16(|i|+n) rounding units (as a fraction of a cell, i the index of the cell, n the number of cells in a chunk) reports exactly what exact arithmetic would, so reads return the latest value written to the cell or its chunk. At any other location SetCellValue either reports SET_CELL and the location then reads the value, or reports NOT_SET and changes nothing, which does happen: a write at -2^-60 into a grid of cells of size 0.25 is lost. SetChunkValue always reports SET_CHUNK and its location then reads the value. Near boundaries cells still do not overlap: a cell write changes what other locations of the same rounded cell read, and among the other locations at most those of the same chunk that rounding puts outside of every cell, which then read the default value. No history fails, whatever the origin, as long as the chunk numbers of the locations fit in 64 bits.", "quantifier": "all roundings that meet the rules of IEEE arithmetic, all translations, cell sizes and cell counts, all histories and locations", "why_tests_cant": "The set of locations whose rounded chunk number, base and offset disagree is tiny and depends on the cell size; only a bound on the error for all sizes and indices rules it out.", "anchors": [{"file": "include/arc_utilities/dynamic_spatial_hashed_voxel_grid.hpp", "symbols": ["GetContainingChunkRegion", "GetLocationDataIndex", "SetCellValue", "SetChunkValue", "GetImmutable", "GetMutable"]}]}
{"id": "C164", "title": "Hashed voxel grids: the elements of the stored chunks", "statement": "After any history of operations on a hashed voxel grid, each chunk in GetInternalChunks has either the cells of the grid or one element of the size of a chunk. Every element can be read by its index, GetIndexLocationInGrid gives its location in the frame of the grid, and a read of the grid at that location returns the same value with FOUND_IN_CELL or FOUND_IN_CHUNK. Any other index gives the initial value with false and no location. Conversely every value that a read finds is an element of a stored chunk, and the read location lies within half the element's size of its location along each axis. A grid made without arguments reports IsInitialized, yet every access to it is undefined.", "quantifier": "all isometries, cell sizes and cell counts, all histories, all stored chunks, all indices and all locations", "why_tests_cant": "Exporting code walks over all stored chunks and trusts each location; a wrong stride or half-cell offset shows only for some shapes of chunks.", "anchors": [{"file": "include/arc_utilities/dynamic_spatial_hashed_voxel_grid.hpp", "symbols": ["GetInternalChunks", "GetImmutableByIndex", "GetMutableByIndex", "GetIndexLocationInGrid", "GetElementSize", "GetCellSizes", "GetChunkSizes", "GetChunkNumCells", "IsInitialized"]}]}
{"id": "C165", "title": "Voxel grids: kept references and arguments that refer into the grid", "statement": "A reference returned by GetMutable or GetImmutable for a cell keeps reading the current value of that cell, whatever is written by index or through this or other references, until the grid is reset, its raw data is replaced or it is initialized again; after that its use is undefined. A reference to the value for indices out of bounds stays valid. SetValue, SetDefaultValue, SetOOBValue, ResetWithNewDefault and Initialize given a valid reference into the grid use the value it had. ResetWithNewValue given a reference to a cell of the same grid is undefined, because the storage is cleared before the value is read.", "quantifier": "all created grids, all histories of reads, writes, resets and initializations that keep and pass back any number of references", "why_tests_cant": "Reading a destroyed element often returns the old bytes, so a test passes by accident; which histories are safe is a statement about all of them.", "anchors": [{"file": "include/arc_utilities/voxel_grid.hpp", "symbols": ["GetMutable", "GetImmutable", "SetContents", "ResetWithNewValue", "ResetWithNewDefault", "SetRawData", "Initialize"]}]}
{"id": "C166", "title": "Graphs: the edges that an editing history leaves, and finding them by their ends", "statement": "After any history of adding nodes and edges, the graph holds exactly the nodes and edges that were added, each edge in the out edges of its source and the in edges of its target, in the order of addition. getEdge(i, j) returns the first edge added from i to j, throws std::invalid_argument when there is none and std::out_of_range when i is not a node; indexInRange says exactly whether getNode succeeds. If all edges were added in pairs, getReverseEdge of an edge found by getEdge returns an edge with the ends swapped and the same weight. For an edge added one way it throws, and for a second pair between the same nodes it returns the edge of the first pair, with a different weight.", "quantifier": "all histories of node and edge additions, all weights, all indices including negative ones", "why_tests_cant": "The claim is about every sequence of additions and every pair of indices; parallel edges and one-way edges are the cases tests leave out.", "anchors": [{"file": "include/arc_utilities/graph.hpp", "symbols": ["getEdge", "getReverseEdge", "indexInRange", "getNode", "addEdgeBetweenNodes", "addEdgesBetweenNodes", "getEdgeTo"]}]}
{"id": "C167", "title": "Graphs: a change made through an edge reference, and which searches see it", "statement": "Setting the weight or the validity of the edge that getEdge returns changes that one out edge and nothing else, keeps the linkage check true, and is what getEdge reads afterwards; a call that throws changes nothing. The result of Dijkstra's search depends only on the in edges and of A* search only on the out edges and the node values. Hence no change made through getEdge or getReverseEdge is seen by Dijkstra's search, while A* search sees it: after both directions of an edge are given a new weight or marked invalid, the two searches disagree on the same graph, although the linkage check still passes.", "quantifier": "all graphs, all pairs of nodes, all changes of weight and validity, all tie-breaking orders of the priority queue", "why_tests_cant": "Which copy of an edge each algorithm reads is a statement about all graphs and all runs; tests that build a graph once and search it never see the copies differ.", "anchors": [{"file": "include/arc_utilities/graph.hpp", "symbols": ["getEdge", "getReverseEdge", "setWeight", "setValidity", "isValid", "isInvalid", "checkGraphLinkage"]}, {"file": "include/arc_utilities/dijkstras.hpp", "symbols": ["PerformDijkstrasAlgorithm", "PerformLazyAstar"]}]}
{"id": "C168", "title": "RRT planner: planning again in a used tree, and the child indices of a state", "statement": "Planning into a tree that already has states gives the same result as planning into an empty one, if the start state is a separate object. If the start is a reference to a state in the tree that is passed, the call is undefined, because the tree is cleared before the start is read. After any history of adding, removing and clearing child indices, a state has exactly the indices added and not removed or cleared since, each once, in the order of addition, and its value, parent and mark are unchanged.", "quantifier": "all trees, all start states, all planner functions, all histories of child edits", "why_tests_cant": "Reading a destroyed state often returns the old bytes, so a test passes by accident; the histories of child edits are unbounded.", "anchors": [{"file": "include/arc_utilities/simple_rrt_planner.hpp", "symbols": ["PlanMultiPath", "Plan", "AddChildIndex", "RemoveChildIndex", "ClearChildIndicies"]}]}
{"id": "C169", "title": "Serialization: a byte buffer serialized into itself", "statement": "Passing one byte buffer both as the vector to serialize and as the buffer to append to gives the same result as serializing a separate copy: the old length in 8 bytes and the old bytes are appended, the old contents stay in front, the returned count is the number of bytes appended, and reading back at the old end returns the old contents. The same holds for the network functions, with the length most significant byte first.", "quantifier": "all byte buffers of fewer than 2^63 bytes, both host byte orders", "why_tests_cant": "The loop reads from a vector that grows and moves while it runs; the claim is about every buffer and every point at which it moves.", "anchors": [{"file": "include/arc_utilities/serialization.hpp", "symbols": ["SerializeVector", "SerializeNetworkVector", "SerializeFixedSizePOD", "SerializeNetworkFixedSizePOD"]}]}
{"id": "C170", "title": "Serialization: deserializing in a build without assertions", "statement": "In a build with NDEBUG every deserialize call does what it does with assertions, for every buffer and offset, except that where an assertion would fail the behaviour is undefined. So written values are read back as before, but a value that was cut off anywhere is not rejected: reading it is undefined or throws std::length_error.", "quantifier": "all nestings of fixed-size values, strings, vectors, pairs and maps in host or network order, all buffers including truncated and corrupted ones, all offsets", "why_tests_cant": "Reading past the end of a vector often returns neighbouring memory, so a test passes by accident; the claim compares two builds on every buffer.", "anchors": [{"file": "include/arc_utilities/serialization.hpp", "symbols": ["DeserializeFixedSizePOD", "DeserializeString", "DeserializeVector", "DeserializePair", "DeserializeMap", "DeserializeNetworkFixedSizePOD", "DeserializeNetworkVector", "DeserializeNetworkMap"]}]}
{"id": "C171", "title": "How long references into a graph are valid", "statement": "A reference to an edge of a graph refers to that edge as it is now, and what is set through it is set in the graph and nowhere else, exactly until the vector that holds it has more edges than it had room for when the reference was made, or nodes have to be copied to a larger storage (nodes are moved, and references to edges stay valid, if moving a node's value cannot throw). A reference to a node stays valid exactly until there are more nodes than there was room for; in a graph made for an expected number of nodes that is at least that number. After that the use of the reference is undefined. addEdgeBetweenNodes and addEdgesBetweenNodes use only valid references themselves, whatever storages move, and addEdgesBetweenNodes returns both edges as they are in the graph afterwards. shrinkToFit changes no node or edge but may end the validity of references.", "quantifier": "all graphs that can be built, all references to nodes and to incoming and outgoing edges, all later sequences of additions and changes, all ways in which vectors grow, moved and copied nodes", "why_tests_cant": "whether a reference outlives an addition depends on capacities chosen by the library and on the history; a dangling reference often seems to work", "anchors": [{"file": "include/arc_utilities/graph.hpp", "symbols": ["Graph::getNode", "Graph::getEdge", "Graph::addEdgeBetweenNodes", "Graph::addEdgesBetweenNodes", "Graph::addNode", "Graph::shrinkToFit", "Graph::Graph"]}]}
{"id": "C172", "title": "Number of cells of a voxel grid made from sizes, with rounding", "statement": "With the rounding of double arithmetic, a voxel grid initialized with a total size along an axis has at least one cell there, no layer of cells wholly outside that size, and cells that cover all of it but a share of at most one rounding unit; the number of cells is the one needed or one fewer. If the size is the rounded product of a number of cells and the cell size, the grid has that number of cells or one more: a size of 3 * 0.1 with cells of 0.1 gives four cells. Sizes that are not positive are refused. Otherwise the grid is the one made from these numbers of cells, whose storage, values and index places are those of the grid with exact arithmetic.", "quantifier": "all roundings to 53 binary digits that keep order and sign, all sizes and cell sizes up to 2^53 cells, grids with and without an origin", "why_tests_cant": "the count depends on the last digit of a rounded quotient; tests see a few sizes", "anchors": [{"file": "include/arc_utilities/voxel_grid.hpp", "symbols": ["VoxelGrid::Initialize", "VoxelGrid::CoreInitialize"]}]}
{"id": "C173", "title": "The preliminary clustering of k-means looks at exactly a tenth of the points, rounded up", "statement": "With preliminary clustering asked for and double arithmetic rounded to nearest, k-means clusters a subset of distinct points whose number is the least one that is at least a tenth of the number of points, if that is at least five per cluster, and starts from the centers found; otherwise it clusters as if no preliminary clustering had been asked for. With any other rounding the subset has that many points or one more, and never more points than there are, so drawing the subset can end.", "quantifier": "every number of points up to 2^50, every number of clusters, every data, distance, average and random sequence", "why_tests_cant": "The literal 0.1 is not a tenth, so the product can land on either side of a whole number before it is rounded up; whether it ever does has to be shown for every number of points.", "anchors": [{"file": "include/arc_utilities/simple_kmeans_clustering.hpp", "symbols": ["SimpleKMeansClustering::Cluster", "SimpleKMeansClustering::ClusterWeighted"]}]}
{"id": "C174", "title": "Resampling of paths with rounding", "statement": "With rounded double arithmetic, ResamplePath keeps the first state, contains every original state at positive distance from its predecessor, in order and exactly, and cuts each segment into the least number of pieces of length at most the resampling distance, or one fewer; the ratios it interpolates at grow, lie within a rounding of the equal ones, and the last one is exactly one. Neighbouring states are at most the resampling distance apart up to a share of 2^-52 of it and of the segment, and with rounding to nearest they can be further apart than the resampling distance. Empty paths and bad index ranges throw.", "quantifier": "every path, distance and interpolation function, every monotone rounding to 53 digits", "why_tests_cant": "The number of pieces is the ceiling of a rounded quotient, and the ratios are rounded quotients; that no rounding ever drops the end of a segment, repeats a state or swaps two has to be shown for all distances and numbers of pieces.", "anchors": [{"file": "include/arc_utilities/path_utils.hpp", "symbols": ["ResamplePath", "ResamplePathPartial"]}]}
{"id": "C175", "title": "Clones of a robot share its points, and points live as long as a robot needs them", "statement": "A robot with point or sphere geometry and every clone of it refer to the same points: however long after the cloning, reading the points of a link of one gives what reading them of the other gives, and what is written through one is read through the other. Points can be read and changed as long as any robot that has them exists, whatever became of the robot it was cloned from and of the pointers it was made with, and they are freed exactly when the last robot and the last pointer are gone. Positions are not shared: a clone starts at the position of the robot, and the position of a robot changes only when it is set on this robot.", "quantifier": "every history of making points, robots and clones, giving up pointers and robots, setting and reading positions, and reading and writing points", "why_tests_cant": "dangling points, leaks and unwanted sharing depend on the order in which robots are cloned, changed and deleted, over histories of any length", "anchors": [{"file": "include/arc_utilities/simple_robot_models.hpp", "symbols": ["PointSphereGeometry::Geometry", "SE2RobotWithGeometry::Clone", "SE3RobotWithGeometry::Clone", "LinkedRobotWithGeometry::Clone", "GetLinkGeometries"]}, {"file": "include/arc_utilities/simple_se2_robot_model.hpp", "symbols": ["SetPosition", "GetPosition"]}]}
{"id": "C176", "title": "Samples of a truncated normal distribution with rounded arithmetic", "statement": "With rounded double arithmetic, a truncated normal distribution with positive standard deviation and bounds in order can always be constructed. Naive rejection is used exactly if the mean is within the bounds, the one-sided exponential method exactly if it is not and a bound is infinite, and one of the two remaining methods otherwise; rounding does not influence this. Unless rejection from the uniform distribution is used, every sample is within the bounds up to at most 2^-53 * (4 |bound - mean| + |bound|), and for the standard normal distribution with double bounds exactly within. This needs only that the computed sqrt(x^2 + 4) is at least |x|, which holds for correctly rounded sqrt and pow. Without the slack it is false: with mean 0, standard deviation 49 and lower bound 1 a sample can be smaller than 1. Rejection from the uniform distribution yields a draw between the given bounds, scaled by mean and standard deviation once more.", "quantifier": "all means, positive standard deviations, finite or infinite bounds, sequences of random draws, ways of rounding and functions sqrt, exp and pow", "why_tests_cant": "Whether a sample leaves the bounds by a rounding depends on the digits of mean, deviation and bound, and on rare draws next to the bound.", "anchors": [{"file": "include/arc_utilities/arc_helpers.hpp", "symbols": ["TruncatedNormalDistribution", "TruncatedNormalDistribution::CheckSimple", "TruncatedNormalDistribution::SimpleAcceptReject", "TruncatedNormalDistribution::ComplexAcceptReject", "TruncatedNormalDistribution::Sample"]}]}
{"id": "C177", "title": "Upsampling of paths with rounded arithmetic", "statement": "With rounded double arithmetic UpsamplePath (and the version for a part of a path) with more points than there are still returns exactly num_points states. It contains all original states exactly and in order, and starts and ends as the path does. The ratios in a segment grow strictly from 0, stay below 1 and are within 3 rounding units (relative) of the equal ones. The longest piece is longer than that of any other distribution of the points by a factor of at most 1 + 4 * 2^-53, and with an even interpolation neighbouring states are no further apart than an equal piece up to 6 rounding units of the segment.", "quantifier": "all paths, ranges, numbers of points up to 2^51, distance functions that return non-negative doubles, ways of rounding and of choosing among equally long pieces", "why_tests_cant": "Rounding could let a ratio reach one, repeat a ratio or shift a split to another segment, for rare lengths and counts only.", "anchors": [{"file": "include/arc_utilities/path_utils.hpp", "symbols": ["UpsamplePathPartial", "UpsamplePath"]}]}
{"id": "C178", "title": "Hash and equality of grid indices", "statement": "Two grid indices compare equal exactly if all three coordinates are equal, and equal indices have the same hash. The hash of an index with non-negative coordinates is x xor y xor 2z. So two different cells of one row along x never share a hash, but a cube of 2^k cells per side has fewer than 2^(k+1) different hashes, and 2^(2k-1) of its cells share the hash zero: containers keyed by grid indices degrade to long buckets.", "quantifier": "all pairs of grid indices and all cube sizes up to 2^62 cells per side", "why_tests_cant": "Which cells collide depends on all bits of the coordinates; a test sees only the small grid it was written for.", "anchors": [{"file": "include/arc_utilities/voxel_grid.hpp", "symbols": ["GRID_INDEX", "GRID_INDEX::operator==", "std::hash<VoxelGrid::GRID_INDEX>"]}]}
{"id": "C179", "title": "Angle range checks with rounded arithmetic", "statement": "With rounded double arithmetic, CheckInContinuousRevoluteRange answers true exactly if the range computed by GetContinuousRevoluteRange from the start to the value is at most the given range, and the answer does not change if whole turns are added to doubles without rounding. CheckInContinuousRevoluteBounds always counts both ends as within the bounds, of two angles always finds one within the bounds given by the other, and is transitive. If the wrapped angles differ by less than half a turn, the answer is right whenever the counter-clockwise angle differs from the range by more than 4 * 2^-53 * pi.", "quantifier": "all double starts, ends, ranges and values and all ways of rounding", "why_tests_cant": "An end of the bounds could drop out of its own bounds by a rounding, for rare digits only.", "anchors": [{"file": "include/arc_utilities/math_helpers.hpp", "symbols": ["CheckInContinuousRevoluteRange", "CheckInContinuousRevoluteBounds", "GetContinuousRevoluteRange"]}]}
{"id": "C180", "title": "Standard deviation with rounded arithmetic", "statement": "With rounded double arithmetic ComputeStdDevStdVectorDouble aborts for no values and returns zero for one. Otherwise the result is not negative, is zero exactly if all values are the same (with a given mean: equal to it), and its square is the sample variance up to a factor (1 +- 2^-53)^(n+7) and, if the mean is computed as well, the square of the error of that mean.", "quantifier": "all lists of double values (up to 2^40 of them), all given means and all ways of rounding", "why_tests_cant": "Rounding could make the deviation of equal values positive, that of different ones zero or the argument of the root negative, for rare digits only.", "anchors": [{"file": "include/arc_utilities/math_helpers.hpp", "symbols": ["ComputeStdDevStdVectorDouble", "AverageStdVectorDouble"]}]}
{"id": "C181", "title": "Nearest neighbours with distances that are not a number", "statement": "If some distances are not a number and there are more items than neighbours asked for, the serial nearest neighbour query returns the nearest of the items whose distance is a number below infinity, filled up with entries of index -1 and infinite distance; the parallel query returns the same items' distances, under every schedule, without the filling. With at most as many items as asked for, both return every item, also those whose distance is not a number.", "quantifier": "all lists of items, distance functions with values that may be not a number, numbers of neighbours and schedules", "why_tests_cant": "Comparisons with what is not a number are false; whether such an item displaces or shields another depends on the order of all items and on the schedule.", "anchors": [{"file": "include/arc_utilities/arc_helpers.hpp", "symbols": ["GetKNearestNeighborsSerial", "GetKNearestNeighborsParallel"]}]}
{"id": "C182", "title": "Hausdorff distance with distances that are not a number", "statement": "SimpleHausdorffDistance::ComputeDistance with a distance function that may return what is not a number returns a number under every schedule: the directed Hausdorff distance in which such distances count as infinite. It is finite exactly if every item of the first set has an item of the second at a distance that is a number below infinity.", "quantifier": "all pairs of sets, distance functions with values that may be not a number, and schedules of the parallel loop", "why_tests_cant": "A distance that is not a number could be dropped or could spread to the result depending on the order and the thread that meets it.", "anchors": [{"file": "include/arc_utilities/simple_hausdorff_distance.hpp", "symbols": ["SimpleHausdorffDistance::ComputeDistance"]}]}
{"id": "C183", "title": "K-means with distances that are not a number", "statement": "K-means clustering with a distance function that may return what is not a number behaves as if these distances were infinite. When it returns, every point is at a number below infinity from the center of its label, and no center is at a smaller number; so a center whose distances are not a number, such as the average of an empty cluster, has no points. A point without any usable center is a failed assertion.", "quantifier": "all data, starting centers, average functions and distance functions with values that may be not a number", "why_tests_cant": "Averages of empty clusters appear only in some histories of the iteration.", "anchors": [{"file": "include/arc_utilities/simple_kmeans_clustering.hpp", "symbols": ["Cluster", "GetClosestCluster", "PerformSingleClusteringIteration"]}]}
{"id": "C184", "title": "Dynamic time warping with distances that are not a number", "statement": "SimpleDTW on non-empty sequences with a distance function that may return what is not a number gives the same result whatever the evaluator computed before. The result is not a number exactly if a distance on the diagonal ending with the last items of both sequences is not a number. If it is a number, it is infinite or the cost of a warping path that meets only numbers; it need not be the cheapest such path, and it can be infinite although every warping path meets a distance that is not a number.", "quantifier": "all pairs of non-empty sequences, distance functions with values that may be not a number, and histories of the evaluator", "why_tests_cant": "How what is not a number spreads through the table depends on the place of every such distance.", "anchors": [{"file": "include/arc_utilities/simple_dtw.hpp", "symbols": ["SimpleDTW::EvaluateWarpingCost", "SimpleDTW::InitializeMatrix"]}]}
{"id": "C185", "title": "Dijkstra's algorithm with edge weights that are not a number", "statement": "PerformDijkstrasAlgorithm on a graph some of whose edge weights are not a number returns distances that are all numbers, as if these edges were not there: the distance of a node is at most the cost of every route to the start along edges whose weights are numbers, and is infinite or the cost of such a route, which the predecessor indices follow without repeating a node.", "quantifier": "all graphs with consistent edge lists and weights that are non-negative or not a number, all start indices and all choices of the priority queue among equal keys", "why_tests_cant": "A distance that is not a number in the queue would break its order; that none ever gets there is an invariant of all runs.", "anchors": [{"file": "include/arc_utilities/dijkstras.hpp", "symbols": ["SimpleDijkstrasAlgorithm::PerformDijkstrasAlgorithm"]}]}
{"id": "C186", "title": "Voxel grids with sizes and locations that are infinite, not a number or overflow", "statement": "Creating a voxel grid throws std::invalid_argument exactly when a cell size or a size is not a positive number (NaN, infinite, zero or negative) or a number of cells is not positive. For sizes s and cells c there are ⌈s/c⌉ cells with the quotient rounded; if that is 2^63 or more the creation is undefined. Locations are not checked: with a coordinate that is infinite or not a number every lookup, read and write by location is undefined, in every grid. The same is true at every location of a grid whose cells are so small that their reciprocal overflows, and of a grid centred at the origin whose size overflows, although both are accepted. If nothing comes close to overflow, lookups are those of C158.", "quantifier": "all doubles as sizes and coordinates, including infinities and NaN, all origins, all ways of rounding and all largest doubles from 2^64", "why_tests_cant": "Undefined behaviour often looks right in a test, and the combinations of special values with transforms are endless.", "anchors": [{"file": "include/arc_utilities/voxel_grid.hpp", "symbols": ["VoxelGrid::Initialize", "VoxelGrid::SafetyCheckSizes", "VoxelGrid::LocationToGridIndex", "VoxelGrid::LocationToGridIndex3d", "VoxelGrid::LocationToGridIndex4d", "VoxelGrid::LocationInBounds3d", "VoxelGrid::GetImmutable3d", "VoxelGrid::GetImmutable4d", "VoxelGrid::SetValue3d", "VoxelGrid::SetValue4d"]}]}
{"id": "C187", "title": "Joints with limits and values that are infinite or not a number", "statement": "Creating a joint throws std::invalid_argument exactly when its value is infinite or not a number, or its lower limit is greater than its upper one and it is not continuous; limits that are not a number are accepted and limit nothing. SetValue and CopyWithNewValue throw for values that are infinite or not a number and leave the joint as it is; a number is kept if the limits admit it and replaced by the limit that it violates. After any history of calls, failed or not, limits and type are unchanged, the value is within the limits according to InLimits and is not NaN. It is a number unless the lower limit is plus infinity or the upper one minus infinity: then it is infinite, and copying the joint with its own value throws. InLimits answers yes for NaN in every joint, although no joint can be set to it.", "quantifier": "all doubles as limits and values, all joint types, all histories of calls", "why_tests_cant": "Histories and values are unbounded, and comparisons with NaN are false in both directions.", "anchors": [{"file": "include/arc_utilities/simple_linked_robot_model.hpp", "symbols": ["SimpleJointModel::SimpleJointModel", "SimpleJointModel::InLimits", "SimpleJointModel::EnforceLimits", "SimpleJointModel::SetValue", "SimpleJointModel::CopyWithNewValue"]}]}
{"id": "C188", "title": "Hashed voxel grids with sizes and locations that are infinite, not a number or overflow", "statement": "Creating a hashed voxel grid throws std::invalid_argument exactly when a cell size is not a positive number (NaN, infinite, zero or negative) or a number of cells is not positive. Neither locations nor the origin are checked: every access at a location with a coordinate that is infinite or NaN is undefined, and so is every access to a grid whose origin has such an entry, or that was made without arguments. A grid whose chunks are so wide that their size overflows is accepted, but nothing can ever be stored in it: at its origin a read finds nothing, SetChunkValue throws std::invalid_argument and SetCellValue is undefined. If nothing comes close to overflow, every history of reads and writes reports what it reports with rounding only (C163).", "quantifier": "all doubles as sizes and coordinates, including infinities and NaN, all origins, all histories, all ways of rounding and all largest doubles from 2^64", "why_tests_cant": "Undefined behaviour often looks right in a test; histories and special values cannot be exhausted.", "anchors": [{"file": "include/arc_utilities/dynamic_spatial_hashed_voxel_grid.hpp", "symbols": ["DynamicSpatialHashedVoxelGrid::Initialize", "DynamicSpatialHashedVoxelGrid::SafetyCheckSizes", "DynamicSpatialHashedVoxelGrid::GetContainingChunkRegion", "DynamicSpatialHashedVoxelGrid::GetImmutable", "DynamicSpatialHashedVoxelGrid::SetCellValue", "DynamicSpatialHashedVoxelGrid::SetChunkValue"]}]}
{"id": "C189", "title": "Comparisons, interpolation and angles with infinite values and values that are not a number", "statement": "CloseEnough with a number as threshold is true only for two numbers whose rounded difference is within it; with an infinite threshold it is true for all but NaN and an infinity compared with itself; for vectors it is true exactly if the lengths agree and every pair is close. IsApprox with a precision of at most one says that minus and plus infinity are approximately equal and that no infinity is approximately equal to itself. Sign gives 1, -1 and 0 by the sign, also of infinities, and 0 for NaN. A ratio outside of [0, 1] is replaced with a message, a NaN ratio is passed on silently. Interpolate gives NaN for any NaN argument, and also at an end if the other end is infinite; strictly between, an infinite end decides; for numbers the result is that of rounding unless it overflows, and never NaN. Every function of angles gives NaN, and every range check false, if an angle is infinite or NaN; for numbers nothing but a sum can overflow and the results are those of rounding.", "quantifier": "all doubles as arguments, including infinities and NaN, all vector lengths, all ways of rounding and all largest doubles from 2^64", "why_tests_cant": "The special values combine with all others, and a comparison with NaN is false in both directions, so that a sampled case says nothing about the next.", "anchors": [{"file": "include/arc_utilities/math_helpers.hpp", "symbols": ["CloseEnough", "IsApprox", "Sign", "SafetyCheckUnitInterval", "Interpolate", "EnforceContinuousRevoluteBounds", "ContinuousRevoluteSignedDistance", "ContinuousRevoluteDistance", "AddContinuousRevoluteValues", "GetContinuousRevoluteRange", "CheckInContinuousRevoluteRange", "CheckInContinuousRevoluteBounds", "InterpolateContinuousRevolute"]}]}
{"id": "C190", "title": "Distances, averages and deviations with infinite values and values that are not a number", "statement": "The distance and squared distance of vectors of equal length are NaN exactly if some pair of coordinates contains NaN or is twice the same infinity; otherwise they are not negative, and they are a number only if all coordinates are, which is then what rounding gives. AverageStdVectorDouble aborts exactly if there are no values, or there are weights and their number is wrong, all are zero, or the first one that is not zero is NaN. If the average is a number, so is every value from the first nonzero weight on, also those with weight zero; values before that do not matter. The average of numbers can be infinite or NaN: with M over half of the largest double, that of M and -M is minus infinity and that of M, -M, M is NaN. An average or deviation of numbers that is itself a number is what rounding gives, for at most 2^53 values and weights of at most one. The deviation of a single value is zero, also of NaN.", "quantifier": "all lists of doubles as coordinates, values and weights, including infinities and NaN, all ways of rounding and all largest doubles from 2^64", "why_tests_cant": "Lists are unbounded and special values can stand anywhere in them.", "anchors": [{"file": "include/arc_utilities/math_helpers.hpp", "symbols": ["SquaredDistance", "Distance", "AverageStdVectorDouble", "ComputeStdDevStdVectorDouble"]}]}
{"id": "C191", "title": "Resampling paths with distances and resolutions that are infinite or not a number", "statement": "ResamplePath and ResamplePathPartial return nothing if, for two states that follow each other in the range, distance divided by resolution is not a number above -1 and at most 2^32 - 1: the conversion to uint32_t is undefined. This is so for distances that are infinite or NaN and for resolutions that are zero or NaN. If all quotients are above -1 and at most zero, only the first state is left; so it is with an infinite resolution and distances that are numbers: the path loses its end. If distances and resolution are numbers, the result is that of rounding (C174), overflow included. Index ranges are checked as always.", "quantifier": "all paths, index ranges, distance and interpolation functions, all doubles as distances and resolution, all ways of rounding and all largest doubles from 2^64", "why_tests_cant": "Undefined conversions look like results in a test, and special values can stand anywhere in a path of any length.", "anchors": [{"file": "include/arc_utilities/path_utils.hpp", "symbols": ["ResamplePath", "ResamplePathPartial"]}]}
{"id": "C192", "title": "Upsampling paths with distances that are infinite or not a number", "statement": "Whatever the distance function returns, infinities and NaN included, UpsamplePathPartial with more points than the part has returns exactly that many points: the states of the part, in order, with each segment cut at growing ratios next to the equal ones. If some segment is infinitely long and no distance is NaN, only infinitely long segments are cut. If all distances are numbers the result is that of rounding (C177). Where no point is to be added the path is returned; wrong index ranges fail an assertion or are undefined as before.", "quantifier": "all paths, index ranges, numbers of points up to 2^51, all doubles as distances, all orders among equal or unordered queue entries, all ways of rounding and all largest doubles from 2^64", "why_tests_cant": "With NaN the queue is not ordered and what it returns depends on its history; paths and numbers of points are unbounded.", "anchors": [{"file": "include/arc_utilities/path_utils.hpp", "symbols": ["UpsamplePath", "UpsamplePathPartial"]}]}
{"id": "C193", "title": "Shortcut smoothing with fractions that are infinite, not a number or overflow", "statement": "ShortcutSmoothPath with a fraction that is NaN, infinite, negative, or so large that its double overflows is undefined exactly if there is something to smooth (more than two states and iterations and failures allowed); otherwise the path is returned. Also a finite fraction makes it undefined, if a number is drawn whose product with the path length is 2^63 or more. If the product of path length and fraction is below 2^61, then with rounding and whatever is drawn within the bounds the result is a part of the path in order with the same ends, whose neighbours were neighbours before or were approved by the validity check; checks and failed checks are bounded and every approved check shortens the path.", "quantifier": "all paths, validity checks, numbers of iterations, draws within the bounds, all doubles as fraction, all ways of rounding and all largest doubles from 2^64", "why_tests_cant": "Draws, histories and validity checks are unbounded, and undefined conversions look like results in a test.", "anchors": [{"file": "include/arc_utilities/path_utils.hpp", "symbols": ["ShortcutSmoothPath"]}]}
{"id": "C194", "title": "Hierarchical clustering with distances and thresholds that are not a number", "statement": "Whatever entries of the distance matrix are NaN, Cluster with a finite threshold returns a partition of the data into non-empty clusters. With single link it does what it does when NaN is replaced by infinity. With complete link and a symmetric matrix, two data of a cluster whose distance is a number are at most the threshold apart; but NaN counts as zero as soon as one of two clusters has several data, so two data whose distance is NaN can end up together, and with a threshold that is not negative two returned clusters, one of them with several data, always have a distance between them that is a number above the threshold. With a threshold of NaN every datum is a cluster of its own and the smallest number among the distances is returned; with a threshold of infinity the call fails an assertion.", "quantifier": "all data, matrices with any entries NaN, thresholds, both strategies, all schedules of the parallel loops", "why_tests_cant": "Where NaN stands in a matrix of any size, and in which order clusters are merged, cannot be enumerated.", "anchors": [{"file": "include/arc_utilities/simple_hierarchical_clustering.hpp", "symbols": ["SimpleHierarchicalClustering::Cluster"]}]}
{"id": "C195", "title": "A* searches with weights, distances and heuristics that are not a number", "statement": "PerformAstar with a heuristic that is a number treats an edge whose weight is NaN like one of infinite weight: it is not used, and everything else is as without it. PerformLazyAstar whose callbacks return numbers for the edges does what it does without NaN, whatever is stored in the graph. If they return NaN, a returned path still leads from start to goal along accepted edges; but the search need not end, although graph and costs are finite: if an accepted edge from the start has the distance NaN, if one can walk on from its end for ever, and no accepted edge leads to the goal, then it never returns, with and without limiting duplicates.", "quantifier": "all graphs, callbacks, starts and goals, all orders among equal or unordered queue entries, any number of rounds", "why_tests_cant": "That a search never returns, or that each returned path is one, whatever an unordered queue does, cannot be tested.", "anchors": [{"file": "include/arc_utilities/dijkstras.hpp", "symbols": ["SimpleGraphAstar::PerformLazyAstar", "SimpleGraphAstar::PerformAstar"]}, {"file": "include/arc_utilities/arc_helpers.hpp", "symbols": ["ExtractAstarResult"]}]}
{"id": "C196", "title": "Roadmaps with distances that are not a number", "statement": "Adding a state to a roadmap with no more nodes than neighbours asked for joins it to exactly the nodes whose distance is a non-negative number and whose edge is accepted. With more nodes, the neighbours are the nearest among those whose distance is a number below infinity. If the query runs serially and there are fewer such nodes than neighbours asked for, the call throws out_of_range after the state has been added without any edge; the parallel query does not throw. Sampling more states keeps the roadmap consistent and its weights non-negative numbers, whatever the distances are. Updating the edges stores the new distance in both copies of each accepted edge, also if it is not a number, in any order of the nodes.", "quantifier": "all roadmaps, distances, edge checks, numbers of neighbours, samples, thread counts and orders", "why_tests_cant": "Which neighbours are chosen when some distances are not numbers depends on all positions of those and on the schedule; tests show a few.", "anchors": [{"file": "include/arc_utilities/simple_prm_planner.hpp", "symbols": ["AddNodeToRoadmap", "ExtendRoadMap", "UpdateRoadMapEdges"]}, {"file": "include/arc_utilities/arc_helpers.hpp", "symbols": ["GetKNearestNeighborsParallel", "GetKNearestNeighborsSerial"]}]}
{"id": "C197", "title": "Roadmap queries with weights and distances that are not a number", "statement": "A query from several starts to one goal either throws out_of_range, which only a serial nearest-neighbour query can cause, or reports a cost that is a number: the cost of a cheapest route from one of the starts to the goal along edges whose weights are numbers, with the states along it, or infinity and no path. In both cases the roadmap keeps its states and stays consistent. A query with several goals throws if the query of one of them does, and otherwise reports the answer of a goal with the least cost.", "quantifier": "all roadmaps whose weights are not negative or not numbers, all distances with symmetric setup, starts, goals, thread counts and tie breaks", "why_tests_cant": "That no route is cheaper and that no such weight enters a path must hold for every roadmap and every position of the values that are not numbers.", "anchors": [{"file": "include/arc_utilities/simple_prm_planner.hpp", "symbols": ["QueryPathAndAddNodesMultiStartSingleGoal", "QueryPathMultiStartMultiGoal"]}, {"file": "include/arc_utilities/dijkstras.hpp", "symbols": ["SimpleDijkstrasAlgorithm::PerformDijkstrasAlgorithm"]}]}
{"id": "C198", "title": "A* searches with a heuristic that is not a number", "statement": "Whatever the heuristic of PerformAstar or PerformLazyAstar returns, NaN included, the search does nothing that it could not do under a heuristic that is infinite everywhere. So if the costs of the edges are numbers that are not negative (PerformAstar skips edges whose weight is not a number), the search ends, reports no path exactly if there is none, and otherwise a path along accepted edges that costs no more than the number reported.", "quantifier": "all consistent graphs, starts and goals, all heuristics, all orders among equal or unordered queue entries, with and without limiting duplicates", "why_tests_cant": "A queue whose entries cannot be compared may hand them out in any order; that each order ends with a path if there is one cannot be tested.", "anchors": [{"file": "include/arc_utilities/dijkstras.hpp", "symbols": ["SimpleGraphAstar::PerformLazyAstar", "SimpleGraphAstar::PerformAstar"]}]}
{"id": "C199", "title": "Single-start roadmap queries with weights and distances that are not a number", "statement": "A query with one start, on a consistent roadmap whose weights are not negative or not numbers, with any distances, either throws out_of_range, which only a serial nearest-neighbour query can cause; or throws invalid_argument, exactly if start and goal are taken for the same node; or ends, with no path exactly if no edges with number weights lead to the goal, and otherwise with the states along such edges. The lazy query does the same along the edges that the check accepts, if these have number distances; if the check accepts edges whose distance is not a number, the lazy query need not end. The roadmap keeps its states and stays consistent.", "quantifier": "all roadmaps, distances with symmetric setup, starts, goals, thread counts and tie breaks", "why_tests_cant": "The claim is about all positions of the values that are not numbers, all orders of an unordered queue, and searches without an end.", "anchors": [{"file": "include/arc_utilities/simple_prm_planner.hpp", "symbols": ["QueryPathAndAddNodesSingleStartSingleGoal", "LazyQueryPathAndAddNodesSingleStartSingleGoal"]}]}
{"id": "C200", "title": "Generic A* searches with distances and heuristics that are not a number", "statement": "As long as its callbacks return numbers, the generic A* search is the one of C21. Any heuristic, also one that returns values that are not numbers, can only change the order in which states are tried: on finitely many states with non-negative ids and distances the search ends, reports no path exactly if there is none, and otherwise reports a path along valid children whose length is at most the reported number. With distances that are not numbers a returned path still leads from the start to the goal along valid children, if ids are not negative, but the search need not end: one such distance, with a way to go on for ever and a goal that is no valid child, is enough, even on two states. Equal ids throw invalid_argument.", "quantifier": "all callbacks, ids, orders of the queue, settings of the duplicate limit and numbers of rounds", "why_tests_cant": "The claim is about every heuristic and every order of a queue whose comparison is no order, and about searches that never end.", "anchors": [{"file": "include/arc_utilities/arc_helpers.hpp", "symbols": ["GenericAstarSearch", "ExtractAstarResult"]}]}
{"id": "C201", "title": "Colors with infinite values and values that are not a number", "statement": "Every way of making a color from floats gives channels from 0 to 1: infinities are cut off and NaN becomes 0. ColorChannelToHex is defined for every float, 0 for NaN. Multiply by NaN gives black with the alpha of the color, by infinity a full channel wherever it was not 0. InterpolateColor gives a valid color for any arguments; a NaN ratio gives transparent black without a message; ratios outside of [0, 1], also infinite ones, act as 0 or 1 with a message; at an end the color there comes back, except for channels where the other color is infinite or NaN, which are 0. InterpolateHotToCold fails an assertion unless the lower bound is less than the upper one, so also if one is NaN; it treats a NaN value as the lower bound. If the difference of the bounds is infinite or overflows, all values have the same color, blue, or red for a lower bound of minus infinity, except that infinity is red if it is the upper bound. With the default bounds and others at a distance of a power of two the channels are within 2^-23 of the exact ramp.", "quantifier": "all floats and doubles as channels, ratios, factors, values and bounds, and all ways of rounding", "why_tests_cant": "The claim is about all doubles, all roundings and all places where an infinity or NaN can appear.", "anchors": [{"file": "include/arc_utilities/arc_helpers.hpp", "symbols": ["TrimColorValue", "ColorChannelToHex", "MakeFromFloatColors", "InterpolateHotToCold", "Multiply", "InterpolateColor"]}]}
{"id": "C202", "title": "Norms, safe normalisation and norm clamping with infinite values and values that are not a number", "statement": "The norm of a vector with a NaN entry is NaN; otherwise it is never NaN or negative, and it is infinite if an entry is infinite or the square of an entry overflows; the squared norm of numbers is infinite or accurate up to two roundings for each entry. SafeNormal returns a vector with a NaN entry unchanged, turns infinite entries into NaN and the others beside them into 0, turns a vector of numbers so long that a square overflows into the zero vector, and otherwise divides by the norm if that is more than 2^-52. ClampNorm fails an assertion for a limit that is not positive or NaN, returns every vector unchanged for an infinite limit and a vector with a NaN entry for any limit, does the same as SafeNormal with infinite entries and squares that overflow, and otherwise returns the vector unchanged up to the limit and scaled beyond, where no entry grows or changes its sign.", "quantifier": "all vectors of doubles, limits, ways of rounding and orders of summation", "why_tests_cant": "The claim is about all doubles and all orders in which a vectorised sum may be taken.", "anchors": [{"file": "include/arc_utilities/eigen_helpers.hpp", "symbols": ["ClampNorm", "SafeNormal", "SquaredNorm", "Norm"]}]}
{"id": "C203", "title": "Angles between vectors and between points with infinite values, NaN and overflow", "statement": "WeightedCosineAngleBetweenVectors fails its assertion if an entry of a vector is NaN. Its result is otherwise a number in [-1, 1], never NaN: the limits turn a NaN quotient into -1. So with positive weights the cosine is -1 whenever an entry is infinite, and the cosine of a vector with itself is -1 if the square of an entry is too large for a double. If the product of the norms overflows while the dot product is a number the cosine is 0. AngleDefinedByPoints reports a straight angle if any coordinate of the three points is infinite or NaN, and a right angle if both outer points are so far from the middle one that a squared difference overflows, even if they are the same point.", "quantifier": "all vectors of doubles of equal length including infinite and NaN entries, all weights (positive ones where said), every order of summation, every way of rounding to nearest, every arc cosine function", "why_tests_cant": "A test uses a few vectors of moderate size; the claim covers every length, every mixture of special values, every order in which the sums are formed and every rounding.", "anchors": [{"file": "include/arc_utilities/eigen_helpers.hpp", "symbols": ["AngleDefinedByPoints", "WeightedDotProduct", "WeightedNorm", "WeightedCosineAngleBetweenVectors", "WeightedAngleBetweenVectors"]}]}
{"id": "C204", "title": "Projections, distances to lines and the choice of eigenvectors with infinite values, NaN and overflow", "statement": "VectorProjection onto a base with a NaN entry is the zero vector, whatever is projected. Onto a base with an infinite entry and no NaN every entry of the result is NaN. If the square of an entry of the base is too large for a double, the projection is zero when the dot product is a number and all NaN otherwise, so such a vector projected onto itself is all NaN. If the projected vector has an infinite or NaN entry and the base is made of numbers with a squared norm that is not zero, no entry of projection or rejection is a number. DistanceToLine fails its assertion for every infinite or NaN coordinate and whenever a squared difference overflows, so what it returns is always made of numbers. The quaternion average takes the eigenvector of the first largest eigenvalue that is not NaN, FitPlaneToPoints the singular vector of the first smallest singular value that is not NaN, and the assertion fails exactly if there is none that is not NaN and not infinite in the wrong direction.", "quantifier": "all vectors of doubles of equal length including infinite and NaN entries, every order of summation, every way of rounding to nearest, all lists of eigenvalues and singular values", "why_tests_cant": "A test uses a few vectors and one compiled order of summation; the claim covers every mixture of special values in every position, every length and every order.", "anchors": [{"file": "include/arc_utilities/eigen_helpers.hpp", "symbols": ["VectorProjection", "VectorRejection", "DistanceToLine", "AverageEigenQuaterniond", "FitPlaneToPoints"]}]}
{"id": "C205", "title": "Interpolation and averages of vectors with infinite values, NaN and overflow", "statement": "Interpolate for vectors throws for different sizes, whatever the entries. At ratios of 0 and below or 1 and above, infinite ones too, an entry is that of the chosen vector if the entry of the other vector is a number, and NaN otherwise; a NaN ratio makes every entry NaN without a message. Every coordinate of AverageEigenVector is the average that AverageStdVectorDouble forms of that coordinate, independent of the other coordinates; the average is refused for no vectors, a wrong number of weights, only zero weights, or a first weight other than zero that is NaN, and exists otherwise. A coordinate of the average is a number only if it is one in every vector from the first with a weight other than zero on, including those with weight zero.", "quantifier": "all vectors of all sizes, all weights and ratios, including infinite and NaN values, every way of rounding to nearest", "why_tests_cant": "A test uses a few vectors and weights; the claim covers every number of vectors, every dimension, every mixture of special values and every rounding.", "anchors": [{"file": "include/arc_utilities/eigen_helpers.hpp", "symbols": ["Interpolate", "AverageEigenVector", "AverageEigenVector3d", "AverageEigenVectorXd"]}]}
{"id": "C206", "title": "Giving a linked robot its own position", "statement": "SetPosition reads its argument while it fills the position that GetPosition returns a reference to. With the result of GetPosition of the same robot as the argument it never succeeds if a joint can move: with a complete position it throws and leaves an empty position, while joints, poses and base stay; with an incomplete one it throws and changes nothing. Afterwards a configuration of the caller works just as before. A copy of a complete position can be given back, and changes no joint. In every history the position has the first joints that move, as they are now.", "quantifier": "all accepted robots, all histories of calls of SetPosition (with a configuration of the caller or the robot's own position) and UpdateBaseTransform, whether they succeed or fail", "why_tests_cant": "The outcome depends on which object a reference refers to, on every robot and every history before the call.", "anchors": [{"file": "include/arc_utilities/simple_linked_robot_model.hpp", "symbols": ["SimpleLinkedRobot::SetPosition", "SimpleLinkedRobot::GetPosition", "SimpleLinkedRobot::SetConfig"]}]}
{"id": "C207", "title": "Hashed voxel grids: kept references and arguments that refer into the grid", "statement": "A reference returned by GetMutable or GetImmutable with FOUND_IN_CELL keeps reading and writing the current value of that cell, whatever is written to the grid, until SetChunkValue is called for a location in the same chunk; one returned with FOUND_IN_CHUNK does so for the chunk until SetCellValue is called for a location in it. After that its use is undefined for good. A reference returned with NOT_FOUND refers to the grid's default value from then on, also after the location has got a value of its own: writing through it changes what all locations without a value read as. SetCellValue, SetChunkValue and SetDefaultValue given a valid reference into the grid use the value it had, also when it refers to an element of the chunk that they replace.", "quantifier": "all created grids, all histories of reads and writes that keep and pass back any number of references", "why_tests_cant": "Reading a replaced element often returns the old bytes, so a test passes by accident; which histories are safe is a statement about all of them.", "anchors": [{"file": "include/arc_utilities/dynamic_spatial_hashed_voxel_grid.hpp", "symbols": ["GetImmutable", "GetMutable", "SetCellValue", "SetChunkValue", "SetDefaultValue"]}]}
{"id": "C208", "title": "Exceptions with a place: what is thrown and what its text tells", "statement": "throw_arc_exception never returns. What it throws has the type that was asked for; its text begins with the message, goes on with the name of the file and ends with the number of the line, which can be read back from it. The same message thrown in two places gives different texts, and so do two messages thrown in one place. Message and file cannot always be told apart.", "quantifier": "all types, messages, files and lines", "why_tests_cant": "That no two places give the same text, and that the line can be read back whatever the message contains, are statements about all messages.", "anchors": [{"file": "include/arc_utilities/arc_exceptions.hpp", "symbols": ["throw_arc_exception", "ArcException"]}]}
{"id": "C209", "title": "Choice of the pose type by the version of MoveIt", "statement": "MOVEIT_VERSION_AT_LEAST(x, y, z) holds exactly when the version compiled with is not before x.y.z, comparing major, minor and patch numbers from left to right. It is a total order. Pose is Isometry3d from version 1.0.1 on and Affine3d before.", "quantifier": "all versions and all arguments", "why_tests_cant": "A build sees one version; the condition must be right for all of them.", "anchors": [{"file": "include/arc_utilities/moveit_pose_type.hpp", "symbols": ["MOVEIT_VERSION_AT_LEAST", "Pose"]}]}
{"id": "C210", "title": "Names of joint types", "statement": "GetTypeString gives the name of the type of the joint, and throws runtime_error exactly when the type is none of the four, as a joint read from a damaged buffer can have. Two joints with names have the same name exactly when IsSameType holds, and exactly then there is a distance between them. A joint made as one of the types has its name, whatever its limits and values are, and keeps it when its value changes or it is copied with a new value.", "quantifier": "all joints, with any of the 2^32 values of the type, any limits and any values", "why_tests_cant": "There are 2^32 values of the type, and names must be kept by all changes of value.", "anchors": [{"file": "include/arc_utilities/simple_linked_robot_model.hpp", "symbols": ["SimpleJointModel", "GetTypeString", "IsSameType", "Distance", "CopyWithNewValue"]}]}
{"id": "C211", "title": "Transforming all elements of a vector", "statement": "TransformData gives one result for each element, in their order: the transformed point, or the transform that first does what the element does and then the given one. Transforming twice is transforming once by the product. Transforming by the inverse gives the data back. A rigid transform keeps the distances of all pairs of points.", "quantifier": "all dimensions, transforms and vectors of points or transforms, in exact arithmetic", "why_tests_cant": "The laws hold for all transforms, dimensions and lengths.", "anchors": [{"file": "include/arc_utilities/eigen_helpers.hpp", "symbols": ["TransformData"]}]}
{"id": "C212", "title": "The number of threads", "statement": "GetNumOMPThreads returns the number of threads of the team that the runtime gives the parallel region, in whatever order they make their assignments, and one when compiled without OpenMP. With two threads or more the assignments are a data race: they are not ordered and the variable is not atomic, so the language leaves the result undefined although all threads assign the same value.", "quantifier": "all team sizes and all schedules of the threads", "why_tests_cant": "A test sees a few schedules on one machine, and a race between equal values does not show.", "anchors": [{"file": "include/arc_utilities/arc_helpers.hpp", "symbols": ["GetNumOMPThreads"]}]}
{"id": "C213", "title": "Alignment checks", "statement": "CheckAlignment returns whether the address is a multiple of the alignment, RequireAlignment fails an assertion exactly when it is not, and an alignment of zero is undefined in both. All elements of an array of two or more pass exactly when the array does and the size of an element is a multiple of the alignment; a member of an object that passes does exactly when its offset is a multiple; passing for two alignments is passing for their least common multiple.", "quantifier": "all addresses, alignments, sizes, counts and offsets", "why_tests_cant": "Where objects are placed differs from run to run; the statements are about all addresses.", "anchors": [{"file": "include/arc_utilities/arc_helpers.hpp", "symbols": ["CheckAlignment", "RequireAlignment"]}]}
{"id": "C214", "title": "Conditional logging as a statement", "statement": "ARC_LOG_COND and ARC_LOG_COND_STREAM, used as a statement of their own, in braces or in an else branch, log the message exactly when the condition holds and take nothing from the statements around them. Used without braces before an else they take the else for themselves: what follows it is done when the outer condition holds and that of the macro does not, and not when the outer condition fails. ARC_LOG and ARC_LOG_STREAM do not.", "quantifier": "all conditions, messages, values of the conditions, and statements after the else", "why_tests_cant": "The macros are expanded in the code of users, in places no test of this library contains.", "anchors": [{"file": "include/arc_utilities/log.hpp", "symbols": ["ARC_LOG", "ARC_LOG_STREAM", "ARC_LOG_COND", "ARC_LOG_COND_STREAM"]}]}
{"id": "C215", "title": "A text appended to a path", "statement": "For every path with a last name and every text without a slash, append_str_to_path gives the path in the same directory whose name is the old one followed by the text, so that its text is that of the path followed by the text. Different paths stay different and different texts give different paths; the empty text changes nothing. A text with slashes gives a path below that one and never replaces the directory. The path of the current directory has no name: the result is then the text alone, which may be an absolute path.", "quantifier": "all texts paths are made from, with superfluous slashes and dots, and all texts appended", "why_tests_cant": "Paths are normalised when made and joined; slashes, dots and empty names in either text take different branches.", "anchors": [{"file": "src/arc_utilities/filesystem_utils.py", "symbols": ["append_str_to_path"]}]}
{"id": "C216", "title": "How a roadmap grows with queries", "statement": "With finite distances that are not negative and zero from a state to itself, and without add_duplicate_states, any history of queries with one start and one goal adds at most one node for each different start or goal and takes none away; a query made before, with others in between, leaves the roadmap exactly as it was. With add_duplicate_states every query that adds nodes adds two. QueryPathSingleStartSingleGoal and its lazy form change nothing, for any history, and give the answer of the form that adds nodes.", "quantifier": "all roadmaps, histories of queries of the four kinds, distance and validity functions, thread schedules and orders of A*", "why_tests_cant": "Histories, roadmaps and schedules are unbounded, and a leak of nodes is small in each query.", "anchors": [{"file": "include/arc_utilities/simple_prm_planner.hpp", "symbols": ["QueryPathAndAddNodesSingleStartSingleGoal", "LazyQueryPathAndAddNodesSingleStartSingleGoal", "QueryPathSingleStartSingleGoal", "LazyQueryPathSingleStartSingleGoal"]}]}
