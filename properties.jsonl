{"id": "C01", "title": "Grid storage always matches its extent", "statement": "After any sequence of grid operations starting from a newly constructed grid, the grid stores exactly width() * height() slots, so every (column,row) inside the extent has exactly one slot.", "quantifier": "every finite sequence of addCell / removeCell / enlarge / translate / clear / setCellSize / rayTrace calls with arbitrary arguments that executes without undefined behaviour", "why_tests_cant": "The space of call sequences and real-valued coordinates is infinite; the existing tests run a handful of fixed sequences.", "anchors": ["ndt_gslam/include/ndt_gslam/ndt/voxel_grid2d.h: VoxelGrid2D, addCell, removeCell, enlargeGrid, translate, moveLeft, moveRight, moveUp, moveDown, clear, rayTrace"]}
{"id": "C02", "title": "A cell added at a position can be read back there and nothing else changes", "statement": "For every grid and every position, after addCell(pos, c) a lookup at pos yields c if the place was empty (or c when merging is off, or old += c when merging is on), and every other world position that held a cell still holds the same cell.", "quantifier": "all reachable grids, all positions (any real coordinates, inside or outside the current extent), all cells, both merging modes", "why_tests_cant": "Coordinates are real numbers and the grid history is unbounded; the failures sit on measure-zero cell borders that sampled tests never hit.", "anchors": ["ndt_gslam/include/ndt_gslam/ndt/voxel_grid2d.h: addCell, enlargeToFit, calcIndex, calcCoordinates, operator[]"]}
{"id": "C03", "title": "Enlarging a grid never moves or loses content", "statement": "enlarge(minx,miny,maxx,maxy) never shrinks the grid, makes every point of the requested box lie inside the grid, keeps every stored cell at the same world position, creates no new cell, and does nothing if the box already fits.", "quantifier": "all grids, all boxes (also inverted or empty boxes)", "why_tests_cant": "All combinations of growth in four directions and all extents and contents must be covered.", "anchors": ["ndt_gslam/include/ndt_gslam/ndt/voxel_grid2d.h: enlarge, enlargeGrid, calcIncLeft, calcIncRight, calcIncUp, calcIncDown"]}
{"id": "C04", "title": "Translating without discarding shifts every cell and loses none", "statement": "translate([dx,dy], discard=false) moves each stored cell by exactly dx cells to the right and dy cells up in world coordinates, and no stored cell is lost, duplicated or created.", "quantifier": "all grids, all integer translations of either sign and any size", "why_tests_cant": "The in-place shifting loops depend on the extents, on sign and on size of the move; infinitely many combinations.", "anchors": ["ndt_gslam/include/ndt_gslam/ndt/voxel_grid2d.h: translate, moveLeft, moveRight, moveUp, moveDown, enlargeGrid"]}
{"id": "C05", "title": "Translating with discarding keeps the extent and drops exactly the cells that leave it", "statement": "translate([dx,dy], discard=true) leaves the extent unchanged; a cell is found at column c,row r afterwards exactly if it was stored dx columns left and dy rows below before and that place was inside the extent; everything shifted in from outside is empty.", "quantifier": "all grids, all integer translations, also larger than the grid", "why_tests_cant": "Unbounded combinations of extents and shifts, including shifts larger than the grid.", "anchors": ["ndt_gslam/include/ndt_gslam/ndt/voxel_grid2d.h: translate, moveLeft, moveRight, moveUp, moveDown"]}
{"id": "C06", "title": "Every point reported as inside addresses a slot of the grid", "statement": "Whenever isInside(pt) is true, lookup, insertion, removal and neighbour queries at pt access a slot that exists and that belongs to the cell square containing pt.", "quantifier": "all grids and all points of the plane", "why_tests_cant": "Fails only on the right and bottom border lines of the grid, which random or hand-picked inputs miss.", "anchors": ["ndt_gslam/include/ndt_gslam/ndt/voxel_grid2d.h: isInside, cellExists, calcCoordinates, calcIndex, getCellPtr"]}
{"id": "C07", "title": "Neighbour query returns exactly the occupied cells of the window", "statement": "getNeighbors(pt, r) returns, each exactly once and in row-major order, the occupied cells whose column and row differ by at most r from those of pt; it returns nothing for a point outside the grid.", "quantifier": "all grids, all points, all radii", "why_tests_cant": "All clippings of the window against the four borders and all radii must be right.", "anchors": ["ndt_gslam/include/ndt_gslam/ndt/voxel_grid2d.h: getNeighbors"]}
{"id": "C08", "title": "The reported number of valid cells equals the number of stored cells", "statement": "At any time validCells() equals the number of slots holding a cell.", "quantifier": "every history of public grid operations", "why_tests_cant": "A counter can drift only after particular operation histories; a test checks one history.", "anchors": ["ndt_gslam/include/ndt_gslam/ndt/voxel_grid2d.h: validCells, addCell, removeCell, clear, rayTrace, translate"]}
{"id": "C09", "title": "Copying a grid gives an equal grid", "statement": "A copy-constructed or copy-assigned grid has the same extent and the same content at every position as the original, and copying is defined for every grid.", "quantifier": "all grids, including grids with empty slots", "why_tests_cant": "Needs all contents, in particular grids with unoccupied slots.", "anchors": ["ndt_gslam/include/ndt_gslam/ndt/voxel_grid2d.h: VoxelGrid2D(const VoxelGrid2D&), operator=(const VoxelGrid2D&), clone"]}
{"id": "C10", "title": "A ray stays inside the grid and between its end points", "statement": "rayTrace(start,end) only touches slots of the grid, each visited position lies on the segment from start to end and inside the grid; a ray that starts outside returns no cells.", "quantifier": "all grids, all pairs of end points (inside, outside, short, long, coincident)", "why_tests_cant": "Short rays (under one cell) and rays leaving the grid behave differently; coordinates are real numbers.", "anchors": ["ndt_gslam/include/ndt_gslam/ndt/voxel_grid2d.h: rayTrace"]}
{"id": "C11", "title": "Tracing a ray never alters existing cells", "statement": "rayTrace leaves every existing cell and the extent unchanged, and any cell it creates is a default cell at a slot visited by the ray and returned to the caller.", "quantifier": "all grids, all rays that execute without undefined behaviour", "why_tests_cant": "Needs all rays and all contents.", "anchors": ["ndt_gslam/include/ndt_gslam/ndt/voxel_grid2d.h: rayTrace"]}
{"id": "C12", "title": "Enumerating the cells yields exactly the stored cells", "statement": "getValidCells() and getValidCellsPtr() list every stored cell exactly once, in row-major order, and nothing else.", "quantifier": "all grids and contents", "why_tests_cant": "Must hold for every occupancy pattern.", "anchors": ["ndt_gslam/include/ndt_gslam/ndt/voxel_grid2d.h: getValidCells, getValidCellsPtr"]}
{"id": "C13", "title": "Removing a cell removes that cell only and reports success", "statement": "removeCell(pt) returns false and changes nothing if pt is outside; otherwise it returns true, the position is empty afterwards and every other cell is untouched.", "quantifier": "all grids and all points", "why_tests_cant": "The success path flows off the end of a non-void function: the observed value depends on the compiler, so one test run settles nothing.", "anchors": ["ndt_gslam/include/ndt_gslam/ndt/voxel_grid2d.h: removeCell"]}
{"id": "C14", "title": "Moving the frame of a local map conserves world positions", "statement": "After move(T) of a local map that is not rotated, the new origin plus the returned residual equals the old origin plus T, the residual is smaller than one cell in each axis and never overshoots (it has the direction of T and is not longer than T), every Gaussian that remains in the extent keeps its absolute position, and only cells whose new square lies outside the extent are discarded. A rotated map is left unchanged and T is returned whole.", "quantifier": "all grids, all translations", "why_tests_cant": "Truncation toward zero behaves differently by sign; all magnitudes and signs are needed.", "anchors": ["ndt_gslam/include/ndt_gslam/ndt/ndt_grid2d.h: move"]}
{"id": "C15", "title": "Merging a map with resizing keeps exactly the newest information per cell", "statement": "After merging another map's cells into a grid with resizing enabled (or into an empty grid), every Gaussian input cell's position holds a Gaussian derived from the inputs of that square only, and no other square changes.", "quantifier": "all grids, all lists of incoming cells", "why_tests_cant": "Depends on the positions of all incoming cells and their order.", "anchors": ["ndt_gslam/include/ndt_gslam/ndt/ndt_grid2d.h: mergeIn"]}
{"id": "C16", "title": "The exported occupancy grid has one valid value per cell", "statement": "createOccupancyGrid produces exactly width*height values, each -1 (unknown), 0 (free) or 99 (occupied): -1 exactly for empty slots and 99 exactly for cells whose occupancy exceeds 0.8.", "quantifier": "all grids and all cell occupancies", "why_tests_cant": "All contents and extents are quantified.", "anchors": ["ndt_gslam/include/ndt_gslam/ndt/ndt_grid2d.h: createOccupancyGrid"]}
{"id": "C17", "title": "Radius search on the local map is sound and complete", "statement": "getNeighbors(pt, radius) returns exactly the Gaussian cells whose mean is within the given distance and that lie in a square overlapping the search window; each once.", "quantifier": "all grids, points, radii", "why_tests_cant": "All geometric configurations and radii.", "anchors": ["ndt_gslam/include/ndt_gslam/ndt/ndt_grid2d.h: getNeighbors"]}
{"id": "C18", "title": "The serialised map origin is the lower-left corner of the map", "statement": "The published origin of a map is its world origin minus the extent to the left and down, for every extent.", "quantifier": "all grids (all extents)", "why_tests_cant": "Unsigned negation wraps only when the grid has grown to the left; value depends on extent.", "anchors": ["ndt_gslam/include/ndt_gslam/ndt/ndt_grid2d.h: serialize"]}
{"id": "C19", "title": "Creating a coarser map conserves the points", "statement": "createCoarserGrid(size) yields a map whose total number of points equals that of the Gaussian cells of the original.", "quantifier": "all grids and all coarser cell sizes", "why_tests_cant": "Loss occurs when two fine cells fall in one coarse cell; depends on positions of all cells.", "anchors": ["ndt_gslam/include/ndt_gslam/ndt/ndt_grid2d.h: createCoarserGrid, mergeIn"]}
{"id": "C20", "title": "Cell occupancy stays within its limits", "statement": "The occupancy of a cell stays within [-1,1] for every history of updates, so the published occupancy stays within [-100,100].", "quantifier": "all histories of addPoint / computeGaussian / merge / ray updates / transform from a fresh cell", "why_tests_cant": "Unbounded histories and arbitrary real-valued inputs.", "anchors": ["ndt_gslam/src/ndt/ndt_cell.cpp: updateOccupancy, operator+=, computeGaussian", "ndt_gslam/include/ndt_gslam/ndt/ndt_cell.h: getOccupancy"]}
{"id": "C21", "title": "Merging two Gaussian cells gives the statistics of the union of their points", "statement": "If two cells hold the exact mean and sample covariance of two point sets, then after merging the cell holds the exact mean and sample covariance of the union (up to the covariance regularisation), and the merged point count is the sum, limited to the cap.", "quantifier": "all finite point sets of size at least 3 and 2 respectively, in any dimension position", "why_tests_cant": "An algebraic identity over arbitrary data sets.", "anchors": ["ndt_gslam/src/ndt/ndt_cell.cpp: operator+="]}
{"id": "C22", "title": "The Gaussian of a fresh cell is the sample mean and covariance of its points", "statement": "computeGaussian on a fresh cell with at least six points sets mean to the arithmetic mean and covariance to the unbiased sample covariance of the added points.", "quantifier": "all point lists with at least six points", "why_tests_cant": "An identity over arbitrary point lists; a single numeric test with tolerance can pass with a biased formula.", "anchors": ["ndt_gslam/src/ndt/ndt_cell.cpp: computeGaussian"]}
{"id": "C23", "title": "Observing free space never increases occupancy", "statement": "updateOccupancy for a ray that passes through a cell and does not end at its mean never raises the occupancy of the cell, and a cell whose occupancy is not positive stops being Gaussian.", "quantifier": "all cells, all rays", "why_tests_cant": "Real-valued likelihood computation over all rays and Gaussians.", "anchors": ["ndt_gslam/src/ndt/ndt_cell.cpp: updateOccupancy, calcMaxLikelihoodOnLine"]}
{"id": "C24", "title": "Points are counted once", "statement": "After any interleaving of addPoint and computeGaussian the point count of the cell equals the number of points added (up to the cap).", "quantifier": "all interleavings of addPoint and computeGaussian", "why_tests_cant": "Depends on the history (batches below the minimum size).", "anchors": ["ndt_gslam/src/ndt/ndt_cell.cpp: computeGaussian", "ndt_gslam/include/ndt_gslam/ndt/ndt_cell.h: addPoint, points"]}
{"id": "C25", "title": "Merging a cell is bounded and ignores unusable cells", "statement": "Merging a cell with no Gaussian or with fewer than three points changes nothing; the point count never exceeds the cap after a merge.", "quantifier": "all pairs of cells", "why_tests_cant": "All field combinations.", "anchors": ["ndt_gslam/src/ndt/ndt_cell.cpp: operator+="]}
{"id": "C26", "title": "Pose graph identifiers form a consistent finite map", "statement": "addNode returns 0,1,2,... ; addEdge returns an id not currently in use; looking up any id returns exactly the element stored under it until it is removed.", "quantifier": "every history of addNode / addEdge / removeEdge calls within their preconditions", "why_tests_cant": "Histories are unbounded; id recycling makes errors history dependent.", "anchors": ["ndt_gslam/include/ndt_gslam/slam_optimizer/pose_graph.h: Graph::addNode, addEdge, removeEdge, getEdge, getNode"]}
{"id": "C27", "title": "Removing an edge affects that edge only and its id is recycled last-in first-out", "statement": "removeEdge(id) of a live edge returns true, afterwards getEdge(id) throws, all other edges are unchanged, edgeCount drops by one, and the next addEdge returns that id; a second removal returns false.", "quantifier": "every history and every live id", "why_tests_cant": "History dependent.", "anchors": ["ndt_gslam/include/ndt_gslam/slam_optimizer/pose_graph.h: removeEdge, addEdge, edgeCount"]}
{"id": "C28", "title": "Lookups throw exactly for ids that are not live", "statement": "getEdge throws out_of_range if and only if the id does not denote a live edge; getNode if and only if the id is not below nodeCount.", "quantifier": "every history and every id", "why_tests_cant": "All ids and histories.", "anchors": ["ndt_gslam/include/ndt_gslam/slam_optimizer/pose_graph.h: getEdge, getNode"]}
{"id": "C29", "title": "Removing an id that was never allocated is rejected without effect", "statement": "removeEdge(id) for every id that does not denote a live edge returns false and changes nothing.", "quantifier": "every history and every id (including the first id past the end)", "why_tests_cant": "Off-by-one at exactly one id per history.", "anchors": ["ndt_gslam/include/ndt_gslam/slam_optimizer/pose_graph.h: removeEdge"]}
{"id": "C30", "title": "Adjacency lists agree with the edges", "statement": "At any time the outgoing/incoming edge lists of a node contain exactly the live edges leaving/entering it, each once.", "quantifier": "every history including removals", "why_tests_cant": "History dependent; dangling entries are silent until dereferenced.", "anchors": ["ndt_gslam/include/ndt_gslam/slam_optimizer/pose_graph.h: addEdge, removeEdge, Node::addEdgeOut, Node::addEdgeIn, getEdgesIn, getEdgesOut"]}
{"id": "C31", "title": "Iterating the graph visits each live edge exactly once", "statement": "A loop from beginEdge() to endEdge() with ++it visits each live edge exactly once in id order and never a removed one, without touching memory outside the container.", "quantifier": "every history (every pattern of removed edges)", "why_tests_cant": "Reads one past the end do not crash reliably; every removal pattern matters.", "anchors": ["ndt_gslam/include/ndt_gslam/slam_optimizer/pose_graph.h: GraphIterator, beginEdge, endEdge, cbeginEdge, cendEdge"]}
{"id": "C32", "title": "Poses are stored under sequential ids and only the first is fixed", "statement": "addPose returns consecutive ids from 0; getPoseLocation(id)/getDataObj(id) return what was added; exactly the first pose is held fixed in the optimiser.", "quantifier": "every history of addPose / addConstrain / addLastConstrain calls", "why_tests_cant": "Unbounded histories.", "anchors": ["ndt_gslam/include/ndt_gslam/slam_optimizer/slam2d.h: addPose, getPoseLocation, getDataObj"]}
{"id": "C33", "title": "A failing constraint insertion has no effect", "statement": "addConstrain with an unknown pose id throws out_of_range and leaves the graph and the optimiser problem unchanged.", "quantifier": "every history and all id pairs", "why_tests_cant": "All histories and ids.", "anchors": ["ndt_gslam/include/ndt_gslam/slam_optimizer/slam2d.h: addConstrain"]}
{"id": "C34", "title": "A constraint keeps the information it was given", "statement": "After addConstrain(from,to,T,I) the stored constraint has end points from and to, transform T and information matrix I, and the optimiser edge has the same values.", "quantifier": "all histories, transforms and information matrices", "why_tests_cant": "All matrices.", "anchors": ["ndt_gslam/include/ndt_gslam/slam_optimizer/slam2d.h: addConstrain, getConstrainTransform, getConstrainInformMat"]}
{"id": "C35", "title": "addLastConstrain joins the two newest poses", "statement": "After at least two addPose calls addLastConstrain adds an edge from the second newest to the newest pose.", "quantifier": "every history", "why_tests_cant": "Unbounded histories.", "anchors": ["ndt_gslam/include/ndt_gslam/slam_optimizer/slam2d.h: addLastConstrain, addPose"]}
{"id": "C36", "title": "Optimisation changes only pose values", "statement": "optimalize/update copies exactly the optimiser's estimates into the poses and the attached data objects; ids, edges, constraints and topology are unchanged.", "quantifier": "all histories, all optimiser results", "why_tests_cant": "The optimiser result is arbitrary.", "anchors": ["ndt_gslam/include/ndt_gslam/slam_optimizer/slam2d.h: optimalize, updatePoseGraph"]}
{"id": "C37", "title": "Loop closing adds exactly the found closures", "statement": "tryLoopClose adds one LOOP edge per accepted closure with the closure's transform and end points and returns true if and only if at least one was added; all previous edges are unchanged.", "quantifier": "all histories and all matcher outcomes", "why_tests_cant": "Matcher outcomes are arbitrary.", "anchors": ["ndt_gslam/include/ndt_gslam/slam_optimizer/slam2d.h: tryLoopClose"]}
{"id": "C38", "title": "The optimiser problem mirrors the pose graph", "statement": "At any time the optimiser holds one vertex per pose with the same id and one edge per constraint with the same end points, measurement and information.", "quantifier": "every history of addPose / addConstrain / tryLoopClose", "why_tests_cant": "History dependent.", "anchors": ["ndt_gslam/include/ndt_gslam/slam_optimizer/slam2d.h: addPose, addConstrain, tryLoopClose"]}
{"id": "C39", "title": "Loop search terminates and respects the attempt limit", "statement": "For every graph the loop search ends, and attempts at most 50 scan matches per call.", "quantifier": "all graphs, all start nodes, all matcher results", "why_tests_cant": "Termination and bounds for all graphs.", "anchors": ["ndt_gslam/include/ndt_gslam/slam_optimizer/loop_detector.h: genLoopClosures"]}
{"id": "C40", "title": "Every reported loop closure is justified", "statement": "Every closure returned connects the queried pose to a different pose which is nearer than the maximum distance, whose path distance reached the minimum, and for which the matcher reported success; the returned transform is the matcher's.", "quantifier": "all graphs, queries and matcher outcomes", "why_tests_cant": "All graphs and outcomes.", "anchors": ["ndt_gslam/include/ndt_gslam/slam_optimizer/loop_detector.h: genLoopClosures, isCloseMatch"]}
{"id": "C41", "title": "Loop search leaves no trace in the graph", "statement": "After a loop search every node and edge has its visited/used mark cleared, so results of a later search do not depend on earlier searches.", "quantifier": "all graphs and sequences of searches", "why_tests_cant": "Sequences of searches over arbitrary graphs.", "anchors": ["ndt_gslam/include/ndt_gslam/slam_optimizer/loop_detector.h: genLoopClosures"]}
{"id": "C42", "title": "Loop search is memory safe on every graph the system builds", "statement": "The search never takes an element from an empty frontier.", "quantifier": "all graphs reachable through the public API", "why_tests_cant": "Undefined behaviour on empty queue may go unnoticed; depends on graph shape.", "anchors": ["ndt_gslam/include/ndt_gslam/slam_optimizer/loop_detector.h: genLoopClosures, addToGraph, genPossibleEdges"]}
{"id": "C43", "title": "Angle normalisation returns the equivalent angle in (-pi, pi]", "statement": "normalizeAngle(a) lies in (-pi,pi], differs from a by a multiple of 2*pi, and is idempotent.", "quantifier": "all real angles", "why_tests_cant": "Uncountably many inputs; the boundary at pi matters.", "anchors": ["ndt_gslam/include/ndt_gslam/utils/eigen_tools.h: normalizeAngle"]}
{"id": "C44", "title": "Pose to transform and back is the identity", "statement": "getPoseFromTransform(getTransFromPose(p)) equals p with its angle normalised, and getTransFromPose(getPoseFromTransform(T)) = T for every rigid transform T; the 3-vector/4x4 conversions agree.", "quantifier": "all poses and all rigid transforms of the plane", "why_tests_cant": "Uncountable domain.", "anchors": ["ndt_gslam/include/ndt_gslam/utils/eigen_tools.h: getPoseFromTransform, getTransFromPose, vecToMat2d, matToVec2d, convertToTransform, convertFromTransform"]}
{"id": "C45", "title": "Relative transforms carry one pose to the other", "statement": "transformPose(a, transBtwPoses(a,b)) is b (angle normalised); transBtwPoses composes: a to b then b to c is a to c; transBtwPoses(a,a) is the identity.", "quantifier": "all poses", "why_tests_cant": "Uncountable domain; the tests check three examples with a tolerance.", "anchors": ["ndt_gslam/include/ndt_gslam/utils/eigen_tools.h: transBtwPoses, transBtwFrames, transformPose, transformConcat"]}
{"id": "C46", "title": "A constraint's error vanishes exactly when the poses satisfy it", "statement": "The error of a constraint is zero if and only if the second pose equals the first pose composed with the constraint's transform (modulo 2*pi).", "quantifier": "all poses and transforms", "why_tests_cant": "Uncountable domain.", "anchors": ["ndt_gslam/include/ndt_gslam/slam_optimizer/slam2d_policy.h: calcError", "ndt_gslam/include/ndt_gslam/slam_optimizer/pose_graph.h: Edge::getError"]}
{"id": "C47", "title": "The constraint Jacobian is the derivative of the constraint error", "statement": "calcJacobianBlocks returns the exact partial derivatives of the constraint error with respect to both poses at every point where the angle error is not on the branch cut.", "quantifier": "all poses and transforms off the branch cut", "why_tests_cant": "Differentiability over the whole domain.", "anchors": ["ndt_gslam/include/ndt_gslam/slam_optimizer/slam2d_policy.h: calcJacobianBlocks"]}
{"id": "C48", "title": "Uncertainty propagation keeps covariances valid and never shrinks them", "statement": "Propagating a covariance along a transform yields a symmetric positive (semi)definite matrix, is monotone in both inputs, and never reduces the determinant.", "quantifier": "all symmetric positive semidefinite matrices and transforms", "why_tests_cant": "Uncountable domain.", "anchors": ["ndt_gslam/include/ndt_gslam/utils/covariance_wrapper.h: addToCovar"]}
{"id": "C49", "title": "Splitting a string loses nothing", "statement": "split(s, sep) terminates for non-empty sep, joining the parts with sep gives s, no part contains sep, and there is at least one part.", "quantifier": "all strings and separators", "why_tests_cant": "All strings; an empty separator loops forever, which a test cannot establish.", "anchors": ["ndt_gslam/include/ndt_gslam/utils/string_tools.h: split"]}
{"id": "C50", "title": "Bounding box of a cloud contains all its points", "statement": "getMinMax2D bounds contain every point and the origin, and each bound is either 0 or attained by a point.", "quantifier": "all point clouds", "why_tests_cant": "All clouds.", "anchors": ["ndt_gslam/include/ndt_gslam/utils/point_cloud_tools.h: getMinMax2D, getMinMaxNDT2D"]}
{"id": "C51", "title": "Estimated pose is the composition of all estimated motions", "statement": "Without loop closures the pose estimate returned after any number of updates equals the composition of the motions used, and is consistent with the active frame's origin.", "quantifier": "every sequence of scans and odometry increments, every matcher outcome", "why_tests_cant": "Unbounded sequences and arbitrary matcher results.", "anchors": ["ndt_gslam/include/ndt_gslam/ndt_slam_algorithm.h: update, updateGraph"]}
{"id": "C52", "title": "No odometry motion is lost", "statement": "While scan matching gives no correction, the reported pose equals the composition of all odometry increments received, however small the single increments are.", "quantifier": "every sequence of odometry increments and matcher failures", "why_tests_cant": "Loss appears for particular patterns of small motions and failures.", "anchors": ["ndt_gslam/include/ndt_gslam/ndt_slam_algorithm.h: update, movedEnough, unused_trans_"]}
{"id": "C53", "title": "New frames are inserted consistently", "statement": "When a new frame node is inserted, the constraint added between the previous frame and it has zero error with respect to their current poses.", "quantifier": "every sequence of updates", "why_tests_cant": "Unbounded sequences.", "anchors": ["ndt_gslam/include/ndt_gslam/ndt_slam_algorithm.h: updateGraph", "ndt_gslam/include/ndt_gslam/slam_optimizer/slam2d.h: addLastConstrain"]}
{"id": "C54", "title": "Published transforms are consistent", "statement": "The published map-to-odom transform composed with the odometry pose equals the SLAM pose estimate at that time.", "quantifier": "all pose estimates and odometry readings", "why_tests_cant": "Uncountable domain.", "anchors": ["ndt_gslam/src/graph_slam2d_node.cpp: updateTFTrans, doAlgorithm"]}
{"id": "C55", "title": "Odometry increments telescope", "statement": "The composition of all increments passed to the SLAM algorithm equals the motion from the first to the last odometry reading.", "quantifier": "every sequence of odometry readings", "why_tests_cant": "Unbounded sequences.", "anchors": ["ndt_gslam/src/graph_slam2d_node.cpp: doAlgorithm"]}
{"id": "C56", "title": "The global map does not depend on insertion order of frames", "statement": "Recalculating the global map processes frames in order of their timestamp, so that frames with distinct timestamps inserted in any order give the same map.", "quantifier": "all lists of frames with distinct timestamps and all permutations", "why_tests_cant": "All permutations of unbounded lists.", "anchors": ["ndt_gslam/include/ndt_gslam/ndt/ndt_mapper.h: recalc, addFrame"]}
{"id": "C57", "title": "Robust matching accepts only justified transforms", "statement": "computeTransformation of the robust matcher reports success only with a transform produced by one of its matchers whose verification score reached the acceptance threshold, and never returns an unset value.", "quantifier": "all matcher outcomes, scores and rejection limits", "why_tests_cant": "Decision logic over real-valued scores; unset values are invisible to tests.", "anchors": ["ndt_gslam/include/ndt_gslam/registration/d2d_ndt2d_robust.h: computeTransformation, setRejectionLimit"]}
{"id": "C58", "title": "Line search step stays within its limits", "statement": "The Newton step length returned by the line search lies in [step_min, step_max] whenever 0 <= step_min <= step_max (or is 0 when the gradient is orthogonal), uses at most 11 score evaluations, and the direction is flipped so that the score rises along it.", "quantifier": "all score functions (values and gradients arbitrary), all step limits with 0 <= step_min <= step_max", "why_tests_cant": "The score function is arbitrary.", "anchors": ["ndt_gslam/include/ndt_gslam/registration/d2d_ndt2d.h: computeStepLengthMT", "ndt_gslam/include/ndt_gslam/registration/ndt2d.h: computeStepLengthMT"]}
{"id": "C59", "title": "The point-to-distribution score gradient is the derivative of the score", "statement": "The gradient computed for a point is the exact derivative of its score with respect to x, y and theta; the Hessian is its second derivative.", "quantifier": "all points, Gaussians and transforms", "why_tests_cant": "Differentiability over the whole domain.", "anchors": ["ndt_gslam/include/ndt_gslam/registration/ndt2d.h: calcPointScore"]}
{"id": "C60", "title": "The distribution-to-distribution score derivatives are exact", "statement": "The gradient and Hessian computed for a pair of cells are the derivatives of the pair's score with respect to the transform parameters being optimised.", "quantifier": "all pairs of Gaussians with invertible covariance sum and all transforms", "why_tests_cant": "Differentiability over the whole domain.", "anchors": ["ndt_gslam/include/ndt_gslam/registration/d2d_ndt2d.h: computeDerivatives, calcSourceCellScore"]}
{"id": "C61", "title": "Parallel score accumulation does not depend on the thread schedule", "statement": "The sum of score, gradient and Hessian over all source cells is the same (in exact arithmetic) for every assignment of cells to threads.", "quantifier": "all schedules / assignments of loop iterations to threads, all thread counts", "why_tests_cant": "Schedules are nondeterministic.", "anchors": ["ndt_gslam/include/ndt_gslam/registration/d2d_ndt2d.h: calcScore"]}
{"id": "C62", "title": "Correlative search returns the best candidate of its search window", "statement": "The correlative matcher's result is a candidate of the search window with maximal score regardless of thread schedule, combined with the initial guess.", "quantifier": "all clouds, ranges, steps, schedules and guesses", "why_tests_cant": "Schedules and inputs are unbounded.", "anchors": ["ndt_gslam/include/ndt_gslam/registration/correlative_estimation2d.h: computeTransformation"]}
{"id": "C63", "title": "The correlation look-up table is memory safe and bounded", "statement": "Building the table never writes outside it, every entry is between 0 and 100, occupied places have 100, and the score of a cloud lies between 0 and the ratio of the cloud sizes.", "quantifier": "all target clouds, grid steps and deviations", "why_tests_cant": "All clouds and parameters.", "anchors": ["ndt_gslam/include/ndt_gslam/registration/correlative_estimation_tools.h: LookUpTable, SmoothingKernel"]}
{"id": "C64", "title": "Point-based and index-based correlation scores agree", "statement": "For every cloud the score computed from coordinates equals the score computed from its grid indexes.", "quantifier": "all clouds and look-up tables", "why_tests_cant": "All clouds and parameters.", "anchors": ["ndt_gslam/include/ndt_gslam/registration/correlative_estimation_tools.h: getScore, toIndexes, getCellIdx, transformIndexes"]}
{"id": "C65", "title": "Switch variables stay in the unit interval", "statement": "After any number of optimiser increments the switch variable's estimate lies in [0,1] and equals its internal value.", "quantifier": "all sequences of increments", "why_tests_cant": "Unbounded sequences of reals.", "anchors": ["ndt_gslam/src/slam_optimizer/switchable_constraints/vertex_switchLinear.cpp: oplusImpl, setEstimate"]}
{"id": "C66", "title": "The mixture edge uses its most probable component", "statement": "After computeError the mixture edge's measurement, information and end points are those of a component with minimal negative log probability.", "quantifier": "all non-empty lists of components and weights", "why_tests_cant": "All component lists.", "anchors": ["ndt_gslam/src/slam_optimizer/max_mixture/edge_se2_mixture.cpp: computeError, getNegLogProb, UpdateBelief"]}
{"id": "C67", "title": "A cell that reports a Gaussian has a usable one", "statement": "Whenever hasGaussian() is true on a cell reached by any sequence of addPoint, computeGaussian, ray updates, merges and transforms, its covariance is positive definite, getInvCov() is its inverse and it rests on at least three points.", "quantifier": "all sequences of cell operations, all points, all rays", "why_tests_cant": "Unbounded histories of real-valued inputs including degenerate (collinear, coincident) point sets.", "anchors": ["ndt_gslam/src/ndt/ndt_cell.cpp: computeGaussian, updateGaussian, rescaleCovar, operator+=, updateOccupancy, transform"]}
{"id": "C68", "title": "Regularisation bounds the condition number and is inert otherwise", "statement": "For every positive definite covariance the regularised covariance has no direction with less than 1% of the variance of another direction, and a covariance already satisfying this is returned unchanged.", "quantifier": "all positive definite 3x3 covariances and all correct eigen decompositions of them", "why_tests_cant": "All real matrices.", "anchors": ["ndt_gslam/src/ndt/ndt_cell.cpp: rescaleCovar"]}
{"id": "C69", "title": "Splitting points into batches does not change the mean", "statement": "However points are split into batches of at least six between computeGaussian calls, the cell's mean is the arithmetic mean and its count the number of all points that entered it, up to the limit of 10^9 points.", "quantifier": "all interleavings of addPoint and computeGaussian with batches of at least six points", "why_tests_cant": "Unbounded interleavings and real coordinates.", "anchors": ["ndt_gslam/src/ndt/ndt_cell.cpp: computeGaussian"]}
{"id": "C70", "title": "Rigid motion of a cell", "statement": "Transforming a Gaussian cell by a rigid transform moves its mean and rotates its covariance exactly, keeps count, occupancy and pending points, and transforming back restores mean and covariance; a cell without Gaussian is unchanged.", "quantifier": "all reachable cells, all rigid transforms", "why_tests_cant": "All reals; the regularisation inside must be shown inert.", "anchors": ["ndt_gslam/src/ndt/ndt_cell.cpp: transform, rescaleCovar"]}
{"id": "C71", "title": "Every Gaussian is stored in the square that contains its mean", "statement": "In every state reached by merging, moving, enlarging and clearing a local map, each Gaussian cell is stored in the grid square that contains its mean.", "quantifier": "all histories of operations, all cells", "why_tests_cant": "Unbounded histories; the merge of two cells moves the mean and must stay in the (convex) square.", "anchors": ["ndt_gslam/include/ndt_gslam/ndt/ndt_grid2d.h: mergeIn, mergeInTraced, move, enlarge, clear"]}
{"id": "C72", "title": "Nearest-neighbour lookup returns the Gaussians it found", "statement": "The cloud of means searched by getKNearestNeighborsKDTree consists exactly of the means of the stored Gaussians, and each hit is translated back to the Gaussian with that mean, never to a null pointer.", "quantifier": "all histories of operations, all answers of the search tree", "why_tests_cant": "The cloud is a cache; staleness depends on the history.", "anchors": ["ndt_gslam/include/ndt_gslam/ndt/ndt_grid2d.h: updateMeansCloud, getKNearestNeighborsKDTree, mergeIn, move, clear"]}
{"id": "C73", "title": "Merging without resizing", "statement": "Merging cells without resizing keeps the extent, drops the cells outside it, and merges the Gaussian cells of each square into the cell of this square in order, leaving all other squares unchanged.", "quantifier": "all initialised grids, all lists of incoming cells", "why_tests_cant": "All positions and multiplicities.", "anchors": ["ndt_gslam/include/ndt_gslam/ndt/ndt_grid2d.h: mergeIn"]}
{"id": "C74", "title": "A scan is binned without loss", "statement": "After initialize or initializeSimple with a scan, a square holds a Gaussian exactly if at least six points of the scan lie in it, and this Gaussian has the mean and the number of exactly these points; nothing of the old content of the grid remains as a Gaussian.", "quantifier": "all scans, all previous grid states, with and without ray tracing", "why_tests_cant": "All point sets; depends on growth of the grid while points are added.", "anchors": ["ndt_gslam/include/ndt_gslam/ndt/ndt_grid2d.h: initialize, initializeSimple, createGrid, addPoint"]}
{"id": "C75", "title": "Ray tracing neither removes cells nor creates or moves Gaussians", "statement": "Merging a frame with ray tracing never removes a cell; a square that receives no Gaussian from the frame shows a Gaussian afterwards only if it had one before, with the same mean.", "quantifier": "all grids, frames, ray origins", "why_tests_cant": "All rays through all contents.", "anchors": ["ndt_gslam/include/ndt_gslam/ndt/ndt_grid2d.h: mergeInTraced"]}
{"id": "C76", "title": "Covariance inversion repairs only what needs repair", "statement": "covarInverse reports failure exactly for covariances with non-positive trace; otherwise the adjusted covariance is positive definite with eigenvalue ratio at most 100, icov is its inverse, and a covariance that is already well conditioned is returned unchanged.", "quantifier": "all symmetric 3x3 matrices", "why_tests_cant": "All matrices; the fault depends on how a matrix element is indexed and is invisible from the types.", "anchors": ["ndt_gslam/include/ndt_gslam/utils/covariance_inverse.h: covarInverse"]}
{"id": "C77", "title": "Uncertainty of chained motions is first-order propagation", "statement": "When a motion is appended to an accumulated motion, the stored transform is the composition of the two and the stored covariance is J1*P*J1^T + J2*Q*J2^T with the Jacobians of this composition.", "quantifier": "all accumulated motions, new motions and covariances", "why_tests_cant": "Derivative identity over all motions.", "anchors": ["ndt_gslam/include/ndt_gslam/slam_optimizer/loop_detector.h: EdgeCov::operator+", "ndt_gslam/include/ndt_gslam/utils/covariance_wrapper.h: addToCovar"]}
{"id": "C78", "title": "transBtwFrames converts between frames", "statement": "transBtwFrames(a,b) is the rigid transform turning coordinates in frame a into the coordinates of the same world point in frame b; these transforms compose, are the identity for equal frames, and swapping the frames gives the inverse.", "quantifier": "all pairs and triples of frames", "why_tests_cant": "All real poses and points.", "anchors": ["ndt_gslam/include/ndt_gslam/utils/eigen_tools.h: transBtwFrames"]}
{"id": "C79", "title": "A matched scan determines the reported pose", "statement": "As long as no loop closure changes the graph, after every update in which the scan matcher converges the reported pose equals the world pose found by the matcher.", "quantifier": "all series of updates with any motions and matcher answers", "why_tests_cant": "Depends on the whole history of failed and successful matches.", "anchors": ["ndt_gslam/include/ndt_gslam/ndt_slam_algorithm.h: update", "ndt_gslam/include/ndt_gslam/ndt_slam_algorithm.h: updateGraph"]}
{"id": "C80", "title": "Every used scan is stored once, at its reported pose", "statement": "The scans stored in the finished frames and the active frame, placed in the world through the origin of their frame, are exactly the scans used so far (first scan and every scan after enough motion), each once and in order, at the pose that was reported for it; loop closures do not change the placement of a scan relative to its frame.", "quantifier": "all series of updates, any generation distance", "why_tests_cant": "Unbounded histories, and scans at the moment a frame is closed go through a different branch.", "anchors": ["ndt_gslam/include/ndt_gslam/ndt_slam_algorithm.h: update", "ndt_gslam/include/ndt_gslam/ndt_slam_algorithm.h: updateGraph", "ndt_gslam/include/ndt_gslam/ndt/ndt_grid2d.h: mergeInTraced"]}
{"id": "C81", "title": "Frames and map follow the nodes", "statement": "After every update the origin of each finished frame, and the origin with which the frame was merged into the map, equal the current pose of its node, also after optimisation.", "quantifier": "all series of updates with arbitrary loop closures and optimiser results", "why_tests_cant": "Relates three containers over unbounded histories with arbitrary optimiser output.", "anchors": ["ndt_gslam/include/ndt_gslam/ndt_slam_algorithm.h: updateGraph", "ndt_gslam/include/ndt_gslam/slam_optimizer/slam2d.h: optimalize", "ndt_gslam/include/ndt_gslam/ndt/ndt_grid2d_holder.h: updatePosition"]}
{"id": "C82", "title": "The matcher starts from all motion since the last match", "statement": "The initial guess given to the scan matcher is the pose of the last successful match advanced by all odometry received since then.", "quantifier": "all series of updates", "why_tests_cant": "Depends on the order of idle, failed and matched updates.", "anchors": ["ndt_gslam/include/ndt_gslam/ndt_slam_algorithm.h: update"]}
{"id": "C83", "title": "Free space rays start at the robot", "statement": "When a scan is inserted into a frame, the rays used to mark free space start at the position of the robot from which the scan was taken.", "quantifier": "all series of updates", "why_tests_cant": "All motions and frames; the first scan of a frame hides the fault.", "anchors": ["ndt_gslam/include/ndt_gslam/ndt_slam_algorithm.h: updateGraph", "ndt_gslam/include/ndt_gslam/ndt/ndt_grid2d.h: mergeInTraced"]}
{"id": "C84", "title": "Frames stay within the generation distance", "statement": "After every processed scan, the reported position is at most the generation distance away from the origin of the active frame.", "quantifier": "all series of updates with generation distance not negative", "why_tests_cant": "All trajectories and all frame switches.", "anchors": ["ndt_gslam/include/ndt_gslam/ndt_slam_algorithm.h: updateGraph", "ndt_gslam/include/ndt_gslam/ndt_slam_algorithm.h: movedEnough"]}
{"id": "C85", "title": "No correction, no drift of the published transform", "statement": "If the scan matcher never converges and there are no loop closures, the transform published from the map to the odometry frame is constant, the inverse of the first odometry pose.", "quantifier": "all series of odometry poses", "why_tests_cant": "Concerns the whole system of node and algorithm over unbounded runs.", "anchors": ["ndt_gslam/src/graph_slam2d_node.cpp: doAlgorithm", "ndt_gslam/src/graph_slam2d_node.cpp: updateTFTrans", "ndt_gslam/include/ndt_gslam/ndt_slam_algorithm.h: update"]}
{"id": "C86", "title": "The planar part of the covariance message is used", "statement": "The covariance passed on from an odometry or pose message is the block of its 6x6 covariance belonging to x, y and yaw.", "quantifier": "all covariance matrices", "why_tests_cant": "All 36 entries at once, for every matrix.", "anchors": ["ndt_gslam/src/graph_slam2d_node.cpp: arrayToMatrix"]}
{"id": "C87", "title": "Rejected optimiser steps of a switch variable are undone", "statement": "When the optimiser saves a switch variable, tries increments and restores it, the switch variable is as it was before, so that later increments start from the restored value.", "quantifier": "all switch states in the unit interval and all series of tried increments", "why_tests_cant": "Any number of tried steps with any increments.", "anchors": ["ndt_gslam/src/slam_optimizer/switchable_constraints/vertex_switchLinear.cpp: oplusImpl, setEstimate"]}
{"id": "C88", "title": "Switchable constraint: meaning of the switch and exact Jacobians", "statement": "With switch 0 the constraint has no error whatever the poses, with switch 1 its error is zero exactly if the poses fulfil the measurement; the Jacobians given to the optimiser are the partial derivatives of the error for both poses and the switch wherever the angular error is not half a turn.", "quantifier": "all poses, measurements and switch values", "why_tests_cant": "Derivatives at all real arguments.", "anchors": ["ndt_gslam/src/slam_optimizer/switchable_constraints/edge_se2Switchable.cpp: computeError, linearizeOplus"]}
{"id": "C89", "title": "A loop closure edge is kept or released by a fixed gate", "statement": "Through any series of optimiser calls the edge of a loop closure keeps its end points and measurement; it has its full information exactly while its squared error exceeds the one under the null hypothesis by at most 2 log 10000 + log det(information) - log det(null information), and the null information otherwise.", "quantifier": "all poses, measurements, information matrices of positive determinant and series of optimiser calls", "why_tests_cant": "All real estimates and unbounded series of calls.", "anchors": ["ndt_gslam/include/ndt_gslam/slam_optimizer/slam2d.h: addMaxMixtureEdge", "ndt_gslam/src/slam_optimizer/max_mixture/edge_se2_mixture.cpp: computeError"]}
{"id": "C90", "title": "The look-up table is the target smeared with the stated deviation", "statement": "Every entry of the look-up table is the largest value, rounded to whole numbers, that Gaussian bells of height 100 and of the given standard deviation (in metres) around the occupied places give there, or zero if no occupied place is in reach.", "quantifier": "all target clouds, cell sizes, deviations and entries", "why_tests_cant": "All clouds, sizes and places; order of the in-place smearing must not matter.", "anchors": ["ndt_gslam/include/ndt_gslam/registration/correlative_estimation_tools.h: initGrid, SmoothingKernel, initGridWindowFce, applyKernel"]}
{"id": "C91", "title": "A candidate of the correlative search is scored by the cloud it describes", "statement": "The score the search gives to a candidate (dx, dy, theta), computed by rotating the cloud and shifting its integer indexes, is the score of the cloud moved by the rigid transform (dx, dy, theta).", "quantifier": "all clouds, tables and candidates", "why_tests_cant": "Rounding commutes with the shift only for whole cells; all clouds and shifts.", "anchors": ["ndt_gslam/include/ndt_gslam/registration/correlative_estimation_tools.h: transformIndexes, toIndexes, rotatePointCloud", "ndt_gslam/include/ndt_gslam/registration/correlative_estimation2d.h: computeTransformation"]}
{"id": "C92", "title": "A Newton step does not lower the score", "statement": "The step chosen by the line search satisfies the sufficient decrease condition it is written for: a converged iteration does not end with a lower score than it started with.", "quantifier": "all score functions with exact derivatives, all positions", "why_tests_cant": "The score function is arbitrary; the defect hides behind plausible step lengths.", "anchors": ["ndt_gslam/include/ndt_gslam/registration/d2d_ndt2d.h: computeStepLengthMT, computeSingleGrid", "ndt_gslam/include/ndt_gslam/registration/ndt2d.h: computeStepLengthMT"]}
{"id": "C93", "title": "The matching result stays within reach of the guess", "statement": "The transform reported by an NDT matcher is a rigid transform without NaN whose parameters (x, y, theta) differ from those of the guess by at most (number of layers) * (iterations per layer) * (longest step).", "quantifier": "all scans, maps, guesses and score functions, any number of layers", "why_tests_cant": "Needs induction over iterations and layers for arbitrary score functions.", "anchors": ["ndt_gslam/include/ndt_gslam/registration/d2d_ndt2d.h: computeTransformation, computeSingleGrid", "ndt_gslam/include/ndt_gslam/registration/ndt2d.h: computeTransformation, computeSingleGrid"]}
{"id": "C94", "title": "No Newton step is longer than the configured maximum step size", "statement": "Every step a matcher makes is at most setStepSize() long, in particular with the parameters the SLAM front end sets.", "quantifier": "all positions, score functions and parameters", "why_tests_cant": "Depends on the interplay of two parameters for all inputs.", "anchors": ["ndt_gslam/include/ndt_gslam/registration/d2d_ndt2d.h: setStepSize, computeSingleGrid", "ndt_gslam/include/ndt_gslam/registration/ndt2d.h: setStepSize, computeSingleGrid", "ndt_gslam/include/ndt_gslam/ndt_slam_algorithm.h:177-182"]}
{"id": "C95", "title": "The number of iterations is bounded by the configured maximum", "statement": "A matcher makes at most setMaximumIterations() Newton iterations (and at least one) on each grid and always terminates.", "quantifier": "all score functions, guesses and parameters", "why_tests_cant": "Termination for arbitrary score functions.", "anchors": ["ndt_gslam/include/ndt_gslam/registration/d2d_ndt2d.h: computeSingleGrid", "ndt_gslam/include/ndt_gslam/registration/ndt2d.h: computeSingleGrid"]}
{"id": "C96", "title": "An optimal guess is reported as a successful match", "statement": "If the guess is already a stationary point of the score (perfect alignment), the matcher reports convergence with the guess as result.", "quantifier": "all score functions with a regular stationary point, all solvers of the Newton system", "why_tests_cant": "All score functions; the exact zero is hard to hit by sampling.", "anchors": ["ndt_gslam/include/ndt_gslam/registration/d2d_ndt2d.h: computeSingleGrid, computeTransformation", "ndt_gslam/include/ndt_gslam/registration/ndt2d.h: computeSingleGrid, computeTransformation"]}
{"id": "C97", "title": "The reported covariance is a covariance", "statement": "After a converged match getCovariance() is a symmetric positive semidefinite matrix estimated at the final pose and getInformMatrix() is its inverse.", "quantifier": "all converged matches", "why_tests_cant": "All score functions.", "anchors": ["ndt_gslam/include/ndt_gslam/registration/d2d_ndt2d.h: computeSingleGrid", "ndt_gslam/include/ndt_gslam/registration/ndt2d.h: computeSingleGrid"]}
{"id": "C98", "title": "Layers: cell sizes halve down to the size set, with matching parameters", "statement": "After any sequence of setCellSize, setNumLayers and setOulierRatio calls there are exactly as many cell sizes and fitting parameters as layers (so that the loop over layers never reads out of bounds); the sizes halve from coarse to fine and end with the size set; the parameters belong to the sizes and the outlier ratio set last.", "quantifier": "all sequences of setter calls", "why_tests_cant": "Unbounded sequences; the skip condition of initCellSizes depends on history.", "anchors": ["ndt_gslam/include/ndt_gslam/registration/ndt2d.h: setCellSize, setNumLayers, setOulierRatio, initCellSizes, initParams", "ndt_gslam/include/ndt_gslam/registration/d2d_ndt2d.h: the same"]}
{"id": "C99", "title": "The fitted Gaussian agrees with the mixture it approximates", "statement": "The score of a cell, d1 exp(-d2/2 x^2) + d3, equals the negative logarithm of the mixture c1 exp(-x^2/2) + c2 at the mean and at one standard deviation; d1 < 0 and 0 < d2 <= 1, so scores are bounded with the maximum at the mean.", "quantifier": "all outlier ratios in (0, 1) and resolutions > 0", "why_tests_cant": "Real-valued parameters.", "anchors": ["ndt_gslam/include/ndt_gslam/registration/ndt_reg_tools.h: FittingParams"]}
{"id": "C100", "title": "The outlier term of a cell has the configured weight", "statement": "The constant term of the mixture a layer is fitted to is a uniform density over a cell whose total weight is the outlier ratio.", "quantifier": "all outlier ratios in (0, 1) and cell sizes > 0", "why_tests_cant": "Real-valued parameters; the value is not observable directly.", "anchors": ["ndt_gslam/include/ndt_gslam/registration/ndt_reg_tools.h: FittingParams", "ndt_gslam/include/ndt_gslam/registration/d2d_ndt2d.h: initParams", "ndt_gslam/include/ndt_gslam/registration/ndt2d.h: initParams"]}
{"id": "C101", "title": "The distribution score does not depend on the frame", "statement": "Moving the target map by a rigid motion and composing the transform with the same motion leaves the score of the distribution-to-distribution matcher unchanged.", "quantifier": "all maps, transforms and rigid motions", "why_tests_cant": "Continuous families of motions and all maps.", "anchors": ["ndt_gslam/include/ndt_gslam/registration/d2d_ndt2d.h: calcScore, calcSourceCellScore"]}
{"id": "C102", "title": "Match scores are bounded", "statement": "The score of a match is never negative and at most a fixed multiple of the number of source cells or points (2 or 4 times -d1, for 2 or 4 nearest cells); a pair of cells whose means coincide reaches the largest value.", "quantifier": "all positive semidefinite covariances, all scans and transforms, all fitted parameters", "why_tests_cant": "All scans and transforms.", "anchors": ["ndt_gslam/include/ndt_gslam/registration/d2d_ndt2d.h: calcScore, calcSourceCellScore", "ndt_gslam/include/ndt_gslam/registration/ndt2d.h: calcScore, calcPointScore"]}
{"id": "C103", "title": "Reported centre and radius describe the area of a map", "statement": "The centroid of a map is the centre of the area it covers and its radius reaches the farthest covered point; the loop closer uses both to decide which scans can overlap.", "quantifier": "all maps", "why_tests_cant": "Depends on the extents to all four sides, which are unbounded.", "anchors": ["ndt_gslam/include/ndt_gslam/ndt/ndt_grid2d.h: getRadius, getCentroid", "ndt_gslam/include/ndt_gslam/slam_optimizer/loop_detector.h: calcScanParams"]}
{"id": "C104", "title": "Merging keeps every Gaussian at its place in the world", "statement": "After merging a map into another one (with or without ray tracing) every Gaussian of the result is, with its position, height, covariance and point count in the world, one of the receiving or of the merged map; every square into which a Gaussian of the merged map falls holds one of those, and all other squares keep what they had.", "quantifier": "all maps that can be built with the interface, all poses of both maps", "why_tests_cant": "Real-valued poses and covariances, all histories of maps.", "anchors": ["ndt_gslam/include/ndt_gslam/ndt/ndt_grid2d.h: mergeIn, mergeInTraced, transformNDTCells", "ndt_gslam/include/ndt_gslam/ndt/ndt_cell.cpp: transform"]}
{"id": "C105", "title": "transform(T) moves a map by T", "statement": "transform(T) moves every Gaussian of a map by the rigid motion T, given in the frame of the map, with its covariance turned accordingly; Gaussians that come to lie in the same square are fused within the hull of their positions.", "quantifier": "all maps that can be built, all rigid motions", "why_tests_cant": "Continuous family of motions and poses.", "anchors": ["ndt_gslam/include/ndt_gslam/ndt/ndt_grid2d.h: transform"]}
{"id": "C106", "title": "The running window keeps the world in place", "statement": "One step of the front end (scan, registration result, merge, move of the window) leaves every Gaussian of the window at its place in the world, adds Gaussians only within the hull of the scan points at the registered pose, and splits the registered motion exactly into the new origin of the window and the remaining offset.", "quantifier": "all windows, scans and registration results", "why_tests_cant": "Unbounded histories, real-valued motions.", "anchors": ["ndt_gslam/include/ndt_gslam/ndt_slam_algorithm.h: update", "ndt_gslam/include/ndt_gslam/ndt/ndt_grid2d.h: initialize, transform, mergeInTraced, move"]}
{"id": "C107", "title": "The published occupancy grid shows each square where it is", "statement": "In the published nav_msgs/OccupancyGrid the value of every square of the map is displayed at the centre of that square in the world.", "quantifier": "all maps and poses", "why_tests_cant": "All extents and poses.", "anchors": ["ndt_gslam/include/ndt_gslam/ndt/ndt_grid2d.h: createOccupancyGrid", "ndt_gslam/include/ndt_gslam/ndt/ndt_mapper.h: calcOccupancyGridMsg", "ndt_gslam/include/ndt_gslam/utils/msgs_conversions.h: EigenToPoseMsg"]}
{"id": "C108", "title": "The published window message is well defined and complete", "statement": "The NDT map message of the running window contains extent, centre, cell size and, for every stored cell, its mean, covariance, occupancy and number of points, all with defined values.", "quantifier": "all maps", "why_tests_cant": "Reading an uninitialised value need not show in a test.", "anchors": ["ndt_gslam/include/ndt_gslam/ndt/ndt_grid2d.h: serialize", "ndt_gslam/include/ndt_gslam/ndt_slam_algorithm.h: toNdtMapMsg"]}
{"id": "C109", "title": "After a recalculation the map consists of the frames at their current poses", "statement": "After recalc every Gaussian of the map is a Gaussian of one of the frames, at the place in the world given by the current pose of that frame; no trace of earlier poses remains and no frame is lost.", "quantifier": "all histories of added frames, changed poses and recalculations", "why_tests_cant": "Unbounded histories, real-valued poses.", "anchors": ["ndt_gslam/include/ndt_gslam/ndt/ndt_mapper.h: addFrame, recalc, addToMap", "ndt_gslam/include/ndt_gslam/ndt_grid2d_holder.h: updatePosition"]}
{"id": "C110", "title": "Published clouds list the Gaussians at their place in the world, each once", "statement": "getMeansTransformed of a map and the point cloud of the mapper list exactly the positions in the world of the Gaussians currently stored, each once.", "quantifier": "all maps that can be built (not cleared since the last merge), all histories of the mapper", "why_tests_cant": "Unbounded histories.", "anchors": ["ndt_gslam/include/ndt_gslam/ndt/ndt_grid2d.h: getMeansTransformed, updateMeansCloud", "ndt_gslam/include/ndt_gslam/ndt/ndt_mapper.h: addFrame, recalc"]}
{"id": "C111", "title": "Every Gaussian of every map is usable", "statement": "Whatever sequence of calls built a map, every cell marked as Gaussian has a positive definite covariance with condition number at most 100, the stored inverse is the inverse of it, and it was made from at least three points.", "quantifier": "all sequences of scans, merges, transforms, moves, clears and conversions to coarser grids", "why_tests_cant": "Unbounded sequences of operations on real matrices.", "anchors": ["ndt_gslam/include/ndt_gslam/ndt/ndt_grid2d.h", "ndt_gslam/src/ndt/ndt_cell.cpp"]}
{"id": "C112", "title": "Building maps is free of undefined behaviour", "statement": "Making a map from a scan, merging maps, transforming and moving them, adding a frame to the mapper and recalculating it never reach undefined behaviour.", "quantifier": "all maps that can be built, all scans and poses", "why_tests_cant": "Undefined behaviour need not show in a test; real-valued inputs.", "anchors": ["ndt_gslam/include/ndt_gslam/ndt/ndt_grid2d.h: initialize, mergeIn, mergeInTraced, transform, move", "ndt_gslam/include/ndt_gslam/ndt/voxel_grid2d.h: rayTrace, addCell", "ndt_gslam/include/ndt_gslam/ndt/ndt_mapper.h: addFrame, recalc"]}
{"id": "C113", "title": "The published map shows only what was seen", "statement": "Every point of the map cloud returned by getPclMap lies among the points (in their convex hull) of one of the scans the algorithm has used, as seen from the pose the pose graph at present estimates for the robot at that scan; scans and poses correspond one to one. As long as no loop was closed that pose is the one update returned for the scan.", "quantifier": "all sequences of updates with any motions, scans, matcher answers, loop closures and optimiser results", "why_tests_cant": "Unbounded runs with real-valued poses and scans; the optimiser may answer anything.", "anchors": ["ndt_gslam/include/ndt_gslam/ndt_slam_algorithm.h: update, updateGraph, getPclMap", "ndt_gslam/include/ndt_gslam/ndt/ndt_mapper.h: addFrame, recalc"]}
{"id": "C114", "title": "The published running window shows only what was seen", "statement": "Every point of the cloud returned by getPclMap2 lies among the points of the first scan, seen from the start pose, or among the points of a scan that was matched successfully, seen from the pose the matcher found for it.", "quantifier": "all sequences of updates", "why_tests_cant": "Unbounded runs, the window is moved, merged and ray-traced in every step.", "anchors": ["ndt_gslam/include/ndt_gslam/ndt_slam_algorithm.h: update, getPclMap2"]}
{"id": "C115", "title": "Frames, pose graph and map agree", "statement": "At any time there is exactly one stored frame per node of the pose graph, with the pose of the node; the mapper holds every frame exactly once; and every Gaussian of the map is a Gaussian of one of the frames, at the place in the world given by the current pose of that frame. Conversely no frame is missing: where a frame has a Gaussian and no later one has, the map knows the square, and any Gaussian there is one of that frame.", "quantifier": "all sequences of updates, also those in which loops are closed and the optimiser moves the nodes", "why_tests_cant": "Three data structures changed at different places, unbounded runs.", "anchors": ["ndt_gslam/include/ndt_gslam/ndt_slam_algorithm.h: updateGraph", "ndt_gslam/include/ndt_gslam/ndt/ndt_mapper.h", "ndt_gslam/include/ndt_gslam/slam_optimizer/slam2d.h: optimalize"]}
{"id": "C116", "title": "An update is free of undefined behaviour", "statement": "Whatever scan, motion and covariance update is called with, it does not reach undefined behaviour.", "quantifier": "all reachable states, all inputs", "why_tests_cant": "Undefined behaviour need not show in a test; real-valued inputs.", "anchors": ["ndt_gslam/include/ndt_gslam/ndt_slam_algorithm.h: update"]}
{"id": "C117", "title": "Quality and output cloud of the robust matcher belong to its transform", "statement": "After align of the robust matcher the output cloud is the source cloud moved by getFinalTransformation, and the reported quality is the verification score of this transform (or 0 for a failure).", "quantifier": "all guesses, all outcomes of the two matchers it uses, all rejection limits", "why_tests_cant": "Depends on every combination of outcomes of two matchers and on real-valued scores.", "anchors": ["ndt_gslam/include/ndt_gslam/registration/d2d_ndt2d_robust.h: computeTransformation"]}
{"id": "C118", "title": "Increments to poses add up", "statement": "Adding increments to the pose of a node adds their coordinates and angles; the resulting angle always lies in (-pi, pi] and the order of the increments does not matter.", "quantifier": "all poses and finite sequences of increments", "why_tests_cant": "Real-valued angles with wrap-around, unbounded sequences.", "anchors": ["ndt_gslam/include/ndt_gslam/slam_optimizer/slam2d_policy.h: addPoses", "ndt_gslam/include/ndt_gslam/slam_optimizer/pose_graph.h: Node::addToPose"]}
{"id": "C119", "title": "No loop candidate is overlooked and none is tried twice", "statement": "A loop search from the newest pose matches exactly those earlier poses that are nearer than the maximum distance and to which the robot has travelled at least the minimum distance, each once (up to the limit of 50 matches), and returns exactly one closure for every successful match.", "quantifier": "all pose graphs built through the public calls, all settings, all answers of the scan matcher", "why_tests_cant": "Unbounded graphs, depends on the order of a priority queue and on the history of loop closures.", "anchors": ["ndt_gslam/include/ndt_gslam/slam_optimizer/loop_detector.h: genLoopClosures, genPossibleEdges, isCloseMatch", "ndt_gslam/include/ndt_gslam/ndt_slam_algorithm.h: updateGraph"]}
{"id": "C120", "title": "The loop search tries the most certain relations first", "statement": "The poses are examined in the order of growing uncertainty of their relation to the queried pose (Dijkstra's algorithm on the determinant of the accumulated covariance), as the comment of genLoopClosures says.", "quantifier": "all pose graphs built through the public calls", "why_tests_cant": "Unbounded graphs, real-valued covariances.", "anchors": ["ndt_gslam/include/ndt_gslam/slam_optimizer/loop_detector.h: EdgeCovComparer, genLoopClosures"]}
{"id": "C121", "title": "The occupancy of a cell weighs all its evidence", "statement": "Every point added to a cell raises its occupancy by the log-odds of 0.6; a ray through an empty cell lowers it by 0.2 per point; a ray through a Gaussian lowers it by the log-odds of the likelihood of the ray's closest approach to the Gaussian, never by more than a point adds; a ray that ends at the mean of a Gaussian, or a merged Gaussian, gives certainty. A Gaussian is kept exactly as long as the occupancy is positive.", "quantifier": "all cells reachable by public calls, all rays of positive length, all numbers of points", "why_tests_cant": "Real-valued inputs and unbounded histories; involves the maximum of a Gaussian over a line.", "anchors": ["ndt_gslam/src/ndt/ndt_cell.cpp: computeGaussian, updateOccupancy, calcMaxLikelihoodOnLine, operator+=", "ndt_gslam/include/ndt_gslam/ndt/ndt_cell.h: LOG_LIKE, NO_GAUSSIAN_OCCUP_UPDATE"]}
{"id": "C122", "title": "Unusable messages have no effect", "statement": "A message whose transforms are not known, whose point cloud cannot be transformed or has fewer than 400 points changes nothing and the last transform is published again; every other message is given to the algorithm once, with the pose reported by TF. A series of messages with unusable ones between has the same results as without them.", "quantifier": "all series of messages, all algorithms behind the interface", "why_tests_cant": "Unbounded series of messages and any algorithm.", "anchors": ["ndt_gslam/src/graph_slam2d_node.cpp: prepareAllData, doAlgorithm, odom_cb, pose_cb, laser_cb"]}
{"id": "C123", "title": "When scans are used and when frames are finished", "statement": "Apart from the first one a scan is used exactly if the odometry since the last used scan turned the robot by more than 0.1 rad or moved it by more than 0.2 m; the active frame is finished and becomes a node of the graph exactly if the scan is used and the estimate is then farther from the frame's origin than the generation distance.", "quantifier": "all runs of the algorithm, all motions and matcher results", "why_tests_cant": "Unbounded runs, odometry accumulated over any number of updates.", "anchors": ["ndt_gslam/include/ndt_gslam/ndt_slam_algorithm.h: update, updateGraph, movedEnough"]}
{"id": "C124", "title": "The published graph is the graph", "statement": "The published markers contain exactly one arrow for every constraint added so far, with different ids, from the current position of its first pose to the current position of its second, red for odometry and green for loop closures; the text form has one line for every pose with its current position and one for every constraint. For the algorithm: the red arrows form the chain of the finished frames, all other arrows are green and join finished frames.", "quantifier": "all histories of poses, constraints and optimisations; all runs of the algorithm", "why_tests_cant": "Unbounded histories with any optimiser results; poses move after the constraints have been added.", "anchors": ["ndt_gslam/include/ndt_gslam/slam_optimizer/slam2d.h: getGraphSerialized, createArrowMarkers", "ndt_gslam/include/ndt_gslam/ndt_slam_algorithm.h: getGraphSerialized"]}
{"id": "C125", "title": "Saved robust constraints can be loaded again", "statement": "Reading the text that a switch variable, a switch prior, a switchable constraint or a max-mixture constraint writes gives an object with the same values up to the printing precision, consumes exactly that text, and reports success; a mixture that was loaded writes the same text again.", "quantifier": "all objects with symmetric information, any number of mixture components, any printing precision, any text that follows", "why_tests_cant": "Real-valued contents and any number of components.", "anchors": ["ndt_gslam/src/slam_optimizer/switchable_constraints/vertex_switchLinear.cpp: read, write", "ndt_gslam/src/slam_optimizer/switchable_constraints/edge_switchPrior.cpp: read, write", "ndt_gslam/src/slam_optimizer/switchable_constraints/edge_se2Switchable.cpp: read, write", "ndt_gslam/src/slam_optimizer/max_mixture/edge_se2_mixture.cpp: read, write"]}
{"id": "C126", "title": "Damaged texts are rejected", "statement": "Reading a switch variable, switch prior, switchable constraint or mixture reports success only if the text contains everything the object needs, and the object then has the values of the text; otherwise failure is reported.", "quantifier": "all texts", "why_tests_cant": "All ways in which a text can be damaged.", "anchors": ["ndt_gslam/src/slam_optimizer/switchable_constraints/vertex_switchLinear.cpp: read", "ndt_gslam/src/slam_optimizer/switchable_constraints/edge_switchPrior.cpp: read", "ndt_gslam/src/slam_optimizer/switchable_constraints/edge_se2Switchable.cpp: read", "ndt_gslam/src/slam_optimizer/max_mixture/edge_se2_mixture.cpp: read"]}
{"id": "C127", "title": "The running window keeps its size and follows the robot", "statement": "From the first scan on, and however long the robot drives, the running window covers the square of the configured radius around its own origin and nothing beyond it (up to one cell), so its memory stays bounded; after every successful match the robot is less than one cell from the origin of the window in the direction of either axis.", "quantifier": "all series of updates and parameter changes, all scans and results of the matcher", "why_tests_cant": "Unbounded runs with real-valued scans and motions; an area that creeps by one cell every few hundred updates is not seen by a test.", "anchors": ["ndt_gslam/include/ndt_gslam/ndt_slam_algorithm.h: update, setRunWindowRadius", "ndt_gslam/include/ndt_gslam/ndt_grid2d.h: move, mergeInTraced, enlarge"]}
{"id": "C128", "title": "Trial loop closures can be taken back", "statement": "Adding loop closures on trial puts each of them into the pose graph as a new temporary loop constraint between its two poses, with its transform and information, and changes nothing else; removing them by the returned ids leaves the graph as it was before, for every later call.", "quantifier": "all pose graphs, all lists of closures, all choices of the allocator", "why_tests_cant": "Every graph that a series of calls can build, every order and number of closures; a stale pointer often goes unnoticed in a test.", "anchors": ["ndt_gslam/include/ndt_gslam/slam_optimizer/loop_detector.h: addToGraph, removeFromGraph", "ndt_gslam/include/ndt_gslam/slam_optimizer/pose_graph.h: addEdge, removeEdge"]}
{"id": "C129", "title": "Loop closing in the running algorithm", "statement": "Whenever the algorithm finishes a frame it looks for loop closures among all finished frames: those nearer to the new frame than the maximum loop distance and reached from it over at least the minimum travelled distance are matched with it, at most 50, and every successful match, and nothing else, becomes a loop constraint from the new frame to the old one. Without a success no pose changes. The search never makes an update fail.", "quantifier": "all runs of the algorithm from construction (all scans, motions and results of the matchers), all parameters", "why_tests_cant": "The search depends on the whole history of the pose graph, which grows without bound and which earlier closures and optimisations have shaped.", "anchors": ["ndt_gslam/include/ndt_gslam/ndt_slam_algorithm.h: update, updateGraph", "ndt_gslam/include/ndt_gslam/slam_optimizer/slam2d.h: tryLoopClose", "ndt_gslam/include/ndt_gslam/slam_optimizer/loop_detector.h: genLoopClosures"]}
{"id": "C130", "title": "Launch parameters take effect", "statement": "Each launch parameter, or its default, governs what its name says for the whole time the program runs: the running window covers everything within scanmatch_window_radius; the robot never gets farther than node_gen_distance from the start of the active frame; loop constraints join only frames nearer than loop_max_distance and at least loop_min_distance apart along the way, after a match with a score of at least loop_score_threshold; frame names carry the tf prefix; the topics follow subscribe_mode. A threshold in [0,1] is accepted, any other ends the program at the start.", "quantifier": "all values of all parameters, all runs after the launch", "why_tests_cant": "The effect of a parameter must hold in all updates of all runs and for all values; a test sees a few values and one run.", "anchors": ["ndt_gslam/src/graph_slam2d_node.cpp: GraphSlamNode, initParameters, main", "ndt_gslam/include/ndt_gslam/ndt_slam_algorithm.h: setRunWindowRadius, setGenerationDistance, setLoopClosureMaxDist, setLoopClosureMinDist, setLoopClosureScoreThreshold", "ndt_gslam/include/ndt_gslam/slam_optimizer/ndt_scanmatcher.h: match, setScoreThreshold", "ndt_gslam/launch/graph_slam_bag_MIT.launch"]}
{"id": "C131", "title": "A loop match always ends with a transform", "statement": "Whatever the two frames contain and whatever the score functions of the layers are, matching two frames ends, without undefined behaviour or an exception, and yields a rigid transform that was computed.", "quantifier": "all frames, score functions, guesses, thresholds, thread schedules", "why_tests_cant": "The line search, the search window and the verification table have exceptional paths (failed solver, NaN, points outside the table, empty frames) whose combinations are unbounded.", "anchors": ["ndt_gslam/include/ndt_gslam/slam_optimizer/ndt_scanmatcher.h: NdtScanmatcher, match, setScoreThreshold", "ndt_gslam/include/ndt_gslam/registration/d2d_ndt2d_robust.h: computeTransformation, proofTransform, setInputTarget, setRejectionLimit"]}
{"id": "C132", "title": "An accepted loop match overlaps", "statement": "If a loop match is accepted with threshold t, at least the share t of the source means lies, moved by the transform, within two cells of a mean of the target.", "quantifier": "all frames, score functions, guesses, thresholds", "why_tests_cant": "The guarantee is what protects the map from wrong loop closures; it must hold for every pair of frames, not for the examples tried.", "anchors": ["ndt_gslam/include/ndt_gslam/slam_optimizer/ndt_scanmatcher.h: NdtScanmatcher, match, setScoreThreshold", "ndt_gslam/include/ndt_gslam/registration/d2d_ndt2d_robust.h: computeTransformation, proofTransform, setInputTarget, setRejectionLimit", "ndt_gslam/include/ndt_gslam/registration/correlative_estimation_tools.h: initGrid, getScore"]}
{"id": "C133", "title": "Reach of a loop match", "statement": "For thresholds up to 0.7 the translation of the transform of a loop match is at most 4 m longer than that of the guess or than 4√2 m (the corner of the search window). As the loop detector starts with a guess without translation, the result is always shorter than 9.66 m, and wrong by the rest for frames further apart than that, although loop_max_distance allows such pairs (default 30 m).", "quantifier": "all frames, score functions, guesses, thresholds up to 0.7", "why_tests_cant": "A bound for all inputs of an iterative search; tests only give the distances of some runs.", "anchors": ["ndt_gslam/include/ndt_gslam/slam_optimizer/ndt_scanmatcher.h: NdtScanmatcher, match, setScoreThreshold", "ndt_gslam/include/ndt_gslam/registration/d2d_ndt2d_robust.h: computeTransformation, proofTransform, setInputTarget, setRejectionLimit", "ndt_gslam/include/ndt_gslam/registration/d2d_ndt2d.h: computeTransformation, computeSingleGrid", "ndt_gslam/include/ndt_gslam/registration/correlative_estimation2d.h: computeTransformation"]}
{"id": "C134", "title": "Loop constraints join overlapping frames", "statement": "In the running program, with a score threshold t up to 0.6, every loop constraint added to the pose graph joins the newest frame with an older frame that overlaps it: under the constraint, means of the older frame numbering at least t times the means of the newest frame are within half a metre of means of the newest frame; and the constraint is shorter than 9.66 m.", "quantifier": "all runs, scans, score functions, optimiser results", "why_tests_cant": "It concerns every constraint in every run, through matcher, detector, graph and frames together.", "anchors": ["ndt_gslam/include/ndt_gslam/slam_optimizer/ndt_scanmatcher.h: NdtScanmatcher, match, setScoreThreshold", "ndt_gslam/include/ndt_gslam/registration/d2d_ndt2d_robust.h: computeTransformation, proofTransform, setInputTarget, setRejectionLimit", "ndt_gslam/include/ndt_gslam/slam_optimizer/loop_detector.h: genLoopClosures", "ndt_gslam/include/ndt_gslam/ndt_slam_algorithm.h: updateGraph"]}
{"id": "C135", "title": "Only the line of sight is cleared, once per ray", "statement": "When a map is merged with ray tracing, a square of the map is changed only if it receives one of the merged Gaussians or lies on the straight line from the origin of the merged map (the robot) to one of them, before the square of that Gaussian. Every square on such a line gets exactly one free-space update per Gaussian behind it (-0.2 per point of the Gaussian for a square without a Gaussian); a missing cell is created first.", "quantifier": "all maps, poses, Gaussians, squares", "why_tests_cant": "Rays at all angles and lengths over grids of all extents; off-by-one ends, doubly visited squares and wrap-around of the step count only show for particular geometries.", "anchors": ["ndt_gslam/include/ndt_gslam/ndt/ndt_grid2d.h: mergeInTraced, initialize", "ndt_gslam/include/ndt_gslam/ndt/voxel_grid2d.h: rayTrace", "ndt_gslam/src/ndt_cell.cpp: updateOccupancy"]}
{"id": "C136", "title": "What the running program publishes", "statement": "A message that cannot be used (transforms unknown to TF, or fewer than 400 points) changes nothing and makes the program publish the last map-to-odometry transform again, with the time of that message. The first message that can be used also makes it publish the transform only. Every later one is answered with exactly one message on each topic: the transform, which leads from the odometry pose to the pose estimated in this update; the window, stamped with the time of the last scan merged into it and numbered by the matched scans; the map, which shows exactly the finished frames (and is empty before the first one); the two point clouds, all of whose points were seen; the graph (unless turned off). Frame names and times are those chosen by the parameters. The load time of the map changes only when loop constraints are added, to the time of that message.", "quantifier": "all parameter sets, all sequences of messages, all scans, all results of matcher, loop matcher and optimiser", "why_tests_cant": "Unbounded sequences of messages, in any mixture of usable and unusable ones, with any results of matcher and optimiser.", "anchors": ["ndt_gslam/src/graph_slam2d_node.cpp: doAlgorithm, publishTF, odom_cb, pose_cb, laser_cb", "ndt_gslam/include/ndt_gslam/ndt_slam_algorithm.h: getOccupancyGrid, getNDTMap, getPclMap, getPclMap2, getGraphSerialized", "ndt_gslam/include/ndt_gslam/ndt/ndt_mapper.h: getOccupancyGrid, addFrame, recalc"]}
{"id": "C137", "title": "Trial values of the line search", "statement": "The next trial step is found by interpolation. The cubic step is the minimum of the cubic with the values and slopes at the two points used. If the value at the trial point has grown, or the slopes at trial point and better end have opposite signs, the next trial value lies strictly between the two points: in the first case the minimum of the cubic, or half way from it to that of the parabola with the same values if the latter is nearer; in the second the minimum of the cubic or that of the parabola with the same slopes, whichever is farther from the trial point. If the slope has the same sign and is flatter, it is the nearer of these two minima, at most two thirds of the way to the other end. If it is steeper, it is the minimum of the cubic through the trial point and the other end.", "quantifier": "all intervals, trial points, values and slopes", "why_tests_cant": "Real-valued inputs with four cases and two orders of the points; the wrong stationary point is only taken in one order.", "anchors": ["ndt_gslam/include/ndt_gslam/registration/ndt_reg_tools.h: trialValueSelectionMT"]}
{"id": "C138", "title": "The interval of the line search brackets a minimum", "statement": "An interval whose better end has a value not larger than that of the other end and a slope falling towards it contains a step with zero slope and a value below those of both ends. When a trial point inside is taken in, the interval keeps this property; its ends are the trial point and one of the old ends. The interval is reported as converged only at a trial point with zero slope.", "quantifier": "all intervals with this property, all trial points inside, all differentiable functions", "why_tests_cant": "All differentiable functions and real-valued intervals.", "anchors": ["ndt_gslam/include/ndt_gslam/registration/ndt_reg_tools.h: updateIntervalMT"]}
{"id": "C139", "title": "Reported robot and running window belong together", "statement": "As long as no match fails, the pose reported for a scan is the pose of the robot in the running window that is published with it (origin of the window and position in it), so the robot stands in the window where it saw it from. More precisely: the displacement of the reported robot against the window changes in an update only by the correction of the frame finished in it (from the origin the frame had to the pose of its node after the optimisation) and by the odometry of a failed match; without a loop closure there is no correction, and a displacement stays through all later updates that match without correction.", "quantifier": "all series of updates with matches, failed matches, loop closures and any results of the optimiser", "why_tests_cant": "Needs all histories of matches, failures and loop closures; the pose and the window are published apart and drift only after an optimisation that moves the newest frame.", "anchors": ["ndt_gslam/include/ndt_gslam/ndt_slam_algorithm.h: update, updateGraph"]}
{"id": "C140", "title": "The right alignment is a stationary point of the score", "statement": "When the transform lays a map exactly on itself, the gradient of the matcher's score is zero there, so a matcher started at the right pose has no reason to leave it.", "quantifier": "all maps, all transforms that lay them on themselves, all parameters of the score", "why_tests_cant": "Whether the pulls of all compared pairs cancel depends on the whole map and on who is whose neighbour; a test checks a few maps and small errors hide in the tolerance.", "anchors": ["ndt_gslam/include/ndt_gslam/registration/d2d_ndt2d.h: calcScore, calcSourceCellScore, computeDerivatives", "ndt_gslam/include/ndt_gslam/registration/ndt2d.h: calcScore, calcPointScore"]}
{"id": "C141", "title": "Reach of a match", "statement": "With the parameters of the front end a match finds the robot at most 0.4 (metres and radians together) from the last pose found, advanced by all odometry since; so reported poses depart from odometry by at most that much per used scan, and after scans that could not be matched the robot is still found near where odometry places it.", "quantifier": "all runs, all scans and maps, all odometry", "why_tests_cant": "How far the matcher moves depends on scan, map and the optimiser's path; a test sees the distances of a few recordings, not the bound nor what follows after failures.", "anchors": ["ndt_gslam/include/ndt_gslam/ndt_slam_algorithm.h: NDTSlamAlgortihm(), update", "ndt_gslam/include/ndt_gslam/registration/ndt2d.h: computeTransformation, computeSingleGrid, computeStepLengthMT"]}
{"id": "C142", "title": "Mixtures of landmark and 3D constraints use the most probable component", "statement": "Whenever the optimiser evaluates or linearises a mixture of landmark sightings or of 3D pose constraints, the component in use (end points, measurement, information) is the one most probable for the current estimates.", "quantifier": "all components, weights, estimates and sequences of evaluations and linearisations", "why_tests_cant": "Which component is the most probable changes with the estimates along the optimisation; a test sees a few estimates, and that a stale component is linearised shows only in a certain order of calls.", "anchors": ["ndt_gslam/src/slam_optimizer/max_mixture/edge_se2_pointxy_mixture.cpp: computeError, linearizeOplus, initializeComponents", "ndt_gslam/src/slam_optimizer/max_mixture/edge_se3_mixture.cpp: computeError, linearizeOplus, initializeComponents"]}
{"id": "C143", "title": "Mixtures of landmark and 3D constraints survive writing and reading", "statement": "A mixture of landmark sightings or of 3D pose constraints that is written to a graph file and read back has the same components and weights, up to the printed precision of numbers and the length of quaternions, and the text after it is untouched.", "quantifier": "all mixtures, all ways of rounding numbers, all texts that follow", "why_tests_cant": "Numbers of components, values and what follows in the file are unbounded; a missing separator or a wrong order of entries is seen only for some values.", "anchors": ["ndt_gslam/src/slam_optimizer/max_mixture/edge_se2_pointxy_mixture.cpp: read, write", "ndt_gslam/src/slam_optimizer/max_mixture/edge_se3_mixture.cpp: read, write"]}
{"id": "C144", "title": "Rounding does not change which square a position belongs to", "statement": "Every call on the voxel grid that addresses cells by position (isInside, cellExists, getCellPtr, getNeighbors, addCell with enlargement, rayTrace) gives with float and double arithmetic the result it would give with exact arithmetic.", "quantifier": "all grids, positions, cells and ways of rounding with a given relative error; rays of any length", "why_tests_cant": "Whether rounding matters depends on the distance of a position from the border lines, the extent of the grid and the cell size; a test samples positions, almost none of which is close to a line.", "anchors": ["ndt_gslam/include/ndt_gslam/ndt/voxel_grid2d.h: isInside, calcCoordinates, calcIncLeft, calcIncRight, calcIncUp, calcIncDown, enlargeToFit, rayTrace"]}
{"id": "C145", "title": "Rounding does not change the map built from cells or points", "statement": "A map built by any sequence of merges of cells (with or without ray tracing), or a grid made from a scan, has with float and double arithmetic the same extents and the same cells in the same squares as with exact arithmetic, and looking up the nearest neighbours through the cloud of means, whose coordinates are float, finds the same cells.", "quantifier": "all sequences of merges with and without resizing and ray tracing, all scans, all ways of rounding with a given relative error", "why_tests_cant": "The sequence of merges is unbounded and the failure needs a mean within rounding distance of a border line.", "anchors": ["ndt_gslam/include/ndt_gslam/ndt/ndt_grid2d.h: mergeIn, mergeInTraced, createGrid, addPoint, updateMeansCloud, getKNearestNeighborsKDTree", "ndt_gslam/include/ndt_gslam/utils/point_cloud_tools.h: getMinMaxNDT2D"]}
{"id": "C146", "title": "Moving the window does not let the map drift", "statement": "However often the window is moved, the Gaussians keep their places in the world and their places relative to their squares up to an error that grows at most linearly with the number of moves, at the rate of the rounding of a single move; and origin plus remaining motion of a move add up to the old origin plus the motion.", "quantifier": "all sequences of moves, all maps, all ways of rounding with given relative errors for float and double", "why_tests_cant": "Drift accumulates over many thousands of moves; a test makes a few and compares with a tolerance.", "anchors": ["ndt_gslam/include/ndt_gslam/ndt/ndt_grid2d.h: move"]}
{"id": "C147", "title": "Rounding does not let the reported pose drift away from the matches", "statement": "The pose kept by the algorithm is a product of many transforms, partly through poses and angles read back from them. However many updates are made and wherever new frames are started, it differs from the exact composition of the motions, counted from where the optimiser put the last node when a loop was closed last, only by an error that is explicit in the number of updates and the precision of double; after successful matches without closed loops it is the last matched pose up to that error.", "quantifier": "all sequences of updates and matched poses, all places where new frames start and loops are closed, all results of the optimiser within the distance driven, all ways of rounding with a given relative error", "why_tests_cant": "The error accumulates over thousands of updates; a test compares a few with a tolerance and cannot tell rounding that stays small from rounding that grows exponentially because rotations are never normalised.", "anchors": ["ndt_gslam/include/ndt_gslam/ndt_slam_algorithm.h: update, updateGraph", "ndt_gslam/include/ndt_gslam/utils/eigen_tools.h: getTransFromPose, getPoseFromTransform, getAngle"]}
{"id": "C148", "title": "Rounding does not spoil mean and covariance of a cell", "statement": "The mean and the covariance that a cell computes from its points, and those it gets when it is combined with another cell, differ from the exact values only by an error that is explicit in the precision of double, the number of points and the distance of the points from the origin; at any range the covariance stays positive definite before it is regularised, and errors of repeated merges do not build up faster than linearly.", "quantifier": "all sets of points, all pairs of cells, all sequences of merges, all ways of rounding with a given relative error", "why_tests_cant": "The single-pass covariance subtracts large numbers of almost the same size; whether the digits that are left suffice depends on how far the points are from the origin, and a test tries a few sets of points.", "anchors": ["ndt_gslam/src/ndt/ndt_cell.cpp: computeGaussian, operator+="]}
{"id": "C149", "title": "The k nearest Gaussians by growing rings", "statement": "getKNearestNeighborsVoxel(p, k) ends and returns k different cells with Gaussians such that no other Gaussian of the map is nearer to p, or all Gaussians of the map if there are fewer than k.", "quantifier": "all maps, points inside the map, numbers k, orders in which std::sort leaves equal elements", "why_tests_cant": "The rings double until enough cells are found; which cells a ring misses depends on the shape of the map, the size of the cells and the place of the point, and the result of std::sort on ties is not fixed.", "anchors": ["ndt_gslam/include/ndt_gslam/ndt/ndt_grid2d.h: getKNearestNeighborsVoxel"]}
{"id": "C150", "title": "Intersection of two line segments", "statement": "linesIntersection reports an intersection exactly if the two segments have a point in common (for collinear segments if asked for), and the returned point lies on both.", "quantifier": "all pairs of segments", "why_tests_cant": "The cases are separated by thresholds on cross products of four points; a test tries a few segments of ordinary length.", "anchors": ["ndt_gslam/include/ndt_gslam/ndt/voxel_grid2d.h: linesIntersection, cross"]}
{"id": "C151", "title": "The printed text of a map is a picture of it", "statement": "Writing an NDT map to a stream gives one line per row from the top with one character per square from the left (blank, W or dot as the square is empty, holds a Gaussian or another cell); the text of a voxel grid determines which cells are where.", "quantifier": "all grids of all sizes, all cell contents", "why_tests_cant": "The line breaks depend on a counter that runs across the storage; grids of all widths and heights and contents of all lengths are meant.", "anchors": ["ndt_gslam/include/ndt_gslam/ndt/ndt_grid2d.h: operator<<", "ndt_gslam/include/ndt_gslam/ndt/voxel_grid2d.h: operator<<"]}
{"id": "C152", "title": "Poses from odometry", "statement": "Initialising the pose graph from odometry ends; afterwards the first pose is the origin, every pose that is reached by odometry constraints is its predecessor moved by the first such constraint, and no other pose, data object or constraint has changed.", "quantifier": "all pose graphs built by public calls, all constraints and their order", "why_tests_cant": "The function follows edges through the graph in a loop without bound; whether it ends and what it reaches depends on the shape of the whole graph.", "anchors": ["ndt_gslam/include/ndt_gslam/slam_optimizer/slam2d.h: initializeGrapFromOdom"]}
{"id": "C153", "title": "Rounding in the occupancy of a cell", "statement": "The occupancy kept in a float is that of exact arithmetic up to a bound that grows linearly with the number of updates; the cell counts as occupied in both or in neither, and the published percentage is the same.", "quantifier": "all histories of a cell, all roundings with a given relative error, IEEE single precision", "why_tests_cant": "The error depends on all updates so far, and the floor in the published value turns an error of one unit in the last place into one percent.", "anchors": ["ndt_gslam/src/ndt/ndt_cell.cpp: updateOccupancy, computeGaussian, operator+=", "ndt_gslam/include/ndt_gslam/ndt/ndt_cell.h: getOccupancy"]}
{"id": "C154", "title": "When the iteration of a match stops", "statement": "On each grid a matcher makes Newton steps exactly until a step is shorter than the transformation epsilon or the given number of iterations is made, at least one; it gives up exactly if a step cannot be computed before that, and it returns the position after the last step and the score before it.", "quantifier": "all scores, derivatives and line searches, all parameters with a positive epsilon, all starting positions", "why_tests_cant": "How long the iteration runs depends on the function that is minimised; the statement is an equivalence over all of them.", "anchors": ["ndt_gslam/include/ndt_gslam/registration/d2d_ndt2d.h: computeSingleGrid", "ndt_gslam/include/ndt_gslam/registration/ndt2d.h: computeSingleGrid"]}
{"id": "C155", "title": "64-bit integers suffice for the grid", "statement": "With size_t arithmetic modulo 2^64, 64-bit long and 32-bit int, every series of calls on a voxel grid gives the result that it gives with unbounded integers, or throws because memory is short; no index, extent, loop counter or comparison of signed with unsigned numbers is off.", "quantifier": "all histories of calls, all amounts of memory, all cell types", "why_tests_cant": "Overflow needs extents or radii that no test allocates; mixed signed and unsigned comparisons go wrong only at the limits.", "anchors": ["ndt_gslam/include/ndt_gslam/ndt/voxel_grid2d.h: enlargeGrid, calcIndex, calcCoordinates, moveLeft, moveRight, moveUp, moveDown, translate, getNeighbors, rayTrace"]}
{"id": "C156", "title": "Merging maps weighs the evidence of all of them in any order", "statement": "When the cells of several maps are merged into a new one, the result takes account of everything each map knew about that place: it is occupied exactly if one of them was, its point count and mean are those of all points together, free-space evidence counts against obstacles, and the order in which the maps are merged makes no difference.", "quantifier": "all lists of cells with any histories, all orders", "why_tests_cant": "Tests merge two given cells in one order; the claim is about any number of cells with arbitrary histories and all their permutations.", "anchors": ["ndt_gslam/src/ndt/ndt_cell.cpp: operator+=", "ndt_gslam/include/ndt_gslam/ndt/ndt_grid2d.h: mergeIn"]}
{"id": "C157", "title": "A wrong loop closure has bounded influence", "statement": "However wrong a loop closure is, the optimum of the graph contradicts the remaining constraints by no more than a fixed amount for each closure; closures enter the optimiser with their own ids, measurement and information, and a closure that fits keeps its full weight.", "quantifier": "all graphs, all numbers of closures, all measurements, all positive definite information matrices, all costs of the other constraints", "why_tests_cant": "The claim is about the global optimum of every graph and about errors of any size.", "anchors": ["ndt_gslam/include/ndt_gslam/slam_optimizer/slam2d.h: addSwitchConstrainEdge, addMaxMixtureEdge, tryLoopClose, addConstrain", "ndt_gslam/src/slam_optimizer/switchable_constraints/edge_se2Switchable.cpp: computeError, linearizeOplus", "ndt_gslam/src/slam_optimizer/switchable_constraints/edge_switchPrior.cpp: computeError"]}
{"id": "C158", "title": "Listing the cells of a grid needs memory for the stored cells only", "statement": "Listing the cells of a grid or of a map succeeds whenever there is memory for the cells that are stored, whatever was stored and discarded before.", "quantifier": "all histories of operations on a grid, all amounts of memory, all numbers of recalculations of a map", "why_tests_cant": "The demand depends on the whole history, and the failure shows only after many clears or loop closures.", "anchors": ["ndt_gslam/include/ndt_gslam/ndt/voxel_grid2d.h: getValidCells, getValidCellsPtr, addCell, clear, translate, rayTrace", "ndt_gslam/include/ndt_gslam/ndt/ndt_grid2d.h: getGaussianCells, mergeInTraced", "ndt_gslam/include/ndt_gslam/ndt/ndt_mapper.h: recalc"]}
{"id": "C159", "title": "The correlative search ends and tries its whole window", "statement": "For every positive step the loops of the correlative search end; their values lie in the window, are a step apart up to rounding and leave no gap wider than that, and every shift by a whole number of cells in the window is tried.", "quantifier": "all windows and steps, all roundings of the arithmetic to nearest", "why_tests_cant": "The loop variables are floats that accumulate rounding errors; whether a shift is skipped or the loop hangs depends on the parameters.", "anchors": ["ndt_gslam/include/ndt_gslam/registration/correlative_estimation2d.h: computeTransformation", "ndt_gslam/include/ndt_gslam/registration/correlative_estimation_tools.h: transformIndexes", "ndt_gslam/include/ndt_gslam/registration/d2d_ndt2d_robust.h: setInputTarget, setTranslationRange, setRotationRange"]}
{"id": "C160", "title": "The parallel score is reproducible", "statement": "Matching the same two grids with the same parameters and number of threads gives the same double score, gradient and Hessian on every run, whichever thread does which source cell and in whichever order; and that result is the sum over the source cells up to rounding.", "quantifier": "all numbers of threads and cells, all assignments of cells to threads, all interleavings, all roundings with a relative error", "why_tests_cant": "The assignment and the interleaving are chosen by the OpenMP runtime and cannot be forced; a test sees one of them.", "anchors": ["ndt_gslam/include/ndt_gslam/registration/d2d_ndt2d.h: calcScore"]}
{"id": "C161", "title": "Destroying the optimiser deletes every object exactly once", "statement": "Whatever poses and constraints were added, the destructor of Slam2D ends without deleting an object twice, and every object created with new by the constructor and by the calls is deleted.", "quantifier": "all states, all conventions of the optimiser library about which of its arguments it deletes", "why_tests_cant": "A double delete is undefined behaviour at the end of the process, which a passing test can hide, and depends on the version of the library.", "anchors": ["ndt_gslam/include/ndt_gslam/slam_optimizer/slam2d.h: Slam2D, ~Slam2D, addPose, addConstrain, addSwitchConstrainEdge"]}
{"id": "C162", "title": "The overlap test of the loop detector", "statement": "The test between two frames uses the radius and the centroid the frames have now, whatever was asked before and however the graph was optimised since; it never reads outside its cache; and it rejects two frames that lie apart according to the chained motion.", "quantifier": "all runs of the algorithm, all series of questions, all frames, motions and uncertainties", "why_tests_cant": "The cache is filled over a whole run and never cleared; whether it can become stale depends on everything that may change a stored frame.", "anchors": ["ndt_gslam/include/ndt_gslam/slam_optimizer/loop_detector.h: calcScanParams, isCloseMatch", "ndt_gslam/include/ndt_gslam/ndt_grid2d_holder.h: getRadius, getCentroid, updatePosition"]}
{"id": "C163", "title": "Points of a scan that are not numbers are ignored", "statement": "A point with a coordinate that is NaN or infinite has no effect: the cells built from a scan, and the map initialised from it, are those of the scan without such points.", "quantifier": "all scans, with any mixture of numbers, NaN and infinite coordinates, all cell sizes", "why_tests_cant": "The extent of the temporary grid does depend on such points; that this does not show, and for which points it does, concerns all combinations of coordinates.", "anchors": ["ndt_gslam/include/ndt_gslam/ndt/ndt_grid2d.h: createGrid, initialize, initializeSimple", "ndt_gslam/include/ndt_gslam/utils/point_cloud_tools.h: getMinMax2D"]}
{"id": "C164", "title": "64-bit integers suffice for the map", "statement": "With size_t arithmetic modulo 2^64, 64-bit long and 32-bit int, every series of scans, merges (with or without tracing), moves and enlargements of an NDT map gives the map that it gives with unbounded integers, or throws because memory is short.", "quantifier": "all histories of calls, all amounts of memory, all cell sizes", "why_tests_cant": "Wrap-around shows only at distances and step counts that no test reaches, and the bound on them must be shown to be kept by every history.", "anchors": ["ndt_gslam/include/ndt_gslam/ndt/ndt_grid2d.h: mergeIn, mergeInTraced, initialize, initializeSimple, move, enlarge, createGrid, addPoint, updateMeansCloud", "ndt_gslam/include/ndt_gslam/ndt/voxel_grid2d.h: enlargeGrid, calcIndex, translate, rayTrace"]}
{"id": "C165", "title": "Memory grows with the way driven, not with the time", "statement": "If the generation distance stays between D and D' and the sensor sees no farther than R, then in every run the number of nodes and stored frames times D is at most the length of the estimated way, every frame has at most (8 (R + D') + 2)^2 cells however many scans it holds, and all frames together have at most (way / D + 1) (8 (R + D') + 2)^2 cells. Scans that are not used because the robot stands still change neither frames, map, window nor the number of nodes.", "quantifier": "all runs of any length, all scans in range, all odometry, all results of matcher, loop detector and optimiser", "why_tests_cant": "A bound for runs of every length, with any mixture of matched, failed and skipped scans and loop closures, cannot be observed on finitely many runs.", "anchors": ["ndt_gslam/include/ndt_gslam/ndt_slam_algorithm.h:185-370 (update, updateGraph)", "ndt_gslam/include/ndt_gslam/ndt/ndt_grid2d.h: mergeInTraced, initialize", "ndt_gslam/include/ndt_gslam/ndt/voxel_grid2d.h: enlarge"]}
{"id": "C166", "title": "The cleared squares of a ray form an unbroken band from the robot to the wall", "statement": "A ray of at least one cell that starts in the map visits the square of its start first, then goes from square to square across a common edge or corner, never twice to the same one, and visits at most 2 L - 1 squares, where L is the number of whole cells of its length along the longer axis. Every point of the line inside the map up to L - 1 cells from the start lies in a visited square or in one touching a visited square. The square of the end is never visited, every visited square holds a point of the line at least one cell before the end, and if the end is inside the map, less than two cells at the end of the line are left out. Every square crossed by that part of the line is visited.", "quantifier": "all grids, starts, ends, cell sizes", "why_tests_cant": "Whether a sampled line leaves holes depends on the angle and on where the samples fall relative to the cell borders; each is a continuum.", "anchors": ["ndt_gslam/include/ndt_gslam/ndt/voxel_grid2d.h:512-570 (rayTrace)", "ndt_gslam/include/ndt_gslam/ndt/ndt_grid2d.h: mergeInTraced"]}
{"id": "C167", "title": "A recalculated map depends on the frames only", "statement": "After recalc the map depends only on the stored frames and their current poses: maps with different histories but the same frames at the same poses are the same after recalc, recalculating again changes nothing, and the map is the smallest rectangle of squares that covers the origin and the frames at their current poses.", "quantifier": "all histories of added frames, changed poses and recalculations", "why_tests_cant": "The dependence is on everything that happened before; a test compares two particular histories.", "anchors": ["ndt_gslam/include/ndt_gslam/ndt/ndt_mapper.h:132-202 (addFrame, recalc, addToMap)", "ndt_gslam/include/ndt_gslam/ndt/ndt_grid2d.h: clear, mergeInTraced", "ndt_gslam/include/ndt_gslam/ndt/voxel_grid2d.h: clear, rayTrace"]}
{"id": "C168", "title": "Occupancies are sound in every map", "statement": "Whatever was done with a map (scans, merges with and without tracing, transforms, moves, coarsening, clearing), and in every map of the running algorithm, the occupancy of each stored cell is a number (never NaN) in [-1,1], getOccupancy() yields a percentage in [-100,100], and where there is a Gaussian the occupancy is positive. The published occupancy grid shows a square as unknown exactly if there is no cell, as occupied exactly if the occupancy exceeds 0.8 and otherwise as free.", "quantifier": "all maps that can be built with the interface, all runs of the algorithm", "why_tests_cant": "All histories of maps; the limits must survive every mix of operations.", "anchors": ["ndt_gslam/include/ndt_gslam/ndt/ndt_cell.h: getOccupancy, updateOccupancy", "ndt_gslam/include/ndt_gslam/ndt/ndt_grid2d.h: mergeIn, mergeInTraced, transform, move, createCoarserGrid, createOccupancyGrid", "ndt_gslam/include/ndt_gslam/ndt_slam_algorithm.h: update"]}
{"id": "C169", "title": "The resize flag only decides whether the map may grow", "statement": "Merging a map into another one with resize=false keeps pose and extent of the receiving map and leaves out the Gaussians that fall outside; inside, the result is the one that merging with resize=true gives.", "quantifier": "all maps that can be built with the interface, all poses of both maps", "why_tests_cant": "Real-valued poses, all contents of both maps.", "anchors": ["ndt_gslam/include/ndt_gslam/ndt/ndt_grid2d.h:477-519 (mergeIn)", "ndt_gslam/include/ndt_gslam/ndt/voxel_grid2d.h: addCell", "ndt_gslam/include/ndt_gslam/ndt/ndt_cell.h: operator+="]}
{"id": "C170", "title": "Memory of the map is limited by the area driven through", "statement": "If the sensor sees no farther than R, the generation distance never exceeds D' and all frames, as placed after each update, lie within B of the start, then the map never reaches farther than R + D' + B and half a cell from the start along either axis and has at most (8 (R + D' + B) + 2)^2 cells, however long the run and whatever the matcher, the loop detector and the optimiser answer. Without loop closures the same holds with the length of the estimated way in place of B.", "quantifier": "all runs of any length, all scans in range, all odometry, all results of matcher, loop detector and optimiser", "why_tests_cant": "A bound for runs of every length with any number of recalculations of the map; the map is never made smaller, so every earlier placement of a frame counts.", "anchors": ["ndt_gslam/include/ndt_gslam/ndt_slam_algorithm.h:185-370 (update, updateGraph)", "ndt_gslam/include/ndt_gslam/ndt/ndt_mapper.h:132-202 (addFrame, recalc, addToMap)", "ndt_gslam/include/ndt_gslam/ndt/ndt_grid2d.h: mergeInTraced", "ndt_gslam/include/ndt_gslam/ndt/voxel_grid2d.h: enlarge"]}
{"id": "C171", "title": "Each layer of a match scores against existing Gaussians that stand for the whole map", "statement": "For every cell size of a layer the coarser grids made from source and target exist, their Gaussians are Gaussians of the maps, at most one per square, and every Gaussian of a map has one in its square of the layer. At every trial transform the score of a layer is computed without undefined behaviour: each Gaussian of the source layer is scored against the two nearest Gaussians of the target layer (each source point against the four nearest), so that the score is bounded by the number of source Gaussians or points.", "quantifier": "all maps the public operations can build as source and target, all cell sizes of layers, all transforms, all search trees that find the nearest points of clouds that are not empty", "why_tests_cant": "Every map and every trial position of the optimiser is a new set of queries; the guarantee rests on an agreement between three data structures (grid, cloud of means, search tree) in grids that are made anew for every layer.", "anchors": ["ndt_gslam/include/ndt_gslam/registration/d2d_ndt2d.h:404-431 (layers), 514-580 (calcScore)", "ndt_gslam/include/ndt_gslam/registration/ndt2d.h:347-376 (layers), 459-494 (calcScore)", "ndt_gslam/include/ndt_gslam/ndt/ndt_grid2d.h:426-430 (updateKDTree), 740-752 (createCoarserGrid), 960-979 (getKNearestNeighborsKDTree)"]}
{"id": "C172", "title": "Matching two maps always ends with a defined result", "statement": "Matching two maps for a loop closure ends with a rigid transform, and no score along the way is undefined, whatever the maps contain, the guess, the solver, the threads and the former uses of the matcher. If the match is accepted, the number of source Gaussians brought within two cells of the target is at least the threshold times the number of target Gaussians, and the transform is bounded by guess and search window. Matching a scan incrementally with the running window ends within 0.4 of the guess, with no undefined score.", "quantifier": "all maps the public operations can build, all scans, all guesses, all solvers, schedules and search trees", "why_tests_cant": "The scores depend on real maps, the path of the optimiser on all scores; the claim is about every path on every pair of maps.", "anchors": ["ndt_gslam/include/ndt_gslam/registration/d2d_ndt2d_robust.h:325-394", "ndt_gslam/include/ndt_gslam/registration/d2d_ndt2d.h:404-580", "ndt_gslam/include/ndt_gslam/registration/ndt2d.h:347-494", "ndt_gslam/include/ndt_gslam/ndt/ndt_grid2d.h:740-752, 960-979"]}
{"id": "C173", "title": "The loop search of a run never computes with undefined scores", "statement": "Whenever the algorithm finishes a frame and searches for loop closures, every match of the search, between the finished frame and a stored one, is computed without undefined behaviour, whatever scans the robot has taken before; and every loop constraint it adds joins the two stored maps: at least the threshold times the number of Gaussians of the finished frame is the number of Gaussians of the older one brought within half a metre of them, and the relative pose is shorter than 9.66 m.", "quantifier": "all runs, all scans, motions and outcomes of the optimiser, all solvers, schedules and search trees", "why_tests_cant": "Which maps a run stores depends on its whole history; a search visits up to fifty pairs of them and each match takes a path of its own through the scores.", "anchors": ["ndt_gslam/include/ndt_gslam/slam_optimizer/loop_detector.h:218-284", "ndt_gslam/include/ndt_gslam/slam_optimizer/ndt_scanmatcher.h:47-100", "ndt_gslam/include/ndt_gslam/registration/d2d_ndt2d_robust.h:87-108, 325-394", "ndt_gslam/include/ndt_gslam/ndt_slam_algorithm.h:255-345"]}
{"id": "C174", "title": "Incremental matches always have something to match against", "statement": "From the first scan on, the running window always holds at least one Gaussian, so that every later scan is matched against something: incremental matches are computed without undefined behaviour and end near the guess, and no scan, however poor, makes the algorithm rely on odometry alone for the rest of the run.", "quantifier": "all runs, all scans, all motions, all results of the matcher, all parameters", "why_tests_cant": "The window is changed by every matched scan (rays, overwritten cells, shifting out); that its last Gaussian is never lost is an invariant over runs of any length, and being stuck for ever is a statement about all continuations.", "anchors": ["ndt_gslam/include/ndt_gslam/ndt_slam_algorithm.h:203-292", "ndt_gslam/include/ndt_gslam/ndt/ndt_grid2d.h:492-595, 767-857", "ndt_gslam/include/ndt_gslam/registration/ndt2d.h"]}
{"id": "C175", "title": "A match is about the maps given to it", "statement": "The matchers are used again and again, but the result of a match depends only on the two maps (or the scan and the running window), the settings and the guess, never on what was matched before. In particular a map or scan in which no surface was seen is never matched successfully.", "quantifier": "all histories of matches, all maps, scans, guesses, settings and threads, all solvers that propose no step on a flat score", "why_tests_cant": "Independence of the history ranges over all earlier uses of the matcher; a test fixes one, usually none.", "anchors": ["ndt_gslam/include/ndt_gslam/slam_optimizer/ndt_scanmatcher.h:47-100", "ndt_gslam/include/ndt_gslam/registration/d2d_ndt2d_robust.h:87-108, 325-379", "ndt_gslam/include/ndt_gslam/registration/d2d_ndt2d.h:205-224", "ndt_gslam/include/ndt_gslam/registration/ndt2d.h:74-79, 348-376", "ndt_gslam/include/ndt_gslam/ndt_slam_algorithm.h:225-240"]}
{"id": "C176", "title": "The published window message shows the window where it is", "statement": "The window message is published in the frame of the map. Its centre is the centre of the area the running window covers, and the mean of every Gaussian in it is the place at which scans saw something, as in the point cloud of the same window.", "quantifier": "all runs, all scans, all motions, all radii, at any time after the first scan", "why_tests_cant": "At the start the window has its origin at that of the map, so a message compared in a test with few updates is right about the means; that they are right after any motion, and that the centre is, is a statement about all runs.", "anchors": ["ndt_gslam/include/ndt_gslam/ndt/ndt_grid2d.h:859-875", "ndt_gslam/include/ndt_gslam/ndt_slam_algorithm.h:61-65, 398-428", "ndt_gslam/msg/NDTMapMsg.msg", "ndt_gslam/src/graph_slam2d_node.cpp:250"]}
{"id": "C177", "title": "Objects that have gone leave the map, objects that stay are kept", "statement": "A Gaussian of the map that later measurements look through disappears after enough of them, whatever happened to its cell before. Measurements that only pass by do not remove it. A Gaussian that many scans have confirmed is not removed by a single measurement that seems to look through it.", "quantifier": "all histories of the cell, all sequences of rays, all numbers of points and of confirmations, all maps", "why_tests_cant": "How many looks are enough, and that no number of confirmations protects a Gaussian, are statements about all histories and all sequences; the weight of a ray is a transcendental function of its distance from the Gaussian.", "anchors": ["ndt_gslam/src/ndt_cell.cpp:134-183", "ndt_gslam/include/ndt_gslam/ndt/ndt_grid2d.h:492-595"]}
