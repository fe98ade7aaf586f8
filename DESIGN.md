# Verification design: ndt_gslam

Source: `/repo/ndt_gslam` (C++11, templates).  The model is hand written in Lean 4 under
`lean/Verif`.  Paths below are relative to `/repo/ndt_gslam`.

## Trusted base

* Lean 4.33.0 kernel (and the elaborator only as far as it produces terms checked by the kernel).
* Axioms: only `propext`, `Classical.choice`, `Quot.sound`.  No own axioms, no `sorry`, no
  `native_decide`/`bv_decide`.  `#print axioms` has been run on all property theorems (the result for each theorem is in AXIOMS.md).
* The correspondence between the C++ text and the Lean definitions.  It is by reading; each model
  definition cites file and lines and says what was simplified.
* Arithmetic.  Grid geometry is over an arbitrary ordered field `K` with floor (so it applies to `ℚ` and to `ℝ`) and
  pose/score analysis over `ℝ`; floating
  point rounding, `float`/`double` conversion, infinities and NaN are **not** modelled, except that `Verif/Round`
  (C144–C148, C153, C159, C160) carries rounding through the addressing, merging and moving of grids, the reported pose, the statistics and the occupancy of cells, the loops of the correlative search and the sum over the cells, and except where a
  NaN or an out-of-range conversion is a definite consequence of the real value (`0/0`, negative to
  `size_t`); those are the explicit outcome `ub`.
* `size_t` is `ℕ` except where a property is about wrap-around (`rayTrace` loop bound, `serialize`
  origin, C155), where arithmetic is modulo 2^64.  Allocation failure is not modelled (except in C158).
* Undefined behaviour (out-of-range access, null dereference, `top()`/`back()` on an empty container, missing
  return value, bad float→integer conversion) is a distinct result `Res.ub`; C++ exceptions are `Res.throw`.
* Third-party code is not modelled: Eigen decompositions (SVD, eigenvalues), PCL (`transformPointCloud`, KD-tree),
  g2o's solver, ROS, OpenMP runtime, OpenCV.  Where a result of theirs enters a property it is an arbitrary parameter
  (matcher outcome, optimiser estimate, score function, thread schedule), so theorems hold for every behaviour of it.

## What is modelled

| Lean area | C++ |
|---|---|
| `Verif/Grid` | `include/ndt_gslam/ndt/voxel_grid2d.h` |
| `Verif/NDTGrid` | `include/ndt_gslam/ndt/ndt_grid2d.h`, `ndt_mapper.h` |
| `Verif/Cell` | `src/ndt/ndt_cell.cpp`, `include/ndt_gslam/ndt/ndt_cell.h` |
| `Verif/Graph` | `include/ndt_gslam/slam_optimizer/pose_graph.h` |
| `Verif/Slam` | `slam_optimizer/slam2d.h`, with the published graph (`getGraphSerialized`, `createArrowMarkers`) |
| `Verif/Algo` | `ndt_slam_algorithm.h` (`update`, `updateGraph`, `movedEnough`, origins of the frames; grid contents abstracted to the list of scans merged) |
| `Verif/Node` | `src/graph_slam2d_node.cpp` (`prepareAllData`, `doAlgorithm`, `updateTFTrans`, `publishTF`, `eigenPoseToTF`, `arrayToMatrix`) |
| `Verif/Loop` | `slam_optimizer/loop_detector.h` |
| `Verif/Pose` | `utils/eigen_tools.h`, `slam2d_policy.h`, `covariance_wrapper.h` |
| `Verif/Utils` | `utils/string_tools.h`, `point_cloud_tools.h` |
| `Verif/Robust` | `registration/d2d_ndt2d_robust.h` (decision logic), `slam_optimizer/ndt_scanmatcher.h` |
| `Verif/Corr` | `registration/correlative_estimation_tools.h`, `correlative_estimation2d.h` |
| `Verif/Newton` | `registration/ndt_reg_tools.h`, `ndt2d.h`, `d2d_ndt2d.h`: parameters, layers, line search, Newton loops, parallel sum (score functions and the solver are parameters) |
| `Verif/Score` | `ndt2d.h`: `calcScore`, `calcPointScore`; `d2d_ndt2d.h`: `calcScore`, `computeDerivatives`, `calcSourceCellScore` (real numbers; the search for nearest cells is a parameter) |
| `Verif/World` | `ndt_grid2d.h` with poses (`mergeIn`, `mergeInTraced`, `transform`, `initialize`, `getMeansTransformed`, `getRadius`, `getCentroid`, `serialize`, `createOccupancyGrid`), `ndt_mapper.h`, the window in `ndt_slam_algorithm.h`, `toNdtMapMsg`, `EigenToPoseMsg`: the models of grid, cell and transforms put together over the reals |
| `Verif/Whole` | `ndt_slam_algorithm.h` with the contents of its maps: `Verif/Algo` (poses, graph, thresholds) and `Verif/World` (cells) run together, with `frames_` and the mapper; scan matcher, optimiser and `std::sort` are inputs; the loop detector is an input in `Model.lean` and the one of `Verif/Loop` in `Detect.lean` |
| `Verif/Launch` | `graph_slam2d_node.cpp` `main`, constructor (subscriptions), `initParameters`; the setters of `ndt_slam_algorithm.h`, `slam2d.h`, `loop_detector.h`, `ndt_scanmatcher.h`; `NdtScanmatcher::match`; then `Verif/Whole` with these settings. The parameter server is a lookup function, `static_cast<float>` an arbitrary function |
| `Verif/Match` | `ndt_scanmatcher.h` constructor and `match`; `d2d_ndt2d_robust.h` all but the output cloud; with the models of the D2D matcher, the correlative matcher and the look-up table |
| `Verif/Opt` | `switchable_constraints`, `max_mixture` and `addMaxMixtureEdge` in `slam2d.h`; `read` and `write` of `VertexSwitchLinear`, `EdgeSwitchPrior`, `EdgeSE2Switchable`, `EdgeSE2Mixture` |
| `Verif/Program` | `graph_slam2d_node.cpp` `odom_cb`, `pose_cb`, `laser_cb`, `doAlgorithm`, `publishTF` with everything they publish: `Verif/Node` around `Verif/Launch`, with the headers of the messages. A synchronised message with the results of its TF lookups is an input |
| `Verif/Round` | `voxel_grid2d.h` addressing and `rayTrace`, `ndt_grid2d.h` `mergeIn(cells)`, `createGrid`, `addPoint`, `move`, `getKNearestNeighborsKDTree`, `ndt_slam_algorithm.h` `updateGraph` (pose), `eigen_tools.h` and `ndt_cell.cpp` (`computeGaussian`, `operator+=`) with the rounding of `float` and `double` |

Not modelled: message transport and synchronisation (message filters, TF buffer), visualisation,
`printNodes` and other members which do not compile when instantiated (`VoxelGrid2D::getCentroid`, `NDTMapper::removeFrame`, ...),
the executables `ndt2d_visual` and `ndt_grid2d_merging`, `edge_se2MaxMixture.cpp` (not in the build).

## Layout

Every area has `Model.lean` (transcription), lemma files, `Spec.lean` where a separate specification is needed, and
`Props.lean` with only the property theorems and the `example`s showing that the hypotheses are satisfiable.
Theorem names start with the property id (`C01_...`).  Where the code does not have the property there is a theorem
`Cxx_false` / `Cxx_..._counterexample` (negation with a concrete witness, or for all inputs of the bad class) and
a theorem with suffix `_partial` giving the strongest true part.

## Properties: model and method

* **C01** `Grid` state = four extents, cell size, list of `Option cell`, counter; operations as functions `Grid → Res Grid`. Invariant `cells.length = width*height` by induction over an operation list.
* **C02** `addCell`; specification = a partial map from integer world squares to cells. Shown for all points not on a right/bottom border line of a cell square at the grid border (`_partial`), with negation witnesses on the border.
* **C03** `enlarge`: index-remap loop transcribed as written; prove its closed form `(r,c) ↦ (r+up, c+left)`; content function in world squares unchanged.
* **C04, C05** the four in-place shifting loops are transcribed with their counters; loop invariant gives closed form shift.
* **C06** `isInside` vs `calcCoordinates`: equivalence for half-open box; witness on closed edges (`_partial`).
* **C07** window loops; membership iff and `Nodup`, order by `List.Pairwise` on the index.
* **C08** counter invariant for add histories; counterexamples for clear / rayTrace / translate (`_partial`).
* **C09** copy constructor transcribed; it is wrong for every grid: negation for all grids; `_partial` for what survives (extents, counter).
* **C10, C11** `rayTrace` loop with 64-bit bound; invariants over loop; short-ray overrun counterexample.
* **C12** filterMap.
* **C13** success path = `ub` (missing return). Negation for every inside point, `_partial` for outside.
* **C14** `move` over the ordered field `K` with truncation toward zero; parametric in the cell type (`CellI`, laws `Lawful`), instantiated with the cell model of `Verif/Cell` in `NDTGrid/Real.lean`.
* **C15** `mergeIn` loop over cells; last-writer-wins characterisation.
* **C16** `createOccupancyGrid` map over slots.
* **C17** radius query on top of C07 with squared distance.
* **C18** 64-bit negation; false when `left > 0`, true when `left = 0` (`_partial`).
* **C19** false (overwrites): witness; `_partial` when no two Gaussian means share a coarse square.
* **C20** cell state machine over ℝ with NaN as `none`; invariant over operation list; false for a ray of length zero.
* **C21** pooled statistics as algebraic identity on point lists (means and scatter matrices), ℝ.
* **C22** false (identity start value and inverted normalisation); `_partial` for the mean; exact formula given.
* **C23** likelihood in [0,1] ⇒ log-odds ≤ 0; ray end at mean is the exception.
* **C24** false for batches below six points; `_partial` for batches of at least six.
* **C25** case analysis; false when a first batch above 10^9 points (not capped) is merged into a cell without Gaussian.
* **C67** invariant over the same operation list: covariance positive definite, inverse correct, at least three points.
* **C68** quadratic forms in the eigenbasis.
* **C69, C70** added after seeded bugs N23, N24 survived: mean over batches; rigid motion of a cell (regularisation inert by the invariant "condition number at most 100").
* **C26–C29** `Graph` model with slot list, recycling pool; refinement to finite map; off-by-one witness for C29 (`_partial`).
* **C30** adjacency invariant without removals (`_partial`), dangling witness with removal.
* **C31** iterator transition transcribed with dereference check; UB on full traversal witness; `_partial` for the intended traversal.
* **C32–C38** Slam2D state = graph + mirror of optimiser; invariants by induction over operations; optimiser results are parameters.
* **C39–C42** loop search on complete `EdgeCov` elements with the priority queue abstracted to an arbitrary choice function (`LargestFirst` where the order matters), rounds bounded by the number of nodes; matcher a parameter that sees the guess; uninitialised members are parameters.
* **C43–C47** ℝ, `Complex.arg` for `atan2`; derivatives by `HasDerivAt`.
* **C48** `Matrix.PosSemidef` congruence.
* **C49** `split` on `List Char` (any alphabet); join∘split = id.
* **C50** fold invariant.
* **C76** `covarInverse` over an arbitrary eigen solver satisfying `EigOk`. "Unchanged when well conditioned" is false: negation for every covariance of positive trace; rest `_partial`.
* **C77** `HasFDerivAt` of the composition of poses gives the Jacobians; `EdgeCov` covariance exact (`_partial`); order of the stored transform and the angle used by `CovarianceWrapper` are wrong: witnesses.
* **C78** `transBtwFrames a b = T_b⁻¹ T_a`, stated through the world coordinates of an arbitrary point.
* **C51–C53** `update` as a state machine over the models of `Slam2D` and eigen_tools with matcher answers, loop closures and optimiser results as inputs; invariant over all runs (`Reach`). C51/C53 proved, C52 false (motion below the threshold is lost).
* **C79–C84** same invariant. C79, C82, C83 false: negations; exact characterisation of what the code does in the `_partial` theorems.
* **C54, C55, C86** node transcribed over an arbitrary implementation of `ISlamAlgorithm`; `world_tf_trans_` is `none` until written.
* **C85** node and algorithm composed (`slamUpdate`); refinement of a run of the node to a run of the algorithm.
* **C56** sort by timestamp, permutation ⇒ equal.
* **C71, C72** invariants over operation histories (`Op`); the merged mean is a convex combination, squares are convex. Stale cloud after `clear`: witness.
* **C73** the fold over the inputs of a square as specification.
* **C74** `createGrid` as binning; six-point rule from the cell model.
* **C75** content relation preserved by `traceAll`.
* **C57** decision tree with `Option` for the unset variable; unset returned for limit > 0.7: witness; `_partial` for limit ≤ 0.7.
* **C58** line-search loop with arbitrary score oracle over a number type with infinities and NaN (`Fp`): the loop is followed through its
  cases; limits, evaluations and direction.  (For negative limits the interpolation can return NaN; excluded by the quantifier.)
* **C59** `HasFDerivAt` for the sum over all points while the nearest cells do not change; the gradient is exact if the angle is zero or at least
  10e-5 (`_partial`), the Hessian is the second derivative plus an explicit term (index mix-up); witnesses for both.
* **C60** gradient and Hessian exact for an increment applied after the transform (`_partial`); for the parameters the optimiser changes, the
  derivative by the angle is off by the moment of the translation (exact formula, if and only if); witness.
* **C61** list of partial sums updated by an arbitrary schedule; equals the sum over all cells.
* **C92** independence of the step from the score function; witness with a quadratic score and exact Newton solver.
* **C93** induction over iterations and layers; angles up to full turns.
* **C94** length of a step; false for the front end (witness), and what its parameters amount to for all scores.
* **C95** induction over the loop; the bound of the point matcher is reached for every maximum (constant slope).
* **C96** negation for every stationary guess with regular Hessian and every exact solver.
* **C97** inversion of a converged run; witness with Hessian -1.
* **C98** invariant over sequences of setters against a specification that remembers the last value set.
* **C99** real logarithms, concavity of log for d2 <= 1.
* **C100** injectivity of log: right if and only if the cell size is one.
* **C101** algebra with orthogonal matrices: determinant and quadratic form are invariant.
* **C102** positive semidefinite inverse, signs of the fitted parameters (C99), induction over the sums.
* **C103** least upper and greatest lower bounds of the covered area; the reported centroid is twice the centre, the radius suffices exactly for maps
  that are not too tall (`_partial`, exact conditions); witness.
* **C104** `SameInWorld` compares Gaussians by world position, height, world covariance and points; induction over the merged cells; both merges. With `resize = false` the claim is false (`C104_false`): see C169.
* **C105** `_partial` for maps with axes parallel to the world (the only ones the front end makes): hull of the moved positions, exact if nothing is
  fused; witnesses for a turned map and for the other reading (T in the world frame).
* **C106** composition of scan, C105, C104 and `move`; convexity for the means of scan cells.
* **C107** geometry of the ROS message (row-major from the corner, quaternion) written down in `Spec`; the place where each square is shown is computed
  (`_partial`) and is never its centre.
* **C108** uninitialised coordinate is `none`; reading it is undefined behaviour on every map; `_partial` for the rest of the message.
* **C109** induction over the history of the mapper; `std::sort` is any permutation; `C109_complete`: induction over the merged frames with a relation kept by rays. The size of the map and its free space do keep traces of earlier poses: see C167.
  (`TracedBy`): the frame merged last wins a square, rays may erase but never move a Gaussian.
* **C110** the cloud is a permutation of the world positions of the Gaussians; invariant over `Built` and over histories of the mapper.
* **C111** invariant over all maps that can be built (`Built`).
* **C112** totality of all operations of `Built`, and of the mapper in every reachable state, under explicit conditions (no mean or sensor on a
  border line, rays at least one cell long, recalculation only with frames) (`_partial`); `move` unconditionally; witnesses: a scan with points at the
  sensor, a recalculation without frames.
* **C113** refinement: the model with cells runs in step with `Verif/Algo`, so its results on poses (C80) carry over; invariant: every Gaussian of a frame lies
  in the convex hull of one scan (merging with `resize` overwrites, so a Gaussian never mixes scans), every Gaussian of the map is one of a frame.
* **C114** same invariant for the window, with C106 for the step.
* **C115** invariant over the three structures; `optimalize` moves the nodes, `sync` the frames, `recalc` the map; the map is always the merge of all frames in the order of the mapper (`C115_complete`).
* **C116** totality in every reachable state under conditions on scan, the scan turned and shifted by the result of the matcher (`TakeOk`, on the means of
  the squares of the scan only), active frame and (with loop closures) moved frames (`Safe`); updates without a scan
  need none; witness: first scan with points at the sensor.
* **C117** same decision tree, with the transform by which the output cloud was moved as a further result; two witnesses for failures.
* **C118** fold over the increments; the angle is the representative of the sum in (-π, π].
* **C119** functional specification of the whole search (`C119_candidates_partial`): invariant "the poses n-1 … n-k are visited, exactly the
  constraints that end in them are used, one element waits, for pose n-k-1, with the travelled distance"; the calls of the mapper (`Mapped`) are
  shown to keep the shape of graph this needs.  Witnesses: memory content, parallel constraints.
* **C120** corollary of C119 for mapper graphs; witness with two constraints of different length, determinants computed.
* **C121** exact formulas for the three updates; the point used by the code is shown to maximise the Gaussian on the whole line (completion of the
  square); the constant of the code is the log-odds of 0.6 up to 1e-9, by rational bounds on the exponential.
* **C122** case split of the callback; induction over the series with the unusable messages filtered out.
* **C123** invariant "the accumulated motion is the odometry since the last used scan, and the position is the pose returned for it".
* **C124** both loops transcribed over the graph model, iteration past the end strict or tolerant as in C31; invariant between graph and book of
  calls; for the algorithm the invariant "the odometry constraints of the book are i → i+1".
* **C125** texts as lists of numbers, words and blanks, streams with the flags of `std::istream`; read after write by computation, for mixtures by
  induction over the components.  Printing is any function on numbers.
* **C126** inversion of every extraction: a stream that is good at the end was good before, and every value came from a word of the text.
* **C127** bounds on the four sides of the grid of the window through every call (`enlarge`, ray tracing with resizing, `move` with discarding), induction over the run.
* **C128** both loops over the graph model with addresses chosen by the allocator; invariants along the list: old edges unchanged, new ids distinct, every end node lists the address of its closure; after removal that address is of no live edge.
* **C129** `update` of `Verif/Whole` with the loop closing as a parameter, instantiated with the detector of `Verif/Loop`; invariant: the pose graph of every run is of the shape of a mapper graph (chain of odometry edges and later loop edges), so that C119 gives the exact list of candidates and the update equals the one with these closures as input (`updateOwn_eq`); hence every run with its own detector is a run of the earlier model (`C129_runs_partial`).
* **C130** start of the program (`main`, constructor, `initParameters`, setters down to detector and matcher) and the running algorithm of C129 with the settings made there; the loop matcher is the robust matcher of `Verif/Robust` with arbitrary registrations. The settings are constant along a session, and C127, C84, C129 and C57 apply with the values of the parameters.
* **C131-C134** the loop matcher as a whole (`Verif/Match`): configuration by `NdtScanmatcher()`, direct match (`Verif/Newton`, four layers with arbitrary score functions), search (`Verif/Corr`), verification with the look-up table (`Verif/Corr`), decision as in `Verif/Robust` but with NaN scores. C132 by bounding the table entry at a point by the distance to target points. C134 composes this with C129/C130; `matching_describes` proves that the abstract matches of `Verif/Launch` include these.
* **C135** `Verif/NDTGrid/Rays.lean`: exact description of the walk of `rayTrace` (each swept square once, since a straight walk cannot come back to a square it left), then of `traceAll` square by square (`cleared`); `Verif/World/Free.lean` restates it with the poses of the maps and the real cell.
* **C136** the program (`Verif/Program`): messages are served by the node of `Verif/Node` running the launched algorithm of `Verif/Launch`; everything published is returned. `Whole.State` carries the occupancy grid kept by the mapper and the header fields of the window. Invariant over `Live` runs (`LInv`): the updates made so far, with their times, explain transform, stamp and sequence number; `Whole/Published.lean` shows that the kept grid is that of the current map. Contents of the messages by C54, C108, C107, C113, C114, C124.
* **C137, C138** trial value and interval (`Newton/Trial.lean`, `Newton/TrialProps.lean`): about the functions `trialValue` and `updateInterval` of `Newton/Model.lean`. Specification by polynomials of degree two and three with given values and slopes (`HasDerivAt`), `Bracket` for the interval. The cubic step is compared with every cubic that meets the data; one exists (`exists_cubic`). `C138_bracket` is the extreme value theorem on the interval.
* **C139** displacement of the reported robot against the window (`Algo/Offset.lean`): `displacement` is computed from the reported poses and the matched poses of a history, `Correction` from the nodes before and after an update. `C139_window` connects it with the origin of the window and the position in it, `C139_step` says how an update changes it, for any loop closures and any result of the optimiser.
* **C140** stationary points (`Score/Self.lean`): the pairs of Gaussians the matcher compares at a transform are a list; if it is a permutation of the list of swapped pairs, the gradients cancel pair by pair (the moments too, by the exact derivative of the rotated covariance). `Nearest` says independently what k nearest cells are.
* **C141** reach of a match (`Algo/Range.lean`): the answer of the matcher, arbitrary in `Algo.update`, is that of `Newton.ndtTransformation` with the parameters of the front end and arbitrary layers (`FrontEnd`); the bound of C94 on the match is carried through the window to the pose found and the pose reported.
* **C142**, **C143** mixtures of landmark and 3D constraints (`Opt/Kinds.lean`, `Opt/KindsProps.lean`, `Opt/KindsText.lean`): one model for the two classes with `k` numbers per measurement and information of size `n`; for landmarks the error is concrete, for 3D poses it is any function. Reading and writing as in C125, with the loops over upper triangles of any size.
* **C144**, **C145**, **C146** rounding (`Round/`): the addressing, merging and moving of grids once more, with a rounding function after each operation of the source (`float` or `double` as C++ evaluates it). The functions are arbitrary with a relative error; `Binary.lean` shows that rounding to 24 and 53 binary digits qualifies. Off the border lines the rounded functions are equal to those of `Grid/` and `NDTGrid/`, so the theorems there carry over. `C145_traced_partial` (`Round/Traced.lean`) does this for histories that mix traced and plain merges; the sensor position and the cells are those after the conversion to the frame of the map. A ray from the centre of a square has samples exactly on lines and is not covered by `C144_ray_partial`; `C144_centre_ray_partial` (`Round/CentreRay.lean`) covers it if halves of squares are represented exactly, which `C144_power_of_two` shows for every side that is a power of two.
* **C147** rounding of the pose (`Round/Pose*.lean`): `updateGraph` and the increments between matched poses with a rounding function after each operation; rotation matrices are never normalised by the code, so the invariant bounds the distance of each computed linear part from a rotation (`Turned`) along with the error of the angle and of the position. The exact counterpart is the composition of rigid motions (`comp`). `Track.update_exact` connects the model with `Algo.updateGraph`. `Round/PoseClose.lean` adds closed loops: the optimiser's pose of the last node is an input, the specification (`exactPose`) restarts from it, and `Track.next_exact` connects the step with `Algo.updateGraph` for arbitrary loops.
* **C148** rounding of mean and covariance (`Round/Cell*.lean`): `computeGaussian` (first batch) and `operator+=` with a rounding function after each operation. Accumulated sums are bounded by induction; single operations by lemmas that carry relative errors in units of `v n`. Definiteness of the matrix that the eigenvalue solver reads (its lower triangle) follows from the entrywise bound and the lower bound `(n-1)/n²` of the exact matrix. `cov2_exact`/`pooled_exact` connect the model with `Verif.Cell`.
* **C149** growing rings (`NDTGrid/Nearest*.lean`): the loop as a recursion on the remaining width, `std::sort` as an arbitrary permutation (which is all its comparator leaves). The radius search is C17; the factor 2 of the bound comes from the last ring that was too small.
* **C150** segments (`Grid/Lines.lean`): `linesIntersection` over an ordered field; the specification says what a point of a segment is, and Cramer's rule connects the two. Collinear segments are characterised exactly (one starts on the other).
* **C151** texts (`NDTGrid/Print*.lean`): the two `operator<<` as loops with their counters; induction over the rows.
* **C152** poses from odometry (`Slam/FromOdom*.lean`): the `while` loop with a number of rounds; the chain of first odometry constraints is specified on the book of the client. The function is not called (line 160 is commented out).
* **C153** rounding of the occupancy (`Round/Occ*.lean`): the `float` of a cell and its flag under every series of calls; limiting does not enlarge errors; induction over the calls. `batch_exact`, `merge_exact`, `ray_exact` connect the run without rounding with the model of the cell. The evidence of a ray (computed in `double` from the Gaussian) enters with an error `ν`, the occupancy of a merged cell with an error `β`.
* **C154** stop rule of the matchers (`Newton/Stop.lean`): the positions visited are specified by the single step (`newtonStep`); both loops are instances of a rule on the number of passes and the length of the last step; induction over the passes, equivalence in both directions.
* **C155** machine integers of the grid (`Grid/Machine*.lean`): a second model of the same functions with `size_t` modulo 2^64, `long`, `int` and an allocation limit; refinement to `Grid/Model.lean` by an invariant (extents at most 2^30) along every history of moderate calls. So the simplification "`size_t` is ℕ" of the other grid theorems is justified for such histories.
* **C156** merging any number of cells (`Cell/MergeAll.lean`): induction over the list of cells, each in any reachable state; permutation invariance follows from a description of the result by sums over the occupied cells.
* **C157** influence of closures (`Opt/Influence*.lean`): model of `addSwitchConstrainEdge` beside the calls of Slam/Model.lean; ids distinct by induction over the calls; the bound compares an optimum with any other poses, with an arbitrary function as cost of the remaining graph. Whether g2o finds an optimum is outside the model.
* **C158** memory for listing (`Grid/Enumerate*.lean`): the reservation of `getValidCells` and `getValidCellsPtr`, which Grid/Model.lean leaves out, as a request that fails above a given number of elements; growth of the container by `push_back` is counted by elements only. The counter is followed through all histories.
* **C159** loops of the search with rounding (`Round/Search*.lean`): the `float` loops of `computeTransformation` with fuel (not ending is a result), the division of `transformIndexes`; `Nearest` is rounding to nearest with any rule for ties, `binaryEven` the rule of the hardware. Links to the exact loops of `Verif/Corr` by `C159_exact_partial`. Overflow and subnormal numbers are not modelled.
* **C160** parallel sum with rounding (`Round/Threads*.lean`): the table of threads and the final sum of `calcScore`, rounding after each `+=`, one of the thirteen numbers at a time; a schedule is a list of pairs of thread and cell in the order of the additions, as in C61 which is the exact sum. The contributions of the cells are parameters.
* **C161** destruction of `Slam2D` (`Opt/Destroy*.lean`): the `unique_ptr` members in reverse order, with the objects deleted so far as state; what the destructors of g2o delete is a parameter (`Lib`), vertices and edges always. Only objects created with `new` in slam2d.h.
* **C162** overlap test (`Whole/Overlap*.lean`): `calcScanParams` with its cache, `isCloseMatch`; runs are those of `Whole/Detect` (algorithm with its own loop search) with questions at any time. Shows that a stored frame keeps its grid for the rest of the run.
* **C163** scans with NaN or infinite planar coordinates (`NDTGrid/Nan*.lean`): `getMinMax2D`, `enlarge`, `createGrid`, `initialize` on extended coordinates; infinite heights are not modelled. Uses that grids with the same content list their cells in the same order whatever their extents (`getValidCells_eq`).
* **C164** the functions of the NDT grid on the machine grid of C155 (`NDTGrid/Machine*.lean`): `int` steps of `move`, wrapping indices, bounded containers, also for the listings of cells. Compared with the exact model by a relation that allows only `bad_alloc` as a difference.
* **C165** memory of the frames (`Whole/Memory*.lean`): invariant of whole runs, "stored frames times smallest generation distance plus distance of the robot from the origin of the active frame is at most the way"; extents of all frames as in C127. The global map is one rectangle around all frames, so its size depends on where the optimiser puts them; it is not part of the statement.
* **C166** band of a ray (`NDTGrid/RayChain*.lean`): induction over the loop of `rayTrace` with the list of squares visited so far as a chain of touching squares; coverage from the distance of a point of the line to the sample before it, measured along the longer axis.
* **C167** dependence of a recalculation on the past (`NDTGrid/Recalc*.lean`): the extent after any calls of the mapper as the join of what all placements need (stated as: a rectangle contains the map exactly if it covers all means ever placed), and equality of recalculations from equal extents (as in C56).
* **C168** occupancies in all maps (`World/History*.lean`, `Whole/History.lean`): every cell of every map that can be built has a history as a single cell with rays of positive length only (`Built.hist`, induction over the operations on maps), so all that is proved of single cells (C20, C23, C67, C121) holds in maps; lifted to all runs with the invariant of `Whole`.
* **C169** merging without resizing (`World/Fixed.lean`): the fold of `operator+=` over the Gaussians that fall into a square (`arriving`, by their place in the world) with the results of C156.
* **C170** memory of the map (`Whole/MapMemory*.lean`): invariant over all runs that the means of the cells of every frame lie in a disc of radius R + D' around the origin of the frame, hence in one of radius R + D' + B around the start when it is added to the map, before and after an optimisation; without loop closures B is the way driven, by the triangle inequality along the chain of increments.
* **C171** layers of a match (`Score/Layer*.lean`): joins the grid model (coarser grids, cloud of means, lookup of the answers of the search tree) with the score functions, which so far had the nearest cells as a parameter. The search tree is an arbitrary function with a contract for clouds that are not empty (`TreeOk`; met by sorting). Pointers returned by the lookup are dereferenced in the model, null pointers are undefined behaviour.
* **C172** matches of real maps (`Match/Real.lean`): the scores of the layers, arbitrary in C93-C95 and C131-C133, are those of C171; existence of such a scene says that every score the loops can ask for is defined, and C131-C133 and C94 then hold of it.
* **C173** loop search on the maps of a run (`Match/Search.lean`): the matches of the detector, arbitrary in C129 and with arbitrary scores in C134, are those of C172 on the stored maps of the run. Existence of such a search for every choice of the surroundings (sorting, threads, solver, former report) says that all its scores are defined. The counterexample is a run of the whole model: two frames, then no echo.
* **C174** target of incremental matches (`Whole/Blind.lean`, `Match/Reference.lean`): invariant over `Series` (runs with a condition on each update and the state it is made in) that the window keeps a Gaussian: a matched scan leaves one where it is merged (merging with resizing overwrites, C104), fused Gaussians stay Gaussians (C121), and shifting keeps what is within the radius (C127). With C172 this makes the incremental matches of such runs defined. That a matcher without target does not succeed (`NeedsTarget`) is an assumption about the base class (PCL: `align` returns unconverged without a target).
* **C175** history of the matchers (`Match/Inputs.lean`, `Match/InputsProps.lean`): the clouds kept by the base class between matches are state; histories are an inductive predicate (`Used`, `UsedInc`). What pcl::Registration does with empty clouds and in `align` is taken from PCL (third party, trusted as stated at the head of the file). The report left by the last use only shows in the matrices (`layers_report`). For sources without Gaussians the score is zero in all layers (C171), so the D2D matcher gives up both times. `no_target` proves the assumption `NeedsTarget` of C174 for windows without Gaussians from the start.
* **C176** place of the window message (`Program/WindowMsg.lean`): the message as published by `getNDTMap` compared with the world position of the Gaussians (`worldPos`, as for the point clouds, C114) and with the centre of the covered area; extents of the window in a run from C127.
* **C177** objects that have gone (`Cell/Vanish.lean`, `World/Vanish.lean`): a list of rays applied to a cell (`looks`), with the geometry of each ray against the Gaussian in Mahalanobis distance (`LooksThrough`, `LooksPast`) and no reference to the update rule; induction over the list with C121 for the single ray. For maps the exact effect of the rays on one square (C135, `cleared`) is used.
* **C62** search list as a set of candidates, result maximal for every schedule and every sort; guess dropped: witness (`_partial`).
* **C63** table model with checked accesses; loop invariant "largest offer so far" over the in-place smearing, which is exact as long as only occupied places hold 100 (`Sharp`); otherwise a neighbour also becomes 100 and is smeared again, which walks out of the table: proved for every target by monotonicity. Points on the border of the box: witness.
* **C64** same table; border offset witness; `_partial` with the offset.
* **C90** closed form of the table from the same invariant; deviation in wrong unit: witness.
* **C91** floor commutes with whole shifts; quarter cell witness.
* **C65** clamp; induction over increments.
* **C66** fold-min against the likelihood (weight times Gaussian density) as independent specification; induction over optimiser calls; empty list is `ub`; re-initialisation uses stale determinants: witness (`_partial`).
* **C87** `push`/`pop` of g2o restore `_estimate` but not the own member `_x`: witness (`_partial` for the estimate).
* **C88** reduction to the Jacobians of C47 and `HasDerivAt` in the switch.
* **C89** instance of the search with two components; exact threshold.

## Conformance with the project's own unit tests

`lean/Verif/Tests` runs the project's unit tests of the grid (test/ndt/voxel_grid2d_test.cpp), of the pose graph
(test/slam_optimizer/pose_graph_test.cpp) and of the pose tools (test/utils/eigen_tools_test.cpp) on the model.  These are
checks that the model agrees with the code on the cases its authors wrote down; no claim of MANIFEST.json rests on them.
The model meets all expectations except:

* three lengths of rays in voxel_grid2d_test.cpp (4, 9 and 5; the model gives 3, 8 and 4): the loop of the pinned code
  stops before the last cell; the test file includes the removed header ndt/cell_policy2d.h and no longer compiles, so
  its expectations are of an older version;
* loops over the edges of the graph with prefix increments: undefined in the strict reading of the iterator (C31), with
  the expected edges otherwise;
* the cycle that ends at the angle -M_PI: in exact arithmetic the angle is normalised to π; M_PI is slightly less than
  π, so that the program keeps -M_PI.

## Disagreements between the code and the properties

For each of these the negation is a theorem and the strongest true part that I found is a theorem with suffix `_partial`.

* **C02, C06, C07, C15, C71** (grid borders) `isInside` includes the right and bottom edge of the extent but the coordinates computed there
  belong to the next column/row: cells written to a wrong slot or out of bounds.
* **C08** the cell counter is not maintained by `clear`, `rayTrace`, `translate`.
* **C09** the copy constructor of the grid loses the cells.
* **C10** a ray shorter than one step overruns; zero-length rays.
* **C13** `removeCell` has no return statement on success.
* **C17** a radius of zero ignores the distance, and a query point outside the grid finds nothing.
* **C18** `-left()` on `size_t` wraps; the vertical coordinate uses `up` instead of `-down`.
* **C19** cells falling in the same coarse square overwrite each other.
* **C20, C23** a ray of length zero makes the occupancy NaN.
* **C22** the covariance of a batch starts from the identity and is normalised by (n-1)/n^2.
* **C24** batches below six points drop the Gaussian and the old count.
* **C25** a first batch above the cap is not capped.
* **C29** the id one past the last is accepted; **C30** removal leaves dangling adjacency pointers;
  **C31** the edge iterator reads past the end.
* **C34** the information matrix argument of `addConstrain` is ignored.
* **C40** the path length starts uninitialised; **C41** clean-up uses the faulty iterator;
  **C42** `top()` on an empty queue when a pose is not reachable.
* **C72** `clear` leaves the means cloud and the search tree; lookups give null pointers until the next merge.
* **C45** `transBtwPoses` takes the translation in world axes; the resulting matrices do not compose.
* **C76** `covarInverse` reads the diagonal eigenvalue matrix with a single index, hence always shrinks the two largest eigenvalues.
* **C77** `EdgeCov::operator+` stores `new * old`; `CovarianceWrapper::addToCovar` uses the angle of the new motion.
* **C52** `unused_trans_` is only used for the threshold; the increments of updates below it never reach the position
  (0.15 m + 0.15 m is reported as 0.15 m).
* **C54** `world_tf_trans_` is not initialised (its initialiser is commented out) and is published at the first message.
* **C79** after a failed match the odometry was already added to the position but the next increment is again measured from the last
  matched pose (1 m failed, then matched at 1 m: 2 m reported).
* **C82** the guess contains the motion of the current update only; motions of idle and failed updates since the last match are missing.
* **C83** rays of all scans of a frame start at the origin of the frame.
* **C85** consequence of C52: the published transform drifts with the lost increments.
* **C57** with a rejection limit above 0.7 a direct match between 0.7 and the limit is reported as success with a transform that was never set.
* **C66** `initializeComponents` appends to `determinants` instead of replacing it: after a second initialisation the wrong component is selected.
* **C87** `VertexSwitchLinear` keeps its value twice; `pop` restores only one copy and the next increment starts from the rejected value.
* **C62** `final_transformation_ = vecToMat(best_trans); // * guess;` drops the guess.
* **C63** the box test is strict, so the extremal points of the target are not entered; for deviation times cell size of 10 or more the
  smearing of the smearing runs out of the table.
* **C64** `toIndexes` omits the border which `getCellIdx` adds.
* **C90** the kernel gets `1 / grid_step` as cell size, so the deviation in cells is multiplied by the cell size instead of divided.
* **C91** `transformIndexes` rounds the shift down (and the vertical one after negation up) independently of the points.
* **C92** `interval_converged = (step_max - step_min) > 0` is true for every sensible pair of limits: the More-Thuente loop never runs and
  the step is the Newton step clamped to [eps / 2, step size].  Close to an optimum the lower limit of 0.05 overshoots it.
* **C94** the front end sets a step size of 0.01 and leaves eps = 0.1: the lower limit 0.05 wins.
* **C95** `ndt2d.h` tests `nr_iterations_ > max_iterations_` before counting.
* **C96** a Newton step of length zero is treated as "not enough overlap".
* **C97** `covariance_ = score.hessian_; inform_matrix_ = score.hessian_.inverse();` are swapped and have the wrong sign, and the Hessian
  belongs to the position before the last step.
* **C98** `setNumLayers(0)` leaves no cell size; the next `setNumLayers` calls `back()` on an empty vector.
* **C100** `FittingParams` divides by the square of a "resolution" which the matchers give as 1 / cell size.
* In `ndt2d.h` the line search scores its trial points with the output cloud (empty on the first grid) instead of the source; it has no
  effect because the search is skipped (C92) or its result is pinned (C94).
* **C59** `calcPointScore` uses `hess_derivatives2` (zero) for the entry (2, 2) and `hess_derivative` for all others; it should be the other way
  round.  `calcScore` replaces the cosine and sine of angles below 10e-5 in the derivatives while the points are moved by the exact angle.
* **C60** `computeDerivatives` differentiates with respect to a rotation about the origin of the target after the transform; the Newton step is added
  to the angle of the transform, which rotates about its translation.
* **C73, C74, C75** a mean (or scan point) exactly on the right or lower border line of the last column or row is taken as inside but addressed
  one square further: it lands in the next row, or outside the storage.
* **C103** `getCentroid` lacks a division by two, `getRadius` adds a quarter of the height to the full width instead of taking half the diagonal.
* **C105** `transform` turns the cells about the origin of the map and adds the translation to the pose of the map without turning it: right only
  for maps whose axes are parallel to those of the world.
* **C107** the cells are published top row first with the pose of the upper left corner, whereas the first row of the message is the lowest one:
  the map is mirrored at its upper edge; in addition it is half a cell off in x (the corner is computed without the half cell).
* **C108** `NDTGridMsg::origin_` is not initialised, `serialize` assigns two of three coordinates and `toNdtMapMsg` reads all three.  The centre it
  announces is a corner of the grid.
* **C112** a Gaussian whose mean coincides with the sensor (or lies within a cell of it, C10) drives `rayTrace` into undefined behaviour.
* **C112** `NDTMapper::recalc` of a mapper without frames dereferences the means cloud, a null pointer until a map has been merged.
* **C116** the first scan is merged with ray tracing into the window and the frame without a look at the distance of its points: six points at the
  sensor are enough for undefined behaviour in the first update.
* **C117** when the second D2D match fails, the output cloud is the one that matcher left (the unmoved source), the transform is the one of the
  correlative matcher; when it is rejected, quality and transform belong to different matches.
* **C119** the distance of the start element is not initialised (C40), so candidates can be overlooked; `nodes_visited` counts queue elements, not
  poses: with two constraints between the same poses a pose is matched twice and another one never.
* **C120** `std::priority_queue` delivers the largest element, and `EdgeCovComparer` orders by growing determinant.
* **C124** the loops over nodes and edges read past the end (C31).
* **C125** `VertexSwitchLinear::write` writes `_x`, which is not restored after a rejected step (C87). `EdgeSE2Mixture::read` does not clear the
  vectors: an object that already holds components appends new edges, fills the old ones and keeps the old weights and determinants in front.
* **C126** `read` of the switch, the prior and the switchable constraint returns `true` whatever the text is. `EdgeSE2Mixture::read` checks the stream only
  at the end: with a truncated text it uses variables without a value (or index -1 if there are no components).
* **C127** the radius is only the initial size of the window. Merging a scan enlarges the window for every cell outside (`resize` is true), and `move` keeps
  the size: with a radius of 1 m and a wall at 5 m the window reaches to the wall from the first scan on. A radius set after the first scan has no effect.
* **C128** `PoseGraph::removeEdge` does not take the pointer out of the adjacency lists of the two nodes. After trial closures have been taken back every search from
  the end pose of one of them reads a destroyed constraint. `addToGraph` is not atomic: an unknown pose throws and the ids of the closures added before are lost.
* **C129** as C39 and C119: the clean-up loops of the detector erase while iterating and read past the end; under the strict reading every finished frame is undefined behaviour
  (`C129_false`: no run without undefined behaviour has a finished frame), and the distance the search starts with is never initialised.
* **C130** thresholds above 0.6 are not observed: `computeTransformation` accepts a direct match with a score above the fixed 0.6 when the second match stays below the limit
  (`C130_false`). The thresholds 0 and 1 throw although the message says `[0,1]`; the exception is not caught and the program ends (`C130_false_bounds`). Negative distances are accepted silently.
* **C131** thresholds above 0.7: `first_trans` is not written when the direct match is good, but copied when its score is below the threshold (`C131_false`).
* **C132** `getScore` divides by the number of target points, so an accepted match can place most of the source far away from the target (`C132_false`: five of fifteen).
* **C133** loop matching starts without translation and cannot reach beyond 9.66 m, while candidates up to `loop_max_distance` (30 m by default) are tried.
* **C135** a Gaussian closer than one cell to the robot wraps the step count of its ray, which then clears the map up to its border, Gaussians behind it included (`C135_false_short`; the effect of C10 on a map). The map grows after the rays were traced, so free space outside the old extent is not recorded (`C135_false_outside`).
* **C136** the window message reads a coordinate that is never written (`C136_false`, as C108). Before the first frame is finished the map message has extent and resolution 0. The point clouds and arrows carry no time stamp. When a match fails, window stamp and number stay those of the last merged scan, although a new message is published.
* **C137** the formula of the cubic step takes the root with `+w` whatever the order of the points. If the second point is on the left this is the maximum of the cubic. In the fourth case the interpolation starts at `a_u`, which usually lies beyond the trial point, so there the maximum is the usual result.
* **C138** both ends start at 0, and no update ever moves the other end outwards: after a first trial point that still descends the interval lies behind it (`C138_false`).
* **C139** after an optimisation `updateGraph` sets the position from the moved node, but the running window and the last matched pose stay in the old coordinates. The reported robot is displaced against the published window by the correction from then on (`C139_false`); a later correction of the same frame does not undo it.
* **C140** the distribution matcher compares a cell with its two nearest. Being among the two nearest is not mutual, so the pulls do not cancel and the gradient at perfect alignment is not zero (`C140_false`). For points and distributions the weights of the points of a skewed cell do not cancel either (`C140_points_false`).
* **C141** after scans that were not matched the guess lacks their motion (C82), and the matcher moves it by 0.4 at most (C94): 1 m without a match leaves the robot at least 0.6 m behind the place given by odometry when matching succeeds again (`C141_behind`).
* **C142** `EdgeSE2PointXYMixture::linearizeOplus` calls `computeError` of the base class: the component stays the one chosen before, even if another one is the most probable at the new estimates (`C142_landmark_false`). The other two mixtures choose anew.
* **C143** as in C125, reading into an object that already holds components appends and overwrites at the same time (`C143_false`).
* **C144** a position just right of the border of the grid is seen as outside (`double`), rounded to `float` onto the border, and the grid is not enlarged: `addCell` writes past the end (`C144_false`). With squares of 0.2 m a ray from the centre of a square that leaves the grid visits the first square of the next row as well, or accesses the storage past its end (`C144_centre_ray_false`): the border is computed in `float`.
* **C145** the cloud of means holds `float`s; a mean close to the left of the right border of the map is looked up on the border, past the end of the storage (`C145_false`).
* **C146** `continuous_move` is a `float` product and the steps are an exact number of squares: each move can shift the means against their squares (`C146_false`).
* C148: definite at any range is false. The identity that `computeGaussian` adds to the sum of squares is lost once the squares of the coordinates exceed 2^53 (`C148_false`, points 2^30 m away); for realistic ranges it is kept (`C148_ieee_partial`).
* C149: the k nearest are not returned: the comparator is `(a->getMean() - pt).norm() < (a->getMean() - pt).norm()` (ndt_grid2d.h:952), and the loop compares a radius in metres with the width in cells, so that a tall grid is not searched to its end (`C149_false`).
* C150: segments of a tenth of a millimetre that cross are said not to, overlapping collinear segments of opposite direction are missed, and the point returned for collinear ones is the origin (`C150_false`).
* C151: `setw(5)` does not separate entries of five or more characters (`C151_false`).
* C152: if odometry constraints form a cycle, `initializeGrapFromOdom` does not end (`C152_false`); it also leaves the estimates of the optimiser's vertices as they were.
* C153: five points and three passing ones make an occupancy of 0.4; the published value is 39, not 40 (`C153_false`).
* C154: the point to distribution matcher never checks the length of its first step and stops only when `nr_iterations > max` before the increment, so up to two more steps than configured are made (`C154_ndt_partial`, `C154_false`).
* C155: a point 2^32 - 1 cells right of and above a new grid makes `new_size` wrap to 0; `resize` succeeds and `large_grid[new_index]` is written past the end (`C155_false_grow`). `translate` with the smallest `int` overflows (`C155_false_move`). `getNeighbors` with the largest radius returns nothing (`C155_false_radius`).
* C156: `operator+=` (ndt_cell.cpp:53-57) replaces a cell without Gaussian by the other cell and ignores another cell without Gaussian; a place that one map knows to be free for certain (occupancy -1) is shown as an obstacle as soon as another map has a Gaussian there, in either order (`C156_false`).
* C157: `tryLoopClose` (slam2d.h:277-293) has the calls of `addMaxMixtureEdge` and `addSwitchConstrainEdge` commented out and adds plain constraints; a single wrong closure then pulls the optimum away from the odometry by any amount (`C157_false`).
* C124: `createListMarkers` (slam2d.h:544-596, not called) writes both colours to `red`; `light_red` stays zero (alpha 0, invisible) and the orientation is the zero quaternion (`C124_lines_false`).
* C158: `getValidCells`, `getValidCellsPtr` and `getGaussianCells` reserve `valid_cells_` elements, a counter that `clear`, `translate` with discarding and `rayTrace` do not maintain (C08). A map of five cells needs memory for one more element after every `recalc`, that is after every loop closure (`C158_false_map`); a cleared grid still reserves for what it held (`C158_false_clear`).
* C159: the loops of the correlative search add a `float` step to a `float` (correlative_estimation2d.h:196-225). If the step is below a quarter of the spacing at the window size the variable does not change and the search hangs (`C159_false_ends`). With cells of 0.2 m (the step is the cell size) and a window of 5 m the accumulated error skips the shift by 13 cells and tries another one twice (`C159_false_shift`).
* C160: `#pragma omp for` without `schedule(static)` leaves the assignment of cells to threads to the implementation (d2d_ndt2d.h:542), and the sums of `double` depend on it (`C160_false`): the registration need not be reproducible from run to run.
* C161: `Slam2D` keeps the optimiser, the algorithm, the block solver and the linear solver in four `unique_ptr` and hands the last three to g2o by raw pointer (slam2d.h:67-77, 131-136). A g2o which deletes what it is handed (we believe this is so in the release for ROS Kinetic named in the README, whose source is not in the repository) then deletes them twice (`C161_false_twice`); the action of slam2d.h:78-82 is deleted by nobody unless the library does (`C161_false_leak`).
* C162: `isCloseMatch` computes the separation of the two scans and the inverse covariance and uses neither (loop_detector.h:379-387): frames any distance apart pass (`C162_false`). What remains is the distance between the two poses in the graph, tested by the caller (loop_detector.h:246).
* C163: `getMinMax2D` looks at every coordinate, also of points that `createGrid` skips, and nothing skips infinities: one infinite x or y makes the conversion in `calcInc*` undefined (`C163_false_infinite`). A skipped point can also decide whether a number on a border line is written past the end (`C163_false_border`).
* C164: a move by 2^31 cells is undefined (conversion to `int`, or its negation), and a Gaussian 2^32 - 1 cells to the right of and above the origin makes the number of cells wrap to zero and the merge write past the end (`C164_false_move`, `C164_false_far`).
* **C166** a ray is sampled at half a cell, so a square of which it cuts only a corner can be missed and keeps its old occupancy (`C166_false_corner`: from (0.1, 0) to (3.35, 1.25) over unit squares the square (1, 1) is crossed and not visited). C135's "every square on such a line" is to be read accordingly.
* **C167** `recalc` starts from a cleared map that keeps the extent of the old one. The map therefore never shrinks (`C167_false_size`), and since rays are traced in the extent before a frame is merged, the free space it records depends on that old extent: recalculating twice in a row can give two different maps (`C167_false_again`).
* **C104, C169** `mergeIn` with `resize = true` overwrites a square with the Gaussian that arrives (several: the last one), with `resize = false` it fuses them with `operator+=`: the flag decides about more than growth (`C169_false`), and a fused Gaussian is none of the two maps' (`C104_false`).
* **C171** (`C171_false`): a grid without Gaussians gives the search tree an empty cloud (ndt_grid2d.h:426-430), and neither `getKNearestNeighborsKDTree` nor the matchers test for it before they ask the tree (d2d_ndt2d.h:560, ndt2d.h:485). That `pcl::KdTreeFLANN` holds a null pointer then is knowledge about PCL, not part of the model; the theorem takes it as a hypothesis.
* **C173** (`C173_false`): nothing keeps a frame without Gaussians from being finished (the robot drives 1.5 m by odometry while the sensor has no echo) and from being matched: the detector only compares distances (loop_detector.h:242-249, 372-393). Its empty grid is then asked as in C171. (With PCL the base class ignores an empty target cloud; if the matcher was never used before, `initCompute` has no target and `align` gives up early. In the run of the theorem a frame with Gaussians was finished, hence matched, before, so the matcher has an old target. That the incremental match fails in this run is one of the outcomes the model allows.)
* **C174** (`C174_stuck`, `C174_false`): the first scan is entered into the running window whatever it contains (ndt_slam_algorithm.h:211-214), afterwards only matched scans are (271-276); a failed match leaves the window as it is (283-289). If the robot starts facing open space (no square with six echoes), the window has no Gaussian, the matcher has no target, no match succeeds, and no later scan is ever entered: the algorithm runs on odometry for good, without reporting more than a debug message. Entering the scan after a failed match into an empty window would repair it. The same end is reached later on (`C174_forgets`, `C174_lost`, `Match/Forget.lean`): scans without six echoes in a square that are matched all the same (few points suffice for the solver to converge) add nothing to the window, while it is shifted with the robot (274-276); once the robot has made as many such matches, each at least a cell ahead, as the window is cells wide, no Gaussian is left.
* **C175** (`C175_stale`, `C175_false`): `inc_matcher_.setInputSource(local->getMeans())` (ndt_slam_algorithm.h:232) is refused by the base class if the scan has no Gaussian; the matcher then registers the previous scan again and may report success, which the algorithm takes as the position of the robot (240-276) and which moves the window. `if (local->getMeans()->empty())` treat as failed, would repair it. The loop matcher has the same base class but is safe: its D2D stage uses the grids, not the clouds, and gives up.
* **C176** (`C176_centre_false`, `C176_false`): `serialize` (ndt_grid2d.h:859-875) writes the means of the cells as stored, relative to the origin of the window, but `toNdtMapMsg` (ndt_slam_algorithm.h:398-428) puts them into a message in the frame of the map: after the first shift of the window all Gaussians are shown displaced by the origin of the window (the point cloud of the same window is right, C114). The field `x_cen`, "center of the map" by the message definition, is filled with a corner, and that corner is computed as `-grid_.left() * cell_size_` with an unsigned `left()`, i.e. about 4.6e18 m to the right.
* **C177** (`C177_once`, `C177_false`, `C177_map_partial`): the occupancy is limited to [-1,1] (ndt_cell.h), 1 being the value of three points, while a ray takes away up to the log-odds of 0.6 (0.405) for every point of the Gaussian it ends at (ndt_cell.cpp:134-183), and that Gaussian has at least three. A wall confirmed by a thousand scans is therefore removed from the map by one scan in which a single Gaussian is seen behind it, e.g. through an open door or by a pose error of half a standard deviation.
* **C145** with ray tracing: a sample of a ray between positions that are multiples of a quarter of a square lies on a border line; the sample of the code lies beside it, and a Gaussian which exact arithmetic removes stays (`C145_traced_false`).
