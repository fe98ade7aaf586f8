{
 "claims": [
  {
   "property": "C01",
   "status": "proved",
   "theorems": [
    "Verif.Voxel.C01_storage_matches_extent"
   ],
   "note": "All histories of mutating calls from a new grid."
  },
  {
   "property": "C02",
   "status": "partial",
   "theorems": [
    "Verif.Voxel.C02_add_read_back_partial",
    "Verif.Voxel.C02_false_exactly_on_border",
    "Verif.Voxel.C02_false_oob",
    "Verif.Voxel.C02_false_alias"
   ],
   "note": "Holds exactly off the right/bottom border lines (iff); the code is wrong on them: out-of-bounds write or aliasing, witnesses proved."
  },
  {
   "property": "C03",
   "status": "proved",
   "theorems": [
    "Verif.Voxel.C03_enlarge_preserves"
   ],
   "note": "All grids and boxes, exact rationals, positive cell size."
  },
  {
   "property": "C04",
   "status": "proved",
   "theorems": [
    "Verif.Voxel.C04_translate_keeps_all"
   ],
   "note": "All grids, all integer translations."
  },
  {
   "property": "C05",
   "status": "proved",
   "theorems": [
    "Verif.Voxel.C05_translate_discards"
   ],
   "note": "All grids, all integer translations."
  },
  {
   "property": "C06",
   "status": "partial",
   "theorems": [
    "Verif.Voxel.C06_inside_addresses_own_slot_partial",
    "Verif.Voxel.C06_lookup_partial",
    "Verif.Voxel.C06_false",
    "Verif.Voxel.C06_false_oob"
   ],
   "note": "True off the right/bottom edge; false for every grid on it."
  },
  {
   "property": "C07",
   "status": "partial",
   "theorems": [
    "Verif.Voxel.C07_neighbours_exact_partial",
    "Verif.Voxel.C07_false_edge"
   ],
   "note": "All points and radii except radius 0 exactly on the right/bottom edge, where it is false."
  },
  {
   "property": "C08",
   "status": "partial",
   "theorems": [
    "Verif.Voxel.C08_counter_partial",
    "Verif.Voxel.C08_false_clear",
    "Verif.Voxel.C08_false_translate_ray"
   ],
   "note": "True for histories without clear, rayTrace and discarding translate; false for those."
  },
  {
   "property": "C09",
   "status": "partial",
   "theorems": [
    "Verif.Voxel.C09_false",
    "Verif.Voxel.C09_copy_partial"
   ],
   "note": "False for every grid; only extents, cell size and counter are copied correctly."
  },
  {
   "property": "C10",
   "status": "partial",
   "theorems": [
    "Verif.Voxel.C10_ray_confined_partial",
    "Verif.Voxel.C10_false_short_ray",
    "Verif.Voxel.C10_false_short_ray_segment",
    "Verif.Voxel.C10_false_zero_ray"
   ],
   "note": "True for rays of at least one cell starting off the edge; false for shorter rays and zero rays."
  },
  {
   "property": "C11",
   "status": "proved",
   "theorems": [
    "Verif.Voxel.C11_ray_preserves"
   ],
   "note": "All grids, all rays executing without undefined behaviour."
  },
  {
   "property": "C12",
   "status": "proved",
   "theorems": [
    "Verif.Voxel.C12_enumeration"
   ],
   "note": "All well-formed grids."
  },
  {
   "property": "C13",
   "status": "partial",
   "theorems": [
    "Verif.Voxel.C13_false",
    "Verif.Voxel.C13_remove_partial"
   ],
   "note": "Success path has no return statement (undefined behaviour); state effect and outside case proved."
  },
  {
   "property": "C14",
   "status": "proved",
   "theorems": [
    "Verif.NDTGrid.C14_move",
    "Verif.NDTGrid.C14_move_ndt",
    "Verif.NDTGrid.C14_no_overshoot"
   ],
   "note": "Any ordered field with floor, any cell type satisfying Lawful (NDTCell does: cell_lawful). Steps of unbounded size; C164 relates them to int."
  },
  {
   "property": "C15",
   "status": "partial",
   "theorems": [
    "Verif.NDTGrid.C15_merge_resize_partial",
    "Verif.NDTGrid.C15_false_on_border"
   ],
   "note": "False for a mean exactly on a right or bottom border line at the border of the grid (write out of bounds); otherwise exact: the last Gaussian of each square wins."
  },
  {
   "property": "C16",
   "status": "proved",
   "theorems": [
    "Verif.NDTGrid.C16_occupancy"
   ],
   "note": "All contents, including NaN occupancy; also the published corner."
  },
  {
   "property": "C17",
   "status": "partial",
   "theorems": [
    "Verif.NDTGrid.C17_radius_search_partial",
    "Verif.NDTGrid.C17_zero_radius_partial",
    "Verif.NDTGrid.C17_outside_partial",
    "Verif.NDTGrid.C17_false"
   ],
   "note": "Exact for positive radius and query points inside the grid. False for radius 0 (distance ignored) and for points outside (no neighbours at all)."
  },
  {
   "property": "C18",
   "status": "partial",
   "theorems": [
    "Verif.NDTGrid.C18_origin_iff_partial",
    "Verif.NDTGrid.C18_false"
   ],
   "note": "False of the code: holds exactly when the grid has not grown to the left, up or down."
  },
  {
   "property": "C19",
   "status": "partial",
   "theorems": [
    "Verif.NDTGrid.C19_coarser_partial",
    "Verif.NDTGrid.C19_false"
   ],
   "note": "False of the code when two Gaussians fall into one coarse square (overwritten); never more points; exact when no two do."
  },
  {
   "property": "C20",
   "status": "partial",
   "theorems": [
    "Verif.NDT.C20_occupancy_bounds_partial",
    "Verif.NDT.C20_false",
    "Verif.NDT.C20_published_partial"
   ],
   "note": "All histories whose rays have positive length; false for a ray of length zero (occupancy becomes NaN). Assumes a correct eigen decomposition."
  },
  {
   "property": "C21",
   "status": "proved",
   "theorems": [
    "Verif.NDT.C21_merge_pooled"
   ],
   "note": "Exact pooled mean, covariance and count. Covariance equality stated for unions that need no regularisation; C68 covers the regularisation."
  },
  {
   "property": "C22",
   "status": "partial",
   "theorems": [
    "Verif.NDT.C22_mean_partial",
    "Verif.NDT.C22_false"
   ],
   "note": "Mean and count proved. The covariance is not the sample covariance: exact formula (n-1)/n^2 (I+S) proved, with a witness of disagreement."
  },
  {
   "property": "C23",
   "status": "partial",
   "theorems": [
    "Verif.NDT.C23_free_space_partial",
    "Verif.NDT.C23_false"
   ],
   "note": "All rays of positive length. Zero-length rays give NaN (C23_false)."
  },
  {
   "property": "C24",
   "status": "partial",
   "theorems": [
    "Verif.NDT.C24_counted_once_partial",
    "Verif.NDT.C24_false",
    "Verif.NDT.C24_false_witness"
   ],
   "note": "True when computeGaussian on a Gaussian cell is only called with at least six new points; otherwise false for every cell."
  },
  {
   "property": "C25",
   "status": "partial",
   "theorems": [
    "Verif.NDT.C25_merge_bounded_partial",
    "Verif.NDT.C25_false"
   ],
   "note": "True unless a cell without Gaussian merges one with an uncapped first batch above 10^9 points."
  },
  {
   "property": "C26",
   "status": "proved",
   "theorems": [
    "Verif.PoseGraph.C26_finite_map"
   ],
   "note": "For every history of public calls; the specification is the client's own book of arguments and returned ids."
  },
  {
   "property": "C27",
   "status": "proved",
   "theorems": [
    "Verif.PoseGraph.C27_remove",
    "Verif.PoseGraph.C27_lifo"
   ],
   "note": "Single removal and series of removals. Assumes fewer than 2^64 table entries (for edgeCount)."
  },
  {
   "property": "C28",
   "status": "proved",
   "theorems": [
    "Verif.PoseGraph.C28_lookup_throws_iff"
   ],
   "note": ""
  },
  {
   "property": "C29",
   "status": "partial",
   "theorems": [
    "Verif.PoseGraph.C29_reject_partial",
    "Verif.PoseGraph.C29_false"
   ],
   "note": "False of the code: in every reachable graph the id one past the largest is accepted and reset() is applied one past the end of the vector (undefined behaviour). All other dead ids are rejected."
  },
  {
   "property": "C30",
   "status": "partial",
   "theorems": [
    "Verif.PoseGraph.C30_adjacency_partial",
    "Verif.PoseGraph.C30_complete_partial",
    "Verif.PoseGraph.C30_false_after_removal",
    "Verif.PoseGraph.C30_false_alias"
   ],
   "note": "False of the code after any removal (dangling pointers stay in both adjacency lists). Exact without removals; complete and duplicate-free always."
  },
  {
   "property": "C31",
   "status": "partial",
   "theorems": [
    "Verif.PoseGraph.C31_postfix_loop_partial",
    "Verif.PoseGraph.C31_prefix_step_partial",
    "Verif.PoseGraph.C31_false",
    "Verif.PoseGraph.C31_false_first_removed"
   ],
   "note": "False of the code: the prefix increment dereferences the end iterator in every loop over a non-empty container. Proved for the postfix increment with a live first edge."
  },
  {
   "property": "C32",
   "status": "proved",
   "theorems": [
    "Verif.Slam.C32_poses"
   ],
   "note": "All histories of addPose/addConstrain/addLastConstrain/tryLoopClose/optimalize, including throwing calls."
  },
  {
   "property": "C33",
   "status": "proved",
   "theorems": [
    "Verif.Slam.C33_failing_constraint"
   ],
   "note": "State after an exception is modelled; both directions."
  },
  {
   "property": "C34",
   "status": "partial",
   "theorems": [
    "Verif.Slam.C34_keeps_partial",
    "Verif.Slam.C34_false"
   ],
   "note": "False of the code: the information matrix argument is ignored (constant diag(500,500,5000)). End points and transform are kept."
  },
  {
   "property": "C35",
   "status": "proved",
   "theorems": [
    "Verif.Slam.C35_last_constraint"
   ],
   "note": ""
  },
  {
   "property": "C36",
   "status": "proved",
   "theorems": [
    "Verif.Slam.C36_only_poses"
   ],
   "note": "All optimiser results, all iteration orders of the hash map. Assumes the optimiser does not change fixed vertices."
  },
  {
   "property": "C37",
   "status": "proved",
   "theorems": [
    "Verif.Slam.C37_loop_edges"
   ],
   "note": "For every list of closures reported by the search whose end points exist (the search only reports existing poses, see C40)."
  },
  {
   "property": "C38",
   "status": "proved",
   "theorems": [
    "Verif.Slam.C38_mirror"
   ],
   "note": "Assumes the optimiser accepts the vertices and edges it is given."
  },
  {
   "property": "C39",
   "status": "proved",
   "theorems": [
    "Verif.Loop.C39_terminates"
   ],
   "note": "All graphs (also inconsistent ones), all start nodes, queue orders and matcher outcomes."
  },
  {
   "property": "C40",
   "status": "partial",
   "theorems": [
    "Verif.Loop.C40_justified_partial",
    "Verif.Loop.C40_false"
   ],
   "note": "Everything except the minimum path distance, which the code compares against a sum starting with an uninitialised variable; false for a suitable memory content, true when that content is <= 0."
  },
  {
   "property": "C41",
   "status": "partial",
   "theorems": [
    "Verif.Loop.C41_no_trace_partial",
    "Verif.Loop.C41_tryLoopClose_partial",
    "Verif.Loop.C41_false"
   ],
   "note": "In the strict reading the clean-up loops always read past the end (see C31). If that read is harmless, the graph is left exactly as found."
  },
  {
   "property": "C42",
   "status": "partial",
   "theorems": [
    "Verif.Loop.C42_safe_partial",
    "Verif.Loop.C42_chain_partial",
    "Verif.Loop.C42_false"
   ],
   "note": "False of the code for every graph with two poses in which no constraint ends in the queried pose. Safe when all poses are backward-reachable, in particular for odometry chains."
  },
  {
   "property": "C43",
   "status": "proved",
   "theorems": [
    "Verif.Geo.C43_normalizeAngle"
   ],
   "note": "All real angles; exact arithmetic (atan2 = Complex.arg)."
  },
  {
   "property": "C44",
   "status": "proved",
   "theorems": [
    "Verif.Geo.C44_round_trips",
    "Verif.Geo.C44_displacement_angle"
   ],
   "note": "All poses and all rigid transforms."
  },
  {
   "property": "C45",
   "status": "partial",
   "theorems": [
    "Verif.Geo.C45_relative_partial",
    "Verif.Geo.C45_false_product"
   ],
   "note": "Round trip with transformPose, identity and chaining hold; the matrices of transBtwPoses do not compose by multiplication, since translation is taken in world axes (negation proved)."
  },
  {
   "property": "C46",
   "status": "proved",
   "theorems": [
    "Verif.Geo.C46_error_zero_iff"
   ],
   "note": "All poses."
  },
  {
   "property": "C47",
   "status": "proved",
   "theorems": [
    "Verif.Geo.C47_jacobian"
   ],
   "note": "All poses off the branch cut of the angle, where the error is discontinuous."
  },
  {
   "property": "C48",
   "status": "proved",
   "theorems": [
    "Verif.Geo.C48_propagation",
    "Verif.Geo.C48_trajectory"
   ],
   "note": "All motions and covariances; unbounded trajectories."
  },
  {
   "property": "C49",
   "status": "proved",
   "theorems": [
    "Verif.Utils.C49_split",
    "Verif.Utils.C49_empty_separator_diverges"
   ],
   "note": "Strings over any alphabet; with an empty separator the loop never ends."
  },
  {
   "property": "C50",
   "status": "proved",
   "theorems": [
    "Verif.Utils.C50_bounding_box"
   ],
   "note": "Any ordered field."
  },
  {
   "property": "C51",
   "status": "proved",
   "theorems": [
    "Verif.Algo.C51_update_ok",
    "Verif.Algo.C51_events",
    "Verif.Algo.C51_composition"
   ],
   "note": "All runs without loop closures; matcher answers arbitrary rigid transforms. Conversion to float at the interface of the matcher is exact."
  },
  {
   "property": "C52",
   "status": "partial",
   "theorems": [
    "Verif.Algo.C52_false",
    "Verif.Algo.C52_processed_partial",
    "Verif.Algo.C52_no_idle_partial"
   ],
   "note": "False of the code: motion below the threshold is reported once and then forgotten. What is reported is characterised exactly, and the property holds when no update was below the threshold."
  },
  {
   "property": "C53",
   "status": "proved",
   "theorems": [
    "Verif.Algo.C53_new_constraint",
    "Verif.Algo.C53_chain"
   ],
   "note": "Without loop closures the chain of poses; the new constraint for every run."
  },
  {
   "property": "C54",
   "status": "partial",
   "theorems": [
    "Verif.Node.C54_false",
    "Verif.Node.C54_consistent_partial",
    "Verif.Node.C54_republished"
   ],
   "note": "Holds for every processed message except the first, when an uninitialised transform is published."
  },
  {
   "property": "C55",
   "status": "proved",
   "theorems": [
    "Verif.Node.C55_telescope"
   ],
   "note": "Any algorithm implementing the interface; all runs."
  },
  {
   "property": "C56",
   "status": "proved",
   "theorems": [
    "Verif.NDTGrid.C56_order_independent"
   ],
   "note": "Frames identified by timestamps; poses may have been changed by the optimiser before recalc."
  },
  {
   "property": "C57",
   "status": "partial",
   "theorems": [
    "Verif.Robust.C57_false",
    "Verif.Robust.C57_justified_partial",
    "Verif.Robust.C57_unset_partial",
    "Verif.Robust.C57_scanmatcher_partial",
    "Verif.Robust.C57_accepts",
    "Verif.Robust.C57_limit"
   ],
   "note": "False for rejection limits above 0.7 (indeterminate transform reported as success); holds up to 0.7, in particular for the limit used by the loop closing."
  },
  {
   "property": "C58",
   "status": "proved",
   "theorems": [
    "Verif.Newton.C58_limits",
    "Verif.Newton.C58_other_trial"
   ],
   "note": "All score functions and limits with 0 <= step_min <= step_max, including the division by zero and NaN paths of the interpolation. C58_other_trial covers ndt2d.h, where trial points are scored with another cloud (positive lower limit)."
  },
  {
   "property": "C59",
   "status": "partial",
   "theorems": [
    "Verif.Score.C59_false",
    "Verif.Score.C59_gradient_partial",
    "Verif.Score.C59_hessian_partial"
   ],
   "note": "Gradient exact for all scans if the angle is zero or at least 10e-5 in absolute value (false below). The Hessian is false: entries swapped; exact error term proved."
  },
  {
   "property": "C60",
   "status": "partial",
   "theorems": [
    "Verif.Score.C60_false",
    "Verif.Score.C60_increment_partial",
    "Verif.Score.C60_parameters_partial"
   ],
   "note": "Gradient and Hessian exact for increments applied after the transform. For the parameters being optimised the derivative by the angle is off by the moment of the translation; exact if and only if that is zero."
  },
  {
   "property": "C61",
   "status": "proved",
   "theorems": [
    "Verif.Newton.C61_schedule"
   ],
   "note": "All thread counts, assignments and orders; exact arithmetic."
  },
  {
   "property": "C62",
   "status": "partial",
   "theorems": [
    "Verif.Corr.C62_false",
    "Verif.Corr.C62_best_candidate_partial",
    "Verif.Corr.C62_best_motion_partial",
    "Verif.Corr.C62_no_guess_partial",
    "Verif.Corr.C62_empty_window",
    "Verif.Corr.C62_no_step"
   ],
   "note": "The result is a best candidate for every schedule and order of equal scores; false that it is combined with the guess, which is dropped. Full property for the identity guess. Empty window: undefined behaviour; step not positive: no end."
  },
  {
   "property": "C63",
   "status": "partial",
   "theorems": [
    "Verif.Corr.C63_false",
    "Verif.Corr.C63_table_partial",
    "Verif.Corr.C63_sharp",
    "Verif.Corr.C63_overrun"
   ],
   "note": "Holds, apart from points on the border of the bounding box (which are not entered), for deviation times cell size up to 9.97; from 10 on every target with a point inside overruns the table."
  },
  {
   "property": "C64",
   "status": "partial",
   "theorems": [
    "Verif.Corr.C64_false",
    "Verif.Corr.C64_border_partial"
   ],
   "note": "False: toIndexes lacks the border offset. Equal after moving the indexes by the border, for clouds inside the box."
  },
  {
   "property": "C65",
   "status": "proved",
   "theorems": [
    "Verif.Opt.C65_unit_interval",
    "Verif.Opt.C65_increment",
    "Verif.Opt.C65_life"
   ],
   "note": "All series of increments, and all series of increments and settings from the constructor on."
  },
  {
   "property": "C66",
   "status": "partial",
   "theorems": [
    "Verif.Opt.C66_false",
    "Verif.Opt.C66_most_probable_partial",
    "Verif.Opt.C66_fresh",
    "Verif.Opt.C66_no_component"
   ],
   "note": "Holds for an edge initialised once (as the code does), through all later calls of the optimiser; false when it is initialised again."
  },
  {
   "property": "C67",
   "status": "proved",
   "theorems": [
    "Verif.NDT.C67_gaussian_usable"
   ],
   "note": "All histories, all rays. Assumes a correct eigen decomposition of symmetric matrices."
  },
  {
   "property": "C68",
   "status": "proved",
   "theorems": [
    "Verif.NDT.C68_regularisation"
   ],
   "note": "All positive definite covariances. Assumes a correct eigen decomposition."
  },
  {
   "property": "C69",
   "status": "proved",
   "theorems": [
    "Verif.NDT.C69_batches",
    "Verif.NDT.C69_limit"
   ],
   "note": "All interleavings with batches of at least six points; smaller batches are the defect shown in C24_false."
  },
  {
   "property": "C70",
   "status": "proved",
   "theorems": [
    "Verif.NDT.C70_transform"
   ],
   "note": "All reachable cells and rigid transforms. Assumes a correct eigen decomposition."
  },
  {
   "property": "C71",
   "status": "partial",
   "theorems": [
    "Verif.NDTGrid.C71_gaussians_in_their_square_partial",
    "Verif.NDTGrid.C71_ndt_partial",
    "Verif.NDTGrid.C71_false_on_border"
   ],
   "note": "All histories with input means off the border lines; false on them."
  },
  {
   "property": "C72",
   "status": "partial",
   "theorems": [
    "Verif.NDTGrid.C72_nearest_partial",
    "Verif.NDTGrid.C72_false_after_clear"
   ],
   "note": "All histories off the border lines, except between a clear and the next merge, where the cloud is stale (negation proved). Means cloud in exact arithmetic (float in the code)."
  },
  {
   "property": "C73",
   "status": "partial",
   "theorems": [
    "Verif.NDTGrid.C73_merge_inside_partial",
    "Verif.NDTGrid.C73_false_on_border"
   ],
   "note": "Except for means on border lines at the grid border."
  },
  {
   "property": "C74",
   "status": "partial",
   "theorems": [
    "Verif.NDTGrid.C74_scan_binning_partial",
    "Verif.NDTGrid.C74_scan_total_partial",
    "Verif.NDTGrid.C74_scan_ndt_partial",
    "Verif.World.C74_initialize_partial",
    "Verif.World.C74_initialize_simple_partial",
    "Verif.NDTGrid.C74_false_on_border"
   ],
   "note": "All scans whose points are off the border lines; for traced initialisation the result is characterised whenever the call returns."
  },
  {
   "property": "C75",
   "status": "partial",
   "theorems": [
    "Verif.NDTGrid.C75_tracing_keeps_cells_partial",
    "Verif.NDTGrid.C75_false_on_border"
   ],
   "note": "Except for means on border lines."
  },
  {
   "property": "C76",
   "status": "partial",
   "theorems": [
    "Verif.Geo.C76_covarInverse_partial",
    "Verif.Geo.C76_false"
   ],
   "note": "False of the code: no covariance with positive trace is returned unchanged, because the eigenvalue matrix is read with one index. All other parts proved. Assumes a correct eigen decomposition."
  },
  {
   "property": "C77",
   "status": "partial",
   "theorems": [
    "Verif.Geo.C77_edge_covariance_partial",
    "Verif.Geo.C77_chain_partial",
    "Verif.Geo.C77_false_transform",
    "Verif.Geo.C77_false_wrapper"
   ],
   "note": "Covariance of EdgeCov exact; its transform is composed in the opposite order, and CovarianceWrapper takes the Jacobians at the angle of the new motion (negations proved)."
  },
  {
   "property": "C78",
   "status": "proved",
   "theorems": [
    "Verif.Geo.C78_frames"
   ],
   "note": "All poses."
  },
  {
   "property": "C79",
   "status": "partial",
   "theorems": [
    "Verif.Algo.C79_false",
    "Verif.Algo.C79_reports_match_partial"
   ],
   "note": "False after a failed match, whose odometry is counted twice; holds while no match failed."
  },
  {
   "property": "C80",
   "status": "proved",
   "theorems": [
    "Verif.Algo.C80_scans",
    "Verif.Algo.C80_scans_loops",
    "Verif.Algo.C80_kept"
   ],
   "note": "All runs; the first theorem without loop closures, the others per update with loop closures."
  },
  {
   "property": "C81",
   "status": "proved",
   "theorems": [
    "Verif.Algo.C81_frames_follow_nodes"
   ],
   "note": "Arbitrary optimiser results reporting every node once."
  },
  {
   "property": "C82",
   "status": "partial",
   "theorems": [
    "Verif.Algo.C82_false",
    "Verif.Algo.C82_guess_partial",
    "Verif.Algo.C82_guess_after_match_partial"
   ],
   "note": "False: only the motion of the current update is added. Guess characterised exactly; right after a match it is as stated."
  },
  {
   "property": "C83",
   "status": "partial",
   "theorems": [
    "Verif.Algo.C83_false",
    "Verif.Algo.C83_rays_partial"
   ],
   "note": "False: all rays start at the origin of the frame; true for the first scan of a frame."
  },
  {
   "property": "C84",
   "status": "proved",
   "theorems": [
    "Verif.Algo.C84_frame_extent"
   ],
   "note": "All runs, arbitrary loop closures."
  },
  {
   "property": "C85",
   "status": "partial",
   "theorems": [
    "Verif.Node.C85_false",
    "Verif.Node.C85_constant_partial"
   ],
   "note": "False when increments below the threshold are dropped (C52); holds when every increment is above it."
  },
  {
   "property": "C86",
   "status": "proved",
   "theorems": [
    "Verif.Node.C86_covariance_block"
   ],
   "note": "All matrices, row-major layout of the message."
  },
  {
   "property": "C87",
   "status": "partial",
   "theorems": [
    "Verif.Opt.C87_false",
    "Verif.Opt.C87_estimate_partial"
   ],
   "note": "False: the internal value is not restored. The estimate and the stack are."
  },
  {
   "property": "C88",
   "status": "proved",
   "theorems": [
    "Verif.Opt.C88_jacobians",
    "Verif.Opt.C88_switch",
    "Verif.Opt.C88_prior"
   ],
   "note": "Jacobians wherever the angular error is not half a turn, where the error is discontinuous."
  },
  {
   "property": "C89",
   "status": "proved",
   "theorems": [
    "Verif.Opt.C89_loop_gate"
   ],
   "note": "All estimates and series of optimiser calls; information of positive determinant."
  },
  {
   "property": "C90",
   "status": "partial",
   "theorems": [
    "Verif.Corr.C90_false",
    "Verif.Corr.C90_smeared_partial",
    "Verif.Corr.C90_unit_cells_partial"
   ],
   "note": "Exact formula with the deviation in cells = deviation times cell size (should be divided); right for cells of one metre."
  },
  {
   "property": "C91",
   "status": "partial",
   "theorems": [
    "Verif.Corr.C91_false",
    "Verif.Corr.C91_whole_cells_partial",
    "Verif.Corr.C91_default_window",
    "Verif.Corr.C91_moveIndexes"
   ],
   "note": "Holds for translations by whole cells, as in the default window; false otherwise."
  },
  {
   "property": "C92",
   "status": "partial",
   "theorems": [
    "Verif.Newton.C92_false",
    "Verif.Newton.C92_unsearched"
   ],
   "note": "False: the search is skipped whenever step_min < step_max (the test is inverted), so the score has no influence on the step and the minimum step overshoots the optimum. Nothing of the claim remains to be proved."
  },
  {
   "property": "C93",
   "status": "proved",
   "theorems": [
    "Verif.Newton.C93_reach"
   ],
   "note": "Both matchers, any number of layers, positive transformation epsilon. Iterations per layer: max(1, maximum) for D2D, maximum + 2 for the point matcher; longest step: max(step size, epsilon / 2)."
  },
  {
   "property": "C94",
   "status": "partial",
   "theorems": [
    "Verif.Newton.C94_false",
    "Verif.Newton.C94_maximum_partial",
    "Verif.Newton.C94_front_end"
   ],
   "note": "Holds if eps / 2 <= step size; false for the parameters of the front end, where every step is exactly 0.05, every layer ends after two steps and the reach of a match is at most 0.4."
  },
  {
   "property": "C95",
   "status": "partial",
   "theorems": [
    "Verif.Newton.C95_false",
    "Verif.Newton.C95_d2d_partial",
    "Verif.Newton.C95_ndt_partial"
   ],
   "note": "Holds for the distribution to distribution matcher; the point to distribution matcher makes up to two iterations more, and this bound is reached."
  },
  {
   "property": "C96",
   "status": "partial",
   "theorems": [
    "Verif.Newton.C96_false",
    "Verif.Newton.C96_guess_kept_partial"
   ],
   "note": "False for every stationary guess with regular Hessian: reported as failure. The reported transform is the guess."
  },
  {
   "property": "C97",
   "status": "partial",
   "theorems": [
    "Verif.Newton.C97_false",
    "Verif.Newton.C97_reported_partial"
   ],
   "note": "What is reported as covariance is the Hessian before the last step (negative definite near a maximum) and as information its inverse."
  },
  {
   "property": "C98",
   "status": "proved",
   "theorems": [
    "Verif.Newton.C98_layers",
    "Verif.Newton.C98_no_layers"
   ],
   "note": "All sequences of setters with at least one layer; with no layers the next setNumLayers is undefined behaviour."
  },
  {
   "property": "C99",
   "status": "proved",
   "theorems": [
    "Verif.Newton.C99_fit"
   ],
   "note": "All ratios in (0, 1) and resolutions > 0."
  },
  {
   "property": "C100",
   "status": "partial",
   "theorems": [
    "Verif.Newton.C100_false",
    "Verif.Newton.C100_unit_cells_partial"
   ],
   "note": "Right exactly for cells of size one: the weight is o * size^2 instead of o / size^2."
  },
  {
   "property": "C101",
   "status": "proved",
   "theorems": [
    "Verif.Score.C101_frame"
   ],
   "note": "All maps, transforms and motions."
  },
  {
   "property": "C102",
   "status": "proved",
   "theorems": [
    "Verif.Score.C102_d2d",
    "Verif.Score.C102_attained",
    "Verif.Score.C102_points"
   ],
   "note": "All scans and transforms; covariances positive semidefinite."
  },
  {
   "property": "C103",
   "status": "partial",
   "theorems": [
    "Verif.World.C103_false",
    "Verif.World.C103_centroid_partial",
    "Verif.World.C103_radius_partial"
   ],
   "note": "Centroid is twice the centre (right exactly for symmetric extents); the radius suffices exactly if 3 h^2 <= 12 w^2 + 8 w h."
  },
  {
   "property": "C104",
   "status": "partial",
   "theorems": [
    "Verif.World.C104_merge",
    "Verif.World.C104_merge_traced",
    "Verif.World.C104_complete",
    "Verif.World.C104_complete_traced",
    "Verif.World.C104_false"
   ],
   "note": "Proved for merges with resizing (the default; all calls of the algorithm) and into new maps. False of the code without resizing: Gaussians are then fused (C104_false, C169). All maps built with the interface. The completeness parts assume that no mean lies exactly on a border line of the receiving grid."
  },
  {
   "property": "C105",
   "status": "partial",
   "theorems": [
    "Verif.World.C105_false_turned",
    "Verif.World.C105_false_world",
    "Verif.World.C105_transform_partial"
   ],
   "note": "Holds for maps with axes parallel to the world; false for turned maps."
  },
  {
   "property": "C106",
   "status": "proved",
   "theorems": [
    "Verif.World.C106_window"
   ],
   "note": "All windows with axes parallel to the world (the front end makes no others)."
  },
  {
   "property": "C107",
   "status": "partial",
   "theorems": [
    "Verif.World.C107_false",
    "Verif.World.C107_occupancy_partial"
   ],
   "note": "False for every square of every map: mirrored and half a cell off. Dimensions and values are right."
  },
  {
   "property": "C108",
   "status": "partial",
   "theorems": [
    "Verif.World.C108_false",
    "Verif.World.C108_window_message_partial"
   ],
   "note": "False for every map: a coordinate is read uninitialised. The other fields are complete."
  },
  {
   "property": "C109",
   "status": "partial",
   "theorems": [
    "Verif.World.C109_recalculated",
    "Verif.World.C109_pose",
    "Verif.World.C109_complete",
    "Verif.NDTGrid.C167_false_again",
    "Verif.NDTGrid.C167_false_size"
   ],
   "note": "All histories; std::sort as any permutation. Every statement about Gaussians is proved. \"No trace of earlier poses\" is false for the size of the map and the free space recorded in it, see C167."
  },
  {
   "property": "C110",
   "status": "proved",
   "theorems": [
    "Verif.World.C110_published_means",
    "Verif.World.C110_published_map",
    "Verif.Whole.C110_algorithm"
   ],
   "note": "All maps that can be built and are not cleared since the last merge; all histories of the mapper; all runs of the algorithm."
  },
  {
   "property": "C111",
   "status": "proved",
   "theorems": [
    "Verif.World.C111_usable",
    "Verif.Whole.C111_algorithm"
   ],
   "note": "All maps that can be built; all maps of the algorithm in all runs."
  },
  {
   "property": "C112",
   "status": "partial",
   "theorems": [
    "Verif.World.C112_false",
    "Verif.World.C112_recalc_false",
    "Verif.World.C112_initialize_partial",
    "Verif.World.C112_merge_partial",
    "Verif.World.C112_merge_traced_partial",
    "Verif.World.C112_transform_partial",
    "Verif.World.C112_move",
    "Verif.World.C112_mapper_partial"
   ],
   "note": "Holds if no mean (or sensor) lies on a border line and no Gaussian is closer than one cell to the sensor, and if a recalculated mapper has frames; false otherwise."
  },
  {
   "property": "C113",
   "status": "proved",
   "theorems": [
    "Verif.Whole.C113_poses",
    "Verif.Whole.C113_map",
    "Verif.Whole.C113_no_loops"
   ],
   "note": "All runs of the algorithm with its maps; scan matcher, loop detector and optimiser answer anything."
  },
  {
   "property": "C114",
   "status": "proved",
   "theorems": [
    "Verif.Whole.C114_window"
   ],
   "note": "All runs of the algorithm with its maps."
  },
  {
   "property": "C115",
   "status": "proved",
   "theorems": [
    "Verif.Whole.C115_frames",
    "Verif.Whole.C115_map",
    "Verif.Whole.C115_complete"
   ],
   "note": "All runs of the algorithm with its maps."
  },
  {
   "property": "C116",
   "status": "partial",
   "theorems": [
    "Verif.Whole.C116_false",
    "Verif.Whole.C116_update_partial",
    "Verif.Whole.C116_idle"
   ],
   "note": "Holds in every reachable state for scans and frames without points on border lines or next to the sensor, also after the turn by the match; false already for the first scan if it has points at the sensor."
  },
  {
   "property": "C117",
   "status": "partial",
   "theorems": [
    "Verif.Robust.C117_success_partial",
    "Verif.Robust.C117_failure_partial",
    "Verif.Robust.C117_false_output",
    "Verif.Robust.C117_false_quality"
   ],
   "note": "Holds for every success with a rejection limit up to 0.7. False for failures: the output cloud is the unmoved source although the transform of the correlative matcher is reported, or the quality is the one of another transform."
  },
  {
   "property": "C118",
   "status": "proved",
   "theorems": [
    "Verif.Geo.C118_addPoses"
   ],
   "note": "All poses, all sequences of increments."
  },
  {
   "property": "C119",
   "status": "partial",
   "theorems": [
    "Verif.Loop.C119_candidates_partial",
    "Verif.Loop.C119_exact_partial",
    "Verif.Loop.C119_false_uninitialised",
    "Verif.Loop.C119_false_parallel"
   ],
   "note": "Exact for all graphs built by the calls of the mapper, with the uninitialised start distance as a parameter. False for an unlucky memory content, and for graphs with several constraints between the same poses."
  },
  {
   "property": "C120",
   "status": "partial",
   "theorems": [
    "Verif.Loop.C120_order_partial",
    "Verif.Loop.C120_false"
   ],
   "note": "False of the code: the priority queue delivers the least certain element first. In graphs built by the mapper only one element ever waits and the poses are tried from the newest to the oldest."
  },
  {
   "property": "C121",
   "status": "proved",
   "theorems": [
    "Verif.NDT.C121_points",
    "Verif.NDT.C121_ray_empty",
    "Verif.NDT.C121_ray_gaussian",
    "Verif.NDT.C121_ray_bound",
    "Verif.NDT.C121_confirmed"
   ],
   "note": "All cells reachable with rays of positive length (rays of length zero: C20)."
  },
  {
   "property": "C122",
   "status": "proved",
   "theorems": [
    "Verif.Node.C122_dropped",
    "Verif.Node.C122_used",
    "Verif.Node.C122_series"
   ],
   "note": "All series of messages and all algorithms."
  },
  {
   "property": "C123",
   "status": "proved",
   "theorems": [
    "Verif.Algo.C123_scan_used",
    "Verif.Algo.C123_frame_finished"
   ],
   "note": "All runs of the algorithm."
  },
  {
   "property": "C124",
   "status": "partial",
   "theorems": [
    "Verif.Slam.C124_markers_partial",
    "Verif.Slam.C124_text_partial",
    "Verif.Slam.C124_lines_partial",
    "Verif.Slam.C124_lines_false",
    "Verif.Slam.C124_false",
    "Verif.Algo.C124_algorithm_partial"
   ],
   "note": "Holds for all histories and all runs if the read past the end of the container (C31) is harmless; with the strict reading of the standard there is no published graph at all once there is a constraint. The list of lines (not called) has the right points but invisible starts and no orientation."
  },
  {
   "property": "C125",
   "status": "partial",
   "theorems": [
    "Verif.Opt.C125_switch_partial",
    "Verif.Opt.C125_switch_false",
    "Verif.Opt.C125_prior",
    "Verif.Opt.C125_edge",
    "Verif.Opt.C125_mixture_partial",
    "Verif.Opt.C125_again",
    "Verif.Opt.C125_mixture_false"
   ],
   "note": "Proved for priors, switchable constraints, switches without rejected steps and mixtures read into new objects. False for switches after a rejected step and for mixtures read into an object that holds components."
  },
  {
   "property": "C126",
   "status": "partial",
   "theorems": [
    "Verif.Opt.C126_mixture_partial",
    "Verif.Opt.C126_mixture_false",
    "Verif.Opt.C126_switch_false",
    "Verif.Opt.C126_switch_old",
    "Verif.Opt.C126_edge_false"
   ],
   "note": "Mixtures: success only for complete texts, with exactly their values; a truncated text is undefined behaviour instead of a failure. Switches, priors and switchable constraints report success for every text."
  },
  {
   "property": "C127",
   "status": "partial",
   "theorems": [
    "Verif.Whole.C127_size_partial",
    "Verif.Whole.C127_constant_partial",
    "Verif.Whole.C127_centred",
    "Verif.Whole.C127_false"
   ],
   "note": "Proved: the window always covers the radius set before the first scan; it never covers more than one cell beyond the larger of the radius and the range of the sensor plus the distance of the match; it is constant if the latter fits into the radius; the robot stays within a cell of its origin. False without the condition on the range: the radius does not limit the window."
  },
  {
   "property": "C128",
   "status": "partial",
   "theorems": [
    "Verif.Loop.C128_taken_back_partial",
    "Verif.Loop.C128_false",
    "Verif.Loop.C128_unknown"
   ],
   "note": "Numbers, ids and contents of all poses and constraints are as before. False for the adjacency lists: every search from the end pose of a closure that was taken back uses a pointer to a destroyed constraint. A closure with an unknown pose throws and leaves the earlier ones in the graph."
  },
  {
   "property": "C129",
   "status": "partial",
   "theorems": [
    "Verif.Whole.C129_runs_partial",
    "Verif.Whole.C129_search_partial",
    "Verif.Whole.C129_total_partial",
    "Verif.Whole.C129_false"
   ],
   "note": "Proved for implementations on which the clean-up loops, which read past the end of a list, do nothing harmful. Under the strict reading of the standard (C129_false) no run ever finishes a frame without undefined behaviour. The starting distance of the search is an uninitialised variable (C119). With C129_runs_partial every theorem about runs with given loop closures holds for the algorithm with its own detector."
  },
  {
   "property": "C130",
   "status": "partial",
   "theorems": [
    "Verif.Launch.C130_starts",
    "Verif.Launch.C130_names",
    "Verif.Launch.C130_window_partial",
    "Verif.Launch.C130_frames_partial",
    "Verif.Launch.C130_loops_partial",
    "Verif.Launch.C130_false",
    "Verif.Launch.C130_false_bounds"
   ],
   "note": "Window, frames and loops for all runs if the read past the end in the loop search is harmless (C129). Score threshold: proved up to 0.6; false above (a direct match with a score above 0.6 is accepted whatever the threshold). The thresholds 0 and 1 end the program although the message calls [0,1] allowed."
  },
  {
   "property": "C131",
   "status": "partial",
   "theorems": [
    "Verif.Match.C131_ends_partial",
    "Verif.Match.C131_false"
   ],
   "note": "Ends for all inputs. The transform is computed and rigid for thresholds up to 0.7; above, a direct match with a score between 0.7 and the threshold is accepted with a transform that was never written."
  },
  {
   "property": "C132",
   "status": "partial",
   "theorems": [
    "Verif.Match.C132_overlap_partial",
    "Verif.Match.C132_false"
   ],
   "note": "Proved with the number of target means in place of the number of source means (so as stated if the source has no more means), for thresholds up to 0.6 and cells up to 1 m; with weights: 100 % within a cell, 14 % within two. False as stated: the score is divided by the number of target means."
  },
  {
   "property": "C133",
   "status": "proved",
   "theorems": [
    "Verif.Match.C133_reach"
   ],
   "note": "Score functions and solver arbitrary, search and verification as in the code."
  },
  {
   "property": "C134",
   "status": "partial",
   "theorems": [
    "Verif.Match.C134_joins_partial",
    "Verif.Match.C134_launched_partial",
    "Verif.Match.matching_describes"
   ],
   "note": "Under the tolerant reading of the clean-up loops (C129); nothing remains under the strict one. matching_describes: the matches of the launched program are those of the matcher described here."
  },
  {
   "property": "C135",
   "status": "partial",
   "theorems": [
    "Verif.NDTGrid.C135_merge_partial",
    "Verif.NDTGrid.C135_first_scan_partial",
    "Verif.World.C135_only_between_partial",
    "Verif.World.C135_free_partial",
    "Verif.NDTGrid.C135_false_short",
    "Verif.NDTGrid.C135_false_outside",
    "Verif.NDTGrid.C166_false_corner"
   ],
   "note": "For rays of at least one cell, starts and Gaussians off the border lines, and within the extent the map had before the merge. False for a Gaussian closer than one cell (its ray clears everything behind it up to the border of the map) and for the part of the line outside the old extent (not recorded). \"On the line\" means: holding one of the points of the line spaced by half a cell, up to one cell before the end; a square of which the line cuts only a corner may be left out (C166_false_corner); what the sampling covers is C166."
  },
  {
   "property": "C136",
   "status": "partial",
   "theorems": [
    "Verif.Program.C136_unusable_partial",
    "Verif.Program.C136_first_partial",
    "Verif.Program.C136_published_partial",
    "Verif.Program.C136_load_partial",
    "Verif.Program.C136_answered_partial",
    "Verif.Program.C136_false"
   ],
   "note": "For reads past the end that yield some value and with some value in the coordinate of the window message that is never written. In the strict reading every message from the second usable one on is undefined (C136_false, C108). The first usable message publishes a transform that was never written (C54)."
  },
  {
   "property": "C137",
   "status": "partial",
   "theorems": [
    "Verif.Newton.C137_cubic_partial",
    "Verif.Newton.C137_maximum",
    "Verif.Newton.C137_first_partial",
    "Verif.Newton.C137_second_partial",
    "Verif.Newton.C137_third_partial",
    "Verif.Newton.C137_third_rule_partial",
    "Verif.Newton.C137_fourth_partial",
    "Verif.Newton.C137_false_first",
    "Verif.Newton.C137_false_fourth"
   ],
   "note": "For the first point of the interpolation on the left of the second. In the other order the code takes the maximum of the cubic (C137_maximum): the trial value can leave the interval (C137_false_first), and in the fourth case this is the usual order (C137_false_fourth). Real arithmetic, with NaN and infinities."
  },
  {
   "property": "C138",
   "status": "partial",
   "theorems": [
    "Verif.Newton.C138_update_partial",
    "Verif.Newton.C138_bracket",
    "Verif.Newton.C138_false"
   ],
   "note": "For an interval that brackets. The search starts with both ends at 0, and the interval after a first trial point that still descends brackets nothing (C138_false)."
  },
  {
   "property": "C139",
   "status": "partial",
   "theorems": [
    "Verif.Algo.C139_window",
    "Verif.Algo.C139_step",
    "Verif.Algo.C139_correction",
    "Verif.Algo.C139_kept_partial",
    "Verif.Algo.C139_together_partial",
    "Verif.Algo.C139_false"
   ],
   "note": "The law of the displacement is proved in full (C139_window, C139_step, C139_correction). Reported pose and window agree as long as no match fails and no optimisation moves the frame finished in the same update (C139_together_partial); a loop closure that moves it displaces the reported robot against the window for good (C139_kept_partial, C139_false)."
  },
  {
   "property": "C140",
   "status": "partial",
   "theorems": [
    "Verif.Score.C140_mutual_partial",
    "Verif.Score.C140_one",
    "Verif.Score.C140_reported",
    "Verif.Score.C140_false",
    "Verif.Score.C140_points_false"
   ],
   "note": "Proved for the distribution matcher where being compared is mutual, in particular if every cell is compared only with the one it lies on; the matcher started there reports failure (C96). False for the two nearest cells of the code: a cell may be among the two nearest of another without the converse (three cells in a row), for all parameters. False for the point matcher already with one cell made of the points."
  },
  {
   "property": "C141",
   "status": "partial",
   "theorems": [
    "Verif.Algo.C141_match",
    "Verif.Algo.C141_reported_partial",
    "Verif.Algo.C141_lost",
    "Verif.Algo.C141_behind",
    "Verif.Algo.C141_false"
   ],
   "note": "Proved: in every run a match of the front end ends within 0.4 of the last pose found advanced by the increment of the call, and so do reported poses while scans are used and matched. False after scans that were not matched: their motion is not part of the guess, so a match cannot make up for more than 0.4 m of it; after 1 m without a match the robot is left 0.6 m behind at least."
  },
  {
   "property": "C142",
   "status": "partial",
   "theorems": [
    "Verif.Opt.C142_space_partial",
    "Verif.Opt.C142_landmark_partial",
    "Verif.Opt.C142_landmark_false",
    "Verif.Opt.C142_error"
   ],
   "note": "Proved for 3D poses with any error function, for all sequences of calls after the constructor; for landmarks if the errors are computed before each linearisation, as g2o does. False for a linearisation of landmarks at new estimates: it keeps the component chosen before. Missing, as in C66: an edge initialised twice."
  },
  {
   "property": "C143",
   "status": "partial",
   "theorems": [
    "Verif.Opt.C143_landmark_partial",
    "Verif.Opt.C143_space_partial",
    "Verif.Opt.C143_space_exact",
    "Verif.Opt.C143_false"
   ],
   "note": "Proved for new edge objects, all mixtures and roundings: components and weights are those printed, quaternions scaled to length one (unchanged if exact and of length one). False for objects that already hold components: old and new ones get mixed up."
  },
  {
   "property": "C144",
   "status": "partial",
   "theorems": [
    "Verif.Round.C144_partial",
    "Verif.Round.C144_ray_partial",
    "Verif.Round.C144_centre_ray_partial",
    "Verif.Round.C144_power_of_two",
    "Verif.Round.C144_false",
    "Verif.Round.C144_centre_ray_false",
    "Verif.Round.ieee_accurate"
   ],
   "note": "Proved for positions (and samples of rays) further than 32 times relative error times size of the map from the border lines; for float and a map of 100 m this is 0.2 mm. False closer to a line: a cell just outside the border is written past the end of the storage. Rays that start at the centre of a square, whose samples are on border lines, are covered if the side is a power of two; with squares of 0.2 m such a ray visits a square of the next row, or storage past the end, when it leaves the grid. Overflow and NaN are not modelled."
  },
  {
   "property": "C145",
   "status": "partial",
   "theorems": [
    "Verif.Round.C145_map_partial",
    "Verif.Round.C145_traced_partial",
    "Verif.Round.C145_scan_partial",
    "Verif.Round.C145_false",
    "Verif.Round.C145_traced_false"
   ],
   "note": "Proved for any sequence of merges, with or without ray tracing, whose means (and samples of rays) keep the distance of C144 from the lines, and for scans whose points do. False closer to a line: the rounded mean lies in another square and the lookup reads past the end. The arithmetic inside a cell is an arbitrary function."
  },
  {
   "property": "C146",
   "status": "partial",
   "theorems": [
    "Verif.Round.C146_partial",
    "Verif.Round.C146_motion_partial",
    "Verif.Round.C146_squares_partial",
    "Verif.Round.ieee_double",
    "Verif.Round.C146_false"
   ],
   "note": "Linear bound on the drift for any number of moves of an unrotated grid, with separate errors of float and double; a Gaussian stays in the square of its mean if it starts further from the border than the drift. Exact conservation is false: the shift is rounded to float."
  },
  {
   "property": "C147",
   "status": "partial",
   "theorems": [
    "Verif.Round.C147_partial",
    "Verif.Round.C147_matches_partial",
    "Verif.Round.C147_ieee_partial",
    "Verif.Round.C147_closures_partial",
    "Verif.Round.C147_closures_ieee_partial",
    "Verif.Round.Track.update_exact",
    "Verif.Round.Track.next_exact",
    "Verif.Round.increment_near",
    "Verif.Round.angle_ok"
   ],
   "note": "Any number of updates, with and without new frames: the error of the position grows with the square of the number of updates, that of the heading linearly; for double, 100000 matches and 1 km it is below 2 cm. With closed loops the same bounds hold against the exact composition from the pose the optimiser returned last, provided it does not take the robot further than it can have driven (C147_closures_partial). In exact arithmetic the model is updateGraph (Track.update_exact, with closures Track.next_exact). The SVD in rotation() is an arbitrary function whose angle is right up to a given error (angle_ok: atan2 of the first column qualifies). The matcher and the optimiser are not part of it."
  },
  {
   "property": "C148",
   "status": "partial",
   "theorems": [
    "Verif.Round.C148_batch_partial",
    "Verif.Round.C148_posdef_partial",
    "Verif.Round.C148_ieee_partial",
    "Verif.Round.C148_false",
    "Verif.Round.C148_pooled_partial",
    "Verif.Round.C148_pooled_posdef_partial",
    "Verif.Round.C148_drift_partial",
    "Verif.Round.cov2_exact",
    "Verif.Round.pooled_exact"
   ],
   "note": "Error bounds for the first batch and for +=, any number of points; for double, up to 1000 points within 100 m the covariance is right to 1e-7 and positive definite. False at any range: six points 2^30 m away give a zero on the diagonal (C148_false). Without rounding the model is the one of Verif.Cell (cov2_exact, pooled_exact). The update of a present Gaussian from new points (not reached by the program) and the eigenvalue solver are not part of it."
  },
  {
   "property": "C149",
   "status": "partial",
   "theorems": [
    "Verif.NDTGrid.C149_partial",
    "Verif.NDTGrid.C149_false"
   ],
   "note": "The search ends with at most k different Gaussians; k of them are within 1 m or twice the distance of the k-th nearest, fewer are all within r where the width of the grid in cells is at most 2 r. False that they are the nearest (the comparator compares a cell with itself) and that fewer than k are all (narrow grids)."
  },
  {
   "property": "C150",
   "status": "partial",
   "theorems": [
    "Verif.Voxel.C150_partial",
    "Verif.Voxel.C150_collinear",
    "Verif.Voxel.C150_no",
    "Verif.Voxel.C150_false"
   ],
   "note": "Right for segments that span a parallelogram of at least 1e-7, and the answer (not the point) for collinear segments of the same direction; collinear ones of opposite direction: yes is right (C150_collinear). Without intersection the point is the origin (C150_no). False for very short crossing segments, for some overlapping collinear ones, and for the returned point of collinear ones. Exact arithmetic."
  },
  {
   "property": "C151",
   "status": "partial",
   "theorems": [
    "Verif.NDTGrid.C151_picture",
    "Verif.NDTGrid.C151_text_partial",
    "Verif.NDTGrid.C151_false"
   ],
   "note": "NDT maps in full. Voxel grids if cells are written with at most five characters; false for longer ones, which run into each other."
  },
  {
   "property": "C152",
   "status": "partial",
   "theorems": [
    "Verif.Slam.C152_partial",
    "Verif.Slam.C152_run_partial",
    "Verif.Slam.C152_false"
   ],
   "note": "For odometry constraints from older to newer poses; false if they form a cycle (the loop does not end). The estimates of the optimiser are not set."
  },
  {
   "property": "C153",
   "status": "partial",
   "theorems": [
    "Verif.Round.C153_partial",
    "Verif.Round.C153_ieee_partial",
    "Verif.Round.C153_false",
    "Verif.Round.batch_exact",
    "Verif.Round.merge_exact",
    "Verif.Round.ray_exact"
   ],
   "note": "Error bound and equal flags if the exact occupancy stays away from zero where the sign decides; the published value within one percent. False that it is the same (40 and 39). The error of the evidence of a ray is an input."
  },
  {
   "property": "C154",
   "status": "partial",
   "theorems": [
    "Verif.Newton.C154_d2d",
    "Verif.Newton.C154_ndt_partial",
    "Verif.Newton.C154_false"
   ],
   "note": "Proved for the distribution to distribution matcher. The point to distribution matcher does not look at the length of its first step and makes up to two steps more than the given number (C154_false with the parameters of the front end)."
  },
  {
   "property": "C155",
   "status": "partial",
   "theorems": [
    "Verif.Voxel.Machine.C155_run_partial",
    "Verif.Voxel.Machine.C155_query_partial",
    "Verif.Voxel.Machine.C155_false_grow",
    "Verif.Voxel.Machine.C155_false_move",
    "Verif.Voxel.Machine.C155_false_radius"
   ],
   "note": "For points within 2^30 cells of the origin, moves other than the smallest int, radii below 2^62 and fewer than 2^63 calls. False beyond: the number of cells wraps to zero and the copy writes past the end; abs of the smallest int overflows; a huge radius finds nothing."
  },
  {
   "property": "C156",
   "status": "partial",
   "theorems": [
    "Verif.NDT.C156_obstacles_partial",
    "Verif.NDT.C156_order_partial",
    "Verif.NDT.C156_false"
   ],
   "note": "For obstacles (flag, occupancy, and up to the limit of 10^9 points count and mean). Missing: the covariance (rescaled at every merge). False for free space: a cell without Gaussian is overwritten or ignored, whatever free-space evidence it has."
  },
  {
   "property": "C157",
   "status": "partial",
   "theorems": [
    "Verif.Opt.C157_ids",
    "Verif.Opt.C157_start",
    "Verif.Opt.C157_switch",
    "Verif.Opt.C157_switchable_partial",
    "Verif.Opt.C157_mixture_partial",
    "Verif.Opt.C157_false"
   ],
   "note": "For switchable closures (bound 1 for each) and for mixture edges (bound by the gate of C89 and a tiny multiple of the squared error). False for the plain constraints that tryLoopClose adds. That the solver finds the optimum is not claimed."
  },
  {
   "property": "C158",
   "status": "partial",
   "theorems": [
    "Verif.Voxel.C158_partial",
    "Verif.Voxel.C158_added_partial",
    "Verif.Voxel.C158_false",
    "Verif.Voxel.C158_false_clear",
    "Verif.NDTGrid.C158_false_map"
   ],
   "note": "Holds for histories without clear, rayTrace and discarding moves; for all histories memory for all cells ever added suffices. False in general: the reservation follows a counter that clear does not reset, so the demand grows with every recalculation of a map."
  },
  {
   "property": "C159",
   "status": "partial",
   "theorems": [
    "Verif.Round.C159_partial",
    "Verif.Round.C159_digits_partial",
    "Verif.Round.C159_exact_partial",
    "Verif.Round.C159_false_ends",
    "Verif.Round.C159_false_shift"
   ],
   "note": "Ending, spread and number of values for steps larger than the rounding error of the window; every shift exactly once for steps with few digits (all powers of two). False in general: below a quarter of the spacing of floats the search hangs, and with cells of 0.2 m and a window of 5 m one shift is skipped."
  },
  {
   "property": "C160",
   "status": "partial",
   "theorems": [
    "Verif.Round.C160_assignment_partial",
    "Verif.Round.C160_error_partial",
    "Verif.Round.C160_runs_partial",
    "Verif.Round.C160_false"
   ],
   "note": "Same result if every thread does the same cells in the same order, at whatever times; otherwise within one rounding error for each cell and each entry of the table of the exact sum, and two runs within twice that. False in general: three cells and two threads with two different doubles."
  },
  {
   "property": "C161",
   "status": "partial",
   "theorems": [
    "Verif.Opt.C161_partial",
    "Verif.Opt.C161_created",
    "Verif.Opt.C161_false_twice",
    "Verif.Opt.C161_false_leak"
   ],
   "note": "For a library that deletes its actions and none of the solver objects. False for every library that deletes one of the solver objects it is handed (double delete) and for every library that does not delete its actions (leak)."
  },
  {
   "property": "C162",
   "status": "partial",
   "theorems": [
    "Verif.Whole.C162_params_partial",
    "Verif.Whole.C162_decision_partial",
    "Verif.Whole.C162_false"
   ],
   "note": "The cache is never stale and never read outside, in every run. The rejection is false: only the length of the way in the graph is tested, so frames any distance apart pass."
  },
  {
   "property": "C163",
   "status": "partial",
   "theorems": [
    "Verif.NDTGrid.C163_cells_partial",
    "Verif.NDTGrid.C163_map_partial",
    "Verif.NDTGrid.C163_false_infinite",
    "Verif.NDTGrid.C163_false_border"
   ],
   "note": "For NaN coordinates, numbers off the border lines of the cells. False for an infinite coordinate (undefined conversion, even in a point that is skipped) and on border lines, where the widening by a skipped point decides whether a number is written past the end."
  },
  {
   "property": "C164",
   "status": "partial",
   "theorems": [
    "Verif.NDTGrid.Machine.C164_run_partial",
    "Verif.NDTGrid.Machine.C164_ndt_partial",
    "Verif.NDTGrid.Machine.C164_false_move",
    "Verif.NDTGrid.Machine.C164_false_far"
   ],
   "note": "For means and points within 2^30 cells of the origin of the grid, moves shorter than 2^31 cells, and fewer than 2^63 cells and points in all. False for a move by 2^31 cells (int) and a mean 2^32 - 1 cells away (the number of cells wraps to zero)."
  },
  {
   "property": "C165",
   "status": "proved",
   "theorems": [
    "Verif.Whole.C165_nodes",
    "Verif.Whole.C165_frames",
    "Verif.Whole.C165_memory",
    "Verif.Whole.C165_idle"
   ],
   "note": "The way is measured along the poses found by the matcher and, for scans that could not be matched, by the odometry. The map made of the frames (a rectangle around them all) and the running window (C127) are not counted."
  },
  {
   "property": "C166",
   "status": "partial",
   "theorems": [
    "Verif.NDTGrid.C166_chain",
    "Verif.NDTGrid.C166_near",
    "Verif.NDTGrid.C166_stops_before",
    "Verif.NDTGrid.C166_reaches",
    "Verif.NDTGrid.C166_false_corner"
   ],
   "note": "The last sentence is false of the code: a line can cross the corner of a square without one of its points, spaced by half a cell, falling into it (C166_false_corner). The rest is proved for starts off the right and bottom border line."
  },
  {
   "property": "C167",
   "status": "partial",
   "theorems": [
    "Verif.NDTGrid.C167_size_partial",
    "Verif.NDTGrid.C167_never_shrinks",
    "Verif.NDTGrid.C167_determined_partial",
    "Verif.NDTGrid.C167_settles",
    "Verif.NDTGrid.C167_false_again",
    "Verif.NDTGrid.C167_false_size"
   ],
   "note": "False of the code: clear keeps the extent of the map and rays are traced within the extent before a frame is merged, so the extent left by earlier poses decides which free space is recorded and a second recalculation can change the map; the map never gets smaller. Proved: the size is exactly what all places frames were ever put to need; the result depends on frames, poses and extent only; recalculating settles at the second call (at the first if the extent already covers the frames)."
  },
  {
   "property": "C168",
   "status": "proved",
   "theorems": [
    "Verif.World.C168_history",
    "Verif.World.C168_occupancy",
    "Verif.World.C168_published",
    "Verif.Whole.C168_algorithm"
   ],
   "note": "All maps built with the interface and all runs of the algorithm. Exact arithmetic (C153 has the rounding). A ray of length 0, the only way to NaN (C20), is undefined behaviour before it reaches a cell (C112), therefore not part of any history."
  },
  {
   "property": "C169",
   "status": "partial",
   "theorems": [
    "Verif.World.C169_fixed_partial",
    "Verif.World.C169_false"
   ],
   "note": "False of the code: with resizing a Gaussian that arrives replaces the one that is there, without resizing the two are fused (C169_false). Proved: pose and extent stay, what falls outside is left out, squares into which nothing falls are unchanged, and what exactly the others hold."
  },
  {
   "property": "C170",
   "status": "proved",
   "theorems": [
    "Verif.Whole.C170_map",
    "Verif.Whole.C170_reach",
    "Verif.Whole.C170_way"
   ],
   "note": "Exact arithmetic. B bounds the placement of the stored frames and of the active one after each update; the map keeps its size when frames are moved closer (C167), so earlier placements count."
  },
  {
   "property": "C171",
   "status": "partial",
   "theorems": [
    "Verif.Score.C171_layer_partial",
    "Verif.Score.C171_d2d_partial",
    "Verif.Score.C171_points_partial",
    "Verif.Score.C171_false"
   ],
   "note": "False of the code as stated: for a target without Gaussians the search tree is asked although it is empty (C171_false; undefined in PCL, whose tree is then a null pointer). Proved for all targets with a Gaussian, when no mean is on a border line of the layer (C71), with the search tree given by its contract, one thread, exact arithmetic."
  },
  {
   "property": "C172",
   "status": "partial",
   "theorems": [
    "Verif.Match.C172_loop_partial",
    "Verif.Match.C172_incremental_partial",
    "Verif.Match.C172_false"
   ],
   "note": "False of the code as stated for targets without Gaussians (C172_false, from C171_false). Proved for all targets with a Gaussian, off border lines of the layers, thresholds up to 0.6 (launch default 0.6) and cells up to 1 m; exact arithmetic; search tree by its contract."
  },
  {
   "property": "C173",
   "status": "partial",
   "theorems": [
    "Verif.Match.C173_defined_partial",
    "Verif.Match.C173_joins_partial",
    "Verif.Match.C173_false"
   ],
   "note": "False of the code as stated: a run whose sensor has no echo any more finishes a frame without Gaussians and matches it (C173_false: a concrete run, and no search on its maps has defined scores). Proved for all runs whose current frame has a Gaussian, off border lines of the layers, thresholds up to 0.6 (launch default 0.6), tolerant reading of the clean-up loops (C129)."
  },
  {
   "property": "C174",
   "status": "partial",
   "theorems": [
    "Verif.Match.C174_target_partial",
    "Verif.Match.C174_defined_partial",
    "Verif.Match.C174_stuck",
    "Verif.Match.C174_false",
    "Verif.Match.C174_forgets",
    "Verif.Match.C174_lost"
   ],
   "note": "False of the code as stated: the first scan goes into the window whatever it contains, and later only matched scans do, so after a first scan without echo nothing is ever matched again (C174_stuck, C174_false: for all continuations, with a matcher that needs a target; runs of any length with good scans). A good start does not help: matched scans without echo only shift the window, and after a drive through open space of the width of the window it is empty for good (C174_forgets for all such runs, C174_lost a complete run). Proved for all runs whose first scan and matched scans have six points in a square, with the range of the sensor plus the distance of the match from the window origin below the configured radius; definedness of the scores for windows off border lines of the layers."
  },
  {
   "property": "C175",
   "status": "partial",
   "theorems": [
    "Verif.Match.C175_loop_partial",
    "Verif.Match.C175_refused",
    "Verif.Match.C175_incremental_partial",
    "Verif.Match.C175_stale",
    "Verif.Match.C175_false",
    "Verif.Match.no_target"
   ],
   "note": "False of the code for incremental matches as stated: a scan without Gaussians is matched as the last scan that had some, because the base class (PCL) refuses empty clouds and keeps the former one (C175_stale for all histories, C175_false a run). Proved: incremental matches of scans and windows with Gaussians, and loop matches of maps with Gaussians (thresholds up to 0.7, otherwise see C131), do not depend on the history; a loop match of a source without Gaussians is never accepted, whatever the history. Loop matches of a target without Gaussians: C172_false. Assumed of the base class: see Match/Inputs.lean."
  },
  {
   "property": "C176",
   "status": "partial",
   "theorems": [
    "Verif.Program.C176_means_partial",
    "Verif.Program.C176_means_iff",
    "Verif.Program.C176_centre_false",
    "Verif.Program.C176_false"
   ],
   "note": "False of the code: the means are those in the frame of the window, so they are right exactly as long as the window has not moved (C176_means_iff, C176_false a run), and the centre is wrong by more than 2^61 m in every run from the first scan on (C176_centre_false), because an unsigned extent is negated. Proved for all runs: moved by the origin of the window, the means are where the Gaussians are and scans saw something. With some value in the coordinate that is never written (C108)."
  },
  {
   "property": "C177",
   "status": "partial",
   "theorems": [
    "Verif.NDT.C177_vanishes",
    "Verif.NDT.C177_kept",
    "Verif.NDT.C177_once",
    "Verif.NDT.C177_false",
    "Verif.World.C177_map_partial"
   ],
   "note": "False of the code in its last sentence: the occupancy is limited to 1, so any number of confirmations counts as much as three points, and one look with three points behind it within half a standard deviation of the mean removes every Gaussian (C177_once, C177_false after any list of confirmations; C177_map_partial in a map, where every Gaussian has three points). The first two sentences are proved for all histories and all sequences of rays of positive length. C177_map_partial: means of the merged map off the border lines, rays of at least one cell, no merged Gaussian in the square itself."
  }
 ]
}