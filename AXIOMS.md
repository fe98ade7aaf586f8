# Axioms of the claimed theorems

Output of `#print axioms` on every theorem named in MANIFEST.json (generated).

## Classical.choice, Quot.sound, propext

* `Verif.Voxel.C01_storage_matches_extent`
* `Verif.Voxel.C02_add_read_back_partial`
* `Verif.Voxel.C02_false_exactly_on_border`
* `Verif.Voxel.C02_false_oob`
* `Verif.Voxel.C02_false_alias`
* `Verif.Voxel.C03_enlarge_preserves`
* `Verif.Voxel.C04_translate_keeps_all`
* `Verif.Voxel.C05_translate_discards`
* `Verif.Voxel.C06_inside_addresses_own_slot_partial`
* `Verif.Voxel.C06_lookup_partial`
* `Verif.Voxel.C06_false`
* `Verif.Voxel.C06_false_oob`
* `Verif.Voxel.C07_neighbours_exact_partial`
* `Verif.Voxel.C07_false_edge`
* `Verif.Voxel.C08_counter_partial`
* `Verif.Voxel.C08_false_clear`
* `Verif.Voxel.C08_false_translate_ray`
* `Verif.Voxel.C09_false`
* `Verif.Voxel.C10_ray_confined_partial`
* `Verif.Voxel.C10_false_short_ray`
* `Verif.Voxel.C10_false_short_ray_segment`
* `Verif.Voxel.C10_false_zero_ray`
* `Verif.Voxel.C12_enumeration`
* `Verif.Voxel.C13_false`
* `Verif.Voxel.C13_remove_partial`
* `Verif.NDTGrid.C14_move`
* `Verif.NDTGrid.C14_move_ndt`
* `Verif.NDTGrid.C14_no_overshoot`
* `Verif.NDTGrid.C15_merge_resize_partial`
* `Verif.NDTGrid.C15_false_on_border`
* `Verif.NDTGrid.C16_occupancy`
* `Verif.NDTGrid.C17_radius_search_partial`
* `Verif.NDTGrid.C17_zero_radius_partial`
* `Verif.NDTGrid.C17_outside_partial`
* `Verif.NDTGrid.C17_false`
* `Verif.NDTGrid.C18_origin_iff_partial`
* `Verif.NDTGrid.C18_false`
* `Verif.NDTGrid.C19_coarser_partial`
* `Verif.NDTGrid.C19_false`
* `Verif.NDT.C20_occupancy_bounds_partial`
* `Verif.NDT.C20_false`
* `Verif.NDT.C20_published_partial`
* `Verif.NDT.C21_merge_pooled`
* `Verif.NDT.C22_mean_partial`
* `Verif.NDT.C22_false`
* `Verif.NDT.C23_free_space_partial`
* `Verif.NDT.C23_false`
* `Verif.NDT.C24_counted_once_partial`
* `Verif.NDT.C24_false`
* `Verif.NDT.C24_false_witness`
* `Verif.NDT.C25_merge_bounded_partial`
* `Verif.NDT.C25_false`
* `Verif.PoseGraph.C26_finite_map`
* `Verif.PoseGraph.C27_remove`
* `Verif.PoseGraph.C27_lifo`
* `Verif.PoseGraph.C28_lookup_throws_iff`
* `Verif.PoseGraph.C29_reject_partial`
* `Verif.PoseGraph.C29_false`
* `Verif.PoseGraph.C30_adjacency_partial`
* `Verif.PoseGraph.C30_complete_partial`
* `Verif.PoseGraph.C30_false_after_removal`
* `Verif.PoseGraph.C31_postfix_loop_partial`
* `Verif.PoseGraph.C31_prefix_step_partial`
* `Verif.PoseGraph.C31_false`
* `Verif.Slam.C32_poses`
* `Verif.Slam.C33_failing_constraint`
* `Verif.Slam.C34_keeps_partial`
* `Verif.Slam.C34_false`
* `Verif.Slam.C35_last_constraint`
* `Verif.Slam.C36_only_poses`
* `Verif.Slam.C37_loop_edges`
* `Verif.Slam.C38_mirror`
* `Verif.Loop.C39_terminates`
* `Verif.Loop.C40_justified_partial`
* `Verif.Loop.C40_false`
* `Verif.Loop.C41_no_trace_partial`
* `Verif.Loop.C41_tryLoopClose_partial`
* `Verif.Loop.C41_false`
* `Verif.Loop.C42_safe_partial`
* `Verif.Loop.C42_chain_partial`
* `Verif.Loop.C42_false`
* `Verif.Geo.C43_normalizeAngle`
* `Verif.Geo.C44_round_trips`
* `Verif.Geo.C44_displacement_angle`
* `Verif.Geo.C45_relative_partial`
* `Verif.Geo.C45_false_product`
* `Verif.Geo.C46_error_zero_iff`
* `Verif.Geo.C47_jacobian`
* `Verif.Geo.C48_propagation`
* `Verif.Geo.C48_trajectory`
* `Verif.Utils.C49_split`
* `Verif.Algo.C51_update_ok`
* `Verif.Algo.C51_events`
* `Verif.Algo.C51_composition`
* `Verif.Algo.C52_false`
* `Verif.Algo.C52_processed_partial`
* `Verif.Algo.C52_no_idle_partial`
* `Verif.Algo.C53_new_constraint`
* `Verif.Algo.C53_chain`
* `Verif.Node.C54_false`
* `Verif.Node.C54_consistent_partial`
* `Verif.Node.C54_republished`
* `Verif.Node.C55_telescope`
* `Verif.NDTGrid.C56_order_independent`
* `Verif.Robust.C57_false`
* `Verif.Robust.C57_justified_partial`
* `Verif.Robust.C57_unset_partial`
* `Verif.Robust.C57_scanmatcher_partial`
* `Verif.Robust.C57_accepts`
* `Verif.Robust.C57_limit`
* `Verif.Newton.C58_limits`
* `Verif.Newton.C58_other_trial`
* `Verif.Score.C59_false`
* `Verif.Score.C59_gradient_partial`
* `Verif.Score.C59_hessian_partial`
* `Verif.Score.C60_false`
* `Verif.Score.C60_increment_partial`
* `Verif.Score.C60_parameters_partial`
* `Verif.Newton.C61_schedule`
* `Verif.Corr.C62_false`
* `Verif.Corr.C62_best_candidate_partial`
* `Verif.Corr.C62_best_motion_partial`
* `Verif.Corr.C62_no_guess_partial`
* `Verif.Corr.C62_empty_window`
* `Verif.Corr.C62_no_step`
* `Verif.Corr.C63_false`
* `Verif.Corr.C63_table_partial`
* `Verif.Corr.C63_sharp`
* `Verif.Corr.C63_overrun`
* `Verif.Corr.C64_false`
* `Verif.Corr.C64_border_partial`
* `Verif.Opt.C65_unit_interval`
* `Verif.Opt.C65_increment`
* `Verif.Opt.C65_life`
* `Verif.Opt.C66_false`
* `Verif.Opt.C66_most_probable_partial`
* `Verif.Opt.C66_fresh`
* `Verif.Opt.C66_no_component`
* `Verif.NDT.C67_gaussian_usable`
* `Verif.NDT.C68_regularisation`
* `Verif.NDT.C69_batches`
* `Verif.NDT.C69_limit`
* `Verif.NDT.C70_transform`
* `Verif.NDTGrid.C71_gaussians_in_their_square_partial`
* `Verif.NDTGrid.C71_ndt_partial`
* `Verif.NDTGrid.C71_false_on_border`
* `Verif.NDTGrid.C72_nearest_partial`
* `Verif.NDTGrid.C72_false_after_clear`
* `Verif.NDTGrid.C73_merge_inside_partial`
* `Verif.NDTGrid.C73_false_on_border`
* `Verif.NDTGrid.C74_scan_binning_partial`
* `Verif.NDTGrid.C74_scan_total_partial`
* `Verif.NDTGrid.C74_scan_ndt_partial`
* `Verif.World.C74_initialize_partial`
* `Verif.World.C74_initialize_simple_partial`
* `Verif.NDTGrid.C74_false_on_border`
* `Verif.NDTGrid.C75_tracing_keeps_cells_partial`
* `Verif.NDTGrid.C75_false_on_border`
* `Verif.Geo.C76_covarInverse_partial`
* `Verif.Geo.C76_false`
* `Verif.Geo.C77_edge_covariance_partial`
* `Verif.Geo.C77_chain_partial`
* `Verif.Geo.C77_false_transform`
* `Verif.Geo.C77_false_wrapper`
* `Verif.Geo.C78_frames`
* `Verif.Algo.C79_false`
* `Verif.Algo.C79_reports_match_partial`
* `Verif.Algo.C80_scans`
* `Verif.Algo.C80_scans_loops`
* `Verif.Algo.C80_kept`
* `Verif.Algo.C81_frames_follow_nodes`
* `Verif.Algo.C82_false`
* `Verif.Algo.C82_guess_partial`
* `Verif.Algo.C82_guess_after_match_partial`
* `Verif.Algo.C83_false`
* `Verif.Algo.C83_rays_partial`
* `Verif.Algo.C84_frame_extent`
* `Verif.Node.C85_false`
* `Verif.Node.C85_constant_partial`
* `Verif.Node.C86_covariance_block`
* `Verif.Opt.C87_false`
* `Verif.Opt.C87_estimate_partial`
* `Verif.Opt.C88_jacobians`
* `Verif.Opt.C88_switch`
* `Verif.Opt.C88_prior`
* `Verif.Opt.C89_loop_gate`
* `Verif.Corr.C90_false`
* `Verif.Corr.C90_smeared_partial`
* `Verif.Corr.C90_unit_cells_partial`
* `Verif.Corr.C91_false`
* `Verif.Corr.C91_whole_cells_partial`
* `Verif.Corr.C91_default_window`
* `Verif.Corr.C91_moveIndexes`
* `Verif.Newton.C92_false`
* `Verif.Newton.C92_unsearched`
* `Verif.Newton.C93_reach`
* `Verif.Newton.C94_false`
* `Verif.Newton.C94_maximum_partial`
* `Verif.Newton.C94_front_end`
* `Verif.Newton.C95_false`
* `Verif.Newton.C95_d2d_partial`
* `Verif.Newton.C95_ndt_partial`
* `Verif.Newton.C96_false`
* `Verif.Newton.C96_guess_kept_partial`
* `Verif.Newton.C97_false`
* `Verif.Newton.C97_reported_partial`
* `Verif.Newton.C98_layers`
* `Verif.Newton.C98_no_layers`
* `Verif.Newton.C99_fit`
* `Verif.Newton.C100_false`
* `Verif.Newton.C100_unit_cells_partial`
* `Verif.Score.C101_frame`
* `Verif.Score.C102_d2d`
* `Verif.Score.C102_attained`
* `Verif.Score.C102_points`
* `Verif.World.C103_false`
* `Verif.World.C103_centroid_partial`
* `Verif.World.C103_radius_partial`
* `Verif.World.C104_merge`
* `Verif.World.C104_merge_traced`
* `Verif.World.C104_complete`
* `Verif.World.C104_complete_traced`
* `Verif.World.C104_false`
* `Verif.World.C105_false_turned`
* `Verif.World.C105_false_world`
* `Verif.World.C105_transform_partial`
* `Verif.World.C106_window`
* `Verif.World.C107_false`
* `Verif.World.C107_occupancy_partial`
* `Verif.World.C108_false`
* `Verif.World.C108_window_message_partial`
* `Verif.World.C109_recalculated`
* `Verif.World.C109_pose`
* `Verif.World.C109_complete`
* `Verif.NDTGrid.C167_false_again`
* `Verif.NDTGrid.C167_false_size`
* `Verif.World.C110_published_means`
* `Verif.World.C110_published_map`
* `Verif.Whole.C110_algorithm`
* `Verif.World.C111_usable`
* `Verif.Whole.C111_algorithm`
* `Verif.World.C112_false`
* `Verif.World.C112_recalc_false`
* `Verif.World.C112_initialize_partial`
* `Verif.World.C112_merge_partial`
* `Verif.World.C112_merge_traced_partial`
* `Verif.World.C112_transform_partial`
* `Verif.World.C112_move`
* `Verif.World.C112_mapper_partial`
* `Verif.Whole.C113_poses`
* `Verif.Whole.C113_map`
* `Verif.Whole.C113_no_loops`
* `Verif.Whole.C114_window`
* `Verif.Whole.C115_frames`
* `Verif.Whole.C115_map`
* `Verif.Whole.C115_complete`
* `Verif.Whole.C116_false`
* `Verif.Whole.C116_update_partial`
* `Verif.Whole.C116_idle`
* `Verif.Robust.C117_success_partial`
* `Verif.Robust.C117_failure_partial`
* `Verif.Robust.C117_false_output`
* `Verif.Robust.C117_false_quality`
* `Verif.Geo.C118_addPoses`
* `Verif.Loop.C119_candidates_partial`
* `Verif.Loop.C119_exact_partial`
* `Verif.Loop.C119_false_uninitialised`
* `Verif.Loop.C119_false_parallel`
* `Verif.Loop.C120_order_partial`
* `Verif.Loop.C120_false`
* `Verif.NDT.C121_points`
* `Verif.NDT.C121_ray_empty`
* `Verif.NDT.C121_ray_gaussian`
* `Verif.NDT.C121_ray_bound`
* `Verif.NDT.C121_confirmed`
* `Verif.Node.C122_dropped`
* `Verif.Node.C122_used`
* `Verif.Node.C122_series`
* `Verif.Algo.C123_scan_used`
* `Verif.Algo.C123_frame_finished`
* `Verif.Slam.C124_markers_partial`
* `Verif.Slam.C124_text_partial`
* `Verif.Slam.C124_lines_partial`
* `Verif.Slam.C124_lines_false`
* `Verif.Slam.C124_false`
* `Verif.Algo.C124_algorithm_partial`
* `Verif.Opt.C125_switch_partial`
* `Verif.Opt.C125_switch_false`
* `Verif.Opt.C125_prior`
* `Verif.Opt.C125_edge`
* `Verif.Opt.C125_mixture_partial`
* `Verif.Opt.C125_again`
* `Verif.Opt.C125_mixture_false`
* `Verif.Opt.C126_mixture_partial`
* `Verif.Opt.C126_mixture_false`
* `Verif.Opt.C126_switch_false`
* `Verif.Opt.C126_switch_old`
* `Verif.Opt.C126_edge_false`
* `Verif.Whole.C127_size_partial`
* `Verif.Whole.C127_constant_partial`
* `Verif.Whole.C127_centred`
* `Verif.Whole.C127_false`
* `Verif.Loop.C128_taken_back_partial`
* `Verif.Loop.C128_false`
* `Verif.Loop.C128_unknown`
* `Verif.Whole.C129_runs_partial`
* `Verif.Whole.C129_search_partial`
* `Verif.Whole.C129_total_partial`
* `Verif.Whole.C129_false`
* `Verif.Launch.C130_starts`
* `Verif.Launch.C130_names`
* `Verif.Launch.C130_window_partial`
* `Verif.Launch.C130_frames_partial`
* `Verif.Launch.C130_loops_partial`
* `Verif.Launch.C130_false`
* `Verif.Launch.C130_false_bounds`
* `Verif.Match.C131_ends_partial`
* `Verif.Match.C131_false`
* `Verif.Match.C132_overlap_partial`
* `Verif.Match.C132_false`
* `Verif.Match.C133_reach`
* `Verif.Match.C134_joins_partial`
* `Verif.Match.C134_launched_partial`
* `Verif.Match.matching_describes`
* `Verif.NDTGrid.C135_merge_partial`
* `Verif.NDTGrid.C135_first_scan_partial`
* `Verif.World.C135_only_between_partial`
* `Verif.World.C135_free_partial`
* `Verif.NDTGrid.C135_false_short`
* `Verif.NDTGrid.C135_false_outside`
* `Verif.NDTGrid.C166_false_corner`
* `Verif.Program.C136_unusable_partial`
* `Verif.Program.C136_first_partial`
* `Verif.Program.C136_published_partial`
* `Verif.Program.C136_load_partial`
* `Verif.Program.C136_answered_partial`
* `Verif.Program.C136_false`
* `Verif.Newton.C137_cubic_partial`
* `Verif.Newton.C137_maximum`
* `Verif.Newton.C137_first_partial`
* `Verif.Newton.C137_second_partial`
* `Verif.Newton.C137_third_partial`
* `Verif.Newton.C137_third_rule_partial`
* `Verif.Newton.C137_fourth_partial`
* `Verif.Newton.C137_false_first`
* `Verif.Newton.C137_false_fourth`
* `Verif.Newton.C138_update_partial`
* `Verif.Newton.C138_bracket`
* `Verif.Newton.C138_false`
* `Verif.Algo.C139_window`
* `Verif.Algo.C139_step`
* `Verif.Algo.C139_correction`
* `Verif.Algo.C139_kept_partial`
* `Verif.Algo.C139_together_partial`
* `Verif.Algo.C139_false`
* `Verif.Score.C140_mutual_partial`
* `Verif.Score.C140_one`
* `Verif.Score.C140_reported`
* `Verif.Score.C140_false`
* `Verif.Score.C140_points_false`
* `Verif.Algo.C141_match`
* `Verif.Algo.C141_reported_partial`
* `Verif.Algo.C141_lost`
* `Verif.Algo.C141_behind`
* `Verif.Algo.C141_false`
* `Verif.Opt.C142_space_partial`
* `Verif.Opt.C142_landmark_partial`
* `Verif.Opt.C142_landmark_false`
* `Verif.Opt.C142_error`
* `Verif.Opt.C143_landmark_partial`
* `Verif.Opt.C143_space_partial`
* `Verif.Opt.C143_space_exact`
* `Verif.Opt.C143_false`
* `Verif.Round.C144_partial`
* `Verif.Round.C144_ray_partial`
* `Verif.Round.C144_centre_ray_partial`
* `Verif.Round.C144_power_of_two`
* `Verif.Round.C144_false`
* `Verif.Round.C144_centre_ray_false`
* `Verif.Round.ieee_accurate`
* `Verif.Round.C145_map_partial`
* `Verif.Round.C145_traced_partial`
* `Verif.Round.C145_scan_partial`
* `Verif.Round.C145_false`
* `Verif.Round.C145_traced_false`
* `Verif.Round.C146_partial`
* `Verif.Round.C146_motion_partial`
* `Verif.Round.C146_squares_partial`
* `Verif.Round.ieee_double`
* `Verif.Round.C146_false`
* `Verif.Round.C147_partial`
* `Verif.Round.C147_matches_partial`
* `Verif.Round.C147_ieee_partial`
* `Verif.Round.C147_closures_partial`
* `Verif.Round.C147_closures_ieee_partial`
* `Verif.Round.Track.update_exact`
* `Verif.Round.Track.next_exact`
* `Verif.Round.increment_near`
* `Verif.Round.angle_ok`
* `Verif.Round.C148_batch_partial`
* `Verif.Round.C148_posdef_partial`
* `Verif.Round.C148_ieee_partial`
* `Verif.Round.C148_false`
* `Verif.Round.C148_pooled_partial`
* `Verif.Round.C148_pooled_posdef_partial`
* `Verif.Round.C148_drift_partial`
* `Verif.Round.cov2_exact`
* `Verif.Round.pooled_exact`
* `Verif.NDTGrid.C149_partial`
* `Verif.NDTGrid.C149_false`
* `Verif.Voxel.C150_partial`
* `Verif.Voxel.C150_collinear`
* `Verif.Voxel.C150_false`
* `Verif.NDTGrid.C151_picture`
* `Verif.NDTGrid.C151_text_partial`
* `Verif.NDTGrid.C151_false`
* `Verif.Slam.C152_partial`
* `Verif.Slam.C152_run_partial`
* `Verif.Slam.C152_false`
* `Verif.Round.C153_partial`
* `Verif.Round.C153_ieee_partial`
* `Verif.Round.C153_false`
* `Verif.Round.batch_exact`
* `Verif.Round.merge_exact`
* `Verif.Round.ray_exact`
* `Verif.Newton.C154_d2d`
* `Verif.Newton.C154_ndt_partial`
* `Verif.Newton.C154_false`
* `Verif.Voxel.Machine.C155_run_partial`
* `Verif.Voxel.Machine.C155_query_partial`
* `Verif.Voxel.Machine.C155_false_grow`
* `Verif.Voxel.Machine.C155_false_radius`
* `Verif.NDT.C156_obstacles_partial`
* `Verif.NDT.C156_order_partial`
* `Verif.NDT.C156_false`
* `Verif.Opt.C157_ids`
* `Verif.Opt.C157_start`
* `Verif.Opt.C157_switch`
* `Verif.Opt.C157_switchable_partial`
* `Verif.Opt.C157_mixture_partial`
* `Verif.Opt.C157_false`
* `Verif.Voxel.C158_partial`
* `Verif.Voxel.C158_added_partial`
* `Verif.Voxel.C158_false`
* `Verif.Voxel.C158_false_clear`
* `Verif.NDTGrid.C158_false_map`
* `Verif.Round.C159_partial`
* `Verif.Round.C159_digits_partial`
* `Verif.Round.C159_exact_partial`
* `Verif.Round.C159_false_ends`
* `Verif.Round.C159_false_shift`
* `Verif.Round.C160_assignment_partial`
* `Verif.Round.C160_error_partial`
* `Verif.Round.C160_runs_partial`
* `Verif.Round.C160_false`
* `Verif.Opt.C161_partial`
* `Verif.Opt.C161_created`
* `Verif.Opt.C161_false_twice`
* `Verif.Opt.C161_false_leak`
* `Verif.Whole.C162_params_partial`
* `Verif.Whole.C162_decision_partial`
* `Verif.Whole.C162_false`
* `Verif.NDTGrid.C163_cells_partial`
* `Verif.NDTGrid.C163_map_partial`
* `Verif.NDTGrid.C163_false_infinite`
* `Verif.NDTGrid.C163_false_border`
* `Verif.NDTGrid.Machine.C164_run_partial`
* `Verif.NDTGrid.Machine.C164_ndt_partial`
* `Verif.NDTGrid.Machine.C164_false_move`
* `Verif.NDTGrid.Machine.C164_false_far`
* `Verif.Whole.C165_nodes`
* `Verif.Whole.C165_frames`
* `Verif.Whole.C165_memory`
* `Verif.Whole.C165_idle`
* `Verif.NDTGrid.C166_chain`
* `Verif.NDTGrid.C166_near`
* `Verif.NDTGrid.C166_stops_before`
* `Verif.NDTGrid.C166_reaches`
* `Verif.NDTGrid.C167_size_partial`
* `Verif.NDTGrid.C167_never_shrinks`
* `Verif.NDTGrid.C167_determined_partial`
* `Verif.NDTGrid.C167_settles`
* `Verif.World.C168_history`
* `Verif.World.C168_occupancy`
* `Verif.World.C168_published`
* `Verif.Whole.C168_algorithm`
* `Verif.World.C169_fixed_partial`
* `Verif.World.C169_false`
* `Verif.Whole.C170_map`
* `Verif.Whole.C170_reach`
* `Verif.Whole.C170_way`
* `Verif.Score.C171_layer_partial`
* `Verif.Score.C171_d2d_partial`
* `Verif.Score.C171_points_partial`
* `Verif.Score.C171_false`
* `Verif.Match.C172_loop_partial`
* `Verif.Match.C172_incremental_partial`
* `Verif.Match.C172_false`
* `Verif.Match.C173_defined_partial`
* `Verif.Match.C173_joins_partial`
* `Verif.Match.C173_false`
* `Verif.Match.C174_target_partial`
* `Verif.Match.C174_defined_partial`
* `Verif.Match.C174_stuck`
* `Verif.Match.C174_false`
* `Verif.Match.C174_forgets`
* `Verif.Match.C174_lost`
* `Verif.Match.C175_loop_partial`
* `Verif.Match.C175_refused`
* `Verif.Match.C175_incremental_partial`
* `Verif.Match.C175_stale`
* `Verif.Match.C175_false`
* `Verif.Match.no_target`
* `Verif.Program.C176_means_partial`
* `Verif.Program.C176_means_iff`
* `Verif.Program.C176_centre_false`
* `Verif.Program.C176_false`
* `Verif.NDT.C177_vanishes`
* `Verif.NDT.C177_kept`
* `Verif.NDT.C177_once`
* `Verif.NDT.C177_false`
* `Verif.World.C177_map_partial`

## Quot.sound, propext

* `Verif.Voxel.C09_copy_partial`
* `Verif.Voxel.C11_ray_preserves`
* `Verif.PoseGraph.C30_false_alias`
* `Verif.PoseGraph.C31_false_first_removed`
* `Verif.Utils.C50_bounding_box`
* `Verif.Voxel.C150_no`
* `Verif.Voxel.Machine.C155_false_move`

## propext

* `Verif.Utils.C49_empty_separator_diverges`
