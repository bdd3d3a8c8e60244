{
 "claims": [
  {
   "property": "C01",
   "status": "proved",
   "theorems": [
    "RgbdSlam.Slam.C01_lost_iff_recent_failures",
    "RgbdSlam.Slam.C01_wrap",
    "RgbdSlam.Slam.C01_three_failures_tolerated"
   ],
   "note": "For fewer than 2^32 failed frames in a row; C01_wrap shows what the 32-bit failure counter does at 2^32."
  },
  {
   "property": "C02",
   "status": "proved",
   "theorems": [
    "RgbdSlam.Slam.C02_returns_last_optimized",
    "RgbdSlam.Slam.C02_first_returns_start",
    "RgbdSlam.Slam.C02_failed_frame_keeps_pose"
   ],
   "note": "Any start pose, any outcome history."
  },
  {
   "property": "C03",
   "status": "proved",
   "theorems": [
    "RgbdSlam.Slam.C03_forced_iff",
    "RgbdSlam.Slam.C03_forced_in_every_window"
   ],
   "note": ""
  },
  {
   "property": "C04",
   "status": "proved",
   "theorems": [
    "RgbdSlam.Slam.C04_reseeded_iff",
    "RgbdSlam.Slam.C04_reseed_needs_four_failures"
   ],
   "note": ""
  },
  {
   "property": "C05",
   "status": "partial",
   "theorems": [
    "RgbdSlam.Params.C05_parse_true_iff_usable_partial",
    "RgbdSlam.Params.C05_negative_size_accepted_false",
    "RgbdSlam.Params.C05_missing_file_gives_default",
    "RgbdSlam.Params.C05_construct_iff"
   ],
   "note": "C05_negative_size_accepted_false: a negative image size is accepted by the parser (cast to unsigned); the equivalence holds for files without negative sizes."
  },
  {
   "property": "C06",
   "status": "proved",
   "theorems": [
    "RgbdSlam.Map.C06_ids_nonzero",
    "RgbdSlam.Map.C06_ids_distinct",
    "RgbdSlam.Map.C06_id_reuse_after_wrap",
    "RgbdSlam.Map.C06_ids_never_reused"
   ],
   "note": "Ids of one program run, up to 2^64-1 ids; C06_id_reuse_after_wrap shows the bound is exact."
  },
  {
   "property": "C07",
   "status": "proved",
   "theorems": [
    "RgbdSlam.Map.C07_keyed_and_disjoint"
   ],
   "note": ""
  },
  {
   "property": "C08",
   "status": "proved",
   "theorems": [
    "RgbdSlam.Map.C08_point_life",
    "RgbdSlam.Map.C08_point2d_life"
   ],
   "note": "Assumes that building the map point from the candidate does not throw (see C17)."
  },
  {
   "property": "C09",
   "status": "proved",
   "theorems": [
    "RgbdSlam.Map.C09_plane_life"
   ],
   "note": "Assumes that building the map plane from the candidate does not throw (see C17)."
  },
  {
   "property": "C10",
   "status": "proved",
   "theorems": [
    "RgbdSlam.Map.C10_point_lost_at_eleventh_miss",
    "RgbdSlam.Map.C10_point2d_lost_at_eleventh_miss",
    "RgbdSlam.Map.C10_plane_lost_at_tenth_miss"
   ],
   "note": "Same assumption as C08."
  },
  {
   "property": "C11",
   "status": "proved",
   "theorems": [
    "RgbdSlam.Map.C11_exported_at_most_once",
    "RgbdSlam.Map.C11_only_lost_features_written",
    "RgbdSlam.Map.C11_exported_exactly_once",
    "RgbdSlam.Map.C11_plane_exported_exactly_once"
   ],
   "note": "Points flagged as moving are dropped without being written; this is an explicit disjunct of C11_exported_exactly_once."
  },
  {
   "property": "C12",
   "status": "proved",
   "theorems": [
    "RgbdSlam.Map.C12_update_rejected_unchanged",
    "RgbdSlam.Map.C12_add_all_rejected_unchanged",
    "RgbdSlam.Map.C12_add_all_throws_iff",
    "RgbdSlam.Map.C12_update_no_other_exception",
    "RgbdSlam.Map.C12_late_exception_leaves_changes"
   ],
   "note": "Also: when update throws at all. C12_late_exception_leaves_changes: an exception from building an upgraded point (not covered by the property) leaves a half done update."
  },
  {
   "property": "C13",
   "status": "proved",
   "theorems": [
    "RgbdSlam.Map.C13_deactivated_unchanged",
    "RgbdSlam.Map.C13_deactivated_silent",
    "RgbdSlam.Map.C13_upgrades_not_blocked"
   ],
   "note": "Matching, update, staging, outliers and reset are blocked; C13_upgrades_not_blocked shows that the two upgrade calls still change a deactivated map."
  },
  {
   "property": "C14",
   "status": "proved",
   "theorems": [
    "RgbdSlam.Map.C14_outliers_only_undo_their_match"
   ],
   "note": ""
  },
  {
   "property": "C15",
   "status": "proved",
   "theorems": [
    "RgbdSlam.Map.C15_unused_detections_staged_once"
   ],
   "note": "Per map; the used set is an argument, see C12/C21 for the whole update."
  },
  {
   "property": "C16",
   "status": "proved",
   "theorems": [
    "RgbdSlam.Map.C16_one_point_map",
    "RgbdSlam.Map.C16_tracked_not_staged"
   ],
   "note": ""
  },
  {
   "property": "C17",
   "status": "partial",
   "theorems": [
    "RgbdSlam.Map.C17_update_terminates_partial",
    "RgbdSlam.Map.C17_update_may_loop_false"
   ],
   "note": "False in general (C17_update_may_loop_false): if building a map feature throws, the loop does not advance. Proved under the hypothesis that it does not throw."
  },
  {
   "property": "C18",
   "status": "partial",
   "theorems": [
    "RgbdSlam.Map.C18_plane_matches_exclusive_partial",
    "RgbdSlam.Map.C18_plane_matches_similar",
    "RgbdSlam.Map.C18_first_plane_never_matched_false"
   ],
   "note": "Exclusivity and range proved; the last part is false: detection number 0 is never matched (C18_first_plane_never_matched_false)."
  },
  {
   "property": "C19",
   "status": "proved",
   "theorems": [
    "RgbdSlam.Map.C19_point_matches_exclusive",
    "RgbdSlam.Map.C19_point2d_matches_exclusive"
   ],
   "note": "3D and 2D point maps, with the keypoint handler as matching back end."
  },
  {
   "property": "C20",
   "status": "partial",
   "theorems": [
    "RgbdSlam.Map.C20_2d_points_never_contribute_false"
   ],
   "note": "False: C20_2d_points_never_contribute_false, a 2D point never contributes a match (map_point2d.cpp:118 returns before the push)."
  },
  {
   "property": "C21",
   "status": "partial",
   "theorems": [
    "RgbdSlam.Map.C21_upgraded_points_move_partial",
    "RgbdSlam.Map.C21_upgraded_points_lost_false"
   ],
   "note": "Proved when no constructor of an upgraded point throws; otherwise the converged points are lost (C21_upgraded_points_lost_false)."
  },
  {
   "property": "C22",
   "status": "proved",
   "theorems": [
    "RgbdSlam.Ransac.C22_split_is_partition",
    "RgbdSlam.Ransac.C22_set_score"
   ],
   "note": ""
  },
  {
   "property": "C23",
   "status": "proved",
   "theorems": [
    "RgbdSlam.Ransac.C23_accepted_pose_supported",
    "RgbdSlam.Ransac.C23_failure_leaves_nothing",
    "RgbdSlam.Ransac.C23_too_few_matches",
    "RgbdSlam.Ransac.C23_never_terminates",
    "RgbdSlam.Ransac.C23_no_deadlock",
    "RgbdSlam.Ransac.C23_always_ends"
   ],
   "note": "Every interleaving of single reads and writes of the shared variables (sequential consistency); the data race is C24_data_race_false. Also: no exception, no deadlock, termination."
  },
  {
   "property": "C24",
   "status": "partial",
   "theorems": [
    "RgbdSlam.Ransac.C24_sequential_close_partial",
    "RgbdSlam.Ransac.C24_turn_partial",
    "RgbdSlam.Ransac.C24_sequential_best_partial",
    "RgbdSlam.Ransac.C24_mixed_matches_false",
    "RgbdSlam.Ransac.C24_lost_update_false",
    "RgbdSlam.Ransac.C24_data_race_false"
   ],
   "note": "False: C24_mixed_matches_false (tie rule), C24_lost_update_false (comparison outside the lock), C24_data_race_false. Proved for the deterministic build when all matches count the same; in general no candidate evaluated is better than the one kept by more than 0.1 per iteration."
  },
  {
   "property": "C25",
   "status": "proved",
   "theorems": [
    "RgbdSlam.Ransac.C25_score_with_duplicates",
    "RgbdSlam.Ransac.C25_score_from_empty",
    "RgbdSlam.Ransac.C25_subset",
    "RgbdSlam.Ransac.C25_subset_reaches_all",
    "RgbdSlam.Ransac.C25_subset_with_score",
    "RgbdSlam.Ransac.C25_subset_with_duplicates"
   ],
   "note": "Scores and target positive, as in the program. The variant that may draw the same element twice is covered by C25_score_with_duplicates."
  },
  {
   "property": "C26",
   "status": "partial",
   "theorems": [
    "RgbdSlam.Optimizer.C26_accepted_partial",
    "RgbdSlam.Optimizer.C26_reported",
    "RgbdSlam.Optimizer.C26_too_many_failures",
    "RgbdSlam.Optimizer.C26_any_order",
    "RgbdSlam.Optimizer.C26_no_sample_false"
   ],
   "note": "false for one requested iteration (C26_no_sample_false); proved for two or more, with the value of the covariance and independence of the storing order"
  },
  {
   "property": "C27",
   "status": "partial",
   "theorems": [
    "RgbdSlam.Writer.C27_lines_and_polygons_shown_partial",
    "RgbdSlam.Writer.C27_polygon_complete",
    "RgbdSlam.Writer.C27_numbers_in_range_partial",
    "RgbdSlam.Writer.C27_later_calls_append",
    "RgbdSlam.Writer.C27_point_shows_next_vertex_false"
   ],
   "note": "Lines and polygons: proved. Points: false, C27_point_shows_next_vertex_false (the vertex number is incremented before it is written). The file is its text; the printed form of a coordinate is any text without blank."
  },
  {
   "property": "C28",
   "status": "partial",
   "theorems": [
    "RgbdSlam.Writer.C28_xyz_exactly_the_points_partial",
    "RgbdSlam.Writer.C28_pcd_exactly_the_points_partial",
    "RgbdSlam.Writer.C28_pcd_count_false"
   ],
   "note": "C28_pcd_count_false: the PCD header always announces 0 points. The point lines themselves are proved for both formats."
  },
  {
   "property": "C29",
   "status": "proved",
   "theorems": [
    "RgbdSlam.Geometry.C29_camera_round_trip",
    "RgbdSlam.Geometry.C29_world_round_trip",
    "RgbdSlam.Geometry.C29_distances_to_world",
    "RgbdSlam.Geometry.C29_distances_to_camera",
    "RgbdSlam.Geometry.C29_matrix_round_trip"
   ],
   "note": "Exact arithmetic, unit orientation."
  },
  {
   "property": "C30",
   "status": "proved",
   "theorems": [
    "RgbdSlam.Geometry.C30_signed_distance",
    "RgbdSlam.Geometry.C30_on_plane",
    "RgbdSlam.Geometry.C30_unit_normal",
    "RgbdSlam.Geometry.C30_camera_round_trip",
    "RgbdSlam.Geometry.C30_world_round_trip",
    "RgbdSlam.Geometry.C30_center"
   ],
   "note": "Exact arithmetic, planes with a unit normal (the constructors normalise it)."
  },
  {
   "property": "C31",
   "status": "partial",
   "theorems": [
    "RgbdSlam.Geometry.C31_screen_round_trip",
    "RgbdSlam.Geometry.C31_camera_round_trip_partial",
    "RgbdSlam.Geometry.C31_left_of_image_false",
    "RgbdSlam.Geometry.C31_refused",
    "RgbdSlam.Geometry.C31_in_screen"
   ],
   "note": "Screen to camera and back proved. False for camera points whose projection is left of or above the image: C31_left_of_image_false (the back-projection throws)."
  },
  {
   "property": "C32",
   "status": "partial",
   "theorems": [
    "RgbdSlam.Geometry.C32_cartesian_round_trip",
    "RgbdSlam.Geometry.C32_on_ray_partial",
    "RgbdSlam.Geometry.C32_back_partial",
    "RgbdSlam.Geometry.C32_first_observation",
    "RgbdSlam.Geometry.C32_interval_false"
   ],
   "note": "Ray, distance and both round trips proved. The confidence interval is wrong: C32_interval_false (min instead of max)."
  },
  {
   "property": "C33",
   "status": "proved",
   "theorems": [
    "RgbdSlam.Optimizer.C33_always_a_rotation",
    "RgbdSlam.Optimizer.C33_stereographic",
    "RgbdSlam.Optimizer.C33_pose",
    "RgbdSlam.Optimizer.C33_round_trip",
    "RgbdSlam.Optimizer.C33_pose_round_trip",
    "RgbdSlam.Optimizer.C33_back",
    "RgbdSlam.Optimizer.C33_not_recovered_near_pole"
   ],
   "note": "the exception near the pole is shown to be needed"
  },
  {
   "property": "C34",
   "status": "partial",
   "theorems": [
    "RgbdSlam.Optimizer.C34_off_diagonal_partial",
    "RgbdSlam.Optimizer.C34_diagonal_error_partial",
    "RgbdSlam.Optimizer.C34_only_at_zero_partial",
    "RgbdSlam.Optimizer.C34_jacobian_false"
   ],
   "note": "false at every triple but zero: the three diagonal entries have a wrong sign (C34_jacobian_false); the other nine entries proved"
  },
  {
   "property": "C35",
   "status": "proved",
   "theorems": [
    "RgbdSlam.Covariance.C35_update",
    "RgbdSlam.Covariance.C35_invalid_rejected",
    "RgbdSlam.Covariance.C35_sequence",
    "RgbdSlam.Covariance.C35_uninitialised"
   ],
   "note": "exact real arithmetic; the pseudo inverse of Eigen is any matrix meeting the Moore-Penrose equations; the update is also shown optimal among all gains"
  },
  {
   "property": "C36",
   "status": "proved",
   "theorems": [
    "RgbdSlam.Covariance.C36_check",
    "RgbdSlam.Covariance.C36_accepted_symmetric",
    "RgbdSlam.Covariance.C36_propagate",
    "RgbdSlam.Covariance.C36_first_order",
    "RgbdSlam.Covariance.C36_approximate_symmetry_counterexample",
    "RgbdSlam.Covariance.C36_points",
    "RgbdSlam.Covariance.C36_screen_point",
    "RgbdSlam.Covariance.C36_planes",
    "RgbdSlam.Covariance.C36_world_plane",
    "RgbdSlam.Covariance.C36_inverse_depth",
    "RgbdSlam.Covariance.C36_moved_variance"
   ],
   "note": "exact real arithmetic; the validity check is positive semi-definiteness of the upper triangle plus approximate symmetry"
  },
  {
   "property": "C37",
   "status": "proved",
   "theorems": [
    "RgbdSlam.PlaneSegment.C37_at_least_half",
    "RgbdSlam.PlaneSegment.C37_monotone",
    "RgbdSlam.PlaneSegment.C37_value"
   ],
   "note": "Exact arithmetic, in every ordered field."
  },
  {
   "property": "C38",
   "status": "proved",
   "theorems": [
    "RgbdSlam.Optimizer.C38_first_prediction",
    "RgbdSlam.Optimizer.C38_unit_prediction",
    "RgbdSlam.Optimizer.C38_position",
    "RgbdSlam.Optimizer.C38_position_from",
    "RgbdSlam.Optimizer.C38_first_prediction_from",
    "RgbdSlam.Optimizer.C38_constant_pose",
    "RgbdSlam.Optimizer.C38_variance"
   ],
   "note": "exact reals; reset without arguments"
  },
  {
   "property": "C39",
   "status": "proved",
   "theorems": [
    "RgbdSlam.DepthMap.C39_bijection",
    "RgbdSlam.DepthMap.C39_patch_contiguous",
    "RgbdSlam.DepthMap.C39_cloud"
   ],
   "note": "Bijection and contiguous patches for all sizes; the content of each slot for all images and all interleavings of the rows. Positive depths up to 2^-52 end the program (to_camera_coordinates throws), excluded by hypothesis."
  },
  {
   "property": "C40",
   "status": "partial",
   "theorems": [
    "RgbdSlam.DepthMap.C40_schedule_independent_partial",
    "RgbdSlam.DepthMap.C40_schedule_false"
   ],
   "note": "False in general: two interleavings with different results (C40_schedule_false). Proved when no two pixels land on the same pixel."
  },
  {
   "property": "C41",
   "status": "partial",
   "theorems": [
    "RgbdSlam.Primitives.C41_out_of_range",
    "RgbdSlam.Primitives.C41_seeds_initial",
    "RgbdSlam.Primitives.C41_seeds_after_removals_partial",
    "RgbdSlam.Primitives.C41_removed_cell_returned_false",
    "RgbdSlam.Primitives.C41_not_most_populated_false"
   ],
   "note": "Proved before any removal, and after removals for all bins but bin 1; removing a cell out of the grid is an error (C41_out_of_range). False for bin 1, in which the code puts the removed cells: C41_removed_cell_returned_false, C41_not_most_populated_false."
  },
  {
   "property": "C42",
   "status": "proved",
   "theorems": [
    "RgbdSlam.Primitives.C42_region_is_reachable_cells"
   ],
   "note": ""
  },
  {
   "property": "C43",
   "status": "proved",
   "theorems": [
    "RgbdSlam.Primitives.C43_terminates",
    "RgbdSlam.Primitives.C43_one_shape_per_cell",
    "RgbdSlam.Primitives.C43_labels_are_the_shapes",
    "RgbdSlam.Primitives.C43_label_kept",
    "RgbdSlam.Primitives.C43_result_reached"
   ],
   "note": "Directions of the normals in their range (the assertion of the histogram)."
  },
  {
   "property": "C44",
   "status": "proved",
   "theorems": [
    "RgbdSlam.Primitives.C44_refused_pairs",
    "RgbdSlam.Primitives.C44_representatives",
    "RgbdSlam.Primitives.C44_linked",
    "RgbdSlam.Primitives.C44_merges_happen"
   ],
   "note": ""
  },
  {
   "property": "C45",
   "status": "partial",
   "theorems": [
    "RgbdSlam.Primitives.C45_symmetric",
    "RgbdSlam.Primitives.C45_sound",
    "RgbdSlam.Primitives.C45_complete_partial",
    "RgbdSlam.Primitives.C45_last_row_false"
   ],
   "note": "Symmetric, irreflexive and sound; complete except for pairs inside the last row or the last column (C45_last_row_false)."
  },
  {
   "property": "C46",
   "status": "partial",
   "theorems": [
    "RgbdSlam.PlaneSegment.C46_cell_statistics",
    "RgbdSlam.PlaneSegment.C46_union",
    "RgbdSlam.PlaneSegment.C46_centroid",
    "RgbdSlam.PlaneSegment.C46_covariance",
    "RgbdSlam.PlaneSegment.C46_seed_counted_twice_false",
    "RgbdSlam.PlaneSegment.C46_counted_once_but_seed_partial"
   ],
   "note": "Statistics, centroid and covariance proved. A grown plane counts its seed twice (C46_seed_counted_twice_false)."
  },
  {
   "property": "C47",
   "status": "partial",
   "theorems": [
    "RgbdSlam.Primitives.C47_mean_of_original_partial",
    "RgbdSlam.Primitives.C47_radius_lost_false"
   ],
   "note": "False for every cylinder returned: C47_radius_lost_false (0/0, the copy constructor drops the count)."
  },
  {
   "property": "C48",
   "status": "proved",
   "theorems": [
    "RgbdSlam.Primitives.C48_disjoint_segments"
   ],
   "note": ""
  },
  {
   "property": "C49",
   "status": "partial",
   "theorems": [
    "RgbdSlam.Keypoints.C49_no_grid_overrun_partial",
    "RgbdSlam.Keypoints.C49_portrait_overrun_false",
    "RgbdSlam.Keypoints.C49_only_candidates",
    "RgbdSlam.Keypoints.C49_all_candidates_partial",
    "RgbdSlam.Keypoints.C49_border_finds_nothing_false"
   ],
   "note": "Only candidates are considered (full). All candidates are considered at least one cell from the left/top border; nearer, nothing is found (C49_border_finds_nothing_false). No overrun for images at least as wide as high; C49_portrait_overrun_false for the others."
  },
  {
   "property": "C50",
   "status": "proved",
   "theorems": [
    "RgbdSlam.Keypoints.C50_lookup_returns_tracked_keypoint",
    "RgbdSlam.Keypoints.C50_flow_keeps_ids"
   ],
   "note": "The Lucas-Kanade flow itself is an arbitrary function."
  },
  {
   "property": "C51",
   "status": "partial",
   "theorems": [
    "RgbdSlam.Tum.C51_parse_images",
    "RgbdSlam.Tum.C51_parse_truth",
    "RgbdSlam.Tum.C51_association_partial",
    "RgbdSlam.Tum.C51_total",
    "RgbdSlam.Tum.C51_undefined_iff_crossed",
    "RgbdSlam.Tum.C51_order_undefined_false"
   ],
   "note": "Proved for all runs that return, with all orders of equal scores. The order of the sequence is false in general: when the greedy association crosses two pairs the comparison of the final sort is not an order and its behaviour is undefined (C51_order_undefined_false; exact condition C51_undefined_iff_crossed)."
  },
  {
   "property": "C52",
   "status": "proved",
   "theorems": [
    "RgbdSlam.Geometry.C52_basis",
    "RgbdSlam.Geometry.C52_orthogonal_projection",
    "RgbdSlam.Geometry.C52_recovered",
    "RgbdSlam.Geometry.C52_distances",
    "RgbdSlam.Geometry.C52_refused"
   ],
   "note": "Exact arithmetic. The basis computation is proved total on unit normals."
  },
  {
   "property": "C53",
   "status": "partial",
   "theorems": [
    "RgbdSlam.Geometry.C53_segment_partial",
    "RgbdSlam.Geometry.C53_line_partial",
    "RgbdSlam.Geometry.C53_distance_partial",
    "RgbdSlam.Geometry.C53_set_normal_false"
   ],
   "note": "Segments and constructed lines proved in every dimension. False after set_normal with a direction that is not unit: C53_set_normal_false."
  },
  {
   "property": "C54",
   "status": "proved",
   "theorems": [
    "RgbdSlam.Ransac.C54_random_in_range",
    "RgbdSlam.Ransac.C54_random_reaches_all",
    "RgbdSlam.Ransac.C54_empty_interval"
   ],
   "note": "Exact arithmetic; for 32-bit bounds the product in doubles stays below the bound too."
  },
  {
   "property": "C55",
   "status": "partial",
   "theorems": [
    "RgbdSlam.Covariance.C55_inverse_depth_updated",
    "RgbdSlam.Covariance.C55_point",
    "RgbdSlam.Covariance.C55_point_succeeds",
    "RgbdSlam.Covariance.C55_plane",
    "RgbdSlam.Covariance.C55_inverse_depth_partial",
    "RgbdSlam.Covariance.C55_inverse_depth_off_vertical",
    "RgbdSlam.Covariance.C55_inverse_depth_false"
   ],
   "note": "points and planes proved; false for inverse depth points straight above or below their first observation (C55_inverse_depth_false), proved elsewhere"
  },
  {
   "property": "C56",
   "status": "partial",
   "theorems": [
    "RgbdSlam.Optimizer.C56_built_iff",
    "RgbdSlam.Optimizer.C56_every_slot_written_partial",
    "RgbdSlam.Optimizer.C56_own_slots",
    "RgbdSlam.Optimizer.C56_matches",
    "RgbdSlam.Optimizer.C56_nan_false"
   ],
   "note": "false when a distance contains a NaN (C56_nan_false); proved for distances without NaN, hence for the three kinds of matches over the reals"
  },
  {
   "property": "C57",
   "status": "partial",
   "theorems": [
    "RgbdSlam.ConcaveHull.C57_sizes_partial",
    "RgbdSlam.ConcaveHull.C57_ends",
    "RgbdSlam.ConcaveHull.C57_larger_size_false",
    "RgbdSlam.ConcaveHull.C57_last_size_false"
   ],
   "note": "False of the code: size 3 is tried twice and 97 never (C57_larger_size_false, C57_last_size_false). Proved: the exact sequence of sizes, that only failures are retried, and when the search gives up. The neighbour search is an arbitrary function."
  },
  {
   "property": "C58",
   "status": "proved",
   "theorems": [
    "RgbdSlam.Map.C58_point_candidates",
    "RgbdSlam.Map.C58_plane_candidates",
    "RgbdSlam.Map.C58_second_search"
   ],
   "note": "2D points never give matches (C20), so the statement is about 3D points and planes."
  },
  {
   "property": "C59",
   "status": "partial",
   "theorems": [
    "RgbdSlam.Params.C59_intrinsics_frozen_false",
    "RgbdSlam.Params.C59_first_intrinsics_current_partial"
   ],
   "note": "C59_intrinsics_frozen_false: intrinsics are cached at first use, so a later configuration is ignored."
  },
  {
   "property": "C60",
   "status": "partial",
   "theorems": [
    "RgbdSlam.Keypoints.C60_wider_search_not_wider_false",
    "RgbdSlam.Keypoints.C60_as_wide_partial"
   ],
   "note": "False: C60_wider_search_not_wider_false shows the wide search considers a subset of the narrow one. Proved: away from the borders it considers all of them."
  },
  {
   "property": "C61",
   "status": "proved",
   "theorems": [
    "RgbdSlam.Keypoints.C61_match_iff_clear_winner"
   ],
   "note": ""
  },
  {
   "property": "C62",
   "status": "proved",
   "theorems": [
    "RgbdSlam.Map.C62_ids_unique_over_all_maps",
    "RgbdSlam.Map.C62_each_map_has_a_history",
    "RgbdSlam.Map.C62_exported_once"
   ],
   "note": ""
  },
  {
   "property": "C63",
   "status": "proved",
   "theorems": [
    "RgbdSlam.Map.C63_matches_complete",
    "RgbdSlam.Map.C63_matches_of_the_map"
   ],
   "note": ""
  },
  {
   "property": "C64",
   "status": "partial",
   "theorems": [
    "RgbdSlam.Map.C64_matched_keypoint_staged_elsewhere_false",
    "RgbdSlam.Map.C64_same_map_partial"
   ],
   "note": "False: C64_matched_keypoint_staged_elsewhere_false. Proved inside one map whose features have at most one match each."
  },
  {
   "property": "C65",
   "status": "partial",
   "theorems": [
    "RgbdSlam.Map.C65_frame_loop_keeps_running_partial",
    "RgbdSlam.Map.C65_frame_loop_terminated_false"
   ],
   "note": "Concrete for the point features in C130. Proved when merging a detection and copying a candidate do not fail (C65_frame_loop_terminated_false, C17_update_may_loop_false). The search grid is C49."
  },
  {
   "property": "C66",
   "status": "proved",
   "theorems": [
    "RgbdSlam.Map.C66_frame_loop_maps_reachable"
   ],
   "note": ""
  },
  {
   "property": "C67",
   "status": "partial",
   "theorems": [
    "RgbdSlam.Ransac.C67_success",
    "RgbdSlam.Ransac.C67_failure_unchanged_partial",
    "RgbdSlam.Ransac.C67_failure_changes_pose_false"
   ],
   "note": "False when only the variance estimation fails: C67_failure_changes_pose_false."
  },
  {
   "property": "C68",
   "status": "partial",
   "theorems": [
    "RgbdSlam.Primitives.C68_all_cells_present_partial",
    "RgbdSlam.Primitives.C68_counted_twice_false",
    "RgbdSlam.Primitives.C68_two_planes_false"
   ],
   "note": "False: C68_counted_twice_false, C68_two_planes_false. Proved: all cells are present in the representative."
  },
  {
   "property": "C69",
   "status": "proved",
   "theorems": [
    "RgbdSlam.PlaneSegment.C69_fit"
   ],
   "note": "For any solver that returns a unit eigenvector with its eigenvalue. Exact arithmetic."
  },
  {
   "property": "C70",
   "status": "partial",
   "theorems": [
    "RgbdSlam.PlaneSegment.C70_planar_cell_partial",
    "RgbdSlam.PlaneSegment.C70_first_pixel_false",
    "RgbdSlam.PlaneSegment.C70_last_pixel_false",
    "RgbdSlam.PlaneSegment.C70_no_out_of_bounds"
   ],
   "note": "False for the first pixel of the lines and the last pixel of the column: C70_first_pixel_false, C70_last_pixel_false."
  },
  {
   "property": "C71",
   "status": "proved",
   "theorems": [
    "RgbdSlam.Geometry.C71_camera_axes",
    "RgbdSlam.Geometry.C71_camera_centre"
   ],
   "note": ""
  },
  {
   "property": "C72",
   "status": "partial",
   "theorems": [
    "RgbdSlam.Geometry.C72_zero_on_match",
    "RgbdSlam.Geometry.C72_zero_means_same_plane_partial",
    "RgbdSlam.Geometry.C72_through_centre_false"
   ],
   "note": "Proved for planes that do not contain the camera centre; false for those that do: C72_through_centre_false."
  },
  {
   "property": "C73",
   "status": "proved",
   "theorems": [
    "RgbdSlam.Geometry.C73_projection",
    "RgbdSlam.Geometry.C73_same_place"
   ],
   "note": "Exact arithmetic. The repair of rings by the geometry library is not modelled."
  },
  {
   "property": "C74",
   "status": "proved",
   "theorems": [
    "RgbdSlam.Geometry.C74_to_world",
    "RgbdSlam.Geometry.C74_to_camera",
    "RgbdSlam.Geometry.C74_round_trip"
   ],
   "note": "Exact arithmetic. The repair of rings by the geometry library is not modelled."
  },
  {
   "property": "C75",
   "status": "partial",
   "theorems": [
    "RgbdSlam.Geometry.C75_offset_partial",
    "RgbdSlam.Geometry.C75_centre_at_origin_partial",
    "RgbdSlam.Geometry.C75_moved_false"
   ],
   "note": "False: C75_moved_false (the translation ignores the rotation of the centre). The exact offset is proved."
  },
  {
   "property": "C76",
   "status": "partial",
   "theorems": [
    "RgbdSlam.Geometry.C76_skew_partial",
    "RgbdSlam.Geometry.C76_parallel_length_partial",
    "RgbdSlam.Geometry.C76_parallel_direction_false"
   ],
   "note": "Proved for lines that are not parallel. For parallel lines only the length is right: C76_parallel_direction_false."
  },
  {
   "property": "C77",
   "status": "proved",
   "theorems": [
    "RgbdSlam.Geometry.C77_congruent",
    "RgbdSlam.Geometry.C77_range",
    "RgbdSlam.Geometry.C77_zero"
   ],
   "note": ""
  },
  {
   "property": "C78",
   "status": "partial",
   "theorems": [
    "RgbdSlam.Geometry.C78_unit_orientation_partial",
    "RgbdSlam.Geometry.C78_update_false"
   ],
   "note": "False for updates with quaternions that are not unit: C78_update_false. Proved otherwise."
  },
  {
   "property": "C79",
   "status": "partial",
   "theorems": [
    "RgbdSlam.Covariance.C79_moving_partial",
    "RgbdSlam.Covariance.C79_moving_false"
   ],
   "note": "false: the difference is compared without its absolute value (C79_moving_false); one direction proved, and both for detections on the negative side"
  },
  {
   "property": "C80",
   "status": "partial",
   "theorems": [
    "RgbdSlam.Covariance.C80_fused_plane_partial",
    "RgbdSlam.Covariance.C80_fused_plane_false"
   ],
   "note": "false: the normal is normalised and the distance is not (C80_fused_plane_false); proved parallel, and equal when the fused normal has length one or the plane passes through the origin"
  },
  {
   "property": "C81",
   "status": "proved",
   "theorems": [
    "RgbdSlam.Covariance.C81_spherical_to_cartesian",
    "RgbdSlam.Covariance.C81_cartesian_to_spherical",
    "RgbdSlam.Covariance.C81_inverse_depth_to_world",
    "RgbdSlam.Covariance.C81_world_to_inverse_depth",
    "RgbdSlam.Covariance.C81_camera_to_screen",
    "RgbdSlam.Covariance.C81_plane_reduction"
   ],
   "note": "on the open set where the angles do not jump"
  },
  {
   "property": "C82",
   "status": "partial",
   "theorems": [
    "RgbdSlam.Covariance.C82_screen_to_camera_partial",
    "RgbdSlam.Covariance.C82_screen_to_camera_false",
    "RgbdSlam.Covariance.C82_plane_normal_partial",
    "RgbdSlam.Covariance.C82_plane_distance_false"
   ],
   "note": "false left of or above the principal point, and for the distance of every plane; the other entries proved"
  },
  {
   "property": "C83",
   "status": "partial",
   "theorems": [
    "RgbdSlam.Optimizer.C83_same_axis_false",
    "RgbdSlam.Optimizer.C83_planar_partial"
   ],
   "note": "false in general (C83_same_axis_false); proved when all orientations are rotations around one axis"
  },
  {
   "property": "C84",
   "status": "proved",
   "theorems": [
    "RgbdSlam.Optimizer.C84_success",
    "RgbdSlam.Optimizer.C84_search_started"
   ],
   "note": "the minimiser is arbitrary"
  },
  {
   "property": "C85",
   "status": "partial",
   "theorems": [
    "RgbdSlam.Optimizer.C85_positions_partial",
    "RgbdSlam.Optimizer.C85_one_sided_partial",
    "RgbdSlam.Optimizer.C85_opposite_samples",
    "RgbdSlam.Optimizer.C85_angles_false"
   ],
   "note": "false for the angles (C85_angles_false); proved for positions and for rotations of one sign around the first axis"
  },
  {
   "property": "C86",
   "status": "partial",
   "theorems": [
    "RgbdSlam.Optimizer.C86_point_partial",
    "RgbdSlam.Optimizer.C86_plane",
    "RgbdSlam.Optimizer.C86_behind_false"
   ],
   "note": "false for points behind the camera (C86_behind_false); the rest proved"
  },
  {
   "property": "C87",
   "status": "partial",
   "theorems": [
    "RgbdSlam.Optimizer.C87_close_is_inlier_partial",
    "RgbdSlam.Optimizer.C87_far_inlier_false"
   ],
   "note": "false: the signed distance is compared without its absolute value (C87_far_inlier_false); one direction proved"
  },
  {
   "property": "C88",
   "status": "partial",
   "theorems": [
    "RgbdSlam.DepthMap.C88_identity_partial",
    "RgbdSlam.DepthMap.C88_border_false"
   ],
   "note": "False on the first row and column, which are always zeroed (C88_border_false). Proved for the other pixels."
  },
  {
   "property": "C89",
   "status": "partial",
   "theorems": [
    "RgbdSlam.DepthMap.C89_registered_partial",
    "RgbdSlam.DepthMap.C89_intrinsics_false"
   ],
   "note": "False when the intrinsics differ: those of the depth camera are never used (C89_intrinsics_false). Proved for equal intrinsics."
  },
  {
   "property": "C90",
   "status": "partial",
   "theorems": [
    "RgbdSlam.DepthMap.C90_outside_dropped_partial",
    "RgbdSlam.DepthMap.C90_left_false",
    "RgbdSlam.DepthMap.C90_zero_depth_exit_false"
   ],
   "note": "False left of and above the image, where a negative double is converted to unsigned (C90_left_false), and at depth zero, where the program exits (C90_zero_depth_exit_false). Proved when all projections have non negative coordinates."
  },
  {
   "property": "C91",
   "status": "partial",
   "theorems": [
    "RgbdSlam.DepthMap.C91_closest_false",
    "RgbdSlam.DepthMap.C91_depth_is_measured_partial"
   ],
   "note": "False: the last write wins, even sequentially (C91_closest_false). Proved: every non zero depth is the depth of some measured point that projects on the pixel."
  },
  {
   "property": "C92",
   "status": "partial",
   "theorems": [
    "RgbdSlam.DepthMap.C92_shared_slot_false",
    "RgbdSlam.DepthMap.C92_out_of_range_false",
    "RgbdSlam.DepthMap.C92_multiples_partial"
   ],
   "note": "False for sizes that are not multiples of the patch size (C92_shared_slot_false, C92_out_of_range_false); multiples are C39."
  },
  {
   "property": "C93",
   "status": "proved",
   "theorems": [
    "RgbdSlam.Tum.C93_no_closer_pair"
   ],
   "note": "For every run that returns."
  },
  {
   "property": "C94",
   "status": "partial",
   "theorems": [
    "RgbdSlam.Tum.C94_closest_remaining_partial",
    "RgbdSlam.Tum.C94_closest_false"
   ],
   "note": "False in general, an earlier frame may have taken the element (C94_closest_false). Proved among the elements that earlier frames did not take."
  },
  {
   "property": "C95",
   "status": "partial",
   "theorems": [
    "RgbdSlam.Tum.C95_start_index_false",
    "RgbdSlam.Tum.C95_shift_partial"
   ],
   "note": "False: the index only shifts which frames are jumped, the first frame is always considered (C95_start_index_false)."
  },
  {
   "property": "C96",
   "status": "proved",
   "theorems": [
    "RgbdSlam.Tum.C96_every_jth",
    "RgbdSlam.Tum.C96_in_order"
   ],
   "note": "For every dataset length and jump, when the user does not stop the program."
  },
  {
   "property": "C97",
   "status": "proved",
   "theorems": [
    "RgbdSlam.ConcaveHull.C97_ends",
    "RgbdSlam.ConcaveHull.C97_vertices"
   ],
   "note": "For any neighbour search that returns points still in the index."
  },
  {
   "property": "C98",
   "status": "partial",
   "theorems": [
    "RgbdSlam.ConcaveHull.C98_edges_apart_partial",
    "RgbdSlam.ConcaveHull.C98_last_edge_partial",
    "RgbdSlam.ConcaveHull.C98_edges_apart_false"
   ],
   "note": "False of the code: parallel edges may overlap (C98_edges_apart_false). Proved: edges that are not neighbours meet only when parallel up to the tolerance."
  },
  {
   "property": "C99",
   "status": "partial",
   "theorems": [
    "RgbdSlam.ConcaveHull.C99_enclosed_partial",
    "RgbdSlam.ConcaveHull.C99_enclosed_false"
   ],
   "note": "False of the code: a point whose ray meets no edge counts as inside (C99_enclosed_false). Proved: vertices, or an odd number of crossings, or none."
  },
  {
   "property": "C100",
   "status": "partial",
   "theorems": [
    "RgbdSlam.ConcaveHull.C100_closed_partial",
    "RgbdSlam.ConcaveHull.C100_closed_false"
   ],
   "note": "False of the code: when every point is a vertex the boundary is left open (C100_closed_false). Proved for boundaries with another number of vertices."
  },
  {
   "property": "C101",
   "status": "proved",
   "theorems": [
    "RgbdSlam.KeypointDetection.C101_depth_of_nearest_pixel",
    "RgbdSlam.KeypointDetection.C101_keypoints_have_their_depth",
    "RgbdSlam.KeypointDetection.C101_keypoints_in_order"
   ],
   "note": "Coordinates are exact rationals; half-way positions go to the larger pixel."
  },
  {
   "property": "C102",
   "status": "proved",
   "theorems": [
    "RgbdSlam.KeypointDetection.C102_still_tracked"
   ],
   "note": "The optical flow is an arbitrary function of the point."
  },
  {
   "property": "C103",
   "status": "partial",
   "theorems": [
    "RgbdSlam.KeypointDetection.C103_windows_partial",
    "RgbdSlam.KeypointDetection.C103_last_column_false"
   ],
   "note": "False when a side is not a multiple of 3, as the default 640 pixel width (C103_last_column_false). Proved: windows are disjoint, in the image, and exactly the last width%3 columns and height%3 rows are missed."
  },
  {
   "property": "C104",
   "status": "partial",
   "theorems": [
    "RgbdSlam.KeypointDetection.C104_quota_partial",
    "RgbdSlam.KeypointDetection.C104_equal_responses_false",
    "RgbdSlam.KeypointDetection.C104_more_than_maximum_false"
   ],
   "note": "False: keypoints of equal response are all kept (C104_equal_responses_false), and shares are per window so that unevenly tracked points exceed the maximum (C104_more_than_maximum_false). Proved for distinct responses: shares per window, at most 99 new keypoints."
  },
  {
   "property": "C105",
   "status": "proved",
   "theorems": [
    "RgbdSlam.KeypointDetection.C105_detected",
    "RgbdSlam.KeypointDetection.C105_schedule_independent",
    "RgbdSlam.KeypointDetection.C105_strongest"
   ],
   "note": "Detectors are arbitrary functions that answer inside their window; the sub-pixel refinement afterwards is not modelled. Fewer than 65536 tracked points."
  },
  {
   "property": "C106",
   "status": "proved",
   "theorems": [
    "RgbdSlam.KeypointDetection.C106_search_when_needed",
    "RgbdSlam.KeypointDetection.C106_first_call_tracks_nothing"
   ],
   "note": ""
  },
  {
   "property": "C107",
   "status": "proved",
   "theorems": [
    "RgbdSlam.PolygonOps.C107_area_up_to_date",
    "RgbdSlam.PolygonOps.C107_area_of_boundary"
   ],
   "note": "Union, intersection, simplification, repair and hulls of the geometry library are arbitrary functions; the only hypothesis on them is that a boundary it calls valid has at least three sides."
  },
  {
   "property": "C108",
   "status": "partial",
   "theorems": [
    "RgbdSlam.PolygonOps.C108_projected_on_normal_partial",
    "RgbdSlam.PolygonOps.C108_moved_to_normal_partial",
    "RgbdSlam.PolygonOps.C108_normal_refused",
    "RgbdSlam.PolygonOps.C108_projected_area_partial",
    "RgbdSlam.PolygonOps.C108_area_kept_partial",
    "RgbdSlam.PolygonOps.C108_transform_partial",
    "RgbdSlam.PolygonOps.C108_hole_lost_false"
   ],
   "note": "False for a polygon with a hole, which a union can give: every rebuild of the polygon drops the holes (C108_hole_lost_false). Proved for polygons without hole."
  },
  {
   "property": "C109",
   "status": "proved",
   "theorems": [
    "RgbdSlam.PolygonOps.C109_biggest_part"
   ],
   "note": "For any list of parts given by the geometry library, including the aliasing of the first part in the loop."
  },
  {
   "property": "C110",
   "status": "partial",
   "theorems": [
    "RgbdSlam.PolygonOps.C110_between_zero_and_one_partial",
    "RgbdSlam.PolygonOps.C110_itself_partial",
    "RgbdSlam.PolygonOps.C110_shared_area",
    "RgbdSlam.PolygonOps.C110_several_parts_false"
   ],
   "note": "False when the intersection or the union has several parts: only the biggest part of each is compared (C110_several_parts_false). Proved: between zero and one when each part of the intersection lies in a part of the union; one for a polygon and itself."
  },
  {
   "property": "C111",
   "status": "partial",
   "theorems": [
    "RgbdSlam.PolygonOps.C111_merge_keeps_area_partial",
    "RgbdSlam.PolygonOps.C111_simplify",
    "RgbdSlam.PolygonOps.C111_shrinks_false"
   ],
   "note": "False: the simplification that follows a merge can shrink the polygon (C111_shrinks_false). Proved: a merge never costs more than a quarter of the area, and a simplification neither."
  },
  {
   "property": "C112",
   "status": "partial",
   "theorems": [
    "RgbdSlam.PolygonOps.C112_visible_partial",
    "RgbdSlam.PolygonOps.C112_behind_false"
   ],
   "note": "False for a polygon behind the camera, which is declared visible (C112_behind_false). Proved: with no corner in the plane of the camera, visible exactly when the polygon of the pixels of the corners meets the image."
  },
  {
   "property": "C113",
   "status": "proved",
   "theorems": [
    "RgbdSlam.Refine.C113_boundary",
    "RgbdSlam.Refine.C113_kept",
    "RgbdSlam.Refine.C113_schedule"
   ],
   "note": "For images whose positive depths are above the double precision (a smaller positive depth throws in the back-projection inside a noexcept function). The polygon fitted to the points is C97-C100."
  },
  {
   "property": "C114",
   "status": "partial",
   "theorems": [
    "RgbdSlam.Refine.C114_kept_partial",
    "RgbdSlam.Refine.C114_core_kept_partial",
    "RgbdSlam.Refine.C114_whole_image_false"
   ],
   "note": "Exact for every mask that leaves a cell out once its gaps are filled. False for a cylinder that covers the whole grid: its eroded mask is constant and it is thrown away as if it were empty."
  },
  {
   "property": "C115",
   "status": "partial",
   "theorems": [
    "RgbdSlam.Refine.C115_directions",
    "RgbdSlam.Refine.C115_distances",
    "RgbdSlam.Refine.C115_similar_partial",
    "RgbdSlam.Refine.C115_opposite_sides_false",
    "RgbdSlam.Refine.C115_same_plane_false"
   ],
   "note": "The direction test is exact up to the sign of the normals, the distance test compares signed distances. Planes oriented the same way that are similar are near each other; with opposite normals the test accepts planes far apart, on both sides of the camera, and refuses the same plane seen from its other side."
  },
  {
   "property": "C116",
   "status": "proved",
   "theorems": [
    "RgbdSlam.Refine.C116_merge",
    "RgbdSlam.Refine.C116_tolerance",
    "RgbdSlam.Refine.C116_cells"
   ],
   "note": "Over the reals."
  },
  {
   "property": "C117",
   "status": "partial",
   "theorems": [
    "RgbdSlam.Refine.C117_symmetric_false",
    "RgbdSlam.Refine.C117_symmetric_partial"
   ],
   "note": "False: the distance test uses the plane of one patch and the mean point of the other. Proved: the two distances compared differ by at most the distance of the normals times the distance of the mean points."
  },
  {
   "property": "C118",
   "status": "proved",
   "theorems": [
    "RgbdSlam.Points2d.C118_kept_is_in_image",
    "RgbdSlam.Points2d.C118_in_frame_is_kept",
    "RgbdSlam.Points2d.C118_visible"
   ],
   "note": "The crossings of the segment with the border are an input: a list of all of them, each once, as boost::geometry::intersection gives them."
  },
  {
   "property": "C119",
   "status": "partial",
   "theorems": [
    "RgbdSlam.Points2d.C119_clamped_partial",
    "RgbdSlam.Points2d.C119_half_visible_false"
   ],
   "note": "False: a segment with one end inside and one end outside is always reduced to the point where it crosses the border. Proved when both ends are out of the frame, and when nothing is crossed."
  },
  {
   "property": "C120",
   "status": "partial",
   "theorems": [
    "RgbdSlam.Points2d.C120_promoted_partial",
    "RgbdSlam.Points2d.C120_uncertain_depth_false",
    "RgbdSlam.Points2d.C120_always_answers"
   ],
   "note": "False: the test multiplies the uncertainty by the cosine of the parallax angle, so that at a right angle any uncertainty is accepted. Proved: the exact test, the position and the covariance of the promoted point."
  },
  {
   "property": "C121",
   "status": "proved",
   "theorems": [
    "RgbdSlam.Points2d.C121_point",
    "RgbdSlam.Points2d.C121_plane",
    "RgbdSlam.Points2d.C121_point2d"
   ],
   "note": "The drawn numbers are inputs. A plane whose moved normal is null is excluded."
  },
  {
   "property": "C122",
   "status": "partial",
   "theorems": [
    "RgbdSlam.Map.C122_best_plane_partial",
    "RgbdSlam.Map.C122_no_candidate",
    "RgbdSlam.Map.C122_first_plane_false"
   ],
   "note": "False: the first detected plane of the frame is never matched, and hides the other candidates when it is the best. Proved for all the other detections."
  },
  {
   "property": "C123",
   "status": "proved",
   "theorems": [
    "RgbdSlam.Primitives.C123_masks",
    "RgbdSlam.Primitives.C123_disjoint",
    "RgbdSlam.Primitives.C123_covered"
   ],
   "note": "The masks before the morphological operations of the label image."
  },
  {
   "property": "C124",
   "status": "proved",
   "theorems": [
    "RgbdSlam.Primitives.C124_seeds"
   ],
   "note": "The plane errors are not negative."
  },
  {
   "property": "C125",
   "status": "proved",
   "theorems": [
    "RgbdSlam.Ransac.C125_early_stop",
    "RgbdSlam.Ransac.C125_not_skipped",
    "RgbdSlam.Ransac.C125_sequential"
   ],
   "note": "The sequential loop and every interleaving of the parallel one."
  },
  {
   "property": "C126",
   "status": "proved",
   "theorems": [
    "RgbdSlam.Cylinder.C126_best_hypothesis",
    "RgbdSlam.Cylinder.C126_nothing",
    "RgbdSlam.Cylinder.C126_sub_segments"
   ],
   "note": "The distances of the patches to a hypothesis are inputs, NaN included. The code compares with nine tenths the size of the set it has just replaced, so that the search stops one improvement late; the theorem allows for it."
  },
  {
   "property": "C127",
   "status": "proved",
   "theorems": [
    "RgbdSlam.CylinderFit.C127_least_squares",
    "RgbdSlam.CylinderFit.C127_exact_cylinder",
    "RgbdSlam.CylinderFit.C127_hypothesis",
    "RgbdSlam.CylinderFit.C127_all_inliers",
    "RgbdSlam.CylinderFit.C127_axis",
    "RgbdSlam.CylinderFit.C127_projected_patch"
   ],
   "note": "Over the reals. The eigenvalue solver is represented by what it computes: the null directions of the covariance."
  },
  {
   "property": "C128",
   "status": "proved",
   "theorems": [
    "RgbdSlam.CylinderFit.C128_distance",
    "RgbdSlam.CylinderFit.C128_smallest"
   ],
   "note": "Over the reals."
  },
  {
   "property": "C129",
   "status": "partial",
   "theorems": [
    "RgbdSlam.CylinderFit.C129_distance_false",
    "RgbdSlam.CylinderFit.C129_similar_partial",
    "RgbdSlam.CylinderFit.C129_angle_partial"
   ],
   "note": "False for the distance: a cylinder shape answers 0 for every point. Proved for similarity."
  },
  {
   "property": "C130",
   "status": "proved",
   "theorems": [
    "RgbdSlam.Updates.C130_new_point",
    "RgbdSlam.Updates.C130_new_point2d",
    "RgbdSlam.Updates.C130_copied",
    "RgbdSlam.Updates.C130_upgraded",
    "RgbdSlam.Updates.C130_bad_pose",
    "RgbdSlam.Updates.C130_failed_update",
    "RgbdSlam.Updates.C130_point_updated",
    "RgbdSlam.Updates.C130_point2d_updated",
    "RgbdSlam.Updates.C130_outside_terminates",
    "RgbdSlam.Updates.C130_points_keep_running"
   ],
   "note": "The updates of planes are assumed to return (C131); the pose covariance is assumed exactly symmetric, as the program computes it. The pseudo inverse of Eigen is assumed to be one."
  },
  {
   "property": "C131",
   "status": "partial",
   "theorems": [
    "RgbdSlam.Updates.C131_new_plane",
    "RgbdSlam.Updates.C131_plane_updated_partial",
    "RgbdSlam.Updates.C131_plane_not_refused",
    "RgbdSlam.Updates.C131_opposite_side_false"
   ],
   "note": "Every update returns and keeps the plane well formed, unless the weighted mean of the two normals is zero, when the program is ended. The matching ignores the sign of the normal, so a plane close to the camera can be matched with its other side (C131_opposite_side_false). The merge of boundaries by boost is assumed to return."
  },
  {
   "property": "C132",
   "status": "proved",
   "theorems": [
    "RgbdSlam.Map.C132_no_drop",
    "RgbdSlam.Map.C132_followed_points",
    "RgbdSlam.Map.C132_inactive",
    "RgbdSlam.Map.C132_ids",
    "RgbdSlam.Map.C132_found_again",
    "RgbdSlam.Map.C132_positions"
   ],
   "note": ""
  },
  {
   "property": "C133",
   "status": "partial",
   "theorems": [
    "RgbdSlam.Map.C133_same_numbers_partial",
    "RgbdSlam.Map.C133_refreshed_false"
   ],
   "note": "The code disagrees: the generator is local to the thread and every frame follows the points in a new thread, so the numbers start again in every frame; number i of the followable points is left out in all frames or in none. Proved: exactly which ones are left out."
  },
  {
   "property": "C134",
   "status": "proved",
   "theorems": [
    "RgbdSlam.Updates.C134_point_match",
    "RgbdSlam.Updates.C134_plane_match",
    "RgbdSlam.Updates.C134_new_plane_match",
    "RgbdSlam.Updates.C134_deviations",
    "RgbdSlam.Updates.C134_valid_iff",
    "RgbdSlam.Updates.C134_planes",
    "RgbdSlam.Updates.C134_never_refused",
    "RgbdSlam.Updates.C134_one_refuses_all"
   ],
   "note": "Real arithmetic; the covariances of points are those of C130, planes are those accepted by the constructor, by the copy or kept by C131."
  },
  {
   "property": "C135",
   "status": "partial",
   "theorems": [
    "RgbdSlam.P3p.C135_at_most_four",
    "RgbdSlam.P3p.C135_refine_step",
    "RgbdSlam.P3p.C135_sound_partial",
    "RgbdSlam.P3p.C135_sound_false"
   ],
   "note": "The code disagrees: discriminants down to -1e-12 are clipped to zero and lengths whose residuals sum to less than 1e-10 are accepted, both absolute bounds; on points a millionth apart a matrix that is not a rotation is returned. Proved: every pose that does not come from a clipped discriminant solves the problem exactly, and at most four poses are returned. A pose with entries that are not finite numbers counts as not returned."
  },
  {
   "property": "C136",
   "status": "partial",
   "theorems": [
    "RgbdSlam.P3p.C136_complete_partial",
    "RgbdSlam.P3p.C136_symmetric_missed",
    "RgbdSlam.P3p.C136_complete_false"
   ],
   "note": "The code disagrees: when the first two points are placed and seen alike with respect to the third (an isosceles triangle seen from its plane of symmetry), the leading coefficient of the cubic is zero and no pose with finite entries is returned. Proved: every pose is returned when no number on the way is undefined and the roots are equal or not too close."
  },
  {
   "property": "C137",
   "status": "partial",
   "theorems": [
    "RgbdSlam.Angles.C137_offset_partial",
    "RgbdSlam.Angles.C137_offset_false"
   ],
   "note": "The code disagrees: EulerAngles takes yaw, pitch, roll and is given the offsets x, y, z, so that the angle configured around x turns the camera around z and conversely. Proved: the translation is the configured one, the rotation is the product of the rotations of rz around x, ry around y and rx around z, and it is the configured one when both angles are equal."
  },
  {
   "property": "C138",
   "status": "proved",
   "theorems": [
    "RgbdSlam.Angles.C138_matrix_of_angles",
    "RgbdSlam.Angles.C138_euler_round_trip"
   ],
   "note": "The function of Eigen that finds the angles is only assumed to meet its documentation; such a function is shown to exist."
  },
  {
   "property": "C139",
   "status": "proved",
   "theorems": [
    "RgbdSlam.Angles.C139_rotation_error",
    "RgbdSlam.Angles.C139_rotation_error_distance",
    "RgbdSlam.Angles.C139_position_error"
   ],
   "note": "Orientations are unit quaternions; real arithmetic."
  },
  {
   "property": "C140",
   "status": "partial",
   "theorems": [
    "RgbdSlam.TumRun.C140_association_partial",
    "RgbdSlam.TumRun.C140_association_false"
   ],
   "note": "The code disagrees: with an association file, only a ground truth with exactly the time of the colour image is found. Proved: the frames are the complete lines in order, with the first ground truth of exactly this time."
  },
  {
   "property": "C141",
   "status": "proved",
   "theorems": [
    "RgbdSlam.TumRun.C141_trajectory",
    "RgbdSlam.TumRun.C141_ends"
   ],
   "note": "The tracker is any state machine. The angles of a line describe the orientation when it is a unit quaternion. The program ends with a report when images that can be read have the size of the camera and the tracker answers."
  },
  {
   "property": "C142",
   "status": "partial",
   "theorems": [
    "RgbdSlam.TumRun.C142_error_partial",
    "RgbdSlam.TumRun.C142_error_false"
   ],
   "note": "The code disagrees: the positions of the files are in metres and are compared with the millimetres of the tracker, so that a perfect tracker is reported wrong by 999 thousandths of its distance to the origin. Proved: when an error is reported, and that it is the distance to the numbers of the file and the angle to its orientation."
  },
  {
   "property": "C143",
   "status": "partial",
   "theorems": [
    "RgbdSlam.TumRun.C143_start_partial",
    "RgbdSlam.TumRun.C143_start_false"
   ],
   "note": "The code disagrees: the position of the file, in metres, is taken for millimetres; the start is right only at the origin. Proved: the orientation is that of the file, the position the numbers of the file; the default pose without ground truth."
  },
  {
   "property": "C144",
   "status": "partial",
   "theorems": [
    "RgbdSlam.PolygonRepair.C144_open_false",
    "RgbdSlam.PolygonRepair.C144_crossings_partial",
    "RgbdSlam.PolygonRepair.C144_table_complete",
    "RgbdSlam.PolygonRepair.C144_no_crossing",
    "RgbdSlam.PolygonRepair.C144_one_crossing_partial",
    "RgbdSlam.PolygonRepair.C144_dropped_false",
    "RgbdSlam.PolygonRepair.C144_area_false",
    "RgbdSlam.PolygonRepair.C144_dangling_false"
   ],
   "note": "Proved: the tables are complete for all outlines, the result without crossing, the exact result (two closed loops whose areas add up) for one kept crossing, and for any number of crossings in general position that are all kept: the walk ends, the loops are closed and their areas add up. False in general: crossings further from the starts of both edges than these are from each other are dropped (the outline then still crosses itself, or the areas do not add up), a list of points that is not closed is returned, and a reference to an erased point is read. Missing: crossings at a corner or at the same point."
  },
  {
   "property": "C145",
   "status": "partial",
   "theorems": [
    "RgbdSlam.PolygonRepair.C145_non_zero_winding_partial",
    "RgbdSlam.PolygonRepair.C145_three_nested_false",
    "RgbdSlam.PolygonRepair.C145_four_nested_false"
   ],
   "note": "Proved when no three loops are nested, for all lists of loops that are nested or apart. False with three nested loops (the innermost one is cut out although it turns -1 times) and with four (filled although it turns 0 times)."
  },
  {
   "property": "C146",
   "status": "proved",
   "theorems": [
    "RgbdSlam.PolygonRepair.C146_covered",
    "RgbdSlam.PolygonRepair.C146_apart",
    "RgbdSlam.PolygonRepair.C146_count"
   ],
   "note": "Boost union_ and intersects are parameters with the assumptions in the statements."
  },
  {
   "property": "C147",
   "status": "proved",
   "theorems": [
    "RgbdSlam.Lsd.C147_directions",
    "RgbdSlam.Lsd.C147_regions",
    "RgbdSlam.Lsd.C147_aligned"
   ],
   "note": "The arc tangent of opencv is a parameter; C147_aligned and C147_directions ask it to be exact. Reals for doubles. The blur and the reduction of the image are not modelled: the theorems hold for any reduced image."
  },
  {
   "property": "C148",
   "status": "partial",
   "theorems": [
    "RgbdSlam.Lsd.C148_returns",
    "RgbdSlam.Lsd.C148_segments",
    "RgbdSlam.Lsd.C148_direction_false",
    "RgbdSlam.Lsd.C148_direction_partial"
   ],
   "note": "C148_returns holds for any arc tangent. C148_segments: best line, covering, ends reached, for an exact arc tangent. C148_direction_false: the direction of the segment is turned by half a turn as soon as it is more than 22.5 degrees away from the mean direction of the pixels, so that the segment of a group that is wider than it is long along its direction can go the opposite way; a ramp of 7 by 2 pixels does this. C148_direction_partial: when the segment is along or against the mean direction up to 22.5 degrees, it goes along. The refinements of the detector are not modelled, the program does not use them."
  },
  {
   "property": "C149",
   "status": "partial",
   "theorems": [
    "RgbdSlam.Lsd.C149_display_partial",
    "RgbdSlam.Lsd.C149_display_false"
   ],
   "note": "C149_display_false: the ends of a segment can be out of the image, since they are the extreme projections on a line drawn to the strongest pixels; an image of 8 by 8 pixels (reduced from 27 by 27) gives a segment that ends two rows above the image, whose mask is read out of bounds. C149_display_partial: when both ends are in the image, all reads are, with the rounding of opencv to even, and the three colours say what they should. The whole display is only compiled with USE_LINE_DETECTION."
  },
  {
   "property": "C150",
   "status": "partial",
   "theorems": [
    "RgbdSlam.Logger.C150_one_level_partial",
    "RgbdSlam.Logger.C150_output",
    "RgbdSlam.Logger.C150_error_partial",
    "RgbdSlam.Logger.C150_no_deadlock",
    "RgbdSlam.Logger.C150_ends",
    "RgbdSlam.Logger.C150_error_false"
   ],
   "note": "Proved for the standard output, and for the standard error when only one of the two functions writes to it; no deadlock, and every schedule has eleven steps for each call. False for the standard error in general: log_warning and log_error have different mutexes, a warning and an error can be mixed within a line."
  },
  {
   "property": "C151",
   "status": "partial",
   "theorems": [
    "RgbdSlam.Geodesic.C151_iterations",
    "RgbdSlam.Geodesic.C151_reconstruction_partial",
    "RgbdSlam.Geodesic.C151_reconstruction_false",
    "RgbdSlam.Geodesic.C151_erosion",
    "RgbdSlam.Geodesic.C151_erosion_reconstruction"
   ],
   "note": "Proved, with a bound on the number of turns, for every structuring element that contains its anchor, and for every element when the number of iterations is not negative. False in general: the reconstruction with an element without its anchor can run for ever."
  },
  {
   "property": "C152",
   "status": "partial",
   "theorems": [
    "RgbdSlam.Geodesic.C152_kept_partial",
    "RgbdSlam.Geodesic.C152_filled_partial",
    "RgbdSlam.Geodesic.C152_memory_false",
    "RgbdSlam.Geodesic.C152_side_false"
   ],
   "note": "False twice: the marker image is created without a value and only its border is written, so holes can stay unfilled depending on what the memory held; the two sides are given the corner values of the last row, so what is open to a side only can be filled. Proved: it returns, no pixel gets darker, what is joined to the first or last row is kept; and the full property when the memory held zeros and no pixel of a side is darker than the last one of that side."
  },
  {
   "property": "C153",
   "status": "partial",
   "theorems": [
    "RgbdSlam.CapeRun.C153_frames_partial",
    "RgbdSlam.CapeRun.C153_ends",
    "RgbdSlam.CapeRun.C153_negative_false"
   ],
   "note": "False of the code for a negative index option, which is taken for a number near 2^32: a dataset with frames 0 to 999 is not read at all (C153_negative_false). Proved for the others, with any dataset that ends below 2^32."
  },
  {
   "property": "C154",
   "status": "partial",
   "theorems": [
    "RgbdSlam.CapeRun.C154_names_partial",
    "RgbdSlam.CapeRun.C154_shifted_partial",
    "RgbdSlam.CapeRun.C154_time_false"
   ],
   "note": "False of the code: hour, minute and second are one too many, up to 24:60:60 (C154_time_false). Proved: names of different datasets or seconds differ, and the name is exactly the stamp shifted by one hour, one minute and one second."
  },
  {
   "property": "C155",
   "status": "partial",
   "theorems": [
    "RgbdSlam.ConcaveHull.C155_once_partial",
    "RgbdSlam.ConcaveHull.C155_order_false"
   ],
   "note": "Proved for points whose coordinates are pairwise equal or more than 2^-52 apart: every outcome of the sort gives the same places, each once. False in general: the comparison with a tolerance is not a strict weak order on (1, 0), (1 + 2^-52, 0), (1 + 2^-51, 0), and the behaviour of std::sort is undefined."
  },
  {
   "property": "C156",
   "status": "partial",
   "theorems": [
    "RgbdSlam.ConcaveHull.C156_constant_partial",
    "RgbdSlam.ConcaveHull.C156_constant_false"
   ],
   "note": "Proved when the points, once sorted, are numbered by their places. False in general: the sort does not renumber the points, and the first vertex is removed from the index by its old number, so another point is lost (C156_constant_false: a boundary is returned that leaves (2, 3) outside). Polygon::compute_concave_hull calls the other overload, which keeps duplicates."
  },
  {
   "property": "C157",
   "status": "partial",
   "theorems": [
    "RgbdSlam.ConcaveHull.C157_order_partial",
    "RgbdSlam.ConcaveHull.C157_sorted_partial",
    "RgbdSlam.ConcaveHull.C157_order_false"
   ],
   "note": "Proved for every outcome of the sort: a permutation of the candidates, by increasing turn up to 2^-52; the sort is defined when turns are equal or more than 2^-52 apart. False in general: on three candidates one tolerance apart the comparison is not a strict weak order and the behaviour is undefined (C157_order_false). Angles are real numbers."
  },
  {
   "property": "C158",
   "status": "partial",
   "theorems": [
    "RgbdSlam.Crossing.C158_segments_partial",
    "RgbdSlam.Crossing.C158_lines_partial",
    "RgbdSlam.Crossing.C158_lines_false",
    "RgbdSlam.Crossing.C158_empty_false"
   ],
   "note": "Proved for segments, and for lines whose common point is in front of both starts and at most 100 away, assuming that boost::geometry::intersection tells by its return value whether it found points; whatever is found is on both lines. False in general: lines that meet behind a start are not found (C158_lines_false), and if boost returns true without a point, as clamp_to_screen of the same file provides for, the first element of an empty vector is read (C158_empty_false)."
  },
  {
   "property": "C159",
   "status": "proved",
   "theorems": [
    "RgbdSlam.Lsd.C159_lines",
    "RgbdSlam.Lsd.C159_released",
    "RgbdSlam.Lsd.C159_dense"
   ],
   "note": "The result does not depend on the fuel once there is enough. The blur, the resize, fastAtan2 (a parameter, exact for the best line) and the rounding of doubles are not modelled. The program itself uses the detector without refinement (C147, C148)."
  },
  {
   "property": "C160",
   "status": "partial",
   "theorems": [
    "RgbdSlam.Lsd.C160_detected_partial",
    "RgbdSlam.Lsd.C160_meaningful_partial",
    "RgbdSlam.Lsd.C160_shifted_partial",
    "RgbdSlam.Lsd.C160_tiny_partial",
    "RgbdSlam.Lsd.C160_meaningful_false"
   ],
   "note": "Proved exact when no pixel or every pixel is aligned. In all other cases, proved that the value is the wanted one for a probability multiplied by e^(n+1)/n! and known up to the ten percent of the code (C160_shifted_partial); and the lines found with this refinement are shown to meet the bound so shifted (C160_detected_partial). False otherwise: the first term has n + 1 where it needs the logarithm of n factorial; for one aligned pixel of two with probability 1/2 the value is too small by more than one (C160_meaningful_false). The program does not use this refinement."
  },
  {
   "property": "C161",
   "status": "proved",
   "theorems": [
    "RgbdSlam.RandomThreads.C161_threads",
    "RgbdSlam.RandomThreads.C161_new_thread"
   ],
   "note": "The engines of the standard library are an arbitrary state machine; every interleaving of requests of any number of threads."
  },
  {
   "property": "C162",
   "status": "partial",
   "theorems": [
    "RgbdSlam.RandomThreads.C162_false",
    "RgbdSlam.RandomThreads.C162_partial",
    "RgbdSlam.RandomThreads.C162_tried_partial"
   ],
   "note": "Proved for one thread, where the iterations use successive numbers. False for several threads: all of them start from the same seed, so the first iterations of two threads always draw the same subset (C162_false), and a search tries no more subsets than its busiest thread has iterations (C162_tried_partial)."
  },
  {
   "property": "C163",
   "status": "proved",
   "theorems": [
    "RgbdSlam.Detector.C163_history",
    "RgbdSlam.Detector.C163_frame",
    "RgbdSlam.Detector.C163_detect"
   ],
   "note": "For any history of frames, with the numeric fits and eigenvalues as arbitrary functions of the points of the frame; equal to the detection modelled for C41 to C48."
  },
  {
   "property": "C164",
   "status": "partial",
   "theorems": [
    "RgbdSlam.KeypointStatics.C164_partial",
    "RgbdSlam.KeypointStatics.C164_smaller_false",
    "RgbdSlam.KeypointStatics.C164_bigger_false"
   ],
   "note": "Proved for trackers with images of one size. False otherwise: the sizes of the windows and of the mask are static and keep the values of the first tracker, so a tracker for smaller images ends the program at the first search without tracked points (C164_smaller_false), and one for larger images never finds a keypoint out of the size of the first images (C164_bigger_false)."
  },
  {
   "property": "C165",
   "status": "proved",
   "theorems": [
    "RgbdSlam.Keypoints.C165_history",
    "RgbdSlam.Keypoints.C165_always",
    "RgbdSlam.Keypoints.C165_any_sizes"
   ],
   "note": "Equality of the whole handler for images of one size; equality of keypoints, descriptors and identifiers for any sizes."
  },
  {
   "property": "C166",
   "status": "proved",
   "theorems": [
    "RgbdSlam.PlaneSegment.C166_covariance",
    "RgbdSlam.PlaneSegment.C166_added"
   ],
   "note": "For exact arithmetic, any eigenvalue solver and any tolerance of the determinant test."
  },
  {
   "property": "C167",
   "status": "partial",
   "theorems": [
    "RgbdSlam.Drawing.C167_point",
    "RgbdSlam.Drawing.C167_point2d",
    "RgbdSlam.Drawing.C167_plane_partial",
    "RgbdSlam.Drawing.C167_close_plane_false",
    "RgbdSlam.Drawing.C167_behind_camera_false",
    "RgbdSlam.Drawing.C167_map"
   ],
   "note": "Points, points without depth and maps proved in full. Planes: the lines are those of the sides in front of the camera, when their pixels fit an int. False otherwise: a matched plane that passes beside the camera gives the conversion of a number out of the int range (C167_close_plane_false). A point without depth that is behind the camera is drawn in the image as if it were in front (C167_behind_camera_false)."
  },
  {
   "property": "C168",
   "status": "partial",
   "theorems": [
    "RgbdSlam.Lsd.C168_counted_partial",
    "RgbdSlam.Lsd.C168_flat_false",
    "RgbdSlam.Lsd.C168_slanted_false"
   ],
   "note": "Proved that the count ends without a failing assertion, that the pixels counted are pixels of the image in the rows of the rectangle, and that each is counted once. False otherwise: the second step of each side reads a column for a row and the quotients are those of integers; of a flat line only the first column of pixels is counted, however long it is (C168_flat_false), and of a slanted rectangle some pixels are left out and others out of it are counted (C168_slanted_false). The program does not use this refinement."
  },
  {
   "property": "C169",
   "status": "proved",
   "theorems": [
    "RgbdSlam.Lsd.C169_improve"
   ],
   "note": "Over the reals, for the value that the code computes. The program does not use this refinement."
  },
  {
   "property": "C170",
   "status": "proved",
   "theorems": [
    "RgbdSlam.Lsd.C170_lines",
    "RgbdSlam.Lsd.C170_kept"
   ],
   "note": "Over the reals, with an exact arc tangent, on the resized image. The program does not use this refinement."
  },
  {
   "property": "C171",
   "status": "partial",
   "theorems": [
    "RgbdSlam.Lsd.C171_keylines_partial",
    "RgbdSlam.Lsd.C171_not_empty",
    "RgbdSlam.Lsd.C171_no_mask_false",
    "RgbdSlam.Lsd.C171_scale_false",
    "RgbdSlam.Lsd.C171_size_false"
   ],
   "note": "Proved for the reduction factor 2, with a mask, for images that can be halved that often; no image of the pyramid is empty (C171_not_empty). False otherwise: without a mask an assertion fails, it compares the mask with an image that is still empty (C171_no_mask_false); with a factor of 3 or more opencv throws (C171_scale_false); the size is negative for a line that goes up to the right (C171_size_false). The program does not use this function."
  },
  {
   "property": "C172",
   "status": "partial",
   "theorems": [
    "RgbdSlam.Lsd.C172_compare_partial",
    "RgbdSlam.Lsd.C172_distance_partial",
    "RgbdSlam.Lsd.C172_canvas_partial",
    "RgbdSlam.Lsd.C172_empty_false"
   ],
   "note": "Proved for sets with lines; the pixels that opencv draws for a line are a parameter. False for an empty set: the matrix made of it has no type and an assertion fails (C172_empty_false). The program does not use this function."
  },
  {
   "property": "C173",
   "status": "proved",
   "theorems": [
    "RgbdSlam.Map.Checked.C173_no_assertion_fails",
    "RgbdSlam.Map.Checked.C173_no_assertion_fails_total",
    "RgbdSlam.Map.Checked.C173_other_detections_refused",
    "RgbdSlam.Map.Checked.C173_new_map_undefined",
    "RgbdSlam.Map.Checked.C173_foreign_outlier_undefined"
   ],
   "note": "Refinement: the frame loop on the maps with all assertions and index checks (Model/CheckedMap) runs exactly as the frame loop without them; with the hypotheses of C65 it always runs. The two last theorems show what happens outside the frame loop: a first call of update or add_all_features_to_map on a new map reads an id without value, and an outlier that is not a match of the frame can write a flag out of range."
  },
  {
   "property": "C174",
   "status": "partial",
   "theorems": [
    "RgbdSlam.Statistics.C174_printed_means",
    "RgbdSlam.Statistics.C174_percentages_partial",
    "RgbdSlam.Statistics.C174_percentages_false",
    "RgbdSlam.Statistics.C174_total_false",
    "RgbdSlam.Statistics.C174_details_partial",
    "RgbdSlam.Statistics.C174_details_false"
   ],
   "note": "False with several objects in the process: the counters of the pose optimisation are static, so an object that has computed no pose prints the time of the others (C174_percentages_false). The two detections run at the same time, so that all the lines together can exceed 100 percent (C174_total_false), and so can the details of the pose optimisation when its iterations run at the same time (C174_details_false). The line of the line extraction is always zero: it is never measured. Rounding of the numbers and lost updates of the static counters by two threads are not modelled."
  },
  {
   "property": "C175",
   "status": "partial",
   "theorems": [
    "RgbdSlam.RansacCount.C175_pose_tries",
    "RgbdSlam.RansacCount.C175_cylinder_tries_partial",
    "RgbdSlam.RansacCount.C175_pose_default",
    "RgbdSlam.RansacCount.C175_cylinder_tries_false",
    "RgbdSlam.RansacCount.C175_accepted_partial",
    "RgbdSlam.RansacCount.C175_accepted_false",
    "RgbdSlam.RansacCount.C175_cylinder_accepted_false"
   ],
   "note": "Proved for the search of the pose with settings strictly inside their ranges (119 tries with the settings of the program). False of the search of cylinders, whose quotient is cut instead of rounded up: 43 tries, one less than needed (C175_cylinder_tries_false). The ends of the ranges are accepted and give a search that always gives up or an undefined number of tries (C175_accepted_false); the check of the cylinder probability accepts everything, and a small probability stops the program (C175_cylinder_accepted_false). Rounding of the floats is not modelled."
  },
  {
   "property": "C176",
   "status": "partial",
   "theorems": [
    "RgbdSlam.PolygonRepair.C176_winding_partial",
    "RgbdSlam.PolygonRepair.C176_dropped_false"
   ],
   "note": "Proved for outlines in general position whose crossings are all kept, with any number of crossings: the sum over the loops, those without area included. False when crossings are dropped: around the middle of a star the pieces turn three times and the outline twice. Missing: crossings at the same point or at a corner."
  },
  {
   "property": "C177",
   "status": "partial",
   "theorems": [
    "RgbdSlam.PolygonRepair.C177_odd_even_partial",
    "RgbdSlam.PolygonRepair.C177_several_partial",
    "RgbdSlam.PolygonRepair.C177_flat_false",
    "RgbdSlam.PolygonRepair.C177_outline_partial"
   ],
   "note": "Proved for all polygons whose outline has a loop with an area, for any number of loops, holes and polygons, for all unions given by their sets of points; and for an outline in general position from its corners on (C177_outline_partial). False when the outline has no area: its holes are lost instead of being kept."
  },
  {
   "property": "C178",
   "status": "partial",
   "theorems": [
    "RgbdSlam.PolygonRepair.C178_holes_partial",
    "RgbdSlam.PolygonRepair.C178_nested_false"
   ],
   "note": "Proved when no three loops of an outline or of a hole are nested (the same limit as C145). False otherwise: a loop around which the outline turns once is cut out."
  },
  {
   "property": "C179",
   "status": "partial",
   "theorems": [
    "RgbdSlam.PolygonOps.C179_fit_partial",
    "RgbdSlam.PolygonOps.C179_repaired_false"
   ],
   "note": "Proved but for one case. False otherwise: when the repair of an invalid concave hull gives an invalid polygon first, this polygon is used, although the other polygons of the repair and the convex hull are valid (C179_repaired_false). The library is a parameter of the model."
  },
  {
   "property": "C180",
   "status": "proved",
   "theorems": [
    "RgbdSlam.Covariance.C180_best_compromise"
   ],
   "note": "exact real arithmetic; the covariance of the detection has no null direction, which the inverse needs; the pseudo inverse of Eigen is any matrix meeting the Moore-Penrose equations"
  },
  {
   "property": "C181",
   "status": "proved",
   "theorems": [
    "RgbdSlam.Covariance.C181_converges",
    "RgbdSlam.Covariance.C181_limit"
   ],
   "note": "exact real arithmetic; for the filter of the map points, whose process noise is 0.001"
  },
  {
   "property": "C182",
   "status": "partial",
   "theorems": [
    "RgbdSlam.WorldFrame.C182_errors",
    "RgbdSlam.WorldFrame.C182_inliers",
    "RgbdSlam.WorldFrame.C182_fused_partial",
    "RgbdSlam.WorldFrame.C182_moving_false",
    "RgbdSlam.WorldFrame.C182_plane_false"
   ],
   "note": "exact real arithmetic. The errors of the matches and the inliers do not depend on the world frame, nor does the fused point and its covariance. False of the code: whether a point is declared moving depends on the directions of the axes, because each coordinate is compared with its own deviation (C182_moving_false); the fused plane depends on the origin, because the same noise is added to the normal and to the distance to the origin (C182_plane_false)"
  },
  {
   "property": "C183",
   "status": "proved",
   "theorems": [
    "RgbdSlam.Lsd.C183_strongest_first",
    "RgbdSlam.Lsd.C183_exact_false"
   ],
   "note": "exact real arithmetic, on the image once blurred and resized by opencv; std::sort is any function that gives a sorted permutation. C183_exact_false: within a bin a weaker pixel may be taken before a stronger one, with the 1024 bins of the program too"
  },
  {
   "property": "C184",
   "status": "partial",
   "theorems": [
    "RgbdSlam.Map.C184_matches_partial",
    "RgbdSlam.Map.C184_history_partial",
    "RgbdSlam.Map.C184_update",
    "RgbdSlam.Map.C184_points_partial",
    "RgbdSlam.Map.C184_points2d_partial",
    "RgbdSlam.Map.C184_order_matters_false"
   ],
   "note": "Proved for all histories that differ by reorderings of the tables, under the hypothesis that no two features compete for a detection whenever matches are searched (C184_history_partial); the update of the map never depends on the order (C184_update). The hypothesis is established for the point maps when the points project more than 60 pixels apart, or are tracked. Without it the claim is false: C184_order_matters_false gives the only keypoint of a frame to the feature that happens to be visited first."
  },
  {
   "property": "C185",
   "status": "partial",
   "theorems": [
    "RgbdSlam.Map.C185_still_camera_partial",
    "RgbdSlam.Map.C185_border_false"
   ],
   "note": "False within 31 pixels of the left and the top border: a keypoint there is not recognised on the next frame and becomes a new candidate with a new id (C185_border_false, witness with six keypoints). Proved when every map point projects at least 31 pixels from these borders, for every number of frames."
  },
  {
   "property": "C186",
   "status": "proved",
   "theorems": [
    "RgbdSlam.Ransac.C186_all_kept",
    "RgbdSlam.Ransac.C186_all_kept_deterministic",
    "RgbdSlam.Ransac.C186_pose_optimised",
    "RgbdSlam.Map.C186_still_camera"
   ],
   "note": "Both builds; then compute_optimized_pose, and the case of the still camera of C185, whose hypothesis on the optimiser is discharged."
  },
  {
   "property": "C187",
   "status": "partial",
   "theorems": [
    "RgbdSlam.Map.C187_moving_camera_partial"
   ],
   "note": "Landscape images, points at least 31 pixels away from the left and the top border when they are detected anew (C185_border_false shows why), and no plane. The keypoints of every frame are the same scene points in the same order."
  },
  {
   "property": "C188",
   "status": "proved",
   "theorems": [
    "RgbdSlam.Covariance.C188_converges",
    "RgbdSlam.Covariance.C188_limit",
    "RgbdSlam.Covariance.C188_merged_or_above"
   ],
   "note": "C188_converges with the explicit rate, C188_limit, and C188_merged_or_above for the only case in which a merge fails. Exact arithmetic; the pseudo inverse of Eigen is a parameter with the Moore-Penrose equations. The example merges a point any number of times."
  },
  {
   "property": "C189",
   "status": "partial",
   "theorems": [
    "RgbdSlam.Covariance.C189_more_certain_partial",
    "RgbdSlam.Covariance.C189_more_certain_false"
   ],
   "note": "False: the covariance of the first camera position is written back at each merge and added again by the next conversion to the world (C189_more_certain_false: a detection as certain as the point makes it less certain in each direction). Proved: the bounds with this covariance added, and that the point is never more certain than the first position."
  },
  {
   "property": "C190",
   "status": "partial",
   "theorems": [
    "RgbdSlam.Updates.C190_depth_unknown_partial",
    "RgbdSlam.Updates.C190_depth_unknown_false"
   ],
   "note": "False: each detection without depth is merged as if it were a measure of two metres, so that after 800 looks or less a still camera makes a 3D point two metres away of any point without depth, whatever its true distance (C190_depth_unknown_false, for every camera whose position is known to a millimetre). Proved: not before 400 looks."
  },
  {
   "property": "C191",
   "status": "partial",
   "theorems": [
    "RgbdSlam.Updates.C191_distance_kept_partial",
    "RgbdSlam.Updates.C191_distance_kept_false"
   ],
   "note": "false as stated: a keypoint without depth is fused as if it had been measured two metres away, so that a 3D map point matched with such keypoints from one place goes to two metres from the camera, whatever its distance and its certainty (C191_distance_kept_false, for all cameras, pixels and points). Proved: how much one such match can change the distance, at most |2000 - r| times a thousandth of the standard deviation along the sight"
  },
  {
   "property": "C192",
   "status": "partial",
   "theorems": [
    "RgbdSlam.Map.C192_plane_enters_partial",
    "RgbdSlam.Map.C192_first_plane_false",
    "RgbdSlam.Map.C192_single_plane_false"
   ],
   "note": "false as stated: a map plane never accepts the first detected plane of a frame (the index of the selected plane is compared with 0 by <=), so that the first plane of an unchanging scene is staged again and again and never enters the map (C192_first_plane_false), and when each frame shows at most one plane no plane ever enters the map or is exported, whatever the history of calls (C192_single_plane_false). Proved for every other plane: recognised at every frame, in the map from the fifth frame on under its identifier; the map holds exactly these planes and there are at most two more candidates"
  },
  {
   "property": "C193",
   "status": "proved",
   "theorems": [
    "RgbdSlam.Map.C193_no_drift"
   ],
   "note": "The optimiser is a parameter: it is assumed to find some pose that sees every scene point at its keypoint and to reject nothing (C186), and the pixels are assumed to determine the place of the camera; the example proves this of five points of a wall. Doubles are reals. No planes are detected."
  },
  {
   "property": "C194",
   "status": "partial",
   "theorems": [
    "RgbdSlam.Updates.C194_plane_stays_partial",
    "RgbdSlam.Updates.C194_plane_starts",
    "RgbdSlam.Updates.C194_other_side_false"
   ],
   "note": "Proved when the wall is always seen from the same side. A wall seen from its other side has the opposite normal; the matching ignores the sign, and the filter averages the two parametrisations: the plane can go to half its distance (C194_other_side_false) or end the program (C131). The merge of boundaries (boost) is a parameter that returns."
  },
  {
   "property": "C195",
   "status": "partial",
   "theorems": [
    "RgbdSlam.Map.C195_blackout_partial",
    "RgbdSlam.Map.C195_given_up",
    "RgbdSlam.Map.C195_early_false"
   ],
   "note": "C195_blackout_partial: after at least three tracked frames, any journey of exact frames and blind frames, at most ten blind ones in a row: only the blind frames are untracked, every pose is the true place, the map keeps one feature per scene point at its place, nothing is written. C195_given_up: the eleventh blind frame in a row empties the map and writes each feature once. Missing, and false: C195_early_false, a blind second or third frame empties the map, and the next three frames are not tracked and add nothing although they see the scene, since the tracking does not count as lost before four failures."
  },
  {
   "property": "C196",
   "status": "partial",
   "theorems": [
    "RgbdSlam.Map.C196_file_is_scene_partial",
    "RgbdSlam.Map.C196_file_after_loss_partial",
    "RgbdSlam.Map.C196_display_false",
    "RgbdSlam.Map.C196_short_false"
   ],
   "note": "The vertices of the file are the scene points, also after the map was given up. False of what a viewer shows: the element of each point names the next vertex (C196_display_false). False of runs of fewer than four frames: the file is empty (C196_short_false)."
  },
  {
   "property": "C197",
   "status": "partial",
   "theorems": [
    "RgbdSlam.Covariance.C197_bounded_partial",
    "RgbdSlam.Covariance.C197_round",
    "RgbdSlam.Covariance.C197_farther_false",
    "RgbdSlam.Covariance.C197_overconfident_false"
   ],
   "note": "The error never builds up: a bound that does not depend on the number of detections, and the exact bound for covariances that are the same in all directions. False in general: two detections 1 mm away can give a point 1.5 mm away (C197_farther_false), and a point is not within the deviations it announces when the errors are equal (C197_overconfident_false)."
  },
  {
   "property": "C198",
   "status": "partial",
   "theorems": [
    "RgbdSlam.Updates.C198_walls_enter_partial",
    "RgbdSlam.Updates.C198_first_wall_false"
   ],
   "note": "Proved for every wall but the one that is detected first, which never enters the map (C198_first_wall_false).  Areas and visibility of the outlines are parameters; walls that overlap on the screen differ by 20 degrees or more."
  },
  {
   "property": "C199",
   "status": "proved",
   "theorems": [
    "RgbdSlam.Map.C199_map_size_bounded"
   ],
   "note": "For every run of the frame loop on the program maps. Counted by the number of frames since a feature was last seen: a detection is given to one feature only (C18, C19), so at most n features are seen in a frame, new candidates included, and the lost test bounds the number of classes. A 2D point that becomes a 3D point counts as seen again, hence 11 * (n + 11 n) for the 3D points; this factor is an upper bound, not the least one."
  },
  {
   "property": "C200",
   "status": "proved",
   "theorems": [
    "RgbdSlam.Map.C200_map_given_up"
   ],
   "note": "For every run, without assumptions on the detectors, the optimiser, the feature geometry or the constructors, as long as the map did not end the program and fewer than 2^64 ids were given. The pose and the lost flag are stated while the 32 bit failure counter does not wrap."
  },
  {
   "property": "C201",
   "status": "proved",
   "theorems": [
    "RgbdSlam.Map.Anew.C201_found_again"
   ],
   "note": "The run before the loss is arbitrary. Detection, optical flow and the optimiser are parameters, constrained as the statement says; the 64 bit id counter and the 32 bit failure counter are assumed not to wrap."
  },
  {
   "property": "C202",
   "status": "partial",
   "theorems": [
    "RgbdSlam.Map.Anew.C202_displaced",
    "RgbdSlam.Map.Anew.C202_true_after_loss_partial",
    "RgbdSlam.Map.Anew.C202_moved_in_the_dark_false"
   ],
   "note": "Proved for a camera that did not move in the dark. False of the code otherwise: the program keeps the last pose and starts the new map there, so the movement in the dark displaces everything after it, while the map from before the loss, already written, is not displaced. The displacement is proved to be exactly that movement. The optimiser is a parameter: it finds a pose without reprojection error, and only the true place has none."
  },
  {
   "property": "C203",
   "status": "partial",
   "theorems": [
    "RgbdSlam.Map.Once.C203_once_in_the_map_partial",
    "RgbdSlam.Map.Once.C203_once_in_the_map_false",
    "RgbdSlam.Map.Once.C203_outlier_false"
   ],
   "note": "Proved for runs in which the matching is faithful, no match is an outlier and no frame without a pose adds a scene point that the map already has. The two _false theorems show with runs that both conditions are needed: reseeding while the map is there, and an outlier, each put a scene point in the map twice."
  },
  {
   "property": "C204",
   "status": "partial",
   "theorems": [
    "RgbdSlam.PlaneSegment.C204_noisy_cell",
    "RgbdSlam.Detector.C204_perfect_wall_false",
    "RgbdSlam.Detector.C204_wall_partial",
    "RgbdSlam.Detector.C204_cell_of_the_grid"
   ],
   "note": "C204_perfect_wall_false: when the points of each cell lie exactly in a plane, the covariance has a null determinant, fit_plane returns early, and nothing is found (in exact arithmetic; rounding may give a determinant that is not null). C204_noisy_cell: a cell with all points measured, close depths, within the depth quantisation of a plane and a determinant that is not null is planar. C204_wall_partial: when the cells are planar and merge with their neighbours, and the fit on all of them is accepted, one plane made of all the cells is found, and no cylinder, whatever the frames treated before."
  },
  {
   "property": "C205",
   "status": "partial",
   "theorems": [
    "RgbdSlam.FrameRate.C205_time_of_frames",
    "RgbdSlam.FrameRate.C205_not_faster_partial",
    "RgbdSlam.FrameRate.C205_slow_frames",
    "RgbdSlam.FrameRate.C205_zero_false",
    "RgbdSlam.FrameRate.C205_reached_false",
    "RgbdSlam.FrameRate.C205_shown_rate",
    "RgbdSlam.FrameRate.C205_whole_rate_false"
   ],
   "note": "Proved: never faster than the target, up to one microsecond per frame (C205_not_faster_partial, C205_time_of_frames), and slow frames are not delayed (C205_slow_frames). False of the code: the target 0 converts an infinite double to an integer (C205_zero_false); the time of the rest of the loop is not taken off the time to sleep, so the target is not reached (C205_reached_false); the rate in the image is always above the true one, by one for whole rates (C205_shown_rate, C205_whole_rate_false). Durations are exact rationals."
  },
  {
   "property": "C206",
   "status": "proved",
   "theorems": [
    "RgbdSlam.Fast.C206_thresholds",
    "RgbdSlam.Fast.C206_thresholds_used",
    "RgbdSlam.Fast.C206_as_sensitive_search",
    "RgbdSlam.Fast.C206_nothing_lost"
   ],
   "note": "OpenCV is not in the repository: the FAST detector (9 of 16 pixels, score, non maximum suppression on the eight neighbours, border of 3 pixels) and retainBest are modelled from their documented algorithm. Exact numbers in the thresholds."
  },
  {
   "property": "C207",
   "status": "partial",
   "theorems": [
    "RgbdSlam.Display.C207_pose_from_text",
    "RgbdSlam.Display.C207_text_tells_poses_apart",
    "RgbdSlam.Display.C207_deviations",
    "RgbdSlam.Display.C207_angle_order_false",
    "RgbdSlam.Display.C207_messages_differ",
    "RgbdSlam.Display.C207_logged_message_partial",
    "RgbdSlam.Display.C207_exchanged_messages_false"
   ],
   "note": "The orientation is written yaw, pitch, roll and its deviations roll, pitch, yaw (C207_angle_order_false). Two end messages are exchanged (C207_exchanged_messages_false), but only failures are written and their messages are right. Numbers are written without loss in the model; the program writes six digits."
  },
  {
   "property": "C208",
   "status": "partial",
   "theorems": [
    "RgbdSlam.Fast.Brightness.C208_more_contrast_partial",
    "RgbdSlam.Fast.Brightness.C208_brightness",
    "RgbdSlam.Fast.Brightness.C208_negative",
    "RgbdSlam.Fast.Brightness.C208_less_contrast_false"
   ],
   "note": "The thresholds are absolute, so less contrast loses keypoints (C208_less_contrast_false); more contrast loses none (C208_more_contrast_partial, for whole factors), and brightness and negation change nothing. Same model of FAST as C206; sub-pixel refinement is not modelled."
  },
  {
   "property": "C209",
   "status": "proved",
   "theorems": [
    "RgbdSlam.Map.LongRuns.C209_counters",
    "RgbdSlam.Map.LongRuns.C209_no_overflow",
    "RgbdSlam.Map.LongRuns.C209_overflow"
   ],
   "note": "copying a candidate into the map is assumed not to throw (C17 treats that case)"
  },
  {
   "property": "C210",
   "status": "proved",
   "theorems": [
    "RgbdSlam.Map.ExportedFile.C210_vertices",
    "RgbdSlam.Map.ExportedFile.C210_elements"
   ],
   "note": "boundaries of more than 2^32 vertices and runs that use up 2^64 ids are excluded"
  },
  {
   "property": "C211",
   "status": "proved",
   "theorems": [
    "RgbdSlam.TumText.C211_images",
    "RgbdSlam.TumText.C211_images_written",
    "RgbdSlam.TumText.C211_associations",
    "RgbdSlam.TumText.C211_associations_written"
   ],
   "note": ""
  },
  {
   "property": "C212",
   "status": "partial",
   "theorems": [
    "RgbdSlam.TumText.C212_truth_partial",
    "RgbdSlam.TumText.C212_truth_false"
   ],
   "note": "Proved of files whose lines are all comments or complete. False otherwise (C212_truth_false): a cut line is kept with numbers that were never read, hides the complete line of the same time and is given to a frame; a line without values is kept at the time 0."
  },
  {
   "property": "C213",
   "status": "partial",
   "theorems": [
    "RgbdSlam.TumProgram.C213_association_file",
    "RgbdSlam.TumProgram.C213_image_lists_partial",
    "RgbdSlam.TumProgram.C213_image_lists_false"
   ],
   "note": "Proved with an association file. Without it, proved of the runs that report; false in general (C213_image_lists_false): the comparison given to the final sort is not an order when depth images are crossed, and the behaviour of the run is undefined."
  },
  {
   "property": "C214",
   "status": "proved",
   "theorems": [
    "RgbdSlam.CapeRun.Prefix.C214_numbered_images",
    "RgbdSlam.CapeRun.Prefix.C214_numbered_images_saving",
    "RgbdSlam.TumRun.Prefix.C214_causal",
    "RgbdSlam.TumRun.Prefix.C214_stopped",
    "RgbdSlam.TumRun.Prefix.C214_stopped_trajectory",
    "RgbdSlam.TumRun.Prefix.C214_saving"
   ],
   "note": "For the loops of C141 and C153, with any tracker. For the numbered images, that a stopped run ends as on a shorter dataset is stated for the trajectory only."
  },
  {
   "property": "C215",
   "status": "proved",
   "theorems": [
    "RgbdSlam.Optimizer.PoseVector.C215_angles",
    "RgbdSlam.Optimizer.PoseVector.C215_vector",
    "RgbdSlam.Optimizer.PoseVector.C215_apart"
   ],
   "note": "With reals for doubles; the computation of Eigen (eulerAngles) is modelled, not assumed."
  },
  {
   "property": "C216",
   "status": "proved",
   "theorems": [
    "RgbdSlam.Map.Anew.C216_old_and_new",
    "RgbdSlam.Map.Anew.C216_scene_twice"
   ],
   "note": "C216_old_and_new: any run, then the setting of C202, and the file read back. C216_scene_twice: a concrete run with exact measurements whose file holds the scene at its place and once more beside it."
  },
  {
   "property": "C217",
   "status": "proved",
   "theorems": [
    "RgbdSlam.Map.Anew.C217_losses_add_up",
    "RgbdSlam.Map.Anew.C217_file_grows"
   ],
   "note": "Induction over the losses. C217_losses_add_up: poses and exported file. C217_file_grows: the size of the file. The example meets the hypotheses for every number of losses."
  },
  {
   "property": "C218",
   "status": "proved",
   "theorems": [
    "RgbdSlam.Map.Exact.C218_saved_trajectory"
   ],
   "note": "the program of C141 with the tracker of C193; the angles of a line give back the rotation (C138, C215)"
  },
  {
   "property": "C219",
   "status": "partial",
   "theorems": [
    "RgbdSlam.Map.Exact.C219_shown_error_partial",
    "RgbdSlam.Map.Exact.C219_shown_error_false"
   ],
   "note": "holds for the angle, and the displayed distance is given exactly (C219_shown_error_partial); not zero in general, because metres are taken for millimetres: C219_shown_error_false"
  },
  {
   "property": "C220",
   "status": "proved",
   "theorems": [
    "RgbdSlam.Map.ExactCape.C220_saved_trajectory"
   ],
   "note": "the program of C153 with the tracker of C193; the angles of a line give back the rotation (C138, C215)"
  },
  {
   "property": "C221",
   "status": "proved",
   "theorems": [
    "RgbdSlam.Map.Exact.C221_saved_after_losses"
   ],
   "note": "the program of C141 with the tracker of C193 and the losses of C217"
  },
  {
   "property": "C222",
   "status": "proved",
   "theorems": [
    "RgbdSlam.Map.Exact.C222_both_files"
   ],
   "note": "C221 and the exported file of C196 and C217 for the same tracker, which Tracked ties to the treated images"
  },
  {
   "property": "C223",
   "status": "proved",
   "theorems": [
    "RgbdSlam.Map.ExactCape.C223_both_files"
   ],
   "note": "C222 for main_CAPE; the program also has to stop, which needs a bound on its turns that depends on the folder only"
  },
  {
   "property": "C224",
   "status": "proved",
   "theorems": [
    "RgbdSlam.Map.Exact.C224_directory"
   ],
   "note": "composes the parser of C211 to C213 with C222; that the outcome is unique is part of the claim"
  },
  {
   "property": "C225",
   "status": "proved",
   "theorems": [
    "RgbdSlam.Converted.C225_same_trajectory"
   ],
   "note": "any tracker; the two loops are related state by state, then the loop on numbers skips to a wanted number that is absent"
  },
  {
   "property": "C226",
   "status": "proved",
   "theorems": [
    "RgbdSlam.Tum.C226_synchronised"
   ],
   "note": "a condition under which the undefined behaviour of C51 does not happen and the association is unique"
  },
  {
   "property": "C227",
   "status": "proved",
   "theorems": [
    "RgbdSlam.Map.Exact.C227_lists",
    "RgbdSlam.Map.Exact.C227_files"
   ],
   "note": "From the directory of a dataset without association file to both files of the run."
  },
  {
   "property": "C228",
   "status": "partial",
   "theorems": [
    "RgbdSlam.TumProgram.C228_same_run_partial",
    "RgbdSlam.TumProgram.C228_same_run_false"
   ],
   "note": "Proved when every frame closer than 0.05 s to a pose of the ground truth has one of its very time, in particular without ground truth (C228_same_run_partial). False in general (C228_same_run_false): from the lists an image has the closest pose under 0.05 s, from an association file only a pose of the very same time, so the start pose and the reported error can differ."
  },
  {
   "property": "C229",
   "status": "proved",
   "theorems": [
    "RgbdSlam.TumProgram.C229_same_result",
    "RgbdSlam.TumProgram.C229_unsynchronised_false"
   ],
   "note": "C229_unsynchronised_false shows that the synchronisation is needed: a depth image halfway between two colour images goes to either. Holds for every result that the two sorts of the reader may have; the tracker is a function of its state and the images, as in the other claims about the example programs."
  }
 ]
}