# Axioms of each theorem

Output of `#print axioms`, written by `tools/axioms.py`. All names are in the namespace `Wavemap`.

## none (1 theorems)

C53_pipeline

## `propext` (12 theorems)

C12_erase_root_erases_first_child, C14_root_exists, C14_existence_fails, C29_empty_last, C29_empty_first_fails, C31_no_empty_array_alloc, C31_postorder_fails, C47_contains_iff, C52_names_distinct, C53_run_order, C57_prune_fails, C68_last_field_fails

## `Quot.sound`, `propext` (20 theorems)

C02_parent_of_child, C02_parentAt_base, C03_ancestor_agree, C09_total_nodes, C09_total_nodes_fast, C09_inner_plus_leaf, C09_no_overflow, C14_addresses_in_bounds, C27_type_mask, C27_bool_mask, C39_node_copy_overrun_fails, C47_corners, C53_run_report, C65_stop_height, C68_livox_offset_fails, C78_interrupted, C83_rotate_zero_fails, C84_times, C86_hash, C86_names_fails

## `Classical.choice`, `Quot.sound`, `propext` (712 theorems)

C01_encodeLut_interleaves, C01_encodePdep_interleaves, C01_roundtrip_lut, C01_roundtrip_pdep, C01_lut_eq_pdep, C01_lut_eq_pdep_1d_partial, C01_lut_ne_pdep_1d_negative, C01_injective, C01_decode_encode, C02_relative_of_child, C02_children_distinct, C02_child_of_parent, C02_child_indices, C02_parentAt_trans, C02_parentAt_iterate, C02_relative_child_of_morton, C03_corners_span_region, C03_region_iff_ancestor, C03_children_partition, C03_same_height_disjoint, C03_cover, C04_lca_morton, C04_lca_is_lowest_common_ancestor, C05_cell_roundtrip, C05_injective, C05_linear_roundtrip, C06_split_recombine, C06_unique, C07_nearest_contains, C07_interior, C07_center_roundtrip, C07_corners, C07_floor_ceil, C07_node_is_ancestor_of_cell, C07_node_center_roundtrip, C07_new_resolution, C08_slot_bounds, C08_slots_injective, C08_slots_surjective, C10_lifted_eq_parallel, C10_backward_forward, C10_forward_backward, C10_scale_is_mean, C11_backward_single, C11_forward_single, C11_single_update, C12_container_is_map, C13_deepest_allocated_ancestor, C14_values_agree_partial, C14_exists_iff, C14_exists_height_one, C14_ancestor, C14_height_rounded, C15_total_function, C15_in_bounds, C15_frame, C16_hashed_blocks_is_table, C17_table_partial, C17_add_cells, C17_write_local, C17_set_uniform_partial, C17_set_overwrites_fails, C18_table_partial, C18_add_cells, C18_write_local, C18_set_iff_partial, C18_set_overwrites_fails, C18_node_mean, C19_chunked_refines_hashed, C19_leaf_lists_fails, C19_any_rounding, C19_single_precision, C20_hashed_blocks_add_clamped, C20_hashed_blocks_recovers, C20_hashed_wavelet_add_clamped_fails, C20_hashed_wavelet_add_threshold_partial, C20_volumetric_add_clamps_fails, C20_wavelet_add_clamped_fails, C20_wavelet_add_threshold_partial, C21_hashed_wavelet_clamps, C21_hashed_wavelet_idempotent, C21_hashed_wavelet_leaf_set, C21_volumetric_bounds, C21_wavelet_clamps, C21_wavelet_idempotent, C21_wavelet_noop, C21_wavelet_leaf_set, C22_hashed_blocks_prune, C22_hashed_blocks_reachable, C22_hashed_blocks_prune_complete, C22_hashed_wavelet_prune_partial, C22_hashed_wavelet_prune_smart_partial, C22_hashed_wavelet_prune_smart_recent, C22_hashed_wavelet_prune_idempotent, C22_hashed_wavelet_lossless_fails, C22_wavelet_prune_partial, C22_wavelet_lossless_partial, C22_wavelet_lossless_fails, C23_chunked_wavelet_leaves, C23_dense_block_hash_leaves, C23_hashed_blocks_leaves, C23_hashed_wavelet_leaves, C23_hashed_wavelet_unreported, C23_hashed_wavelet_disjoint, C23_volumetric_leaves_partial, C23_volumetric_root_fails, C23_volumetric_values_fails, C23_wavelet_leaves, C23_wavelet_empty, C24_table_partial, C24_table_without_prune, C24_prune_partial, C24_add_after_prune_fails, C24_set_prune_fails, C24_set_neighbour_fails, C25_adaptive_partial, C25_adaptive_chunked, C25_hashed_wavelet_partial, C25_chunked_wavelet, C25_stack_overflow_fails, C25_dense, C25_spatial_hash, C25_octree_hash_partial, C25_octree_getNode_fails, C25_octree_default_fails, C26_regions_partial, C26_incompatible_distances, C26_matching_leaves_partial, C26_values_partial, C26_stale_values_fails, C26_stale_nodes_break_has_fails, C26_unallocated_unobserved_fails, C26_has_node_fails, C26_tree_height_20_fails, C27_exactly_one_class, C27_value_mask, C27_has, C27_is_fully_mask, C27_is_fully, C27_is, C28_weights_checked, C28_trilinear_between, C28_trilinear_tent, C28_trilinear_center, C28_trilinear_affine, C28_nearest, C29_grid_iteration, C30_index_ray, C30_ray_iterable, C30_point_ray_partial, C30_point_ray, C30_point_ray_generic_end, C30_point_ray_fails, C30_no_gaps, C31_preorder, C31_breadth_first, C31_postorder_partial, C32_exactly_once, C32_wait_all_barrier, C32_destructor_drains, C32_destructor_drains_zero_workers_fails, C33_no_lost_task, C33_no_lost_waiter, C33_no_deadlock, C33_terminates, C33_completes, C34_schedule_independent, C34_same_block_fails, C35_roundtrip, C35_reachable_wellformed, C36_hashed_roundtrip_partial, C36_unsaturated_exact, C36_chunked_roundtrip_partial, C36_reachable_wellformed, C36_saturated_parent_fails, C36_config_fails, C36_threshold_after_load_fails, C37_roundtrip_partial, C37_allocated_cells, C37_reachable_wellformed, C37_default_fails, C38_written_map_loads, C38_reading_terminates, C38_truncated_partial, C38_truncated_config_fails, C38_unknown_format, C38_bad_stream, C38_accepted_config_valid, C39_incremental_partial, C39_incremental_pruned_partial, C39_full_request_partial, C39_message_partial, C39_unsaturated_exact, C39_chunked_message_partial, C39_wavelet_partial, C39_hashed_blocks, C39_any_map_partial, C39_rejected, C39_wavelet_stale_fails, C39_erased_not_sent_fails, C39_stamp_tie_fails, C39_saturated_parent_fails, C40_conservative_partial, C40_constructor, C40_wrap_fails, C41_unobserved_partial, C41_free, C41_free_or_unobserved, C41_defined, C41_ray_unobserved_partial, C41_ray_free_partial, C41_ray_nonpositive_partial, C41_beam_unobserved_partial, C41_beam_nonpositive_partial, C41_close_pixel_fails, C41_missing_return_fails, C41_seam_fails, C42_cumulative, C42_ray_beam_partial, C42_ray_fails, C42_ray_update_partial, C42_ray_outside, C42_beam_partial, C42_beam_fails, C42_beam_outside_fails, C42_range_gate, C42_constant_ray, C43_closest_return_partial, C43_order_independent_partial, C43_close_return_fails, C43_range_image, C43_initial_value_fails, C44_chunked_terminates, C44_chunked_cells, C44_chunked_stop_unique, C44_chunked_blocks, C44_chunked_schedule_independent, C44_chunked_node_mean, C44_chunked_bounds, C44_chunked_bounds_fails, C44_agree_fails, C44_chunked_height_one_fails, C44_wavelet_terminates, C44_wavelet_cells, C44_wavelet_stop_unique, C44_wavelet_unobserved, C44_wavelet_node_mean, C44_wavelet_bounds_fails, C44_wavelet_update_lost_fails, C44_terminates, C44_hashed_cells, C44_stop_unique, C44_hashed_blocks, C44_schedule_independent, C44_node_mean, C44_search_covers_range, C44_termination_height, C44_single_cell_bounded, C44_threshold_bounds_fails, C44_free_updates_reach_cells_fails, C45_refines, C45_bucket_monotone, C45_order_error, C46_sparse_vector, C47_include_smallest, C47_include_from_empty, C47_closest, C47_furthest, C47_box_min_distance, C47_box_max_distance, C48_is_adjacent, C48_symmetric, C48_offsets, C48_nodes_adjacent, C49_quasi_partial, C49_full_partial, C49_quasi_deep_obstacle, C49_full_deep_obstacle, C49_sign_fails, C50_map_configs, C50_operation_configs, C50_integrator_configs, C50_projector_configs, C50_ros_configs, C50_not_a_map, C50_equality, C50_has_child, C51_reads, C51_units_agree, C51_synonyms, C52_names_and_ids, C52_from_params, C52_documented_names, C53_registry, C54_rate_limited, C54_unique, C54_spacing, C54_execution_count, C54_stopwatch, C55_motion_compensation_partial, C55_factor, C55_equal_stamps_fails, C55_single_pose_fails, C55_marker_time_fails, C55_undistorter_partial, C55_undistorter_unavailable, C55_unstamped_cloud_fails, C55_single_interval_fails, C55_short_cloud_fails, C56_hashed_wavelet_bounds_cover, C56_hashed_wavelet_bounds_tight, C56_hashed_blocks_bounds_cover, C56_volumetric_bounds_cover_partial, C56_volumetric_bounds_tight_partial, C56_volumetric_root_fails, C56_wavelet_bounds_cover, C56_wavelet_bounds_tight, C57_prune_exact_partial, C57_prune_lossless, C58_probability_error_partial, C58_log_odds_fails, C59_spherical_azimuth_partial, C59_pinhole_roundtrip, C59_sensor_frame, C59_pinhole_box_partial, C59_pinhole_depth, C59_pinhole_skip_partial, C59_pinhole_straddle_fails, C59_spherical_elevation_fails, C59_spherical_axis_fails, C60_write_reports_failure, C60_successful_save_loads, C60_failed_save_partial, C60_unsupported_map_fails, C60_disk_full_fails, C61_hash_is_table, C61_nearest_ancestor, C61_leaves_partition, C61_index_roundtrip, C62_sampled_points, C63_map, C63_projector, C63_measurement_model_partial, C63_constant_ray_fails, C63_integrator, C63_integrator_no_abort, C63_integrator_null_map, C63_default_integrator_fails, C63_type_name_only_fails, C63_hashed_tree_height_fails, C63_operation, C63_ros_operation, C63_ros_input, C63_made_maps_are_valid, C64_crop, C64_near_cells_kept, C64_crop_skipped, C64_crop_chunked, C65_terminates, C65_leaf_values_partial, C65_cell_values_after_prune, C65_leaf_values_exact, C65_cell_values_fails, C65_coarse_update_unseen_fails, C66_cells, C66_volumetric, C66_same_image, C66_box_cells, C66_cloud_box, C66_beam_covered, C66_frustum_partial, C66_pixel_area_fails, C66_frustum_fails, C66_outside_map_fails, C67_rays, C67_total, C67_completes_partial, C67_empty_cloud_fails, C67_cells, C67_counts, C67_hit_partial, C67_truncated, C67_edge_fails, C67_truncated_fails, C67_min_range_fails, C68_accepted, C68_clouds_partial, C68_undistorted_clouds_partial, C68_images, C68_wait, C68_waiting, C68_images_waiting, C68_available_pose_fails, C68_out_of_order_fails, C68_late_start_pose_fails, C68_blocked_fails, C69_one_map_partial, C69_reset, C69_cleared, C69_save_load, C69_failed_load_partial, C69_loaded_map_fails, C69_failed_load_fails, C69_measurement_lost_fails, C70_ouster_azimuth_partial, C70_atan2, C70_ouster_project, C70_spherical_project, C70_ouster_unproject, C70_spherical_unproject, C70_spherical_depth, C70_spherical_depth_tight, C70_ouster_depth_partial, C70_ouster_depth_fails, C70_periodic, C70_periodic_fails, C71_rigid, C71_compose, C71_inverse, C71_identity, C71_forms, C71_empty_cloud_fails, C71_from_matrix, C71_matrix_round_trip, C71_posed, C71_accepted_closed, C71_constructor, C71_interpolate, C71_accepted_distance_partial, C71_accepted_inverse_partial, C71_accepted_inverse_fails, C71_unique, C71_exp_partial, C71_exp_fails, C71_log_exp_partial, C71_log_small, C71_log_negation_fails, C71_log_negation_partial, C71_transforms, C71_invertible, C71_stationary_cloud, C72_points_partial, C72_incremental, C72_incremental_partial, C72_volumetric_partial, C72_threshold_fails, C72_background_fails, C72_volumetric_fails, C72_removed_fails, C72_pruned_fails, C72_same_time_fails, C73_termination_height_fails, C73_sort_fails, C73_neighbour_fails, C73_resolution_fails, C73_reset_fails, C73_stamp_tie_fails, C73_other_type_fails, C73_unknown_frame_fails, C73_invalid_message_fails, C73_band_partial, C73_view_partial, C73_redrawn_partial, C73_finishes, C73_shown_again_partial, C73_served, C73_served_band_partial, C73_served_again_partial, C74_not_stored, C74_height_fails, C74_resolution_fails, C74_reset_fails, C74_frame_fails, C74_rejected_fails, C74_deep_fails, C74_served_partial, C74_shown_partial, C74_redrawn, C74_hidden, C74_opacity, C75_probability, C75_raw, C75_slice_partial, C75_equal_thresholds_fails, C75_default_thresholds_fails, C75_height_valid, C75_height_distinct, C76_ros, C76_python_partial, C76_python_throws_partial, C76_same_partial, C76_well_formed, C76_ros_namespaces, C76_unsupported_ignored, C76_unsupported_list_fails, C76_nul_fails, C77_hashed_partial, C77_chunked, C77_tallest_fails, C78_delivered_partial, C78_shared_topic_fails, C78_relative_topic_fails, C78_type_fails, C78_republished, C78_order, C78_clock, C78_clock_increases, C78_own_clock, C78_images_partial, C78_last_fails, C78_complete_partial, C78_last_example_fails, C79_contracted_roundtrip, C79_contracted_contains, C79_contracted_interior, C79_ieee_cell, C79_ieee_nearest, C79_ieee_corners, C79_ieee_roundtrip, C79_ieee_node_roundtrip, C79_ieee_index_fits, C79_center_roundtrip, C79_node_roundtrip, C79_nearest_contains, C79_interior, C79_power_of_two, C79_interior_fails, C79_far_fails, C79_ancestor_fails, C79_shared_corners, C79_corners, C79_corner_error, C79_node_corners, C80_contracted_read, C80_contracted_add, C80_contracted_transforms, C80_chunked, C80_wavelet_octree, C80_drift_linear, C80_hashed_wavelet_octree, C80_order, C80_thresholded, C80_driftT_linear, C80_hashed_blocks, C80_hashed_blocks_monotone, C80_order_fails, C80_lost_updates_fails, C80_untouched_fails, C80_no_overflow, C80_chunked_no_overflow, C80_hashed_blocks_no_overflow, C80_wavelet_octree_maintained, C80_driftP_linear, C80_pruned, C81_default_clears, C81_default_appears, C81_default_stuck, C81_default_hidden_obstacle_fails, C81_default_free_fails, C81_hashed_clears, C81_hashed_appears, C81_hashed_hidden_free_fails, C81_clears, C81_appears, C81_bounded, C81_free, C81_occupied, C81_thresholded, C81_fixed_resolution, C81_unthresholded_fails, C81_grazing_fails, C82_range, C82_log_odds_round_trip, C82_probability_round_trip, C82_order, C82_classify, C82_prior, C82_bayes, C82_evidence, C82_single_partial, C82_single_classify_partial, C82_single_log_odds, C82_single_round_trip_fails, C82_single_overflow_fails, C82_single_classify_fails, C83_div_floor, C83_div_ceil, C83_remainder, C83_mult, C83_div_round_up, C83_log2, C83_log2_int, C83_power_of_two, C83_combinatorics, C83_factorial_fits, C83_bits, C83_rotate_left, C83_rotate_right, C83_rotate_back, C83_squeeze_in, C84_span, C84_ram_found, C84_ram_absent, C84_ram_sound, C84_ram_last_line_fails, C85_drawn, C85_buffers, C85_box_partial, C85_radius_partial, C85_box_fails, C85_radius_fails, C85_cube, C86_names_partial, C87_smallest, C87_roundtrip, C87_smallest_partial, C87_wide_enough_fails, C87_box_fails, C87_negative_fails, C87_zero_fails, C88_index_ray, C88_point_ray_partial, C88_overshoot_fails, C88_beam_partial, C88_missed_return_fails, C89_nearest, C89_trilinear, C89_between, C89_weights_partial, C89_check_fails, C89_between_fails, C90_project, C90_pixel, C90_unproject, C90_image_roundtrip, C90_pixel_roundtrip, C90_point_roundtrip, C90_nearest, C90_offset, C90_grid_roundtrip, C90_field_of_view, C90_image_range_fails, C91_transform, C91_inverse, C91_inverse_transform, C92_cumulative, C92_ray, C92_ray_error, C92_ray_sign_lost, C92_beam, C92_beam_error, C93_cell, C93_outside, C94_atan2_partial, C94_range, C94_angles_partial, C94_ouster_partial, C94_axis, C94_pixel_partial, C94_stated_error_fails, C94_negative_zero_fails, C95_cell_partial, C95_outside, C95_axis_fails, C96_ray, C96_beam_partial, C96_pixels, C96_camera_distance, C96_lidar_distance, C96_centered, C96_beam_nearest, C96_beam_outside_fails, C97_change, C97_cleared_partial, C97_free_partial, C97_appears_partial, C97_unseen, C97_in_front, C97_behind, C97_large_bounds_fails, C98_change_partial, C98_cleared_partial, C98_free_partial, C98_appears_partial, C98_unseen, C98_in_front, C98_behind, C98_axis_fails, C99_cell, C99_outside, C99_in_front, C99_behind, C99_change, C99_cleared_partial, C99_appears_partial, C99_unseen, C100_cell_partial, C100_outside, C100_change_partial, C100_cleared_partial, C100_appears_partial, C100_unseen, C100_in_front, C100_behind, C100_axis_fails, C101_history_partial, C101_sum_partial, C101_order_partial, C101_cleared_partial, C101_appears_partial, C101_moved_partial, C101_order_fails
