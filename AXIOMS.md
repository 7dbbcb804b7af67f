# Axioms of each theorem named in MANIFEST.json

Generated by `tools/axioms.py` from `#print axioms`. `std` is Lean's three standard axioms: propext, Classical.choice, Quot.sound.

* C01 `Verif.C01_every_node_in_one_layer`: std
* C02 `Verif.C02_edges_well_formed`: std
* C03 `Verif.C03_adjacency_matches_edges`: std
* C04 `Verif.C04_refines_maps`: std
* C05 `Verif.C05_no_fault`: std
* C05 `Verif.Misuse.unknown_layer_refuses_edges`: propext, Quot.sound
* C05 `Verif.Misuse.indexed_prefix_breaks_findNode`: propext, Quot.sound
* C05 `Verif.Misuse.index_overflow_collides`: propext, Quot.sound
* C05 `Verif.Misuse.append_after_backfill_is_ub`: propext, Quot.sound
* C05 `Verif.Misuse.duplicate_stamp_miscounts`: propext, Quot.sound
* C05 `Verif.Misuse.parent_edge_in_layer_is_invisible`: propext, Quot.sound
* C05 `Verif.Misuse.null_edge_attributes_is_ub`: propext, Quot.sound
* C05 `Verif.Misuse.edge_lookup_of_unknown_node_throws`: propext, Quot.sound
* C05 `Verif.Misuse.remove_crossing_leaves_dangling_edge`: propext, Quot.sound
* C05 `Verif.Misuse.merge_crossing_leaves_dangling_edge`: propext, Quot.sound
* C05 `Verif.Misuse.merge_dynamic_faults`: propext, Quot.sound
* C06 `Verif.C06_removeNode`: std
* C07 `Verif.C07_mergeNodes`: std
* C08 `Verif.C08_insertParentEdge`: std
* C08 `Verif.C08_queries`: std
* C09 `Verif.C09_at_most_one_parent`: std
* C09 `Verif.C09_merge_can_give_two_parents`: propext, Quot.sound
* C10 `Verif.C10_refused_changes_nothing`: std
* C11 `Verif.C11_append`: std
* C12 `Verif.C12_backfill`: std
* C12 `Verif.C12_append_after_backfill`: std
* C12 `Verif.Misuse.append_after_backfill_is_ub`: propext, Quot.sound
* C13 `Verif.C13_new_nodes`: std
* C14 `Verif.C14_removed_nodes`: std
* C14 `Verif.C14_backfill_reports_phantom`: propext, Quot.sound
* C14 `Verif.C14_moved_node_is_reported`: propext, Quot.sound
* C14 `Verif.C14_merged_node_is_reported_forever`: propext, Quot.sound
* C15 `Verif.C15_new_edges`: std
* C15 `Verif.C15_removed_edges`: std
* C16 `Verif.C16_mark_and_sweep`: std
* C16 `Verif.C16_reinserted_edge_is_swept`: propext, Quot.sound
* C20 `Verif.C20_counts`: std
* C20 `Verif.C20_layers`: propext, Quot.sound
* C30 `Verif.C30_file_type`: std
* C30 `Verif.C30_save_load`: std
* C30 `Verif.C30_other_paths`: std
* C30 `Verif.C30_save_without_extension_cannot_be_loaded`: std
* C31 `Verif.C31_node_symbol`: std
* C31 `Verif.C31_layer_prefix`: std
* C31 `Verif.C31_index_overflow_collides`: propext, Quot.sound
* C32 `Verif.C32_edge_key`: propext, Quot.sound
* C43 `Verif.C43_color`: std
* C44 `Verif.C44_layer_names`: std
* C48 `Verif.C48_labels`: std
* C48 `Verif.C48_bad_literals`: propext, Quot.sound
* C33 `Verif.C33_edge_container`: propext, Quot.sound
* C34 `Verif.C34_layer`: std
* C34 `Verif.C34_rewire_reversed_deletes`: propext, Quot.sound
* C35 `Verif.C35_bfs`: std
* C35 `Verif.C35_layers_are_consistent`: std
* C36 `Verif.C36_bfs_limit`: std
* C37 `Verif.C37_components`: std
* C37 `Verif.C37_components_of_roots`: std
* C37 `Verif.C37_components_filtered`: std
* C21 `Verif.C21_scalars`: std
* C21 `Verif.C21_strings`: std
* C21 `Verif.C21_containers`: std
* C21 `Verif.C21_matrices`: std
* C23 `Verif.C23_attributes_round_trip`: std
* C23 `Verif.C23_nothing_lost`: propext, Quot.sound
* C23 `Verif.C23_edge_attributes_round_trip`: std
* C23 `Verif.C23_khronos_loses_object_members`: std
* C24 `Verif.C24_type_tables_portable`: std
* C24 `Verif.C24_attributes_portable`: std
* C24 `Verif.C24_unknown_class_not_skipped`: std
* C24 `Verif.C24_too_many_classes`: propext, Quot.sound
* C28 `Verif.C28_mesh_round_trip`: std
* C28 `Verif.C28_mesh_written`: std
* C29 `Verif.C29_header_round_trip`: std
* C29 `Verif.C29_header_total`: std
* C29 `Verif.C29_header_only_after_identifier`: propext, Quot.sound
* C29 `Verif.C29_versions_totally_ordered`: std
* C29 `Verif.C29_version_gate`: propext
* C47 `Verif.C47_swap_reverses_bytes`: propext, Quot.sound
* C47 `Verif.C47_words_round_trip`: std
* C47 `Verif.C47_little_host`: propext, Quot.sound
* C47 `Verif.C47_files_are_host_specific`: propext, Quot.sound
* C25 `Verif.C25_graph_round_trip`: std
* C25 `Verif.C25_file_round_trip`: std
* C25 `Verif.GraphIO.C25_foreign_dynamic_layer_lost`: std
* C25 `Verif.GraphIO.C25_removed_dynamic_node_null`: std
* C25 `Verif.GraphIO.C25_stamped_static_node_moves`: std
* C25 `Verif.GraphIO.C25_no_layers_unreadable`: std
* C26 `Verif.C26_receiver_mirrors_sender`: std
* C26 `Verif.GraphIO.C26_moved_node_stays`: std
* C26 `Verif.GraphIO.C26_old_mesh_stays`: std
* C22 `Verif.C22_read_graph`: std
* C22 `Verif.C22_update_graph`: std
* C22 `Verif.C22_load_file`: std
* C22 `Verif.C22_read_parts`: std
* C22 `Verif.Safety.C22_column_vector_overrun`: propext, Quot.sound
* C22 `Verif.Safety.C22_dimension_overflow`: none
* C22 `Verif.Safety.C22_dimension_overflow_exactly`: std
* C38 `Verif.C38_merged_components`: std
* C38 `Verif.C38_outputs_can_overlap`: propext, Quot.sound
* C41 `Verif.C41_adjacency`: propext, Quot.sound
* C41 `Verif.C41_laplacian`: std
* C41 `Verif.C41_sparse_adjacency`: std
* C41 `Verif.C41_sparse_laplacian`: std
* C41 `Verif.C41_sparse_is_dense`: std
* C41 `Verif.C41_graph`: std
* C41 `Verif.C41_shared_row`: propext, Quot.sound
* C42 `Verif.C42_view`: propext, Quot.sound
* C42 `Verif.C42_default_view`: propext, Quot.sound
* C46 `Verif.C46_descendants`: std
* C46 `Verif.Descend.C46_layer_zero_missed`: std
* C46 `Verif.Descend.C46_reported_per_path`: std
* C39 `Verif.C39_erase_vertices`: std
* C39 `Verif.C39_erase_faces`: std
* C39 `Verif.MeshSample.C39_short_attribute_is_ub`: propext, Quot.sound
* C40 `Verif.C40_attributes_aligned`: std
* C40 `Verif.C40_get_set`: propext, Quot.sound
* C40 `Verif.C40_empty`: propext
* C40 `Verif.MeshSample.C40_shrinking_dangles`: none
* C17 `Verif.C17_clone`: std
* C17 `Verif.C17_clone_exact`: std
* C17 `Verif.C17_clone_clone`: std
* C17 `Verif.CloneLimits.C17_static_stamp_lost`: std
* C17 `Verif.CloneLimits.C17_no_layers`: std
* C17 `Verif.CloneLimits.C17_empty_dynamic_layer_lost`: std
* C17 `Verif.CloneLimits.C17_clone_cannot_append`: std
* C17 `Verif.CloneLimits.C17_clone_append_corrupts`: std
* C45 `Verif.C45_safe_without_overlap`: std
* C45 `Verif.C45_has_change`: std
* C45 `Verif.C45_graph`: std
* C45 `Verif.C45_no_lost_update`: std
* C45 `Verif.ZmqSample.C45_race`: propext, Quot.sound
* C45 `Verif.ZmqSample.C45_announced_twice`: propext, Quot.sound
* C45 `Verif.ZmqSample.C45_bad_message_terminates`: propext, Quot.sound
* C19 `Verif.C19_unknown_layer`: propext, Quot.sound
* C19 `Verif.C19_update`: std
* C19 `Verif.C19_new_nodes`: std
* C19 `Verif.Update.C19_sibling_without_edge`: std
* C19 `Verif.Update.C19_node_in_two_layers`: std
* C19 `Verif.Update.C19_wrong_key`: std
* C19 `Verif.Update.C19_updated_edge_still_stale`: std
* C18 `Verif.C18_mergeGraph`: std
* C18 `Verif.C18_clears_log`: std
* C18 `Verif.C18_configuration`: propext, Quot.sound
* C18 `Verif.MergeSample.C18_removed_dynamic_node`: std
* C18 `Verif.MergeSample.C18_removed_dynamic_node_mine`: std
* C18 `Verif.MergeSample.C18_duplicate_stamp`: std
* C18 `Verif.MergeSample.C18_node_in_two_layers`: std
* C18 `Verif.MergeSample.C18_interlayer_removal_kept`: std
* C18 `Verif.MergeSample.C18_two_parents_kept`: std
* C18 `Verif.MergeSample.C18_chain_of_merges`: std
* C27 `Verif.C27_json_round_trip`: std
* C27 `Verif.C27_json_exact`: std
* C27 `Verif.C27_kept_coefficient`: propext, Quot.sound
* C27 `Verif.C27_kept_coefficient_float`: propext, Quot.sound
* C27 `Verif.C27_kept_base`: propext, Quot.sound
* C27 `Verif.C27_kept_agent`: propext, Quot.sound
* C27 `Verif.C27_kept_mesh`: propext, Quot.sound
* C27 `Verif.C27_kept_bbox`: propext, Quot.sound
* C27 `Verif.ieee_exact`: std
* C27 `Verif.JsonLimits.C27_infinite_weight_unreadable`: std
* C27 `Verif.JsonLimits.C27_infinite_position_becomes_nan`: std
* C27 `Verif.JsonLimits.C27_invalid_box_lost`: std
* C27 `Verif.JsonLimits.C27_name_not_utf8`: std
* C27 `Verif.JsonLimits.C27_stamped_static_moves`: std
* C27 `Verif.JsonLimits.C27_unknown_edge_class`: std
* C27 `Verif.JsonLimits.C27_no_layers`: std
* C49 `Verif.C49_old_attributes`: std
* C49 `Verif.C49_old_file`: std
* C49 `Verif.C49_old_json_attributes`: std
* C49 `Verif.OldMesh.C49_old_mesh_has_no_stamps`: propext, Quot.sound
* C50 `Verif.C50_any_document`: std
* C50 `Verif.C50_any_mesh`: std
* C50 `Verif.C50_then_messages`: std
* C50 `Verif.C50_scalars`: propext, Quot.sound
* C50 `Verif.C50_reduced`: propext
* C50 `Verif.C50_float_for_integer`: std
* C50 `Verif.JsonSafety.C50_old_colour_uninitialised`: propext, Quot.sound
* C50 `Verif.JsonSafety.C50_negative_dimensions`: propext, Quot.sound
* C50 `Verif.JsonSafety.C50_language_rules`: propext, Quot.sound
* C50 `Verif.JsonSafety.C50_no_compatibility_check`: propext, Quot.sound
* C51 `Verif.C51_no_corruption`: std
* C51 `Verif.Misuse.append_after_backfill_is_ub`: propext, Quot.sound
* C51 `Verif.Misuse.merge_dynamic_faults`: propext, Quot.sound
* C51 `Verif.Misuse.null_edge_attributes_is_ub`: propext, Quot.sound
* C52 `Verif.C52_structure_survives_misuse`: std
* C53 `Verif.C53_graph_nodes`: std
* C53 `Verif.C53_graph_edges`: std
* C53 `Verif.C53_layers`: std
* C53 `Verif.C53_layer`: propext, Quot.sound
* C53 `Verif.C53_dynamic_nodes_read_past_the_end`: propext, Quot.sound
* C53 `Verif.PyIter.C53_trajectories_left_out`: propext, Quot.sound
* C54 `Verif.NodeAttrs.C54_equal_to_itself`: std
* C54 `Verif.NodeAttrs.C54_symmetric`: std
* C54 `Verif.NodeAttrs.C54_transitive`: std
* C54 `Verif.NodeAttrs.C54_defined`: propext, Quot.sound
* C54 `Verif.NodeAttrs.C54_tells_apart`: std
* C54 `Verif.NodeAttrs.C54_reloaded`: std
* C54 `Verif.NodeAttrs.C54_khronos_reloaded_differs`: std
* C54 `Verif.NodeAttrs.C54_not_symmetric`: propext, Quot.sound
* C54 `Verif.NodeAttrs.C54_ignores`: propext, Quot.sound
* C54 `Verif.NodeAttrs.C54_feature_sizes`: propext, Quot.sound
* C54 `Verif.NodeAttrs.C54_bow_sizes`: propext, Quot.sound
* C54 `Verif.NodeAttrs.C54_nan`: propext, Quot.sound
* C54 `Verif.C54_edge_attributes`: std
* C54 `Verif.C54_bounding_boxes`: std
* C54 `Verif.C54_meshes`: std
* C55 `Verif.BBox.C55_no_point_missed`: std
* C55 `Verif.BBox.C55_accepted_points_are_near`: std
* C55 `Verif.BBox.C55_between`: std
* C55 `Verif.BBox.C55_exact_on_a_grid`: std
* C55 `Verif.BBox.C55_center`: std
* C55 `Verif.BBox.C55_invalid`: propext, Quot.sound
* C55 `Verif.BBox.C55_rotated`: std
* C55 `Verif.BBox.C55_unrotated`: propext, Quot.sound
* C55 `Verif.BBox.C55_box_frame`: std
* C55 `Verif.BBox.C55_box_frame_unrotated`: std
* C55 `Verif.BBox.C55_world_frame`: std
* C55 `Verif.BBox.C55_corners`: std
* C55 `Verif.BBox.C55_double`: std
* C55 `Verif.BBox.C55_not_corners`: propext, Quot.sound
* C56 `Verif.BBox.C56_symmetric`: propext, Quot.sound
* C56 `Verif.BBox.C56_reported_boxes_overlap`: std
* C56 `Verif.BBox.C56_overlapping_boxes_reported`: std
* C56 `Verif.BBox.C56_exact_on_a_grid`: std
* C56 `Verif.BBox.C56_iou_symmetric`: std
* C56 `Verif.BBox.C56_iou_unsupported`: propext, Quot.sound
* C56 `Verif.BBox.C56_iou_disjoint`: std
* C56 `Verif.BBox.C56_iou_on_a_grid`: std
* C56 `Verif.BBox.C56_not_iou_at_most_one`: propext, Quot.sound
* C56 `Verif.BBox.C56_not_iou_nonnegative`: propext, Quot.sound
* C56 `Verif.BBox.C56_not_iou_positive`: propext, Quot.sound
* C56 `Verif.BBox.C56_not_iou_a_number`: propext, Quot.sound
* C56 `Verif.BBox.C56_oriented_boxes_never_intersect`: propext, Quot.sound
* C57 `Verif.BBox.C57_fit`: std
* C57 `Verif.BBox.C57_fit_close`: std
* C57 `Verif.BBox.C57_fit_exact_on_a_grid`: std
* C57 `Verif.BBox.C57_no_fit`: propext, Quot.sound
* C57 `Verif.BBox.C57_merge_invalid`: propext, Quot.sound
* C57 `Verif.BBox.C57_merge_close`: std
* C57 `Verif.BBox.C57_merge_exact_on_a_grid`: std
* C57 `Verif.BBox.C57_merge_mixed`: std
* C57 `Verif.BBox.C57_not_fit_contains`: propext, Quot.sound
* C57 `Verif.BBox.C57_not_fit_flat`: std
* C57 `Verif.BBox.C57_merging_oriented_boxes`: propext, Quot.sound
* C58 `Verif.C58_strong_guarantee`: propext, Quot.sound
* C58 `Verif.C58_throws`: std
* C58 `Verif.C58_catching`: std
* C58 `Verif.C58_sweep_stops_half_way`: propext, Quot.sound
* C58 `Verif.Graph.res_stepT`: propext, Quot.sound
* C59 `Verif.C59_depth_components`: std
* C59 `Verif.C59_depends_on_order`: std
* C60 `Verif.C60_blend`: std
* C60 `Verif.C60_blend_ends`: std
* C60 `Verif.C60_blend_between`: std
* C60 `Verif.C60_blend_with_itself_differs`: propext, Quot.sound
* C60 `Verif.C60_blend_nan`: propext, Quot.sound
* C60 `Verif.C60_merge`: propext, Quot.sound
* C60 `Verif.C60_hsv`: std
* C60 `Verif.C60_hls`: std
* C60 `Verif.C60_hues`: std
* C60 `Verif.C60_hsv_nan`: std
* C60 `Verif.C60_hls_nan`: std
* C60 `Verif.C60_gray`: std
* C60 `Verif.C60_gray_mono`: std
* C60 `Verif.C60_quality`: std
* C60 `Verif.C60_gray_nan`: propext, Quot.sound
* C60 `Verif.C60_spectrum`: std
* C60 `Verif.C60_spectrum_ends`: std
* C60 `Verif.C60_spectrum_empty`: propext, Quot.sound
* C60 `Verif.C60_spectrum_nan`: std
* C60 `Verif.C60_ironbow`: std
* C60 `Verif.C60_rainbow`: std
* C60 `Verif.C60_ids_repeat`: std
* C61 `Verif.C61_logs_any_graph`: std
* C61 `Verif.C61_first_call`: std
* C61 `Verif.C61_later_call`: std
* C61 `Verif.C61_whole_file`: std
* C61 `Verif.C61_other_files`: std
* C61 `Verif.C61_first_name_stays`: propext, Quot.sound
* C61 `Verif.C61_two_parents_not_counted`: std
* C61 `Verif.C61_late_name`: std
* C62 `Verif.C62_colour_entry`: std
* C62 `Verif.C62_colour_entry_undefined`: std
* C62 `Verif.C62_colour_round_trip`: std
* C62 `Verif.C62_get_vertices`: propext, Quot.sound
* C62 `Verif.C62_set_vertices`: propext, Quot.sound
* C62 `Verif.C62_set_vertices_undefined`: propext, Quot.sound
* C62 `Verif.C62_wrong_rows`: propext, Quot.sound
* C62 `Verif.C62_vertices_round_trip`: std
* C62 `Verif.C62_faces_round_trip`: propext, Quot.sound
* C62 `Verif.C62_faces_of_mesh`: std
* C63 `Verif.Hull.C63_defined`: std
* C63 `Verif.Hull.C63_hull_of_points`: std
* C63 `Verif.Hull.C63_convex_hull`: std
* C63 `Verif.Hull.C63_convex_hull_64`: std
* C63 `Verif.Hull.C63_box_holds`: std
* C63 `Verif.Hull.C63_box_holds_64`: std
* C63 `Verif.Hull.C63_smallest`: std
* C63 `Verif.Hull.C63_huge_undefined`: propext, Quot.sound
* C63 `Verif.Hull.C63_single_point`: std
* C63 `Verif.Hull.C63_lowest_twice`: std
* C63 `Verif.Hull.C63_same_direction`: propext, Quot.sound
* C63 `Verif.Hull.C63_line`: propext, Quot.sound
* C63 `Verif.Hull.C63_nearly_flat`: propext, Quot.sound
* C64 `Verif.C64_points`: std
* C64 `Verif.C64_box`: std
* C64 `Verif.C64_yaw_defined`: std
* C64 `Verif.AncestorBox.C64_two_parents`: std
* C64 `Verif.AncestorBox.C64_layer_zero_missed`: std
* C65 `Verif.C65_graph_binary`: std
* C65 `Verif.C65_graph_json`: std
* C65 `Verif.C65_mesh_binary`: std
* C65 `Verif.C65_mesh_json`: std
* C65 `Verif.C65_other_files`: std
* C65 `Verif.C65_failed_save`: std
* C65 `Verif.C65_disk_errors_unnoticed`: std
* C65 `Verif.C65_any_disk`: std
* C65 `Verif.C65_wrong_kind`: std
* C65 `Verif.C65_mesh_without_header`: std
* C65 `Verif.C65_graph_json_as_mesh`: std
* C65 `Verif.Sample.C65_failed_save_destroys`: std
* C66 `Verif.C66_graph_binary`: std
* C66 `Verif.C66_graph_json`: std
* C66 `Verif.C66_mesh_binary`: std
* C66 `Verif.C66_mesh_json`: std
* C66 `Verif.C66_not_atomic`: std
* C66 `Verif.Sample.C66_mesh_lost`: std
* C67 `Verif.C67_basic_guarantee`: std
* C67 `Verif.C67_after_the_torn_sweep`: std
* C68 `Verif.C68_bad_messages`: std
* C68 `Verif.C68_same_reader`: propext, Quot.sound
* C68 `Verif.C68_unknown_edge_then_merge`: propext, Quot.sound
* C68 `Verif.C68_received_trajectory_then_append`: propext, Quot.sound
* C69 `Verif.C69_lossy_line`: std
* C69 `Verif.C69_between_versions`: std
* C70 `Verif.C70_missing_members`: std
* C70 `Verif.C70_missing_edge_members`: std
* C70 `Verif.C70_missing_fields`: std
* C70 `Verif.C70_initialised`: propext, Quot.sound
* C70 `Verif.Missing.C70_uninitialised`: propext, Quot.sound
* C71 `Verif.C71_only_text`: std
* C71 `Verif.C71_otherwise_throws`: std
* C71 `Verif.C71_mesh`: propext, Quot.sound
* C72 `Verif.C72_loadable`: std
* C72 `Verif.C72_otherwise_throws`: std
* C72 `Verif.C72_on_disk`: std
* C72 `Verif.Sample.C72_saved_and_lost`: std
* C73 `Verif.C73_binary_written`: std
* C73 `Verif.C73_too_long_throws`: std
* C73 `Verif.C73_gap_faults`: std
* C73 `Verif.C73_removal_leaves_gap`: std
* C73 `Verif.C73_saved_and_loaded`: std
* C74 `Verif.C74_binary_canonical`: std
* C74 `Verif.C74_json_canonical`: std
* C74 `Verif.C74_files_canonical`: std
* C74 `Verif.C74_appended_no_gap`: std
* C74 `Verif.C74_resaved_identical`: std
* C75 `Verif.C75_message_again`: std
* C75 `Verif.C75_last_message_wins`: std
* C75 `Verif.C75_own_message`: std
* C75 `Verif.C75_relayed`: std
* C76 `Verif.C76_merge_again`: std
* C76 `Verif.C76_edges_again`: std
* C76 `Verif.MergeSample.C76_chained_ids`: std
