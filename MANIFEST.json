{
 "claims": [
  {
   "property": "C01",
   "status": "proved",
   "theorems": [
    "Verif.C01_every_node_in_one_layer"
   ],
   "note": "Histories outside the misuse list of C05."
  },
  {
   "property": "C02",
   "status": "proved",
   "theorems": [
    "Verif.C02_edges_well_formed"
   ],
   "note": "Histories outside the misuse list of C05."
  },
  {
   "property": "C03",
   "status": "proved",
   "theorems": [
    "Verif.C03_adjacency_matches_edges"
   ],
   "note": "Histories outside the misuse list of C05."
  },
  {
   "property": "C04",
   "status": "proved",
   "theorems": [
    "Verif.C04_refines_maps"
   ],
   "note": "Histories outside the misuse list of C05."
  },
  {
   "property": "C05",
   "status": "proved",
   "theorems": [
    "Verif.C05_no_fault",
    "Verif.Misuse.unknown_layer_refuses_edges",
    "Verif.Misuse.indexed_prefix_breaks_findNode",
    "Verif.Misuse.index_overflow_collides",
    "Verif.Misuse.append_after_backfill_is_ub",
    "Verif.Misuse.duplicate_stamp_miscounts",
    "Verif.Misuse.parent_edge_in_layer_is_invisible",
    "Verif.Misuse.null_edge_attributes_is_ub",
    "Verif.Misuse.edge_lookup_of_unknown_node_throws",
    "Verif.Misuse.remove_crossing_leaves_dangling_edge",
    "Verif.Misuse.merge_crossing_leaves_dangling_edge",
    "Verif.Misuse.merge_dynamic_faults"
   ],
   "note": "Outside the misuse list no fault; each misuse has a counterexample theorem."
  },
  {
   "property": "C06",
   "status": "proved",
   "theorems": [
    "Verif.C06_removeNode"
   ],
   "note": "Node without edges into another layer of the same layer id (else: Misuse.remove_crossing_leaves_dangling_edge)."
  },
  {
   "property": "C07",
   "status": "proved",
   "theorems": [
    "Verif.C07_mergeNodes"
   ],
   "note": "Static layers; node without edges into another layer of the same layer id."
  },
  {
   "property": "C08",
   "status": "proved",
   "theorems": [
    "Verif.C08_insertParentEdge",
    "Verif.C08_queries"
   ],
   "note": ""
  },
  {
   "property": "C09",
   "status": "proved",
   "theorems": [
    "Verif.C09_at_most_one_parent",
    "Verif.C09_merge_can_give_two_parents"
   ],
   "note": "Merging two nodes with different parents is excluded in the statement, with a counterexample."
  },
  {
   "property": "C10",
   "status": "proved",
   "theorems": [
    "Verif.C10_refused_changes_nothing"
   ],
   "note": "Histories outside the misuse list of C05."
  },
  {
   "property": "C11",
   "status": "proved",
   "theorems": [
    "Verif.C11_append"
   ],
   "note": ""
  },
  {
   "property": "C12",
   "status": "proved",
   "theorems": [
    "Verif.C12_backfill",
    "Verif.C12_append_after_backfill",
    "Verif.Misuse.append_after_backfill_is_ub"
   ],
   "note": "The first version of the claim (appending always works after back-filling) is false of the code; the exact condition under which it works and what happens otherwise are proved for all histories."
  },
  {
   "property": "C13",
   "status": "proved",
   "theorems": [
    "Verif.C13_new_nodes"
   ],
   "note": "Histories outside the misuse list of C05."
  },
  {
   "property": "C14",
   "status": "proved",
   "theorems": [
    "Verif.C14_removed_nodes",
    "Verif.C14_backfill_reports_phantom",
    "Verif.C14_moved_node_is_reported",
    "Verif.C14_merged_node_is_reported_forever"
   ],
   "note": "The first version of the claim (nothing that never existed is reported) is false of the code (counterexample); the list is characterised exactly, with the ids skipped over by back-filling."
  },
  {
   "property": "C15",
   "status": "proved",
   "theorems": [
    "Verif.C15_new_edges",
    "Verif.C15_removed_edges"
   ],
   "note": "For removed edges 'once' holds per container only."
  },
  {
   "property": "C16",
   "status": "proved",
   "theorems": [
    "Verif.C16_mark_and_sweep",
    "Verif.C16_reinserted_edge_is_swept"
   ],
   "note": "Edge not removed between mark and sweep (else counterexample)."
  },
  {
   "property": "C20",
   "status": "proved",
   "theorems": [
    "Verif.C20_counts",
    "Verif.C20_layers"
   ],
   "note": "empty() also counts mesh vertices, as the code does."
  },
  {
   "property": "C30",
   "status": "proved",
   "theorems": [
    "Verif.C30_file_type",
    "Verif.C30_save_load",
    "Verif.C30_other_paths",
    "Verif.C30_save_without_extension_cannot_be_loaded"
   ],
   "note": "A path without extension is saved as path.sparkdsg; loading the bare path fails (counterexample)."
  },
  {
   "property": "C31",
   "status": "proved",
   "theorems": [
    "Verif.C31_node_symbol",
    "Verif.C31_layer_prefix",
    "Verif.C31_index_overflow_collides"
   ],
   "note": "Layer prefixes: indices below 2^32; counterexample above."
  },
  {
   "property": "C32",
   "status": "proved",
   "theorems": [
    "Verif.C32_edge_key"
   ],
   "note": ""
  },
  {
   "property": "C43",
   "status": "proved",
   "theorems": [
    "Verif.C43_color"
   ],
   "note": ""
  },
  {
   "property": "C44",
   "status": "proved",
   "theorems": [
    "Verif.C44_layer_names"
   ],
   "note": ""
  },
  {
   "property": "C48",
   "status": "proved",
   "theorems": [
    "Verif.C48_labels",
    "Verif.C48_bad_literals"
   ],
   "note": ""
  },
  {
   "property": "C33",
   "status": "proved",
   "theorems": [
    "Verif.C33_edge_container"
   ],
   "note": "Removing a pair without a log entry throws (part of the statement)."
  },
  {
   "property": "C34",
   "status": "proved",
   "theorems": [
    "Verif.C34_layer",
    "Verif.C34_rewire_reversed_deletes"
   ],
   "note": "Nodes handed to insertNode carry no adjacency of their own."
  },
  {
   "property": "C35",
   "status": "proved",
   "theorems": [
    "Verif.C35_bfs",
    "Verif.C35_layers_are_consistent"
   ],
   "note": "On consistent layers; layers of reached graphs and stand-alone layers (C34) are."
  },
  {
   "property": "C36",
   "status": "proved",
   "theorems": [
    "Verif.C36_bfs_limit"
   ],
   "note": "On consistent layers."
  },
  {
   "property": "C37",
   "status": "proved",
   "theorems": [
    "Verif.C37_components",
    "Verif.C37_components_of_roots",
    "Verif.C37_components_filtered"
   ],
   "note": "On consistent layers."
  },
  {
   "property": "C21",
   "status": "proved",
   "theorems": [
    "Verif.C21_scalars",
    "Verif.C21_strings",
    "Verif.C21_containers",
    "Verif.C21_matrices"
   ],
   "note": "Matrices: with the sizes their C++ types prescribe. Little-endian host (see C47)."
  },
  {
   "property": "C23",
   "status": "proved",
   "theorems": [
    "Verif.C23_attributes_round_trip",
    "Verif.C23_nothing_lost",
    "Verif.C23_edge_attributes_round_trip",
    "Verif.C23_khronos_loses_object_members"
   ],
   "note": "Exact for six of eight classes; what the other two lose is stated, with a counterexample to the unrestricted claim."
  },
  {
   "property": "C24",
   "status": "proved",
   "theorems": [
    "Verif.C24_type_tables_portable",
    "Verif.C24_attributes_portable",
    "Verif.C24_unknown_class_not_skipped",
    "Verif.C24_too_many_classes"
   ],
   "note": "Up to 256 classes; beyond that, and for the bytes behind an unknown class, counterexamples."
  },
  {
   "property": "C28",
   "status": "proved",
   "theorems": [
    "Verif.C28_mesh_round_trip",
    "Verif.C28_mesh_written"
   ],
   "note": ""
  },
  {
   "property": "C29",
   "status": "proved",
   "theorems": [
    "Verif.C29_header_round_trip",
    "Verif.C29_header_total",
    "Verif.C29_header_only_after_identifier",
    "Verif.C29_versions_totally_ordered",
    "Verif.C29_version_gate"
   ],
   "note": ""
  },
  {
   "property": "C47",
   "status": "proved",
   "theorems": [
    "Verif.C47_swap_reverses_bytes",
    "Verif.C47_words_round_trip",
    "Verif.C47_little_host",
    "Verif.C47_files_are_host_specific"
   ],
   "note": "Portability between byte orders is false: counterexample."
  },
  {
   "property": "C25",
   "status": "proved",
   "theorems": [
    "Verif.C25_graph_round_trip",
    "Verif.C25_file_round_trip",
    "Verif.GraphIO.C25_foreign_dynamic_layer_lost",
    "Verif.GraphIO.C25_removed_dynamic_node_null",
    "Verif.GraphIO.C25_stamped_static_node_moves",
    "Verif.GraphIO.C25_no_layers_unreadable"
   ],
   "note": "Down to the bytes. The last four theorems are counterexamples to the unrestricted claim."
  },
  {
   "property": "C26",
   "status": "proved",
   "theorems": [
    "Verif.C26_receiver_mirrors_sender",
    "Verif.GraphIO.C26_moved_node_stays",
    "Verif.GraphIO.C26_old_mesh_stays"
   ],
   "note": "For every removal order. The last two theorems are counterexamples to the unrestricted claim."
  },
  {
   "property": "C22",
   "status": "proved",
   "theorems": [
    "Verif.C22_read_graph",
    "Verif.C22_update_graph",
    "Verif.C22_load_file",
    "Verif.C22_read_parts",
    "Verif.Safety.C22_column_vector_overrun",
    "Verif.Safety.C22_dimension_overflow",
    "Verif.Safety.C22_dimension_overflow_exactly"
   ],
   "note": "Includes every pointer the graph operations dereference while applying the bytes. Two build conditions, each with a counterexample; memory exhaustion is not modelled."
  },
  {
   "property": "C38",
   "status": "proved",
   "theorems": [
    "Verif.C38_merged_components",
    "Verif.C38_outputs_can_overlap"
   ],
   "note": "The first version of the claim (outputs of one call are disjoint) is false of the code (counterexample); proved: what one call keeps, when its result is disjoint, and that repeating the call yields the components."
  },
  {
   "property": "C41",
   "status": "proved",
   "theorems": [
    "Verif.C41_adjacency",
    "Verif.C41_laplacian",
    "Verif.C41_sparse_adjacency",
    "Verif.C41_sparse_laplacian",
    "Verif.C41_sparse_is_dense",
    "Verif.C41_graph",
    "Verif.C41_shared_row"
   ],
   "note": "Doubles are an uninterpreted type: the sums are the code's sums in the code's order."
  },
  {
   "property": "C42",
   "status": "proved",
   "theorems": [
    "Verif.C42_view",
    "Verif.C42_default_view"
   ],
   "note": "Views offer nodes only."
  },
  {
   "property": "C46",
   "status": "proved",
   "theorems": [
    "Verif.C46_descendants",
    "Verif.Descend.C46_layer_zero_missed",
    "Verif.Descend.C46_reported_per_path"
   ],
   "note": "For layer ids other than 0, which the code misses (counterexample)."
  },
  {
   "property": "C39",
   "status": "proved",
   "theorems": [
    "Verif.C39_erase_vertices",
    "Verif.C39_erase_faces",
    "Verif.MeshSample.C39_short_attribute_is_ub"
   ],
   "note": "For aligned meshes (C40 proves that the API keeps them aligned); counterexample otherwise."
  },
  {
   "property": "C40",
   "status": "proved",
   "theorems": [
    "Verif.C40_attributes_aligned",
    "Verif.C40_get_set",
    "Verif.C40_empty",
    "Verif.MeshSample.C40_shrinking_dangles"
   ],
   "note": "Running out of memory in the middle of a resize is not modelled."
  },
  {
   "property": "C17",
   "status": "proved",
   "theorems": [
    "Verif.C17_clone",
    "Verif.C17_clone_exact",
    "Verif.C17_clone_clone",
    "Verif.CloneLimits.C17_static_stamp_lost",
    "Verif.CloneLimits.C17_no_layers",
    "Verif.CloneLimits.C17_empty_dynamic_layer_lost",
    "Verif.CloneLimits.C17_clone_cannot_append",
    "Verif.CloneLimits.C17_clone_append_corrupts"
   ],
   "note": "Independence of the two graphs is by construction of the model: everything a graph holds is a value, and the code copies every attribute and the mesh (noted in Model/Clone.lean)."
  },
  {
   "property": "C45",
   "status": "proved",
   "theorems": [
    "Verif.C45_safe_without_overlap",
    "Verif.C45_has_change",
    "Verif.C45_graph",
    "Verif.C45_no_lost_update",
    "Verif.ZmqSample.C45_race",
    "Verif.ZmqSample.C45_announced_twice",
    "Verif.ZmqSample.C45_bad_message_terminates"
   ],
   "note": "All interleavings of the receive thread with any number of user threads. The code has a data race (C45_race), so the claims are about schedules in which graph() does not overlap the processing of a message. Sockets, message loss and the uninitialised shutdown flag are not modelled."
  },
  {
   "property": "C19",
   "status": "proved",
   "theorems": [
    "Verif.C19_unknown_layer",
    "Verif.C19_update",
    "Verif.C19_new_nodes",
    "Verif.Update.C19_sibling_without_edge",
    "Verif.Update.C19_node_in_two_layers",
    "Verif.Update.C19_wrong_key",
    "Verif.Update.C19_updated_edge_still_stale"
   ],
   "note": "The last four theorems are counterexamples that justify the preconditions. The source layer is a separate object."
  },
  {
   "property": "C18",
   "status": "proved",
   "theorems": [
    "Verif.C18_mergeGraph",
    "Verif.C18_clears_log",
    "Verif.C18_configuration",
    "Verif.MergeSample.C18_removed_dynamic_node",
    "Verif.MergeSample.C18_removed_dynamic_node_mine",
    "Verif.MergeSample.C18_duplicate_stamp",
    "Verif.MergeSample.C18_node_in_two_layers",
    "Verif.MergeSample.C18_interlayer_removal_kept",
    "Verif.MergeSample.C18_two_parents_kept",
    "Verif.MergeSample.C18_chain_of_merges"
   ],
   "note": "The preconditions are the structure Graph.Mergeable in Spec/Merge.lean; the last seven theorems are counterexamples that justify them. Double addition and subtraction are uninterpreted. The two graphs are distinct objects."
  },
  {
   "property": "C27",
   "status": "proved",
   "theorems": [
    "Verif.C27_json_round_trip",
    "Verif.C27_json_exact",
    "Verif.C27_kept_coefficient",
    "Verif.C27_kept_coefficient_float",
    "Verif.C27_kept_base",
    "Verif.C27_kept_agent",
    "Verif.C27_kept_mesh",
    "Verif.C27_kept_bbox",
    "Verif.ieee_exact",
    "Verif.JsonLimits.C27_infinite_weight_unreadable",
    "Verif.JsonLimits.C27_infinite_position_becomes_nan",
    "Verif.JsonLimits.C27_invalid_box_lost",
    "Verif.JsonLimits.C27_name_not_utf8",
    "Verif.JsonLimits.C27_stamped_static_moves",
    "Verif.JsonLimits.C27_unknown_edge_class",
    "Verif.JsonLimits.C27_no_layers"
   ],
   "note": "Documents are trees; printing and parsing by nlohmann::json are modelled by their effect on trees (Json.text). float/double conversions are modelled bit by bit; the conversion between rotation matrix and quaternion is a parameter. The last seven theorems are counterexamples."
  },
  {
   "property": "C49",
   "status": "proved",
   "theorems": [
    "Verif.C49_old_attributes",
    "Verif.C49_old_file",
    "Verif.C49_old_json_attributes",
    "Verif.OldMesh.C49_old_mesh_has_no_stamps"
   ],
   "note": "old layouts specified in Spec/OldFormat.lean and Spec/OldJson.lean, independently of the reader; whole files for the binary format, attribute objects for JSON"
  },
  {
   "property": "C50",
   "status": "proved",
   "theorems": [
    "Verif.C50_any_document",
    "Verif.C50_any_mesh",
    "Verif.C50_then_messages",
    "Verif.C50_scalars",
    "Verif.C50_reduced",
    "Verif.C50_float_for_integer",
    "Verif.JsonSafety.C50_old_colour_uninitialised",
    "Verif.JsonSafety.C50_negative_dimensions",
    "Verif.JsonSafety.C50_language_rules",
    "Verif.JsonSafety.C50_no_compatibility_check"
   ],
   "note": "documents are trees (parsing of text is nlohmann's); memory exhaustion is not modelled; the last four are counterexamples and a remark"
  },
  {
   "property": "C51",
   "status": "proved",
   "theorems": [
    "Verif.C51_no_corruption",
    "Verif.Misuse.append_after_backfill_is_ub",
    "Verif.Misuse.merge_dynamic_faults",
    "Verif.Misuse.null_edge_attributes_is_ub"
   ],
   "note": "Careful (Spec/Careful.lean) is the list of what must be avoided; the last three theorems show that each is needed. A history ends at its first exception: catching one and going on is not covered."
  },
  {
   "property": "C52",
   "status": "proved",
   "theorems": [
    "Verif.C52_structure_survives_misuse"
   ],
   "note": "same histories as C51"
  },
  {
   "property": "C53",
   "status": "proved",
   "theorems": [
    "Verif.C53_graph_nodes",
    "Verif.C53_graph_edges",
    "Verif.C53_layers",
    "Verif.C53_layer",
    "Verif.C53_dynamic_nodes_read_past_the_end",
    "Verif.PyIter.C53_trajectories_left_out"
   ],
   "note": "pybind11's make_iterator is modelled by the relation Py.Loop, which is deterministic (Py.Loop.unique). The graph does not change during the loop."
  },
  {
   "property": "C54",
   "status": "proved",
   "theorems": [
    "Verif.NodeAttrs.C54_equal_to_itself",
    "Verif.NodeAttrs.C54_symmetric",
    "Verif.NodeAttrs.C54_transitive",
    "Verif.NodeAttrs.C54_defined",
    "Verif.NodeAttrs.C54_tells_apart",
    "Verif.NodeAttrs.C54_reloaded",
    "Verif.NodeAttrs.C54_khronos_reloaded_differs",
    "Verif.NodeAttrs.C54_not_symmetric",
    "Verif.NodeAttrs.C54_ignores",
    "Verif.NodeAttrs.C54_feature_sizes",
    "Verif.NodeAttrs.C54_bow_sizes",
    "Verif.NodeAttrs.C54_nan",
    "Verif.C54_edge_attributes",
    "Verif.C54_bounding_boxes",
    "Verif.C54_meshes"
   ],
   "note": "IEEE comparison on bit patterns. C54_khronos_reloaded_differs to C54_nan are counterexamples and limits."
  },
  {
   "property": "C55",
   "status": "proved",
   "theorems": [
    "Verif.BBox.C55_no_point_missed",
    "Verif.BBox.C55_accepted_points_are_near",
    "Verif.BBox.C55_between",
    "Verif.BBox.C55_exact_on_a_grid",
    "Verif.BBox.C55_center",
    "Verif.BBox.C55_invalid",
    "Verif.BBox.C55_rotated",
    "Verif.BBox.C55_unrotated",
    "Verif.BBox.C55_box_frame",
    "Verif.BBox.C55_box_frame_unrotated",
    "Verif.BBox.C55_world_frame",
    "Verif.BBox.C55_corners",
    "Verif.BBox.C55_double",
    "Verif.BBox.C55_not_corners"
   ],
   "note": "IEEE binary32 arithmetic on bit patterns (Model/Float32.lean); lengths are exact integers in units of 2^-149. The last theorem is a counterexample."
  },
  {
   "property": "C56",
   "status": "proved",
   "theorems": [
    "Verif.BBox.C56_symmetric",
    "Verif.BBox.C56_reported_boxes_overlap",
    "Verif.BBox.C56_overlapping_boxes_reported",
    "Verif.BBox.C56_exact_on_a_grid",
    "Verif.BBox.C56_iou_symmetric",
    "Verif.BBox.C56_iou_unsupported",
    "Verif.BBox.C56_iou_disjoint",
    "Verif.BBox.C56_iou_on_a_grid",
    "Verif.BBox.C56_not_iou_at_most_one",
    "Verif.BBox.C56_not_iou_nonnegative",
    "Verif.BBox.C56_not_iou_positive",
    "Verif.BBox.C56_not_iou_a_number",
    "Verif.BBox.C56_oriented_boxes_never_intersect"
   ],
   "note": "Up to half a unit (2^-150) for subnormal odd dimensions. The last five theorems are counterexamples."
  },
  {
   "property": "C57",
   "status": "proved",
   "theorems": [
    "Verif.BBox.C57_fit",
    "Verif.BBox.C57_fit_close",
    "Verif.BBox.C57_fit_exact_on_a_grid",
    "Verif.BBox.C57_no_fit",
    "Verif.BBox.C57_merge_invalid",
    "Verif.BBox.C57_merge_close",
    "Verif.BBox.C57_merge_exact_on_a_grid",
    "Verif.BBox.C57_merge_mixed",
    "Verif.BBox.C57_not_fit_contains",
    "Verif.BBox.C57_not_fit_flat",
    "Verif.BBox.C57_merging_oriented_boxes"
   ],
   "note": "The fit of yaw-aligned boxes is a parameter. Eigen reductions as stated in DESIGN.md section 5. The last three theorems are counterexamples and limits."
  },
  {
   "property": "C58",
   "status": "proved",
   "theorems": [
    "Verif.C58_strong_guarantee",
    "Verif.C58_throws",
    "Verif.C58_catching",
    "Verif.C58_sweep_stops_half_way",
    "Verif.Graph.res_stepT"
   ],
   "note": "Statement-level model Model/Through.lean, proved to agree with the other model (res_stepT). The sweep theorem is a counterexample. std::bad_alloc is not modelled."
  },
  {
   "property": "C59",
   "status": "proved",
   "theorems": [
    "Verif.C59_depth_components",
    "Verif.C59_depends_on_order"
   ],
   "note": "Layers as in C35. The second theorem is a counterexample. The visits can grow exponentially with the depth (nodes of equal cost are visited again); the bound on iterations is (nodes + 1)^depth per root."
  },
  {
   "property": "C60",
   "status": "proved",
   "theorems": [
    "Verif.C60_blend",
    "Verif.C60_blend_ends",
    "Verif.C60_blend_between",
    "Verif.C60_blend_with_itself_differs",
    "Verif.C60_blend_nan",
    "Verif.C60_merge",
    "Verif.C60_hsv",
    "Verif.C60_hls",
    "Verif.C60_hues",
    "Verif.C60_hsv_nan",
    "Verif.C60_hls_nan",
    "Verif.C60_gray",
    "Verif.C60_gray_mono",
    "Verif.C60_quality",
    "Verif.C60_gray_nan",
    "Verif.C60_spectrum",
    "Verif.C60_spectrum_ends",
    "Verif.C60_spectrum_empty",
    "Verif.C60_spectrum_nan",
    "Verif.C60_ironbow",
    "Verif.C60_rainbow",
    "Verif.C60_ids_repeat"
   ],
   "note": "Exact formulas over the rationals in Spec/Color.lean. The hue of an id (log2, exp2) and Color::random are not modelled; C60_ids_repeat holds for every choice of hues. Exactness of the last colour of a spectrum needs at most 2^24 colours."
  },
  {
   "property": "C61",
   "status": "proved",
   "theorems": [
    "Verif.C61_logs_any_graph",
    "Verif.C61_first_call",
    "Verif.C61_later_call",
    "Verif.C61_whole_file",
    "Verif.C61_other_files",
    "Verif.C61_first_name_stays",
    "Verif.C61_two_parents_not_counted",
    "Verif.C61_late_name"
   ],
   "note": "Counts specified in Spec/Logger.lean from public queries and the history. Files are a map from paths to contents; a file that cannot be opened is skipped silently; disk errors while writing are not modelled."
  },
  {
   "property": "C62",
   "status": "proved",
   "theorems": [
    "Verif.C62_colour_entry",
    "Verif.C62_colour_entry_undefined",
    "Verif.C62_colour_round_trip",
    "Verif.C62_get_vertices",
    "Verif.C62_set_vertices",
    "Verif.C62_set_vertices_undefined",
    "Verif.C62_wrong_rows",
    "Verif.C62_vertices_round_trip",
    "Verif.C62_faces_round_trip",
    "Verif.C62_faces_of_mesh"
   ],
   "note": "pybind11's copy between numpy and Eigen is not modelled. Positions that are NaN are excluded from the round trip. 2^31 columns or more overflow the int loop counter (undefined in the model)."
  },
  {
   "property": "C63",
   "status": "proved",
   "theorems": [
    "Verif.Hull.C63_defined",
    "Verif.Hull.C63_hull_of_points",
    "Verif.Hull.C63_convex_hull",
    "Verif.Hull.C63_convex_hull_64",
    "Verif.Hull.C63_box_holds",
    "Verif.Hull.C63_box_holds_64",
    "Verif.Hull.C63_smallest",
    "Verif.Hull.C63_huge_undefined",
    "Verif.Hull.C63_single_point",
    "Verif.Hull.C63_lowest_twice",
    "Verif.Hull.C63_same_direction",
    "Verif.Hull.C63_line",
    "Verif.Hull.C63_nearly_flat"
   ],
   "note": "std::sort is any function meeting the standard's requirements (Spec/Hull.lean `Sorts`); sin, cos, atan2 any functions accurate to 2^-20 (Spec/HullReal.lean `Trig.Accurate`). Convexity and the box are proved for points on a raster of at most 2047 cells whose directions from the lowest are separated; the excluded degenerate inputs are findings with concrete witnesses."
  },
  {
   "property": "C64",
   "status": "proved",
   "theorems": [
    "Verif.C64_points",
    "Verif.C64_box",
    "Verif.C64_yaw_defined",
    "Verif.AncestorBox.C64_two_parents",
    "Verif.AncestorBox.C64_layer_zero_missed"
   ],
   "note": "Composition of C46 (nodes below), getPosition, double-to-float rounding (proved to be within half a unit in the last place) and the fits of C57 and C63."
  },
  {
   "property": "C65",
   "status": "proved",
   "theorems": [
    "Verif.C65_graph_binary",
    "Verif.C65_graph_json",
    "Verif.C65_mesh_binary",
    "Verif.C65_mesh_json",
    "Verif.C65_other_files",
    "Verif.C65_failed_save",
    "Verif.C65_disk_errors_unnoticed",
    "Verif.C65_any_disk",
    "Verif.C65_wrong_kind",
    "Verif.C65_mesh_without_header",
    "Verif.C65_graph_json_as_mesh",
    "Verif.Sample.C65_failed_save_destroys"
   ],
   "note": "The disk is a map from paths to bytes; the fate of the bytes of an output stream is a parameter. The JSON library is any pair of printer and parser with `JsonLib.ReadBy` (Spec/Disk.lean); Lemmas/JsonLib.lean shows that there are such."
  },
  {
   "property": "C66",
   "status": "proved",
   "theorems": [
    "Verif.C66_graph_binary",
    "Verif.C66_graph_json",
    "Verif.C66_mesh_binary",
    "Verif.C66_mesh_json",
    "Verif.C66_not_atomic",
    "Verif.Sample.C66_mesh_lost"
   ],
   "note": "Every reader on a shortened buffer throws or does what it does on the whole one (Lemmas/Cut.lean). JSON files under `JsonLib.Complete`."
  },
  {
   "property": "C67",
   "status": "proved",
   "theorems": [
    "Verif.C67_basic_guarantee",
    "Verif.C67_after_the_torn_sweep"
   ],
   "note": "Statement-level model of Model/Through.lean; the excluded calls are those of C51, for which undefined behaviour is proved there. The second theorem is a concrete history whose sweeps throw half-way."
  },
  {
   "property": "C68",
   "status": "proved",
   "theorems": [
    "Verif.C68_bad_messages",
    "Verif.C68_same_reader",
    "Verif.C68_unknown_edge_then_merge",
    "Verif.C68_received_trajectory_then_append"
   ],
   "note": "Statement-level model of the message reader (Model/Receive.lean), proved to agree with the reader of C22-C26 (C68_same_reader). The last two theorems show why merging and appending are excluded. An assertion of Eigen ends the process (not undefined behaviour)."
  },
  {
   "property": "C69",
   "status": "proved",
   "theorems": [
    "Verif.C69_lossy_line",
    "Verif.C69_between_versions"
   ],
   "note": "Truncation only: bytes that arrive are as sent (arbitrary bytes: C68). The graphs sent and the receiver's first graph accept each other (Graph.Accepts) when they have the same layer ids. C69_between_versions: until a whole message arrives the graph can be one that was never sent."
  },
  {
   "property": "C70",
   "status": "proved",
   "theorems": [
    "Verif.C70_missing_members",
    "Verif.C70_missing_edge_members",
    "Verif.C70_missing_fields",
    "Verif.C70_initialised",
    "Verif.Missing.C70_uninitialised"
   ],
   "note": "The defaults are listed per class in Spec/Missing.lean (`NodeAttrs.only`). Uninitialised members are a parameter of the reader (`JEnv.fresh`); C70_uninitialised shows that they reach the graph."
  },
  {
   "property": "C71",
   "status": "proved",
   "theorems": [
    "Verif.C71_only_text",
    "Verif.C71_otherwise_throws",
    "Verif.C71_mesh"
   ],
   "note": "The strings of a graph are listed in Spec/OnlyText.lean. Trajectories shorter than 2^32 slots."
  },
  {
   "property": "C72",
   "status": "proved",
   "theorems": [
    "Verif.C72_loadable",
    "Verif.C72_otherwise_throws",
    "Verif.C72_on_disk",
    "Verif.Sample.C72_saved_and_lost"
   ],
   "note": "The scalars are listed per class in Spec/Loadable.lean. C72_saved_and_lost: a room with a NaN probability is saved without complaint and cannot be loaded. Matrix members have the sizes of their C++ types and fewer than 2^31 coefficients (Graph.Shaped)."
  },
  {
   "property": "C73",
   "status": "proved",
   "theorems": [
    "Verif.C73_binary_written",
    "Verif.C73_too_long_throws",
    "Verif.C73_gap_faults",
    "Verif.C73_removal_leaves_gap",
    "Verif.C73_saved_and_loaded"
   ],
   "note": "The lengths are listed per class in Spec/Writable.lean. Trajectories shorter than 2^32 slots, matrix members of the sizes of their C++ types. C73_gap_faults is the defect behind C25_removed_dynamic_node_null, for every graph."
  },
  {
   "property": "C74",
   "status": "proved",
   "theorems": [
    "Verif.C74_binary_canonical",
    "Verif.C74_json_canonical",
    "Verif.C74_files_canonical",
    "Verif.C74_appended_no_gap",
    "Verif.C74_resaved_identical"
   ],
   "note": "Same content is Graph.SameContent (Spec/Canonical.lean), in terms of the queries. Trajectories shorter than 2^32 slots. For JSON only the first claim holds: re-saving a loaded document can change digits (a rotation goes through a quaternion)."
  },
  {
   "property": "C75",
   "status": "proved",
   "theorems": [
    "Verif.C75_message_again",
    "Verif.C75_last_message_wins",
    "Verif.C75_own_message",
    "Verif.C75_relayed"
   ],
   "note": "Conditions of C26 (Storable, Accepts, Understood). A receiver whose trajectories have empty slots cannot write a message (C73); C75_relayed is about those that can."
  },
  {
   "property": "C76",
   "status": "proved",
   "theorems": [
    "Verif.C76_merge_again",
    "Verif.C76_edges_again",
    "Verif.MergeSample.C76_chained_ids"
   ],
   "note": "Conditions of C18 (Mergeable), which are proved to hold again after the merge. With an id map or the parent rule the second call keeps the promises of C18 about edges, relative to the result of the first; C76_chained_ids shows that it can remove one."
  }
 ]
}