{
 "claims": [
  {
   "property": "C01",
   "status": "proved",
   "theorems": [
    "Shamrock.C01_morton64_bits",
    "Shamrock.C01_morton32_bits",
    "Shamrock.C01_decode64",
    "Shamrock.C01_decode32",
    "Shamrock.C01_order64",
    "Shamrock.C01_order32"
   ],
   "note": "both widths"
  },
  {
   "property": "C02",
   "status": "proved",
   "theorems": [
    "Shamrock.C02_expand_u64_2",
    "Shamrock.C02_expand_u32_2",
    "Shamrock.C02_expand_u32_1",
    "Shamrock.C02_expand_u64_1",
    "Shamrock.C02_expand_0",
    "Shamrock.C02_contract_u64_2",
    "Shamrock.C02_contract_u32_2",
    "Shamrock.C02_contract_u64_1",
    "Shamrock.C02_contract_u32_1",
    "Shamrock.C02_contract_expand_u64_2",
    "Shamrock.C02_contract_expand_u32_2",
    "Shamrock.C02_contract_expand_u64_1",
    "Shamrock.C02_contract_expand_u32_1",
    "Shamrock.C02_contract_expand_0"
   ],
   "note": "all template instances; expand<_,1> for inputs in range"
  },
  {
   "property": "C03",
   "status": "proved",
   "theorems": [
    "Shamrock.C03_hilbert_bijection",
    "Shamrock.C03_quad_total_order"
   ],
   "note": "compute_hilbert_index_3d<21> is a bijection from the 21-bit grid to the numbers below 2^63; the wide (pair) index is injective on the 42-bit grid and strictly orders distinct cells."
  },
  {
   "property": "C04",
   "status": "proved",
   "theorems": [
    "Shamrock.C04_cell_boxes64",
    "Shamrock.C04_cell_boxes32",
    "Shamrock.C04_node_contains64",
    "Shamrock.C04_node_contains32"
   ],
   "note": "both widths, node and leaf boxes; leaf boxes are the halves of the parent cell"
  },
  {
   "property": "C05",
   "status": "proved",
   "theorems": [
    "Shamrock.C05_karras_tree",
    "Shamrock.C05_unique_parent",
    "Shamrock.C05_radix_cells"
   ],
   "note": "tree encoding, unique parent, depth bound for up to 2^24+1 codes (C06 refutes longer arrays)"
  },
  {
   "property": "C06",
   "status": "partial",
   "theorems": [
    "Shamrock.C06_split_partial",
    "Shamrock.C06_split_f32_defect"
   ],
   "note": "refuted: C06_split_f32_defect gives 2^24+2 codes on which the output is no tree; proved up to 2^24+1 codes"
  },
  {
   "property": "C07",
   "status": "proved",
   "theorems": [
    "Shamrock.C07_reduction",
    "Shamrock.C07_equal_codes_together",
    "Shamrock.C07_level_zero",
    "Shamrock.C07_coarsen"
   ],
   "note": "Proved for every sorted code array of fewer than 2^31 codes, every level, any uninitialised buffer content and any order of compaction work items."
  },
  {
   "property": "C08",
   "status": "proved",
   "theorems": [
    "Shamrock.C08_propagate_up",
    "Shamrock.C08_karras_propagate",
    "Shamrock.C08_field_max"
   ],
   "note": "in-place propagation for every schedule of each launch, any tree within the launch count; end to end on Karras trees"
  },
  {
   "property": "C09",
   "status": "proved",
   "theorems": [
    "Shamrock.C09_traversal",
    "Shamrock.C09_traversal_exact",
    "Shamrock.C09_karras_stack"
   ],
   "note": "traversal equals recursive descent; exact callbacks; stack bound; end to end on Karras trees"
  },
  {
   "property": "C10",
   "status": "proved",
   "theorems": [
    "Shamrock.C10_bitonic_sorts",
    "Shamrock.C10_bitonic_rejects"
   ],
   "note": "USM bitonic sort (bitonicSort_updated_usm.cpp), any stencil size, any interleaving of work items at load/sort/store granularity; key and value buffers modelled as one buffer of pairs"
  },
  {
   "property": "C11",
   "status": "proved",
   "theorems": [
    "Shamrock.C11_insert_sort",
    "Shamrock.C11_segmented_sort",
    "Shamrock.C11_segmented_std_sort",
    "Shamrock.C11_empty_offsets"
   ],
   "note": "Insertion sort kernel, any work item order, any strict weak comparator. The std::sort variant relies on the C++ library."
  },
  {
   "property": "C12",
   "status": "proved",
   "theorems": [
    "Shamrock.C12_odd_even_sorts",
    "Shamrock.C12_no_flags"
   ],
   "note": "Every size and every segment flag pattern."
  },
  {
   "property": "C13",
   "status": "proved",
   "theorems": [
    "Shamrock.C13_lower_bound",
    "Shamrock.C13_upper_bound",
    "Shamrock.C13_boundary_unique",
    "Shamrock.C13_range_search",
    "Shamrock.C13_empty_range"
   ],
   "note": ""
  },
  {
   "property": "C14",
   "status": "partial",
   "theorems": [
    "Shamrock.C14_fallback",
    "Shamrock.C14_inclusive_fallback",
    "Shamrock.C14_gpugems_1_partial",
    "Shamrock.C14_gpugems_2_partial",
    "Shamrock.C14_gpugems_overflow_defect",
    "Shamrock.C14_lookback_exact",
    "Shamrock.C14_lookback_progress",
    "Shamrock.C14_static_ids_stuck_defect",
    "Shamrock.C14_in_place_v5_race_defect",
    "Shamrock.C14_tile30_defect",
    "Shamrock.C14_tile30_partial",
    "Shamrock.C14_lookback6_exact",
    "Shamrock.C14_lookback6_progress_partial",
    "Shamrock.C14_lookback6_stuck_defect"
   ],
   "note": "The kernels used by the library (v5, v5_usm, v5_usm_in_place, fallbacks) are proved for every schedule, length, group size and occupancy, plus progress; the parallel look-back v6 is proved exact for every lane schedule, with progress when all groups are resident (C14_lookback6_*). FALSE for exclusive_sum_in_place_atomic_decoupled_v5 (race), for static tile ids incl. v6 (stuck), for the log-step scan above 2^30 elements and ScanTile30bitint: *_defect theorems."
  },
  {
   "property": "C15",
   "status": "proved",
   "theorems": [
    "Shamrock.C15_stream_compact",
    "Shamrock.C15_spec",
    "Shamrock.C15_non_binary_flags"
   ],
   "note": "USM version; flags are 0/1 (a non binary flag gives garbage: C15_non_binary_flags)."
  },
  {
   "property": "C16",
   "status": "partial",
   "theorems": [
    "Shamrock.C16_dynamic_id_by_arrival",
    "Shamrock.C16_dynamic_id_bijective",
    "Shamrock.C16_uuid_distinct",
    "Shamrock.C16_uuid_copy_defect"
   ],
   "note": "Dynamic ids proved for every arrival order. WithUUID distinctness is FALSE for copied objects (C16_uuid_copy_defect)."
  },
  {
   "property": "C17",
   "status": "proved",
   "theorems": [
    "Shamrock.C17_roundtrip",
    "Shamrock.C17_allocate_limit",
    "Shamrock.C17_never_out_of_bounds",
    "Shamrock.C17_past_end_throws",
    "Shamrock.C17_truncated_buffer_defect"
   ],
   "note": "Aligned (de)serialisation of any sequence of header/buffer items; a buffer truncated relative to its content headers is a proved defect"
  },
  {
   "property": "C18",
   "status": "proved",
   "theorems": [
    "Shamrock.C18_stream_is_a_queue",
    "Shamrock.C18_read_mid",
    "Shamrock.C18_vector_flag_mismatch",
    "Shamrock.C18_read_vector_appends",
    "Shamrock.C18_overwrite"
   ],
   "note": "string/byte stream wrappers"
  },
  {
   "property": "C19",
   "status": "proved",
   "theorems": [
    "Shamrock.C19_roundtrip",
    "Shamrock.C19_bad_leading_throws",
    "Shamrock.C19_bad_trailing_throws",
    "Shamrock.C19_truncated_payload_throws",
    "Shamrock.C19_read_at_eof_defect",
    "Shamrock.C19_truncated_marker_defect",
    "Shamrock.C19_large_array_defect"
   ],
   "note": "records < 2^31 bytes (format limit); defects proved for EOF, truncated markers and larger arrays"
  },
  {
   "property": "C20",
   "status": "proved",
   "theorems": [
    "Shamrock.C20_endian_swap_reverse",
    "Shamrock.C20_endian_swap_involutive"
   ],
   "note": ""
  },
  {
   "property": "C21",
   "status": "proved",
   "theorems": [
    "Shamrock.C21_distributed_data_is_finite_map",
    "Shamrock.C21_distributed_data_map"
   ],
   "note": ""
  },
  {
   "property": "C22",
   "status": "proved",
   "theorems": [
    "Shamrock.C22_transfer_all",
    "Shamrock.C22_transfer_order",
    "Shamrock.C22_transfer_conserves"
   ],
   "note": ""
  },
  {
   "property": "C23",
   "status": "partial",
   "theorems": [
    "Shamrock.C23_set_diff",
    "Shamrock.C23_dd_diff_partial",
    "Shamrock.C23_dd_diff_defect",
    "Shamrock.C23_ids_diff_duplicate_defect"
   ],
   "note": "FALSE of the code for ids >= 2^32 (u32 callback parameter): *_defect theorems; dd_diff_partial proves it below 2^32; the set difference itself is proved."
  },
  {
   "property": "C24",
   "status": "proved",
   "theorems": [
    "Shamrock.C24_oversize_message_throws",
    "Shamrock.C24_table",
    "Shamrock.C24_empty_message_throws",
    "Shamrock.C24_foreign_message_throws",
    "Shamrock.C24_exchange"
   ],
   "note": "Tables for all rank counts, message lists and limits (C24_table), rejection of empty and foreign messages, and the exchange itself under any MPI completion order and in-flight limit (C24_exchange), messages below 2^31 bytes."
  },
  {
   "property": "C25",
   "status": "proved",
   "theorems": [
    "Shamrock.C25_exchange",
    "Shamrock.C25_aligned",
    "Shamrock.C25_serialize",
    "Shamrock.C25_oversize_entry_throws",
    "Shamrock.C25_prehead_defect"
   ],
   "note": "Whole operation on all ranks (grouping, serialization, tables, caches, exchange under any completion order, decoding, local part) for every group that passes with its preamble; the 8 byte window where the code throws is proved as C25_prehead_defect."
  },
  {
   "property": "C26",
   "status": "proved",
   "theorems": [
    "Shamrock.C26_allgatherv",
    "Shamrock.C26_allgatherv_large",
    "Shamrock.C26_gathers_agree",
    "Shamrock.C26_zero_chunk_defect"
   ],
   "note": "positive chunk size with chunk*ranks < 2^31; chunk 0 is C26_zero_chunk_defect; the chunked gather prepends to a non empty receive vector"
  },
  {
   "property": "C27",
   "status": "proved",
   "theorems": [
    "Shamrock.C27_call",
    "Shamrock.C27_history",
    "Shamrock.C27_prefix"
   ],
   "note": "requests summing below 2^64 per call; any engine"
  },
  {
   "property": "C28",
   "status": "proved",
   "theorems": [
    "Shamrock.C28_can_narrow",
    "Shamrock.C28_narrow_or_throw"
   ],
   "note": "All signedness/width pairs; value range given mathematically."
  },
  {
   "property": "C29",
   "status": "partial",
   "theorems": [
    "Shamrock.C29_roundup_pow2_u32",
    "Shamrock.C29_roundup_pow2_u32_out",
    "Shamrock.C29_roundup_pow2_u64",
    "Shamrock.C29_roundup_pow2_clz_u32",
    "Shamrock.C29_roundup_pow2_clz_u64_defect",
    "Shamrock.C29_roundup_pow2_clz_u64_partial",
    "Shamrock.C29_group_count_partial",
    "Shamrock.C29_group_count_defect",
    "Shamrock.C29_unpack_pack",
    "Shamrock.C29_pack_unpack",
    "Shamrock.C29_is_pow_of_two",
    "Shamrock.C29_is_pow_of_two_fast",
    "Shamrock.C29_xor_swap",
    "Shamrock.C29_log2_pow2_num",
    "Shamrock.C29_pow_constexpr"
   ],
   "note": "roundup_pow2 (u32,u64), roundup_pow2_clz<u32>, is_pow_of_two, xor_swap, pack/unpack, log2_pow2_num, pow_constexpr proved on the whole range. The property is FALSE of the code for roundup_pow2_clz<u64> above 2^31 and group_count near 2^32: *_defect theorems prove the violation, *_partial theorems give the exact range where it holds."
  },
  {
   "property": "C30",
   "status": "proved",
   "theorems": [
    "Shamrock.C30_fixed_stack_is_lifo",
    "Shamrock.C30_fixed_stack_single_is_lifo",
    "Shamrock.C30_fixed_stack_contract_needed"
   ],
   "note": ""
  },
  {
   "property": "C31",
   "status": "proved",
   "theorems": [
    "Shamrock.C31_replace_all",
    "Shamrock.C31_increase_indent",
    "Shamrock.C31_replace_all_empty_defect",
    "Shamrock.C31_split_str",
    "Shamrock.C31_split_str_empty_defect",
    "Shamrock.C31_trunc_str",
    "Shamrock.C31_trunc_str_start",
    "Shamrock.C31_contain_substr",
    "Shamrock.C31_shorten_string"
   ],
   "note": "empty pattern / delimiter: non termination proved as defect theorems"
  },
  {
   "property": "C32",
   "status": "proved",
   "theorems": [
    "Shamrock.C32_half_open_membership",
    "Shamrock.C32_intersect_points",
    "Shamrock.C32_empty_iff",
    "Shamrock.C32_overlap_tests",
    "Shamrock.C32_contains_iff",
    "Shamrock.C32_union_least",
    "Shamrock.C32_clamp",
    "Shamrock.C32_degenerate_box",
    "Shamrock.C32_ray_test"
   ],
   "note": "any linear order (no NaN); ray test in exact arithmetic"
  },
  {
   "property": "C33",
   "status": "proved",
   "theorems": [
    "Shamrock.C33_valid_owners",
    "Shamrock.C33_empty_list_defect",
    "Shamrock.C33_balance_bound",
    "Shamrock.C33_change_list"
   ],
   "note": "Any rounding with relative error 2^-52 (round to nearest even is an instance), any std::sort result, any order of the packing loop; loads summing below 2^64; empty list is UB (C33_empty_list_defect)"
  },
  {
   "property": "C34",
   "status": "proved",
   "theorems": [
    "Shamrock.C34_apply_change_list",
    "Shamrock.C34_balance_then_apply",
    "Shamrock.C34_balance_layers"
   ],
   "note": "MPI by its specification (Model/Net), every interleaving; serialisation abstract (any faithful codec)"
  },
  {
   "property": "C35",
   "status": "proved",
   "theorems": [
    "Shamrock.C35_split_partition",
    "Shamrock.C35_merge_split",
    "Shamrock.C35_split_halves",
    "Shamrock.C35_split_patch_fields",
    "Shamrock.C35_merge_patch_split",
    "Shamrock.C35_side_one_wraps"
   ],
   "note": ""
  },
  {
   "property": "C36",
   "status": "proved",
   "theorems": [
    "Shamrock.C36_history_consistent",
    "Shamrock.C36_history_no_failure",
    "Shamrock.C36_ids_not_reused",
    "Shamrock.C36_leaves_tile_roots",
    "Shamrock.C36_load_reduction"
   ],
   "note": "All histories of root insertions, splits, merges and link updates (fewer than 2^32 nodes, because get_split_nodes takes a u32): consistent forest, no failure, ids never reused, leaf boxes tile root boxes, load reduction."
  },
  {
   "property": "C37",
   "status": "proved",
   "theorems": [
    "Shamrock.C37_requests_disjoint",
    "Shamrock.C37_requests_exact",
    "Shamrock.C37_history",
    "Shamrock.C37_step_conserves",
    "Shamrock.C37_step_no_failure",
    "Shamrock.C37_step_exists",
    "Shamrock.C37_update_loads",
    "Shamrock.C37_codec",
    "Shamrock.C37_root_loads_stale_defect"
   ],
   "note": "Proved for the modelled scheduler step (split/merge decision + application, load update, load balance with point-to-point exchange) and every history of root creation, load refresh, object changes and steps. Hypotheses: total load below 2^64, critMerge <= critSplit, split candidates are splittable boxes, patch ids below 2^32, a split/merge step also load-balances (the code's own usage for merges across ranks), codec faithful on sub-layers, objects*nvar < 2^32."
  },
  {
   "property": "C38",
   "status": "proved",
   "theorems": [
    "Shamrock.C38_split_patchdata",
    "Shamrock.C38_split_patchdata_outside",
    "Shamrock.C38_split_patch",
    "Shamrock.C38_split_patch_outside",
    "Shamrock.C38_gap_loses"
   ],
   "note": "split_patchdata for any monotone coordinate transform: partition of objects, throws outside; limit theorem for boxes with gaps"
  },
  {
   "property": "C39",
   "status": "partial",
   "theorems": [
    "Shamrock.C39_append_subset",
    "Shamrock.C39_append_rejects",
    "Shamrock.C39_insert",
    "Shamrock.C39_index_remap_resize",
    "Shamrock.C39_index_remap",
    "Shamrock.C39_index_remap_rejects",
    "Shamrock.C39_remove_ids",
    "Shamrock.C39_remove_ids_duplicates",
    "Shamrock.C39_extract_elements",
    "Shamrock.C39_permut_vars",
    "Shamrock.C39_extract_element_defect",
    "Shamrock.C39_extract_element_partial",
    "Shamrock.C39_layer_append_subset",
    "Shamrock.C39_layer_extract_elements"
   ],
   "note": "all bulk edits proved; extract_element is defective for nvar>=2 (C39_extract_element_defect)"
  },
  {
   "property": "C40",
   "status": "partial",
   "theorems": [
    "Shamrock.C40_serial_tree",
    "Shamrock.C40_owner",
    "Shamrock.C40_outside_partial",
    "Shamrock.C40_for_each_leaf",
    "Shamrock.C40_outside_defect"
   ],
   "note": "Positions in a root box: fully proved for every tree history, root order and monotone rounding (C40_owner), with the structure of the serial tree and the host traversal. Positions outside: FALSE when the first root is an unsplit leaf (C40_outside_defect), proved otherwise (C40_outside_partial)."
  },
  {
   "property": "C41",
   "status": "proved",
   "theorems": [
    "Shamrock.C41_reattribute",
    "Shamrock.C41_conserves",
    "Shamrock.C41_reattribute_tree",
    "Shamrock.C41_outside_throws",
    "Shamrock.C41_serialization"
   ],
   "note": "all ranks, patches, objects, schedules; communication limits as in C25; point location through C40, serialization through C50. Objects outside every root: throws when the owner is the error id (the unsplit first root case is C40's defect)."
  },
  {
   "property": "C42",
   "status": "partial",
   "theorems": [
    "Shamrock.C42_balance_no_failure",
    "Shamrock.C42_balance",
    "Shamrock.C42_insert_partial",
    "Shamrock.C42_threshold_throws",
    "Shamrock.C42_no_local_patch_defect",
    "Shamrock.C42_locality_check",
    "Shamrock.C42_push_partial",
    "Shamrock.C42_push_balance_partial"
   ],
   "note": "insertion, point location, exchange, locality check and the final balance_load loop (C42_balance, C42_balance_no_failure: load update and both scheduler steps of every iteration, for every execution) proved for all ranks when every pushing rank owns a patch; C42_push_balance_partial joins them: push_patch_data end to end, from a scheduler state to the state after balance_load, with the union of all ranks' objects equal to the old ones plus the pushed ones, each in the patch that contains it; a rank without patches loses its objects (defect theorem), so the full statement is false of the code"
  },
  {
   "property": "C43",
   "status": "proved",
   "theorems": [
    "Shamrock.C43_conflicts_ordered",
    "Shamrock.C43_incomplete_state_throws",
    "Shamrock.C43_no_deadlock"
   ],
   "note": "All interleavings of host and device steps, lagging status queries, any number of buffers, operations and tasks. Assumes correct API use (spelled out at EvStep) and one host thread."
  },
  {
   "property": "C44",
   "status": "proved",
   "theorems": [
    "Shamrock.C44_base_grid",
    "Shamrock.C44_zero_axis_wraps"
   ],
   "note": ""
  },
  {
   "property": "C45",
   "status": "partial",
   "theorems": [
    "Shamrock.C45_gather_rank0_partial",
    "Shamrock.C45_rank_ignored_defect",
    "Shamrock.C45_gather_layers_partial",
    "Shamrock.C45_large_message_defect"
   ],
   "note": "rank 0 proved for every distribution and interleaving, with the real serialization; the rank argument is ignored (defect theorem), and a patch of 2^31 bytes or more overflows the i32 buffer size (defect theorem)"
  },
  {
   "property": "C46",
   "status": "proved",
   "theorems": [
    "Shamrock.C46_exchange",
    "Shamrock.C46_exchange_unique",
    "Shamrock.C46_oversize_throws",
    "Shamrock.C46_max_comm",
    "Shamrock.C46_zero_limit_defect",
    "Shamrock.C46_nonempty_recv_defect"
   ],
   "note": "One exchange: posts, tags, buffers, progress under any in-flight limit and any MPI buffering, unique result; batched loop with its int/u32 counter: same payloads, same order per sender, identical when one batch suffices. Defects: limit 0 never returns; a non-empty receive list is overwritten. MPI is the trusted specification of Model/Net; the 120 s timeouts and the probe variant (unused) are not modelled."
  },
  {
   "property": "C47",
   "status": "proved",
   "theorems": [
    "Shamrock.C47_children_tile_domain",
    "Shamrock.C47_grid_slabs_tile",
    "Shamrock.C47_int_transform_roundtrip",
    "Shamrock.C47_int_transform_coarse"
   ],
   "note": "Floating arithmetic abstracted as any monotone rounded arithmetic."
  },
  {
   "property": "C48",
   "status": "proved",
   "theorems": [
    "Shamrock.C48_dump_roundtrip",
    "Shamrock.C48_bad_magic_throws",
    "Shamrock.C48_fetch_last",
    "Shamrock.C48_long_tag_defect"
   ],
   "note": "dumps whose keys are 16 characters and records below 2^31 bytes; longer keys: C48_long_tag_defect"
  },
  {
   "property": "C49",
   "status": "proved",
   "theorems": [
    "Shamrock.C49_hilbert_adjacent",
    "Shamrock.C49_hilbert_cells_contiguous",
    "Shamrock.C49_quad_jump_defect"
   ],
   "note": "Continuity and contiguity of dyadic cells for the u64 index; the pair index is shown discontinuous (C49_quad_jump_defect)."
  },
  {
   "property": "C50",
   "status": "proved",
   "theorems": [
    "Shamrock.C50_layer_roundtrip",
    "Shamrock.C50_layer_too_big"
   ],
   "note": "field and layer serialize_buf/deserialize_buf through the byte level serializer model"
  },
  {
   "property": "C51",
   "status": "proved",
   "theorems": [
    "Shamrock.C51_restore",
    "Shamrock.C51_write",
    "Shamrock.C51_layer_codec",
    "Shamrock.C51_ready",
    "Shamrock.C51_restart",
    "Shamrock.C51_dead_patch_defect",
    "Shamrock.C51_empty_buffer",
    "Shamrock.C51_i64_field_defect",
    "Shamrock.C51_no_patch_defect"
   ],
   "note": "C51_restore: loading any file the writes give returns the state (any number of ranks); C51_write: when it is written; C51_restart: the restarted scheduler meets the C37 spec (restart is a constructor of SchedHist); C51_ready: a step without splits/merges makes the state dumpable; defects proved: dead patches, i64 fields, no patch."
  },
  {
   "property": "C52",
   "status": "proved",
   "theorems": [
    "Shamrock.C52_build",
    "Shamrock.C52_search",
    "Shamrock.C52_neighbours",
    "Shamrock.C52_build_rejects",
    "Shamrock.C52_leaf_boxes_disjoint",
    "Shamrock.C52_cells_nested"
   ],
   "note": "End to end build (codes, sort, reduction, radix tree, boxes) and stack search, for every schedule; monotone rounded arithmetic; at most 2^24+1 objects (limit of C06)."
  },
  {
   "property": "C53",
   "status": "proved",
   "theorems": [
    "Shamrock.C53_reference",
    "Shamrock.C53_multipass",
    "Shamrock.C53_select",
    "Shamrock.C53_ordered",
    "Shamrock.C53_ordered_deterministic",
    "Shamrock.C53_select_ranges_overflow_defect"
   ],
   "note": "Reference: cover exactly once, acceptance and reachability of each pair. Multipass and parallel select return the same pairs under every schedule; ordering is deterministic. _defect: parallel select overflows its stack on extended objects. C52_cells_nested is the nesting of cell boxes the select stack bound rests on."
  },
  {
   "property": "C54",
   "status": "proved",
   "theorems": [
    "Shamrock.C54_cell_radii",
    "Shamrock.C54_direct",
    "Shamrock.C54_two_stage",
    "Shamrock.C54_exact",
    "Shamrock.C54_symmetric",
    "Shamrock.C54_searches_agree",
    "Shamrock.C54_rounding_defect"
   ],
   "note": "Direct and two stage searches, all schedules; exactness over any ordered ring, conservative under any monotone rounding (the cube test), _defect witness in double arithmetic at the edge of the kernel."
  },
  {
   "property": "C55",
   "status": "proved",
   "theorems": [
    "Shamrock.C55_never_undefined",
    "Shamrock.C55_memory_limit",
    "Shamrock.C55_get_cache",
    "Shamrock.C55_keeps_others",
    "Shamrock.C55_generated_once",
    "Shamrock.C55_fifo",
    "Shamrock.C55_fifo_defect",
    "Shamrock.C55_build_twice_defect"
   ],
   "note": "generator exceptions not modelled"
  },
  {
   "property": "C56",
   "status": "proved",
   "theorems": [
    "Shamrock.C56_tree_field",
    "Shamrock.C56_ghosts",
    "Shamrock.C56_one_sided_defect",
    "Shamrock.C56_large_radius_defect",
    "Shamrock.C56_shear_negative_dir_defect",
    "Shamrock.C56_images",
    "Shamrock.C56_periodic",
    "Shamrock.C56_free",
    "Shamrock.C56_neighbours",
    "Shamrock.C56_shearing"
   ],
   "note": "In exact arithmetic for the geometric statements; content, order and absence of errors for any monotone arithmetic. Negative results as _defect theorems."
  },
  {
   "property": "C57",
   "status": "proved",
   "theorems": [
    "Shamrock.Amr.C57_split_tiles",
    "Shamrock.Amr.C57_merge_split",
    "Shamrock.Amr.C57_octet_test",
    "Shamrock.Amr.C57_old_test_defect",
    "Shamrock.Amr.C57_refine_flags",
    "Shamrock.Amr.C57_pass",
    "Shamrock.Amr.C57_refined_mean",
    "Shamrock.Amr.C57_refined_physical",
    "Shamrock.Amr.C57_tiling",
    "Shamrock.Amr.C57_history",
    "Shamrock.Amr.C57_conservation",
    "Shamrock.Amr.C57_content",
    "Shamrock.Amr.C57_merge_race_defect",
    "Shamrock.Amr.C57_merge_orientation_defect",
    "Shamrock.Amr.C57_patch_border_defect",
    "Shamrock.Amr.C57_stale_snapshot_defect"
   ],
   "note": "Pass, balance, tiling, Morton order, histories, refinement flags and conservation (fresh snapshot) proved for every schedule; five defect theorems (stale snapshot, transposed merge, racy octet test, patch borders, old test)."
  },
  {
   "property": "C58",
   "status": "proved",
   "theorems": [
    "Shamrock.Amr.C58_block_links",
    "Shamrock.Amr.C58_cell_links",
    "Shamrock.Amr.C58_adjacent",
    "Shamrock.Amr.C58_symmetric",
    "Shamrock.Amr.C58_elongated_throws"
   ],
   "note": "block and cell graphs, six directions, symmetry, antecedents; elongated domains throw"
  },
  {
   "property": "C59",
   "status": "proved",
   "theorems": [
    "Shamrock.Fv.C59_rusanov_antisym",
    "Shamrock.Fv.C59_hll_antisym",
    "Shamrock.Fv.C59_hllc_antisym",
    "Shamrock.Fv.C59_hllc_defect",
    "Shamrock.Fv.C59_dust_antisym",
    "Shamrock.Fv.C59_hb_rest_defect",
    "Shamrock.Fv.C59_consistent",
    "Shamrock.Fv.C59_round_trip",
    "Shamrock.Fv.C59_built",
    "Shamrock.Fv.C59_rates",
    "Shamrock.Fv.C59_balance",
    "Shamrock.Fv.C59_periodic",
    "Shamrock.Fv.C59_solvers"
   ],
   "note": "HLLC under ordered wave speed estimates; the colliding streams case is proved to lose mass (C59_hllc_defect)"
  },
  {
   "property": "C60",
   "status": "proved",
   "theorems": [
    "Shamrock.Gz.C60_ghosts",
    "Shamrock.Gz.C60_images",
    "Shamrock.Gz.C60_cells",
    "Shamrock.Gz.C60_values",
    "Shamrock.Gz.C60_even",
    "Shamrock.Gz.C60_outflow_defect"
   ],
   "note": "C60_ghosts: content and order for all ranks and schedules; C60_images: which images, each once; C60_cells, C60_values: geometry and values; C60_even: refusal; C60_outflow_defect: corner ghosts of outflow"
  },
  {
   "property": "C61",
   "status": "proved",
   "theorems": [
    "Shamrock.Fv.C61_mesh",
    "Shamrock.Fv.C61_conservation",
    "Shamrock.Fv.C61_rusanov",
    "Shamrock.Fv.C61_hll",
    "Shamrock.Fv.C61_small_mesh",
    "Shamrock.Fv.C61_limiter",
    "Shamrock.Fv.C61_slopes",
    "Shamrock.Fv.C61_update",
    "Shamrock.Fv.C61_gap",
    "Shamrock.Fv.C61_linear",
    "Shamrock.Fv.C61_bounded",
    "Shamrock.Fv.C61_overshoot_defect"
   ],
   "note": "grading is a hypothesis of the second order case; exact arithmetic outside the Riemann solver"
  },
  {
   "property": "C62",
   "status": "proved",
   "theorems": [
    "Shamrock.Sph.C62_pair",
    "Shamrock.Sph.C62_conservation",
    "Shamrock.Sph.C62_periodic",
    "Shamrock.Sph.C62_shearing",
    "Shamrock.Sph.C62_free",
    "Shamrock.Sph.C62_fields",
    "Shamrock.Sph.C62_dissipation",
    "Shamrock.Sph.C62_one_sided_defect",
    "Shamrock.Sph.C62_mhd_defect"
   ],
   "note": "pair law for the three viscosities, sums over all patches with the caches of C54 and the ghosts of C56, three boundaries, exchange of the ghost fields under all schedules; two negative results"
  },
  {
   "property": "C63",
   "status": "proved",
   "theorems": [
    "Shamrock.Sph.C63_flags",
    "Shamrock.Sph.C63_takenBy",
    "Shamrock.Sph.C63_accretion",
    "Shamrock.Sph.C63_forces",
    "Shamrock.Sph.C63_step",
    "Shamrock.Sph.C63_history",
    "Shamrock.Sph.C63_start",
    "Shamrock.Sph.C63_angular",
    "Shamrock.Sph.C63_angular_drift"
   ],
   "note": "The angular momentum is proved to change by an exact term in steps with accretion (C63_angular); C63_angular_drift shows that the term need not vanish (the code calls the formula a trick for better conservation)."
  },
  {
   "property": "C64",
   "status": "proved",
   "theorems": [
    "Shamrock.Kern.C64_normalised",
    "Shamrock.Kern.C64_support",
    "Shamrock.Kern.C64_positive",
    "Shamrock.Kern.C64_gradient",
    "Shamrock.Kern.C64_decreasing",
    "Shamrock.Kern.C64_strict",
    "Shamrock.Kern.C64_second",
    "Shamrock.Kern.C64_potential"
   ],
   "note": "all eighteen polynomial kernels, over the reals (no rounding); the truncated Gaussians are not modelled"
  },
  {
   "property": "C65",
   "status": "proved",
   "theorems": [
    "Shamrock.Smooth.C65_density",
    "Shamrock.Smooth.C65_step",
    "Shamrock.Smooth.C65_loop",
    "Shamrock.Smooth.C65_bounds",
    "Shamrock.Smooth.C65_converged",
    "Shamrock.Smooth.C65_solution",
    "Shamrock.Smooth.C65_fixed",
    "Shamrock.Smooth.C65_omega",
    "Shamrock.Smooth.C65_lone",
    "Shamrock.Smooth.C65_prestep",
    "Shamrock.Smooth.C65_gives_up",
    "Shamrock.Smooth.C65_stationary"
   ],
   "note": "Over the reals; caches as in C54. A pre-step that never converges only logs an error and goes on (C65_gives_up)."
  },
  {
   "property": "C66",
   "status": "proved",
   "theorems": [
    "Shamrock.Setup.C66_discontinuous",
    "Shamrock.Setup.C66_setup",
    "Shamrock.Setup.C66_rank_independent",
    "Shamrock.Setup.C66_ids",
    "Shamrock.Setup.C66_combiner_stuck_defect",
    "Shamrock.Setup.C66_context_defect",
    "Shamrock.Setup.C66_order_defect",
    "Shamrock.Setup.C66_default_step_defect"
   ],
   "note": "Loop, ranks, ids and discontinuous iterator for every setup tree, in the regime where some rank asks for at least 2^depth particles per step. Violations of the code outside of it: C66_combiner_stuck_defect, C66_order_defect (ids with a combiner), C66_context_defect, C66_default_step_defect. apply_setup_new's message passing and ModifierSplitPart are not modelled."
  },
  {
   "property": "C67",
   "status": "proved",
   "theorems": [
    "Shamrock.Setup.C67_spacing",
    "Shamrock.Setup.C67_cubic_spacing",
    "Shamrock.Setup.C67_hcp_bounds",
    "Shamrock.Setup.C67_cubic_bounds",
    "Shamrock.Setup.C67_hcp_generator",
    "Shamrock.Setup.C67_cubic_generator",
    "Shamrock.Setup.C67_periodic",
    "Shamrock.Setup.C67_periodic_fill",
    "Shamrock.Setup.C67_ideal",
    "Shamrock.Setup.C67_nearest_defect"
   ],
   "note": "Over the reals; index bounds must fit i32 (the conversion is undefined otherwise). C67_nearest_defect: zero width boxes."
  },
  {
   "property": "C68",
   "status": "proved",
   "theorems": [
    "Shamrock.Fmm.C68_contract",
    "Shamrock.Fmm.C68_leaf_moments_0",
    "Shamrock.Fmm.C68_moments_add_0",
    "Shamrock.Fmm.C68_multipole_shift_0",
    "Shamrock.Fmm.C68_leaf_moments_1",
    "Shamrock.Fmm.C68_moments_add_1",
    "Shamrock.Fmm.C68_multipole_shift_1",
    "Shamrock.Fmm.C68_leaf_moments_2",
    "Shamrock.Fmm.C68_moments_add_2",
    "Shamrock.Fmm.C68_multipole_shift_2",
    "Shamrock.Fmm.C68_leaf_moments_3",
    "Shamrock.Fmm.C68_moments_add_3",
    "Shamrock.Fmm.C68_multipole_shift_3",
    "Shamrock.Fmm.C68_leaf_moments_4",
    "Shamrock.Fmm.C68_moments_add_4",
    "Shamrock.Fmm.C68_multipole_shift_4",
    "Shamrock.Fmm.C68_leaf_moments_5",
    "Shamrock.Fmm.C68_moments_add_5",
    "Shamrock.Fmm.C68_multipole_shift_5",
    "Shamrock.Fmm.C68_green",
    "Shamrock.Fmm.C68_green_variants",
    "Shamrock.Fmm.C68_field_taylor_1",
    "Shamrock.Fmm.C68_field_taylor_2",
    "Shamrock.Fmm.C68_field_taylor_3",
    "Shamrock.Fmm.C68_field_taylor_4",
    "Shamrock.Fmm.C68_field_taylor_5",
    "Shamrock.Fmm.C68_pot_taylor_0",
    "Shamrock.Fmm.C68_pot_taylor_1",
    "Shamrock.Fmm.C68_pot_taylor_2",
    "Shamrock.Fmm.C68_pot_taylor_3",
    "Shamrock.Fmm.C68_pot_taylor_4",
    "Shamrock.Fmm.C68_pot_taylor_5",
    "Shamrock.Fmm.C68_evaluate_1",
    "Shamrock.Fmm.C68_local_shift_1",
    "Shamrock.Fmm.C68_cell_force_1",
    "Shamrock.Fmm.C68_particle_force_1",
    "Shamrock.Fmm.C68_evaluate_2",
    "Shamrock.Fmm.C68_local_shift_2",
    "Shamrock.Fmm.C68_cell_force_2",
    "Shamrock.Fmm.C68_particle_force_2",
    "Shamrock.Fmm.C68_evaluate_3",
    "Shamrock.Fmm.C68_local_shift_3",
    "Shamrock.Fmm.C68_cell_force_3",
    "Shamrock.Fmm.C68_particle_force_3",
    "Shamrock.Fmm.C68_evaluate_4",
    "Shamrock.Fmm.C68_local_shift_4",
    "Shamrock.Fmm.C68_cell_force_4",
    "Shamrock.Fmm.C68_particle_force_4",
    "Shamrock.Fmm.C68_evaluate_5",
    "Shamrock.Fmm.C68_local_shift_5",
    "Shamrock.Fmm.C68_cell_force_5",
    "Shamrock.Fmm.C68_particle_force_5",
    "Shamrock.Fmm.C68_cell_pot_0",
    "Shamrock.Fmm.C68_cell_pot_1",
    "Shamrock.Fmm.C68_cell_pot_2",
    "Shamrock.Fmm.C68_cell_pot_3",
    "Shamrock.Fmm.C68_cell_pot_4",
    "Shamrock.Fmm.C68_cell_pot_5",
    "Shamrock.Fmm.C68_local_shift_pot"
   ],
   "note": "all orders coded, over the reals"
  },
  {
   "property": "C69",
   "status": "proved",
   "theorems": [
    "Shamrock.SelfGrav.C69_tree_moments",
    "Shamrock.SelfGrav.C69_downward_pass",
    "Shamrock.SelfGrav.C69_criterion",
    "Shamrock.SelfGrav.C69_sgsfmm",
    "Shamrock.SelfGrav.C69_sgsfmm_select",
    "Shamrock.SelfGrav.C69_theta_zero"
   ],
   "note": "End to end on the built tree, over the reals; the L2L kernel is taken to be sequentially consistent (no fence in the code between moments and flags)."
  },
  {
   "property": "C70",
   "status": "proved",
   "theorems": [
    "Shamrock.SelfGrav.C70_criterion",
    "Shamrock.SelfGrav.C70_sgmm",
    "Shamrock.SelfGrav.C70_sgfmm",
    "Shamrock.SelfGrav.C70_theta_zero_defect"
   ],
   "note": "SGMMPlummer and SGFMMPlummer for positive opening angles; the division by zero for angle 0 is the theorem C70_theta_zero_defect"
  },
  {
   "property": "C71",
   "status": "proved",
   "theorems": [
    "Shamrock.SelfGrav.C71_reference",
    "Shamrock.SelfGrav.C71_device_safe",
    "Shamrock.SelfGrav.C71_no_deadlock",
    "Shamrock.SelfGrav.C71_device",
    "Shamrock.SelfGrav.C71_padding_defect",
    "Shamrock.SelfGrav.C71_matches_fmm"
   ],
   "note": "reference and device mode of SGDirectPlummer, all interleavings; the NaN of the padding without softening is the theorem C71_padding_defect"
  },
  {
   "property": "C72",
   "status": "partial",
   "theorems": [
    "Shamrock.Dust.C72_mass",
    "Shamrock.Dust.C72_momentum",
    "Shamrock.Dust.C72_step",
    "Shamrock.Dust.C72_energy_off",
    "Shamrock.Dust.C72_energy_on_defect",
    "Shamrock.Dust.C72_implicit_partial",
    "Shamrock.Dust.C72_comoving_partial",
    "Shamrock.Dust.C72_comoving_defect"
   ],
   "note": "Proved: mass, momentum, the identities of the energies, backward Euler and comoving states for densities that the transport leaves in proportion. The code violates the rest: the heating option is inverted and the densities are those from before the transport (C72_energy_on_defect, C72_comoving_defect)."
  },
  {
   "property": "C73",
   "status": "partial",
   "theorems": [
    "Shamrock.Dust.C73_coef",
    "Shamrock.Dust.C73_norm",
    "Shamrock.Dust.C73_scale",
    "Shamrock.Dust.C73_exp_partial",
    "Shamrock.Dust.C73_accuracy_partial",
    "Shamrock.Dust.C73_eigen_partial",
    "Shamrock.Dust.C73_oob_defect"
   ],
   "note": "Proved for all matrices whose scaled norm is at most 3.14952, with the distance to the exponential of the matrix. For those above, the code reads the array of coefficients out of bounds (C73_oob_defect)."
  },
  {
   "property": "C74",
   "status": "partial",
   "theorems": [
    "Shamrock.Dust.C74_drag_partial",
    "Shamrock.Dust.C74_energy_off",
    "Shamrock.Dust.C74_energy_on_defect",
    "Shamrock.Dust.C74_oob_defect"
   ],
   "note": "Proved: mass, momentum, comoving velocities, energy with the option off. The code violates the rest: inverted heating option (C74_energy_on_defect), read out of bounds (C74_oob_defect)."
  },
  {
   "property": "C75",
   "status": "partial",
   "theorems": [
    "Shamrock.Paving.C75_inverse",
    "Shamrock.Paving.C75_cover",
    "Shamrock.Paving.C75_disjoint",
    "Shamrock.Paving.C75_index_partial",
    "Shamrock.Paving.C75_index_shear_partial",
    "Shamrock.Paving.C75_index_defect"
   ],
   "note": "Proved: inverse, cover, uniqueness for all boxes; the index lists for boxes with the lower corner at the origin. For others the code is wrong (C75_index_defect)."
  }
 ]
}