{
 "C16": [
  "partial",
  "Dynamic ids proved for every arrival order. WithUUID distinctness is FALSE for copied objects (C16_uuid_copy_defect)."
 ],
 "C20": [
  "proved",
  ""
 ],
 "C21": [
  "proved",
  ""
 ],
 "C22": [
  "proved",
  ""
 ],
 "C23": [
  "partial",
  "FALSE of the code for ids >= 2^32 (u32 callback parameter): *_defect theorems; dd_diff_partial proves it below 2^32; the set difference itself is proved."
 ],
 "C28": [
  "proved",
  "All signedness/width pairs; value range given mathematically."
 ],
 "C29": [
  "partial",
  "roundup_pow2 (u32,u64), roundup_pow2_clz<u32>, is_pow_of_two, xor_swap, pack/unpack, log2_pow2_num, pow_constexpr proved on the whole range. The property is FALSE of the code for roundup_pow2_clz<u64> above 2^31 and group_count near 2^32: *_defect theorems prove the violation, *_partial theorems give the exact range where it holds."
 ],
 "C30": [
  "proved",
  ""
 ],
 "C35": [
  "proved",
  ""
 ],
 "C44": [
  "proved",
  ""
 ],
 "C47": [
  "proved",
  "Floating arithmetic abstracted as any monotone rounded arithmetic."
 ],
 "C11": [
  "proved",
  "Insertion sort kernel, any work item order, any strict weak comparator. The std::sort variant relies on the C++ library."
 ],
 "C12": [
  "proved",
  "Every size and every segment flag pattern."
 ],
 "C13": [
  "proved",
  ""
 ],
 "C14": [
  "partial",
  "The kernels used by the library (v5, v5_usm, v5_usm_in_place, fallbacks) are proved for every schedule, length, group size and occupancy, plus progress; the parallel look-back v6 is proved exact for every lane schedule, with progress when all groups are resident (C14_lookback6_*). FALSE for exclusive_sum_in_place_atomic_decoupled_v5 (race), for static tile ids incl. v6 (stuck), for the log-step scan above 2^30 elements and ScanTile30bitint: *_defect theorems."
 ],
 "C15": [
  "proved",
  "USM version; flags are 0/1 (a non binary flag gives garbage: C15_non_binary_flags)."
 ],
 "C10": [
  "proved",
  "USM bitonic sort (bitonicSort_updated_usm.cpp), any stencil size, any interleaving of work items at load/sort/store granularity; key and value buffers modelled as one buffer of pairs"
 ],
 "C38": [
  "proved",
  "split_patchdata for any monotone coordinate transform: partition of objects, throws outside; limit theorem for boxes with gaps"
 ],
 "C39": [
  "partial",
  "all bulk edits proved; extract_element is defective for nvar>=2 (C39_extract_element_defect)"
 ],
 "C01": [
  "proved",
  "both widths"
 ],
 "C02": [
  "proved",
  "all template instances; expand<_,1> for inputs in range"
 ],
 "C04": [
  "proved",
  "both widths, node and leaf boxes; leaf boxes are the halves of the parent cell"
 ],
 "C05": [
  "proved",
  "tree encoding, unique parent, depth bound for up to 2^24+1 codes (C06 refutes longer arrays)"
 ],
 "C06": [
  "partial",
  "refuted: C06_split_f32_defect gives 2^24+2 codes on which the output is no tree; proved up to 2^24+1 codes"
 ],
 "C08": [
  "proved",
  "in-place propagation for every schedule of each launch, any tree within the launch count; end to end on Karras trees"
 ],
 "C09": [
  "proved",
  "traversal equals recursive descent; exact callbacks; stack bound; end to end on Karras trees"
 ],
 "C07": [
  "proved",
  "Proved for every sorted code array of fewer than 2^31 codes, every level, any uninitialised buffer content and any order of compaction work items."
 ],
 "C36": [
  "proved",
  "All histories of root insertions, splits, merges and link updates (fewer than 2^32 nodes, because get_split_nodes takes a u32): consistent forest, no failure, ids never reused, leaf boxes tile root boxes, load reduction."
 ],
 "C43": [
  "proved",
  "All interleavings of host and device steps, lagging status queries, any number of buffers, operations and tasks. Assumes correct API use (spelled out at EvStep) and one host thread."
 ],
 "C31": [
  "proved",
  "empty pattern / delimiter: non termination proved as defect theorems"
 ],
 "C32": [
  "proved",
  "any linear order (no NaN); ray test in exact arithmetic"
 ],
 "C17": [
  "proved",
  "Aligned (de)serialisation of any sequence of header/buffer items; a buffer truncated relative to its content headers is a proved defect"
 ],
 "C18": [
  "proved",
  "string/byte stream wrappers"
 ],
 "C19": [
  "proved",
  "records < 2^31 bytes (format limit); defects proved for EOF, truncated markers and larger arrays"
 ],
 "C48": [
  "proved",
  "dumps whose keys are 16 characters and records below 2^31 bytes; longer keys: C48_long_tag_defect"
 ],
 "C33": [
  "proved",
  "Any rounding with relative error 2^-52 (round to nearest even is an instance), any std::sort result, any order of the packing loop; loads summing below 2^64; empty list is UB (C33_empty_list_defect)"
 ],
 "C34": [
  "proved",
  "MPI by its specification (Model/Net), every interleaving; serialisation abstract (any faithful codec)"
 ],
 "C26": [
  "proved",
  "positive chunk size with chunk*ranks < 2^31; chunk 0 is C26_zero_chunk_defect; the chunked gather prepends to a non empty receive vector"
 ],
 "C27": [
  "proved",
  "requests summing below 2^64 per call; any engine"
 ],
 "C24": [
  "proved",
  "Tables for all rank counts, message lists and limits (C24_table), rejection of empty and foreign messages, and the exchange itself under any MPI completion order and in-flight limit (C24_exchange), messages below 2^31 bytes."
 ],
 "C25": [
  "proved",
  "Whole operation on all ranks (grouping, serialization, tables, caches, exchange under any completion order, decoding, local part) for every group that passes with its preamble; the 8 byte window where the code throws is proved as C25_prehead_defect."
 ],
 "C46": [
  "proved",
  "One exchange: posts, tags, buffers, progress under any in-flight limit and any MPI buffering, unique result; batched loop with its int/u32 counter: same payloads, same order per sender, identical when one batch suffices. Defects: limit 0 never returns; a non-empty receive list is overwritten. MPI is the trusted specification of Model/Net; the 120 s timeouts and the probe variant (unused) are not modelled."
 ],
 "C40": [
  "partial",
  "Positions in a root box: fully proved for every tree history, root order and monotone rounding (C40_owner), with the structure of the serial tree and the host traversal. Positions outside: FALSE when the first root is an unsplit leaf (C40_outside_defect), proved otherwise (C40_outside_partial)."
 ],
 "C03": [
  "proved",
  "compute_hilbert_index_3d<21> is a bijection from the 21-bit grid to the numbers below 2^63; the wide (pair) index is injective on the 42-bit grid and strictly orders distinct cells."
 ],
 "C49": [
  "proved",
  "Continuity and contiguity of dyadic cells for the u64 index; the pair index is shown discontinuous (C49_quad_jump_defect)."
 ],
 "C41": [
  "proved",
  "all ranks, patches, objects, schedules; communication limits as in C25; point location through C40, serialization through C50. Objects outside every root: throws when the owner is the error id (the unsplit first root case is C40's defect)."
 ],
 "C50": [
  "proved",
  "field and layer serialize_buf/deserialize_buf through the byte level serializer model"
 ],
 "C45": [
  "partial",
  "rank 0 proved for every distribution and interleaving, with the real serialization; the rank argument is ignored (defect theorem), and a patch of 2^31 bytes or more overflows the i32 buffer size (defect theorem)"
 ],
 "C42": [
  "partial",
  "insertion, point location, exchange, locality check and the final balance_load loop (C42_balance, C42_balance_no_failure: load update and both scheduler steps of every iteration, for every execution) proved for all ranks when every pushing rank owns a patch; C42_push_balance_partial joins them: push_patch_data end to end, from a scheduler state to the state after balance_load, with the union of all ranks' objects equal to the old ones plus the pushed ones, each in the patch that contains it; a rank without patches loses its objects (defect theorem), so the full statement is false of the code"
 ],
 "C37": [
  "proved",
  "Proved for the modelled scheduler step (split/merge decision + application, load update, load balance with point-to-point exchange) and every history of root creation, load refresh, object changes and steps. Hypotheses: total load below 2^64, critMerge <= critSplit, split candidates are splittable boxes, patch ids below 2^32, a split/merge step also load-balances (the code's own usage for merges across ranks), codec faithful on sub-layers, objects*nvar < 2^32."
 ],
 "C51": [
  "proved",
  "C51_restore: loading any file the writes give returns the state (any number of ranks); C51_write: when it is written; C51_restart: the restarted scheduler meets the C37 spec (restart is a constructor of SchedHist); C51_ready: a step without splits/merges makes the state dumpable; defects proved: dead patches, i64 fields, no patch."
 ],
 "C52": [
  "proved",
  "End to end build (codes, sort, reduction, radix tree, boxes) and stack search, for every schedule; monotone rounded arithmetic; at most 2^24+1 objects (limit of C06)."
 ],
 "C53": [
  "proved",
  "Reference: cover exactly once, acceptance and reachability of each pair. Multipass and parallel select return the same pairs under every schedule; ordering is deterministic. _defect: parallel select overflows its stack on extended objects. C52_cells_nested is the nesting of cell boxes the select stack bound rests on."
 ],
 "C54": [
  "proved",
  "Direct and two stage searches, all schedules; exactness over any ordered ring, conservative under any monotone rounding (the cube test), _defect witness in double arithmetic at the edge of the kernel."
 ],
 "C55": [
  "proved",
  "generator exceptions not modelled"
 ],
 "C56": [
  "proved",
  "In exact arithmetic for the geometric statements; content, order and absence of errors for any monotone arithmetic. Negative results as _defect theorems."
 ],
 "C57": [
  "proved",
  "Pass, balance, tiling, Morton order, histories, refinement flags and conservation (fresh snapshot) proved for every schedule; five defect theorems (stale snapshot, transposed merge, racy octet test, patch borders, old test)."
 ],
 "C58": [
  "proved",
  "block and cell graphs, six directions, symmetry, antecedents; elongated domains throw"
 ],
 "C59": [
  "proved",
  "HLLC under ordered wave speed estimates; the colliding streams case is proved to lose mass (C59_hllc_defect)"
 ],
 "C60": [
  "proved",
  "C60_ghosts: content and order for all ranks and schedules; C60_images: which images, each once; C60_cells, C60_values: geometry and values; C60_even: refusal; C60_outflow_defect: corner ghosts of outflow"
 ],
 "C61": [
  "proved",
  "grading is a hypothesis of the second order case; exact arithmetic outside the Riemann solver"
 ],
 "C62": [
  "proved",
  "pair law for the three viscosities, sums over all patches with the caches of C54 and the ghosts of C56, three boundaries, exchange of the ghost fields under all schedules; two negative results"
 ],
 "C63": [
  "proved",
  "The angular momentum is proved to change by an exact term in steps with accretion (C63_angular); C63_angular_drift shows that the term need not vanish (the code calls the formula a trick for better conservation)."
 ],
 "C64": [
  "proved",
  "all eighteen polynomial kernels, over the reals (no rounding); the truncated Gaussians are not modelled"
 ],
 "C65": [
  "proved",
  "Over the reals; caches as in C54. A pre-step that never converges only logs an error and goes on (C65_gives_up)."
 ],
 "C66": [
  "proved",
  "Loop, ranks, ids and discontinuous iterator for every setup tree, in the regime where some rank asks for at least 2^depth particles per step. Violations of the code outside of it: C66_combiner_stuck_defect, C66_order_defect (ids with a combiner), C66_context_defect, C66_default_step_defect. apply_setup_new's message passing and ModifierSplitPart are not modelled."
 ],
 "C67": [
  "proved",
  "Over the reals; index bounds must fit i32 (the conversion is undefined otherwise). C67_nearest_defect: zero width boxes."
 ],
 "C68": [
  "proved",
  "all orders coded, over the reals"
 ],
 "C69": [
  "proved",
  "End to end on the built tree, over the reals; the L2L kernel is taken to be sequentially consistent (no fence in the code between moments and flags)."
 ],
 "C70": [
  "proved",
  "SGMMPlummer and SGFMMPlummer for positive opening angles; the division by zero for angle 0 is the theorem C70_theta_zero_defect"
 ],
 "C71": [
  "proved",
  "reference and device mode of SGDirectPlummer, all interleavings; the NaN of the padding without softening is the theorem C71_padding_defect"
 ],
 "C72": [
  "partial",
  "Proved: mass, momentum, the identities of the energies, backward Euler and comoving states for densities that the transport leaves in proportion. The code violates the rest: the heating option is inverted and the densities are those from before the transport (C72_energy_on_defect, C72_comoving_defect)."
 ],
 "C73": [
  "partial",
  "Proved for all matrices whose scaled norm is at most 3.14952, with the distance to the exponential of the matrix. For those above, the code reads the array of coefficients out of bounds (C73_oob_defect)."
 ],
 "C74": [
  "partial",
  "Proved: mass, momentum, comoving velocities, energy with the option off. The code violates the rest: inverted heating option (C74_energy_on_defect), read out of bounds (C74_oob_defect)."
 ],
 "C75": [
  "partial",
  "Proved: inverse, cover, uniqueness for all boxes; the index lists for boxes with the lower corner at the origin. For others the code is wrong (C75_index_defect)."
 ]
}