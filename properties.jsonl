{"id": "C01", "title": "Morton codes are a lossless, order-respecting key", "statement": "For every coordinate triple inside the grid (10 bits per axis for 32 bit codes, 21 bits per axis for 64 bit codes), decoding the Morton code gives back exactly the triple; two different triples never share a code; bit 3k+2 / 3k+1 / 3k of the code is bit k of x / y / z; increasing one coordinate while keeping the others strictly increases the code; and no valid triple produces the reserved err_code.", "quantifier": "all coordinate triples in the grid, both code widths", "why_tests_cant": "2^63 triples; a test samples a few", "anchors": ["src/shammath/include/shammath/sfc/morton.hpp: MortonCodes::icoord_to_morton, morton_to_icoord, err_code", "src/shammath/include/shammath/sfc/bmi.hpp: bmi::expand_bits, contract_bits"]}
{"id": "C02", "title": "Bit spreading and compaction are mutually inverse", "statement": "bmi::expand_bits moves bit k of the input to bit k*(i+1) of the output and leaves zeros elsewhere, and bmi::contract_bits undoes it, for every input in range and every supported (type, interleave) pair.", "quantifier": "all integers of the supported width, all template instances", "why_tests_cant": "2^32 / 2^21 inputs per instance, magic constants can be wrong in one bit only", "anchors": ["src/shammath/include/shammath/sfc/bmi.hpp"]}
{"id": "C03", "title": "The 3D Hilbert index is a bijection used as a patch order", "statement": "Two distinct 21-bit coordinate triples always get distinct Hilbert indices and every index fits in 63 bits, so ordering patches by Hilbert index is a strict total order on distinct patch origins; every number below 2^63 is the index of exactly one triple.", "quantifier": "all pairs of 21-bit coordinate triples", "why_tests_cant": "2^63 values, no test enumerates them", "anchors": ["src/shammath/include/shammath/sfc/hilbert.hpp: details::compute_hilbert_index_3d, HilbertCurve<u64,3>::icoord_to_hilbert"]}
{"id": "C04", "title": "Tree cell boxes computed from Morton prefixes are exact", "statement": "For a radix tree node whose Morton range shares a prefix of a given length, the cell box computed from (first code, prefix length) contains exactly the integer positions whose Morton code has this prefix: no particle of the node is outside its box and no position inside the box belongs to another prefix.", "quantifier": "all codes and all prefix lengths", "why_tests_cant": "all 64 prefix lengths times 2^63 codes", "anchors": ["src/shammath/include/shammath/sfc/morton.hpp: MortonCodes::get_offset", "src/shamtree/src/kernels/compute_ranges.cpp: sycl_compute_cell_ranges"]}
{"id": "C05", "title": "The Karras radix tree is a well formed binary tree over the sorted codes", "statement": "For every strictly increasing array of 2 <= n <= 2^24+1 Morton codes (longer arrays: C06), the parallel construction gives n-1 internal nodes such that: node 0 covers all leaves; each node covers a contiguous range [i..endrange] (in either direction), its two children cover the two halves [first..split] and [split+1..last], children flags tell exactly whether the half is a single leaf, and every node other than the root (internal or leaf) is child of exactly one internal node.", "quantifier": "all strictly increasing code arrays of up to 2^24+1 codes, all internal nodes (each is computed independently by one thread)", "why_tests_cant": "the structure depends on every bit pattern of the whole array", "anchors": ["src/shamtree/src/KarrasRadixTree.cpp: __karras_alg", "src/shambackends/include/shambackends/math.hpp: karras_delta, clz_xor"]}
{"id": "C06", "title": "Karras split search is independent of leaf count", "statement": "The split position found by the tree construction is correct whatever the number of leaves addressable by u32. (False above 2^24 leaves: the step is computed as ceil(float(l)/div) in f32.)", "quantifier": "all array lengths up to 2^32", "why_tests_cant": "needs an array with more than 2^24 leaves to fail", "anchors": ["src/shamtree/src/KarrasRadixTree.cpp: __karras_alg (split loop)"]}
{"id": "C07", "title": "Tree reduction groups every particle exactly once", "statement": "The reduced tree index map partitions the sorted particle list: cell k covers particle ids [map[k], map[k+1]), the ranges are non empty, disjoint, in order and cover all particles; all particles of equal Morton code stay in one cell; repeated reduction passes keep this.", "quantifier": "all sorted code arrays, all reduction levels", "why_tests_cant": "depends on the run-length structure of the whole array", "anchors": ["src/shamtree/src/kernels/reduction_alg.cpp: make_indexmap, sycl_generate_split_table, sycl_reduction_iteration, reduction_alg"]}
{"id": "C08", "title": "Upward tree propagation gives every node the combination of its leaves under every thread schedule", "statement": "Repeating the in-place child-to-parent kernel (tree depth) times gives, at every internal node, the combine of all leaf values below it (AABB union, field max, ...), whatever order the work items of each launch execute in.", "quantifier": "all trees up to the depth, all leaf values, all work item interleavings of each launch", "why_tests_cant": "interleavings of a racy in-place kernel are not controllable by a test", "anchors": ["src/shamtree/src/KarrasRadixTreeAABB.cpp: prepare_karras_radix_tree_aabb, compute_tree_aabb_from_positions", "src/shamtree/include/shamtree/KarrasRadixTreeField.hpp: prepare_karras_radix_tree_field", "src/shamtree/src/kernels/compute_tree_field (compute_tree_field_max_field)"]}
{"id": "C09", "title": "Stack traversal visits exactly the accepted leaves and never overflows its fixed stack", "statement": "stack_based_traversal calls on_found_leaf on exactly the leaves all whose ancestors (and itself) are accepted, each once, calls on_excluded_node on exactly the first rejected nodes, and the id stack of tree_depth entries never over- or underflows for a tree whose depth in edges is below tree_depth, which holds for the trees built on Morton codes with tree_depth = significant bits + 1.", "quantifier": "all trees, all acceptance predicates", "why_tests_cant": "all predicates over all trees", "anchors": ["src/shamtree/include/shamtree/KarrasTreeTraverser.hpp: stack_based_traversal", "src/shamtree/include/shamtree/TreeTraversal.hpp"]}
{"id": "C10", "title": "GPU bitonic key/value sort sorts", "statement": "For every power of two length, sort_by_key leaves the keys in non decreasing order, and the sequence of (key, value) pairs is a permutation of the input pairs; for other lengths it throws and leaves the data alone. The result does not depend on the order work items of one launch execute.", "quantifier": "all power of two lengths, all inputs, all work item schedules", "why_tests_cant": "0-1 principle needs 2^n inputs per length", "anchors": ["src/shamalgs/src/details/algorithm/bitonicSort_updated_usm.cpp: sort_by_key_bitonic_updated_usm"]}
{"id": "C11", "title": "Segmented and pointer insertion sorts sort each segment only", "statement": "ptr_insert_sort / segmented_sort_in_place turn each [offset[i], offset[i+1]) segment into the sorted permutation of itself and change nothing outside.", "quantifier": "all inputs, segment tables, comparators that are total orders", "why_tests_cant": "all inputs", "anchors": ["src/shambase/include/shambase/alg_primitives.hpp: ptr_insert_sort", "src/shamalgs/src/primitives/segmented_sort_in_place.cpp"]}
{"id": "C12", "title": "Odd-even transposition network sorts a fixed array", "statement": "odd_even_transpose_sort sorts any array of the compile time size, for every size.", "quantifier": "all sizes, all inputs", "why_tests_cant": "0-1 principle needs 2^n inputs per size", "anchors": ["src/shambase/include/shambase/alg_primitives.hpp: odd_even_transpose_sort_segment_flags"]}
{"id": "C13", "title": "Binary searches return the exact boundary", "statement": "On a sorted range, binary_search_lower_bound / upper_bound return the first index whose key is >= / > the searched key (or the end), binary_range_search returns the exact sub range, and no index outside the range is read.", "quantifier": "all sorted arrays, bounds and keys", "why_tests_cant": "off-by-one errors depend on length and key position", "anchors": ["src/shamalgs/include/shamalgs/primitives/lower_bound.hpp", "src/shamalgs/include/shamalgs/primitives/upper_bound.hpp", "src/shamalgs/include/shamalgs/primitives/binary_range_search.hpp"]}
{"id": "C14", "title": "Exclusive scan is correct under every group schedule", "statement": "The log-step scan and the single pass decoupled look-back scan write at index i the sum (mod 2^w) of the first i inputs, for every length and every interleaving of the work groups; the look-back can always make progress.", "quantifier": "all inputs and lengths, all interleavings of work groups", "why_tests_cant": "GPU scheduling is not controllable", "anchors": ["src/shamalgs/include/shamalgs/details/numeric/scanDecoupledLookback.hpp: exclusive_sum_atomic_decoupled_v5_usm(_in_place), exclusive_sum_in_place_atomic_decoupled_v5", "src/shamalgs/src/details/numeric/exclusiveScanGPUGems39.cpp"]}
{"id": "C15", "title": "Stream compaction returns exactly the flagged indices in order", "statement": "stream_compact on a 0/1 flag buffer returns the increasing list of indices whose flag is 1, for every flag buffer of every length, whatever the order work items run.", "quantifier": "all flag buffers, all schedules", "why_tests_cant": "2^n inputs", "anchors": ["src/shamalgs/src/details/numeric/streamCompactExclScan.cpp"]}
{"id": "C16", "title": "Dynamic ids are unique and gap free under every schedule", "statement": "DynamicIdGenerator gives the g-th group to arrive the id g whatever the arrival order, so global ids are a permutation of 0..N-1, and a group only ever waits on groups that already started; WithUUID gives distinct ids to distinct objects.", "quantifier": "all interleavings", "why_tests_cant": "schedules", "anchors": ["src/shamalgs/include/shamalgs/atomic/DynamicIdGenerator.hpp: AccessedDynamicIdGenerator::compute_id", "src/shambase/include/shambase/WithUUID.hpp"]}
{"id": "C17", "title": "SerializeHelper round trip", "statement": "Any sequence of write / write_buf / string writes whose sizes were declared with serialize_byte_size, finalized and reloaded by the same sequence of load / load_buf returns exactly the written values; all device accesses are in bounds and 8 byte aligned; loading past the end throws.", "quantifier": "all sequences of typed writes, all values", "why_tests_cant": "sequences are unbounded, alignment depends on the running sum of sizes", "anchors": ["src/shamalgs/include/shamalgs/serialize.hpp", "src/shamalgs/src/serialize.cpp", "src/shamalgs/include/shamalgs/details/SerializeHelperMember.hpp"]}
{"id": "C18", "title": "Byte stream round trip", "statement": "Reading a byte stream with the same typed read sequence gives back what was written (values, strings, vectors), and byte streams of any preceding/following content are left untouched.", "quantifier": "all sequences", "why_tests_cant": "unbounded sequences", "anchors": ["src/shambase/include/shambase/bytestream.hpp"]}
{"id": "C19", "title": "Fortran record IO round trip and corruption detection", "statement": "FortranIOFile reads back exactly what was written record by record (values, fixed strings, arrays), and a record whose leading or trailing byte count differs from the expected count throws.", "quantifier": "all record sequences", "why_tests_cant": "unbounded sequences", "anchors": ["src/shambase/include/shambase/fortran_io.hpp"]}
{"id": "C20", "title": "endian_swap is the byte reversal involution", "statement": "endian_swap reverses the bytes of the value in place and applying it twice gives the value back, for every size.", "quantifier": "all values of all sizes", "why_tests_cant": "2^64 values", "anchors": ["src/shambase/include/shambase/endian.hpp", "src/shambase/include/shambase/integer.hpp: xor_swap"]}
{"id": "C21", "title": "DistributedData behaves as a finite map", "statement": "add_obj on a fresh id stores it and throws without change on an existing one, get returns what was stored or throws, erase removes exactly that id, map keeps ids, over every history of operations.", "quantifier": "all operation histories", "why_tests_cant": "histories are unbounded", "anchors": ["src/shambase/include/shambase/DistributedData.hpp"]}
{"id": "C22", "title": "Shared transfers conserve objects", "statement": "DistributedDataShared::tranfer_all(selector, other) moves exactly the selected entries (with multiplicity) to the other container: nothing is lost, duplicated or re-keyed and unselected entries stay.", "quantifier": "all multimaps, all selectors", "why_tests_cant": "all predicates and multiplicities", "anchors": ["src/shambase/include/shambase/DistributedDataShared.hpp: tranfer_all"]}
{"id": "C23", "title": "Id set comparison reports exact missing, matching and extra ids", "statement": "on_distributeddata_diff calls the missing / matching / extra callbacks exactly on the ids of the respective set, for all u64 ids. (False for ids >= 2^32: the callback parameter is u32.)", "quantifier": "all pairs of id sets over u64", "why_tests_cant": "ids above 2^32 are never tested", "anchors": ["src/shambase/include/shambase/DistributedData.hpp: on_distributeddata_diff, on_distributeddata_ids_diff", "src/shambase/include/shambase/sets.hpp: set_diff"]}
{"id": "C24", "title": "Sparse exchange tables are consistent on all ranks", "statement": "build_sparse_exchange_table gives every message of size>0 a distinct (sender, receiver, tag), lays messages out in pairwise disjoint byte ranges inside buffers no larger than the allocation limit, sums to the announced totals, and the send list of a rank and the receive lists of the other ranks describe the same messages; empty messages are rejected.", "quantifier": "all message tables, all rank counts, all allocation limits", "why_tests_cant": "all tables", "anchors": ["src/shamalgs/src/collective/sparse_exchange.cpp: build_sparse_exchange_table, compute_tags"]}
{"id": "C25", "title": "Patch data exchange delivers every message exactly once", "statement": "serialize_sparse_comm delivers to the owner rank of each receiver id, exactly once and byte for byte, every (sender, receiver, payload) of every rank, and nothing else, the entries of one (sender, receiver) pair in the order the sender held them, whatever the number of ranks, grouping limit and message completion order; data between two ids of one rank does not go through MPI; an entry that cannot fit in one message is rejected. (False for a group of entries whose size, without the 8 byte preamble, is within 8 bytes of the limit: both ranks throw.)", "quantifier": "all rank counts, id to rank maps, multisets of messages, size limits, completion orders", "why_tests_cant": "interleavings and message sets", "anchors": ["src/shamalgs/include/shamalgs/collective/distributedDataComm.hpp: serialize_sparse_comm", "src/shamalgs/src/collective/distributedDataComm.cpp: distributed_data_sparse_comm, serialize_group_data_max_size", "src/shamalgs/src/collective/sparse_exchange.cpp: sparse_exchange"]}
{"id": "C26", "title": "Chunked gathers equal the plain concatenation by rank", "statement": "vector_allgatherv and vector_allgatherv_large return on every rank the concatenation, in rank order, of the vectors of all ranks, whatever the chunk size.", "quantifier": "all rank counts, vector contents and chunk sizes", "why_tests_cant": "all distributions of lengths over ranks", "anchors": ["src/shamalgs/include/shamalgs/collective/exchanges.hpp: vector_allgatherv, vector_allgatherv_large"]}
{"id": "C27", "title": "Parallel generation does not depend on the rank count", "statement": "InvariantParallelGenerator produces, concatenated over ranks and calls, the same sequence as one rank generating alone, stops at the same count on all ranks, and keeps the generators of all ranks in step.", "quantifier": "all rank counts, generators and request sizes", "why_tests_cant": "all rank counts", "anchors": ["src/shamalgs/include/shamalgs/collective/InvariantParallelGenerator.hpp"]}
{"id": "C28", "title": "Narrowing conversions are exact or rejected", "statement": "can_narrow says true exactly when the mathematical value fits the target type, narrow_or_throw returns that value or throws, for every pair of signedness and width.", "quantifier": "all values, all (source, target) integer types", "why_tests_cant": "2^64 values times all type pairs", "anchors": ["src/shambase/include/shambase/narrowing.hpp"]}
{"id": "C29", "title": "Integer helpers compute their mathematical specification", "statement": "roundup_pow2 / roundup_pow2_clz return the least power of two >= v, group_count the ceiling division, is_pow_of_two the predicate, xor_swap a swap, pack32/unpack32 are inverse, on the whole type range. (False: roundup_pow2_clz<u64> above 2^31, group_count near 2^32.)", "quantifier": "all values of the type", "why_tests_cant": "edge values at type limits", "anchors": ["src/shambase/include/shambase/integer.hpp", "src/shambackends/include/shambackends/math.hpp: roundup_pow2_clz, pack32, unpack32"]}
{"id": "C30", "title": "FixedStack is a bounded LIFO", "statement": "Over every history of push/pop that never exceeds the capacity, FixedStack pops values in last-in-first-out order, never touches memory outside its array, and reports emptiness exactly.", "quantifier": "all histories", "why_tests_cant": "histories", "anchors": ["src/shambase/include/shambase/FixedStack.hpp"]}
{"id": "C31", "title": "String helpers meet their specification", "statement": "split_str returns exactly the non empty pieces between delimiters, replace_all replaces every non overlapping occurrence left to right and terminates, trunc_str keeps short strings and never exceeds the limit; this for a non empty pattern or delimiter (with an empty one split_str and replace_all never return).", "quantifier": "all strings", "why_tests_cant": "unbounded inputs", "anchors": ["src/shambase/include/shambase/string.hpp"]}
{"id": "C32", "title": "Box algebra is sound", "statement": "Intersection / union / containment of AABB and CoordRange agree with point membership: a point is in the intersection iff it is in both, boxes intersect iff they share a point, a half open partition never counts a point twice.", "quantifier": "all boxes and points over any ordered coordinate type", "why_tests_cant": "all reals", "anchors": ["src/shammath/include/shammath/AABB.hpp", "src/shammath/include/shammath/CoordRange.hpp"]}
{"id": "C33", "title": "Load balancing gives every patch a valid owner and keeps packs together", "statement": "For every patch list and world size >=1, make_change_list assigns each patch one rank in [0, world_size), ranks are non decreasing along the Hilbert order before packing, patches packed for a merge get the owner of the pack head, and the change list contains exactly the patches whose owner changes with a (sender, tag) pair unique per message.", "quantifier": "all patch lists, loads and world sizes", "why_tests_cant": "all loads", "anchors": ["src/shamrock/src/scheduler/HilbertLoadBalance.cpp: make_change_list, apply_node_patch_packing", "src/shamrock/include/shamrock/scheduler/loadbalance/LoadBalanceStrategy.hpp"]}
{"id": "C34", "title": "Applying a change list moves patch data without loss", "statement": "After apply_change_list on all ranks, the data of patch p is owned by exactly rank new_owner(p), unchanged, and by no other rank; no rank blocks on a message that is never sent.", "quantifier": "all change lists, all rank counts, all message orders", "why_tests_cant": "distributed interleavings", "anchors": ["src/shamrock/src/scheduler/SchedulerPatchData.cpp: apply_change_list"]}
{"id": "C35", "title": "Splitting a patch partitions it and merging is its inverse", "statement": "The eight children of a patch of even side length cover every integer cell of the parent exactly once, keep the owner, and merging the eight children gives back the parent box; loads never increase in total by splitting.", "quantifier": "all patch boxes", "why_tests_cant": "2^63 boxes", "anchors": ["src/shamrock/include/shamrock/patch/PatchCoord.hpp: get_split, merge", "src/shamrock/include/shamrock/patch/Patch.hpp: get_split, merge_patch"]}
{"id": "C36", "title": "The patch tree stays a consistent forest under every split/merge history", "statement": "Over every history of root insertions, splits of leaves and merges of parents of only leaves: leaf_key is exactly the set of leaves, parent_of_only_leaf_key exactly the nodes whose eight children are leaves, child/parent links agree, ids are never reused, the leaf boxes partition the root boxes.", "quantifier": "all histories", "why_tests_cant": "histories are unbounded", "anchors": ["src/shamrock/src/scheduler/PatchTree.cpp: split_node, merge_node_dm1, insert_root_node"]}
{"id": "C37", "title": "A scheduler step preserves patches, data and ownership", "statement": "Over every history of scheduler steps on any number of ranks: the patches listed are exactly those linked to tree leaves, with the same boxes; each patch data is owned by exactly the rank the list says; the multiset of all objects over all ranks never changes; split and merge requests of one step never touch the same patch when crit_merge <= crit_split.", "quantifier": "all histories of load values, steps, rank counts and split/merge criteria", "why_tests_cant": "distributed histories", "anchors": ["src/shamrock/src/scheduler/PatchScheduler.cpp: scheduler_step, split_patches, merge_patches, set_patch_pack_values", "src/shamrock/src/scheduler/scheduler_patch_list.cpp: split_patch, merge_patch, build_global, build_local"]}
{"id": "C38", "title": "Splitting patch data sends each object to the one child containing it", "statement": "split_patchdata copies every object of the parent to exactly one child, the one whose half open box contains its position, keeping all fields of the object together, or throws when a position is outside the parent.", "quantifier": "all object sets, all monotone coordinate transforms", "why_tests_cant": "all positions incl. exactly on a boundary", "anchors": ["src/shamrock/src/patch/PatchDataLayer.cpp: split_patchdata", "src/shamrock/include/shamrock/patch/Patch.hpp: is_in_patch_converted"]}
{"id": "C39", "title": "Field edits conserve objects", "statement": "append_subset_to, insert, remove_ids, extract_elements, index_remap act on whole objects for every number of variables per object: extraction moves exactly the listed objects, removal keeps the others in order, duplicates are rejected. (False: extract_element for nvar>=2 corrupts the object moved into the hole.)", "quantifier": "all fields, all index lists, all nvar", "why_tests_cant": "nvar>1 combined with interior index", "anchors": ["src/shamrock/src/patch/PatchDataField.cpp"]}
{"id": "C40", "title": "Point location finds the patch containing the position", "statement": "compute_patch_owner returns for every position inside the simulation box the id of the unique patch whose half open box contains it, within the tree depth number of steps; for a position outside all root boxes it returns the error id. (False: if root 0 is an unsplit leaf its patch id is returned.)", "quantifier": "all patch trees, all positions", "why_tests_cant": "all trees", "anchors": ["src/shamrock/include/shamrock/scheduler/SerialPatchTree.hpp: compute_patch_owner", "src/shamrock/src/scheduler/SerialPatchTree.cpp: get_serial_tree"]}
{"id": "C41", "title": "Reattribution moves every object to the patch containing it and loses none", "statement": "After reatribute_patch_objects the multiset of objects over all patches and ranks is unchanged and each object is in the patch its position maps to.", "quantifier": "all object distributions, patch trees and rank counts", "why_tests_cant": "all distributions", "anchors": ["src/shamrock/include/shamrock/scheduler/ReattributeDataUtility.hpp: extract_elements, reatribute_patch_objects"]}
{"id": "C42", "title": "Pushing data into the scheduler loses nothing", "statement": "push_patch_data inserts all objects given on every rank. (False: a rank that owns no patch silently drops its objects.)", "quantifier": "all patch distributions over ranks", "why_tests_cant": "needs a rank without patches", "anchors": ["src/shamrock/include/shamrock/scheduler/DataInserterUtility.hpp: push_patch_data"]}
{"id": "C43", "title": "Buffer event tracking orders all conflicting accesses", "statement": "For every history of read/write accesses to any number of buffers, if each submitted operation starts only after the events of its depends list, then any two operations on a common buffer of which at least one writes never overlap and run in submission order, whatever events complete early; requesting an access on a buffer with an unfinished access throws.", "quantifier": "all histories, all completion orders", "why_tests_cant": "asynchronous completion orders", "anchors": ["src/shambackends/src/details/BufferEventHandler.cpp", "src/shambackends/include/shambackends/EventList.hpp"]}
{"id": "C44", "title": "The base patch grid tiles the box", "statement": "make_patch_base_grid(nx,ny,nz) creates nx*ny*nz root patches which are pairwise disjoint, cubic with a common side, and cover exactly the bounding box announced to the simulation box.", "quantifier": "all grid sizes up to the coordinate range", "why_tests_cant": "all sizes", "anchors": ["src/shamrock/src/scheduler/PatchScheduler.cpp: make_patch_base_grid"]}
{"id": "C45", "title": "gather_data returns the data on the requested rank", "statement": "gather_data(r) returns all patch data, in global patch order, on rank r. (False for r != 0: the rank argument is ignored.)", "quantifier": "all ranks, patch distributions", "why_tests_cant": "needs r != 0", "anchors": ["src/shamrock/src/scheduler/PatchScheduler.cpp: gather_data"]}
{"id": "C46", "title": "Batched sparse communication equals the unbatched one", "statement": "base_sparse_comm delivers to every rank exactly the payloads addressed to it, in a deterministic order (by sender rank, then in the order passed), for every limit on the messages in flight, and never blocks; base_sparse_comm_max_comm with any positive per-step limit (whose multiples do not overflow the int counter) receives exactly the payloads base_sparse_comm receives, those of each sender in the same order. (False for the limit 0: never returns.)", "quantifier": "all message lists, all limits", "why_tests_cant": "all tables", "anchors": ["src/shamalgs/src/collective/sparseXchg.cpp"]}
{"id": "C47", "title": "Patch domain boxes tile the domain", "statement": "The floating/real domain boxes of neighbouring patches share the very same rounded boundary: every domain position of the parent box lies in the half open box of exactly one child (and of exactly one base grid slab), and the integer transform maps patch coordinates to the domain and back exactly.", "quantifier": "all monotone coordinate arithmetic (any rounding), all patches of even side, all positions", "why_tests_cant": "all roundings and positions", "anchors": ["src/shammath/include/shammath/CoordRangeTransform.hpp", "src/shamrock/include/shamrock/patch/SimBox.hpp: patch_coord_to_domain, get_patch_transform", "src/shamrock/include/shamrock/patch/PatchCoord.hpp"]}
{"id": "C48", "title": "Phantom dumps survive a write/read round trip", "statement": "Writing any Phantom dump (headers, blocks, arrays) with gen_file and reading it back with from_file yields the same dump and consumes the whole file; a file without the magic numbers is rejected; looking a header key up returns the last value added for it. (False for keys longer than 16 characters: they are truncated on disk and no longer found.)", "quantifier": "all header tables, block counts, array counts and contents with records below 2^31 bytes", "why_tests_cant": "all dumps", "anchors": ["src/shammodels/sph/src/io/PhantomDump.cpp", "src/shammodels/sph/include/shammodels/sph/io/PhantomDump.hpp"]}
{"id": "C49", "title": "Cells that follow each other on the Hilbert curve are neighbours, and patches occupy contiguous ranges of it", "statement": "Two 21-bit cells whose Hilbert indices differ by one share a face. All the cells of an aligned cube of side 2^m come before or after all the cells of any other such cube, so sorting patches by the index of one corner sorts them by the index of every cell. (The wide, 42-bit index keeps the order but not the continuity: it jumps between blocks.)", "quantifier": "all cells of the grid and all aligned cubes", "why_tests_cant": "2^63 cells", "anchors": ["src/shammath/include/shammath/sfc/hilbert.hpp: compute_hilbert_index_3d, HilbertCurve<quad_hilbert_num,3>", "src/shamrock/src/scheduler/HilbertLoadBalance.cpp: make_change_list"]}
{"id": "C50", "title": "Patch data survives serialization", "statement": "Serializing the data of a patch (any layout, any number of objects, possibly none) takes exactly the announced number of bytes and deserializing the bytes with the same layout gives back the same fields with the same values in the same order, whatever the initial contents of the buffers and the execution order of the kernels. Data of 2^32 bytes or more is refused with an exception.", "quantifier": "all layouts, object counts, values, memory contents and schedules", "why_tests_cant": "all layouts and sizes", "anchors": ["src/shamrock/src/patch/PatchDataField.cpp: serialize_buf, deserialize_buf, serialize_buf_byte_size", "src/shamrock/src/patch/PatchDataLayer.cpp: serialize_buf, deserialize_buf"]}
{"id": "C51", "title": "A checkpoint restarts to the same state, on any number of ranks", "statement": "Loading a dump, on any number of ranks, gives back the user metadata, the layout, the simulation box, the scheduler parameters, the patch tree, the patch list (owners taken modulo the number of ranks) and the data of every patch on its new owner, whatever order the writes of the ranks reached the file in; the restarted scheduler is in a correct state with the same objects, and every later step keeps it correct. Dumps must be made when the patch list has no dead patch: after a merge and before the next step the dump is written but can not be loaded. A layout with an i64 field and a state without patches can not be dumped.", "quantifier": "all histories of the scheduler, all numbers of ranks before and after, all layouts, data, write orders and JSON texts", "why_tests_cant": "all states and write orders", "anchors": ["src/shamrock/src/io/ShamrockDump.cpp: write_shamrock_dump, load_shamrock_dump", "src/shamalgs/include/shamalgs/collective/io.hpp", "src/shamrock/src/scheduler/PatchScheduler.cpp: serialize_patch_metadata", "src/shamrock/src/scheduler/scheduler_patch_list.cpp: to_json, from_json", "src/shamrock/src/scheduler/PatchTree.cpp", "src/shamrock/src/patch/PatchDataLayerLayout.cpp: to_json, from_json", "src/shamrock/include/shamrock/patch/SimBox.hpp"]}
{"id": "C52", "title": "Object search in a bounding volume hierarchy misses nothing and repeats nothing", "statement": "Building the hierarchy over any objects (points or boxes, inside or outside of the bounding box, coinciding or not) succeeds; every object is in exactly one leaf cell, the box of every cell is the smallest box around its objects, and the boxes of two leaves never share a point when objects are points. A search with any acceptance test on boxes reports exactly the objects all of whose enclosing cells are accepted, each once; hence with a test that accepts every box containing a wanted object, filtering gives exactly the wanted objects. No object, too many objects or an empty bounding box are rejected with an exception.", "quantifier": "all objects, positions, compression levels, monotone roundings, kernel schedules, buffer contents and acceptance tests (up to 2^24+1 objects, see C06)", "why_tests_cant": "all positions, schedules and queries", "anchors": ["src/shamtree/src/CompressedLeafBVH.cpp: rebuild_from_positions, rebuild_from_position_range", "src/shamtree/src/MortonCodeSet.cpp", "src/shamtree/src/MortonCodeSortedSet.cpp", "src/shamtree/src/KarrasRadixTreeAABB.cpp", "src/shamtree/include/shamtree/CLBVHObjectIterator.hpp: rtree_for", "src/shamtree/include/shamtree/LeafCellIterator.hpp", "src/shamtree/include/shamtree/CellIterator.hpp"]}
{"id": "C53", "title": "The dual tree traversal covers every pair of objects exactly once, in all implementations", "statement": "For any bounding volume hierarchy and any acceptance test on pairs of boxes, the traversal ends without overflowing its stack and returns far pairs (m2l) and direct pairs (p2p) of cells such that every ordered pair of objects is in exactly one returned pair of cells; far pairs pass the test, direct pairs fail it and are two leaves (or, when the traversal is asked to stop one level higher, a pair of which a child is a leaf), and every returned pair was reached through pairs that all fail the test. The reference, parallel select and multipass implementations return the same pairs; with ordering requested the pairs are grouped by first cell with the offsets of the groups, and the ordered result is the same whatever the implementation and the schedule. (The parallel select implementation only fits trees of points: on extended objects with overlapping boxes its fixed stack overflows.)", "quantifier": "all objects, trees, acceptance tests, kernel schedules and contents of new buffers, with fewer than 2^30 pairs", "why_tests_cant": "all trees, tests and schedules", "anchors": ["src/shamtree/include/shamtree/details/dtt_reference.hpp", "src/shamtree/include/shamtree/details/dtt_parallel_select.hpp", "src/shamtree/include/shamtree/details/dtt_scan_multipass.hpp", "src/shamtree/include/shamtree/details/reorder_scan_dtt_result.hpp", "src/shamtree/src/CLBVHDualTreeTraversal.cpp: clbvh_dual_tree_traversal"]}
{"id": "C54", "title": "The neighbour cache lists exactly the particles in interaction range", "statement": "For every set of particles and smoothing lengths, the direct and the two stage searches give each particle of the patch a list without repetition of the particles (ghosts included) whose distance is at most the kernel radius of the larger of the two interaction radii, and nothing else; the relation is symmetric, the two searches agree up to order, and the flat table is the concatenation of the lists at the announced offsets. In rounded arithmetic a pair that passes the rounded distance test is listed whenever it also passes the rounded cube test; a pair at the very edge of the kernel can be missed (negative result).", "quantifier": "all particles, radii, tree compressions, kernel schedules and contents of new buffers, with fewer than 2^32 pairs", "why_tests_cant": "all particle sets and schedules", "anchors": ["src/shammodels/sph/src/modules/NeighbourCache.cpp: start_neighbors_cache, start_neighbors_cache_2stages", "src/shamtree/include/shamtree/TreeTraversal.hpp: prepare_object_cache, ObjectCacheIterator", "src/shammodels/sph/src/Solver.cpp: compute_presteps_rint", "src/shamtree/include/shamtree/KarrasRadixTreeField.hpp: compute_tree_field_max_field", "src/shamtree/include/shamtree/RadixTree.hpp: sph_radix_cell_crit"]}
{"id": "C55", "title": "The neighbour cache handler respects its memory limit and loses nothing", "statement": "For any history of get_cache, preload and reset calls on an object cache handler, including calls that throw: the objects on the device never exceed the memory limit and the handler's account of it is exact; get_cache(id) returns the contents a call of the generator for id made since the last reset returned, and throws only if that object alone exceeds the limit; the objects of other ids are kept on the device or on the host; an object that was returned once is not generated again before the next reset, however often it was offloaded; as long as nothing throws objects leave the device in the order they came and no more than needed. (Negative results: after an exception objects can leave out of order; build_cache on an id already on the device corrupts the account.)", "quantifier": "all histories of calls, generators, object sizes and allocators, with sizes below the range of u64", "why_tests_cant": "all histories of calls and sizes", "anchors": ["src/shamtree/include/shamtree/TreeTraversalCache.hpp: ObjectCacheHandler", "src/shamtree/include/shamtree/TreeTraversal.hpp: ObjectCache, HostObjectCache"]}
{"id": "C56", "title": "SPH ghost zones hold exactly the particle images in reach of a patch", "statement": "After the ghost exchange of the SPH solver every non empty patch has its own particles followed by exactly, each once, the images of the particles of all patches (not displaced, periodic, or sheared periodic) whose position is within the interaction radius of the patch of its box; the content and its order do not depend on the distribution of patches over ranks, the thread order, the kernel schedule or the communication schedule, and no rank fails. With periodic and sheared (positive axis) boundaries and radii up to the box size these are all images of the infinite lattice, so every particle of the patch finds every image closer than the radius of the patch. (Negative results: the radius of the sender is not used, so the relation is not symmetric; radii larger than the box and shear along a negative axis miss images.)", "quantifier": "all patch trees, placements, particle sets, radii, shear amounts, schedules, thread orders; exact arithmetic for the geometric part, any monotone arithmetic for the rest", "why_tests_cant": "all particle sets, patch trees, schedules and distributions", "anchors": ["src/shammodels/sph/src/BasicSPHGhosts.cpp: find_interfaces, gen_id_table_interfaces, for_each_patch_shift", "src/shammodels/sph/include/shammodels/sph/BasicSPHGhosts.hpp: build_position_interf_field, build_interface_native, merge_position_buf, merge_native", "src/shamrock/include/shamrock/scheduler/SerialPatchTree.hpp: make_patch_tree_field, host_for_each_leafs", "src/shammodels/sph/include/shammodels/sph/SPHUtilities.hpp: build_interf_cache"]}
{"id": "C57", "title": "The AMR refinement pass keeps a balanced octree and conserves mass, momentum and energy", "statement": "If the blocks of a patch are the leaves of an octree (each block at most twice as wide as a block it shares a face with), a refinement pass with any refinement criterion and any kernel schedule ends, and the blocks are again the leaves of an octree of the patch, tiling it, in Morton order and balanced, over any history of passes and time steps. The blocks refined are exactly the smallest set that contains the wishes of the criterion and keeps the balance, found before the limit of 100 sweeps; every new block is a kept block, a part of a refined block (whose new cells have the mean of the old cell and stay physical) or the merger of eight sibling blocks that all asked for it. When the snapshot read by the interpolation holds the current states the total mass, momentum and energy are exactly conserved. (Negative results: the snapshot is that of the start of the time step, so refined blocks go back in time; merged states are transposed in x and z; whether an octet merges depends on the schedule; the balance is not kept across patches; the older pass never merges.)", "quantifier": "all octrees of side up to 2^21, criteria, states, slopes, kernel schedules and histories; exact arithmetic for the states", "why_tests_cant": "all grids, criteria, schedules and histories", "anchors": ["src/shammodels/ramses/src/modules/AMRGridRefinementHandler.cpp: update_refinement_new, internal_refine_grid_new, internal_derefine_grid_new, enforce_two_to_one_refinement_new, enforce_two_to_one_derefinement_new", "src/shamrock/include/shamrock/amr/AMRCell.hpp", "src/shammodels/ramses/src/modules/AMRSortBlocks.cpp: reorder_amr_blocks", "src/shamtree/src/RadixTreeMortonBuilder.cpp", "src/shammodels/ramses/src/Solver.cpp: evolve_once"]}
{"id": "C58", "title": "The AMR neighbour graphs are exactly the shared faces", "statement": "For any mesh of blocks that do not overlap, of any sizes, and any reduction level and schedule, the tree over the blocks is built and the graph of each of the six directions links a block exactly to the blocks that touch it through its face in that direction, each once; likewise for the cells of the blocks (two per direction), within a block and across blocks of different sizes. Over the six directions the links of a block are exactly the blocks that share a face with it. A cell is linked to another in a direction iff the other is linked to it in the opposite direction, and the antecedent of each link is the cell it starts from. (Negative result: a domain whose extents are not all at most or all above 2^20 makes the build throw.)", "quantifier": "all lists of 1 to 2^24+1 disjoint blocks with extents up to 2^62 on the same side of 2^20, reduction levels, directions, kernel schedules and old buffer contents", "why_tests_cant": "all meshes, levels and schedules", "anchors": ["src/shammodels/ramses/src/modules/FindBlockNeigh.cpp", "src/shammodels/ramses/src/modules/BlockNeighToCellNeigh.cpp", "src/shammodels/ramses/include/shammodels/ramses/modules/details/compute_neigh_graph.hpp: compute_neigh_graph", "src/shammodels/ramses/src/modules/NodeBuildTrees.cpp", "src/shammodels/common/include/shammodels/common/amr/NeighGraph.hpp: NeighGraph, compute_antecedent", "src/shamtree/src/RadixTree.cpp", "src/shamtree/include/shamtree/TreeTraversal.hpp: ObjectIterator"]}
{"id": "C59", "title": "The finite volume step conserves mass, momentum and energy", "statement": "The flux across a face seen from one side is exactly the opposite of the flux seen from the other side, in all six directions: for Rusanov and the two dust solvers on all states and with any rounding that commutes with the sign, for HLL (exact arithmetic) on states of positive density and pressure, for HLLC when its wave speed estimates are in order. Between equal states each solver gives the flux of the Euler equations. On any mesh of disjoint cubic blocks the rate of change computed for a cell, times its volume, is minus the sum over exactly the cells that touch it of the flux times the area of the shared face, across blocks of different sizes; so a time step changes the content of a patch only by what flows through its boundary, and on a periodic domain total mass, energy and momentum are unchanged, whatever the schedule of the kernels. (Negative results: for two streams colliding at Mach 2.5 HLLC takes a different flux on each side and mass is lost; Huang and Bai lets no dust enter a cell at rest.)", "quantifier": "all states, solvers and directions; all meshes of disjoint cubic blocks, fields, slopes, time steps, schedules; exact arithmetic outside the Riemann solvers", "why_tests_cant": "all states, meshes and schedules", "anchors": ["src/shammath/include/shammath/riemann.hpp: rusanov_flux_x, hll_flux_x, hllc_flux_x, prim_to_cons, cons_to_prim", "src/shammath/include/shammath/riemann_dust.hpp", "src/shammodels/ramses/include/shammodels/ramses/modules/ComputeFluxUtilities.hpp", "src/shammodels/ramses/src/modules/InterpolateToFace.cpp", "src/shammodels/ramses/src/modules/NodeComputeFlux.cpp", "src/shammodels/ramses/src/modules/SumFluxHydro.cpp", "src/shammodels/ramses/src/modules/TimeIntegrator.cpp: forward_euler", "src/shammodels/common/include/shammodels/common/amr/NeighGraph.hpp: for_each_object_link_id"]}
{"id": "C60", "title": "AMR ghost blocks are exactly the images that touch the patch", "statement": "Before a finite volume step every patch gets, after its own blocks, exactly once the image of each block of each patch, in every tile of the periodic or mirrored continuation of the domain, whose closed image touches the closed patch box (its own blocks in tile zero excepted), and nothing else; the content and its order do not depend on the number of ranks, on the placement of the patches, on the iteration order of hash sets, on kernel schedules nor on the communication schedule, and no stage fails. The image of a block has the mirrored bounds; the cell of the image that lies at the image of a cell has the values of that cell, and vectors have the component normal to a mirror negated. A domain with a side of odd length is refused. (Negative result: with outflow on one axis and another condition on another axis, the ghosts in the corner tiles get the outflow component reversed instead of copied.)", "quantifier": "all patch tree histories, placements on ranks, block lists, layouts with 1 or 8m values per block, boundary conditions per axis, schedules and communication schedules", "why_tests_cant": "all placements, meshes, boundary conditions and schedules", "anchors": ["src/shammodels/ramses/src/modules/FindGhostLayerCandidates.cpp", "src/shammodels/ramses/include/shammodels/ramses/modules/FindGhostLayerCandidates.hpp: get_paving, for_each_paving_tile", "src/shammodels/ramses/src/modules/FindGhostLayerIndices.cpp", "src/shammodels/ramses/src/modules/ExtractGhostLayer.cpp", "src/shammodels/ramses/src/modules/TransformGhostLayer.cpp", "src/shammodels/ramses/src/modules/FuseGhostLayer.cpp", "src/shammath/include/shammath/paving_function.hpp: paving_function_general_3d", "src/shammodels/ramses/src/Solver.cpp: cfg_bc_to_geom, transform_vec_x"]}
{"id": "C61", "title": "A Godunov step on a distributed periodic AMR grid conserves mass, momentum and energy, with limited slopes", "statement": "For every block mesh the gradient kernels give each cell, for each primitive variable, the limiter applied to the means of the difference quotients with exactly the cells that touch it on either side; the distance used is that of the centres, so a linear field has its exact slope also across refinement jumps. Every limiter is zero at extrema, symmetric and odd, and at a face with a cell that is at least as large the reconstructed density, pressure and velocities stay between the two cell values. On a periodic domain cut into any patches, with ghosts from the exchange of C60 and graphs from C58, a full step (primitive variables, slopes, face states, fluxes, rates, Euler update) runs on every patch within bounds for every schedule and leaves the total mass, energy and momentum unchanged: always with Rusanov, and without slopes with HLL on physical states; with slopes the grid must be graded (neighbours differ by at most a factor two). (Negative result: at a face with smaller cells van Leer can reconstruct a negative density from positive ones.)", "quantifier": "all distributions of blocks over patches, block meshes, fields, limiters, time steps and schedules; exact arithmetic outside the flux", "why_tests_cant": "all meshes, patch decompositions, fields and schedules", "anchors": ["src/shammodels/ramses/include/shammodels/ramses/modules/SlopeLimitedGradientUtilities.hpp: slope_function, get_3d_grad", "src/shammath/include/shammath/slopeLimiter.hpp: van_leer_slope, van_leer_slope_symetric, minmod", "src/shammodels/ramses/src/modules/SlopeLimitedGradient.cpp", "src/shammodels/ramses/src/modules/ConsToPrimGas.cpp", "src/shammodels/common/include/shammodels/common/amr/NeighGraph.hpp: for_each_object_link_cnt", "src/shammodels/ramses/src/Solver.cpp: evolve_once"]}
{"id": "C62", "title": "SPH forces conserve momentum, energy and angular momentum over all patches and ghosts", "statement": "Two particles exert opposite forces on each other along the line of their centres, and the internal energies gain what the forces take from the kinetic energy, for the three viscosities, any smoothing kernel, equation of state and particle states. With the ghosts of a periodic, shearing or free boundary, for any decomposition into patches, placement on ranks, iteration order, kernel schedule and communication schedule, the merged fields of a patch belong to the particles of the merged positions (images carry the shear speed), the kernel stays within bounds and divides by no zero, and the accelerations over all particles of all patches sum to zero; without shear the rate of change of kinetic plus internal energy is zero; with a free boundary the total torque is zero too. Viscosity only heats and conduction goes from hot to cold. The hypothesis is that the interaction radius of a patch covers the kernel radius of each particle that reaches it. (Negative results: without that hypothesis, which the code does not enforce, a large particle is pushed by a small one of another patch that does not see it; the MHD kernel takes the sound speed of one particle for both, so that forces are not opposite.)", "quantifier": "all particle states, kernels, viscosities, equations of state, patch trees, placements, boundaries, caches meeting C54, schedules and communication schedules; exact arithmetic", "why_tests_cant": "all states, decompositions, boundaries and schedules", "anchors": ["src/shammodels/sph/include/shammodels/sph/math/forces.hpp: add_to_derivs_sph_artif_visco_cond, sph_pressure_symetric", "src/shammodels/sph/include/shammodels/sph/math/q_ab.hpp", "src/shammodels/sph/src/modules/NodeUpdateDerivsVaryingAlphaAV.cpp", "src/shammodels/sph/src/modules/UpdateDerivs.cpp", "src/shammodels/sph/src/Solver.cpp: communicate_merge_ghosts_fields, evolve_once", "src/shammodels/sph/src/BasicSPHGhosts.cpp", "src/shammodels/sph/include/shammodels/sph/BasicSPHGhosts.hpp: build_interface_native, merge_native", "src/shammodels/sph/include/shammodels/sph/math/mhd.hpp"]}
{"id": "C63", "title": "Sink particles: accretion, mutual forces and the time step conserve mass and momentum", "statement": "Accretion flags every particle with the first sink within whose accretion radius it is; the particles that no sink takes remain, in their order, and each sink that takes particles receives exactly their mass, momentum, mass times position and mass times acceleration, whatever the distribution of the particles over patches and ranks. The forces that gas and sinks exert on each other, and those of the sinks on each other, add up to zero, as do their moments. Over a whole leapfrog step (accretion, predictor, sink forces, moves of particles, any number of corrector turns, corrector of the sinks), and over every history of steps, total mass and total momentum of gas and sinks are unchanged; without moves across periodic boundaries the angular momentum changes only in steps with accretion, by exactly dt/2 times the moment about the old positions of the forces on the sinks at their new positions (which need not be zero).", "quantifier": "all numbers of particles, patches, ranks and sinks, all positions, velocities, masses, radii, time steps, kernel schedules, numbers of corrector turns, all histories of steps", "why_tests_cant": "a run checks one configuration with a tolerance; a sum or a term missing in rare configurations (a particle in two radii, sinks on several ranks) shows as a slow drift", "anchors": ["src/shammodels/sph/src/modules/SinkParticlesFlagAccreteHard.cpp", "src/shammodels/sph/src/modules/SinkParticlesAccreteQuantities.cpp", "src/shammodels/sph/src/modules/SinkParticlesEvictAccretedParticles.cpp", "src/shammodels/sph/src/modules/SinkParticlesUpdate.cpp: predictor_step, corrector_step, compute_sph_forces, compute_ext_forces", "src/shammodels/sph/src/Solver.cpp: evolve_once"]}
{"id": "C64", "title": "SPH kernels: unit mass, compact support, positivity, true derivatives, softened gravity", "statement": "For every polynomial kernel offered (M4 to M10, C2, C4, C6, the double hump and the shifted kernels) and every smoothing length h > 0, over the reals: W_1d, W_2d and W_3d integrate to exactly one over the line, the plane and space; from distance Rkern*h on, W and all its derivatives are zero, and inside W is positive (and nowhere negative); dW_3d is the derivative of W_3d in the distance, dhW_3d its derivative in h, ddW_3d the derivative of dW_3d (except at the end of the plateau of the shifted kernels); except for the double hump kernels W never increases with the distance. The softened potential is -1/r outside the support, phi_3D_prime is its derivative, is the mass of the kernel within distance r over r squared (so between zero and 1/r^2), and vanishes at distance zero.", "quantifier": "all eighteen polynomial kernels, all distances, all smoothing lengths h > 0", "why_tests_cant": "the unit tests integrate and differentiate numerically at sampled points with a tolerance; a wrong coefficient in one piece, a jump at the end of a piece or a normalisation slightly off passes, and makes densities or energies drift", "anchors": ["src/shammath/include/shammath/sphkernels.hpp: KernelDefM4 .. KernelDefM4Shift16, SPHKernelGen"]}
{"id": "C65", "title": "Smoothing lengths: the iteration solves the density equation, and only says so when it does", "statement": "Over the reals, for every neighbour cache built for the current smoothing lengths: the loop over the neighbours gives the SPH density over all particles and its derivative in h for every length up to the tolerance. One evaluation makes one Newton step for the density equation per particle not yet converged, limited to the given factor; a length never exceeds the tolerance times the initial one (a step beyond is refused and recorded as -1) and stays positive. The iteration stops early only when all recorded changes are below the tolerance, and convergence is reported, on all ranks alike, exactly when every particle of every rank has a recorded change in [0, epsilon). Then (for tolerances like the defaults) every particle ended with a full Newton step of size below epsilon times its initial length. For the bell shaped kernels a particle sharing its place with no other has at most one solution, exactly one if there are enough particles, at which it is left alone and its grad-h factor omega is positive; a lone particle has none, and convergence is never reported. A pre-step that hands on a world hands on one for which convergence was reported.", "quantifier": "all numbers of particles, patches and ranks, positions, lengths, masses, kernels, tolerances, execution orders, numbers of iterations and cycles", "why_tests_cant": "runs check one particle distribution; a step accepted outside the cached neighbourhood, a rank or a particle left out of the convergence test or a wrong derivative gives densities that are slightly off only for some particles", "anchors": ["src/shammodels/sph/src/modules/IterateSmoothingLengthDensity.cpp", "src/shammodels/sph/src/modules/LoopSmoothingLengthIter.cpp", "src/shammodels/sph/src/modules/ComputeOmega.cpp", "src/shammodels/sph/include/shammodels/sph/math/density.hpp", "src/shammodels/sph/src/Solver.cpp: sph_prestep"]}
{"id": "C66", "title": "The initial particles of a setup do not depend on the number of ranks nor on the step sizes", "statement": "A setup is built from lattice sources (continuous or discontinuous iterator) and random sources with filters, maps and combiners. For every setup, number of ranks and request sizes (any distribution over the ranks, changing from step to step, as long as some rank asks for at least two to the nesting depth of combiners), the generation loop ends without error, all ranks leaving it together; what the ranks push over all steps is every particle of the setup exactly once, with ids 0, 1, ... without gap or repetition and the right final count. Two runs on different numbers of ranks push the same particles, and without a combiner each particle also gets the same id. The discontinuous iterator returns every integer of its range exactly once. (Negative results: with a combiner and one particle per step the loop never ends; with a combiner ids depend on the number of ranks; the generator that copies another context decides to be finished per rank, so that ranks leave a collective loop at different times; with the default insert step on one rank, push_patch_data throws as soon as there are enough particles.)", "quantifier": "all setup trees, engines, index boxes, numbers of ranks and histories of requests", "why_tests_cant": "all trees, rank counts and step histories", "anchors": ["src/shammath/include/shammath/DiscontinuousIterator.hpp", "src/shammath/include/shammath/crystalLattice.hpp: LatticeHCP::Iterator, LatticeHCP::IteratorDiscontinuous, LatticeCubic", "src/shammodels/sph/include/shammodels/sph/modules/setup/GeneratorLatticeHCP.hpp", "src/shammodels/sph/include/shammodels/sph/modules/setup/GeneratorMCDisc.hpp", "src/shammodels/sph/include/shammodels/sph/modules/setup/ModifierFilter.hpp", "src/shammodels/sph/include/shammodels/sph/modules/setup/CombinerAdd.hpp", "src/shammodels/sph/include/shammodels/sph/modules/setup/GeneratorFromOtherContext.hpp", "src/shammodels/sph/src/modules/SPHSetup.cpp: apply_setup"]}
{"id": "C67", "title": "Crystal lattices: spacing, coverage of the box, periodicity", "statement": "Two different sites of the hexagonal close packed lattice are at least twice the radius apart (attained), of the cubic one at least the spacing. Every site inside a box has its indices inside the computed index bounds, so that a lattice setup makes exactly the sites of the infinite lattice inside the box, each once. get_periodic_box throws exactly on index boxes that cannot be periodic; otherwise the sites inside the returned box are exactly those of the index box, and the lattice is invariant under translations by the sides of the box; a setup in it makes exactly one particle per index triple. get_ideal_hcp_box never throws, and returns a periodic box that contains the box asked for. (Negative result: nearest_periodic_box_indices of a box of zero width gives indices that cannot be periodic.)", "quantifier": "all radii, boxes whose indices fit i32, index triples; over the reals", "why_tests_cant": "all boxes and index triples", "anchors": ["src/shammath/include/shammath/crystalLattice.hpp: LatticeHCP::generator, get_box_index_bounds, can_make_periodic_box, get_periodic_box, nearest_periodic_box_indices, LatticeCubic", "src/shammodels/sph/include/shammodels/sph/modules/setup/GeneratorLatticeHCP.hpp", "src/shampylib/src/math/pyshammath.cpp: get_ideal_hcp_box"]}
{"id": "C68", "title": "The operators of the fast multipole method are exact", "statement": "Over the reals, for every order of the expansion up to the largest one coded: the products of symmetric tensors are the full contractions; the moments stored for a leaf are the mass moments (sums of mass times tensor powers) of its particles about the centre of the leaf; adding moments joins the sources; moving moments to another centre gives exactly the moments of the same sources about that centre (so that a parent's moments do not depend on the order or the shape of the tree below it). The Green function tensors are the potential 1/r, its gradient (the attraction of a unit mass) and their successive derivatives. The local expansion made of moments and Green tensors, evaluated at a particle, is the sum over all the source particles of the Taylor polynomial (of the given order, around the distance of the two cells) of the force; moving a local expansion to another centre changes nothing of the force it gives anywhere; the forces of single particles are the case of a cell with one particle; likewise for the potential.", "quantifier": "all positions, centres, masses, numbers of particles, orders 1 to 5; over the reals", "why_tests_cant": "all positions, centres, masses and particle sets", "anchors": ["src/shammath/include/shammath/symtensors.hpp", "src/shammath/include/shammath/symtensor_collections.hpp", "src/shamphys/include/shamphys/fmm/offset_multipole.hpp: offset_multipole", "src/shamphys/include/shamphys/fmm/grav_moment_offset.hpp: offset_dM_mat", "src/shamphys/include/shamphys/fmm/grav_moments.hpp: get_dM_mat, get_M_mat", "src/shamphys/include/shamphys/fmm/contract_grav_moment.hpp: contract_grav_moment_to_force", "src/shamphys/include/shamphys/fmm/GreenFuncGravCartesian.hpp", "src/shammodels/sph/include/shammodels/sph/modules/self_gravity/compute_tree_mass_moments.hpp"]}
{"id": "C69", "title": "The self gravity of a patch counts every pair of particles once", "statement": "For every order of the expansion, every set of particles and every schedule of the kernels: after compute_tree_mass_moments every cell of the tree holds the mass moments, about its centre, of the particles it contains; after the downward pass the expansion of a cell is the sum of its own and of those of the cells above it, each once; and the acceleration of each particle grows by G m times the sum over all particles of one force per pair, which is either the softened direct force (cells in the direct list) or the Taylor expansion of the attraction between the centres of two cells that satisfy the opening criterion. With an opening angle of zero this is the direct softened sum. No buffer is accessed out of bounds.", "quantifier": "all particle sets that the tree accepts, opening angles, softenings other than 0, masses, orders 1 to 5, schedules of all kernels; over the reals", "why_tests_cant": "all trees, pair lists and schedules", "anchors": ["src/shammodels/sph/src/modules/self_gravity/SGSFMMPlummer.cpp: SGSFMMPlummer::_impl_evaluate_internal", "src/shammodels/sph/include/shammodels/sph/modules/self_gravity/compute_tree_mass_moments.hpp: compute_tree_mass_moments", "src/shamtree/include/shamtree/details/multipole_acceptance_crit.hpp: mac", "src/shamtree/include/shamtree/details/reorder_scan_dtt_result.hpp"]}
{"id": "C70", "title": "The traversal based gravity solvers count every particle once", "statement": "For every order of the expansion, every set of particles, every positive opening angle, and every schedule of the kernels: the solver with one tree traversal per particle, and the one with one traversal per leaf, finish without an access out of bounds (the traversal stack never overflows), and the acceleration of each particle grows by G m times the sum over all particles of one force each: the softened direct force when the particle is in a leaf of the tree that is not well separated from the receiver, or else the Taylor expansion of the attraction of its cell, a cell well separated from the receiver, around the centre of this cell (and of the leaf of the receiver). Well separated means: the centres differ, and the half sizes are at most the opening angle times the distance. The result does not depend on the order in which leaves are treated. Violated for an opening angle of 0 (the one that turns the third solver into the direct sum): a cell centred on the receiver is then expanded, with a division by zero.", "quantifier": "all particle sets that the tree accepts, opening angles above 0, softenings other than 0, masses, orders 1 to 5, schedules; over the reals", "why_tests_cant": "all trees and traversals", "anchors": ["src/shammodels/sph/src/modules/self_gravity/SGMMPlummer.cpp: SGMMPlummer::_impl_evaluate_internal", "src/shammodels/sph/src/modules/self_gravity/SGFMMPlummer.cpp: SGFMMPlummer::_impl_evaluate_internal", "src/shamtree/include/shamtree/KarrasTreeTraverser.hpp: stack_based_traversal", "src/shamphys/include/shamphys/fmm/contract_grav_moment.hpp: contract_grav_moment_to_force"]}
{"id": "C71", "title": "The direct sum kernel computes the reference sum in every execution", "statement": "The reference mode of the direct solver adds to the acceleration of each particle G m times the sum of the softened fields of all the other particles. The tiled kernel gives the same accelerations in every execution, for every number of particles (also one that does not fill the last work group), every interleaving of the work items between the barriers and every initial content of the scratch memory; it never reads or writes out of bounds, never reads an entry of a tile that another item has not yet stored or has already replaced, and never deadlocks at a barrier. With opening angle zero the fast multipole solver agrees with it. Violated without softening: when the number of particles is not a multiple of 32, the padding of the last tile lies at the origin, and the acceleration of a particle there becomes NaN in the kernel, while the reference mode is finite.", "quantifier": "all particle sets below 2^32-31 particles, masses, constants, softenings; all interleavings; over the reals", "why_tests_cant": "all interleavings of work items", "anchors": ["src/shammodels/sph/src/modules/self_gravity/SGDirectPlummer.cpp: SGDirectPlummer::_impl_evaluate_internal"]}
{"id": "C72", "title": "The implicit dust drag conserves mass, momentum and energy", "statement": "In a cell with gas and any number of dust species, the implicit drag step (irk1) leaves the densities made by the transport as they are; conserves each component of the momentum of gas and dust together exactly, for all drag rates, time steps and densities before and after the transport; solves the backward Euler equations of the drag; leaves gas and dust that move together unchanged; and, with the frictional heating on, gives the energy that the dust loses to the gas (the energy of gas and dust together is conserved), with the heating off keeps the thermal energy of the gas. Violated twice: the option for the heating is inverted (on: the dissipated energy is lost; off: it is conserved and heats the gas), and the step takes the densities from before the transport with the momenta from after it, so that gas and dust moving together get different velocities when the transport changed their densities by different factors.", "quantifier": "all numbers of dust species, densities, momenta, energies, drag rates and time steps; over the reals", "why_tests_cant": "all states, numbers of species and rates", "anchors": ["src/shammodels/ramses/src/modules/DragIntegrator.cpp: involve_with_no_src, enable_irk1_drag_integrator"]}
{"id": "C73", "title": "The matrix exponential is the scaled and squared Taylor polynomial", "statement": "For every square matrix of any size (products allowed: 9), mat_exp finishes without an access out of bounds, and its result is the Taylor polynomial of some degree m of the matrix divided by 2^s, raised to the power 2^s, where the first term left out is below 2e-16 for the scaled norm; the coefficients are 1/i! to 1e-15; the rows of the difference to the exponential of the matrix (the sum of the series) have an absolute sum of at most 2^s (2e-15) (1+2e-15)^(2^s) exp(norm), s being at most two above the least scaling; the result commutes with the matrix, has its eigenvectors, and for an eigenvalue x of at least 0 the eigenvalue exp(x) up to the rounding of the coefficients and this truncation. Violated when the norm, halved the least number of times that makes it at most 3.5397, lies above 3.14952: the polynomial of degree 30 is chosen, and the array of 30 coefficients is read at index 30.", "quantifier": "all sizes and entries of matrices with a norm below 2^28 times 3.5; over the reals", "why_tests_cant": "all matrices and sizes", "anchors": ["src/shammath/include/shammath/matrix_exponential.hpp: mat_exp, order_scale, taylor_eval", "src/shammath/include/shammath/matrix_op.hpp: mat_gemm, mat_axpy_beta, mat_L1_norm"]}
{"id": "C74", "title": "The exponential dust drag conserves mass, momentum and energy", "statement": "In a cell with gas and any number of dust species, the exponential drag step finishes, leaves the densities as they are, multiplies each component of the momentum of gas and dust together by a factor that is 1 up to the accuracy of the matrix exponential, gives gas and dust that move together the same velocity (the old one times this factor), and, with the frictional heating on, conserves the energy of gas and dust together, with the heating off keeps the thermal energy of the gas. Violated twice: the option for the heating is inverted, and for some time steps (for two equal densities: 3.3 stopping times) the matrix exponential reads out of bounds.", "quantifier": "all numbers of dust species, positive densities, momenta, energies, drag rates and time steps; over the reals", "why_tests_cant": "all states, numbers of species and rates", "anchors": ["src/shammodels/ramses/src/modules/DragIntegrator.cpp: enable_expo_drag_integrator", "src/shammath/include/shammath/matrix_exponential.hpp: mat_exp"]}
{"id": "C75", "title": "The paving functions fill space, and their index lists are complete", "statement": "For periodic and reflective axes, with or without shear: f and f_inv are inverse to each other; every point of space lies in an image of the box; a point inside an image lies in no other image and comes from one point only; and get_paving_index_intersecting lists every image that has a point inside the region asked for, and (without shear) only images that touch it. Violated by the lists for every box whose lower corner is not the origin: for a box of size 1 around the origin the point 0.7 on each axis lies in the image (1,1,1), and the list for the region from 0.6 to 0.8 is (0,0,0) only.", "quantifier": "all sizes and centres of the box, boundary kinds, shears, points, indices and regions; over the reals", "why_tests_cant": "all boxes, points and regions", "anchors": ["src/shammath/include/shammath/paving_function.hpp: paving_function_general_3d, paving_function_general_3d_shear_x, get_paving_index_intersecting"]}
