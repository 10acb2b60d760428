#!/usr/bin/env python3
"""Writes /verif/properties.jsonl (one JSON object per property)."""
import json
P=[]
def p(id,title,statement,quant,why,anchors):
    P.append(dict(id=id,title=title,statement=statement,quantifier=quant,why_tests_cant=why,anchors=anchors))
S="src/"
p("C01","Morton codes are a lossless, order-respecting key",
"For every coordinate triple inside the grid (10 bits per axis for 32 bit codes, 21 bits per axis for 64 bit codes), decoding the Morton code gives back exactly the triple; two different triples never share a code; bit 3k+2 / 3k+1 / 3k of the code is bit k of x / y / z; increasing one coordinate while keeping the others strictly increases the code; and no valid triple produces the reserved err_code.",
"all coordinate triples in the grid, both code widths","2^63 triples; a test samples a few",
[S+"shammath/include/shammath/sfc/morton.hpp: MortonCodes::icoord_to_morton, morton_to_icoord, err_code",S+"shammath/include/shammath/sfc/bmi.hpp: bmi::expand_bits, contract_bits"])
p("C02","Bit spreading and compaction are mutually inverse",
"bmi::expand_bits moves bit k of the input to bit k*(i+1) of the output and leaves zeros elsewhere, and bmi::contract_bits undoes it, for every input in range and every supported (type, interleave) pair.",
"all integers of the supported width, all template instances","2^32 / 2^21 inputs per instance, magic constants can be wrong in one bit only",
[S+"shammath/include/shammath/sfc/bmi.hpp"])
p("C03","The 3D Hilbert index is a bijection used as a patch order",
"Two distinct 21-bit coordinate triples always get distinct Hilbert indices and every index fits in 63 bits, so ordering patches by Hilbert index is a strict total order on distinct patch origins; every number below 2^63 is the index of exactly one triple.",
"all pairs of 21-bit coordinate triples","2^63 values, no test enumerates them",
[S+"shammath/include/shammath/sfc/hilbert.hpp: details::compute_hilbert_index_3d, HilbertCurve<u64,3>::icoord_to_hilbert"])
p("C04","Tree cell boxes computed from Morton prefixes are exact",
"For a radix tree node whose Morton range shares a prefix of a given length, the cell box computed from (first code, prefix length) contains exactly the integer positions whose Morton code has this prefix: no particle of the node is outside its box and no position inside the box belongs to another prefix.",
"all codes and all prefix lengths","all 64 prefix lengths times 2^63 codes",
[S+"shammath/include/shammath/sfc/morton.hpp: MortonCodes::get_offset",S+"shamtree/src/kernels/compute_ranges.cpp: sycl_compute_cell_ranges"])
p("C05","The Karras radix tree is a well formed binary tree over the sorted codes",
"For every strictly increasing array of 2 <= n <= 2^24+1 Morton codes (longer arrays: C06), the parallel construction gives n-1 internal nodes such that: node 0 covers all leaves; each node covers a contiguous range [i..endrange] (in either direction), its two children cover the two halves [first..split] and [split+1..last], children flags tell exactly whether the half is a single leaf, and every node other than the root (internal or leaf) is child of exactly one internal node.",
"all strictly increasing code arrays of up to 2^24+1 codes, all internal nodes (each is computed independently by one thread)","the structure depends on every bit pattern of the whole array",
[S+"shamtree/src/KarrasRadixTree.cpp: __karras_alg",S+"shambackends/include/shambackends/math.hpp: karras_delta, clz_xor"])
p("C06","Karras split search is independent of leaf count",
"The split position found by the tree construction is correct whatever the number of leaves addressable by u32. (False above 2^24 leaves: the step is computed as ceil(float(l)/div) in f32.)",
"all array lengths up to 2^32","needs an array with more than 2^24 leaves to fail",
[S+"shamtree/src/KarrasRadixTree.cpp: __karras_alg (split loop)"])
p("C07","Tree reduction groups every particle exactly once",
"The reduced tree index map partitions the sorted particle list: cell k covers particle ids [map[k], map[k+1]), the ranges are non empty, disjoint, in order and cover all particles; all particles of equal Morton code stay in one cell; repeated reduction passes keep this.",
"all sorted code arrays, all reduction levels","depends on the run-length structure of the whole array",
[S+"shamtree/src/kernels/reduction_alg.cpp: make_indexmap, sycl_generate_split_table, sycl_reduction_iteration, reduction_alg"])
p("C08","Upward tree propagation gives every node the combination of its leaves under every thread schedule",
"Repeating the in-place child-to-parent kernel (tree depth) times gives, at every internal node, the combine of all leaf values below it (AABB union, field max, ...), whatever order the work items of each launch execute in.",
"all trees up to the depth, all leaf values, all work item interleavings of each launch","interleavings of a racy in-place kernel are not controllable by a test",
[S+"shamtree/src/KarrasRadixTreeAABB.cpp: prepare_karras_radix_tree_aabb, compute_tree_aabb_from_positions",S+"shamtree/include/shamtree/KarrasRadixTreeField.hpp: prepare_karras_radix_tree_field",S+"shamtree/src/kernels/compute_tree_field (compute_tree_field_max_field)"])
p("C09","Stack traversal visits exactly the accepted leaves and never overflows its fixed stack",
"stack_based_traversal calls on_found_leaf on exactly the leaves all whose ancestors (and itself) are accepted, each once, calls on_excluded_node on exactly the first rejected nodes, and the id stack of tree_depth entries never over- or underflows for a tree whose depth in edges is below tree_depth, which holds for the trees built on Morton codes with tree_depth = significant bits + 1.",
"all trees, all acceptance predicates","all predicates over all trees",
[S+"shamtree/include/shamtree/KarrasTreeTraverser.hpp: stack_based_traversal",S+"shamtree/include/shamtree/TreeTraversal.hpp"])
p("C10","GPU bitonic key/value sort sorts",
"For every power of two length, sort_by_key leaves the keys in non decreasing order, and the sequence of (key, value) pairs is a permutation of the input pairs; for other lengths it throws and leaves the data alone. The result does not depend on the order work items of one launch execute.",
"all power of two lengths, all inputs, all work item schedules","0-1 principle needs 2^n inputs per length",
[S+"shamalgs/src/details/algorithm/bitonicSort_updated_usm.cpp: sort_by_key_bitonic_updated_usm"])
p("C11","Segmented and pointer insertion sorts sort each segment only",
"ptr_insert_sort / segmented_sort_in_place turn each [offset[i], offset[i+1]) segment into the sorted permutation of itself and change nothing outside.",
"all inputs, segment tables, comparators that are total orders","all inputs",
[S+"shambase/include/shambase/alg_primitives.hpp: ptr_insert_sort",S+"shamalgs/src/primitives/segmented_sort_in_place.cpp"])
p("C12","Odd-even transposition network sorts a fixed array",
"odd_even_transpose_sort sorts any array of the compile time size, for every size.",
"all sizes, all inputs","0-1 principle needs 2^n inputs per size",
[S+"shambase/include/shambase/alg_primitives.hpp: odd_even_transpose_sort_segment_flags"])
p("C13","Binary searches return the exact boundary",
"On a sorted range, binary_search_lower_bound / upper_bound return the first index whose key is >= / > the searched key (or the end), binary_range_search returns the exact sub range, and no index outside the range is read.",
"all sorted arrays, bounds and keys","off-by-one errors depend on length and key position",
[S+"shamalgs/include/shamalgs/primitives/lower_bound.hpp",S+"shamalgs/include/shamalgs/primitives/upper_bound.hpp",S+"shamalgs/include/shamalgs/primitives/binary_range_search.hpp"])
p("C14","Exclusive scan is correct under every group schedule",
"The log-step scan and the single pass decoupled look-back scan write at index i the sum (mod 2^w) of the first i inputs, for every length and every interleaving of the work groups; the look-back can always make progress.",
"all inputs and lengths, all interleavings of work groups","GPU scheduling is not controllable",
[S+"shamalgs/include/shamalgs/details/numeric/scanDecoupledLookback.hpp: exclusive_sum_atomic_decoupled_v5_usm(_in_place), exclusive_sum_in_place_atomic_decoupled_v5",S+"shamalgs/src/details/numeric/exclusiveScanGPUGems39.cpp"])
p("C15","Stream compaction returns exactly the flagged indices in order",
"stream_compact on a 0/1 flag buffer returns the increasing list of indices whose flag is 1, for every flag buffer of every length, whatever the order work items run.",
"all flag buffers, all schedules","2^n inputs",
[S+"shamalgs/src/details/numeric/streamCompactExclScan.cpp"])
p("C16","Dynamic ids are unique and gap free under every schedule",
"DynamicIdGenerator gives the g-th group to arrive the id g whatever the arrival order, so global ids are a permutation of 0..N-1, and a group only ever waits on groups that already started; WithUUID gives distinct ids to distinct objects.",
"all interleavings","schedules",
[S+"shamalgs/include/shamalgs/atomic/DynamicIdGenerator.hpp: AccessedDynamicIdGenerator::compute_id",S+"shambase/include/shambase/WithUUID.hpp"])
p("C17","SerializeHelper round trip",
"Any sequence of write / write_buf / string writes whose sizes were declared with serialize_byte_size, finalized and reloaded by the same sequence of load / load_buf returns exactly the written values; all device accesses are in bounds and 8 byte aligned; loading past the end throws.",
"all sequences of typed writes, all values","sequences are unbounded, alignment depends on the running sum of sizes",
[S+"shamalgs/include/shamalgs/serialize.hpp",S+"shamalgs/src/serialize.cpp",S+"shamalgs/include/shamalgs/details/SerializeHelperMember.hpp"])
p("C18","Byte stream round trip",
"Reading a byte stream with the same typed read sequence gives back what was written (values, strings, vectors), and byte streams of any preceding/following content are left untouched.",
"all sequences","unbounded sequences",
[S+"shambase/include/shambase/bytestream.hpp"])
p("C19","Fortran record IO round trip and corruption detection",
"FortranIOFile reads back exactly what was written record by record (values, fixed strings, arrays), and a record whose leading or trailing byte count differs from the expected count throws.",
"all record sequences","unbounded sequences",
[S+"shambase/include/shambase/fortran_io.hpp"])
p("C20","endian_swap is the byte reversal involution",
"endian_swap reverses the bytes of the value in place and applying it twice gives the value back, for every size.",
"all values of all sizes","2^64 values",
[S+"shambase/include/shambase/endian.hpp", S+"shambase/include/shambase/integer.hpp: xor_swap"])
p("C21","DistributedData behaves as a finite map",
"add_obj on a fresh id stores it and throws without change on an existing one, get returns what was stored or throws, erase removes exactly that id, map keeps ids, over every history of operations.",
"all operation histories","histories are unbounded",
[S+"shambase/include/shambase/DistributedData.hpp"])
p("C22","Shared transfers conserve objects",
"DistributedDataShared::tranfer_all(selector, other) moves exactly the selected entries (with multiplicity) to the other container: nothing is lost, duplicated or re-keyed and unselected entries stay.",
"all multimaps, all selectors","all predicates and multiplicities",
[S+"shambase/include/shambase/DistributedDataShared.hpp: tranfer_all"])
p("C23","Id set comparison reports exact missing, matching and extra ids",
"on_distributeddata_diff calls the missing / matching / extra callbacks exactly on the ids of the respective set, for all u64 ids. (False for ids >= 2^32: the callback parameter is u32.)",
"all pairs of id sets over u64","ids above 2^32 are never tested",
[S+"shambase/include/shambase/DistributedData.hpp: on_distributeddata_diff, on_distributeddata_ids_diff",S+"shambase/include/shambase/sets.hpp: set_diff"])
p("C24","Sparse exchange tables are consistent on all ranks",
"build_sparse_exchange_table gives every message of size>0 a distinct (sender, receiver, tag), lays messages out in pairwise disjoint byte ranges inside buffers no larger than the allocation limit, sums to the announced totals, and the send list of a rank and the receive lists of the other ranks describe the same messages; empty messages are rejected.",
"all message tables, all rank counts, all allocation limits","all tables",
[S+"shamalgs/src/collective/sparse_exchange.cpp: build_sparse_exchange_table, compute_tags"])
p("C25","Patch data exchange delivers every message exactly once",
"serialize_sparse_comm delivers to the owner rank of each receiver id, exactly once and byte for byte, every (sender, receiver, payload) of every rank, and nothing else, the entries of one (sender, receiver) pair in the order the sender held them, whatever the number of ranks, grouping limit and message completion order; data between two ids of one rank does not go through MPI; an entry that cannot fit in one message is rejected. (False for a group of entries whose size, without the 8 byte preamble, is within 8 bytes of the limit: both ranks throw.)",
"all rank counts, id to rank maps, multisets of messages, size limits, completion orders","interleavings and message sets",
[S+"shamalgs/include/shamalgs/collective/distributedDataComm.hpp: serialize_sparse_comm",S+"shamalgs/src/collective/distributedDataComm.cpp: distributed_data_sparse_comm, serialize_group_data_max_size",S+"shamalgs/src/collective/sparse_exchange.cpp: sparse_exchange"])
p("C26","Chunked gathers equal the plain concatenation by rank",
"vector_allgatherv and vector_allgatherv_large return on every rank the concatenation, in rank order, of the vectors of all ranks, whatever the chunk size.",
"all rank counts, vector contents and chunk sizes","all distributions of lengths over ranks",
[S+"shamalgs/include/shamalgs/collective/exchanges.hpp: vector_allgatherv, vector_allgatherv_large"])
p("C27","Parallel generation does not depend on the rank count",
"InvariantParallelGenerator produces, concatenated over ranks and calls, the same sequence as one rank generating alone, stops at the same count on all ranks, and keeps the generators of all ranks in step.",
"all rank counts, generators and request sizes","all rank counts",
[S+"shamalgs/include/shamalgs/collective/InvariantParallelGenerator.hpp"])
p("C28","Narrowing conversions are exact or rejected",
"can_narrow says true exactly when the mathematical value fits the target type, narrow_or_throw returns that value or throws, for every pair of signedness and width.",
"all values, all (source, target) integer types","2^64 values times all type pairs",
[S+"shambase/include/shambase/narrowing.hpp"])
p("C29","Integer helpers compute their mathematical specification",
"roundup_pow2 / roundup_pow2_clz return the least power of two >= v, group_count the ceiling division, is_pow_of_two the predicate, xor_swap a swap, pack32/unpack32 are inverse, on the whole type range. (False: roundup_pow2_clz<u64> above 2^31, group_count near 2^32.)",
"all values of the type","edge values at type limits",
[S+"shambase/include/shambase/integer.hpp",S+"shambackends/include/shambackends/math.hpp: roundup_pow2_clz, pack32, unpack32"])
p("C30","FixedStack is a bounded LIFO",
"Over every history of push/pop that never exceeds the capacity, FixedStack pops values in last-in-first-out order, never touches memory outside its array, and reports emptiness exactly.",
"all histories","histories",
[S+"shambase/include/shambase/FixedStack.hpp"])
p("C31","String helpers meet their specification",
"split_str returns exactly the non empty pieces between delimiters, replace_all replaces every non overlapping occurrence left to right and terminates, trunc_str keeps short strings and never exceeds the limit; this for a non empty pattern or delimiter (with an empty one split_str and replace_all never return).",
"all strings","unbounded inputs",
[S+"shambase/include/shambase/string.hpp"])
p("C32","Box algebra is sound",
"Intersection / union / containment of AABB and CoordRange agree with point membership: a point is in the intersection iff it is in both, boxes intersect iff they share a point, a half open partition never counts a point twice.",
"all boxes and points over any ordered coordinate type","all reals",
[S+"shammath/include/shammath/AABB.hpp",S+"shammath/include/shammath/CoordRange.hpp"])
p("C33","Load balancing gives every patch a valid owner and keeps packs together",
"For every patch list and world size >=1, make_change_list assigns each patch one rank in [0, world_size), ranks are non decreasing along the Hilbert order before packing, patches packed for a merge get the owner of the pack head, and the change list contains exactly the patches whose owner changes with a (sender, tag) pair unique per message.",
"all patch lists, loads and world sizes","all loads",
[S+"shamrock/src/scheduler/HilbertLoadBalance.cpp: make_change_list, apply_node_patch_packing",S+"shamrock/include/shamrock/scheduler/loadbalance/LoadBalanceStrategy.hpp"])
p("C34","Applying a change list moves patch data without loss",
"After apply_change_list on all ranks, the data of patch p is owned by exactly rank new_owner(p), unchanged, and by no other rank; no rank blocks on a message that is never sent.",
"all change lists, all rank counts, all message orders","distributed interleavings",
[S+"shamrock/src/scheduler/SchedulerPatchData.cpp: apply_change_list"])
p("C35","Splitting a patch partitions it and merging is its inverse",
"The eight children of a patch of even side length cover every integer cell of the parent exactly once, keep the owner, and merging the eight children gives back the parent box; loads never increase in total by splitting.",
"all patch boxes","2^63 boxes",
[S+"shamrock/include/shamrock/patch/PatchCoord.hpp: get_split, merge",S+"shamrock/include/shamrock/patch/Patch.hpp: get_split, merge_patch"])
p("C36","The patch tree stays a consistent forest under every split/merge history",
"Over every history of root insertions, splits of leaves and merges of parents of only leaves: leaf_key is exactly the set of leaves, parent_of_only_leaf_key exactly the nodes whose eight children are leaves, child/parent links agree, ids are never reused, the leaf boxes partition the root boxes.",
"all histories","histories are unbounded",
[S+"shamrock/src/scheduler/PatchTree.cpp: split_node, merge_node_dm1, insert_root_node"])
p("C37","A scheduler step preserves patches, data and ownership",
"Over every history of scheduler steps on any number of ranks: the patches listed are exactly those linked to tree leaves, with the same boxes; each patch data is owned by exactly the rank the list says; the multiset of all objects over all ranks never changes; split and merge requests of one step never touch the same patch when crit_merge <= crit_split.",
"all histories of load values, steps, rank counts and split/merge criteria","distributed histories",
[S+"shamrock/src/scheduler/PatchScheduler.cpp: scheduler_step, split_patches, merge_patches, set_patch_pack_values",S+"shamrock/src/scheduler/scheduler_patch_list.cpp: split_patch, merge_patch, build_global, build_local"])
p("C38","Splitting patch data sends each object to the one child containing it",
"split_patchdata copies every object of the parent to exactly one child, the one whose half open box contains its position, keeping all fields of the object together, or throws when a position is outside the parent.",
"all object sets, all monotone coordinate transforms","all positions incl. exactly on a boundary",
[S+"shamrock/src/patch/PatchDataLayer.cpp: split_patchdata",S+"shamrock/include/shamrock/patch/Patch.hpp: is_in_patch_converted"])
p("C39","Field edits conserve objects",
"append_subset_to, insert, remove_ids, extract_elements, index_remap act on whole objects for every number of variables per object: extraction moves exactly the listed objects, removal keeps the others in order, duplicates are rejected. (False: extract_element for nvar>=2 corrupts the object moved into the hole.)",
"all fields, all index lists, all nvar","nvar>1 combined with interior index",
[S+"shamrock/src/patch/PatchDataField.cpp"])
p("C40","Point location finds the patch containing the position",
"compute_patch_owner returns for every position inside the simulation box the id of the unique patch whose half open box contains it, within the tree depth number of steps; for a position outside all root boxes it returns the error id. (False: if root 0 is an unsplit leaf its patch id is returned.)",
"all patch trees, all positions","all trees",
[S+"shamrock/include/shamrock/scheduler/SerialPatchTree.hpp: compute_patch_owner",S+"shamrock/src/scheduler/SerialPatchTree.cpp: get_serial_tree"])
p("C41","Reattribution moves every object to the patch containing it and loses none",
"After reatribute_patch_objects the multiset of objects over all patches and ranks is unchanged and each object is in the patch its position maps to.",
"all object distributions, patch trees and rank counts","all distributions",
[S+"shamrock/include/shamrock/scheduler/ReattributeDataUtility.hpp: extract_elements, reatribute_patch_objects"])
p("C42","Pushing data into the scheduler loses nothing",
"push_patch_data inserts all objects given on every rank. (False: a rank that owns no patch silently drops its objects.)",
"all patch distributions over ranks","needs a rank without patches",
[S+"shamrock/include/shamrock/scheduler/DataInserterUtility.hpp: push_patch_data"])
p("C43","Buffer event tracking orders all conflicting accesses",
"For every history of read/write accesses to any number of buffers, if each submitted operation starts only after the events of its depends list, then any two operations on a common buffer of which at least one writes never overlap and run in submission order, whatever events complete early; requesting an access on a buffer with an unfinished access throws.",
"all histories, all completion orders","asynchronous completion orders",
[S+"shambackends/src/details/BufferEventHandler.cpp",S+"shambackends/include/shambackends/EventList.hpp"])
p("C44","The base patch grid tiles the box",
"make_patch_base_grid(nx,ny,nz) creates nx*ny*nz root patches which are pairwise disjoint, cubic with a common side, and cover exactly the bounding box announced to the simulation box.",
"all grid sizes up to the coordinate range","all sizes",
[S+"shamrock/src/scheduler/PatchScheduler.cpp: make_patch_base_grid"])
p("C45","gather_data returns the data on the requested rank",
"gather_data(r) returns all patch data, in global patch order, on rank r. (False for r != 0: the rank argument is ignored.)",
"all ranks, patch distributions","needs r != 0",
[S+"shamrock/src/scheduler/PatchScheduler.cpp: gather_data"])
p("C46","Batched sparse communication equals the unbatched one",
"base_sparse_comm delivers to every rank exactly the payloads addressed to it, in a deterministic order (by sender rank, then in the order passed), for every limit on the messages in flight, and never blocks; base_sparse_comm_max_comm with any positive per-step limit (whose multiples do not overflow the int counter) receives exactly the payloads base_sparse_comm receives, those of each sender in the same order. (False for the limit 0: never returns.)",
"all message lists, all limits","all tables",
[S+"shamalgs/src/collective/sparseXchg.cpp"])
import os
ext=os.path.join(os.path.dirname(__file__),"props_extra.py")
if os.path.exists(ext): exec(open(ext).read())
with open("/verif/properties.jsonl","w") as f:
    for q in P: f.write(json.dumps(q)+"\n")
print(len(P))
