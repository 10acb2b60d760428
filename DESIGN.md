# Formal model of Shamrock — design and trusted base

## Layout
* `properties.jsonl` – English properties (generated by `tools/gen_props.py`).
* `lean/Verif/Model/*.lean` – executable model, function by function, each definition cites `/repo` file:lines.
* `lean/Verif/Proof/*.lean` – helper lemmas (not part of the claims).
* `lean/Verif/Props/*.lean` – one file per area: specification definitions, the property theorems and, beside each, an
  `example` that a concrete non trivial case satisfies its hypotheses.
* `MANIFEST.json` – property → theorem names and status. `seeded/LOG.jsonl` – mutation log.

## Trusted base
* Lean 4.33.0 kernel; axioms: only `propext`, `Classical.choice`, `Quot.sound` (checked by `vcheck`).
* The model is a hand transcription of the C++ text. What is *not* modelled: SYCL runtime internals, MPI library internals
  (abstracted by their specification: a message (src,dst,tag) is delivered once, unchanged, per pair in order), the C++ heap,
  IEEE-754 rounding except where a definition says so (then modelled exactly), logging, timers, exceptions other than as a
  distinguished `throw`/`none` outcome, performance.
* Fixed width unsigned integers: either `BitVec w`/`UIntN`, or `Nat` with explicit `% 2^w`; where a model uses unbounded `Nat` for an
  index that C++ stores in u32/u64 the comment says so and the theorem carries the no-overflow hypothesis or a separate
  theorem shows the overflow behaviour.
* Work-item parallelism: a kernel launch is modelled as *any* sequential order of atomic per-work-item read/write steps
  (interleavings), never as one chosen order.

## Plan per property
| id | modelled | proof idea |
|----|----------|------------|
| C01,C02 | expand/contract_bits and Morton functions on BitVec 32/64 | per-bit extensionality over all bit positions, then order lemma on interleaved bits |
| C03 | Skilling transform on Nat bit lists | each loop step is invertible ⇒ injective; range bound; finite cardinality gives surjectivity |
| C04 | get_offset, compute_ranges | prefix equality ⇔ coordinates in aligned box, by bit lemmas |
| C05,C06 | __karras_alg with clz, loops with fuel = proven sufficient; f32 rounding of the split step modelled exactly | longest-common-prefix theory on sorted arrays; binary search invariants; negative witness above 2^24 |
| C07 | reduction kernels | invariant: split flags describe a partition; equal codes never split |
| C08 | in-place propagation kernel as arbitrary schedules | level induction with "value is correct or stale" invariant |
| C09 | stack loop with fuel and bounded stack | induction on tree; stack ≤ depth |
| C10 | bitonic network generated by the same loops | 0-1 principle free proof: bitonic split lemma; launch order independence |
| C11,C12 | insertion sort / odd-even network | permutation + sortedness invariants |
| C13 | branchless binary search | loop invariant |
| C14 | Hillis–Steele loop; look-back as transition system | invariant over all traces; progress theorem |
| C15 | flags → scan → scatter | list induction |
| C16 | fetch_add transition system | invariant over traces |
| C17–C19 | byte level (de)serialisers | codec round trip by induction on operation sequence |
| C20 | array reversal by xor swaps | loop invariant |
| C21–C23 | finite maps as association lists | refinement to functions |
| C24–C26,C46 | per-rank tables, multiset of messages, any delivery order | counting / disjointness invariants |
| C27 | stateful generator | induction on calls |
| C28,C29 | integers | arithmetic |
| C30 | array + cursor | refinement to list |
| C31 | strings as char lists | induction |
| C32 | boxes over linear orders | order reasoning |
| C33,C34 | load balancer with abstract rounding; message passing | monotonicity; delivery |
| C35,C44 | integer boxes | omega |
| C36,C37 | patch tree, list, data of all ranks, scheduler step | inductive invariant |
| C38–C42 | fields as value arrays with nvar; C42: push_patch_data joined with the balance_load loop | list lemmas, scheduler invariant, negative witnesses for the defects |
| C43 | event handler + happens-before | invariant over histories |
| C45 | message list | negative witness |
| C47 | box transform with any monotone rounding, integer transforms | monotone interval arithmetic |
| C48 | Phantom dump writer/reader over the Fortran records | codec round trip, induction over tables and blocks |
| C49 | Hilbert curve as a state automaton | refinement of the bit loops to the automaton, neighbour lemma by levels |
| C50 | PatchDataLayer (de)serialisation over SerializeHelper | refinement to an operation sequence, C17 round trip |
| C51 | dump file as positioned writes, JSON values, restart on any number of ranks; restart is a step of the C37 histories | layout of the file by intervals, JSON codec round trip, invariant of C37 |
| C52 | the whole build of `CompressedLeafBVH` from rounded positions, the box buffers and `rtree_for` | composition of C10, C07, C05, C08, C09; prefix argument on Morton codes with monotone grid maps for the disjointness of leaf boxes |
| C53 | the three traversal implementations and the reordering, every kernel as any order of its work items, on trees built as in C52 | refinement to one structural recursion over pairs of subtrees; stack bound by induction; counting for the scatter kernels |
| C54 | both neighbour searches of the SPH solver over the trees of C52, radii field, cache layout, any schedule | composition with C52/C08; monotone arithmetic for the pruning tests; ordered ring for the exact statement; a double precision witness for the negative part |
| C55 | ObjectCacheHandler: device map, host map, deque of builds, u64 accounts, exceptions that leave a state | invariant by induction on the history; FIFO refinement with the stale entry of the deque made explicit; concrete histories for the negative part |
| C56 | tree field kernels, ghost search over the serial tree with threads, id tables, ghost layers, exchange (C25), merge | refinement to a closed list per patch; multimap order (C22/C25); ordered field geometry for the images; rational witnesses for the negative part |
| C57 | flag sweeps, geometry kernel, derefinement sweeps, refine/derefine kernels, Morton sort, as interleaved kernels on a buffer of blocks | invariants of the interleavings; octree update lemma (windows of eight siblings); Morton order = depth-first order; telescoping sums in ℚ; concrete witnesses for the negative part |
| C58 | tree over the blocks (rounded box, codes, reduction, one-cell mode, boxes), search, count/scan/fill kernels, block and cell links, antecedents | tree structure of C52/C07/C05 with empty leaf, boxes contain the objects, scatter lemma for the interleaved kernels, integer geometry (`omega`) |
| C59 | Riemann solvers with rounded operations, six directions, dust; face interpolation, link kernels, flux sums, forward Euler on one patch | reflection identities per solver, link fields through the scatter lemma, outflows cancel in pairs (direction reversed; periodic images by a bijection) |
| C60 | paving functions, candidates over the patch tree, indices, extraction, transformation and fusion of ghost layers, exchange between ranks | images are affine maps per axis with sign; tree traversal of C20/C56; each stage on layers given by block records; exchange lemma on top of C25 |
| C61 | slope limiters, `get_3d_grad`, conserved to primitive variables, one Godunov step of all patches of a periodic domain with the ghosts of C60 and the graphs of C58 | slopes as finite sums over the touching cells; merged patches shown to be a tiling by labelled images of blocks; ghost cells that touch the patch have the slopes of their source because the grid is graded; then the periodic cancellation of C59 |
| C62 | force formulas of a pair, the loop over the neighbour cache, the exchange of the ghost fields and of the viscosity parameter, for all patches of a distributed domain | pair law by algebra; merged particles labelled by (patch, particle, shift); each force written as a sum over all particles and shifts, the sum over all particles cancels because shifts come in opposite pairs; field exchange by the generic exchange lemma of C56 |
| C63 | flags, sums, eviction, forces and leapfrog of sinks and gas, over ranks and patches | stream compaction by C15; the sums are sums over the particles taken, which with the particles kept are a partition; one algebraic lemma per sink; forces by exchange of double sums; a corrector turn keeps `v - dt/2 a`, so that the turns telescope; induction over histories |
| C64 | the eighteen polynomial kernels and the wrapper `SPHKernelGen`, over the reals | each kernel is shown equal to a table of rational polynomials; continuity, derivatives, antiderivatives, signs (Bernstein form) of the tables are computations on rationals checked by the kernel, with soundness lemmas over the reals; integrals over the plane and space by Mathlib's polar decomposition, Gauss' law from the mass table |
| C65 | the density iteration, its loop and stopping test, `NodeComputeOmega`, the cycles of `sph_prestep`, over the reals with IEEE outcomes of a division by zero | neighbour sums equal full sums by C54 and C64; derivative by C64; invariants of the per-particle history by induction over iterations; uniqueness from monotonicity of h³·density, existence by the intermediate value theorem |
| C66 | setup trees as a refinement of streams: each source is a list, nodes deal it out to the ranks | per-node simulation relation between the states of all ranks and one abstract stream (C26, C27 for the random source); induction over trees, then over the steps of the loop; bit-reversal iterator by the permutation property of bit reversal |
| C67 | lattice generators, bounds and periodic boxes over the reals | coordinates are injective with parities; distances by case analysis on index differences; floor and ceiling bounds |
| C68 | symmetric tensors, moments, Green tensors, M2M, M2L, L2L, L2P and potential operators over the reals, generated line by line from the code for every order | specification: moments are sums over sources with an index list, Taylor polynomials as iterated directional contraction; polynomial identities by `ring` per component, tower of derivatives for the Green function |
| C69 | `SGSFMMPlummer` on the tree of `rebuild_from_positions` and the lists of the dual tree traversal: moments, M2L, L2L, L2P, inverse list, P2P; shared buffers with interleaved atomic steps in the upward and downward passes | specification: one force per pair of particles (softened field, or Taylor polynomial between accepted cells); invariants of the passes over all schedules; the pairs of cells partition the pairs of particles (C53); sums regrouped by pair |
| C70 | `SGMMPlummer` (one traversal per particle) and `SGFMMPlummer` (one per leaf) on the tree of `rebuild_from_positions` | the events of the traversal partition the particles (C09, C52); each event adds its forces (C68); fold over leaves in any order; division by zero for angle 0 as `_defect` |
| C71 | `SGDirectPlummer`: the reference loop, and the tiled `nd_range` kernel as items with a program counter, scratch memory and barriers, under every interleaving | invariant: forces and scratch entries are functions of the program counters, and the barriers bound the differences of program counters in a group; measure for the absence of deadlock; padding of the last tile as `_defect` for softening 0 |
| C72 | the drag kernel `irk1` in one cell, with finite sums for the loops over the dust species | algebra with positive densities; helper lemmas: the drag work and the dissipation are the changes of the kinetic energies; the inverted heating option and the mixed densities are defects |
| C73 | `mat_exp` with its loops, as functions on matrices of any size; reads of the coefficients may fail | induction on the loops (Horner form of the polynomial, powers), case analysis of the choice of the order, remainder of the exponential series; the read at index 30 is a defect |
| C74 | the exponential drag kernel in one cell on top of C73 | the row of ones and the densities are left and right eigenvectors of the matrix; energies as in C72 |
| C75 | the maps of the general paving and of the one with shear, their inverses, the lists of images | each axis is a move of the centre and a possible mirror; floors give cover and uniqueness; the lists are right for boxes with the lower corner at the origin, and a defect for others |

## What is modelled, per area
Every definition cites its lines; this table says which parts of an area are and are not in the model. Paths are under `/repo/src`.

| area (Model file) | modelled | not modelled |
|---|---|---|
| Morton, Karras, Reduction, TreeOps, Kernel | bit spreading, Morton codes and boxes, Karras construction with the exact f32 rounding of the step, reduction flags/maps, upward propagation under all schedules, stack traversal | SYCL accessors |
| BVH | build from positions or ranges with every buffer and schedule, cell iterators, object search | f64 NaN positions; a read of a box out of bounds is a rejection (shown not to happen) |
| DTT | reference, parallel select and multipass traversals, reordering by segment sort, offsets | scans inside are taken sequential (C14 settles the parallel ones); atomics are any order of the items; the acceptance test is an arbitrary function |
| NeighCache | radii field, cell tests, direct and two stage searches, `prepare_object_cache`, iteration | the scan is sequential (C14); `sycl::dot` sums left to right; NaN |
| CacheHandler | `ObjectCacheHandler`, `ObjectCache` round trip through the host | generator exceptions, logging |
| SphGhost | `make_patch_tree_field` (max), shifts, `find_interfaces`, `gen_id_table_interfaces`, `build_position_interf_field`, `merge_position_buf` | shift speed, volume ratios and their warnings, i32 overflow of offsets, the all-gather of the radii field (given); float rounding only through monotonicity |
| Amr | `AMRBlockCoord` split/merge, flag kernels and sweeps, `apply_refine_new`, `apply_derefine_new`, refine/derefine kernels, `reorder_amr_blocks` | the criteria (any function), slopes (any function), i64 overflow, dust fields, levels and neighbour links given (as `Describes`), float rounding |
| AmrGraph | `NodeBuildTrees`, `RadixTree` constructor (structure), `ObjectIterator::rtree_for`, `compute_neigh_graph`, `FindBlockNeigh`, `BlockNeighToCellNeigh` (safe lowering), `NeighGraph` | the cell boxes computed from codes (overwritten), the unused fast lowering, i64 overflow (extents up to 2^62), `LeafRadixFinder` |
| Riemann, FvMesh | `riemann.hpp` (Rusanov, HLL, HLLC), `riemann_dust.hpp`, `ComputeFluxUtilities.hpp`, `InterpolateToFace`, `NodeComputeFlux`, `SumFluxHydro`, `forward_euler` | floats as rationals with a rounding after each operation in the solvers and none outside; overflow and NaN; sign assertions on pressure; slope limiters (slopes are inputs) |
| AmrGhost | `FindGhostLayerCandidates`, `FindGhostLayerIndices`, `ExtractGhostLayer`, `TransformGhostLayer`, `FuseGhostLayer`, `paving_function.hpp` | grid coordinates as unbounded integers; `CopyPatchDataLayerFields` (a copy of the fields); bytes of a layer abstract in C60 (see LayerSerial) |
| FvSlope | `SlopeLimitedGradientUtilities.hpp`, `slopeLimiter.hpp`, `ConsToPrimGas.cpp`, `SlopeLimitedGradient.cpp` | exact arithmetic with `x / 0 = 0`; dust, gravity, passive scalars and the time step estimate not modelled; assertions on the pressure ignored |
| SphForce | `forces.hpp`, `q_ab.hpp`, `density.hpp` (`rho_h`), force kernels of `NodeUpdateDerivsVaryingAlphaAV.cpp` and `UpdateDerivs.cpp` (constant and disc viscosity), ghost fields of `Solver.cpp`, acceleration of `mhd.hpp` | exact arithmetic, square root and kernel gradient arbitrary; external forces, dust, other MHD terms; ghost layouts with magnetic field or dust |
| SphSink | `SinkParticlesFlagAccreteHard/AccreteQuantities/EvictAccretedParticles/Update.cpp`, predictor and corrector of `Solver.cpp` for gas and sinks | exact arithmetic, square root arbitrary; the SPH kernel and the moves of particles enter through their properties (C62, C37, C56); no external potential, no particle killing, no point-mass accretion |
| SphKernel | `shammath/sphkernels.hpp`: eighteen polynomial kernels (f, df, ddf, phi_tilde_3d, phi_tilde_3d_prime, norms), `SPHKernelGen` (W_1d, W_2d, W_3d, dW_3d, ddW_3d, dhW_3d, phi_3D, phi_3D_prime) | floating point is the reals; `TGauss3/5`, `f3d_integ_z`/`Y_3d` (numerical integral) not modelled |
| SphSmooth | `IterateSmoothingLengthDensity`, `LoopSmoothingLengthIter`, `NodeComputeOmega`, loop of `sph_prestep`, `rho_h`, `newton_iterate_new_h` | reals; ghosts, trees and caches of a cycle are a parameter required to be complete (C54, C56); the variant with limited neighbour count is not modelled |
| Setup | `DiscontinuousIterator`, lattice iterators, `GeneratorLatticeHCP/Cubic`, `GeneratorMCDisc` (as random source), `GeneratorFromOtherContext`, `ModifierFilter/ApplyCustomWarp/Offset` (as maps), `CombinerAdd`, `apply_setup` | what becomes of a particle after `push_patch_data` (C12, C37); the injection messages of `apply_setup_new`; `ModifierSplitPart` (splits per rank); profiles of the random sources are an arbitrary function of the draws |
| Lattice | `LatticeHCP`, `LatticeCubic` generators, index bounds, periodic boxes, `get_ideal_hcp_box` | reals, with conversion to i32 undefined outside its range |
| FMM | `SymTensor3d_1..5`, `SymTensorCollection` (0 to 5), `offset_multipole`, `offset_dM_mat`, `get_dM_mat`, `get_M_mat`, `contract_grav_moment_to_force`, `GreenFuncGravCartesian`, the leaf part of `compute_tree_mass_moments` | over the reals (rounding not modelled); `store`/`load` to flat arrays; the multipole acceptance criterion is C09/C10, how good the Taylor polynomial is is not stated |
| Self gravity | `SGSFMMPlummer` (the solver with `mm_order` 1 to 5), `compute_tree_mass_moments`, `mac_std_opti` | over the reals; `rsqrt` is `1/√`, an argument 0 is an error; the L2L kernel is sequentially consistent (the code has no fence between the moments of a cell and its flag: with a weaker memory order an item could see the flag without the moments); moments of a cell are accessed in one step; how good the Taylor polynomial is is not stated; the variants `SGFMMPlummer`, `SGMMPlummer` are modelled with exclusive access to the accelerations (each work item writes the entries of its own particles only), and a cell without a box is not opened (never met, C52) |
| Self gravity, direct | `SGDirectPlummer` (reference and device mode) | over the reals, infinite and NaN values are one value; statements of a work item are atomic; a barrier lets an item pass when all items of its group have reached it; `n + 31 < 2^32` |
| Dust drag (Godunov) | `involve_with_no_src`, `enable_irk1_drag_integrator`, `enable_expo_drag_integrator` (the kernels, per cell) | over the reals; the flat index `id_a*ndust+i` is the entry `i` of the cell; loops are finite sums; buffers and events are not modelled |
| Matrix exponential | `mat_exp`, `order_scale`, `taylor_eval` and the matrix operations they use | over the reals (the literals are real numbers); buffers of the right size; `s_star` of 31 and more (`1 << s_star` overflows) counts as a failure |
| Paving functions | `paving_function_general_3d`, `paving_function_general_3d_shear_x` (the integer model in AmrGhost is for the ghost layers) | over the reals, indices are unbounded integers; the periodic paving is the general one with all axes periodic |
| Hilbert | Skilling loops, wide (quad) index and its order | `coord_to_hilbert` float clamp |
| Bitonic, Sort, Search, Scan, Integer, Reduction | the sort networks, insertion sorts, binary search, scans (with Scan6: the parallel look-back v6, per lane accesses), integer helpers, LCG | vendor (oneDPL/AdaptiveCpp) fallbacks; radix sort |
| Containers | DistributedData(Shared), id set comparison, FixedStack | logging |
| ByteStream, Fortran, PhantomDump, Serialize, LayerSerial | `std::basic_stringstream` by its specification, byte level objects | files on disk (a file is its bytes); text formats |
| Patch, PatchTree, PatchLoads | coordinates, split/merge, tree updates, loads, split/merge requests | printing, JSON |
| Float | IEEE double round to nearest even as rational rounding | NaN and infinities (excluded by hypotheses) |
| LoadBalance, ChangeList | sweep + round robin strategies, metric, packing, change list, apply | log output; `std::sort` by its specification; OpenMP loops as any order |
| Net, LimNet | MPI point to point by its specification (non overtaking, any interleaving, blocking probe or waitall; limited requests in flight) | the MPI library; timeouts |
| Collective, SparseExchange, SparseComm, SparseXchg | gathers, chunked gathers, sparse exchanges, batching | device copies except for their bounds |
| SerialTree, Reattribute, Push, Gather, Field | point location, moving objects, insertion, gather, field edits | python bindings |
| BalLoad | the `balance_load` loop of `push_patch_data` with object counts as loads, on top of the scheduler steps of Sched; every hash iteration order and message schedule | user-supplied load callback other than the object count; `npatch_new` counts patches merged in the step, as the code does |
| Dump | metadata JSON (values), headers, patch table, MPI-IO writes in any order, load on another number of ranks | JSON text (any codec with `parse (text v) = some v`), MPI-IO itself, files larger than 2^64 |
| Sched | `scheduler_step` on all ranks, `add_root_patches`, `update_local_load_value` | timers, interface with solvers |
| Events | BufferEventHandler and a device executing tasks in any order respecting dependencies | the SYCL runtime |
| Box, Str | AABB/CoordRange/interval helpers, string helpers | ray box test in floating point (exact field arithmetic) |

Modelling conventions: a C++ exception is `Res.throws`, undefined behaviour `Res.ub`; loops with a data dependent number of turns have fuel and the
theorems show that the fuel suffices (or quantify over all fuels). Values left unspecified by C++ (uninitialised memory, iteration order of unordered
containers, schedule of kernels, order of equal keys in `std::sort`) are parameters over which every theorem quantifies. Theorems named `…_defect`
are proofs that the code does not meet the English property in the stated case, with the concrete witness; `…_partial` theorems carry a hypothesis
the English property does not have, named in MANIFEST.
