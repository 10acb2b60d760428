p("C47","Patch domain boxes tile the domain",
"The floating/real domain boxes of neighbouring patches share the very same rounded boundary: every domain position of the parent box lies in the half open box of exactly one child (and of exactly one base grid slab), and the integer transform maps patch coordinates to the domain and back exactly.",
"all monotone coordinate arithmetic (any rounding), all patches of even side, all positions","all roundings and positions",
[S+"shammath/include/shammath/CoordRangeTransform.hpp",S+"shamrock/include/shamrock/patch/SimBox.hpp: patch_coord_to_domain, get_patch_transform",S+"shamrock/include/shamrock/patch/PatchCoord.hpp"])
p("C48","Phantom dumps survive a write/read round trip",
"Writing any Phantom dump (headers, blocks, arrays) with gen_file and reading it back with from_file yields the same dump and consumes the whole file; a file without the magic numbers is rejected; looking a header key up returns the last value added for it. (False for keys longer than 16 characters: they are truncated on disk and no longer found.)",
"all header tables, block counts, array counts and contents with records below 2^31 bytes","all dumps",
[S+"shammodels/sph/src/io/PhantomDump.cpp",S+"shammodels/sph/include/shammodels/sph/io/PhantomDump.hpp"])
p("C49", "Cells that follow each other on the Hilbert curve are neighbours, and patches occupy contiguous ranges of it",
  "Two 21-bit cells whose Hilbert indices differ by one share a face. All the cells of an aligned cube of side 2^m come before or after all the cells of any other such cube, so sorting patches by the index of one corner sorts them by the index of every cell. (The wide, 42-bit index keeps the order but not the continuity: it jumps between blocks.)",
  "all cells of the grid and all aligned cubes",
  "2^63 cells",
  [S+"shammath/include/shammath/sfc/hilbert.hpp: compute_hilbert_index_3d, HilbertCurve<quad_hilbert_num,3>", S+"shamrock/src/scheduler/HilbertLoadBalance.cpp: make_change_list"])

p("C50", "Patch data survives serialization",
  "Serializing the data of a patch (any layout, any number of objects, possibly none) takes exactly the announced number of bytes and deserializing the bytes with the same layout gives back the same fields with the same values in the same order, whatever the initial contents of the buffers and the execution order of the kernels. Data of 2^32 bytes or more is refused with an exception.",
  "all layouts, object counts, values, memory contents and schedules", "all layouts and sizes",
  [S+"shamrock/src/patch/PatchDataField.cpp: serialize_buf, deserialize_buf, serialize_buf_byte_size", S+"shamrock/src/patch/PatchDataLayer.cpp: serialize_buf, deserialize_buf"])

p("C51", "A checkpoint restarts to the same state, on any number of ranks",
  "Loading a dump, on any number of ranks, gives back the user metadata, the layout, the simulation box, the scheduler parameters, the patch tree, the patch list (owners taken modulo the number of ranks) and the data of every patch on its new owner, whatever order the writes of the ranks reached the file in; the restarted scheduler is in a correct state with the same objects, and every later step keeps it correct. Dumps must be made when the patch list has no dead patch: after a merge and before the next step the dump is written but can not be loaded. A layout with an i64 field and a state without patches can not be dumped.",
  "all histories of the scheduler, all numbers of ranks before and after, all layouts, data, write orders and JSON texts",
  "all states and write orders",
  [S+"shamrock/src/io/ShamrockDump.cpp: write_shamrock_dump, load_shamrock_dump", S+"shamalgs/include/shamalgs/collective/io.hpp", S+"shamrock/src/scheduler/PatchScheduler.cpp: serialize_patch_metadata", S+"shamrock/src/scheduler/scheduler_patch_list.cpp: to_json, from_json", S+"shamrock/src/scheduler/PatchTree.cpp", S+"shamrock/src/patch/PatchDataLayerLayout.cpp: to_json, from_json", S+"shamrock/include/shamrock/patch/SimBox.hpp"])

p("C52", "Object search in a bounding volume hierarchy misses nothing and repeats nothing",
  "Building the hierarchy over any objects (points or boxes, inside or outside of the bounding box, coinciding or not) succeeds; every object is in exactly one leaf cell, the box of every cell is the smallest box around its objects, and the boxes of two leaves never share a point when objects are points. A search with any acceptance test on boxes reports exactly the objects all of whose enclosing cells are accepted, each once; hence with a test that accepts every box containing a wanted object, filtering gives exactly the wanted objects. No object, too many objects or an empty bounding box are rejected with an exception.",
  "all objects, positions, compression levels, monotone roundings, kernel schedules, buffer contents and acceptance tests (up to 2^24+1 objects, see C06)",
  "all positions, schedules and queries",
  [S+"shamtree/src/CompressedLeafBVH.cpp: rebuild_from_positions, rebuild_from_position_range", S+"shamtree/src/MortonCodeSet.cpp", S+"shamtree/src/MortonCodeSortedSet.cpp", S+"shamtree/src/KarrasRadixTreeAABB.cpp", S+"shamtree/include/shamtree/CLBVHObjectIterator.hpp: rtree_for", S+"shamtree/include/shamtree/LeafCellIterator.hpp", S+"shamtree/include/shamtree/CellIterator.hpp"])

p("C53", "The dual tree traversal covers every pair of objects exactly once, in all implementations",
  "For any bounding volume hierarchy and any acceptance test on pairs of boxes, the traversal ends without overflowing its stack and returns far pairs (m2l) and direct pairs (p2p) of cells such that every ordered pair of objects is in exactly one returned pair of cells; far pairs pass the test, direct pairs fail it and are two leaves (or, when the traversal is asked to stop one level higher, a pair of which a child is a leaf), and every returned pair was reached through pairs that all fail the test. The reference, parallel select and multipass implementations return the same pairs; with ordering requested the pairs are grouped by first cell with the offsets of the groups, and the ordered result is the same whatever the implementation and the schedule. (The parallel select implementation only fits trees of points: on extended objects with overlapping boxes its fixed stack overflows.)",
  "all objects, trees, acceptance tests, kernel schedules and contents of new buffers, with fewer than 2^30 pairs",
  "all trees, tests and schedules",
  [S+"shamtree/include/shamtree/details/dtt_reference.hpp", S+"shamtree/include/shamtree/details/dtt_parallel_select.hpp", S+"shamtree/include/shamtree/details/dtt_scan_multipass.hpp", S+"shamtree/include/shamtree/details/reorder_scan_dtt_result.hpp", S+"shamtree/src/CLBVHDualTreeTraversal.cpp: clbvh_dual_tree_traversal"])

p("C54", "The neighbour cache lists exactly the particles in interaction range",
  "For every set of particles and smoothing lengths, the direct and the two stage searches give each particle of the patch a list without repetition of the particles (ghosts included) whose distance is at most the kernel radius of the larger of the two interaction radii, and nothing else; the relation is symmetric, the two searches agree up to order, and the flat table is the concatenation of the lists at the announced offsets. In rounded arithmetic a pair that passes the rounded distance test is listed whenever it also passes the rounded cube test; a pair at the very edge of the kernel can be missed (negative result).",
  "all particles, radii, tree compressions, kernel schedules and contents of new buffers, with fewer than 2^32 pairs",
  "all particle sets and schedules",
  [S+"shammodels/sph/src/modules/NeighbourCache.cpp: start_neighbors_cache, start_neighbors_cache_2stages", S+"shamtree/include/shamtree/TreeTraversal.hpp: prepare_object_cache, ObjectCacheIterator", S+"shammodels/sph/src/Solver.cpp: compute_presteps_rint", S+"shamtree/include/shamtree/KarrasRadixTreeField.hpp: compute_tree_field_max_field", S+"shamtree/include/shamtree/RadixTree.hpp: sph_radix_cell_crit"])

p("C55", "The neighbour cache handler respects its memory limit and loses nothing",
  "For any history of get_cache, preload and reset calls on an object cache handler, including calls that throw: the objects on the device never exceed the memory limit and the handler's account of it is exact; get_cache(id) returns the contents a call of the generator for id made since the last reset returned, and throws only if that object alone exceeds the limit; the objects of other ids are kept on the device or on the host; an object that was returned once is not generated again before the next reset, however often it was offloaded; as long as nothing throws objects leave the device in the order they came and no more than needed. (Negative results: after an exception objects can leave out of order; build_cache on an id already on the device corrupts the account.)",
  "all histories of calls, generators, object sizes and allocators, with sizes below the range of u64",
  "all histories of calls and sizes",
  [S+"shamtree/include/shamtree/TreeTraversalCache.hpp: ObjectCacheHandler", S+"shamtree/include/shamtree/TreeTraversal.hpp: ObjectCache, HostObjectCache"])

p("C56", "SPH ghost zones hold exactly the particle images in reach of a patch",
  "After the ghost exchange of the SPH solver every non empty patch has its own particles followed by exactly, each once, the images of the particles of all patches (not displaced, periodic, or sheared periodic) whose position is within the interaction radius of the patch of its box; the content and its order do not depend on the distribution of patches over ranks, the thread order, the kernel schedule or the communication schedule, and no rank fails. With periodic and sheared (positive axis) boundaries and radii up to the box size these are all images of the infinite lattice, so every particle of the patch finds every image closer than the radius of the patch. (Negative results: the radius of the sender is not used, so the relation is not symmetric; radii larger than the box and shear along a negative axis miss images.)",
  "all patch trees, placements, particle sets, radii, shear amounts, schedules, thread orders; exact arithmetic for the geometric part, any monotone arithmetic for the rest",
  "all particle sets, patch trees, schedules and distributions",
  [S+"shammodels/sph/src/BasicSPHGhosts.cpp: find_interfaces, gen_id_table_interfaces, for_each_patch_shift", S+"shammodels/sph/include/shammodels/sph/BasicSPHGhosts.hpp: build_position_interf_field, build_interface_native, merge_position_buf, merge_native", S+"shamrock/include/shamrock/scheduler/SerialPatchTree.hpp: make_patch_tree_field, host_for_each_leafs", S+"shammodels/sph/include/shammodels/sph/SPHUtilities.hpp: build_interf_cache"])

p("C57", "The AMR refinement pass keeps a balanced octree and conserves mass, momentum and energy",
  "If the blocks of a patch are the leaves of an octree (each block at most twice as wide as a block it shares a face with), a refinement pass with any refinement criterion and any kernel schedule ends, and the blocks are again the leaves of an octree of the patch, tiling it, in Morton order and balanced, over any history of passes and time steps. The blocks refined are exactly the smallest set that contains the wishes of the criterion and keeps the balance, found before the limit of 100 sweeps; every new block is a kept block, a part of a refined block (whose new cells have the mean of the old cell and stay physical) or the merger of eight sibling blocks that all asked for it. When the snapshot read by the interpolation holds the current states the total mass, momentum and energy are exactly conserved. (Negative results: the snapshot is that of the start of the time step, so refined blocks go back in time; merged states are transposed in x and z; whether an octet merges depends on the schedule; the balance is not kept across patches; the older pass never merges.)",
  "all octrees of side up to 2^21, criteria, states, slopes, kernel schedules and histories; exact arithmetic for the states",
  "all grids, criteria, schedules and histories",
  [S+"shammodels/ramses/src/modules/AMRGridRefinementHandler.cpp: update_refinement_new, internal_refine_grid_new, internal_derefine_grid_new, enforce_two_to_one_refinement_new, enforce_two_to_one_derefinement_new", S+"shamrock/include/shamrock/amr/AMRCell.hpp", S+"shammodels/ramses/src/modules/AMRSortBlocks.cpp: reorder_amr_blocks", S+"shamtree/src/RadixTreeMortonBuilder.cpp", S+"shammodels/ramses/src/Solver.cpp: evolve_once"])

p("C58", "The AMR neighbour graphs are exactly the shared faces",
  "For any mesh of blocks that do not overlap, of any sizes, and any reduction level and schedule, the tree over the blocks is built and the graph of each of the six directions links a block exactly to the blocks that touch it through its face in that direction, each once; likewise for the cells of the blocks (two per direction), within a block and across blocks of different sizes. Over the six directions the links of a block are exactly the blocks that share a face with it. A cell is linked to another in a direction iff the other is linked to it in the opposite direction, and the antecedent of each link is the cell it starts from. (Negative result: a domain whose extents are not all at most or all above 2^20 makes the build throw.)",
  "all lists of 1 to 2^24+1 disjoint blocks with extents up to 2^62 on the same side of 2^20, reduction levels, directions, kernel schedules and old buffer contents",
  "all meshes, levels and schedules",
  [S+"shammodels/ramses/src/modules/FindBlockNeigh.cpp", S+"shammodels/ramses/src/modules/BlockNeighToCellNeigh.cpp", S+"shammodels/ramses/include/shammodels/ramses/modules/details/compute_neigh_graph.hpp: compute_neigh_graph", S+"shammodels/ramses/src/modules/NodeBuildTrees.cpp", S+"shammodels/common/include/shammodels/common/amr/NeighGraph.hpp: NeighGraph, compute_antecedent", S+"shamtree/src/RadixTree.cpp", S+"shamtree/include/shamtree/TreeTraversal.hpp: ObjectIterator"])

p("C59", "The finite volume step conserves mass, momentum and energy",
  "The flux across a face seen from one side is exactly the opposite of the flux seen from the other side, in all six directions: for Rusanov and the two dust solvers on all states and with any rounding that commutes with the sign, for HLL (exact arithmetic) on states of positive density and pressure, for HLLC when its wave speed estimates are in order. Between equal states each solver gives the flux of the Euler equations. On any mesh of disjoint cubic blocks the rate of change computed for a cell, times its volume, is minus the sum over exactly the cells that touch it of the flux times the area of the shared face, across blocks of different sizes; so a time step changes the content of a patch only by what flows through its boundary, and on a periodic domain total mass, energy and momentum are unchanged, whatever the schedule of the kernels. (Negative results: for two streams colliding at Mach 2.5 HLLC takes a different flux on each side and mass is lost; Huang and Bai lets no dust enter a cell at rest.)",
  "all states, solvers and directions; all meshes of disjoint cubic blocks, fields, slopes, time steps, schedules; exact arithmetic outside the Riemann solvers",
  "all states, meshes and schedules",
  [S+"shammath/include/shammath/riemann.hpp: rusanov_flux_x, hll_flux_x, hllc_flux_x, prim_to_cons, cons_to_prim", S+"shammath/include/shammath/riemann_dust.hpp", S+"shammodels/ramses/include/shammodels/ramses/modules/ComputeFluxUtilities.hpp", S+"shammodels/ramses/src/modules/InterpolateToFace.cpp", S+"shammodels/ramses/src/modules/NodeComputeFlux.cpp", S+"shammodels/ramses/src/modules/SumFluxHydro.cpp", S+"shammodels/ramses/src/modules/TimeIntegrator.cpp: forward_euler", S+"shammodels/common/include/shammodels/common/amr/NeighGraph.hpp: for_each_object_link_id"])

p("C60", "AMR ghost blocks are exactly the images that touch the patch",
  "Before a finite volume step every patch gets, after its own blocks, exactly once the image of each block of each patch, in every tile of the periodic or mirrored continuation of the domain, whose closed image touches the closed patch box (its own blocks in tile zero excepted), and nothing else; the content and its order do not depend on the number of ranks, on the placement of the patches, on the iteration order of hash sets, on kernel schedules nor on the communication schedule, and no stage fails. The image of a block has the mirrored bounds; the cell of the image that lies at the image of a cell has the values of that cell, and vectors have the component normal to a mirror negated. A domain with a side of odd length is refused. (Negative result: with outflow on one axis and another condition on another axis, the ghosts in the corner tiles get the outflow component reversed instead of copied.)",
  "all patch tree histories, placements on ranks, block lists, layouts with 1 or 8m values per block, boundary conditions per axis, schedules and communication schedules",
  "all placements, meshes, boundary conditions and schedules",
  [S+"shammodels/ramses/src/modules/FindGhostLayerCandidates.cpp", S+"shammodels/ramses/include/shammodels/ramses/modules/FindGhostLayerCandidates.hpp: get_paving, for_each_paving_tile", S+"shammodels/ramses/src/modules/FindGhostLayerIndices.cpp", S+"shammodels/ramses/src/modules/ExtractGhostLayer.cpp", S+"shammodels/ramses/src/modules/TransformGhostLayer.cpp", S+"shammodels/ramses/src/modules/FuseGhostLayer.cpp", S+"shammath/include/shammath/paving_function.hpp: paving_function_general_3d", S+"shammodels/ramses/src/Solver.cpp: cfg_bc_to_geom, transform_vec_x"])

p("C61", "A Godunov step on a distributed periodic AMR grid conserves mass, momentum and energy, with limited slopes",
  "For every block mesh the gradient kernels give each cell, for each primitive variable, the limiter applied to the means of the difference quotients with exactly the cells that touch it on either side; the distance used is that of the centres, so a linear field has its exact slope also across refinement jumps. Every limiter is zero at extrema, symmetric and odd, and at a face with a cell that is at least as large the reconstructed density, pressure and velocities stay between the two cell values. On a periodic domain cut into any patches, with ghosts from the exchange of C60 and graphs from C58, a full step (primitive variables, slopes, face states, fluxes, rates, Euler update) runs on every patch within bounds for every schedule and leaves the total mass, energy and momentum unchanged: always with Rusanov, and without slopes with HLL on physical states; with slopes the grid must be graded (neighbours differ by at most a factor two). (Negative result: at a face with smaller cells van Leer can reconstruct a negative density from positive ones.)",
  "all distributions of blocks over patches, block meshes, fields, limiters, time steps and schedules; exact arithmetic outside the flux",
  "all meshes, patch decompositions, fields and schedules",
  [S+"shammodels/ramses/include/shammodels/ramses/modules/SlopeLimitedGradientUtilities.hpp: slope_function, get_3d_grad", S+"shammath/include/shammath/slopeLimiter.hpp: van_leer_slope, van_leer_slope_symetric, minmod", S+"shammodels/ramses/src/modules/SlopeLimitedGradient.cpp", S+"shammodels/ramses/src/modules/ConsToPrimGas.cpp", S+"shammodels/common/include/shammodels/common/amr/NeighGraph.hpp: for_each_object_link_cnt", S+"shammodels/ramses/src/Solver.cpp: evolve_once"])

p("C62", "SPH forces conserve momentum, energy and angular momentum over all patches and ghosts",
  "Two particles exert opposite forces on each other along the line of their centres, and the internal energies gain what the forces take from the kinetic energy, for the three viscosities, any smoothing kernel, equation of state and particle states. With the ghosts of a periodic, shearing or free boundary, for any decomposition into patches, placement on ranks, iteration order, kernel schedule and communication schedule, the merged fields of a patch belong to the particles of the merged positions (images carry the shear speed), the kernel stays within bounds and divides by no zero, and the accelerations over all particles of all patches sum to zero; without shear the rate of change of kinetic plus internal energy is zero; with a free boundary the total torque is zero too. Viscosity only heats and conduction goes from hot to cold. The hypothesis is that the interaction radius of a patch covers the kernel radius of each particle that reaches it. (Negative results: without that hypothesis, which the code does not enforce, a large particle is pushed by a small one of another patch that does not see it; the MHD kernel takes the sound speed of one particle for both, so that forces are not opposite.)",
  "all particle states, kernels, viscosities, equations of state, patch trees, placements, boundaries, caches meeting C54, schedules and communication schedules; exact arithmetic",
  "all states, decompositions, boundaries and schedules",
  [S+"shammodels/sph/include/shammodels/sph/math/forces.hpp: add_to_derivs_sph_artif_visco_cond, sph_pressure_symetric", S+"shammodels/sph/include/shammodels/sph/math/q_ab.hpp", S+"shammodels/sph/src/modules/NodeUpdateDerivsVaryingAlphaAV.cpp", S+"shammodels/sph/src/modules/UpdateDerivs.cpp", S+"shammodels/sph/src/Solver.cpp: communicate_merge_ghosts_fields, evolve_once", S+"shammodels/sph/src/BasicSPHGhosts.cpp", S+"shammodels/sph/include/shammodels/sph/BasicSPHGhosts.hpp: build_interface_native, merge_native", S+"shammodels/sph/include/shammodels/sph/math/mhd.hpp"])
p("C63", "Sink particles: accretion, mutual forces and the time step conserve mass and momentum",
  "Accretion flags every particle with the first sink within whose accretion radius it is; the particles that no sink takes remain, in their order, and each sink that takes particles receives exactly their mass, momentum, mass times position and mass times acceleration, whatever the distribution of the particles over patches and ranks. The forces that gas and sinks exert on each other, and those of the sinks on each other, add up to zero, as do their moments. Over a whole leapfrog step (accretion, predictor, sink forces, moves of particles, any number of corrector turns, corrector of the sinks), and over every history of steps, total mass and total momentum of gas and sinks are unchanged; without moves across periodic boundaries the angular momentum changes only in steps with accretion, by exactly dt/2 times the moment about the old positions of the forces on the sinks at their new positions (which need not be zero).",
  "all numbers of particles, patches, ranks and sinks, all positions, velocities, masses, radii, time steps, kernel schedules, numbers of corrector turns, all histories of steps",
  "a run checks one configuration with a tolerance; a sum or a term missing in rare configurations (a particle in two radii, sinks on several ranks) shows as a slow drift",
  [S+"shammodels/sph/src/modules/SinkParticlesFlagAccreteHard.cpp", S+"shammodels/sph/src/modules/SinkParticlesAccreteQuantities.cpp", S+"shammodels/sph/src/modules/SinkParticlesEvictAccretedParticles.cpp", S+"shammodels/sph/src/modules/SinkParticlesUpdate.cpp: predictor_step, corrector_step, compute_sph_forces, compute_ext_forces", S+"shammodels/sph/src/Solver.cpp: evolve_once"])

p("C64", "SPH kernels: unit mass, compact support, positivity, true derivatives, softened gravity",
  "For every polynomial kernel offered (M4 to M10, C2, C4, C6, the double hump and the shifted kernels) and every smoothing length h > 0, over the reals: W_1d, W_2d and W_3d integrate to exactly one over the line, the plane and space; from distance Rkern*h on, W and all its derivatives are zero, and inside W is positive (and nowhere negative); dW_3d is the derivative of W_3d in the distance, dhW_3d its derivative in h, ddW_3d the derivative of dW_3d (except at the end of the plateau of the shifted kernels); except for the double hump kernels W never increases with the distance. The softened potential is -1/r outside the support, phi_3D_prime is its derivative, is the mass of the kernel within distance r over r squared (so between zero and 1/r^2), and vanishes at distance zero.",
  "all eighteen polynomial kernels, all distances, all smoothing lengths h > 0",
  "the unit tests integrate and differentiate numerically at sampled points with a tolerance; a wrong coefficient in one piece, a jump at the end of a piece or a normalisation slightly off passes, and makes densities or energies drift",
  [S+"shammath/include/shammath/sphkernels.hpp: KernelDefM4 .. KernelDefM4Shift16, SPHKernelGen"])

p("C65", "Smoothing lengths: the iteration solves the density equation, and only says so when it does",
  "Over the reals, for every neighbour cache built for the current smoothing lengths: the loop over the neighbours gives the SPH density over all particles and its derivative in h for every length up to the tolerance. One evaluation makes one Newton step for the density equation per particle not yet converged, limited to the given factor; a length never exceeds the tolerance times the initial one (a step beyond is refused and recorded as -1) and stays positive. The iteration stops early only when all recorded changes are below the tolerance, and convergence is reported, on all ranks alike, exactly when every particle of every rank has a recorded change in [0, epsilon). Then (for tolerances like the defaults) every particle ended with a full Newton step of size below epsilon times its initial length. For the bell shaped kernels a particle sharing its place with no other has at most one solution, exactly one if there are enough particles, at which it is left alone and its grad-h factor omega is positive; a lone particle has none, and convergence is never reported. A pre-step that hands on a world hands on one for which convergence was reported.",
  "all numbers of particles, patches and ranks, positions, lengths, masses, kernels, tolerances, execution orders, numbers of iterations and cycles",
  "runs check one particle distribution; a step accepted outside the cached neighbourhood, a rank or a particle left out of the convergence test or a wrong derivative gives densities that are slightly off only for some particles",
  [S+"shammodels/sph/src/modules/IterateSmoothingLengthDensity.cpp", S+"shammodels/sph/src/modules/LoopSmoothingLengthIter.cpp", S+"shammodels/sph/src/modules/ComputeOmega.cpp", S+"shammodels/sph/include/shammodels/sph/math/density.hpp", S+"shammodels/sph/src/Solver.cpp: sph_prestep"])

p("C66", "The initial particles of a setup do not depend on the number of ranks nor on the step sizes",
  "A setup is built from lattice sources (continuous or discontinuous iterator) and random sources with filters, maps and combiners. For every setup, number of ranks and request sizes (any distribution over the ranks, changing from step to step, as long as some rank asks for at least two to the nesting depth of combiners), the generation loop ends without error, all ranks leaving it together; what the ranks push over all steps is every particle of the setup exactly once, with ids 0, 1, ... without gap or repetition and the right final count. Two runs on different numbers of ranks push the same particles, and without a combiner each particle also gets the same id. The discontinuous iterator returns every integer of its range exactly once. (Negative results: with a combiner and one particle per step the loop never ends; with a combiner ids depend on the number of ranks; the generator that copies another context decides to be finished per rank, so that ranks leave a collective loop at different times; with the default insert step on one rank, push_patch_data throws as soon as there are enough particles.)",
  "all setup trees, engines, index boxes, numbers of ranks and histories of requests",
  "all trees, rank counts and step histories",
  [S+"shammath/include/shammath/DiscontinuousIterator.hpp", S+"shammath/include/shammath/crystalLattice.hpp: LatticeHCP::Iterator, LatticeHCP::IteratorDiscontinuous, LatticeCubic", S+"shammodels/sph/include/shammodels/sph/modules/setup/GeneratorLatticeHCP.hpp", S+"shammodels/sph/include/shammodels/sph/modules/setup/GeneratorMCDisc.hpp", S+"shammodels/sph/include/shammodels/sph/modules/setup/ModifierFilter.hpp", S+"shammodels/sph/include/shammodels/sph/modules/setup/CombinerAdd.hpp", S+"shammodels/sph/include/shammodels/sph/modules/setup/GeneratorFromOtherContext.hpp", S+"shammodels/sph/src/modules/SPHSetup.cpp: apply_setup"])

p("C67", "Crystal lattices: spacing, coverage of the box, periodicity",
  "Two different sites of the hexagonal close packed lattice are at least twice the radius apart (attained), of the cubic one at least the spacing. Every site inside a box has its indices inside the computed index bounds, so that a lattice setup makes exactly the sites of the infinite lattice inside the box, each once. get_periodic_box throws exactly on index boxes that cannot be periodic; otherwise the sites inside the returned box are exactly those of the index box, and the lattice is invariant under translations by the sides of the box; a setup in it makes exactly one particle per index triple. get_ideal_hcp_box never throws, and returns a periodic box that contains the box asked for. (Negative result: nearest_periodic_box_indices of a box of zero width gives indices that cannot be periodic.)",
  "all radii, boxes whose indices fit i32, index triples; over the reals",
  "all boxes and index triples",
  [S+"shammath/include/shammath/crystalLattice.hpp: LatticeHCP::generator, get_box_index_bounds, can_make_periodic_box, get_periodic_box, nearest_periodic_box_indices, LatticeCubic", S+"shammodels/sph/include/shammodels/sph/modules/setup/GeneratorLatticeHCP.hpp", S+"shampylib/src/math/pyshammath.cpp: get_ideal_hcp_box"])

p("C68", "The operators of the fast multipole method are exact",
  "Over the reals, for every order of the expansion up to the largest one coded: the products of symmetric tensors are the full contractions; the moments stored for a leaf are the mass moments (sums of mass times tensor powers) of its particles about the centre of the leaf; adding moments joins the sources; moving moments to another centre gives exactly the moments of the same sources about that centre (so that a parent's moments do not depend on the order or the shape of the tree below it). The Green function tensors are the potential 1/r, its gradient (the attraction of a unit mass) and their successive derivatives. The local expansion made of moments and Green tensors, evaluated at a particle, is the sum over all the source particles of the Taylor polynomial (of the given order, around the distance of the two cells) of the force; moving a local expansion to another centre changes nothing of the force it gives anywhere; the forces of single particles are the case of a cell with one particle; likewise for the potential.",
  "all positions, centres, masses, numbers of particles, orders 1 to 5; over the reals",
  "all positions, centres, masses and particle sets",
  [S+"shammath/include/shammath/symtensors.hpp", S+"shammath/include/shammath/symtensor_collections.hpp", S+"shamphys/include/shamphys/fmm/offset_multipole.hpp: offset_multipole", S+"shamphys/include/shamphys/fmm/grav_moment_offset.hpp: offset_dM_mat", S+"shamphys/include/shamphys/fmm/grav_moments.hpp: get_dM_mat, get_M_mat", S+"shamphys/include/shamphys/fmm/contract_grav_moment.hpp: contract_grav_moment_to_force", S+"shamphys/include/shamphys/fmm/GreenFuncGravCartesian.hpp", S+"shammodels/sph/include/shammodels/sph/modules/self_gravity/compute_tree_mass_moments.hpp"])

p("C69", "The self gravity of a patch counts every pair of particles once",
  "For every order of the expansion, every set of particles and every schedule of the kernels: after compute_tree_mass_moments every cell of the tree holds the mass moments, about its centre, of the particles it contains; after the downward pass the expansion of a cell is the sum of its own and of those of the cells above it, each once; and the acceleration of each particle grows by G m times the sum over all particles of one force per pair, which is either the softened direct force (cells in the direct list) or the Taylor expansion of the attraction between the centres of two cells that satisfy the opening criterion. With an opening angle of zero this is the direct softened sum. No buffer is accessed out of bounds.",
  "all particle sets that the tree accepts, opening angles, softenings other than 0, masses, orders 1 to 5, schedules of all kernels; over the reals",
  "all trees, pair lists and schedules",
  [S+"shammodels/sph/src/modules/self_gravity/SGSFMMPlummer.cpp: SGSFMMPlummer::_impl_evaluate_internal", S+"shammodels/sph/include/shammodels/sph/modules/self_gravity/compute_tree_mass_moments.hpp: compute_tree_mass_moments", S+"shamtree/include/shamtree/details/multipole_acceptance_crit.hpp: mac", S+"shamtree/include/shamtree/details/reorder_scan_dtt_result.hpp"])

p("C70", "The traversal based gravity solvers count every particle once",
  "For every order of the expansion, every set of particles, every positive opening angle, and every schedule of the kernels: the solver with one tree traversal per particle, and the one with one traversal per leaf, finish without an access out of bounds (the traversal stack never overflows), and the acceleration of each particle grows by G m times the sum over all particles of one force each: the softened direct force when the particle is in a leaf of the tree that is not well separated from the receiver, or else the Taylor expansion of the attraction of its cell, a cell well separated from the receiver, around the centre of this cell (and of the leaf of the receiver). Well separated means: the centres differ, and the half sizes are at most the opening angle times the distance. The result does not depend on the order in which leaves are treated. Violated for an opening angle of 0 (the one that turns the third solver into the direct sum): a cell centred on the receiver is then expanded, with a division by zero.",
  "all particle sets that the tree accepts, opening angles above 0, softenings other than 0, masses, orders 1 to 5, schedules; over the reals",
  "all trees and traversals",
  [S+"shammodels/sph/src/modules/self_gravity/SGMMPlummer.cpp: SGMMPlummer::_impl_evaluate_internal", S+"shammodels/sph/src/modules/self_gravity/SGFMMPlummer.cpp: SGFMMPlummer::_impl_evaluate_internal", S+"shamtree/include/shamtree/KarrasTreeTraverser.hpp: stack_based_traversal", S+"shamphys/include/shamphys/fmm/contract_grav_moment.hpp: contract_grav_moment_to_force"])

p("C71", "The direct sum kernel computes the reference sum in every execution",
  "The reference mode of the direct solver adds to the acceleration of each particle G m times the sum of the softened fields of all the other particles. The tiled kernel gives the same accelerations in every execution, for every number of particles (also one that does not fill the last work group), every interleaving of the work items between the barriers and every initial content of the scratch memory; it never reads or writes out of bounds, never reads an entry of a tile that another item has not yet stored or has already replaced, and never deadlocks at a barrier. With opening angle zero the fast multipole solver agrees with it. Violated without softening: when the number of particles is not a multiple of 32, the padding of the last tile lies at the origin, and the acceleration of a particle there becomes NaN in the kernel, while the reference mode is finite.",
  "all particle sets below 2^32-31 particles, masses, constants, softenings; all interleavings; over the reals",
  "all interleavings of work items",
  [S+"shammodels/sph/src/modules/self_gravity/SGDirectPlummer.cpp: SGDirectPlummer::_impl_evaluate_internal"])

p("C72", "The implicit dust drag conserves mass, momentum and energy",
  "In a cell with gas and any number of dust species, the implicit drag step (irk1) leaves the densities made by the transport as they are; conserves each component of the momentum of gas and dust together exactly, for all drag rates, time steps and densities before and after the transport; solves the backward Euler equations of the drag; leaves gas and dust that move together unchanged; and, with the frictional heating on, gives the energy that the dust loses to the gas (the energy of gas and dust together is conserved), with the heating off keeps the thermal energy of the gas. Violated twice: the option for the heating is inverted (on: the dissipated energy is lost; off: it is conserved and heats the gas), and the step takes the densities from before the transport with the momenta from after it, so that gas and dust moving together get different velocities when the transport changed their densities by different factors.",
  "all numbers of dust species, densities, momenta, energies, drag rates and time steps; over the reals",
  "all states, numbers of species and rates",
  [S+"shammodels/ramses/src/modules/DragIntegrator.cpp: involve_with_no_src, enable_irk1_drag_integrator"])

p("C73", "The matrix exponential is the scaled and squared Taylor polynomial",
  "For every square matrix of any size (products allowed: 9), mat_exp finishes without an access out of bounds, and its result is the Taylor polynomial of some degree m of the matrix divided by 2^s, raised to the power 2^s, where the first term left out is below 2e-16 for the scaled norm; the coefficients are 1/i! to 1e-15; the rows of the difference to the exponential of the matrix (the sum of the series) have an absolute sum of at most 2^s (2e-15) (1+2e-15)^(2^s) exp(norm), s being at most two above the least scaling; the result commutes with the matrix, has its eigenvectors, and for an eigenvalue x of at least 0 the eigenvalue exp(x) up to the rounding of the coefficients and this truncation. Violated when the norm, halved the least number of times that makes it at most 3.5397, lies above 3.14952: the polynomial of degree 30 is chosen, and the array of 30 coefficients is read at index 30.",
  "all sizes and entries of matrices with a norm below 2^28 times 3.5; over the reals",
  "all matrices and sizes",
  [S+"shammath/include/shammath/matrix_exponential.hpp: mat_exp, order_scale, taylor_eval", S+"shammath/include/shammath/matrix_op.hpp: mat_gemm, mat_axpy_beta, mat_L1_norm"])

p("C74", "The exponential dust drag conserves mass, momentum and energy",
  "In a cell with gas and any number of dust species, the exponential drag step finishes, leaves the densities as they are, multiplies each component of the momentum of gas and dust together by a factor that is 1 up to the accuracy of the matrix exponential, gives gas and dust that move together the same velocity (the old one times this factor), and, with the frictional heating on, conserves the energy of gas and dust together, with the heating off keeps the thermal energy of the gas. Violated twice: the option for the heating is inverted, and for some time steps (for two equal densities: 3.3 stopping times) the matrix exponential reads out of bounds.",
  "all numbers of dust species, positive densities, momenta, energies, drag rates and time steps; over the reals",
  "all states, numbers of species and rates",
  [S+"shammodels/ramses/src/modules/DragIntegrator.cpp: enable_expo_drag_integrator", S+"shammath/include/shammath/matrix_exponential.hpp: mat_exp"])

p("C75", "The paving functions fill space, and their index lists are complete",
  "For periodic and reflective axes, with or without shear: f and f_inv are inverse to each other; every point of space lies in an image of the box; a point inside an image lies in no other image and comes from one point only; and get_paving_index_intersecting lists every image that has a point inside the region asked for, and (without shear) only images that touch it. Violated by the lists for every box whose lower corner is not the origin: for a box of size 1 around the origin the point 0.7 on each axis lies in the image (1,1,1), and the list for the region from 0.6 to 0.8 is (0,0,0) only.",
  "all sizes and centres of the box, boundary kinds, shears, points, indices and regions; over the reals",
  "all boxes, points and regions",
  [S+"shammath/include/shammath/paving_function.hpp: paving_function_general_3d, paving_function_general_3d_shear_x, get_paving_index_intersecting"])
