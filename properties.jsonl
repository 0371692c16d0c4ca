{"id": "C01", "title": "Freshly created particle ids are globally unique", "statement": "Every id that ParticlesBase.initialize/extend hands out is different from every other id handed out by the same or any other particle container of the same species, as long as containers have distinct (rank, patch) pairs within the documented limits; the id can be decoded back to rank, patch and local counter.", "quantifier": "all ranks < 2^14, patches < 2^18, and all histories of initialize/extend calls that stay below 2^32 slots per container", "why_tests_cant": "id space has 2^64 points and the property is about arbitrary call histories", "anchors": ["src/lambdapic/core/particles.py:ParticlesBase.__init__,_generate_ids,initialize,extend"]}
{"id": "C02", "title": "Ids of living particles stay unique through a whole run", "statement": "At every moment of a run no two living particles of one species carry the same id, whatever the interleaving of patch migration and QED particle creation.", "quantifier": "all histories of extend / exchange / create-in-dead-slot operations", "why_tests_cant": "a collision needs a specific history (migrate out, then re-use the vacated slot)", "anchors": ["src/lambdapic/core/particles.py", "src/lambdapic/core/patch/sync_particles_2d.c", "src/lambdapic/core/qed/inline.py"]}
{"id": "C03", "title": "prune keeps exactly the living particles", "statement": "prune(extra_buff) never loses, duplicates or alters a living particle, keeps all attribute arrays the same length npart, never grows the arrays, and is a no-op when there is nothing to gain.", "quantifier": "all particle containers, all dead/alive patterns, all extra_buff >= 0, every sort result argsort may return", "why_tests_cant": "argsort is not stable: the claim must hold for every admissible permutation and every dead/alive mask", "anchors": ["src/lambdapic/core/particles.py:ParticlesBase.prune,QEDParticles.prune"]}
{"id": "C04", "title": "extend only appends dead slots", "statement": "extend(n) leaves every existing slot (attributes, dead flag, event flag, id) untouched and appends exactly n dead slots with weight 0; extend(n<=0) changes nothing.", "quantifier": "all containers and all integers n", "why_tests_cant": "negative-index slicing corner cases (n = 0, n < 0) and arbitrary prior contents", "anchors": ["src/lambdapic/core/particles.py:ParticlesBase.extend,QEDParticles.extend"]}
{"id": "C05", "title": "2D particle exchange conserves living particles", "statement": "One call of Patches.sync_particles in 2D keeps every living particle exactly once: a particle inside its patch stays untouched, a particle that left through a boundary with a neighbour re-appears in exactly that neighbour with all attributes copied (coordinates shifted by the domain length only on a periodic wrap), and a particle is removed only if there is no neighbour in that direction or it left by more than one patch.", "quantifier": "all patch counts, particle lists, dead/alive masks, positions and neighbour tables with opposite-symmetry", "why_tests_cant": "combinatorial state: any number of patches, particles and crossing directions", "anchors": ["src/lambdapic/core/patch/sync_particles_2d.c", "src/lambdapic/core/patch/patch.py:Patches.sync_particles"]}
{"id": "C06", "title": "After 2D exchange every living particle is inside its patch", "statement": "When Patches.sync_particles returns, each living particle lies within the closed bounds of the patch that owns it (bounds widened by half a cell).", "quantifier": "all pre-states, including particles that jumped arbitrarily far", "why_tests_cant": "depends on arbitrary positions", "anchors": ["src/lambdapic/core/patch/sync_particles_2d.c:mark_out_of_bound_as_dead,fill_particles_from_boundary_2d"]}
{"id": "C07", "title": "Particle exchange result does not depend on thread scheduling", "statement": "The parallel fill phase of the particle exchange produces the same arrays for every order in which patches are processed; no thread reads a slot another thread writes.", "quantifier": "all permutations of patch processing order (and all patch states)", "why_tests_cant": "schedules cannot be enumerated by running", "anchors": ["src/lambdapic/core/patch/sync_particles_2d.c:fill_particles_from_boundary_2d"]}
{"id": "C08", "title": "Particle exchange never runs out of slots or indices", "statement": "After extending each container by the amount get_npart_to_extend returns, there is a dead slot for every incoming particle, the number of indices a neighbour stores equals the buffer length allocated for it, so no particle is silently dropped and no buffer is overrun.", "quantifier": "all particle states and all opposite-symmetric neighbour tables", "why_tests_cant": "memory safety needs all inputs", "anchors": ["src/lambdapic/core/patch/sync_particles_2d.c:get_npart_to_extend_2d,get_incoming_index"]}
{"id": "C09", "title": "Periodic wrap puts a crossing particle back into the domain", "statement": "A particle that leaves a periodic domain by less than one patch is shifted by exactly one domain length and lands inside the receiving patch; a particle moving between interior patches is not shifted.", "quantifier": "all positions within one patch length outside, all domain sizes and patch counts", "why_tests_cant": "real-valued inputs and arbitrary geometry", "anchors": ["src/lambdapic/core/patch/sync_particles_2d.c:handle_periodic", "src/lambdapic/simulation/simulation.py:_set_global_domain_bounds"]}
{"id": "C10", "title": "3D particle exchange conserves living particles", "statement": "Same as the 2D statements (conservation, containment, slot sufficiency) for the 26-neighbour 3D exchange.", "quantifier": "all patch counts, particle lists, masks, positions, opposite-symmetric neighbour tables", "why_tests_cant": "26 directions times arbitrary states", "anchors": ["src/lambdapic/core/patch/sync_particles_3d.c"]}
{"id": "C11", "title": "The living-particle count published by the exchange is the true count", "statement": "After Patches.sync_particles the per-patch living count stored for load balancing equals the number of living particles in the patch.", "quantifier": "all states", "why_tests_cant": "needs all migration patterns", "anchors": ["src/lambdapic/core/patch/sync_particles_2d.c:get_npart_to_extend_2d", "src/lambdapic/core/patch/patch.py:Patches.sync_particles"]}
{"id": "C12", "title": "Neighbour tables are symmetric", "statement": "After create_patches / init_rect_neighbor_index, if patch B is the neighbour of patch A across boundary b then A is the neighbour of B across the opposite boundary; neighbours are the geometrically adjacent patches (with wrap on periodic axes) and missing neighbours are exactly those beyond non-periodic sides.", "quantifier": "all patch counts in each direction and all boundary-condition settings accepted by the config validator", "why_tests_cant": "quantifies over all grids and boundary combinations", "anchors": ["src/lambdapic/core/patch/patch.py:Patches.init_rect_neighbor_index_2d,init_rect_neighbor_index_3d", "src/lambdapic/simulation/simulation.py:create_patches"]}
{"id": "C13", "title": "Guard-cell exchange makes patches see the global field", "statement": "After Patches.sync_guard_fields every guard cell that faces a neighbour holds the value of the corresponding interior cell of the global field, and interior cells are unchanged.", "quantifier": "all patch grids, patch sizes >= number of guard cells, guard widths, field contents, thread schedules", "why_tests_cant": "arbitrary grids and contents", "anchors": ["src/lambdapic/core/patch/sync_fields2d.c:sync_guard_fields_2d", "src/lambdapic/core/patch/sync_fields3d.c"]}
{"id": "C14", "title": "Current exchange folds every deposited value exactly once", "statement": "Patches.sync_currents adds each guard-cell current to exactly the interior cell of the neighbour that represents the same global cell and then clears the guard, so the global current is the sum of all patch depositions and the total is conserved; calling it twice changes nothing more.", "quantifier": "all patch grids, guard widths <= patch size, contents", "why_tests_cant": "arbitrary grids and contents", "anchors": ["src/lambdapic/core/patch/sync_fields2d.c:sync_currents_2d", "src/lambdapic/core/patch/sync_fields3d.c:sync_currents_3d"]}
{"id": "C15", "title": "Domain decomposition is transparent for the field solver", "statement": "Running the 2D FDTD E/B updates on patches with guard exchange between half steps gives, cell by cell, the same field as the update on the undivided periodic grid, for any number of steps.", "quantifier": "all patch grids, number of steps, initial fields, currents, dt, dx, dy (exact arithmetic)", "why_tests_cant": "for all decompositions and unboundedly many steps", "anchors": ["src/lambdapic/core/maxwell/cpu.py:update_efield_2d,update_bfield_2d", "src/lambdapic/core/patch/sync_fields2d.c"]}
{"id": "C16", "title": "The FDTD update keeps div B constant", "statement": "The discrete divergence of B at every cell is unchanged by update_bfield for every E field, so a divergence-free B stays divergence-free for the whole run (2D and 3D).", "quantifier": "all fields, cells, dt, dx, dy, dz (exact arithmetic) and any number of steps", "why_tests_cant": "real-valued state space", "anchors": ["src/lambdapic/core/maxwell/cpu.py"]}
{"id": "C17", "title": "Gauss's law is preserved when the deposited current satisfies continuity", "statement": "If the current satisfies discrete charge continuity, div E - rho/eps0 at every cell is unchanged by a full E update (2D and 3D).", "quantifier": "all fields, currents, charge densities, cells, steps (exact arithmetic)", "why_tests_cant": "real-valued state space", "anchors": ["src/lambdapic/core/maxwell/cpu.py:update_efield_2d,update_efield_3d"]}
{"id": "C18", "title": "2D current deposition is charge conserving", "statement": "The current deposited by current_deposit_2d for one particle that moves less than one cell satisfies, cell by cell, (rho_new - rho_old)/dt + div J = 0, where rho_old/rho_new are the particle's charge densities before/after the move; the deposited rho is rho_new and its total is the particle charge.", "quantifier": "all positions, displacements up to one cell per axis, charges, cell sizes (exact arithmetic)", "why_tests_cant": "real-valued inputs with 9 branch combinations of cell crossings", "anchors": ["src/lambdapic/core/current/current_deposit.h:current_deposit_2d,calculate_S"]}
{"id": "C19", "title": "3D current deposition is charge conserving", "statement": "Same as the 2D statement for the 3D deposition.", "quantifier": "all positions, displacements up to one cell per axis, charges, cell sizes (exact arithmetic)", "why_tests_cant": "real-valued inputs with 27 branch combinations", "anchors": ["src/lambdapic/core/current/current_deposit.h:current_deposit_3d_fast", "src/lambdapic/core/current/cpu3d.c"]}
{"id": "C20", "title": "Optimised deposition equals the reference deposition", "statement": "The *_fast deposition used by the unified pusher writes the same jx, jy, jz, rho as the reference deposition, for every particle.", "quantifier": "all particles (exact arithmetic)", "why_tests_cant": "two implementations compared on all real inputs", "anchors": ["src/lambdapic/core/current/current_deposit.h:current_deposit_2d,current_deposit_2d_fast"]}
{"id": "C21", "title": "Particle shape weights are a partition of unity", "statement": "The interpolation/deposition weights of a particle are non-negative and sum to one, for every offset in a cell, and shifting by a crossed cell keeps this.", "quantifier": "all offsets in [-1/2, 1/2] and crossings -1, 0, 1", "why_tests_cant": "real-valued input", "anchors": ["src/lambdapic/core/current/current_deposit.h:calculate_S", "src/lambdapic/core/pusher/unified/unified_pusher_2d.c:get_gx"]}
{"id": "C22", "title": "Field gathering is exact for uniform fields and bounded in general", "statement": "The field a particle sees is a convex combination of nine grid values: uniform fields are reproduced exactly and the result never leaves [min,max] of the grid values; fast and safe index paths read the same cells.", "quantifier": "all particle positions, grid sizes, fields (exact arithmetic)", "why_tests_cant": "real-valued input and all grids", "anchors": ["src/lambdapic/core/pusher/unified/unified_pusher_2d.c:interpolation_2d,interp_field_fast,interp_field"]}
{"id": "C23", "title": "Boris push does no magnetic work and is time-reversible", "statement": "With E = 0 the Boris push keeps |u| exactly; stored inv_gamma satisfies inv_gamma^2 (1+u^2) = 1; pushing with (E,B,dt) and then with (E,B,-dt) returns the original momentum.", "quantifier": "all momenta, fields, charge/mass, dt (over the reals)", "why_tests_cant": "real-valued input", "anchors": ["src/lambdapic/core/pusher/boris.py:boris_inline", "src/lambdapic/core/pusher/unified/unified_pusher_2d.c:boris"]}
{"id": "C24", "title": "Unified and split pushers agree", "statement": "Running a species through the unified pusher changes positions, momenta and currents exactly as the split sequence half push / gather / momentum push / half push / deposit does; adding a callback that forces the split path does not change the physics.", "quantifier": "all particle states, dimension 2 and 3", "why_tests_cant": "must hold for all states", "anchors": ["src/lambdapic/core/pusher/pusher.py:PusherBase.push_position", "src/lambdapic/simulation/simulation.py:run", "src/lambdapic/core/pusher/unified/unified_pusher_2d.c"]}
{"id": "C25", "title": "Bucket sort is a correct sort", "statement": "sorter() rearranges the slots of a patch without losing or duplicating one (all attributes and the dead flag move together). The published bucket bounds cut the slot range into consecutive pieces, and a living particle inside the bucket grid lies between the bounds of the bucket of its own cell and of no other; a living particle outside the grid is filed in the last bucket. (A dead slot is filed with the slot before it.)", "quantifier": "all particle lists, dead masks, bucket index functions", "why_tests_cant": "all inputs", "anchors": ["src/lambdapic/core/sort/cpu2d.c", "src/lambdapic/core/sort/cpu3d.c"]}
{"id": "C26", "title": "The Hilbert-like patch ordering visits every patch exactly once", "statement": "gilbert2d(width,height) and gilbert3d(width,height,depth) terminate and yield every cell of the rectangle (box) exactly once and no other cell, for every width, height, depth >= 1, odd ones included.", "quantifier": "all rectangle sizes", "why_tests_cant": "recursion on arbitrary sizes", "anchors": ["src/lambdapic/core/patch/hilbert.py:gilbert2d,generate2d,gilbert3d,generate3d"]}
{"id": "C27", "title": "Patch-to-rank assignment is a total partition", "statement": "compute_rank assigns each patch to exactly one rank in [0,nranks): the relabelling of the partitioner's parts is a permutation of the ranks, so the patches of one part stay together and the load per part is unchanged; if the partitioner returns the partition already in use (under any labels), no patch changes its rank.", "quantifier": "all patch counts, rank counts, weights, partitioner answers", "why_tests_cant": "all inputs", "anchors": ["src/lambdapic/core/mpi/load_balancer.py", "src/lambdapic/core/patch/metis.py"]}
{"id": "C28", "title": "Load balancing moves patches without losing any", "statement": "After the load balancer ran, every patch exists on exactly the rank the new map names, with unchanged contents, and every send has a matching receive.", "quantifier": "all current and target rank maps", "why_tests_cant": "all maps", "anchors": ["src/lambdapic/core/mpi/load_balancer.py"]}
{"id": "C29", "title": "MPI message tags match and never collide", "statement": "For particle and field exchanges between two ranks, each posted receive tag equals the tag of exactly one posted send of the neighbour, and different messages between the same pair of ranks have different tags.", "quantifier": "all patch counts, species counts, attribute counts", "why_tests_cant": "all inputs; a collision silently swaps data", "anchors": ["src/lambdapic/core/mpi/sync_particles_2d.c", "src/lambdapic/core/mpi/sync_fields2d.c", "src/lambdapic/core/mpi/sync_fields3d.c"]}
{"id": "C30", "title": "MPI current reduction is schedule independent", "statement": "Adding received currents into patch interiors gives the sum of all received contributions for every interleaving of the worker threads.", "quantifier": "all interleavings", "why_tests_cant": "data races are schedule dependent", "anchors": ["src/lambdapic/core/mpi/sync_fields2d.c:sync_currents_2d wait", "src/lambdapic/core/mpi/sync_fields3d.c"]}
{"id": "C31", "title": "Simulated time and step count", "statement": "run(nsteps=n) executes exactly n steps, time always equals itime*dt, and run(sim_time=T) stops at floor(T/dt) total steps; splitting a run into several run calls visits the same steps as one call; dump-and-resume never skips or repeats a completed step except the one interrupted.", "quantifier": "all call histories of run", "why_tests_cant": "histories", "anchors": ["src/lambdapic/simulation/simulation.py:run,_handle_nsteps"]}
{"id": "C32", "title": "Callbacks run at their stage, in order, at their interval", "statement": "Within each step the stages fire in the documented order, each callback registered at a stage runs exactly once per stage event in registration order, and interval callbacks run exactly at the steps their interval selects.", "quantifier": "all callback lists, stages, intervals, steps", "why_tests_cant": "all schedules", "anchors": ["src/lambdapic/simulation/simulation.py:SimulationCallbacks,run", "src/lambdapic/callback/callback.py"]}
{"id": "C33", "title": "Currents are synchronised exactly once before they are used", "statement": "Whatever callbacks call sync_currents during a step, each species' deposited current is folded across patches and ranks exactly once before the E update, and no sync is in flight at migration or at the E update.", "quantifier": "all patterns of callbacks calling sync_currents at any stage, single and multi rank", "why_tests_cant": "all patterns", "anchors": ["src/lambdapic/simulation/simulation.py:sync_currents,sync_currents_start,sync_currents_wait,run"]}
{"id": "C34", "title": "Checkpoint rotation keeps the newest dumps", "statement": "RestartDump(keep=N) keeps exactly the N most recent dumps and never deletes the newest one; loading any kept dump gives every rank the state saved at that step.", "quantifier": "all dump histories", "why_tests_cant": "histories, and steps beyond 10^6", "anchors": ["src/lambdapic/callback/restart.py"]}
{"id": "C35", "title": "A crash while dumping never destroys the last good checkpoint", "statement": "At every crash point during a dump, a complete older or newer checkpoint is still on disk (when one existed).", "quantifier": "all crash points", "why_tests_cant": "crash points", "anchors": ["src/lambdapic/callback/restart.py"]}
{"id": "C36", "title": "Automatic patching yields a valid decomposition", "statement": "When npatch is chosen automatically the patch counts divide the grid, patches are at least the minimum size, and every grid size accepted by the config yields a decomposition.", "quantifier": "all grid sizes, thread counts", "why_tests_cant": "number-theoretic corner cases (primes, thin grids)", "anchors": ["src/lambdapic/simulation/utils.py:find_divisors,auto_patch_2d,auto_patch_3d", "src/lambdapic/simulation/simulation.py:_auto_patch"]}
{"id": "C37", "title": "Species names become unique", "statement": "After add_species every species has a distinct name, first occurrences keep their name, and the order is unchanged.", "quantifier": "all lists of names", "why_tests_cant": "all name lists, including names that look like generated ones", "anchors": ["src/lambdapic/simulation/utils.py:uniquify_species_names"]}
{"id": "C38", "title": "Particle counting and filling agree", "statement": "The number of macro particles calculate_npart reserves equals the number fill_particles writes for every patch, so no slot stays uninitialised and none is written out of bounds; every filled particle lies in its own cell.", "quantifier": "all density profiles, ppc functions, patch geometry", "why_tests_cant": "arbitrary user functions", "anchors": ["src/lambdapic/core/patch/patch.py:Patches.calculate_npart,fill_particles"]}
{"id": "C39", "title": "Every living particle is paired in intra-species collisions", "statement": "In each cell each living particle takes part in the collision pairing with correction factors summing to one; no particle is paired with itself; dead particles are never paired.", "quantifier": "all cells, particle counts, dead masks, shuffles", "why_tests_cant": "all inputs and random shuffles", "anchors": ["src/lambdapic/core/collision/utils.py:IntraPairingIterator,InterPairingIterator", "src/lambdapic/core/collision/cpu.py"]}
{"id": "C40", "title": "Inter-species pairing covers both species", "statement": "In each cell every living particle of the larger list is paired exactly once and every living particle of the smaller list at least once, with correction factors of each particle summing to one.", "quantifier": "all cells, list lengths, dead masks, shuffles", "why_tests_cant": "all inputs", "anchors": ["src/lambdapic/core/collision/utils.py:InterPairingIterator", "src/lambdapic/core/collision/cpu.py"]}
{"id": "C41", "title": "Coulomb scattering conserves momentum and energy in the pair frame", "statement": "A collision rotates the centre-of-mass momentum without changing its length (also along the z axis), so total momentum and energy of an equal-weight pair are conserved, and scattering by angle zero is the identity.", "quantifier": "all momenta, masses, angles (over the reals)", "why_tests_cant": "real-valued input with degenerate branches", "anchors": ["src/lambdapic/core/collision/utils.py:rotate_momentum,boost_to_lab,coulomb_scattering"]}
{"id": "C42", "title": "Each unordered species pair collides once", "statement": "add_collision groups are expanded to each unordered pair of distinct species exactly once, however groups overlap.", "quantifier": "all lists of groups", "why_tests_cant": "all lists", "anchors": ["src/lambdapic/core/collision/collision.py"]}
{"id": "C43", "title": "Photon emission conserves momentum and creates one photon per event", "statement": "create_particles followed by reaction creates exactly one photon per living emitter with an event, at the emitter's position with its weight, and photon momentum plus recoiled electron momentum equals the original electron momentum; nothing else changes.", "quantifier": "all particle states, event masks, dead masks", "why_tests_cant": "all inputs", "anchors": ["src/lambdapic/core/qed/radiation.py", "src/lambdapic/core/qed/inline.py:create_photon", "src/lambdapic/core/qed/cpu.py:photon_recoil"]}
{"id": "C44", "title": "Pair creation conserves momentum and charge", "statement": "Each living photon with an event is replaced by exactly one electron and one positron of the same weight whose momenta add up to the photon's; other photons are untouched.", "quantifier": "all particle states, masks", "why_tests_cant": "all inputs", "anchors": ["src/lambdapic/core/qed/pair_production.py", "src/lambdapic/core/qed/inline.py:create_pair", "src/lambdapic/core/qed/cpu.py:remove_photon"]}
{"id": "C45", "title": "QED table lookup always terminates in bounds", "statement": "Sampling the photon/pair energy fraction from the tables terminates for every chi and random number and reads only inside the tables.", "quantifier": "all chi, random numbers, monotone tables", "why_tests_cant": "non-termination depends on exact equality", "anchors": ["src/lambdapic/core/qed/optical_depth_tables.py:_get_chi_idx,_bisect_interp"]}
{"id": "C46", "title": "HDF5 slices of patches tile the requested global slice", "statement": "For any user slice, the per-patch pieces written by SaveFieldsToHDF5 cover each requested global cell exactly once at the position numpy slicing would put it.", "quantifier": "all patch grids, slices (start, stop, step, negative indices)", "why_tests_cant": "all slices", "anchors": ["src/lambdapic/callback/hdf5.py:_normalize_slice,_compute_patch_slice"]}
{"id": "C47", "title": "Particle output writes every living particle exactly once", "statement": "SaveParticlesToHDF5 assigns each rank and patch a disjoint range and the ranges cover the dataset.", "quantifier": "all per-rank/per-patch counts", "why_tests_cant": "all counts", "anchors": ["src/lambdapic/callback/hdf5.py:SaveParticlesToHDF5"]}
{"id": "C48", "title": "get_fields assembles the global field", "statement": "get_fields returns, for every cell of the requested plane, the value stored in the patch owning that cell, regardless of which rank owns it.", "quantifier": "all patch grids, rank maps, slice positions", "why_tests_cant": "all rank maps", "anchors": ["src/lambdapic/callback/utils.py:get_fields"]}
{"id": "C49", "title": "Species density output is the density of that species alone", "statement": "SaveSpeciesDensityToHDF5/ExtractSpeciesDensity return the deposited charge of the target species divided by its charge, for every set of other (enabled or disabled) species.", "quantifier": "all species lists and enable masks", "why_tests_cant": "all masks", "anchors": ["src/lambdapic/callback/hdf5.py:SaveSpeciesDensityToHDF5", "src/lambdapic/callback/utils.py:ExtractSpeciesDensity"]}
{"id": "C50", "title": "Moving window keeps a consistent patch layout", "statement": "After any number of window shifts patch x indices are a permutation of 0..npatch_x-1 per row, patch coordinates match their index, and the window offset equals the accumulated motion to within one patch.", "quantifier": "all velocities functions, time steps, shift histories", "why_tests_cant": "histories", "anchors": ["src/lambdapic/callback/utils.py:MovingWindow"]}
{"id": "C51", "title": "Particles that leave the moving window are gone", "statement": "A patch recycled to the front of the window contains no particle of the region it left.", "quantifier": "all species (with and without density, injection on or off)", "why_tests_cant": "histories", "anchors": ["src/lambdapic/callback/utils.py:MovingWindow._fill_particles"]}
{"id": "C52", "title": "A laser is centred where the user asked", "statement": "A laser with an explicit transverse centre uses that centre; combined lasers inject the sum of their fields.", "quantifier": "all centres, laser combinations", "why_tests_cant": "real-valued parameter", "anchors": ["src/lambdapic/callback/laser.py"]}
{"id": "C53", "title": "CPML coefficients are well defined and inactive outside the layer", "statement": "For every layer depth the CPML coefficients are finite (no division by zero), 0 < b <= 1, c <= 0, kappa >= 1, index ranges stay inside the patch, and with zero sigma/kappa=1 the update is the plain FDTD update.", "quantifier": "all thickness, patch sizes, positions in the layer", "why_tests_cant": "real-valued parameters", "anchors": ["src/lambdapic/core/boundary/cpml.py", "src/lambdapic/core/maxwell/solver/solver.py"]}
{"id": "C54", "title": "Loaded particles land in exactly one patch", "statement": "LoadParticles puts each particle inside the domain into exactly one patch and particles outside into none; loaded particles have speed below c.", "quantifier": "all positions and patch grids", "why_tests_cant": "real-valued input", "anchors": ["src/lambdapic/callback/utils.py:LoadParticles", "src/lambdapic/core/patch/patch.py:Patch2D"]}
{"id": "C55", "title": "Module particle lists are never stale", "statement": "At the start of each step every module (pusher, sorter, interpolator, depositor, radiation, pair production) works on the current arrays of every species and patch, whatever was extended or pruned during the previous step.", "quantifier": "all histories of extensions in a step", "why_tests_cant": "histories", "anchors": ["src/lambdapic/simulation/simulation.py:update_lists,run", "src/lambdapic/core/qed/radiation.py", "src/lambdapic/core/qed/pair_production.py"]}
{"id": "C56", "title": "Optical-depth bookkeeping fires events only for living particles above threshold", "statement": "An event flag is set exactly for living particles with chi above the threshold whose optical depth was used up; dead particles never fire; the optical depth is re-drawn exactly on events.", "quantifier": "all particle states and random numbers", "why_tests_cant": "random streams", "anchors": ["src/lambdapic/core/qed/optical_depth.py:update_tau_e,update_tau_gamma"]}
{"id": "C57", "title": "Patch geometry tiles the domain", "statement": "Patch bounds (widened by half a cell) tile [-dx/2, Lx-dx/2] without gap or overlap, and the patch list index equals ipatch_x + ipatch_y*npatch_x (+ ...) for every patch.", "quantifier": "all patch counts and cell sizes", "why_tests_cant": "all geometries", "anchors": ["src/lambdapic/simulation/simulation.py:create_patches", "src/lambdapic/core/patch/patch.py:Patch2D.xmin,xmax"]}
{"id": "C58", "title": "CPU timer report percentages add up", "statement": "The percentages printed by the statistics command are non-negative and add up to 100 whenever some time was recorded.", "quantifier": "all timing tables", "why_tests_cant": "all tables", "anchors": ["src/lambdapic/cli/stat.py"]}
{"id": "C59", "title": "Field synchronisation does not depend on how patches are distributed over ranks", "statement": "After the guard exchange every guard cell that represents a cell owned by some patch holds that cell's value, and after the current reduction each owned cell holds the sum of all deposits on it, for every assignment of patches to ranks; the result is the one a single process computes.", "quantifier": "all patch grids, rank assignments, field contents, orders of threads and message deliveries", "why_tests_cant": "all rank layouts and interleavings", "anchors": ["src/lambdapic/core/mpi/sync_fields2d.c", "src/lambdapic/core/mpi/sync_fields3d.c", "src/lambdapic/core/mpi/mpi_manager.py"]}
{"id": "C60", "title": "A laser pulse has the amplitude and the duration that were asked for", "statement": "The field injected by a laser never exceeds the peak field given by a0, for every polarisation and ellipticity; a simple laser injects nothing before its pulse begins and nothing after its end, and its whole pulse is injected, at every incidence angle.", "quantifier": "all points of the boundary, times, angles, polarisations", "why_tests_cant": "real-valued parameters", "anchors": ["src/lambdapic/callback/laser.py:SimpleLaser,GaussianLaser"]}
{"id": "C61", "title": "The quantum parameter of a particle is a number every observer agrees on", "statement": "For every field and momentum, the quantum parameter computed for a living electron, positron or photon is a non-negative number and never NaN; it equals the field strength at rest, and it is the same in every rotated or uniformly moving frame.", "quantifier": "all fields, momenta, frames", "why_tests_cant": "real-valued inputs", "anchors": ["src/lambdapic/core/qed/inline.py:calculate_chi_inline", "src/lambdapic/core/qed/cpu.py:update_chi_patches"]}
{"id": "C62", "title": "The screening length of collisions reflects the particles now in the cell", "statement": "The Debye length used for the collisions of a cell depends on the living particles now in that cell only: not on their order in memory, on dead slots, on a drift they share, nor on earlier steps; and it is never below the mean distance of particles at the cell's present density.", "quantifier": "all particle contents, species, cells, and all histories of earlier steps", "why_tests_cant": "all histories of calls", "anchors": ["src/lambdapic/core/collision/cpu.py:debye_length_patches,debye_length_cell,constrain_debye_length_patches", "src/lambdapic/core/collision/collision.py:calculate_debye_length"]}
{"id": "C63", "title": "The particle exchange of a step does not depend on how patches are spread over ranks", "statement": "In a run on any number of processes, one step's exchange leaves exactly the living particles, in the same patches and with the same attributes, that a single process would leave, as long as no particle moved beyond a neighbouring patch: none is lost, duplicated or written outside the arrays, and on a periodic domain all survive.", "quantifier": "all patch grids, rank assignments, particle contents, orders of the parallel loops", "why_tests_cant": "all rank layouts and particle states", "anchors": ["src/lambdapic/core/mpi/sync_particles_2d.c", "src/lambdapic/core/mpi/sync_particles_3d.c", "src/lambdapic/core/mpi/mpi_manager.py:sync_particles_start,sync_particles_wait"]}
{"id": "C64", "title": "A run on several ranks ends on all of them together", "statement": "However the ranks of a run are scheduled, all of them return from run() having executed the same steps, and none is left waiting for ever; in particular a checkpoint requested by a signal (dump_signals) or an early stop (stop_callback) is carried out by all the ranks at the same step.", "quantifier": "all rank counts, neighbourhoods, callbacks, step counts, moments at which signals arrive on each rank, answers of stop_callback, interleavings", "why_tests_cant": "all interleavings and signal times", "anchors": ["src/lambdapic/simulation/simulation.py:run,sync_currents_start", "src/lambdapic/callback/restart.py:RestartDump._dump_handler,_call", "src/lambdapic/callback/callback.py:callback,Callback", "src/lambdapic/core/mpi/load_balancer.py:should_rebalance,__call__", "src/lambdapic/core/mpi/mpi_manager.py"]}
{"id": "C65", "title": "A periodic run keeps Gauss's law step after step, and cutting the domain into patches does not change its currents", "statement": "In a periodic run on one process, without lasers and without particles created or lost, whose particles move at most one cell per step, the current and charge density in every cell after a step are those the same particles would give on one undivided grid, for every cut of the domain into patches; the stored charge density is that of the particles half a step ahead; and if div E = rho/eps0 holds at the start it holds with the stored charge density in every later step, whatever forces change the momenta. The patches need guard cells for every cell a particle can reach in a step, which three guard cells always give.", "quantifier": "all patch grids, numbers of guard cells, species, particle positions, momenta and weights, fields, run lengths, thread schedules", "why_tests_cant": "all runs of any length", "anchors": ["src/lambdapic/simulation/simulation.py:run,sync_currents", "src/lambdapic/core/current/cpu2d.c", "src/lambdapic/core/current/cpu3d.c", "src/lambdapic/core/current/current_deposit.h", "src/lambdapic/core/patch/sync_fields2d.c", "src/lambdapic/core/patch/sync_fields3d.c", "src/lambdapic/core/maxwell/cpu.py"]}
{"id": "C66", "title": "A complete run gives the same fields and particles however it is cut up and scheduled", "statement": "In a periodic run of any length, with any number of species, and without lasers, absorbing layers, collisions, radiation or callbacks that change the state, the electric and magnetic field in every cell and the particles of every species after each step are those of one undivided simulation of the same domain: they do not depend on the number and size of the patches, on the number of guard cells (from three on), on how patches are spread over ranks and moved between them by the balancer, on thread schedules and message orders, on the order in which the sorter leaves the particles, nor on whether a species is pushed in one pass or stage by stage. No choice makes the run stop or write outside its arrays.", "quantifier": "all patch grids, guard widths, rank layouts in every step, schedules, sort orders, species, initial fields and particles within the Courant limit, run lengths", "why_tests_cant": "all runs of any length under all schedules", "anchors": ["src/lambdapic/simulation/simulation.py:run", "src/lambdapic/core/pusher/unified/unified_pusher_2d.c", "src/lambdapic/core/pusher/unified/unified_pusher_3d.c", "src/lambdapic/core/pusher/pusher.py", "src/lambdapic/core/interpolation/cpu2d.c", "src/lambdapic/core/current/cpu2d.c", "src/lambdapic/core/patch/sync_fields2d.c", "src/lambdapic/core/patch/sync_particles_2d.c", "src/lambdapic/core/mpi/sync_fields2d.c", "src/lambdapic/core/mpi/sync_particles_2d.c", "src/lambdapic/core/mpi/load_balancer.py", "src/lambdapic/core/sort/particle_sort.py", "src/lambdapic/core/maxwell/cpu.py"]}
{"id": "C67", "title": "Absorbing layers act the same however the domain is cut into patches and spread over ranks", "statement": "In a run whose axes are periodic or end in absorbing layers (boundary_conditions='pml', cpml_thickness), with given currents and without lasers, the electric and magnetic field in every cell after each step are those of one undivided grid with one layer at every absorbing end: they do not depend on the number and size of the patches, on how patches are spread over ranks and moved between them, or on the order of the copies of the guard exchange.", "quantifier": "all patch grids, patch sizes, guard widths, layer thicknesses and strengths, mixtures of periodic and absorbing axes, rank layouts in every step, copy orders, initial fields, currents, run lengths", "why_tests_cant": "all runs of any length under all cuts and schedules", "anchors": ["src/lambdapic/simulation/simulation.py:_init_pml,run", "src/lambdapic/core/boundary/cpml.py", "src/lambdapic/core/maxwell/solver/solver.py:update_efield,update_bfield", "src/lambdapic/core/patch/sync_fields2d.c", "src/lambdapic/core/patch/sync_fields3d.c", "src/lambdapic/core/mpi/load_balancer.py"]}
{"id": "C68", "title": "A complete periodic run keeps Gauss's law and the divergence of B, on any number of processes", "statement": "In a periodic run of any length on any number of processes, without lasers, absorbing layers, collisions, radiation or callbacks that change the state, whose particles are pushed in the fields they see and move at most one cell per step, the difference between div E and the charge density of all living particles divided by the vacuum permittivity is, in every cell and at every push, what it was at the first push: a run that begins with Gauss's law keeps it. The divergence of B in every cell never changes. Both hold for every cut into patches, every rank layout also when it changes between steps, every schedule of the exchanges, every order the sorters leave and either path of the push.", "quantifier": "all patch grids, guard widths, rank layouts in every step, schedules, sort orders, species, initial fields and particles within the Courant limit, run lengths", "why_tests_cant": "all runs of any length under all schedules", "anchors": ["src/lambdapic/simulation/simulation.py:run", "src/lambdapic/core/pusher/unified/unified_pusher_2d.c", "src/lambdapic/core/pusher/unified/unified_pusher_3d.c", "src/lambdapic/core/current/current_deposit.h", "src/lambdapic/core/maxwell/solver/solver.py", "src/lambdapic/core/mpi/mpi_manager.py"]}
{"id": "C69", "title": "A complete run with absorbing layers gives the same fields and particles however it is cut up and scheduled", "statement": "In a run of any length whose axes are periodic or end in absorbing layers (boundary_conditions='pml', cpml_thickness), with any number of species, and without lasers, collisions, radiation or callbacks that change the state, the electric and magnetic field in every cell and the particles of every species after each step are those of one undivided simulation with one layer at every absorbing end, in which particles deposit their current, and are removed at the end of a step exactly if they are in a layer. They do not depend on the number and size of the patches, on the number of guard cells (from three on), on how patches are spread over ranks and moved between them, on thread schedules, message orders and sorting. No living particle is in a layer after a step, and no run stops or reads or writes outside an array because of a particle's place.", "quantifier": "all patch grids that the set-up of the layers accepts, guard widths, mixtures of periodic and absorbing axes, layer thicknesses and strengths, rank layouts in every step, schedules, sort orders, species, initial fields and particles within the Courant limit, run lengths", "why_tests_cant": "all runs of any length under all schedules", "anchors": ["src/lambdapic/simulation/simulation.py:run,_init_pml", "src/lambdapic/core/patch/patch.py:Patch2D.xmin,xmax", "src/lambdapic/core/boundary/cpml.py", "src/lambdapic/core/pusher/unified/unified_pusher_2d.c", "src/lambdapic/core/pusher/unified/unified_pusher_3d.c", "src/lambdapic/core/current/current_deposit.h", "src/lambdapic/core/patch/sync_particles_2d.c", "src/lambdapic/core/patch/sync_fields2d.c", "src/lambdapic/core/mpi/sync_particles_2d.c", "src/lambdapic/core/mpi/load_balancer.py"]}
{"id": "C70", "title": "A species is simulated the way it was set up, or the set-up is refused", "statement": "For every list of species a user adds, the simulation either refuses to start or, in every step, treats each enabled species with the pusher, the radiation and the pair production it was given and with nothing else, and leaves disabled species alone. It starts exactly if every profile can be evaluated in the simulation's dimension and every species named for photons and pairs was added. Particles start with the momenta of the species' momentum profile.", "quantifier": "all lists of species with all settings, 2D and 3D, with and without callbacks inside the push", "why_tests_cant": "all combinations and orders of species", "anchors": ["src/lambdapic/core/species.py:Species,Electron,Positron,Photon", "src/lambdapic/simulation/simulation.py:initialize,_init_pushers,_init_qed,_add_default_species,run"]}
{"id": "C71", "title": "The momenta and temperatures a user sets are those the particles start with", "statement": "SetMomentum gives every living particle of the species the momentum asked for, or adds it, and never touches dead slots; SetTemperature gives every living particle a momentum with energy drawn as asked, with mean squares along the axes in the ratio of the temperatures; SetMomentumAndTemperature adds both. Afterwards the stored inverse Lorentz factor of every living particle is that of its momentum, so it is slower than light (or at the speed of light, for photons), and all values are numbers.", "quantifier": "all patches, particle contents, momenta, temperatures, masses, all random numbers", "why_tests_cant": "real-valued inputs and random numbers", "anchors": ["src/lambdapic/callback/utils.py:SetMomentum,SetMomentumAndTemperature,SetTemperature"]}
{"id": "C72", "title": "Photons fly straight on at the speed of light and leave no current", "statement": "In any fields and after any number of steps, a photon that is not converted keeps its momentum, has moved by c times the elapsed time along it, and has deposited neither current nor charge; dead slots are untouched.", "quantifier": "all fields, photon momenta, numbers of steps, 2D and 3D", "why_tests_cant": "all runs of any length", "anchors": ["src/lambdapic/core/pusher/pusher.py:PhotonPusher,PusherBase.push_position", "src/lambdapic/core/pusher/photon.py:update_photon_gamma", "src/lambdapic/core/current/cpu2d.c", "src/lambdapic/core/current/cpu3d.c", "src/lambdapic/simulation/simulation.py:run"]}
{"id": "C73", "title": "The outcome of a collision does not depend on units or on who is first, and the Coulomb logarithm is the documented one", "statement": "The momenta a collision of two particles leaves, for given random numbers, are the same in every system of units; calling the second particle first gives the same collision with another azimuth; and the Coulomb logarithm that is computed for coulomb_log=0 is the one the documentation gives, from the larger of the two impact parameters and the screening length.", "quantifier": "all charges, masses, weights, momenta, densities, time steps, screening lengths, random numbers, systems of units", "why_tests_cant": "real-valued inputs", "anchors": ["src/lambdapic/core/collision/utils.py:coulomb_scattering,collision_data", "src/lambdapic/core/collision/cpu.py:varying_lnLambda,collision_kernel"]}
{"id": "C74", "title": "A simulation with a mask simulates exactly the patches in the mask and is absorbing at all their open sides", "statement": "A simulation restricted by a mask consists of exactly one patch for every place of the grid at whose centre the mask holds, and is refused if there is none; two patches are neighbours exactly if they touch; every side of a patch without a neighbour gets an absorbing layer and no other side does; with a mask that holds everywhere it is the plain simulation with absorbing ends. Fields and densities that are put out hold the field in the cells of these patches and NaN in all others.", "quantifier": "all masks, patch grids, lengths, layer thicknesses, distributions over ranks, message orders", "why_tests_cant": "all masks", "anchors": ["src/lambdapic/simulation/_mask_simulation.py:_MaskSimulation", "src/lambdapic/core/patch/patch.py:init_rect_neighbor_index_2d,add_pml_boundary", "src/lambdapic/callback/utils.py:get_fields_2d,ExtractSpeciesDensity"]}
{"id": "C75", "title": "With autoreload every run is a complete run of the script that is on disk", "statement": "With the autoreload command every run starts from the beginning; it goes on with a further step only if the script on disk is still the one that is being run; a run that is reported as finished made all the steps of its script; and the command leaves by itself only after such a run or a requested checkpoint, or with an error it was told to pass on.", "quantifier": "all histories of saves, errors and steps, all moments at which the file is read", "why_tests_cant": "all histories of edits and errors", "anchors": ["src/lambdapic/cli/auto_reload.py:AutoReload", "src/lambdapic/simulation/simulation.py:run"]}
{"id": "C76", "title": "A collision step conserves momentum and energy, and exactly particles in the same cell collide", "statement": "Species registered with add_collision collide as registered, whenever the call was made, and unknown species are refused. In every step, two particles collide only if they are in the same cell and their species were registered to collide, and every particle that shares its cell with such a partner collides. If all particles have the same weight, the total momentum and the total energy of all particles of a patch are the same before and after the step; positions, weights and dead slots are untouched.", "quantifier": "all groups, orders of calls, numbers of species and particles, momenta, shuffles and random numbers, patch sizes, 2D and 3D", "why_tests_cant": "all inputs, random numbers and call histories", "anchors": ["src/lambdapic/core/collision/collision.py:Collision", "src/lambdapic/core/collision/cpu.py:intra_collision_patches,inter_collision_patches,collision_kernel", "src/lambdapic/simulation/simulation.py:add_collision,_init_collision,_init_sorter,run", "src/lambdapic/core/sort/particle_sort.py:_decide_reverse_x"]}
{"id": "C77", "title": "Exchanges between ranks use and release memory correctly, whatever happens in between", "statement": "Whatever exchanges of guard cells, currents and particles are started, waited for or abandoned, in whatever order and overlap, no freed memory is used, nothing is freed twice or while a message still uses it, no message is forgotten, and when all exchanges have been finished or abandoned nothing stays allocated and no message stays in flight. This holds for every run on any number of ranks, also when an exception leaves it at any point. Currents that count as synchronised have been exchanged since the last deposition.", "quantifier": "all histories of starts, waits, abandoned exchanges, new and released arrays; all numbers of patches, sides, attributes and particles, neighbour ranks, exceptions", "why_tests_cant": "all histories and exception points", "anchors": ["src/lambdapic/core/mpi/sync_fields2d.c", "src/lambdapic/core/mpi/sync_fields3d.c", "src/lambdapic/core/mpi/sync_particles_2d.c", "src/lambdapic/core/mpi/sync_particles_3d.c", "src/lambdapic/core/mpi/mpi_manager.py", "src/lambdapic/simulation/simulation.py:run,sync_currents,sync_currents_start,sync_currents_wait"]}
{"id": "C78", "title": "A laser lets exactly the asked wave into the box", "statement": "While a laser acts, the part of the field that runs into the box right behind the plane of injection is, after every step, that of a wave with the field the laser asks for plus what came in through the outer edge, in every cell of the plane, whatever fields and currents the box holds; waves that run towards the boundary pass the plane. A laser that is not over acts if the left end of the box is absorbing.", "quantifier": "all fields, currents, time steps, cell sizes, patches, sums of lasers, contents of the guard cells after the synchronisation, 2D and 3D", "why_tests_cant": "all fields and real-valued parameters", "anchors": ["src/lambdapic/callback/laser.py:Laser2D._update_patch_fields,Laser3D._update_patch_fields,Laser.__call__", "src/lambdapic/core/maxwell/cpu.py", "src/lambdapic/simulation/simulation.py:run"]}
{"id": "C79", "title": "A Gaussian laser brings in the power that belongs to its amplitude and waist", "statement": "At every time the mean power of a Gaussian laser through the plane of injection is that of a beam with the peak field of a0 and l0 and the waist w0, for every Laguerre-Gauss mode, polarisation, ellipticity and phase, and wherever the focus lies.", "quantifier": "all wavelengths, amplitudes, waists, modes, polarisations, focus positions, times, 2D and 3D", "why_tests_cant": "integrals over all points and phases", "anchors": ["src/lambdapic/callback/laser.py:GaussianLaser"]}
{"id": "C80", "title": "A Gaussian laser is a solution of the paraxial wave equation with its focus where it was asked for", "statement": "The field a Gaussian laser injects is, at every point and time, that of the Gaussian (or vortex) beam of the paraxial wave equation with the asked waist at the asked focus, the asked polarisation, ellipticity and carrier envelope phase, and a beam of azimuthal index l has the phase of a vortex of charge l.", "quantifier": "all points, times, wavelengths, waists, focus positions, azimuthal indices, polarisations", "why_tests_cant": "real-valued parameters and points", "anchors": ["src/lambdapic/callback/laser.py:GaussianLaser"]}
{"id": "C81", "title": "A simple laser brings in a round beam with the asked amplitude, waist and direction", "statement": "The field of a SimpleLaser is that of a wave with the peak field of a0, a round Gaussian profile of waist w0 about its axis, the asked pulse and polarisation, that runs into the box at the asked angle.", "quantifier": "all points, times, angles, waists, pulses, polarisations", "why_tests_cant": "real-valued parameters and points", "anchors": ["src/lambdapic/callback/laser.py:SimpleLaser"]}
{"id": "C82", "title": "Every box with absorbing boundaries can be set up, and its layers are equally strong", "statement": "A simulation with absorbing boundaries can be set up for every arrangement of patches that are larger than the layers; and a layer damps a wave that crosses it by the same factor on every side and for every cell size: it depends on the number of its cells only.", "quantifier": "all patch grids, patch sizes, mixtures of boundary conditions, layer thicknesses, cell sizes, 2D and 3D", "why_tests_cant": "all grids and real-valued sizes", "anchors": ["src/lambdapic/core/boundary/cpml.py", "src/lambdapic/core/patch/patch.py:add_pml_boundary", "src/lambdapic/simulation/simulation.py:_init_pml"]}
{"id": "C83", "title": "The fields exchange energy only with the currents, and every accepted time step is stable", "statement": "In every run with periodic boundaries the energy of the fields, summed over all patches, changes in a step only by the work of E on the currents (and a difference of squared currents that cancels from step to step). Where there are no currents, the fields stay bounded for any number of steps, for every time step factor dt_cfl the configuration accepts.", "quantifier": "all patch grids, ranks, schedules, particles, initial fields, cell sizes, time step factors, numbers of steps, 2D and 3D", "why_tests_cant": "unbounded numbers of steps, all initial fields", "anchors": ["src/lambdapic/core/maxwell/cpu.py", "src/lambdapic/core/maxwell/solver/solver.py", "src/lambdapic/simulation/simulation.py:Simulation.run", "src/lambdapic/simulation/simulation.py:SimulationConfig"]}
{"id": "C84", "title": "Every random number is used once, and a seed decides the initial particles", "statement": "Whatever a run does on its ranks (fill, collide, rebalance, shift its window, set a temperature), no two patches and no two uses are handed the same random stream, and within the filling of a patch no number is used for two purposes. With a seed, the numbers for the initial particles of a patch depend only on the seed, the rank and the place of the patch on the rank, not on the threads.", "quantifier": "all seeds, numbers of ranks and patches, species, profiles, histories of uses, thread schedules", "why_tests_cant": "all histories and schedules", "anchors": ["src/lambdapic/simulation/simulation.py:_init_random_generator", "src/lambdapic/core/patch/patch.py:fill_particles", "src/lambdapic/core/patch/cpu.py", "src/lambdapic/core/collision/collision.py:generate_field_lists", "src/lambdapic/callback/utils.py:MovingWindow,SetTemperature"]}
{"id": "C85", "title": "All ranks decide together when to move patches, and do not try in vain for ever", "statement": "In every run in which every rank owns a patch, all ranks take the same decision in every step, so none waits in vain; patches are moved exactly if two ranks differ by more than the current threshold times the average load; the load of a patch in the new distribution is what its owner computed; the threshold stays within fixed bounds, and the number of redistributions that leave the load unbalanced is bounded in terms of those that do not. The threshold is the configured one.", "quantifier": "all histories of loads before and after each redistribution, numbers of ranks, thresholds", "why_tests_cant": "all histories", "anchors": ["src/lambdapic/core/mpi/load_balancer.py:LoadBalancer", "src/lambdapic/simulation/simulation.py:run"]}
{"id": "C86", "title": "A new particle is put in the first dead slot and disturbs no living one", "statement": "Inserting a particle into the arrays of a patch uses the first dead slot at or after the start, sets all its attributes consistently, leaves every living particle untouched, and reports failure exactly if there is no such slot.", "quantifier": "all arrays, start positions and particle data", "why_tests_cant": "all arrays of any length", "anchors": ["src/lambdapic/core/collision/utils.py:search_dead,insert_at,sum_dead"]}
{"id": "C87", "title": "No axis, direction, place or sign of charge is special in a run", "statement": "Exchange the axes of a set-up, reflect it, move it by whole cells, or give all charges and fields the opposite sign, in any sequence: a run from the changed set-up, with its own division into patches and ranks, shows after every number of steps what the original run shows, changed the same way. So a symmetric set-up stays symmetric, and a 2D run that begins in the plane (Ez, Bx, By, jz and uz zero) stays in the plane.", "quantifier": "all periodic configurations within the Courant limit, divisions into patches and ranks, schedules, initial fields and particles, sequences of changes of the view, numbers of steps", "why_tests_cant": "all configurations, histories and numbers of steps; a test fixes one orientation", "anchors": ["src/lambdapic/simulation/simulation.py:run", "src/lambdapic/core/maxwell/cpu.py", "src/lambdapic/core/maxwell/solver", "src/lambdapic/core/current/cpu2d.c", "src/lambdapic/core/current/cpu3d.c", "src/lambdapic/core/pusher/unified/unified_pusher_2d.c", "src/lambdapic/core/pusher/unified/unified_pusher_3d.c", "src/lambdapic/core/interpolation/cpu2d.c"]}
{"id": "C88", "title": "A simulation read back from a checkpoint goes on like one that was not interrupted", "statement": "A simulation loaded with RestartDump.load by as many ranks as wrote the checkpoint, and run for the remaining steps, calls the same operations and callbacks at the same steps and times (the init stage apart), and has after every number of steps the fields and particles of the uninterrupted run. This does not depend on the number of ranks that read it, on how species are pushed, or on a moving window.", "quantifier": "all states at the dump, patches, rank layouts, numbers of ranks, species, callbacks, numbers of steps before and after", "why_tests_cant": "all histories, dump steps and rank layouts; the existing test loads a checkpoint and looks at the clock only", "anchors": ["src/lambdapic/callback/restart.py:RestartDump", "src/lambdapic/core/particles.py:ParticlesBase.__setstate__", "src/lambdapic/core/utils/pickle_list.py:PickleableTypedList", "src/lambdapic/core/collision/collision.py:Collision.__setstate__", "src/lambdapic/simulation/simulation.py:update_lists", "src/lambdapic/callback/utils.py:MovingWindow"]}
{"id": "C89", "title": "Collisions, radiation and pair production keep Gauss's law", "statement": "In a run with collisions, photon emission and pair production, if div E equals the charge density over eps0 in every cell where the particles are first pushed, it does so in every step; and div B does not change.", "quantifier": "all runs, patches, rank layouts, schedules, species, and all changes of momenta, weights and particle numbers by collisions and QED at any steps", "why_tests_cant": "every later step must be checked against every possible collision and emission before it; existing tests check continuity of one deposition with given motion", "anchors": ["src/lambdapic/simulation/simulation.py:Simulation.run", "src/lambdapic/core/current/current_deposit.h", "src/lambdapic/core/collision/cpu.py", "src/lambdapic/core/qed/radiation.py", "src/lambdapic/core/qed/pair_production.py"]}
{"id": "C90", "title": "Disabling a species or a part of the push does what it says", "statement": "A species that is disabled rests and makes no current; whatever species are enabled and disabled between the steps, the run does not depend on patches, ranks and schedules, Gauss's law is kept, and a species that is disabled in all steps might as well not exist. is_enabled answers with the last enable or disable, and True if there was none. A disabled pusher leaves the particles of its species as they are and makes them no current; a disabled current depositor deposits nothing.", "quantifier": "all histories of enable and disable calls, all runs, patches, rank layouts, schedules, species, fields and particles, and both paths of the push", "why_tests_cant": "the number of histories of calls is unbounded and each must hold in every run; tests toggle at most one flag once", "anchors": ["src/lambdapic/core/utils/enable_mixin.py:EnableMixin", "src/lambdapic/simulation/simulation.py:Simulation.run", "src/lambdapic/core/pusher/pusher.py:BorisPusher.__call__", "src/lambdapic/core/current/deposition.py", "src/lambdapic/core/interpolation/field_interpolation.py"]}
{"id": "C91", "title": "Photon emission and pair creation happen at the tabulated rates", "statement": "In every time step an electron, positron or photon above the threshold has an event with probability 1 - exp(-rate * dt / gamma), independently of all earlier events and of how they changed its motion, and the energy fraction of every event is drawn anew. So the probability of no event in n steps is exp of minus the summed rate, and the mean number of events with rates that depend on the step only is the sum of 1 - exp(-rate * dt / gamma).", "quantifier": "all numbers of steps, all rates and fractions as functions of the state, all motions between the steps (which may depend on earlier events), and the exact law of all random numbers", "why_tests_cant": "a test draws a finite sample; the claim is about the joint law of all random numbers of a run of any length", "anchors": ["src/lambdapic/core/qed/optical_depth.py:update_tau_e", "src/lambdapic/core/qed/optical_depth.py:update_tau_gamma", "src/lambdapic/core/qed/inline.py"]}
{"id": "C92", "title": "Energy fractions follow the tabulated distribution", "statement": "The energy fraction of an event is at most L with the probability that the table gives for fractions up to L, interpolated between the rows around chi and between the columns around L, with both kinds of tables; generated tables never decrease along a row, their columns are the integrals of the rate up to the sum of its drops times the column distances, and the pair rate treats electron and positron alike.", "quantifier": "all tables, grids, chi in the table, random numbers and fractions; all rates the tables are generated from", "why_tests_cant": "a histogram of samples cannot settle a law for every chi and fraction", "anchors": ["src/lambdapic/core/qed/optical_depth_tables.py:_bisect_interp", "src/lambdapic/core/qed/optical_depth_tables.py:integral_photon_prob_along_delta", "src/lambdapic/core/qed/optical_depth_tables_sigmoid.py:_bisect_interp"]}
{"id": "C93", "title": "Thermal particles have the energies of their temperature", "statement": "Particles that are given a temperature have independent energies with the Maxwell-Juttner distribution of that temperature and directions that favour none, so along every axis the mean of momentum times velocity is the temperature; the sampling ends with probability one.", "quantifier": "all positive temperatures, all numbers of particles, the exact law of all random numbers", "why_tests_cant": "a histogram of samples cannot settle a law, and rejection loops have no bound on their rounds", "anchors": ["src/lambdapic/callback/utils.py:SetTemperature.sample_maxwell_juttner", "src/lambdapic/callback/utils.py:SetTemperature.maxwell_juttner_pdf"]}
{"id": "C94", "title": "Collisions turn particles as far as Coulomb scattering does, and favour no direction", "statement": "In a collision with the parameter s (proportional to density, time step and Coulomb logarithm) the mean cosine of the scattering angle is exp(-s), never more for stronger collisions, and 1 without collisions. In the mean each particle of a pair loses the share 1 - (mean cosine) of its momentum relative to the pair, times the weight of the other divided by the larger weight, and nothing across it.", "quantifier": "all collision parameters, masses, charges, momenta, weights, densities and time steps, and the exact law of the random numbers", "why_tests_cant": "a finite sample cannot settle a mean, and the parameter ranges over all numbers from 0", "anchors": ["src/lambdapic/core/collision/utils.py:coulomb_scattering", "src/lambdapic/core/collision/utils.py:rotate_momentum", "src/lambdapic/core/collision/cpu.py:collision_kernel"]}
{"id": "C95", "title": "The push keeps the volume of phase space", "statement": "Pushing particles, with any charge, mass and time step in any fields that depend on position, keeps the volume that a set of particles fills in the space of positions and momenta, so the density of particles in phase space is carried along unchanged and no function of it (such as the entropy) grows or shrinks; the same holds over any number of steps in changing fields. The whole push can be undone by pushing with the negative time step in the same fields.", "quantifier": "all charges, masses, time steps, fields over space, sets of particles, distributions and numbers of steps", "why_tests_cant": "a set of positive volume has infinitely many states, and volumes cannot be observed by runs", "anchors": ["src/lambdapic/core/pusher/unified/unified_pusher_2d.c:boris", "src/lambdapic/core/pusher/unified/unified_pusher_2d.c:push_position_2d", "src/lambdapic/core/pusher/unified/unified_pusher_3d.c:push_position_3d"]}
{"id": "C96", "title": "Gyration in a uniform magnetic field is a rotation on the true circle", "statement": "In a uniform magnetic field of any direction a particle turns about the field in every step by the same angle 2 arctan(omega dt / 2), where omega is the true relativistic cyclotron frequency, so after n steps its momentum is within n (omega dt)^3 / 12 of the true one; its energy and its momentum along the field stay; the centre of gyration moves only along the field, with the velocity of the particle along it, and the distance from it is the true gyration radius, for every time step, however large, and for ever.", "quantifier": "all charges, masses, field strengths and directions, momenta, positions, time steps and numbers of steps", "why_tests_cant": "accumulated drift shows only after unboundedly many steps", "anchors": ["src/lambdapic/core/pusher/unified/unified_pusher_2d.c:boris", "src/lambdapic/core/pusher/unified/unified_pusher_2d.c:push_position_2d", "src/lambdapic/core/pusher/unified/unified_pusher_3d.c:push_position_3d"]}
{"id": "C97", "title": "Light in vacuum obeys the wave equation and keeps the speed of the mesh", "statement": "Without particles and currents, and with fields that start without divergence, every component of E and B in every cell obeys the discrete wave equation with the speed of light after every step; the Fourier amplitude of every wave over the whole domain, gathered from all patches, oscillates for ever with the frequency of the dispersion relation of the mesh and constant amplitudes forward and backward. Under the Courant condition the frequency exists and is unique, no wave is faster than light, and the square of the frequency falls short of (c k)^2 by at most a share of (k d)^2/12. Uniform fields stay as they are.", "quantifier": "all configurations with periodic boundaries, patch layouts, ranks, schedules, divergence-free fields, waves and numbers of steps", "why_tests_cant": "the frequency of a wave shows exactly only after unboundedly many steps, and the layouts and fields are unbounded", "anchors": ["src/lambdapic/core/maxwell/cpu.py", "src/lambdapic/core/patch/sync_fields2d.c", "src/lambdapic/simulation/simulation.py:Simulation.run"]}
{"id": "C98", "title": "A simulation can be run backwards", "statement": "If a run is stopped, all momenta, the magnetic field and the currents are reversed, and the run is continued, then every later state is the reversed state of the first run the same number of steps before it was stopped: all fields in all cells and all particles, exactly. After as many steps as the first run made, the particles are back where they started with opposite momenta, B is the opposite of the first, and E is the first but for the currents that were stored before the first step.", "quantifier": "all configurations with periodic boundaries, patch layouts, ranks, schedules, fields, particles and numbers of steps", "why_tests_cant": "the number of steps, the fields and the particles are unbounded, and a test compares only up to growing rounding errors", "anchors": ["src/lambdapic/core/maxwell/cpu.py", "src/lambdapic/core/pusher/unified/unified_pusher_2d.c", "src/lambdapic/core/pusher/unified/unified_pusher_3d.c", "src/lambdapic/core/current/current_deposit.h", "src/lambdapic/simulation/simulation.py:Simulation.run"]}
{"id": "C99", "title": "Simulations that differ only in scale are the same simulation", "statement": "Take a run and a second one in which all lengths and the time step are multiplied by one factor, all charges by a second and all masses by a third, while the momenta in units of mc stay, E and B are multiplied by mass/(charge length), number densities by mass/(charge length)^2 and current densities by charge times that. Then after every number of steps the second run shows the state of the first in the other scale, exactly: so results in normalised units (a0, n/nc, lengths in wavelengths) do not depend on the wavelength chosen.", "quantifier": "all configurations with periodic boundaries, patch layouts, ranks, schedules, fields, particles, factors and numbers of steps", "why_tests_cant": "the number of steps, the fields, the particles and the factors are unbounded", "anchors": ["src/lambdapic/core/maxwell/cpu.py", "src/lambdapic/core/pusher/unified/unified_pusher_2d.c", "src/lambdapic/core/pusher/unified/unified_pusher_3d.c", "src/lambdapic/core/current/current_deposit.h", "src/lambdapic/simulation/simulation.py:Simulation.run"]}
{"id": "C100", "title": "Every particle can be followed through a run", "statement": "Between any two states of a run the particles of the later one are those of the earlier one, matched one to one: every particle of the later state has a partner of the same species and weight in the earlier one from which it has moved, along each axis and up to whole lengths of periodic axes, by at most the way of light in the time between. On periodic axes none is lost and none is added, whatever the patches, ranks, sorting and exchange do; with absorbing layers only such particles are lost as light could bring to a layer in that time.", "quantifier": "all configurations with periodic or absorbing boundaries, patch layouts, ranks, schedules, orders of the sort, fields, particles and pairs of steps", "why_tests_cant": "the number of steps, the patches, the schedules and the particles are unbounded", "anchors": ["src/lambdapic/core/patch/sync_particles_2d.c", "src/lambdapic/core/patch/sync_particles_3d.c", "src/lambdapic/core/pusher/unified/unified_pusher_2d.c", "src/lambdapic/core/pusher/unified/unified_pusher_3d.c", "src/lambdapic/core/mpi/sync_particles_2d.c", "src/lambdapic/core/mpi/sync_particles_3d.c", "src/lambdapic/simulation/simulation.py:Simulation.run"]}
{"id": "C101", "title": "Nothing in a simulation travels further than eight cells in a step", "statement": "Take two simulations of the same domain that begin with the same fields and the same particles in the cells of some region and differ in any way elsewhere. After i steps they show the same fields, currents and particles, exactly, in all cells of the region that are 8 i cells inside of it, whatever their patches, ranks, schedules and sorting: what is far away, another patch or another rank cannot influence it, neither through the guard cells nor through the particle exchange.", "quantifier": "all configurations with periodic boundaries, patch layouts, ranks, schedules, orders of the sort, pairs of initial states, regions and numbers of steps", "why_tests_cant": "the number of steps, the regions, the states and the layouts are unbounded", "anchors": ["src/lambdapic/core/maxwell/cpu.py", "src/lambdapic/core/patch/sync_fields2d.c", "src/lambdapic/core/patch/sync_fields3d.c", "src/lambdapic/core/patch/sync_particles_2d.c", "src/lambdapic/core/current/current_deposit.h", "src/lambdapic/core/pusher/unified/unified_pusher_2d.c", "src/lambdapic/core/pusher/unified/unified_pusher_3d.c", "src/lambdapic/simulation/simulation.py:Simulation.run"]}
{"id": "C102", "title": "A run depends on the matter that the macro particles stand for, not on how it is cut into macro particles", "statement": "Two simulations that begin with the same fields, and whose macro particles stand for the same distribution of real particles over positions and momenta, show the same fields and the same distribution after every number of steps, exactly: it does not matter into how many macro particles of which weights the matter is cut, in which order they are, over how many species of the same charge and mass they are spread, and whether there are macro particles of weight zero. A species that both simulations have moves in the same way in both; tracer particles of weight zero follow the fields and change nothing.", "quantifier": "all configurations with periodic boundaries, ranks, schedules, orders of the sort, pairs of initial states with the same matter, and numbers of steps", "why_tests_cant": "the number of steps, the particles, their weights and the layouts are unbounded", "anchors": ["src/lambdapic/core/current/current_deposit.h", "src/lambdapic/core/current/cpu2d.c", "src/lambdapic/core/current/cpu3d.c", "src/lambdapic/core/pusher/unified/unified_pusher_2d.c", "src/lambdapic/core/pusher/unified/unified_pusher_3d.c", "src/lambdapic/simulation/simulation.py:Simulation.run"]}
{"id": "C103", "title": "A 3D simulation of a problem that does not depend on z is the 2D simulation", "statement": "A 2D simulation and a 3D simulation with the same cells in the x-y plane, the same time step, and with the same fields in every cell along z at the beginning, where the matter of the 3D simulation is that of the 2D simulation drawn out along z (evenly over the cells along z, and as much per length as in 2D), show the same fields in every cell along z after every number of steps, exactly, and the same matter drawn out along z: a user can check a 3D set-up in 2D. It does not matter how the two are cut into patches, ranks and macro particles, and how long the domain is along z.", "quantifier": "all pairs of configurations with periodic boundaries and the same cells in the x-y plane, ranks, schedules, orders of the sort, initial states of the 2D simulation with any 3D state that is drawn out from it, and numbers of steps", "why_tests_cant": "the number of steps, the particles, the cells and the layouts are unbounded; a test compares one problem", "anchors": ["src/lambdapic/core/maxwell/cpu.py", "src/lambdapic/core/current/cpu2d.c", "src/lambdapic/core/current/cpu3d.c", "src/lambdapic/core/interpolation/cpu2d.c", "src/lambdapic/core/interpolation/cpu3d.c", "src/lambdapic/core/pusher/unified/unified_pusher_2d.c", "src/lambdapic/core/pusher/unified/unified_pusher_3d.c", "src/lambdapic/simulation/simulation.py:Simulation.run"]}
{"id": "C104", "title": "The constructor accepts exactly the documented set-ups, and an accepted set-up is well posed", "statement": "Simulation(...) and Simulation3D(...) accept their arguments exactly if they are such as the documentation asks for (positive numbers of cells, positive cell sizes, numbers of patches that divide those of the cells or are left to the program, a CFL factor in (0, 1], not both of a number of steps and a time). An accepted simulation has the cells and patches the user gave, its patches cover the domain exactly, its time step is the asked fraction of the stability limit (as get_cfl reports) so that light crosses less than a cell in a step, run() makes the asked number of steps or as many as fit in the asked time, and it meets all conditions under which complete runs are right: enough guard cells, wide enough patches, a boundary condition for every side.", "quantifier": "all arguments of the constructors in 2D and 3D", "why_tests_cant": "the arguments are unbounded numbers; tests try a few of them", "anchors": ["src/lambdapic/simulation/simulation.py:SimulationConfig", "src/lambdapic/simulation/simulation.py:Simulation3DConfig", "src/lambdapic/simulation/simulation.py:Simulation._validate", "src/lambdapic/simulation/simulation.py:Simulation._auto_patch", "src/lambdapic/simulation/simulation.py:Simulation.get_cfl", "src/lambdapic/simulation/utils.py"]}
{"id": "C105", "title": "Without particles fields superpose", "statement": "In a simulation without particles Maxwell's equations are linear, and so is the program: if the fields of a run begin as a times the fields of a second run plus b times the fields of a third, on the same domain with periodic or absorbing (pml) boundaries, then E and B are so in every stored cell after every number of steps, also inside the absorbing layers, whatever the rank layouts, schedules and message orders of the three runs. In particular a run that begins without fields and particles never has any.", "quantifier": "all domains, patch grids, mixtures of periodic and absorbing axes, layer thicknesses and strengths, initial fields, factors, rank layouts in every step, schedules and run lengths", "why_tests_cant": "all fields and runs of any length under all schedules; a test compares a few fields with rounding", "anchors": ["src/lambdapic/core/maxwell/solver/solver.py", "src/lambdapic/core/maxwell/cpu.py", "src/lambdapic/core/boundary/cpml.py", "src/lambdapic/simulation/simulation.py:Simulation.run"]}
{"id": "C106", "title": "Neutral particles are passengers", "statement": "Particles of charge zero (and particles of weight zero) deposit no current and have no influence on anything but themselves: a periodic run with further neutral species shows the same E, B and J in every cell, and the same particles of every other species, after every number of steps, as the run without them, whatever the rank layouts, schedules, sorting and paths of the push of the two runs.", "quantifier": "all periodic domains, patch grids, initial fields and particles within the Courant limit, neutral species with any particles, rank layouts in every step, schedules, run lengths", "why_tests_cant": "pairs of runs of any length under all schedules", "anchors": ["src/lambdapic/simulation/simulation.py:Simulation.run", "src/lambdapic/core/current/current_deposit.h", "src/lambdapic/core/pusher/unified/unified_pusher_2d.c", "src/lambdapic/core/pusher/unified/unified_pusher_3d.c"]}
{"id": "C107", "title": "Reports of progress", "statement": "Without a terminal, the log of a run has lines k/total with a percentage. Whatever the clock shows and however the run ends (all steps, stop callback, requested dump): only rank 0 writes; the counts grow, starting from the steps done before, by at most 100 steps (a tenth of the total, if less) from line to line; a step without a line comes less than 60 seconds after the last line; the last line names the last step of the run; each percentage is that of its count; a line k/total says that k steps are done; reporting never makes a run fail.", "quantifier": "all run calls, numbers of steps, readings of the clock, ends of the run, ranks, with and without a SLURM job", "why_tests_cant": "every history of clock readings and every way a run can end", "anchors": ["src/lambdapic/core/utils/progress_bar.py:ProgressBar", "src/lambdapic/simulation/simulation.py:Simulation.run"]}
{"id": "C108", "title": "A periodic box stands for an infinite lattice", "statement": "A box with periodic boundaries stands for an infinite lattice of copies of itself: a run on a larger periodic box, any number of times as long along each axis, that begins with copies of the fields and particles of a smaller box side by side, shows copies of the fields and of the matter of the run on the smaller box after every number of steps, whatever the patches, ranks and schedules of the two runs.", "quantifier": "all boxes, numbers of copies along each axis, patch divisions, ranks, schedules, fields, particles and numbers of steps", "why_tests_cant": "two whole runs of different sizes over every history are compared", "anchors": ["src/lambdapic/simulation/simulation.py:Simulation.run", "src/lambdapic/core/current/cpu2d.c", "src/lambdapic/core/current/cpu3d.c", "src/lambdapic/core/patch/patch.py:Patches", "src/lambdapic/core/maxwell/solver"]}
{"id": "C109", "title": "Pictures show the cells of the fields", "statement": "Every time PlotFields runs, the first rank saves one picture, named after the step, whose images show the entries of the configuration in their order: the pixel in column i and row j from below is the value of cell (i, j) of the named component (or of the given array as it is at that time) times the scale, at the place of the cell on the axes. Pictures of other steps stay as they are, the other ranks only take part in gathering the components, and the colour maps of the program are known while it draws and not afterwards.", "quantifier": "all configurations, histories of calls, fields, arrays, steps and ranks", "why_tests_cant": "the content of every picture of every run is compared with the fields at that time; a failing call acts on all later ones", "anchors": ["src/lambdapic/callback/plot.py:PlotFields", "src/lambdapic/callback/plot.py:register_cmaps", "src/lambdapic/callback/plot.py:unregister_cmaps", "src/lambdapic/callback/utils.py:get_fields"]}
{"id": "C110", "title": "The size of a periodic box does not matter away from its edges before a signal arrives", "statement": "Two runs on periodic boxes of different sizes (same cells, constants and step) that begin with the same fields, currents and particles in a window of cells that lies in both boxes show the same fields, currents and particles after i steps in every cell that is at least 8 i cells inside the window, whatever the boxes hold outside of it and however they are cut into patches and spread over ranks.", "quantifier": "all pairs of box sizes, patch layouts, rank layouts, schedules, windows, initial states and numbers of steps", "why_tests_cant": "two boxes of all sizes have to be compared for all contents outside the window", "anchors": ["src/lambdapic/core/maxwell/cpu.py", "src/lambdapic/core/patch/sync_fields2d.c", "src/lambdapic/core/patch/sync_fields3d.c", "src/lambdapic/core/patch/sync_particles_2d.c", "src/lambdapic/core/current/current_deposit.h", "src/lambdapic/core/pusher/unified/unified_pusher_2d.c", "src/lambdapic/core/pusher/unified/unified_pusher_3d.c", "src/lambdapic/simulation/simulation.py:Simulation.run"]}
{"id": "C111", "title": "A job ends when one of its ranks fails", "statement": "If an exception escapes from Simulation.run on any rank, at any point and for whatever reason, all processes of the job end with an error status and no rank waits for the failed one; if no rank fails, all ranks get to the end; a job of one rank ends with its own exception. However the ranks proceed, the job ends after finitely many steps.", "quantifier": "all numbers of ranks, scripts, points of failure, communication patterns and schedules of the ranks", "why_tests_cant": "a hang depends on the order in which ranks proceed and on where a rank fails", "anchors": ["src/lambdapic/core/mpi/utils.py:abort_on_mpi_error", "src/lambdapic/simulation/simulation.py:Simulation.run", "src/lambdapic/simulation/simulation.py:Simulation.initialize"]}
{"id": "C112", "title": "Log and timer files hold what was logged, and the timer statistics adds them up", "statement": "A simulation made with log_file=f and enable_timer=True on every rank has in f, once each and in order, the lines its ranks log from the set level on, in the timer file of f (another file) the lines of its timers, on the console of a rank its own lines from INFO on; no other file changes; truncate_log=False never removes a line; lambdapic timer-stat f shows for every timed name its share, mean and total, the total being the sum of the times measured up to the rounding of each.", "quantifier": "all file names, levels, numbers of ranks, interleavings of what ranks log and time, older contents of the files", "why_tests_cant": "which lines are lost depends on the order in which ranks start, on earlier runs and on the times measured", "anchors": ["src/lambdapic/core/utils/logger.py:configure_logger", "src/lambdapic/core/utils/logger.py:timer_sink_path", "src/lambdapic/core/utils/timer.py:Timer", "src/lambdapic/cli/main.py:analyze_timers", "src/lambdapic/cli/stat.py:parse_log_file", "src/lambdapic/simulation/simulation.py:Simulation.__post_init__"]}
{"id": "C113", "title": "The mean fields of a periodic box change only through the net current of its particles", "statement": "With periodic boundaries the sum of every component of B over all cells stays what it was at the start; in a step the sum of a component of E changes by -dt/eps0 times the mean of the sums of the currents stored before and after it; after every step the sum of the currents times the size of a cell is the sum of charge times weight times velocity over the living particles.", "quantifier": "all periodic configurations within the bounds of C66, patches and ranks (also changing), starting fields and particles, numbers of steps, components", "why_tests_cant": "the sums run over all patches and particles of runs of any length; a test sees one layout", "anchors": ["src/lambdapic/simulation/simulation.py:Simulation.run", "src/lambdapic/core/maxwell/cpu.py", "src/lambdapic/core/current/cpu2d.c", "src/lambdapic/core/current/cpu3d.c", "src/lambdapic/core/pusher/unified/unified_pusher_2d.c", "src/lambdapic/core/pusher/unified/unified_pusher_3d.c"]}
{"id": "C114", "title": "Away from the absorbing layers a run does not depend on the layers", "statement": "Two runs on the same domain, of which each may have absorbing or periodic axes and layers of any thickness and strength, that begin with the same fields, currents and particles in a region free of layers, whatever they have elsewhere, show the same E, B, currents and particles after i steps in all cells of the region that are 8 i cells inside. In particular a run with layers is a run of a periodic box there until something can have come from the layers.", "quantifier": "all pairs of configurations of one domain within the bounds of C69, patches and ranks (also changing), schedules, regions, starting states that agree on the region, numbers of steps", "why_tests_cant": "the layers, the decomposition, the region and the state outside of it are arbitrary; a test compares two boxes", "anchors": ["src/lambdapic/simulation/simulation.py:Simulation.run", "src/lambdapic/core/boundary/cpml.py", "src/lambdapic/core/maxwell/cpu.py", "src/lambdapic/core/maxwell/solver/solver.py", "src/lambdapic/core/current/cpu2d.c", "src/lambdapic/core/current/cpu3d.c", "src/lambdapic/core/pusher/unified/unified_pusher_2d.c", "src/lambdapic/core/pusher/unified/unified_pusher_3d.c", "src/lambdapic/core/patch/sync_particles_2d.c"]}
