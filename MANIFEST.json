{
 "claims": [
  {
   "property": "C01",
   "status": "proved",
   "theorems": [
    "Verif.Particles.ids_unique",
    "Verif.Particles.unspecified_rank_fails"
   ],
   "note": "All histories of initialize/extend/prune over any family of containers. unspecified_rank_fails documents that rank=None always yields rank 0."
  },
  {
   "property": "C02",
   "status": "partial",
   "theorems": [
    "Verif.Ids.ids_unique_migration_partial",
    "Verif.Ids.ids_unique_creation_partial",
    "Verif.Ids.ids_collide_fails"
   ],
   "note": "Ids stay unique through every history with migration and no QED creation, and through every history with creation and no migration. With both the property is false: a vacated slot keeps the id of the particle that left, and QED creation revives it; the counterexample runs the exchange and emission models."
  },
  {
   "property": "C03",
   "status": "proved",
   "theorems": [
    "Verif.Particles.prune_keeps_living",
    "Verif.Particles.qed_prune_keeps_living"
   ],
   "note": "For every admissible argsort result; exact arithmetic for the buffer factor."
  },
  {
   "property": "C04",
   "status": "partial",
   "theorems": [
    "Verif.Particles.extend_appends_dead",
    "Verif.Particles.qed_extend_positive_partial",
    "Verif.Particles.qed_extend_zero_fails",
    "Verif.Particles.qed_extend_negative_fails"
   ],
   "note": "Holds for base containers for all n. For QED containers it is false for n = 0 and n < 0 (witness theorems)."
  },
  {
   "property": "C05",
   "status": "proved",
   "theorems": [
    "Verif.ExchangeProps.exchange2_conserves"
   ],
   "note": "Any bounds, any opposite-symmetric neighbour table, any state, any loop order. Coordinates exact rationals or NaN."
  },
  {
   "property": "C06",
   "status": "proved",
   "theorems": [
    "Verif.ExchangeProps.exchange2_contains"
   ],
   "note": "For states whose living particles have numeric coordinates; NaN coordinates are never moved by the code."
  },
  {
   "property": "C07",
   "status": "proved",
   "theorems": [
    "Verif.ExchangeProps.exchange2_schedule_independent"
   ],
   "note": "Orders of the parallel loops at patch granularity; both loops arbitrary permutations."
  },
  {
   "property": "C08",
   "status": "proved",
   "theorems": [
    "Verif.ExchangeProps.exchange2_enough_slots",
    "Verif.ExchangeProps.exchange2_conserves"
   ],
   "note": "Undefined behaviour is the value none in the model; the theorem shows it never occurs."
  },
  {
   "property": "C09",
   "status": "proved",
   "theorems": [
    "Verif.ExchangeProps.periodic2_lands_inside",
    "Verif.ExchangeProps.periodic2_conserves",
    "Verif.ExchangeProps.pml_axis_no_shift",
    "Verif.ExchangeProps.periodic3_lands_inside",
    "Verif.ExchangeProps.periodic3_conserves"
   ],
   "note": "Exact arithmetic."
  },
  {
   "property": "C10",
   "status": "proved",
   "theorems": [
    "Verif.ExchangeProps.exchange3_conserves",
    "Verif.ExchangeProps.exchange3_contains",
    "Verif.ExchangeProps.exchange3_schedule_and_slots"
   ],
   "note": ""
  },
  {
   "property": "C11",
   "status": "partial",
   "theorems": [
    "Verif.ExchangeProps.published_count_fails",
    "Verif.ExchangeProps.published_count_partial"
   ],
   "note": "False of the code: the published count also contains the particles that left (witness). The partial theorem gives the exact excess."
  },
  {
   "property": "C12",
   "status": "partial",
   "theorems": [
    "Verif.Neighbors.neighbours2",
    "Verif.Neighbors.neighbours3",
    "Verif.Neighbors.local_neighbours2",
    "Verif.Neighbors.local_neighbours3",
    "Verif.Neighbors.neighbour_rank2",
    "Verif.Neighbors.mixed_bc_not_symmetric_fails",
    "Verif.Neighbors.neighbour_rank3_ignores_map_fails"
   ],
   "note": "Holds for all settings in which both ends of each axis have the same condition; false for mixed ends, which the validator accepts (witness)."
  },
  {
   "property": "C13",
   "status": "proved",
   "theorems": [
    "Verif.SyncFields.guard_exchange2",
    "Verif.SyncFields.guard_exchange3",
    "Verif.SyncFields.cells_in_array2"
   ],
   "note": "Every statement-level thread interleaving; neighbour tables as computed by init_rect_neighbor_index; both ends of each axis with the same condition."
  },
  {
   "property": "C14",
   "status": "proved",
   "theorems": [
    "Verif.SyncFields.current_exchange2",
    "Verif.SyncFields.current_exchange3"
   ],
   "note": "Every statement-level thread interleaving (the += and the clearing are separate steps); exact arithmetic."
  },
  {
   "property": "C15",
   "status": "proved",
   "theorems": [
    "Verif.Maxwell.decomposition2",
    "Verif.Maxwell.decomposition3"
   ],
   "note": "Periodic domains, all patches on one process, every number of steps, every thread schedule of the exchanges; exact arithmetic."
  },
  {
   "property": "C16",
   "status": "proved",
   "theorems": [
    "Verif.Maxwell.divB_update2",
    "Verif.Maxwell.divB_update3",
    "Verif.Maxwell.divB_run2",
    "Verif.Maxwell.divB_run3"
   ],
   "note": "Single update on any patch; whole periodic run on any patch grid."
  },
  {
   "property": "C17",
   "status": "proved",
   "theorems": [
    "Verif.Maxwell.gauss_update2",
    "Verif.Maxwell.gauss_update3",
    "Verif.Maxwell.gauss_run2",
    "Verif.Maxwell.gauss_run3"
   ],
   "note": "Single update on any patch; whole periodic run with currents satisfying continuity."
  },
  {
   "property": "C18",
   "status": "proved",
   "theorems": [
    "Verif.DepositProps.charge_conserving2",
    "Verif.DepositProps.deposit2_in_array",
    "Verif.DepositProps.deposit2_totals",
    "Verif.DepositProps.charge_conserving_patch2"
   ],
   "note": "every particle with |v dt| <= cell size per axis, every array size, dx, dy > 0; one particle and a whole patch (dead and NaN particles skipped); exact rational arithmetic"
  },
  {
   "property": "C19",
   "status": "proved",
   "theorems": [
    "Verif.DepositProps.charge_conserving3_ref",
    "Verif.DepositProps.charge_conserving3_fast",
    "Verif.DepositProps.charge_conserving_patch3"
   ],
   "note": "reference and unified-pusher 3D deposition; the reference routine only for particles whose stencil INDEX3 can address (it writes out of bounds otherwise)"
  },
  {
   "property": "C20",
   "status": "proved",
   "theorems": [
    "Verif.DepositProps.fast_eq_ref2",
    "Verif.DepositProps.fast_eq_ref3"
   ],
   "note": "2D: every particle. 3D: every particle for which the reference code stays inside its buffers and arrays"
  },
  {
   "property": "C21",
   "status": "proved",
   "theorems": [
    "Verif.DepositProps.weights_partition",
    "Verif.DepositProps.lineWeight_sum"
   ],
   "note": "offsets in [-1/2,1/2], crossings -1, 0, 1; also the first moment, and the weights of any position on any periodic array"
  },
  {
   "property": "C22",
   "status": "proved",
   "theorems": [
    "Verif.PusherProps.interp2_samples",
    "Verif.PusherProps.interp3_samples",
    "Verif.PusherProps.interp2_bounds",
    "Verif.PusherProps.interp3_bounds",
    "Verif.PusherProps.interp2_uniform",
    "Verif.PusherProps.interp3_uniform",
    "Verif.PusherProps.interp_paths_agree2",
    "Verif.PusherProps.interp_paths_agree3",
    "Verif.PusherProps.interp2_in_array",
    "Verif.PusherProps.sample2_linear"
   ],
   "note": "2D and 3D; specification is the shape-weighted average at the staggered Yee points."
  },
  {
   "property": "C23",
   "status": "proved",
   "theorems": [
    "Verif.PusherProps.boris_keeps_momentum",
    "Verif.PusherProps.boris_inv_gamma",
    "Verif.PusherProps.boris_reversible",
    "Verif.PusherProps.boris_subluminal",
    "Verif.PusherProps.boris_electric",
    "Verif.PusherProps.boris_same"
   ],
   "note": "Over the real numbers with the real square root."
  },
  {
   "property": "C24",
   "status": "partial",
   "theorems": [
    "Verif.PusherProps.unified_eq_split2",
    "Verif.PusherProps.callback_does_not_change_push2",
    "Verif.PusherProps.split3_frozen",
    "Verif.PusherProps.callback_does_not_change_push3_fails",
    "Verif.PusherProps.unified_eq_split3_partial"
   ],
   "note": "Proved in 2D. False in 3D: PusherBase.push_position does nothing unless dimension is 2, so forcing the split path freezes all particles; proved that this is the only difference."
  },
  {
   "property": "C25",
   "status": "proved",
   "theorems": [
    "Verif.SortProps.sort2_permutes",
    "Verif.SortProps.sort3_permutes",
    "Verif.SortProps.sort2_bounds",
    "Verif.SortProps.sort3_bounds",
    "Verif.SortProps.sort2_strays_last"
   ],
   "note": "2D and 3D, plain and reversed bucket order, any old content of the scratch arrays; exact arithmetic. The sort is not stable, dead slots go with the slot before them."
  },
  {
   "property": "C26",
   "status": "proved",
   "theorems": [
    "Verif.HilbertProps.gilbert2d_visits_once",
    "Verif.HilbertProps.gilbert3d_visits_once"
   ],
   "note": "Termination included: the recursion is modelled as a partial function. In 3D the proof needs an invariant on the shapes that occur, because generate3d loops forever on some degenerate boxes it never meets."
  },
  {
   "property": "C27",
   "status": "proved",
   "theorems": [
    "Verif.RankProps.compute_rank_partition",
    "Verif.RankProps.same_partition_keeps_ranks",
    "Verif.RankProps.relabelling_not_optimal"
   ],
   "note": "The relabelling is greedy; relabelling_not_optimal shows it does not always keep the most patches in place, so optimality is not claimed."
  },
  {
   "property": "C28",
   "status": "proved",
   "theorems": [
    "Verif.LoadBalanceProps.balance_moves_patches",
    "Verif.LoadBalanceProps.balanced_neighbour_ranks",
    "Verif.LoadBalanceProps.rebalance_collective",
    "Verif.LoadBalanceProps.rebalance_decision_hangs_fails",
    "Verif.LoadBalanceProps.rebalance_iff",
    "Verif.LoadBalanceProps.no_load_no_rebalance"
   ],
   "note": "Asynchronous message passing, every interleaving of the ranks. The decision to rebalance is taken per rank and is not collective: rebalance_decision_hangs_fails."
  },
  {
   "property": "C29",
   "status": "partial",
   "theorems": [
    "Verif.Tags.particle_messages2",
    "Verif.Tags.particle_messages3",
    "Verif.Tags.field_messages2",
    "Verif.Tags.field_messages3",
    "Verif.Tags.particles_posted2",
    "Verif.Tags.particle_tags_checked",
    "Verif.Tags.field_tags_unchecked_fails"
   ],
   "note": "Matching and absence of collisions proved for every grid, rank layout, species and attribute count. Tags beyond the bound of the MPI library are only refused for particles: field_tags_unchecked_fails. Neighbour ranks are taken to be right (3D: see neighbour_rank3_ignores_map_fails)."
  },
  {
   "property": "C30",
   "status": "partial",
   "theorems": [
    "Verif.SyncFields.mpi_current_reduction2_partial",
    "Verif.SyncFields.mpi_current_reduction3_partial",
    "Verif.SyncFields.mpi_current_reduction_fails"
   ],
   "note": "True when += is indivisible; false at the level of memory accesses: the wait loop runs over (patch, boundary) in parallel on overlapping strips without atomics (witness)."
  },
  {
   "property": "C31",
   "status": "proved",
   "theorems": [
    "Verif.RunLoop.run_nsteps",
    "Verif.RunLoop.run_sim_time",
    "Verif.RunLoop.run_errors",
    "Verif.RunLoop.history_consecutive",
    "Verif.RunLoop.split_run",
    "Verif.RunLoop.clock_in_trace",
    "Verif.RunLoop.periodic_checkpoint",
    "Verif.RunLoop.dump_without_reload_repeats_step_fails"
   ],
   "note": "In exact arithmetic. A requested dump must be followed by a load: continuing in the same process repeats the step that was interrupted by the dump (dump_without_reload_repeats_step_fails), which the property allows."
  },
  {
   "property": "C32",
   "status": "proved",
   "theorems": [
    "Verif.RunLoop.stage_order",
    "Verif.RunLoop.stage_events_complete",
    "Verif.RunLoop.register_spec",
    "Verif.RunLoop.stage_names",
    "Verif.RunLoop.callbacks_at_stage",
    "Verif.RunLoop.callback_steps",
    "Verif.RunLoop.callback_run",
    "Verif.RunLoop.step_interval",
    "Verif.RunLoop.interval_accepted",
    "Verif.RunLoop.accepted_fires",
    "Verif.RunLoop.time_interval",
    "Verif.RunLoop.plain_function",
    "Verif.RunLoop.no_interval",
    "Verif.RunLoop.chosen_interval",
    "Verif.RunLoop.asked_before",
    "Verif.RunLoop.final_only_at_end"
   ],
   "note": "Time intervals in exact arithmetic."
  },
  {
   "property": "C33",
   "status": "partial",
   "theorems": [
    "Verif.SyncFields.currents_before_use2_partial",
    "Verif.SyncFields.currents_before_use3_partial",
    "Verif.SyncFields.currents_before_use_single2",
    "Verif.SyncFields.sync_currents_result2_partial",
    "Verif.SyncFields.sync_currents_result3_partial",
    "Verif.SyncFields.lone_start_fails",
    "Verif.SyncFields.sync_currents_once2",
    "Verif.SyncFields.sync_currents_once3"
   ],
   "note": "Proved for every history of run() calls, deposits, ranks layouts, rebalancings and callbacks that call the blocking sync_currents (or wait). Missing: on several ranks += is taken as indivisible (C30); a callback that calls only sync_currents_start breaks the claim (lone_start_fails)."
  },
  {
   "property": "C34",
   "status": "partial",
   "theorems": [
    "Verif.Restart.dump_keeps",
    "Verif.Restart.rotation_keeps_newest_partial",
    "Verif.Restart.rotation_deletes_newest_fails",
    "Verif.Restart.rotation_after_rollback_fails"
   ],
   "note": "Proved for dumps at increasing steps below 10^6, any number of ranks, any interleaving, any keep. False from step 10^6 on (names sort as strings) and after continuing from an older checkpoint in the same directory: both counterexamples are theorems."
  },
  {
   "property": "C35",
   "status": "partial",
   "theorems": [
    "Verif.Restart.crash_safe",
    "Verif.Restart.never_without_checkpoint_partial",
    "Verif.Restart.crash_then_rotation_fails",
    "Verif.Restart.crash_while_overwriting_fails"
   ],
   "note": "Proved for every crash point and every life of periodic dumps continued from the newest complete checkpoint. False when a torn directory of a later step is left behind, and when a step is dumped again in place: both counterexamples are theorems."
  },
  {
   "property": "C36",
   "status": "partial",
   "theorems": [
    "Verif.AutoPatch.mem_findDivisors",
    "Verif.AutoPatch.auto_patch2_partial",
    "Verif.AutoPatch.auto_patch3_partial",
    "Verif.AutoPatch.auto_patch_prime_fails",
    "Verif.AutoPatch.auto_patch_thin_fails",
    "Verif.AutoPatch.auto_patch2_best",
    "Verif.AutoPatch.auto_patch3_best"
   ],
   "note": "The chosen counts always divide the cell counts. Not enough patches for prime cell counts, and patches thinner than the guard are possible: both counterexamples are theorems. The best-theorems say that no acceptable choice has both fewer and more even patches."
  },
  {
   "property": "C37",
   "status": "partial",
   "theorems": [
    "Verif.Names.names_unique_partial",
    "Verif.Names.first_keeps_name_partial",
    "Verif.Names.same_object_twice_fails",
    "Verif.Names.first_occurrence_renamed_fails"
   ],
   "note": "Distinctness, unchanged old names and order for every list of distinct objects. A first occurrence loses its name if a name that looks generated from it exists, and one object added twice keeps one name twice: both counterexamples are theorems."
  },
  {
   "property": "C38",
   "status": "partial",
   "theorems": [
    "Verif.Fill.fill2_partial",
    "Verif.Fill.fill3_partial",
    "Verif.Fill.fill_zero_ppc_fails",
    "Verif.Fill.fill_one_cell_fails"
   ],
   "note": "Proved for every density and ppc function with ppc at least 1 wherever the density exceeds the minimum, and patches of at least two cells per axis. A ppc of 0 there raises, a one-cell patch reads its axis out of bounds."
  },
  {
   "property": "C39",
   "status": "partial",
   "theorems": [
    "Verif.Pairing.intra_pairs_partial",
    "Verif.Pairing.one_cell",
    "Verif.Pairing.intra_odd_share_fails"
   ],
   "note": "Everything but the factors for an odd number of living particles: two of them then collide with factors adding up to one half (for every mask and shuffle)."
  },
  {
   "property": "C40",
   "status": "partial",
   "theorems": [
    "Verif.Pairing.inter_pairs_partial",
    "Verif.Pairing.inter_share_fails"
   ],
   "note": "Coverage on both sides and factors of the smaller side proved. The factors of the larger side do not add up to one when the numbers differ."
  },
  {
   "property": "C41",
   "status": "partial",
   "theorems": [
    "Verif.Coulomb.coulomb_conserves",
    "Verif.Coulomb.coulomb_mean",
    "Verif.Coulomb.rotation_keeps_length",
    "Verif.Coulomb.zero_angle_partial",
    "Verif.Coulomb.zero_angle_reverses_fails",
    "Verif.Coulomb.neutral_pair_turned_fails"
   ],
   "note": "Over the reals, for all momenta, masses, charges and draws: conservation for equal weights, conservation in the mean for unequal weights. Scattering by angle zero is the identity except along the negative z axis, where it reverses the momentum: both counterexamples are theorems."
  },
  {
   "property": "C42",
   "status": "proved",
   "theorems": [
    "Verif.Pairing.species_pairs",
    "Verif.Pairing.enabled_pairs"
   ],
   "note": ""
  },
  {
   "property": "C43",
   "status": "proved",
   "theorems": [
    "Verif.Qed.photon_emission",
    "Verif.Qed.emission_conserves_momentum"
   ],
   "note": "Momentum in exact rational arithmetic; 1/sqrt is an arbitrary function."
  },
  {
   "property": "C44",
   "status": "proved",
   "theorems": [
    "Verif.Qed.pair_creation",
    "Verif.Qed.pair_creation_counts"
   ],
   "note": "Momentum in exact rational arithmetic; 1/sqrt is an arbitrary function."
  },
  {
   "property": "C45",
   "status": "partial",
   "theorems": [
    "Verif.Qed.rate_lookup_partial",
    "Verif.Qed.rate_lookup_below",
    "Verif.Qed.rate_lookup_above_fails",
    "Verif.Qed.sample_lookup_partial",
    "Verif.Qed.sample_zero_hangs_fails",
    "Verif.Qed.sample_above_fails"
   ],
   "note": "Proved for chi below the table maximum and random numbers that hit no table entry exactly. A random number 0 (or any exact entry) makes the bisection run forever, and chi at or above the table maximum reads past the table: counterexamples are theorems."
  },
  {
   "property": "C46",
   "status": "proved",
   "theorems": [
    "Verif.Output.save_slices",
    "Verif.Output.save_rejects"
   ],
   "note": "2D and 3D, every slice tuple; the file is a function from index to value, HDF5 itself is not modelled."
  },
  {
   "property": "C47",
   "status": "proved",
   "theorems": [
    "Verif.Output.save_particles"
   ],
   "note": "Every rank and patch layout; the file is a list of records."
  },
  {
   "property": "C48",
   "status": "partial",
   "theorems": [
    "Verif.Output.get_fields2",
    "Verif.Output.get_fields3_values",
    "Verif.Output.get_fields3_partial",
    "Verif.Output.get_fields3_remote_fails",
    "Verif.Output.get_fields3_gap_fails"
   ],
   "note": "Full in 2D. In 3D the plane of a patch of another rank is read with an offset of n_guard, and a position between the last layer of one patch and the first of the next gives zeros: both shown with counterexamples."
  },
  {
   "property": "C49",
   "status": "partial",
   "theorems": [
    "Verif.SyncFields.species_density2_partial",
    "Verif.SyncFields.species_density3_partial",
    "Verif.SyncFields.density_after_disabled_fails",
    "Verif.SyncFields.density_stale_fails",
    "Verif.SyncFields.extract_remote_partial",
    "Verif.SyncFields.extract_remote_fails"
   ],
   "note": "Every step of every history, with whatever other callbacks synchronise, when the target and the species before it are enabled. Otherwise the callback raises or subtracts an old density. ExtractSpeciesDensity with a slice reads a remote slice wrongly unless it is full along the last axis."
  },
  {
   "property": "C50",
   "status": "partial",
   "theorems": [
    "Verif.MovingWindow.moving_window_partial",
    "Verif.MovingWindow.window_neighbours2",
    "Verif.MovingWindow.window_neighbours3",
    "Verif.MovingWindow.window_backward_fails",
    "Verif.MovingWindow.window_periodic_fails"
   ],
   "note": "Proved for a window moving forward over a non-periodic x axis: patches tile the shifted window, neighbour links are those of the shifted grid. A window started at negative velocity lags, and periodic x bounds are wrong; both shown by witnesses."
  },
  {
   "property": "C51",
   "status": "partial",
   "theorems": [
    "Verif.MovingWindow.recycled_fresh2_partial",
    "Verif.MovingWindow.recycled_fresh3_partial",
    "Verif.MovingWindow.recycled_keeps_fails",
    "Verif.MovingWindow.recycled_fields_zero"
   ],
   "note": "Recycled patches have zero fields always, and fresh particles when injection is on and the species has a density; otherwise they keep the old particles (witness)."
  },
  {
   "property": "C52",
   "status": "partial",
   "theorems": [
    "Verif.Laser.laser_centre2_partial",
    "Verif.Laser.laser_centre3_partial",
    "Verif.Laser.laser_centre_fails",
    "Verif.Laser.combined_sources",
    "Verif.Laser.laser_call2",
    "Verif.Laser.laser_call3",
    "Verif.Laser.separate_lasers_fails"
   ],
   "note": "Sums of any shape inject the sum of their emitting parts (full). The centre is right for every explicit centre but 0: a centre of 0 is taken for unset and the laser put in the middle. Lasers given separately instead of added do not add up: the last one overwrites the others."
  },
  {
   "property": "C53",
   "status": "partial",
   "theorems": [
    "Verif.Cpml.cpml_coeffs",
    "Verif.Cpml.cpml_wall",
    "Verif.Cpml.cpml_no_sigma_fails",
    "Verif.Cpml.cpml_axes2",
    "Verif.Cpml.cpml_axes3_partial",
    "Verif.Cpml.cpml_layers3",
    "Verif.Cpml.cpml_kappa",
    "Verif.Cpml.cpml_kappa_lost_fails",
    "Verif.Cpml.cpml_update2",
    "Verif.Cpml.cpml_update3",
    "Verif.Cpml.cpml_outside2",
    "Verif.Cpml.cpml_outside3",
    "Verif.Cpml.cpml_inactive2",
    "Verif.Cpml.cpml_inactive3"
   ],
   "note": "Coefficients, index ranges, the update in every reachable state of the layers, and the plain update outside or with sigma 0 and kappa 1: proved for 2D and 3D. Not true: a 3D patch with a lower and an upper layer on one axis (one patch along it) updates the lower layer with kappa 1; with sigma_max 0 the outermost cell divides 0 by 0."
  },
  {
   "property": "C54",
   "status": "partial",
   "theorems": [
    "Verif.Load.load_containers",
    "Verif.Load.load_columns",
    "Verif.Load.load_exactly_one",
    "Verif.Load.load_right_patch",
    "Verif.Load.load_total",
    "Verif.Load.load_gamma_fails",
    "Verif.Load.load_speed_fails",
    "Verif.Load.load_speed_partial",
    "Verif.Load.load_no_momentum_fails",
    "Verif.Load.load_first_species_fails"
   ],
   "note": "Distribution proved in full for every file, batch size and grid. The speed part fails: the stored inv_gamma is gamma instead of 1/gamma (every moving particle), so particles with momentum above about 0.79 mc are loaded faster than light; files without momenta leave NaN; attribute names are taken from the first species."
  },
  {
   "property": "C55",
   "status": "partial",
   "theorems": [
    "Verif.Lists.lists_fresh",
    "Verif.Lists.initial_good",
    "Verif.Lists.sorter_always_fresh",
    "Verif.Lists.window_stale_fails",
    "Verif.Lists.window_stays_stale_fails",
    "Verif.Lists.window_bounds_fails",
    "Verif.Lists.callback_no_update_fails"
   ],
   "note": "Proved for every run with extensions, prunings, QED creation, exchange, rebalancing and callbacks that call update_lists. It fails after the moving window refills a patch (initialize does not set the flag), and collisions keep old bucket bounds after a shift. What a restart does to the lists is C88."
  },
  {
   "property": "C56",
   "status": "partial",
   "theorems": [
    "Verif.Qed.optical_depth_electron",
    "Verif.Qed.optical_depth_photon",
    "Verif.Qed.exact_depth_lost_fails"
   ],
   "note": "Exact description of both kernels for every state and random stream. The re-draw clause fails for electrons: a depth that reaches exactly zero is re-drawn without an event."
  },
  {
   "property": "C57",
   "status": "proved",
   "theorems": [
    "Verif.ExchangeProps.patches_tile",
    "Verif.ExchangeProps.patches_tile_pml",
    "Verif.ExchangeProps.patch_index2",
    "Verif.ExchangeProps.patch_index3"
   ],
   "note": "Exact arithmetic."
  },
  {
   "property": "C58",
   "status": "proved",
   "theorems": [
    "Verif.Stat.report_adds_up",
    "Verif.Stat.report_refused"
   ],
   "note": "On the level of the records found in the log, in exact arithmetic; the regular expression that finds them is not modelled."
  },
  {
   "property": "C59",
   "status": "partial",
   "theorems": [
    "Verif.SyncFields.guard_any_ranks2",
    "Verif.SyncFields.guard_any_ranks3",
    "Verif.SyncFields.rank_table2",
    "Verif.SyncFields.mpi_current_reduction2_partial",
    "Verif.SyncFields.mpi_current_reduction3_partial",
    "Verif.SyncFields.exchange_exists",
    "Verif.SyncFields.mpi_current_reduction_fails"
   ],
   "note": "Guard exchange proved in full. Currents proved for indivisible additions only, see C30."
  },
  {
   "property": "C60",
   "status": "partial",
   "theorems": [
    "Verif.Laser.source_amplitude",
    "Verif.Laser.pulse_duration_partial",
    "Verif.Laser.pulse_early_fails",
    "Verif.Laser.pulse_cut_fails"
   ],
   "note": "Amplitude proved for simple lasers and Gaussian lasers without Laguerre mode; duration for normal incidence. At oblique incidence the laser emits before its pulse arrives, and the default stop cuts the pulse."
  },
  {
   "property": "C61",
   "status": "partial",
   "theorems": [
    "Verif.Chi.chi_defined",
    "Verif.Chi.chi_at_rest",
    "Verif.Chi.chi_every_frame",
    "Verif.Chi.fields_every_frame",
    "Verif.Chi.boost_frame",
    "Verif.Chi.chi_frame",
    "Verif.Chi.chi_turn",
    "Verif.Chi.chi_cyc",
    "Verif.Chi.chi_of_all",
    "Verif.Chi.chi_loaded_fails"
   ],
   "note": "Proved in exact arithmetic whenever the stored inv_gamma belongs to the momentum. Rounding is not modelled: the difference of squares can come out slightly negative in floating point, which would give NaN. It fails for loaded particles, whose inv_gamma is gamma."
  },
  {
   "property": "C62",
   "status": "partial",
   "theorems": [
    "Verif.Debye.cell_value",
    "Verif.Debye.cell_perm",
    "Verif.Debye.cell_drift",
    "Verif.Debye.density_accumulates",
    "Verif.Debye.history_partial",
    "Verif.Debye.value_partial",
    "Verif.Debye.distance_partial",
    "Verif.Debye.repeat_fails",
    "Verif.Debye.distance_fails",
    "Verif.Debye.mean_distance",
    "Verif.Debye.mean_distance_decreases"
   ],
   "note": "Order, dead slots and drift: proved for every cell. Independence of earlier steps holds before the lower bound is applied and fails after it: the density array is never reset, so the density grows with every call and the bound loosens; on the first call the bound is right. The two irrational functions are parameters; the failing cases hold for every strictly decreasing mean distance. The true function (4 pi n/3)^(-2/3) is one and is the squared radius of the sphere with one particle (proved over the reals; the model computes with rational numbers)."
  },
  {
   "property": "C63",
   "status": "proved",
   "theorems": [
    "Verif.MpiExchangeProps.mpi2_conserves",
    "Verif.MpiExchangeProps.mpi3_conserves",
    "Verif.MpiExchangeProps.ranks2_conserve",
    "Verif.MpiExchangeProps.ranks3_conserve",
    "Verif.MpiExchangeProps.ranks2_outcome",
    "Verif.MpiExchangeProps.ranks3_outcome",
    "Verif.MpiExchangeProps.ranks2_layout_independent",
    "Verif.MpiExchangeProps.ranks3_layout_independent",
    "Verif.MpiExchangeProps.ranks2_periodic_conserves",
    "Verif.MpiExchangeProps.ranks3_periodic_conserves",
    "Verif.MpiExchangeProps.ranks2_far_fails"
   ],
   "note": "Exact arithmetic. That each message reaches the receive posted for it is C29. ranks2_outcome and ranks3_outcome give the result without the restriction on the distance; ranks2_far_fails shows that the restriction is needed."
  },
  {
   "property": "C64",
   "status": "partial",
   "theorems": [
    "Verif.Collective.executions_finite",
    "Verif.Collective.same_decisions_finish_partial",
    "Verif.Collective.finished_same_steps",
    "Verif.Collective.signal_checkpoint_iff",
    "Verif.Collective.signal_checkpoint_fails"
   ],
   "note": "Proved: ranks that take the same decisions always finish; ranks that finish have run the same steps and, when stopped early, ended the same way. The property as stated is false: each rank looks at its own flag, so a signal seen in different steps leaves the ranks waiting for ever (signal_checkpoint_iff, signal_checkpoint_fails). Callbacks make collective calls only; every rank owns a patch."
  },
  {
   "property": "C65",
   "status": "proved",
   "theorems": [
    "Verif.PicStep.patches_transparent2",
    "Verif.PicStep.patches_transparent3",
    "Verif.PicStep.rho_stored2",
    "Verif.PicStep.rho_stored3",
    "Verif.PicStep.gauss_pic2",
    "Verif.PicStep.gauss_pic3",
    "Verif.PicStep.gauss_stored2",
    "Verif.PicStep.gauss_stored3",
    "Verif.PicStep.fits_of_inside",
    "Verif.PicStep.small_guard_fails"
   ],
   "note": "fits_of_inside: three guard cells, the default, are enough. With two, which the configuration accepts, the first part is false (small_guard_fails). Split pusher; exact arithmetic."
  },
  {
   "property": "C66",
   "status": "partial",
   "theorems": [
    "Verif.WholeRun.run_is_undivided2",
    "Verif.WholeRun.decomposition_independent2",
    "Verif.WholeRun.run_continues2",
    "Verif.WholeRun.runs2",
    "Verif.WholeRun.run_is_undivided3_partial",
    "Verif.WholeRun.decomposition_independent3_partial",
    "Verif.WholeRun.run_continues3_partial",
    "Verif.WholeRun.runs3",
    "Verif.WholeRun.split_run3_frozen",
    "Verif.WholeRun.run_is_undivided3_fails",
    "Verif.Begin.starts_iff2",
    "Verif.Begin.starts_iff3"
   ],
   "note": "2D: the whole property. starts_iff2 and starts_iff3 say from which states the theorems start: those that store one value per cell of the box and whose particles are inside of their patches. 3D: for species on the unified path; on the split path the code does not move particles in 3D (C24): split_run3_frozen proves that such runs never move a particle, run_is_undivided3_fails that the property is false there. Exact arithmetic; the inverse square root of the momentum update is any function that keeps speeds within the Courant limit; each addition of the current exchange between ranks is one indivisible statement (C07 shows that the code does not guarantee this)."
  },
  {
   "property": "C67",
   "status": "partial",
   "theorems": [
    "Verif.Cpml.cpml_run_undivided2",
    "Verif.Cpml.cpml_cuts_agree2",
    "Verif.Cpml.cpml_run_exists2",
    "Verif.Cpml.cpml_run_undivided3_partial",
    "Verif.Cpml.cpml_cuts_agree3_partial",
    "Verif.Cpml.cpml_run_exists3",
    "Verif.Cpml.cpml_single_patch3_fails"
   ],
   "note": "2D: the whole property. 3D: if every absorbing axis has at least two patches; with one patch the code loses kappa and the property is false (cpml_single_patch3_fails). Both ends of an axis carry the same condition; currents are given; exact arithmetic, exp is a parameter."
  },
  {
   "property": "C68",
   "status": "partial",
   "theorems": [
    "Verif.WholeRun.gauss_whole2",
    "Verif.WholeRun.gauss_law2",
    "Verif.WholeRun.divB_whole2",
    "Verif.WholeRun.gauss_whole3_partial",
    "Verif.WholeRun.gauss_law3_partial",
    "Verif.WholeRun.divB_whole3"
   ],
   "note": "2D: the whole property. 3D: div B for all species, Gauss's law for species on the unified path (on the split path the code does not move particles in 3D, see C24 and C66). Exact arithmetic; the inverse square root of the momentum update is any function that keeps speeds within the Courant limit; each addition of the current exchange between ranks is one indivisible statement (C07)."
  },
  {
   "property": "C69",
   "status": "partial",
   "theorems": [
    "Verif.WholePml.run_is_undivided2",
    "Verif.WholePml.layers_are_empty2",
    "Verif.WholePml.decomposition_independent2",
    "Verif.WholePml.run_continues2",
    "Verif.WholePml.runs2",
    "Verif.WholePml.run_is_undivided3_partial",
    "Verif.WholePml.layers_are_empty3_partial",
    "Verif.WholePml.decomposition_independent3_partial",
    "Verif.WholePml.run_continues3_partial",
    "Verif.WholePml.runs3"
   ],
   "note": "2D: the whole property. 3D: if every absorbing axis has at least two patches and all species are on the unified path (otherwise the code loses kappa, cpml_single_patch3_fails of C67, or does not move particles, split_run3_frozen of C66). Both ends of an axis carry the same condition; exact arithmetic, exp and the inverse square root are parameters."
  },
  {
   "property": "C70",
   "status": "partial",
   "theorems": [
    "Verif.Setup.pushed_as_asked_partial",
    "Verif.Setup.accepted_iff",
    "Verif.Setup.qed_as_asked",
    "Verif.Setup.default_species_partial",
    "Verif.Setup.tbmt_stops_fails",
    "Verif.Setup.tbmt_wrong_species_fails",
    "Verif.Setup.ll_refused_fails",
    "Verif.Setup.default_callable_fails",
    "Verif.Setup.momentum_ignored_fails"
   ],
   "note": "Proved when no species asks for pusher='boris+tbmt', which is accepted but gets no pusher and shifts those of later species. Also shown false: radiation='ll' is always refused, callable objects as profiles of default species stop the start, and the momentum profile is never read."
  },
  {
   "property": "C71",
   "status": "partial",
   "theorems": [
    "Verif.Momenta.set_momentum",
    "Verif.Momenta.temperature_partial",
    "Verif.Momenta.momentum_and_temperature_partial",
    "Verif.Momenta.anisotropy_fails",
    "Verif.Momenta.zero_temperature_fails",
    "Verif.Momenta.photon_temperature_fails",
    "Verif.Momenta.photon_momentum_fails"
   ],
   "note": "SetMomentum: whole property for massive species. Temperatures: proved for equal positive temperatures, for every outcome of the generator; the law of the energies is C93. False in the code: unequal temperatures stretch momenta by the ratio instead of its square root, temperature 0 gives NaN, photons get the factor of a massive particle or a ZeroDivisionError."
  },
  {
   "property": "C72",
   "status": "partial",
   "theorems": [
    "Verif.Photon.photon_flight2",
    "Verif.Photon.photon_current2",
    "Verif.Photon.photon_current3",
    "Verif.Photon.gamma_is_light",
    "Verif.Photon.photon_stuck_fails"
   ],
   "note": "2D: the whole property, for photons whose stored factor is 1/|u|. 3D: no current; but photons never move, because push_position does nothing in 3D (photon_stuck_fails). update_photon_gamma is never called by the code."
  },
  {
   "property": "C73",
   "status": "partial",
   "theorems": [
    "Verif.Coulomb.kernel_units",
    "Verif.Coulomb.kernel_swap_partial",
    "Verif.Coulomb.impact_partial",
    "Verif.Coulomb.impact_fails"
   ],
   "note": "Units: the whole claim, for every kernel branch. Exchange of the partners: unless the momenta in the centre of mass are along z (there the code loses the sign of the momentum, see C41). Coulomb logarithm: the documented one if the centre of mass is at rest; otherwise the impact parameter is too large by the factor gamma of the centre of mass (impact_fails)."
  },
  {
   "property": "C74",
   "status": "partial",
   "theorems": [
    "Verif.Mask.mask_refused",
    "Verif.Mask.mask_patches",
    "Verif.Mask.mask_neighbours",
    "Verif.Mask.mask_layers",
    "Verif.Mask.mask_accepted_partial",
    "Verif.Mask.mask_full",
    "Verif.Mask.mask_cells",
    "Verif.Mask.mask_fields",
    "Verif.Mask.narrow_mask_fails",
    "Verif.Mask.mask_density_slice_fails"
   ],
   "note": "Proved except for two defects: a patch open at both ends of an axis (a channel one patch wide) stops the start with a failed assertion instead of getting two layers, and ExtractSpeciesDensity with a slice stops with an IndexError. Lengths are exact."
  },
  {
   "property": "C75",
   "status": "partial",
   "theorems": [
    "Verif.Reload.reload_partial",
    "Verif.Reload.half_run_fails"
   ],
   "note": "Proved for file systems whose times of modification grow with every change, as long as no reloaded script fails before it has defined its simulation. With such a script the old simulation is set up anew but run from the step it was stopped at (half_run_fails). One process; several ranks are C64."
  },
  {
   "property": "C76",
   "status": "partial",
   "theorems": [
    "Verif.Collide.step_conserves_partial",
    "Verif.Collide.events_spec",
    "Verif.Collide.same_cell2",
    "Verif.Collide.same_cell3",
    "Verif.Collide.setup_spec",
    "Verif.Collide.setup_refuses",
    "Verif.Collide.late_rows_fails",
    "Verif.Collide.late_mirrored_fails",
    "Verif.Collide.check_spec",
    "Verif.Collide.check_guards_partial",
    "Verif.Collide.check_early_fails"
   ],
   "note": "Conservation for equal weights (otherwise only the mean, C41). Same cell: for all domains whose patches have more than one row of cells, if collisions are registered before the start. Registered after the start, particles of other cells collide (the two fails-theorems). In each patch; patches have their own arrays."
  },
  {
   "property": "C77",
   "status": "partial",
   "theorems": [
    "Verif.Capsule.memory_safe",
    "Verif.Capsule.no_leak",
    "Verif.Capsule.no_message_left",
    "Verif.Capsule.messages_valid",
    "Verif.Capsule.simulation_safe",
    "Verif.Capsule.simulation_clean",
    "Verif.Capsule.synced_means_exchanged_partial",
    "Verif.Capsule.second_wait_fails",
    "Verif.Capsule.failed_start_leaks",
    "Verif.Capsule.stale_exchange_fails"
   ],
   "note": "Safe, clean and complete for every history in which each exchange is waited for at most once and its arrays are kept until then; all calls of the simulation follow these rules. A second wait uses freed memory, a start that raises leaks its tables, and after an exception between the start and the wait of an exchange of currents the next step counts its currents as exchanged without exchanging them (the three fails-theorems). malloc does not fail; blocks, requests and arrays, not bytes."
  },
  {
   "property": "C78",
   "status": "partial",
   "theorems": [
    "Verif.Laser.forward_plane",
    "Verif.Laser.laser_boundary2_partial",
    "Verif.Laser.laser_boundary3_partial",
    "Verif.Laser.laser_acts",
    "Verif.Laser.laser_stale_fails",
    "Verif.Laser.laser_lost_fails"
   ],
   "note": "Proved for every cell of the plane but the lowest ones of a patch, and for patches with more than two cells behind the layer. In the lowest cells the laser uses a guard cell that is one half step old (laser_stale_fails); with one cell behind the layer the laser is lost (laser_lost_fails)."
  },
  {
   "property": "C79",
   "status": "partial",
   "theorems": [
    "Verif.Laser.beam_power3",
    "Verif.Laser.power2_eq",
    "Verif.Laser.beam_power2_partial",
    "Verif.Laser.beam_power2_fails"
   ],
   "note": "3D: the whole property, all Laguerre-Gauss modes. 2D: with the focus on the plane; otherwise the power is too small, because the 2D laser uses the amplitude factor of a 3D beam."
  },
  {
   "property": "C80",
   "status": "partial",
   "theorems": [
    "Verif.Laser.beam_paraxial",
    "Verif.Laser.gaussian_beam_partial",
    "Verif.Laser.gouy_fails",
    "Verif.Laser.vortex"
   ],
   "note": "The specification is shown to solve the paraxial equation. The injected field of modes without radial nodes is that beam but for a phase: the Gouy phase enters with the wrong sign (gouy_fails), so the carrier envelope phase at the focus is not the asked one. With radial nodes: power (C79) and vortex phase only."
  },
  {
   "property": "C81",
   "status": "partial",
   "theorems": [
    "Verif.Laser.simple_beam_partial",
    "Verif.Laser.oblique_direction",
    "Verif.Laser.oblique_waist_fails",
    "Verif.Laser.oblique_amplitude_fails"
   ],
   "note": "Normal incidence: the whole property. With an angle: the direction is right, but the beam is too narrow in the plane of incidence and its amplitude is too small or too large depending on the polarisation."
  },
  {
   "property": "C82",
   "status": "partial",
   "theorems": [
    "Verif.Cpml.cpml_damping",
    "Verif.Cpml.cpml_damping_fails",
    "Verif.Cpml.pml_setup2_partial",
    "Verif.Cpml.pml_setup3_partial",
    "Verif.Cpml.pml_one_patch_fails"
   ],
   "note": "Exactly which patches can be set up is proved for 2D and 3D: not those with layers at both ends of an axis in 2D, nor those with more than three layers in 3D. Strength: proved for layers along x; layers along y and z are made with dx and are stronger or weaker by dy/dx, dz/dx."
  },
  {
   "property": "C83",
   "status": "partial",
   "theorems": [
    "Verif.WholeRun.poynting2",
    "Verif.WholeRun.poynting3",
    "Verif.WholeRun.stable2_partial",
    "Verif.WholeRun.stable3_partial",
    "Verif.WholeRun.vacuum2",
    "Verif.WholeRun.vacuum3",
    "Verif.WholeRun.cfl_one_fails"
   ],
   "note": "The energy balance is proved for all runs of the 2D and 3D programs, on either path of the push. Stability is proved for every dt_cfl < 1 with an explicit bound; for dt_cfl = 1, which the configuration accepts, B grows without bound (cfl_one_fails), so the property fails there."
  },
  {
   "property": "C84",
   "status": "proved",
   "theorems": [
    "Verif.Rng.streams_distinct",
    "Verif.Rng.seed_decides",
    "Verif.Rng.no_draw_twice",
    "Verif.Rng.seed_ranks_fails",
    "Verif.Rng.restart_collisions_fails"
   ],
   "note": "The statement is proved for all histories and schedules, for the generators derived from Simulation.rand_gen; what a user may also expect and does not hold: the same seed gives other particles on another number of ranks (seed_ranks_fails), and a restarted run collides with other random numbers than one that went on (restart_collisions_fails). The radiation and pair creation modules use the global unseeded generator of numba, which is not modelled. That numpy streams with different spawn keys are different is trusted."
  },
  {
   "property": "C85",
   "status": "partial",
   "theorems": [
    "Verif.Balance.ranks_agree_partial",
    "Verif.Balance.threshold_bounds",
    "Verif.Balance.gathered_loads",
    "Verif.Balance.default_load",
    "Verif.Balance.threshold_fails"
   ],
   "note": "Proved for all histories in which every rank owns a patch; a rank without patches leaves the others waiting (rebalance_decision_hangs_fails of C28). The threshold in use is not the configured one: it falls below it after a failed redistribution (threshold_fails)."
  },
  {
   "property": "C86",
   "status": "proved",
   "theorems": [
    "Verif.Insert.search_first",
    "Verif.Insert.insert_at",
    "Verif.Insert.sum_dead"
   ],
   "note": ""
  },
  {
   "property": "C87",
   "status": "partial",
   "theorems": [
    "Verif.Symmetry.run_moved2",
    "Verif.Symmetry.run_diagonal2",
    "Verif.Symmetry.symmetric_stays2",
    "Verif.Symmetry.in_plane2",
    "Verif.Symmetry.run_moved3_partial",
    "Verif.Symmetry.run_turned3_partial",
    "Verif.Symmetry.symmetric_stays3_partial"
   ],
   "note": "2D proved for all species; 3D for species on the unified path: the code does not move species on the split path in 3D (C66). Periodic boundaries, without lasers, absorbing layers, ionization, radiation and collisions."
  },
  {
   "property": "C88",
   "status": "partial",
   "theorems": [
    "Verif.Resume.restarted_schedule",
    "Verif.Resume.restart_complete",
    "Verif.Resume.restart_fresh_partial",
    "Verif.Resume.restarted_unified_partial",
    "Verif.Resume.restarted_run2_partial",
    "Verif.Resume.restarted_run3_partial",
    "Verif.Resume.restart_repaired",
    "Verif.Resume.restart_more_ranks",
    "Verif.Resume.restart_stale_fails",
    "Verif.Resume.restart_stays_stale_fails",
    "Verif.Resume.restarted_split_stands_still_fails",
    "Verif.Resume.restart_fewer_ranks_fails",
    "Verif.Resume.restarted_window_fails"
   ],
   "note": "Proved for species on the unified path and the same number of ranks. False of the code: species on the split path stand still after a restart (their typed lists hold other arrays than the containers), QED modules work on stale arrays, fewer ranks lose patches without an error, a moving window shifts at once. That field arrays stay shared between patches and solver across pickling is assumed."
  },
  {
   "property": "C89",
   "status": "partial",
   "theorems": [
    "Verif.WholeRun.gauss_with_acts2",
    "Verif.WholeRun.acts_keep_gauss2",
    "Verif.WholeRun.divB_with_acts2",
    "Verif.WholeRun.gauss_with_acts3_partial",
    "Verif.WholeRun.divB_with_acts3_partial",
    "Verif.WholeRun.collision_gauss_fails",
    "Verif.WholeRun.radiation_gauss_fails"
   ],
   "note": "div B is kept. Gauss's law is false of the code: every collision and recoil adds to div E - rho/eps0 the charge density it displaces half a step ahead, exactly (gauss_with_acts2), with two runs in which one such event breaks the law for good; it holds when the events displace no charge. 3D for species on the unified path."
  },
  {
   "property": "C90",
   "status": "partial",
   "theorems": [
    "Verif.Enable.flag_is_last_call",
    "Verif.Enable.all_enabled",
    "Verif.Enable.flags_undivided2",
    "Verif.Enable.flags_independent2",
    "Verif.Enable.disabled_rests2",
    "Verif.Enable.disabled_is_absent2",
    "Verif.Enable.gauss_flags2",
    "Verif.Enable.flags_undivided3_partial",
    "Verif.Enable.disabled_is_absent3_partial",
    "Verif.Enable.gauss_flags3_partial",
    "Verif.Enable.parts_enabled",
    "Verif.Enable.pusher_disabled_rests",
    "Verif.Enable.depositor_disabled_partial",
    "Verif.Enable.depositor_disable_fails",
    "Verif.Enable.pusher_disable_fails"
   ],
   "note": "Species flags: proved in 2D for every history; in 3D for species on the unified path. Flags of the parts are false of the code: the unified path ignores a disabled depositor, and on the split path the particles of a disabled pusher rest but still deposit a current."
  },
  {
   "property": "C91",
   "status": "partial",
   "theorems": [
    "Verif.Rates.electron_events_follow_rates",
    "Verif.Rates.photon_events_follow_rates",
    "Verif.Rates.survival",
    "Verif.Rates.mean_events",
    "Verif.Rates.step_number_fails",
    "Verif.Rates.new_particle_depth_fails",
    "Verif.Rates.same_depth_fails"
   ],
   "note": "Proved for every particle whose depth is not set at the start. Missing: particles made during the run do not get a depth of their own but that left in their slot, which may be that of a particle that has gone to another patch; two particles with one depth do not have independent events. At most one event in a step."
  },
  {
   "property": "C92",
   "status": "partial",
   "theorems": [
    "Verif.Tables.fraction_follows_partial",
    "Verif.Tables.sigmoid_follows_partial",
    "Verif.Tables.generated_increasing",
    "Verif.Tables.rates_at_ends",
    "Verif.Tables.textbook_rates",
    "Verif.Tables.rates_positive",
    "Verif.Tables.columns_are_integrals",
    "Verif.Tables.below_first_fails",
    "Verif.Tables.last_column_fails"
   ],
   "note": "Proved between the first and the last column. False below the first column, whose probability is never drawn, and in the last interval of the logarithmic tables, which has probability zero. Random numbers for which the lookup does not end: C45."
  },
  {
   "property": "C93",
   "status": "partial",
   "theorems": [
    "Verif.Juttner.hot_energies",
    "Verif.Juttner.warm_energies_partial",
    "Verif.Juttner.cold_energies_partial",
    "Verif.Juttner.juttner_temperature",
    "Verif.Juttner.isotropic",
    "Verif.Juttner.axis_temperature",
    "Verif.Juttner.warm_energies_fails",
    "Verif.Juttner.warm_temperature_fails",
    "Verif.Juttner.cold_temperature_fails"
   ],
   "note": "Whole property above mc^2/2. From mc^2/100 to mc^2/2 the distribution is cut off at 1 + 10 theta, proved under the assumption that the maximum found by the optimiser, times 1.1, is an upper bound of the density; below mc^2/100 a factor g sqrt(g + 1) is left out. In both ranges the particles are strictly colder than asked for, at the lower temperatures by at most 15/4 theta^2 of 3 theta."
  },
  {
   "property": "C94",
   "status": "partial",
   "theorems": [
    "Verif.Scattering.mean_cosine",
    "Verif.Scattering.mean_cosine_partial",
    "Verif.Scattering.more_turning",
    "Verif.Scattering.mean_momentum_partial",
    "Verif.Scattering.mean_transfer_partial",
    "Verif.Scattering.small_angle_fails",
    "Verif.Scattering.mean_momentum_fails"
   ],
   "note": "The mean cosine is computed exactly and is within 1/40 of exp(-s) for every s; weak collisions turn particles by 74/75 of what they should. The mean transfer is proved for all pairs that do not approach each other along the z axis; against the z axis the mean momentum is reversed."
  },
  {
   "property": "C95",
   "status": "proved",
   "theorems": [
    "Verif.LiouvilleProps.volume_kept",
    "Verif.LiouvilleProps.volume_kept_run",
    "Verif.LiouvilleProps.volume_of_image",
    "Verif.LiouvilleProps.density_carried",
    "Verif.LiouvilleProps.entropy_kept",
    "Verif.LiouvilleProps.push_reversible",
    "Verif.LiouvilleProps.driver_pushes"
   ],
   "note": "Over the reals; the fields are any measurable functions of position (the gathered fields are: gathered_measurable). driver_pushes ties the map to the driver over all particles of a patch."
  },
  {
   "property": "C96",
   "status": "proved",
   "theorems": [
    "Verif.GyrationProps.gyration",
    "Verif.GyrationProps.gyration_any",
    "Verif.GyrationProps.on_the_circle",
    "Verif.GyrationProps.along_the_field",
    "Verif.GyrationProps.guiding_centre",
    "Verif.GyrationProps.near_true_motion",
    "Verif.GyrationProps.phase_lag"
   ],
   "note": "Over the reals, in two and three dimensions."
  },
  {
   "property": "C97",
   "status": "proved",
   "theorems": [
    "Verif.WholeRun.wave_equation2",
    "Verif.WholeRun.wave_equation3",
    "Verif.WholeRun.waves2",
    "Verif.WholeRun.waves3",
    "Verif.WholeRun.frequency_exists",
    "Verif.WholeRun.below_limit",
    "Verif.WholeRun.above_zero",
    "Verif.WholeRun.not_faster",
    "Verif.WholeRun.not_much_slower",
    "Verif.WholeRun.mean_kept2",
    "Verif.WholeRun.mean_kept3"
   ],
   "note": "Complete runs with periodic boundaries and no particles, field values rational and exact. Waves at the frequency pi/dt, which exist only at the limit of the Courant condition, are excluded (see cfl_one_fails of C83)."
  },
  {
   "property": "C98",
   "status": "partial",
   "theorems": [
    "Verif.Reverse.retraced2",
    "Verif.Reverse.back_to_start2",
    "Verif.Reverse.gammas_fit2",
    "Verif.Reverse.retraced3_partial",
    "Verif.Reverse.back_to_start3_partial",
    "Verif.Reverse.gammas_fit3",
    "Verif.Reverse.can_turn"
   ],
   "note": "2D: the whole property. 3D: for species on the unified path, because the code does not move species on the split path in 3D (C24). Exact arithmetic; the inverse square root is any function that keeps speeds within the Courant limit, exact or not. Periodic boundaries, no collisions, radiation, lasers and absorbing layers."
  },
  {
   "property": "C99",
   "status": "partial",
   "theorems": [
    "Verif.Scale.scaled_run2",
    "Verif.Scale.scaled_run3_partial",
    "Verif.Scale.scaled_admissible",
    "Verif.Scale.can_scale"
   ],
   "note": "2D: the whole property. 3D: for species on the unified path, because the code does not move species on the split path in 3D (C24). Exact arithmetic. Periodic boundaries, no collisions, radiation, lasers and absorbing layers (collisions and radiation do have a scale of their own)."
  },
  {
   "property": "C100",
   "status": "partial",
   "theorems": [
    "Verif.Track.tracked2",
    "Verif.Track.tracked3_partial",
    "Verif.Track.tracked_open2",
    "Verif.Track.tracked_open3_partial"
   ],
   "note": "2D: the whole property, with and without absorbing layers. 3D: for species on the unified path, because the code does not move species on the split path (C24), and with two patches or more on absorbing axes. Exact arithmetic; no ionization, pair production, collisions and moving window."
  },
  {
   "property": "C101",
   "status": "partial",
   "theorems": [
    "Verif.Causal.causal2",
    "Verif.Causal.causal3_partial"
   ],
   "note": "2D: the whole property. 3D: for species on the unified path, because the code does not move species on the split path in 3D (C24). Exact arithmetic; periodic boundaries, no collisions, radiation, lasers and absorbing layers."
  },
  {
   "property": "C102",
   "status": "partial",
   "theorems": [
    "Verif.Matter.same_matter2",
    "Verif.Matter.same_species2",
    "Verif.Matter.same_matter3_partial",
    "Verif.Matter.same_species3_partial",
    "Verif.Matter.can_recut"
   ],
   "note": "2D: the whole property. 3D: for species on the unified path, because the code does not move species on the split path in 3D (C24). Exact arithmetic; periodic boundaries, no collisions, radiation, lasers and absorbing layers (collisions depend on the weights by design, C41)."
  },
  {
   "property": "C103",
   "status": "partial",
   "theorems": [
    "Verif.Planar.planar_run3_partial"
   ],
   "note": "For species of the 3D simulation on the unified path, because the code does not move species on the split path in 3D (C24). Exact arithmetic; periodic boundaries, no collisions, radiation, lasers and absorbing layers."
  },
  {
   "property": "C104",
   "status": "partial",
   "theorems": [
    "Verif.Config.accepted_iff",
    "Verif.Config.accepted_auto2",
    "Verif.Config.accepted_auto3",
    "Verif.Config.accepted_geometry",
    "Verif.Config.accepted_step",
    "Verif.Config.asked_length",
    "Verif.Config.accepted_admissible_partial",
    "Verif.Config.accepted_admissible_fails",
    "Verif.Config.one_guard_fails",
    "Verif.Config.patches_overwritten_fails",
    "Verif.Config.missing_side_fails"
   ],
   "note": "What is accepted, the geometry, the time step and the number of steps are proved. False: fewer than three guard cells and patches narrower than their guard cells are accepted (with one guard cell a particle leaves current at the other end of its patch), a given number of patches is overwritten if another one is left to the program, dictionaries that lack a side are accepted and stop the start, and cell counts that are 1 or prime are refused when the patches are left to the program. Exact arithmetic, finite numbers."
  },
  {
   "property": "C105",
   "status": "partial",
   "theorems": [
    "Verif.Superpose.superposition2",
    "Verif.Superpose.superposition3_partial",
    "Verif.Superpose.void_stays2"
   ],
   "note": "2D: the whole property. 3D: if every absorbing axis has two patches or more, because with a single patch the code loses the stretching of a layer (C69) and the model of complete runs stops there. Exact arithmetic; without lasers and callbacks that change the state."
  },
  {
   "property": "C106",
   "status": "partial",
   "theorems": [
    "Verif.Neutral.passengers2",
    "Verif.Neutral.passengers3_partial",
    "Verif.Neutral.can_add_neutral"
   ],
   "note": "2D: the whole property. 3D: for species on the unified path, because the code does not move species on the split path in 3D (C24). Exact arithmetic, periodic axes; without collisions and pair production, by which neutral particles do act."
  },
  {
   "property": "C107",
   "status": "partial",
   "theorems": [
    "Verif.Progress.report_lines_partial",
    "Verif.Progress.other_ranks_silent",
    "Verif.Progress.done_too_early_fails",
    "Verif.Progress.no_step_fails",
    "Verif.Progress.no_step_silent"
   ],
   "note": "Proved but for two defects: a step is counted when it begins, so the log says 100% before the last step is done; in a SLURM job a run to step 0 ends with a division by zero. Times and speeds in the lines are those of tqdm and not modelled, nor is the display on a terminal."
  },
  {
   "property": "C108",
   "status": "partial",
   "theorems": [
    "Verif.Tiled.lattice2",
    "Verif.Tiled.lattice3_partial"
   ],
   "note": "Full in 2D (exact arithmetic). In 3D for species on the unified path: the code does not move species on the split path there (C24)."
  },
  {
   "property": "C109",
   "status": "partial",
   "theorems": [
    "Verif.Plot.pictures",
    "Verif.Plot.all_ranks",
    "Verif.Plot.fileName_inj",
    "Verif.Plot.after_failure_fails",
    "Verif.Plot.unknown_colours",
    "Verif.Plot.volumes_fail",
    "Verif.Plot.places_fail"
   ],
   "note": "Proved for configurations that can be drawn. False: after a call that fails while it draws (an unknown colour map, an array with three axes) no callback of the process can draw any more, because the colour maps stay registered; densities of 3D simulations are not drawn; on the axes a cell is drawn half a cell beside its place. What get_fields returns is C48; matplotlib is modelled by its registry of colour maps and by what imshow accepts."
  },
  {
   "property": "C110",
   "status": "partial",
   "theorems": [
    "Verif.Window.window2",
    "Verif.Window.window3_partial"
   ],
   "note": "Proved in 2D, and in 3D for species on the unified path; species on the split path do not move in 3D (C24). Exact arithmetic, periodic boundaries, no particle faster than one cell per step."
  },
  {
   "property": "C111",
   "status": "partial",
   "theorems": [
    "Verif.Job.bounded",
    "Verif.Job.no_wait_partial",
    "Verif.Job.outcome_partial",
    "Verif.Job.outside_fails",
    "Verif.Job.status_fails"
   ],
   "note": "Proved for failures in run. False: after a failure outside of run, for example in initialize() called by the script, other ranks wait forever; sys.exit(0) in a callback ends one rank with status 0 but several ranks with status 1."
  },
  {
   "property": "C112",
   "status": "partial",
   "theorems": [
    "Verif.Log.lines_partial",
    "Verif.Log.append_keeps",
    "Verif.Log.stat_partial",
    "Verif.Log.short_fails",
    "Verif.Log.bar_fails",
    "Verif.Log.events_fails",
    "Verif.Log.stale_fails",
    "Verif.Log.late_rank_fails",
    "Verif.Log.second_fails"
   ],
   "note": "Proved for what is logged after every rank has made its simulation, and for timers above 0.1 ms with names without a bar. False: times up to 0.1 ms are never counted, however many; a rank that starts late removes lines already logged; a second simulation in a process takes the lines of the first; names with | are left out; a run without timers leaves the timer file of an older run, which timer-stat then shows; the number of timer events shown is the number of categories."
  },
  {
   "property": "C113",
   "status": "partial",
   "theorems": [
    "Verif.WholeRun.mean_b2",
    "Verif.WholeRun.mean_e2",
    "Verif.WholeRun.net_current2",
    "Verif.WholeRun.mean_driven2",
    "Verif.WholeRun.mean_b3",
    "Verif.WholeRun.mean_e3",
    "Verif.WholeRun.net_current3_partial",
    "Verif.WholeRun.mean_driven3_partial"
   ],
   "note": "The laws of the means of B and E are proved in full; the sum of the currents over the particles in 2D in full and in 3D for species on the unified path (missing: the split path)."
  },
  {
   "property": "C114",
   "status": "partial",
   "theorems": [
    "Verif.Away.away2",
    "Verif.Away.away3_partial"
   ],
   "note": "In 2D in full. In 3D for two patches or more on absorbing axes and species on the unified path (missing: a single patch on an absorbing axis, where the code loses the stretching of a layer, and the split path, which the code does not move)."
  }
 ]
}