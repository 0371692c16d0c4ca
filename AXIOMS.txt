'Verif.Particles.ids_unique' depends on axioms: [propext, Classical.choice, Quot.sound]
'Verif.Particles.unspecified_rank_fails' depends on axioms: [propext, Quot.sound]
'Verif.Ids.ids_unique_migration_partial' depends on axioms: [propext, Classical.choice, Quot.sound]
'Verif.Ids.ids_unique_creation_partial' depends on axioms: [propext, Classical.choice, Quot.sound]
'Verif.Ids.ids_collide_fails' depends on axioms: [propext, Classical.choice, Quot.sound]
'Verif.Particles.prune_keeps_living' depends on axioms: [propext, Classical.choice, Quot.sound]
'Verif.Particles.qed_prune_keeps_living' depends on axioms: [propext, Classical.choice, Quot.sound]
'Verif.Particles.extend_appends_dead' depends on axioms: [propext, Classical.choice, Quot.sound]
'Verif.Particles.qed_extend_positive_partial' depends on axioms: [propext, Classical.choice, Quot.sound]
'Verif.Particles.qed_extend_zero_fails' depends on axioms: [propext, Quot.sound]
'Verif.Particles.qed_extend_negative_fails' depends on axioms: [propext, Quot.sound]
'Verif.ExchangeProps.exchange2_conserves' depends on axioms: [propext, Classical.choice, Quot.sound]
'Verif.ExchangeProps.exchange2_contains' depends on axioms: [propext, Classical.choice, Quot.sound]
'Verif.ExchangeProps.exchange2_schedule_independent' depends on axioms: [propext, Classical.choice, Quot.sound]
'Verif.ExchangeProps.exchange2_enough_slots' depends on axioms: [propext, Classical.choice, Quot.sound]
'Verif.ExchangeProps.periodic2_lands_inside' depends on axioms: [propext, Classical.choice, Quot.sound]
'Verif.ExchangeProps.periodic2_conserves' depends on axioms: [propext, Classical.choice, Quot.sound]
'Verif.ExchangeProps.pml_axis_no_shift' depends on axioms: [propext, Classical.choice, Quot.sound]
'Verif.ExchangeProps.periodic3_lands_inside' depends on axioms: [propext, Classical.choice, Quot.sound]
'Verif.ExchangeProps.periodic3_conserves' depends on axioms: [propext, Classical.choice, Quot.sound]
'Verif.ExchangeProps.exchange3_conserves' depends on axioms: [propext, Classical.choice, Quot.sound]
'Verif.ExchangeProps.exchange3_contains' depends on axioms: [propext, Classical.choice, Quot.sound]
'Verif.ExchangeProps.exchange3_schedule_and_slots' depends on axioms: [propext, Classical.choice, Quot.sound]
'Verif.ExchangeProps.published_count_fails' depends on axioms: [propext, Classical.choice, Quot.sound]
'Verif.ExchangeProps.published_count_partial' depends on axioms: [propext, Classical.choice, Quot.sound]
'Verif.Neighbors.neighbours2' depends on axioms: [propext, Classical.choice, Quot.sound]
'Verif.Neighbors.neighbours3' depends on axioms: [propext, Classical.choice, Quot.sound]
'Verif.Neighbors.local_neighbours2' depends on axioms: [propext, Classical.choice, Quot.sound]
'Verif.Neighbors.local_neighbours3' depends on axioms: [propext, Classical.choice, Quot.sound]
'Verif.Neighbors.neighbour_rank2' depends on axioms: [propext]
'Verif.Neighbors.mixed_bc_not_symmetric_fails' depends on axioms: [propext]
'Verif.Neighbors.neighbour_rank3_ignores_map_fails' depends on axioms: [propext]
'Verif.SyncFields.guard_exchange2' depends on axioms: [propext, Classical.choice, Quot.sound]
'Verif.SyncFields.guard_exchange3' depends on axioms: [propext, Classical.choice, Quot.sound]
'Verif.SyncFields.cells_in_array2' depends on axioms: [propext, Classical.choice, Quot.sound]
'Verif.SyncFields.current_exchange2' depends on axioms: [propext, Classical.choice, Quot.sound]
'Verif.SyncFields.current_exchange3' depends on axioms: [propext, Classical.choice, Quot.sound]
'Verif.Maxwell.decomposition2' depends on axioms: [propext, Classical.choice, Quot.sound]
'Verif.Maxwell.decomposition3' depends on axioms: [propext, Classical.choice, Quot.sound]
'Verif.Maxwell.divB_update2' depends on axioms: [propext, Classical.choice, Quot.sound]
'Verif.Maxwell.divB_update3' depends on axioms: [propext, Classical.choice, Quot.sound]
'Verif.Maxwell.divB_run2' depends on axioms: [propext, Classical.choice, Quot.sound]
'Verif.Maxwell.divB_run3' depends on axioms: [propext, Classical.choice, Quot.sound]
'Verif.Maxwell.gauss_update2' depends on axioms: [propext, Classical.choice, Quot.sound]
'Verif.Maxwell.gauss_update3' depends on axioms: [propext, Classical.choice, Quot.sound]
'Verif.Maxwell.gauss_run2' depends on axioms: [propext, Classical.choice, Quot.sound]
'Verif.Maxwell.gauss_run3' depends on axioms: [propext, Classical.choice, Quot.sound]
'Verif.DepositProps.charge_conserving2' depends on axioms: [propext, Classical.choice, Quot.sound]
'Verif.DepositProps.deposit2_in_array' depends on axioms: [propext, Classical.choice, Quot.sound]
'Verif.DepositProps.deposit2_totals' depends on axioms: [propext, Classical.choice, Quot.sound]
'Verif.DepositProps.charge_conserving_patch2' depends on axioms: [propext, Classical.choice, Quot.sound]
'Verif.DepositProps.charge_conserving3_ref' depends on axioms: [propext, Classical.choice, Quot.sound]
'Verif.DepositProps.charge_conserving3_fast' depends on axioms: [propext, Classical.choice, Quot.sound]
'Verif.DepositProps.charge_conserving_patch3' depends on axioms: [propext, Classical.choice, Quot.sound]
'Verif.DepositProps.fast_eq_ref2' depends on axioms: [propext, Classical.choice, Quot.sound]
'Verif.DepositProps.fast_eq_ref3' depends on axioms: [propext, Classical.choice, Quot.sound]
'Verif.DepositProps.weights_partition' depends on axioms: [propext, Classical.choice, Quot.sound]
'Verif.DepositProps.lineWeight_sum' depends on axioms: [propext, Classical.choice, Quot.sound]
'Verif.PusherProps.interp2_samples' depends on axioms: [propext, Classical.choice, Quot.sound]
'Verif.PusherProps.interp3_samples' depends on axioms: [propext, Classical.choice, Quot.sound]
'Verif.PusherProps.interp2_bounds' depends on axioms: [propext, Classical.choice, Quot.sound]
'Verif.PusherProps.interp3_bounds' depends on axioms: [propext, Classical.choice, Quot.sound]
'Verif.PusherProps.interp2_uniform' depends on axioms: [propext, Classical.choice, Quot.sound]
'Verif.PusherProps.interp3_uniform' depends on axioms: [propext, Classical.choice, Quot.sound]
'Verif.PusherProps.interp_paths_agree2' depends on axioms: [propext, Classical.choice, Quot.sound]
'Verif.PusherProps.interp_paths_agree3' depends on axioms: [propext, Classical.choice, Quot.sound]
'Verif.PusherProps.interp2_in_array' depends on axioms: [propext, Classical.choice, Quot.sound]
'Verif.PusherProps.sample2_linear' depends on axioms: [propext, Classical.choice, Quot.sound]
'Verif.PusherProps.boris_keeps_momentum' depends on axioms: [propext, Classical.choice, Quot.sound]
'Verif.PusherProps.boris_inv_gamma' depends on axioms: [propext, Classical.choice, Quot.sound]
'Verif.PusherProps.boris_reversible' depends on axioms: [propext, Classical.choice, Quot.sound]
'Verif.PusherProps.boris_subluminal' depends on axioms: [propext, Classical.choice, Quot.sound]
'Verif.PusherProps.boris_electric' depends on axioms: [propext, Classical.choice, Quot.sound]
'Verif.PusherProps.boris_same' depends on axioms: [propext, Classical.choice, Quot.sound]
'Verif.PusherProps.unified_eq_split2' depends on axioms: [propext, Classical.choice, Quot.sound]
'Verif.PusherProps.callback_does_not_change_push2' depends on axioms: [propext, Classical.choice, Quot.sound]
'Verif.PusherProps.split3_frozen' depends on axioms: [propext, Classical.choice, Quot.sound]
'Verif.PusherProps.callback_does_not_change_push3_fails' depends on axioms: [propext, Classical.choice, Quot.sound]
'Verif.PusherProps.unified_eq_split3_partial' depends on axioms: [propext, Classical.choice, Quot.sound]
'Verif.SortProps.sort2_permutes' depends on axioms: [propext, Classical.choice, Quot.sound]
'Verif.SortProps.sort3_permutes' depends on axioms: [propext, Classical.choice, Quot.sound]
'Verif.SortProps.sort2_bounds' depends on axioms: [propext, Classical.choice, Quot.sound]
'Verif.SortProps.sort3_bounds' depends on axioms: [propext, Classical.choice, Quot.sound]
'Verif.SortProps.sort2_strays_last' depends on axioms: [propext, Classical.choice, Quot.sound]
'Verif.HilbertProps.gilbert2d_visits_once' depends on axioms: [propext, Classical.choice, Quot.sound]
'Verif.HilbertProps.gilbert3d_visits_once' depends on axioms: [propext, Classical.choice, Quot.sound]
'Verif.RankProps.compute_rank_partition' depends on axioms: [propext, Classical.choice, Quot.sound]
'Verif.RankProps.same_partition_keeps_ranks' depends on axioms: [propext, Classical.choice, Quot.sound]
'Verif.RankProps.relabelling_not_optimal' depends on axioms: [propext]
'Verif.LoadBalanceProps.balance_moves_patches' depends on axioms: [propext, Classical.choice, Quot.sound]
'Verif.LoadBalanceProps.balanced_neighbour_ranks' depends on axioms: [propext, Quot.sound]
'Verif.LoadBalanceProps.rebalance_collective' depends on axioms: [propext, Classical.choice, Quot.sound]
'Verif.LoadBalanceProps.rebalance_decision_hangs_fails' depends on axioms: [propext, Classical.choice, Quot.sound]
'Verif.LoadBalanceProps.rebalance_iff' depends on axioms: [propext, Classical.choice, Quot.sound]
'Verif.LoadBalanceProps.no_load_no_rebalance' depends on axioms: [propext, Classical.choice, Quot.sound]
'Verif.Tags.particle_messages2' depends on axioms: [propext, Classical.choice, Quot.sound]
'Verif.Tags.particle_messages3' depends on axioms: [propext, Classical.choice, Quot.sound]
'Verif.Tags.field_messages2' depends on axioms: [propext, Classical.choice, Quot.sound]
'Verif.Tags.field_messages3' depends on axioms: [propext, Classical.choice, Quot.sound]
'Verif.Tags.particles_posted2' depends on axioms: [propext, Quot.sound]
'Verif.Tags.particle_tags_checked' depends on axioms: [propext, Quot.sound]
'Verif.Tags.field_tags_unchecked_fails' depends on axioms: [propext, Classical.choice, Quot.sound]
'Verif.SyncFields.mpi_current_reduction2_partial' depends on axioms: [propext, Classical.choice, Quot.sound]
'Verif.SyncFields.mpi_current_reduction3_partial' depends on axioms: [propext, Classical.choice, Quot.sound]
'Verif.SyncFields.mpi_current_reduction_fails' depends on axioms: [propext, Classical.choice, Quot.sound]
'Verif.RunLoop.run_nsteps' depends on axioms: [propext, Classical.choice, Quot.sound]
'Verif.RunLoop.run_sim_time' depends on axioms: [propext, Classical.choice, Quot.sound]
'Verif.RunLoop.run_errors' depends on axioms: [propext, Classical.choice, Quot.sound]
'Verif.RunLoop.history_consecutive' depends on axioms: [propext, Classical.choice, Quot.sound]
'Verif.RunLoop.split_run' depends on axioms: [propext, Classical.choice, Quot.sound]
'Verif.RunLoop.clock_in_trace' depends on axioms: [propext, Classical.choice, Quot.sound]
'Verif.RunLoop.periodic_checkpoint' depends on axioms: [propext, Classical.choice, Quot.sound]
'Verif.RunLoop.dump_without_reload_repeats_step_fails' depends on axioms: [propext, Classical.choice, Quot.sound]
'Verif.RunLoop.stage_order' depends on axioms: [propext, Classical.choice, Quot.sound]
'Verif.RunLoop.stage_events_complete' depends on axioms: [propext, Quot.sound]
'Verif.RunLoop.register_spec' depends on axioms: [propext, Classical.choice, Quot.sound]
'Verif.RunLoop.stage_names' depends on axioms: [propext, Quot.sound]
'Verif.RunLoop.callbacks_at_stage' depends on axioms: [propext, Classical.choice, Quot.sound]
'Verif.RunLoop.callback_steps' depends on axioms: [propext, Classical.choice, Quot.sound]
'Verif.RunLoop.callback_run' depends on axioms: [propext, Classical.choice, Quot.sound]
'Verif.RunLoop.step_interval' depends on axioms: [propext, Classical.choice, Quot.sound]
'Verif.RunLoop.interval_accepted' depends on axioms: [propext, Classical.choice, Quot.sound]
'Verif.RunLoop.accepted_fires' depends on axioms: [propext, Classical.choice, Quot.sound]
'Verif.RunLoop.time_interval' depends on axioms: [propext, Classical.choice, Quot.sound]
'Verif.RunLoop.plain_function' depends on axioms: [propext, Classical.choice, Quot.sound]
'Verif.RunLoop.no_interval' depends on axioms: [propext, Classical.choice, Quot.sound]
'Verif.RunLoop.chosen_interval' depends on axioms: [propext, Classical.choice, Quot.sound]
'Verif.RunLoop.asked_before' depends on axioms: [propext, Classical.choice, Quot.sound]
'Verif.RunLoop.final_only_at_end' depends on axioms: [propext, Classical.choice, Quot.sound]
'Verif.SyncFields.currents_before_use2_partial' depends on axioms: [propext, Classical.choice, Quot.sound]
'Verif.SyncFields.currents_before_use3_partial' depends on axioms: [propext, Classical.choice, Quot.sound]
'Verif.SyncFields.currents_before_use_single2' depends on axioms: [propext, Classical.choice, Quot.sound]
'Verif.SyncFields.sync_currents_result2_partial' depends on axioms: [propext, Classical.choice, Quot.sound]
'Verif.SyncFields.sync_currents_result3_partial' depends on axioms: [propext, Classical.choice, Quot.sound]
'Verif.SyncFields.lone_start_fails' depends on axioms: [propext, Classical.choice, Quot.sound]
'Verif.SyncFields.sync_currents_once2' depends on axioms: [propext, Classical.choice, Quot.sound]
'Verif.SyncFields.sync_currents_once3' depends on axioms: [propext, Classical.choice, Quot.sound]
'Verif.Restart.dump_keeps' depends on axioms: [propext, Classical.choice, Quot.sound]
'Verif.Restart.rotation_keeps_newest_partial' depends on axioms: [propext, Classical.choice, Quot.sound]
'Verif.Restart.rotation_deletes_newest_fails' depends on axioms: [propext, Quot.sound]
'Verif.Restart.rotation_after_rollback_fails' depends on axioms: [propext, Quot.sound]
'Verif.Restart.crash_safe' depends on axioms: [propext, Classical.choice, Quot.sound]
'Verif.Restart.never_without_checkpoint_partial' depends on axioms: [propext, Classical.choice, Quot.sound]
'Verif.Restart.crash_then_rotation_fails' depends on axioms: [propext, Quot.sound]
'Verif.Restart.crash_while_overwriting_fails' depends on axioms: [propext, Quot.sound]
'Verif.AutoPatch.mem_findDivisors' depends on axioms: [propext, Classical.choice, Quot.sound]
'Verif.AutoPatch.auto_patch2_partial' depends on axioms: [propext, Classical.choice, Quot.sound]
'Verif.AutoPatch.auto_patch3_partial' depends on axioms: [propext, Classical.choice, Quot.sound]
'Verif.AutoPatch.auto_patch_prime_fails' depends on axioms: [propext, Classical.choice, Quot.sound]
'Verif.AutoPatch.auto_patch_thin_fails' depends on axioms: [propext]
'Verif.AutoPatch.auto_patch2_best' depends on axioms: [propext, Classical.choice, Quot.sound]
'Verif.AutoPatch.auto_patch3_best' depends on axioms: [propext, Classical.choice, Quot.sound]
'Verif.Names.names_unique_partial' depends on axioms: [propext, Classical.choice, Quot.sound]
'Verif.Names.first_keeps_name_partial' depends on axioms: [propext, Classical.choice, Quot.sound]
'Verif.Names.same_object_twice_fails' does not depend on any axioms
'Verif.Names.first_occurrence_renamed_fails' does not depend on any axioms
'Verif.Fill.fill2_partial' depends on axioms: [propext, Classical.choice, Quot.sound]
'Verif.Fill.fill3_partial' depends on axioms: [propext, Classical.choice, Quot.sound]
'Verif.Fill.fill_zero_ppc_fails' depends on axioms: [propext, Classical.choice, Quot.sound]
'Verif.Fill.fill_one_cell_fails' depends on axioms: [propext, Classical.choice, Quot.sound]
'Verif.Pairing.intra_pairs_partial' depends on axioms: [propext, Classical.choice, Quot.sound]
'Verif.Pairing.one_cell' depends on axioms: [propext, Quot.sound]
'Verif.Pairing.intra_odd_share_fails' depends on axioms: [propext, Classical.choice, Quot.sound]
'Verif.Pairing.inter_pairs_partial' depends on axioms: [propext, Classical.choice, Quot.sound]
'Verif.Pairing.inter_share_fails' depends on axioms: [propext, Classical.choice, Quot.sound]
'Verif.Coulomb.coulomb_conserves' depends on axioms: [propext, Classical.choice, Quot.sound]
'Verif.Coulomb.coulomb_mean' depends on axioms: [propext, Classical.choice, Quot.sound]
'Verif.Coulomb.rotation_keeps_length' depends on axioms: [propext, Classical.choice, Quot.sound]
'Verif.Coulomb.zero_angle_partial' depends on axioms: [propext, Classical.choice, Quot.sound]
'Verif.Coulomb.zero_angle_reverses_fails' depends on axioms: [propext, Classical.choice, Quot.sound]
'Verif.Coulomb.neutral_pair_turned_fails' depends on axioms: [propext, Classical.choice, Quot.sound]
'Verif.Pairing.species_pairs' depends on axioms: [propext, Classical.choice, Quot.sound]
'Verif.Pairing.enabled_pairs' depends on axioms: [propext, Classical.choice, Quot.sound]
'Verif.Qed.photon_emission' depends on axioms: [propext, Classical.choice, Quot.sound]
'Verif.Qed.emission_conserves_momentum' depends on axioms: [propext, Classical.choice, Quot.sound]
'Verif.Qed.pair_creation' depends on axioms: [propext, Classical.choice, Quot.sound]
'Verif.Qed.pair_creation_counts' depends on axioms: [propext, Classical.choice, Quot.sound]
'Verif.Qed.rate_lookup_partial' depends on axioms: [propext, Classical.choice, Quot.sound]
'Verif.Qed.rate_lookup_below' depends on axioms: [propext, Classical.choice, Quot.sound]
'Verif.Qed.rate_lookup_above_fails' depends on axioms: [propext, Classical.choice, Quot.sound]
'Verif.Qed.sample_lookup_partial' depends on axioms: [propext, Classical.choice, Quot.sound]
'Verif.Qed.sample_zero_hangs_fails' depends on axioms: [propext, Classical.choice, Quot.sound]
'Verif.Qed.sample_above_fails' depends on axioms: [propext, Classical.choice, Quot.sound]
'Verif.Output.save_slices' depends on axioms: [propext, Classical.choice, Quot.sound]
'Verif.Output.save_rejects' depends on axioms: [propext, Classical.choice, Quot.sound]
'Verif.Output.save_particles' depends on axioms: [propext, Classical.choice, Quot.sound]
'Verif.Output.get_fields2' depends on axioms: [propext, Classical.choice, Quot.sound]
'Verif.Output.get_fields3_values' depends on axioms: [propext, Classical.choice, Quot.sound]
'Verif.Output.get_fields3_partial' depends on axioms: [propext, Classical.choice, Quot.sound]
'Verif.Output.get_fields3_remote_fails' depends on axioms: [propext, Classical.choice, Quot.sound]
'Verif.Output.get_fields3_gap_fails' depends on axioms: [propext, Classical.choice, Quot.sound]
'Verif.SyncFields.species_density2_partial' depends on axioms: [propext, Classical.choice, Quot.sound]
'Verif.SyncFields.species_density3_partial' depends on axioms: [propext, Classical.choice, Quot.sound]
'Verif.SyncFields.density_after_disabled_fails' depends on axioms: [propext, Classical.choice, Quot.sound]
'Verif.SyncFields.density_stale_fails' depends on axioms: [propext, Classical.choice, Quot.sound]
'Verif.SyncFields.extract_remote_partial' depends on axioms: [propext, Quot.sound]
'Verif.SyncFields.extract_remote_fails' does not depend on any axioms
'Verif.MovingWindow.moving_window_partial' depends on axioms: [propext, Classical.choice, Quot.sound]
'Verif.MovingWindow.window_neighbours2' depends on axioms: [propext, Classical.choice, Quot.sound]
'Verif.MovingWindow.window_neighbours3' depends on axioms: [propext, Classical.choice, Quot.sound]
'Verif.MovingWindow.window_backward_fails' depends on axioms: [propext, Classical.choice, Quot.sound]
'Verif.MovingWindow.window_periodic_fails' depends on axioms: [propext, Classical.choice, Quot.sound]
'Verif.MovingWindow.recycled_fresh2_partial' depends on axioms: [propext, Classical.choice, Quot.sound]
'Verif.MovingWindow.recycled_fresh3_partial' depends on axioms: [propext, Classical.choice, Quot.sound]
'Verif.MovingWindow.recycled_keeps_fails' depends on axioms: [propext, Classical.choice, Quot.sound]
'Verif.MovingWindow.recycled_fields_zero' depends on axioms: [propext, Classical.choice, Quot.sound]
'Verif.Laser.laser_centre2_partial' depends on axioms: [propext, Classical.choice, Quot.sound]
'Verif.Laser.laser_centre3_partial' depends on axioms: [propext, Classical.choice, Quot.sound]
'Verif.Laser.laser_centre_fails' depends on axioms: [propext, Classical.choice, Quot.sound]
'Verif.Laser.combined_sources' depends on axioms: [propext, Classical.choice, Quot.sound]
'Verif.Laser.laser_call2' depends on axioms: [propext, Classical.choice, Quot.sound]
'Verif.Laser.laser_call3' depends on axioms: [propext, Classical.choice, Quot.sound]
'Verif.Laser.separate_lasers_fails' depends on axioms: [propext, Classical.choice, Quot.sound]
'Verif.Cpml.cpml_coeffs' depends on axioms: [propext, Classical.choice, Quot.sound]
'Verif.Cpml.cpml_wall' depends on axioms: [propext, Quot.sound]
'Verif.Cpml.cpml_no_sigma_fails' depends on axioms: [propext, Classical.choice, Quot.sound]
'Verif.Cpml.cpml_axes2' depends on axioms: [propext, Classical.choice, Quot.sound]
'Verif.Cpml.cpml_axes3_partial' depends on axioms: [propext, Classical.choice, Quot.sound]
'Verif.Cpml.cpml_layers3' depends on axioms: [propext, Classical.choice, Quot.sound]
'Verif.Cpml.cpml_kappa' depends on axioms: [propext, Quot.sound]
'Verif.Cpml.cpml_kappa_lost_fails' depends on axioms: [propext, Classical.choice, Quot.sound]
'Verif.Cpml.cpml_update2' depends on axioms: [propext, Classical.choice, Quot.sound]
'Verif.Cpml.cpml_update3' depends on axioms: [propext, Classical.choice, Quot.sound]
'Verif.Cpml.cpml_outside2' depends on axioms: [propext, Classical.choice, Quot.sound]
'Verif.Cpml.cpml_outside3' depends on axioms: [propext, Classical.choice, Quot.sound]
'Verif.Cpml.cpml_inactive2' depends on axioms: [propext, Classical.choice, Quot.sound]
'Verif.Cpml.cpml_inactive3' depends on axioms: [propext, Classical.choice, Quot.sound]
'Verif.Load.load_containers' depends on axioms: [propext, Classical.choice, Quot.sound]
'Verif.Load.load_columns' depends on axioms: [propext, Classical.choice, Quot.sound]
'Verif.Load.load_exactly_one' depends on axioms: [propext, Classical.choice, Quot.sound]
'Verif.Load.load_right_patch' depends on axioms: [propext, Classical.choice, Quot.sound]
'Verif.Load.load_total' depends on axioms: [propext, Classical.choice, Quot.sound]
'Verif.Load.load_gamma_fails' depends on axioms: [propext, Classical.choice, Quot.sound]
'Verif.Load.load_speed_fails' depends on axioms: [propext, Classical.choice, Quot.sound]
'Verif.Load.load_speed_partial' depends on axioms: [propext, Classical.choice, Quot.sound]
'Verif.Load.load_no_momentum_fails' depends on axioms: [propext, Classical.choice, Quot.sound]
'Verif.Load.load_first_species_fails' depends on axioms: [propext]
'Verif.Lists.lists_fresh' depends on axioms: [propext, Quot.sound]
'Verif.Lists.initial_good' depends on axioms: [propext, Quot.sound]
'Verif.Lists.sorter_always_fresh' does not depend on any axioms
'Verif.Lists.window_stale_fails' depends on axioms: [propext, Classical.choice, Quot.sound]
'Verif.Lists.window_stays_stale_fails' depends on axioms: [propext]
'Verif.Lists.window_bounds_fails' depends on axioms: [propext, Quot.sound]
'Verif.Lists.callback_no_update_fails' depends on axioms: [propext, Classical.choice, Quot.sound]
'Verif.Qed.optical_depth_electron' depends on axioms: [propext, Classical.choice, Quot.sound]
'Verif.Qed.optical_depth_photon' depends on axioms: [propext, Classical.choice, Quot.sound]
'Verif.Qed.exact_depth_lost_fails' depends on axioms: [propext, Classical.choice, Quot.sound]
'Verif.ExchangeProps.patches_tile' depends on axioms: [propext, Classical.choice, Quot.sound]
'Verif.ExchangeProps.patches_tile_pml' depends on axioms: [propext, Classical.choice, Quot.sound]
'Verif.ExchangeProps.patch_index2' depends on axioms: [propext, Quot.sound]
'Verif.ExchangeProps.patch_index3' depends on axioms: [propext, Quot.sound]
'Verif.Stat.report_adds_up' depends on axioms: [propext, Classical.choice, Quot.sound]
'Verif.Stat.report_refused' depends on axioms: [propext, Classical.choice, Quot.sound]
'Verif.SyncFields.guard_any_ranks2' depends on axioms: [propext, Classical.choice, Quot.sound]
'Verif.SyncFields.guard_any_ranks3' depends on axioms: [propext, Classical.choice, Quot.sound]
'Verif.SyncFields.rank_table2' depends on axioms: [propext, Classical.choice, Quot.sound]
'Verif.SyncFields.exchange_exists' depends on axioms: [propext, Classical.choice, Quot.sound]
'Verif.Laser.source_amplitude' depends on axioms: [propext, Classical.choice, Quot.sound]
'Verif.Laser.pulse_duration_partial' depends on axioms: [propext, Classical.choice, Quot.sound]
'Verif.Laser.pulse_early_fails' depends on axioms: [propext, Classical.choice, Quot.sound]
'Verif.Laser.pulse_cut_fails' depends on axioms: [propext, Classical.choice, Quot.sound]
'Verif.Chi.chi_defined' depends on axioms: [propext, Classical.choice, Quot.sound]
'Verif.Chi.chi_at_rest' depends on axioms: [propext, Classical.choice, Quot.sound]
'Verif.Chi.chi_every_frame' depends on axioms: [propext, Classical.choice, Quot.sound]
'Verif.Chi.fields_every_frame' depends on axioms: [propext, Classical.choice, Quot.sound]
'Verif.Chi.boost_frame' depends on axioms: [propext, Classical.choice, Quot.sound]
'Verif.Chi.chi_frame' depends on axioms: [propext, Classical.choice, Quot.sound]
'Verif.Chi.chi_turn' depends on axioms: [propext, Classical.choice, Quot.sound]
'Verif.Chi.chi_cyc' depends on axioms: [propext, Classical.choice, Quot.sound]
'Verif.Chi.chi_of_all' depends on axioms: [propext, Classical.choice, Quot.sound]
'Verif.Chi.chi_loaded_fails' depends on axioms: [propext, Classical.choice, Quot.sound]
'Verif.Debye.cell_value' depends on axioms: [propext, Classical.choice, Quot.sound]
'Verif.Debye.cell_perm' depends on axioms: [propext, Classical.choice, Quot.sound]
'Verif.Debye.cell_drift' depends on axioms: [propext, Classical.choice, Quot.sound]
'Verif.Debye.density_accumulates' depends on axioms: [propext, Classical.choice, Quot.sound]
'Verif.Debye.history_partial' depends on axioms: [propext, Classical.choice, Quot.sound]
'Verif.Debye.value_partial' depends on axioms: [propext, Classical.choice, Quot.sound]
'Verif.Debye.distance_partial' depends on axioms: [propext, Classical.choice, Quot.sound]
'Verif.Debye.repeat_fails' depends on axioms: [propext, Classical.choice, Quot.sound]
'Verif.Debye.distance_fails' depends on axioms: [propext, Classical.choice, Quot.sound]
'Verif.Debye.mean_distance' depends on axioms: [propext, Classical.choice, Quot.sound]
'Verif.Debye.mean_distance_decreases' depends on axioms: [propext, Classical.choice, Quot.sound]
'Verif.MpiExchangeProps.mpi2_conserves' depends on axioms: [propext, Classical.choice, Quot.sound]
'Verif.MpiExchangeProps.mpi3_conserves' depends on axioms: [propext, Classical.choice, Quot.sound]
'Verif.MpiExchangeProps.ranks2_conserve' depends on axioms: [propext, Classical.choice, Quot.sound]
'Verif.MpiExchangeProps.ranks3_conserve' depends on axioms: [propext, Classical.choice, Quot.sound]
'Verif.MpiExchangeProps.ranks2_outcome' depends on axioms: [propext, Classical.choice, Quot.sound]
'Verif.MpiExchangeProps.ranks3_outcome' depends on axioms: [propext, Classical.choice, Quot.sound]
'Verif.MpiExchangeProps.ranks2_layout_independent' depends on axioms: [propext, Classical.choice, Quot.sound]
'Verif.MpiExchangeProps.ranks3_layout_independent' depends on axioms: [propext, Classical.choice, Quot.sound]
'Verif.MpiExchangeProps.ranks2_periodic_conserves' depends on axioms: [propext, Classical.choice, Quot.sound]
'Verif.MpiExchangeProps.ranks3_periodic_conserves' depends on axioms: [propext, Classical.choice, Quot.sound]
'Verif.MpiExchangeProps.ranks2_far_fails' depends on axioms: [propext, Classical.choice, Quot.sound]
'Verif.Collective.executions_finite' depends on axioms: [propext, Quot.sound]
'Verif.Collective.same_decisions_finish_partial' depends on axioms: [propext, Classical.choice, Quot.sound]
'Verif.Collective.finished_same_steps' depends on axioms: [propext, Classical.choice, Quot.sound]
'Verif.Collective.signal_checkpoint_iff' depends on axioms: [propext, Classical.choice, Quot.sound]
'Verif.Collective.signal_checkpoint_fails' depends on axioms: [propext, Classical.choice, Quot.sound]
'Verif.PicStep.patches_transparent2' depends on axioms: [propext, Classical.choice, Quot.sound]
'Verif.PicStep.patches_transparent3' depends on axioms: [propext, Classical.choice, Quot.sound]
'Verif.PicStep.rho_stored2' depends on axioms: [propext, Classical.choice, Quot.sound]
'Verif.PicStep.rho_stored3' depends on axioms: [propext, Classical.choice, Quot.sound]
'Verif.PicStep.gauss_pic2' depends on axioms: [propext, Classical.choice, Quot.sound]
'Verif.PicStep.gauss_pic3' depends on axioms: [propext, Classical.choice, Quot.sound]
'Verif.PicStep.gauss_stored2' depends on axioms: [propext, Classical.choice, Quot.sound]
'Verif.PicStep.gauss_stored3' depends on axioms: [propext, Classical.choice, Quot.sound]
'Verif.PicStep.fits_of_inside' depends on axioms: [propext, Classical.choice, Quot.sound]
'Verif.PicStep.small_guard_fails' depends on axioms: [propext, Classical.choice, Quot.sound]
'Verif.WholeRun.run_is_undivided2' depends on axioms: [propext, Classical.choice, Quot.sound]
'Verif.WholeRun.decomposition_independent2' depends on axioms: [propext, Classical.choice, Quot.sound]
'Verif.WholeRun.run_continues2' depends on axioms: [propext, Classical.choice, Quot.sound]
'Verif.WholeRun.runs2' depends on axioms: [propext, Classical.choice, Quot.sound]
'Verif.WholeRun.run_is_undivided3_partial' depends on axioms: [propext, Classical.choice, Quot.sound]
'Verif.WholeRun.decomposition_independent3_partial' depends on axioms: [propext, Classical.choice, Quot.sound]
'Verif.WholeRun.run_continues3_partial' depends on axioms: [propext, Classical.choice, Quot.sound]
'Verif.WholeRun.runs3' depends on axioms: [propext, Classical.choice, Quot.sound]
'Verif.WholeRun.split_run3_frozen' depends on axioms: [propext, Classical.choice, Quot.sound]
'Verif.WholeRun.run_is_undivided3_fails' depends on axioms: [propext, Classical.choice, Quot.sound]
'Verif.Begin.starts_iff2' depends on axioms: [propext, Classical.choice, Quot.sound]
'Verif.Begin.starts_iff3' depends on axioms: [propext, Classical.choice, Quot.sound]
'Verif.Cpml.cpml_run_undivided2' depends on axioms: [propext, Classical.choice, Quot.sound]
'Verif.Cpml.cpml_cuts_agree2' depends on axioms: [propext, Classical.choice, Quot.sound]
'Verif.Cpml.cpml_run_exists2' depends on axioms: [propext, Classical.choice, Quot.sound]
'Verif.Cpml.cpml_run_undivided3_partial' depends on axioms: [propext, Classical.choice, Quot.sound]
'Verif.Cpml.cpml_cuts_agree3_partial' depends on axioms: [propext, Classical.choice, Quot.sound]
'Verif.Cpml.cpml_run_exists3' depends on axioms: [propext, Classical.choice, Quot.sound]
'Verif.Cpml.cpml_single_patch3_fails' depends on axioms: [propext, Classical.choice, Quot.sound]
'Verif.WholeRun.gauss_whole2' depends on axioms: [propext, Classical.choice, Quot.sound]
'Verif.WholeRun.gauss_law2' depends on axioms: [propext, Classical.choice, Quot.sound]
'Verif.WholeRun.divB_whole2' depends on axioms: [propext, Classical.choice, Quot.sound]
'Verif.WholeRun.gauss_whole3_partial' depends on axioms: [propext, Classical.choice, Quot.sound]
'Verif.WholeRun.gauss_law3_partial' depends on axioms: [propext, Classical.choice, Quot.sound]
'Verif.WholeRun.divB_whole3' depends on axioms: [propext, Classical.choice, Quot.sound]
'Verif.WholePml.run_is_undivided2' depends on axioms: [propext, Classical.choice, Quot.sound]
'Verif.WholePml.layers_are_empty2' depends on axioms: [propext, Classical.choice, Quot.sound]
'Verif.WholePml.decomposition_independent2' depends on axioms: [propext, Classical.choice, Quot.sound]
'Verif.WholePml.run_continues2' depends on axioms: [propext, Classical.choice, Quot.sound]
'Verif.WholePml.runs2' depends on axioms: [propext, Classical.choice, Quot.sound]
'Verif.WholePml.run_is_undivided3_partial' depends on axioms: [propext, Classical.choice, Quot.sound]
'Verif.WholePml.layers_are_empty3_partial' depends on axioms: [propext, Classical.choice, Quot.sound]
'Verif.WholePml.decomposition_independent3_partial' depends on axioms: [propext, Classical.choice, Quot.sound]
'Verif.WholePml.run_continues3_partial' depends on axioms: [propext, Classical.choice, Quot.sound]
'Verif.WholePml.runs3' depends on axioms: [propext, Classical.choice, Quot.sound]
'Verif.Setup.pushed_as_asked_partial' depends on axioms: [propext, Classical.choice, Quot.sound]
'Verif.Setup.accepted_iff' depends on axioms: [propext, Quot.sound]
'Verif.Setup.qed_as_asked' depends on axioms: [propext, Quot.sound]
'Verif.Setup.default_species_partial' depends on axioms: [propext, Quot.sound]
'Verif.Setup.tbmt_stops_fails' depends on axioms: [propext, Quot.sound]
'Verif.Setup.tbmt_wrong_species_fails' depends on axioms: [propext]
'Verif.Setup.ll_refused_fails' depends on axioms: [propext, Quot.sound]
'Verif.Setup.default_callable_fails' depends on axioms: [propext, Quot.sound]
'Verif.Setup.momentum_ignored_fails' does not depend on any axioms
'Verif.Momenta.set_momentum' depends on axioms: [propext, Classical.choice, Quot.sound]
'Verif.Momenta.temperature_partial' depends on axioms: [propext, Classical.choice, Quot.sound]
'Verif.Momenta.momentum_and_temperature_partial' depends on axioms: [propext, Classical.choice, Quot.sound]
'Verif.Momenta.anisotropy_fails' depends on axioms: [propext, Classical.choice, Quot.sound]
'Verif.Momenta.zero_temperature_fails' depends on axioms: [propext, Classical.choice, Quot.sound]
'Verif.Momenta.photon_temperature_fails' depends on axioms: [propext, Classical.choice, Quot.sound]
'Verif.Momenta.photon_momentum_fails' depends on axioms: [propext, Classical.choice, Quot.sound]
'Verif.Photon.photon_flight2' depends on axioms: [propext, Classical.choice, Quot.sound]
'Verif.Photon.photon_current2' depends on axioms: [propext, Classical.choice, Quot.sound]
'Verif.Photon.photon_current3' depends on axioms: [propext, Classical.choice, Quot.sound]
'Verif.Photon.gamma_is_light' depends on axioms: [propext, Classical.choice, Quot.sound]
'Verif.Photon.photon_stuck_fails' depends on axioms: [propext, Classical.choice, Quot.sound]
'Verif.Coulomb.kernel_units' depends on axioms: [propext, Classical.choice, Quot.sound]
'Verif.Coulomb.kernel_swap_partial' depends on axioms: [propext, Classical.choice, Quot.sound]
'Verif.Coulomb.impact_partial' depends on axioms: [propext, Classical.choice, Quot.sound]
'Verif.Coulomb.impact_fails' depends on axioms: [propext, Classical.choice, Quot.sound]
'Verif.Mask.mask_refused' depends on axioms: [propext, Classical.choice, Quot.sound]
'Verif.Mask.mask_patches' depends on axioms: [propext, Classical.choice, Quot.sound]
'Verif.Mask.mask_neighbours' depends on axioms: [propext, Classical.choice, Quot.sound]
'Verif.Mask.mask_layers' depends on axioms: [propext, Classical.choice, Quot.sound]
'Verif.Mask.mask_accepted_partial' depends on axioms: [propext, Classical.choice, Quot.sound]
'Verif.Mask.mask_full' depends on axioms: [propext, Classical.choice, Quot.sound]
'Verif.Mask.mask_cells' depends on axioms: [propext, Classical.choice, Quot.sound]
'Verif.Mask.mask_fields' depends on axioms: [propext, Classical.choice, Quot.sound]
'Verif.Mask.narrow_mask_fails' depends on axioms: [propext, Classical.choice, Quot.sound]
'Verif.Mask.mask_density_slice_fails' depends on axioms: [propext, Quot.sound]
'Verif.Reload.reload_partial' depends on axioms: [propext, Classical.choice, Quot.sound]
'Verif.Reload.half_run_fails' depends on axioms: [propext, Classical.choice, Quot.sound]
'Verif.Collide.step_conserves_partial' depends on axioms: [propext, Classical.choice, Quot.sound]
'Verif.Collide.events_spec' depends on axioms: [propext, Classical.choice, Quot.sound]
'Verif.Collide.same_cell2' depends on axioms: [propext, Classical.choice, Quot.sound]
'Verif.Collide.same_cell3' depends on axioms: [propext, Classical.choice, Quot.sound]
'Verif.Collide.setup_spec' depends on axioms: [propext, Quot.sound]
'Verif.Collide.setup_refuses' depends on axioms: [propext, Quot.sound]
'Verif.Collide.late_rows_fails' depends on axioms: [propext, Classical.choice, Quot.sound]
'Verif.Collide.late_mirrored_fails' depends on axioms: [propext, Classical.choice, Quot.sound]
'Verif.Collide.check_spec' depends on axioms: [propext, Classical.choice, Quot.sound]
'Verif.Collide.check_guards_partial' depends on axioms: [propext, Classical.choice, Quot.sound]
'Verif.Collide.check_early_fails' depends on axioms: [propext, Classical.choice, Quot.sound]
'Verif.Capsule.memory_safe' depends on axioms: [propext, Classical.choice, Quot.sound]
'Verif.Capsule.no_leak' depends on axioms: [propext, Classical.choice, Quot.sound]
'Verif.Capsule.no_message_left' depends on axioms: [propext, Classical.choice, Quot.sound]
'Verif.Capsule.messages_valid' depends on axioms: [propext, Classical.choice, Quot.sound]
'Verif.Capsule.simulation_safe' depends on axioms: [propext, Classical.choice, Quot.sound]
'Verif.Capsule.simulation_clean' depends on axioms: [propext, Classical.choice, Quot.sound]
'Verif.Capsule.synced_means_exchanged_partial' depends on axioms: [propext, Quot.sound]
'Verif.Capsule.second_wait_fails' depends on axioms: [propext, Classical.choice, Quot.sound]
'Verif.Capsule.failed_start_leaks' depends on axioms: [propext, Classical.choice, Quot.sound]
'Verif.Capsule.stale_exchange_fails' depends on axioms: [propext, Quot.sound]
'Verif.Laser.forward_plane' depends on axioms: [propext, Classical.choice, Quot.sound]
'Verif.Laser.laser_boundary2_partial' depends on axioms: [propext, Classical.choice, Quot.sound]
'Verif.Laser.laser_boundary3_partial' depends on axioms: [propext, Classical.choice, Quot.sound]
'Verif.Laser.laser_acts' depends on axioms: [propext, Classical.choice, Quot.sound]
'Verif.Laser.laser_stale_fails' depends on axioms: [propext, Classical.choice, Quot.sound]
'Verif.Laser.laser_lost_fails' depends on axioms: [propext, Classical.choice, Quot.sound]
'Verif.Laser.beam_power3' depends on axioms: [propext, Classical.choice, Quot.sound]
'Verif.Laser.power2_eq' depends on axioms: [propext, Classical.choice, Quot.sound]
'Verif.Laser.beam_power2_partial' depends on axioms: [propext, Classical.choice, Quot.sound]
'Verif.Laser.beam_power2_fails' depends on axioms: [propext, Classical.choice, Quot.sound]
'Verif.Laser.beam_paraxial' depends on axioms: [propext, Classical.choice, Quot.sound]
'Verif.Laser.gaussian_beam_partial' depends on axioms: [propext, Classical.choice, Quot.sound]
'Verif.Laser.gouy_fails' depends on axioms: [propext, Classical.choice, Quot.sound]
'Verif.Laser.vortex' depends on axioms: [propext, Classical.choice, Quot.sound]
'Verif.Laser.simple_beam_partial' depends on axioms: [propext, Classical.choice, Quot.sound]
'Verif.Laser.oblique_direction' depends on axioms: [propext, Classical.choice, Quot.sound]
'Verif.Laser.oblique_waist_fails' depends on axioms: [propext, Classical.choice, Quot.sound]
'Verif.Laser.oblique_amplitude_fails' depends on axioms: [propext, Classical.choice, Quot.sound]
'Verif.Cpml.cpml_damping' depends on axioms: [propext, Classical.choice, Quot.sound]
'Verif.Cpml.cpml_damping_fails' depends on axioms: [propext, Classical.choice, Quot.sound]
'Verif.Cpml.pml_setup2_partial' depends on axioms: [propext, Classical.choice, Quot.sound]
'Verif.Cpml.pml_setup3_partial' depends on axioms: [propext, Classical.choice, Quot.sound]
'Verif.Cpml.pml_one_patch_fails' depends on axioms: [propext, Classical.choice, Quot.sound]
'Verif.WholeRun.poynting2' depends on axioms: [propext, Classical.choice, Quot.sound]
'Verif.WholeRun.poynting3' depends on axioms: [propext, Classical.choice, Quot.sound]
'Verif.WholeRun.stable2_partial' depends on axioms: [propext, Classical.choice, Quot.sound]
'Verif.WholeRun.stable3_partial' depends on axioms: [propext, Classical.choice, Quot.sound]
'Verif.WholeRun.vacuum2' depends on axioms: [propext, Classical.choice, Quot.sound]
'Verif.WholeRun.vacuum3' depends on axioms: [propext, Classical.choice, Quot.sound]
'Verif.WholeRun.cfl_one_fails' depends on axioms: [propext, Classical.choice, Quot.sound]
'Verif.Rng.streams_distinct' depends on axioms: [propext, Classical.choice, Quot.sound]
'Verif.Rng.seed_decides' depends on axioms: [propext, Classical.choice, Quot.sound]
'Verif.Rng.no_draw_twice' depends on axioms: [propext, Classical.choice, Quot.sound]
'Verif.Rng.seed_ranks_fails' depends on axioms: [propext, Classical.choice, Quot.sound]
'Verif.Rng.restart_collisions_fails' depends on axioms: [propext, Classical.choice, Quot.sound]
'Verif.Balance.ranks_agree_partial' depends on axioms: [propext, Classical.choice, Quot.sound]
'Verif.Balance.threshold_bounds' depends on axioms: [propext, Classical.choice, Quot.sound]
'Verif.Balance.gathered_loads' depends on axioms: [propext, Classical.choice, Quot.sound]
'Verif.Balance.default_load' depends on axioms: [propext, Classical.choice, Quot.sound]
'Verif.Balance.threshold_fails' depends on axioms: [propext, Classical.choice, Quot.sound]
'Verif.Insert.search_first' depends on axioms: [propext, Classical.choice, Quot.sound]
'Verif.Insert.insert_at' depends on axioms: [propext, Classical.choice, Quot.sound]
'Verif.Insert.sum_dead' depends on axioms: [propext, Quot.sound]
'Verif.Symmetry.run_moved2' depends on axioms: [propext, Classical.choice, Quot.sound]
'Verif.Symmetry.run_diagonal2' depends on axioms: [propext, Classical.choice, Quot.sound]
'Verif.Symmetry.symmetric_stays2' depends on axioms: [propext, Classical.choice, Quot.sound]
'Verif.Symmetry.in_plane2' depends on axioms: [propext, Classical.choice, Quot.sound]
'Verif.Symmetry.run_moved3_partial' depends on axioms: [propext, Classical.choice, Quot.sound]
'Verif.Symmetry.run_turned3_partial' depends on axioms: [propext, Classical.choice, Quot.sound]
'Verif.Symmetry.symmetric_stays3_partial' depends on axioms: [propext, Classical.choice, Quot.sound]
'Verif.Resume.restarted_schedule' depends on axioms: [propext, Classical.choice, Quot.sound]
'Verif.Resume.restart_complete' depends on axioms: [propext, Classical.choice, Quot.sound]
'Verif.Resume.restart_fresh_partial' depends on axioms: [propext, Quot.sound]
'Verif.Resume.restarted_unified_partial' does not depend on any axioms
'Verif.Resume.restarted_run2_partial' depends on axioms: [propext, Classical.choice, Quot.sound]
'Verif.Resume.restarted_run3_partial' depends on axioms: [propext, Classical.choice, Quot.sound]
'Verif.Resume.restart_repaired' depends on axioms: [propext, Quot.sound]
'Verif.Resume.restart_more_ranks' depends on axioms: [propext, Quot.sound]
'Verif.Resume.restart_stale_fails' depends on axioms: [propext, Classical.choice, Quot.sound]
'Verif.Resume.restart_stays_stale_fails' depends on axioms: [propext, Classical.choice, Quot.sound]
'Verif.Resume.restarted_split_stands_still_fails' depends on axioms: [propext, Classical.choice, Quot.sound]
'Verif.Resume.restart_fewer_ranks_fails' depends on axioms: [propext, Quot.sound]
'Verif.Resume.restarted_window_fails' depends on axioms: [propext, Classical.choice, Quot.sound]
'Verif.WholeRun.gauss_with_acts2' depends on axioms: [propext, Classical.choice, Quot.sound]
'Verif.WholeRun.acts_keep_gauss2' depends on axioms: [propext, Classical.choice, Quot.sound]
'Verif.WholeRun.divB_with_acts2' depends on axioms: [propext, Classical.choice, Quot.sound]
'Verif.WholeRun.gauss_with_acts3_partial' depends on axioms: [propext, Classical.choice, Quot.sound]
'Verif.WholeRun.divB_with_acts3_partial' depends on axioms: [propext, Classical.choice, Quot.sound]
'Verif.WholeRun.collision_gauss_fails' depends on axioms: [propext, Classical.choice, Quot.sound]
'Verif.WholeRun.radiation_gauss_fails' depends on axioms: [propext, Classical.choice, Quot.sound]
'Verif.Enable.flag_is_last_call' depends on axioms: [propext, Quot.sound]
'Verif.Enable.all_enabled' depends on axioms: [propext, Classical.choice, Quot.sound]
'Verif.Enable.flags_undivided2' depends on axioms: [propext, Classical.choice, Quot.sound]
'Verif.Enable.flags_independent2' depends on axioms: [propext, Classical.choice, Quot.sound]
'Verif.Enable.disabled_rests2' depends on axioms: [propext, Classical.choice, Quot.sound]
'Verif.Enable.disabled_is_absent2' depends on axioms: [propext, Classical.choice, Quot.sound]
'Verif.Enable.gauss_flags2' depends on axioms: [propext, Classical.choice, Quot.sound]
'Verif.Enable.flags_undivided3_partial' depends on axioms: [propext, Classical.choice, Quot.sound]
'Verif.Enable.disabled_is_absent3_partial' depends on axioms: [propext, Classical.choice, Quot.sound]
'Verif.Enable.gauss_flags3_partial' depends on axioms: [propext, Classical.choice, Quot.sound]
'Verif.Enable.parts_enabled' depends on axioms: [propext, Classical.choice, Quot.sound]
'Verif.Enable.pusher_disabled_rests' depends on axioms: [propext, Classical.choice, Quot.sound]
'Verif.Enable.depositor_disabled_partial' depends on axioms: [propext, Classical.choice, Quot.sound]
'Verif.Enable.depositor_disable_fails' depends on axioms: [propext, Classical.choice, Quot.sound]
'Verif.Enable.pusher_disable_fails' depends on axioms: [propext, Classical.choice, Quot.sound]
'Verif.Rates.electron_events_follow_rates' depends on axioms: [propext, Classical.choice, Quot.sound]
'Verif.Rates.photon_events_follow_rates' depends on axioms: [propext, Classical.choice, Quot.sound]
'Verif.Rates.survival' depends on axioms: [propext, Classical.choice, Quot.sound]
'Verif.Rates.mean_events' depends on axioms: [propext, Classical.choice, Quot.sound]
'Verif.Rates.step_number_fails' depends on axioms: [propext, Classical.choice, Quot.sound]
'Verif.Rates.new_particle_depth_fails' depends on axioms: [propext, Classical.choice, Quot.sound]
'Verif.Rates.same_depth_fails' depends on axioms: [propext, Classical.choice, Quot.sound]
'Verif.Tables.fraction_follows_partial' depends on axioms: [propext, Classical.choice, Quot.sound]
'Verif.Tables.sigmoid_follows_partial' depends on axioms: [propext, Classical.choice, Quot.sound]
'Verif.Tables.generated_increasing' depends on axioms: [propext, Classical.choice, Quot.sound]
'Verif.Tables.rates_at_ends' depends on axioms: [propext, Classical.choice, Quot.sound]
'Verif.Tables.textbook_rates' depends on axioms: [propext, Classical.choice, Quot.sound]
'Verif.Tables.rates_positive' depends on axioms: [propext, Classical.choice, Quot.sound]
'Verif.Tables.columns_are_integrals' depends on axioms: [propext, Classical.choice, Quot.sound]
'Verif.Tables.below_first_fails' depends on axioms: [propext, Classical.choice, Quot.sound]
'Verif.Tables.last_column_fails' depends on axioms: [propext, Classical.choice, Quot.sound]
'Verif.Juttner.hot_energies' depends on axioms: [propext, Classical.choice, Quot.sound]
'Verif.Juttner.warm_energies_partial' depends on axioms: [propext, Classical.choice, Quot.sound]
'Verif.Juttner.cold_energies_partial' depends on axioms: [propext, Classical.choice, Quot.sound]
'Verif.Juttner.juttner_temperature' depends on axioms: [propext, Classical.choice, Quot.sound]
'Verif.Juttner.isotropic' depends on axioms: [propext, Classical.choice, Quot.sound]
'Verif.Juttner.axis_temperature' depends on axioms: [propext, Classical.choice, Quot.sound]
'Verif.Juttner.warm_energies_fails' depends on axioms: [propext, Classical.choice, Quot.sound]
'Verif.Juttner.warm_temperature_fails' depends on axioms: [propext, Classical.choice, Quot.sound]
'Verif.Juttner.cold_temperature_fails' depends on axioms: [propext, Classical.choice, Quot.sound]
'Verif.Scattering.mean_cosine' depends on axioms: [propext, Classical.choice, Quot.sound]
'Verif.Scattering.mean_cosine_partial' depends on axioms: [propext, Classical.choice, Quot.sound]
'Verif.Scattering.more_turning' depends on axioms: [propext, Classical.choice, Quot.sound]
'Verif.Scattering.mean_momentum_partial' depends on axioms: [propext, Classical.choice, Quot.sound]
'Verif.Scattering.mean_transfer_partial' depends on axioms: [propext, Classical.choice, Quot.sound]
'Verif.Scattering.small_angle_fails' depends on axioms: [propext, Classical.choice, Quot.sound]
'Verif.Scattering.mean_momentum_fails' depends on axioms: [propext, Classical.choice, Quot.sound]
'Verif.LiouvilleProps.volume_kept' depends on axioms: [propext, Classical.choice, Quot.sound]
'Verif.LiouvilleProps.volume_kept_run' depends on axioms: [propext, Classical.choice, Quot.sound]
'Verif.LiouvilleProps.volume_of_image' depends on axioms: [propext, Classical.choice, Quot.sound]
'Verif.LiouvilleProps.density_carried' depends on axioms: [propext, Classical.choice, Quot.sound]
'Verif.LiouvilleProps.entropy_kept' depends on axioms: [propext, Classical.choice, Quot.sound]
'Verif.LiouvilleProps.push_reversible' depends on axioms: [propext, Classical.choice, Quot.sound]
'Verif.LiouvilleProps.driver_pushes' depends on axioms: [propext, Classical.choice, Quot.sound]
'Verif.GyrationProps.gyration' depends on axioms: [propext, Classical.choice, Quot.sound]
'Verif.GyrationProps.gyration_any' depends on axioms: [propext, Classical.choice, Quot.sound]
'Verif.GyrationProps.on_the_circle' depends on axioms: [propext, Classical.choice, Quot.sound]
'Verif.GyrationProps.along_the_field' depends on axioms: [propext, Classical.choice, Quot.sound]
'Verif.GyrationProps.guiding_centre' depends on axioms: [propext, Classical.choice, Quot.sound]
'Verif.GyrationProps.near_true_motion' depends on axioms: [propext, Classical.choice, Quot.sound]
'Verif.GyrationProps.phase_lag' depends on axioms: [propext, Classical.choice, Quot.sound]
'Verif.WholeRun.wave_equation2' depends on axioms: [propext, Classical.choice, Quot.sound]
'Verif.WholeRun.wave_equation3' depends on axioms: [propext, Classical.choice, Quot.sound]
'Verif.WholeRun.waves2' depends on axioms: [propext, Classical.choice, Quot.sound]
'Verif.WholeRun.waves3' depends on axioms: [propext, Classical.choice, Quot.sound]
'Verif.WholeRun.frequency_exists' depends on axioms: [propext, Classical.choice, Quot.sound]
'Verif.WholeRun.below_limit' depends on axioms: [propext, Classical.choice, Quot.sound]
'Verif.WholeRun.above_zero' depends on axioms: [propext, Classical.choice, Quot.sound]
'Verif.WholeRun.not_faster' depends on axioms: [propext, Classical.choice, Quot.sound]
'Verif.WholeRun.not_much_slower' depends on axioms: [propext, Classical.choice, Quot.sound]
'Verif.WholeRun.mean_kept2' depends on axioms: [propext, Classical.choice, Quot.sound]
'Verif.WholeRun.mean_kept3' depends on axioms: [propext, Classical.choice, Quot.sound]
'Verif.Reverse.retraced2' depends on axioms: [propext, Classical.choice, Quot.sound]
'Verif.Reverse.back_to_start2' depends on axioms: [propext, Classical.choice, Quot.sound]
'Verif.Reverse.gammas_fit2' depends on axioms: [propext, Classical.choice, Quot.sound]
'Verif.Reverse.retraced3_partial' depends on axioms: [propext, Classical.choice, Quot.sound]
'Verif.Reverse.back_to_start3_partial' depends on axioms: [propext, Classical.choice, Quot.sound]
'Verif.Reverse.gammas_fit3' depends on axioms: [propext, Classical.choice, Quot.sound]
'Verif.Reverse.can_turn' depends on axioms: [propext, Classical.choice, Quot.sound]
'Verif.Scale.scaled_run2' depends on axioms: [propext, Classical.choice, Quot.sound]
'Verif.Scale.scaled_run3_partial' depends on axioms: [propext, Classical.choice, Quot.sound]
'Verif.Scale.scaled_admissible' depends on axioms: [propext, Classical.choice, Quot.sound]
'Verif.Scale.can_scale' depends on axioms: [propext, Classical.choice, Quot.sound]
'Verif.Track.tracked2' depends on axioms: [propext, Classical.choice, Quot.sound]
'Verif.Track.tracked3_partial' depends on axioms: [propext, Classical.choice, Quot.sound]
'Verif.Track.tracked_open2' depends on axioms: [propext, Classical.choice, Quot.sound]
'Verif.Track.tracked_open3_partial' depends on axioms: [propext, Classical.choice, Quot.sound]
'Verif.Causal.causal2' depends on axioms: [propext, Classical.choice, Quot.sound]
'Verif.Causal.causal3_partial' depends on axioms: [propext, Classical.choice, Quot.sound]
'Verif.Matter.same_matter2' depends on axioms: [propext, Classical.choice, Quot.sound]
'Verif.Matter.same_species2' depends on axioms: [propext, Classical.choice, Quot.sound]
'Verif.Matter.same_matter3_partial' depends on axioms: [propext, Classical.choice, Quot.sound]
'Verif.Matter.same_species3_partial' depends on axioms: [propext, Classical.choice, Quot.sound]
'Verif.Matter.can_recut' depends on axioms: [propext, Classical.choice, Quot.sound]
'Verif.Planar.planar_run3_partial' depends on axioms: [propext, Classical.choice, Quot.sound]
'Verif.Config.accepted_iff' depends on axioms: [propext, Classical.choice, Quot.sound]
'Verif.Config.accepted_auto2' depends on axioms: [propext, Classical.choice, Quot.sound]
'Verif.Config.accepted_auto3' depends on axioms: [propext, Classical.choice, Quot.sound]
'Verif.Config.accepted_geometry' depends on axioms: [propext, Classical.choice, Quot.sound]
'Verif.Config.accepted_step' depends on axioms: [propext, Classical.choice, Quot.sound]
'Verif.Config.asked_length' depends on axioms: [propext, Classical.choice, Quot.sound]
'Verif.Config.accepted_admissible_partial' depends on axioms: [propext, Classical.choice, Quot.sound]
'Verif.Config.accepted_admissible_fails' depends on axioms: [propext, Classical.choice, Quot.sound]
'Verif.Config.one_guard_fails' depends on axioms: [propext, Classical.choice, Quot.sound]
'Verif.Config.patches_overwritten_fails' depends on axioms: [propext, Classical.choice, Quot.sound]
'Verif.Config.missing_side_fails' depends on axioms: [propext, Classical.choice, Quot.sound]
'Verif.Superpose.superposition2' depends on axioms: [propext, Classical.choice, Quot.sound]
'Verif.Superpose.superposition3_partial' depends on axioms: [propext, Classical.choice, Quot.sound]
'Verif.Superpose.void_stays2' depends on axioms: [propext, Classical.choice, Quot.sound]
'Verif.Neutral.passengers2' depends on axioms: [propext, Classical.choice, Quot.sound]
'Verif.Neutral.passengers3_partial' depends on axioms: [propext, Classical.choice, Quot.sound]
'Verif.Neutral.can_add_neutral' depends on axioms: [propext, Classical.choice, Quot.sound]
'Verif.Progress.report_lines_partial' depends on axioms: [propext, Classical.choice, Quot.sound]
'Verif.Progress.other_ranks_silent' depends on axioms: [propext, Classical.choice, Quot.sound]
'Verif.Progress.done_too_early_fails' depends on axioms: [propext, Classical.choice, Quot.sound]
'Verif.Progress.no_step_fails' depends on axioms: [propext, Classical.choice, Quot.sound]
'Verif.Progress.no_step_silent' depends on axioms: [propext, Classical.choice, Quot.sound]
'Verif.Tiled.lattice2' depends on axioms: [propext, Classical.choice, Quot.sound]
'Verif.Tiled.lattice3_partial' depends on axioms: [propext, Classical.choice, Quot.sound]
'Verif.Plot.pictures' depends on axioms: [propext, Classical.choice, Quot.sound]
'Verif.Plot.all_ranks' depends on axioms: [propext, Classical.choice, Quot.sound]
'Verif.Plot.fileName_inj' depends on axioms: [propext, Classical.choice, Quot.sound]
'Verif.Plot.after_failure_fails' depends on axioms: [propext, Classical.choice, Quot.sound]
'Verif.Plot.unknown_colours' depends on axioms: [propext, Classical.choice, Quot.sound]
'Verif.Plot.volumes_fail' depends on axioms: [propext, Classical.choice, Quot.sound]
'Verif.Plot.places_fail' depends on axioms: [propext, Classical.choice, Quot.sound]
'Verif.Window.window2' depends on axioms: [propext, Classical.choice, Quot.sound]
'Verif.Window.window3_partial' depends on axioms: [propext, Classical.choice, Quot.sound]
'Verif.Job.bounded' depends on axioms: [propext, Classical.choice, Quot.sound]
'Verif.Job.no_wait_partial' depends on axioms: [propext, Classical.choice, Quot.sound]
'Verif.Job.outcome_partial' depends on axioms: [propext, Classical.choice, Quot.sound]
'Verif.Job.outside_fails' depends on axioms: [propext, Quot.sound]
'Verif.Job.status_fails' depends on axioms: [propext, Classical.choice, Quot.sound]
'Verif.Log.lines_partial' depends on axioms: [propext, Classical.choice, Quot.sound]
'Verif.Log.append_keeps' depends on axioms: [propext, Classical.choice, Quot.sound]
'Verif.Log.stat_partial' depends on axioms: [propext, Classical.choice, Quot.sound]
'Verif.Log.short_fails' depends on axioms: [propext, Classical.choice, Quot.sound]
'Verif.Log.bar_fails' depends on axioms: [propext, Classical.choice, Quot.sound]
'Verif.Log.events_fails' depends on axioms: [propext, Classical.choice, Quot.sound]
'Verif.Log.stale_fails' depends on axioms: [propext, Classical.choice, Quot.sound]
'Verif.Log.late_rank_fails' depends on axioms: [propext, Classical.choice, Quot.sound]
'Verif.Log.second_fails' depends on axioms: [propext, Classical.choice, Quot.sound]
'Verif.WholeRun.mean_b2' depends on axioms: [propext, Classical.choice, Quot.sound]
'Verif.WholeRun.mean_e2' depends on axioms: [propext, Classical.choice, Quot.sound]
'Verif.WholeRun.net_current2' depends on axioms: [propext, Classical.choice, Quot.sound]
'Verif.WholeRun.mean_driven2' depends on axioms: [propext, Classical.choice, Quot.sound]
'Verif.WholeRun.mean_b3' depends on axioms: [propext, Classical.choice, Quot.sound]
'Verif.WholeRun.mean_e3' depends on axioms: [propext, Classical.choice, Quot.sound]
'Verif.WholeRun.net_current3_partial' depends on axioms: [propext, Classical.choice, Quot.sound]
'Verif.WholeRun.mean_driven3_partial' depends on axioms: [propext, Classical.choice, Quot.sound]
'Verif.Away.away2' depends on axioms: [propext, Classical.choice, Quot.sound]
'Verif.Away.away3_partial' depends on axioms: [propext, Classical.choice, Quot.sound]
