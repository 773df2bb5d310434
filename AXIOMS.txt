'Verif.Parameter.C01_names_closed' depends on axioms: [propext, Classical.choice, Quot.sound]
'Verif.Parameter.C02_sample_prior_in_range' depends on axioms: [propext, Classical.choice, Quot.sound]
'Verif.Parameter.C02_init_parameter_forgets' depends on axioms: [propext, Classical.choice, Quot.sound]
'Verif.Parameter.C02_sample_init_in_range' depends on axioms: [propext, Classical.choice, Quot.sound]
'Verif.Parameter.C02_sample_init_completes' depends on axioms: [propext, Classical.choice, Quot.sound]
'Verif.Parameter.C03_set_parameter_atomic' depends on axioms: [propext, Classical.choice, Quot.sound]
'Verif.Parameter.C03_read_your_writes' depends on axioms: [propext, Classical.choice, Quot.sound]
'Verif.Parameter.C03_reading' depends on axioms: [propext, Classical.choice, Quot.sound]
'Verif.Parameter.C04_log_prior' depends on axioms: [propext, Classical.choice, Quot.sound]
'Verif.Parameter.C04_log_prior_order_independent' depends on axioms: [propext, Classical.choice, Quot.sound]
'Verif.Parameter.C04_nan_passes_range_check' depends on axioms: [propext, Classical.choice, Quot.sound]
'Verif.Parameter.C05_fit_vector_round_trip' depends on axioms: [propext, Classical.choice, Quot.sound]
'Verif.Parameter.C05_no_leakage' depends on axioms: [propext, Classical.choice, Quot.sound]
'Verif.Hist.C06_hist1d_bins' depends on axioms: [propext, Classical.choice, Quot.sound]
'Verif.Hist.C07_hist2d_bins' depends on axioms: [propext, Classical.choice, Quot.sound]
'Verif.Hist.C08_hist1d_total' depends on axioms: [propext, Classical.choice, Quot.sound]
'Verif.Hist.C08_hist2d_total' depends on axioms: [propext, Classical.choice, Quot.sound]
'Verif.Hist.C08_additive_and_order_independent' depends on axioms: [propext, Classical.choice, Quot.sound]
'Verif.Hist.C08_weights_linear' depends on axioms: [propext, Classical.choice, Quot.sound]
'Verif.Hist.C08_nonneg' depends on axioms: [propext, Classical.choice, Quot.sound]
'Verif.Hist.C08_mesh' depends on axioms: [propext, Classical.choice, Quot.sound]
'Verif.Hist.C09_mesh1d_bins' depends on axioms: [propext, Classical.choice, Quot.sound]
'Verif.Hist.C09_mesh2d_bins' depends on axioms: [propext, Classical.choice, Quot.sound]
'Verif.Hist.C09_mesh1d_total' depends on axioms: [propext, Classical.choice, Quot.sound]
'Verif.Hist.C09_mesh2d_total' depends on axioms: [propext, Classical.choice, Quot.sound]
'Verif.Hist.C09_agree_off_edges' depends on axioms: [propext, Classical.choice, Quot.sound]
'Verif.Hist.C09_disagree_on_edges' depends on axioms: [propext]
'Verif.Comp.C10_topological_order' depends on axioms: [propext, Quot.sound]
'Verif.Comp.C10_same_name_dropped' depends on axioms: [propext]
'Verif.Comp.C11_generated_code_computes_data_flow' depends on axioms: [propext, Quot.sound]
'Verif.Comp.C11_values_unique' depends on axioms: [propext, Quot.sound]
'Verif.Comp.C11_unset_name' depends on axioms: [propext, Quot.sound]
'Verif.Comp.C11_shadowed_output_used' depends on axioms: [propext]
'Verif.Comp.C11_class_looked_up_by_name' depends on axioms: [propext]
'Verif.Comp.C11_missing_class' depends on axioms: [propext, Quot.sound]
'Verif.Comp.C11_empty_plugin' depends on axioms: [propext, Quot.sound]
'Verif.Comp.C12_success_iff' depends on axioms: [propext, Classical.choice, Quot.sound]
'Verif.Comp.C12_acyclic_complete_succeeds' depends on axioms: [propext, Quot.sound]
'Verif.Comp.C12_missing_fails' depends on axioms: [propext, Quot.sound]
'Verif.Comp.C12_missing_request_valueError' depends on axioms: [propext]
'Verif.Comp.C12_cycle_fails' depends on axioms: [propext, Quot.sound]
'Verif.Comp.C13_needed_parameters' depends on axioms: [propext, Quot.sound]
'Verif.Comp.C14_last_provider_wins' depends on axioms: [propext, Quot.sound]
'Verif.Comp.C14_provider_provides' depends on axioms: [propext, Quot.sound]
'Verif.Comp.C14_defaults_agree' depends on axioms: [propext, Quot.sound]
'Verif.Comp.C14_conflict_iff' depends on axioms: [propext, Quot.sound]
'Verif.Comp.C14_failed_registration_stays' depends on axioms: [propext]
'Verif.Comp.C15_efficiency_column_partial' depends on axioms: [propext, Quot.sound]
'Verif.Comp.C15_force_no_eff_sticky' depends on axioms: [propext]
'Verif.Comp.C15_failed_deduce_changes_weights' depends on axioms: [propext]
'Verif.Comp.C16_compiled_runs_own_code_partial' depends on axioms: [propext, Classical.choice, Quot.sound]
'Verif.Comp.C16_no_second_deduce' depends on axioms: [propext, Quot.sound]
'Verif.Comp.C16_compile_needs_deduce' depends on axioms: [propext, Quot.sound]
'Verif.Comp.C16_clear_mixes_simulators' depends on axioms: [propext]
'Verif.Comp.C17_on_pdf_total_is_rate' depends on axioms: [propext, Classical.choice, Quot.sound]
'Verif.Comp.C17_on_sim_total' depends on axioms: [propext, Classical.choice, Quot.sound]
'Verif.Comp.C17_on_sim_expected_events' depends on axioms: [propext, Classical.choice, Quot.sound]
'Verif.Comp.C17_unknown_norm_raises' depends on axioms: [propext, Quot.sound]
'Verif.Comp.C17_fixed_on_sim_raises' depends on axioms: [propext, Classical.choice, Quot.sound]
'Verif.Comp.C17_on_sim_without_energy' depends on axioms: [propext, Classical.choice, Quot.sound]
'Verif.Llh.C17_expected_events_any_bins' depends on axioms: [propext, Classical.choice, Quot.sound]
'Verif.Comp.C18_floor' depends on axioms: [propext, Quot.sound]
'Verif.Comp.C18_every_bin_positive' depends on axioms: [propext, Classical.choice, Quot.sound]
'Verif.Comp.C19_weighted_data_aligned' depends on axioms: [propext, Classical.choice, Quot.sound]
'Verif.Comp.C19_weights_sum_to_rate' depends on axioms: [propext, Classical.choice, Quot.sound]
'Verif.Comp.C19_floor_weights_at_most_rate' depends on axioms: [propext, Classical.choice, Quot.sound]
'Verif.Comp.C19_floor_weights_below_rate' depends on axioms: [propext, Classical.choice, Quot.sound]
'Verif.Comp.C19_fixed_weights_sum_to_rate' depends on axioms: [propext, Classical.choice, Quot.sound]
'Verif.Comp.C19_fixed_upper_edge_loses_rate' depends on axioms: [propext, Classical.choice, Quot.sound]
'Verif.Comp.C19_two_dim_exceeds_rate' depends on axioms: [propext, Classical.choice, Quot.sound]
'Verif.Comp.C19_fixed_data_unchanged' depends on axioms: [propext, Classical.choice, Quot.sound]
'Verif.Llh.C19_weighted_data_any_bins' depends on axioms: [propext, Classical.choice, Quot.sound]
'Verif.Llh.C19_weights_sum_any_bins' depends on axioms: [propext, Classical.choice, Quot.sound]
'Verif.Llh.C19_floor_weights_any_bins' depends on axioms: [propext, Classical.choice, Quot.sound]
'Verif.Llh.C19_fixed_weights_any_bins' depends on axioms: [propext, Classical.choice, Quot.sound]
'Verif.Llh.C19_no_efficiency_fails' depends on axioms: [propext, Classical.choice, Quot.sound]
'Verif.Comp.C20_concatenation_in_order' depends on axioms: [propext, Classical.choice, Quot.sound]
'Verif.Comp.C20_errors' depends on axioms: [propext, Quot.sound]
'Verif.Comp.C20_succeeds' depends on axioms: [propext, Quot.sound]
'Verif.Conf.C21_precedence' depends on axioms: [propext, Classical.choice, Quot.sound]
'Verif.Conf.C21_resolution_is_stable' depends on axioms: [propext, Classical.choice, Quot.sound]
'Verif.Conf.C21_first_default_wins' depends on axioms: [propext, Classical.choice, Quot.sound]
'Verif.Conf.C22_stores_what_was_given' depends on axioms: [propext, Classical.choice, Quot.sound]
'Verif.Conf.C22_failure_keeps_earlier_entries' depends on axioms: [propext, Classical.choice, Quot.sound]
'Verif.Conf.C22_other_entries_dropped' depends on axioms: [propext, Classical.choice, Quot.sound]
'Verif.Conf.C23_unused_exact' depends on axioms: [propext, Quot.sound]
'Verif.Conf.C23_resolved_not_reported' depends on axioms: [propext, Classical.choice, Quot.sound]
'Verif.Conf.C24_anchor_values' depends on axioms: [propext, Classical.choice, Quot.sound]
'Verif.Conf.C24_monotone' depends on axioms: [propext, Classical.choice, Quot.sound]
'Verif.Conf.C25_applied_parameter_is_declared' depends on axioms: [propext, Classical.choice, Quot.sound]
'Verif.Conf.C25_declared_parameter' depends on axioms: [propext, Quot.sound]
'Verif.Conf.C25_set_config_changes_parameter' depends on axioms: [propext, Classical.choice, Quot.sound]
'Verif.Conf.C26_other_likelihoods_unchanged' depends on axioms: [propext, Classical.choice, Quot.sound]
'Verif.Conf.C26_built_files_are_configured_partial' depends on axioms: [propext, Classical.choice, Quot.sound]
'Verif.Conf.C26_conflicting_files_raise' depends on axioms: [propext, Classical.choice, Quot.sound]
'Verif.Conf.C26_forms_partial' depends on axioms: [propext, Classical.choice, Quot.sound]
'Verif.Conf.C26_bad_values' depends on axioms: [propext, Classical.choice, Quot.sound]
'Verif.Conf.C26_unnamed_build_pins_files' depends on axioms: [propext, Classical.choice, Quot.sound]
'Verif.Conf.C27_instances_keep_values' depends on axioms: [propext, Classical.choice, Quot.sound]
'Verif.Conf.C27_instance_values_resolved' depends on axioms: [propext, Classical.choice, Quot.sound]
'Verif.Conf.C27_lineage_describes_last_build' depends on axioms: [propext, Classical.choice, Quot.sound]
'Verif.Interp.C28_idw_is_linear_interpolation' depends on axioms: [propext, Classical.choice, Quot.sound]
'Verif.Interp.C28_lerp_is_linear_interpolation' depends on axioms: [propext, Classical.choice, Quot.sound]
'Verif.Interp.C28_idw_equals_lerp' depends on axioms: [propext, Classical.choice, Quot.sound]
'Verif.Interp.C28_exact_at_reference' depends on axioms: [propext, Classical.choice, Quot.sound]
'Verif.Interp.C28_between_neighbours' depends on axioms: [propext, Classical.choice, Quot.sound]
'Verif.Interp.C28_repeated_position_differs' depends on axioms: [propext, Classical.choice, Quot.sound]
'Verif.Interp.C28_idw_and_lerp_point_maps' depends on axioms: [propext, Classical.choice, Quot.sound]
'Verif.Interp.C29_point_map' depends on axioms: [propext, Classical.choice, Quot.sound]
'Verif.Interp.C29_fewer_values' depends on axioms: [propext, Classical.choice, Quot.sound]
'Verif.Interp.C29_grid_2d' depends on axioms: [propext, Classical.choice, Quot.sound]
'Verif.Interp.C29_grid_3d' depends on axioms: [propext, Classical.choice, Quot.sound]
'Verif.Interp.C29_nn_point_map' depends on axioms: [propext, Classical.choice, Quot.sound]
'Verif.Interp.C30_indices_in_range' depends on axioms: [propext, Classical.choice, Quot.sound]
'Verif.Interp.C30_bilinear_bounds' depends on axioms: [propext, Classical.choice, Quot.sound]
'Verif.Interp.C30_trilinear_bounds' depends on axioms: [propext, Classical.choice, Quot.sound]
'Verif.Interp.C30_bilinear_exact_at_nodes' depends on axioms: [propext, Classical.choice, Quot.sound]
'Verif.Interp.C30_trilinear_exact_at_nodes' depends on axioms: [propext, Classical.choice, Quot.sound]
'Verif.Interp.C30_bilinear_reproduces_affine' depends on axioms: [propext, Classical.choice, Quot.sound]
'Verif.Interp.C30_trilinear_reproduces_affine' depends on axioms: [propext, Classical.choice, Quot.sound]
'Verif.Interp.C30_bilinear_clamps' depends on axioms: [propext, Classical.choice, Quot.sound]
'Verif.Interp.C30_trilinear_clamps' depends on axioms: [propext, Classical.choice, Quot.sound]
'Verif.Interp.C30_bilinear_is_iterated_linear' depends on axioms: [propext, Classical.choice, Quot.sound]
'Verif.Interp.C31_idw_2d_is_average' depends on axioms: [propext, Classical.choice, Quot.sound]
'Verif.Interp.C31_idw_3d_is_average' depends on axioms: [propext, Classical.choice, Quot.sound]
'Verif.Interp.C31_idw_2d_weights' depends on axioms: [propext, Classical.choice, Quot.sound]
'Verif.Interp.C31_idw_3d_weights' depends on axioms: [propext, Classical.choice, Quot.sound]
'Verif.Interp.C31_idw_2d_at_node' depends on axioms: [propext, Classical.choice, Quot.sound]
'Verif.Interp.C31_constant_maps' depends on axioms: [propext, Classical.choice, Quot.sound]
'Verif.Interp.C31_corners' depends on axioms: [propext, Classical.choice, Quot.sound]
'Verif.Interp.C31_cell_contains_position' depends on axioms: [propext, Classical.choice, Quot.sound]
'Verif.Interp.C31_idw_bounds' depends on axioms: [propext, Classical.choice, Quot.sound]
'Verif.Interp.C31_idw_bounds_3d' depends on axioms: [propext, Classical.choice, Quot.sound]
'Verif.Interp.C31_knn' depends on axioms: [propext, Classical.choice, Quot.sound]
'Verif.Interp.C32_point_coordinates_checked' depends on axioms: [propext, Classical.choice, Quot.sound]
'Verif.Interp.C32_unknown_method_raises' depends on axioms: [propext, Classical.choice, Quot.sound]
'Verif.Interp.C32_regbin_edges_checked' depends on axioms: [propext, Classical.choice, Quot.sound]
'Verif.Interp.C32_logarithm_of_positive' depends on axioms: [propext, Classical.choice, Quot.sound]
'Verif.Interp.C32_stored_value_partial' depends on axioms: [propext, Classical.choice, Quot.sound]
'Verif.Interp.C32_log_point_returns_logarithm' depends on axioms: [propext, Classical.choice, Quot.sound]
'Verif.Interp.C32_log_point_does_not_return_stored_value' depends on axioms: [propext, Classical.choice, Quot.sound]
'Verif.Interp.C33_cdf' depends on axioms: [propext, Classical.choice, Quot.sound]
'Verif.Interp.C33_exact_for_affine' depends on axioms: [propext, Classical.choice, Quot.sound]
'Verif.Llh.C34_data_selected_1d' depends on axioms: [propext, Classical.choice, Quot.sound]
'Verif.Llh.C34_data_selected_2d' depends on axioms: [propext, Classical.choice, Quot.sound]
'Verif.Llh.C34_every_kept_event_counted' depends on axioms: [propext, Classical.choice, Quot.sound]
'Verif.Llh.C34_bin_contents' depends on axioms: [propext, Classical.choice, Quot.sound]
'Verif.Llh.C34_meshgrid_int_1d' depends on axioms: [propext, Classical.choice, Quot.sound]
'Verif.Llh.C34_meshgrid_int_2d' depends on axioms: [propext, Classical.choice, Quot.sound]
'Verif.Llh.C34_equiprob_1d' depends on axioms: [propext, Classical.choice, Quot.sound]
'Verif.Llh.C34_equiprob_2d' depends on axioms: [propext, Classical.choice, Quot.sound]
'Verif.Llh.C34_narrow_edges_drop_events' depends on axioms: [propext, Classical.choice, Quot.sound]
'Verif.Llh.C34_errors' depends on axioms: [propext, Classical.choice, Quot.sound]
'Verif.Llh.C34_irregular_2d' depends on axioms: [propext, Classical.choice, Quot.sound]
'Verif.Llh.C35_duplicate_raises' depends on axioms: [propext, Quot.sound]
'Verif.Llh.C35_atomic' depends on axioms: [propext, Quot.sound]
'Verif.Llh.C35_build_error' depends on axioms: [propext, Quot.sound]
'Verif.Llh.C35_components_after' depends on axioms: [propext, Classical.choice, Quot.sound]
'Verif.Llh.C35_needed_parameters' depends on axioms: [propext, Quot.sound]
'Verif.Llh.C35_declared_parameters' depends on axioms: [propext, Quot.sound]
'Verif.Llh.C35_self_alias_loses_parameter' depends on axioms: [propext, Classical.choice, Quot.sound]
'Verif.Llh.C36_aliases_supply_parameters' depends on axioms: [propext, Quot.sound]
'Verif.Llh.C36_replacement_twice' depends on axioms: [propext, Quot.sound]
'Verif.Llh.C36_alias_names_removed' depends on axioms: [propext, Quot.sound]
'Verif.Llh.C36_other_parameters_kept' depends on axioms: [propext, Quot.sound]
'Verif.Llh.C36_chained_aliases_go_wrong' does not depend on any axioms
'Verif.Llh.C36_alias_name_as_parameter_is_lost' depends on axioms: [propext, Classical.choice, Quot.sound]
'Verif.Llh.C37_model_hist' depends on axioms: [propext, Classical.choice, Quot.sound]
'Verif.Llh.C37_total' depends on axioms: [propext, Classical.choice, Quot.sound]
'Verif.Llh.C37_runs_unique' does not depend on any axioms
'Verif.Llh.C37_other_component_raises' depends on axioms: [propext, Quot.sound]
'Verif.Llh.C37_weighted_data' depends on axioms: [propext, Quot.sound]
'Verif.Llh.C37_total_is_sum_of_rates' depends on axioms: [propext, Classical.choice, Quot.sound]
'Verif.Llh.C38_value' depends on axioms: [propext, Classical.choice, Quot.sound]
'Verif.Llh.C38_minus_infinity' depends on axioms: [propext, Classical.choice, Quot.sound]
'Verif.Llh.C38_never_nan' depends on axioms: [propext, Classical.choice, Quot.sound]
'Verif.Llh.C38_log_likelihood' depends on axioms: [propext, Classical.choice, Quot.sound]
'Verif.Llh.C38_is_poisson' depends on axioms: [propext, Classical.choice, Quot.sound]
'Verif.Llh.C38_maximal_at_data' depends on axioms: [propext, Classical.choice, Quot.sound]
'Verif.Llh.C38_fixed_shape_maximal_at_total' depends on axioms: [propext, Classical.choice, Quot.sound]
'Verif.Llh.C39_one_component' depends on axioms: [propext, Classical.choice, Quot.sound]
'Verif.Llh.C39_two_half_logpdf' depends on axioms: [propext, Classical.choice, Quot.sound]
'Verif.Llh.C39_norm_logpdf' depends on axioms: [propext, Classical.choice, Quot.sound]
'Verif.Llh.C39_finite_or_minus_infinity' depends on axioms: [propext, Classical.choice, Quot.sound]
'Verif.Llh.C39_outside_band' depends on axioms: [propext, Classical.choice, Quot.sound]
'Verif.Llh.C39_one_event_simulated' depends on axioms: [propext, Classical.choice, Quot.sound]
'Verif.Llh.C39_values_twohalfnorm' depends on axioms: [propext, Classical.choice, Quot.sound]
'Verif.Llh.C39_values_norm' depends on axioms: [propext, Classical.choice, Quot.sound]
'Verif.Llh.C39_values_band' depends on axioms: [propext, Classical.choice, Quot.sound]
'Verif.Llh.C39_value' depends on axioms: [propext, Classical.choice, Quot.sound]
'Verif.Llh.C39_no_component_raises' depends on axioms: [propext, Classical.choice, Quot.sound]
'Verif.Llh.C39_negative_efficiency_gives_plus_infinity' depends on axioms: [propext, Classical.choice, Quot.sound]
'Verif.Ctx.C40_stores_parameters' depends on axioms: [propext, Classical.choice, Quot.sound]
'Verif.Ctx.C40_invalid_prior' depends on axioms: [propext, Classical.choice, Quot.sound]
'Verif.Ctx.C40_value' depends on axioms: [propext, Classical.choice, Quot.sound]
'Verif.Ctx.C40_minus_infinity' depends on axioms: [propext, Classical.choice, Quot.sound]
'Verif.Ctx.C40_returns_iff' depends on axioms: [propext, Classical.choice, Quot.sound]
'Verif.Ctx.C40_never_nan' depends on axioms: [propext, Classical.choice, Quot.sound]
'Verif.Ctx.C40_no_memory' depends on axioms: [propext, Classical.choice, Quot.sound]
'Verif.Ctx.C41_copied' depends on axioms: [propext, Classical.choice, Quot.sound]
'Verif.Ctx.C41_others_unchanged' depends on axioms: [propext, Classical.choice, Quot.sound]
'Verif.Ctx.C41_sources_dropped' depends on axioms: [propext, Classical.choice, Quot.sound]
'Verif.Ctx.C41_missing_entry_raises' depends on axioms: [propext, Quot.sound]
'Verif.Ctx.C41_copy_of_copy_is_lost' depends on axioms: [propext, Classical.choice, Quot.sound]
'Verif.Ctx.C42_check_partial' depends on axioms: [propext, Classical.choice, Quot.sound]
'Verif.Ctx.C42_needed_parameters' depends on axioms: [propext, Classical.choice, Quot.sound]
'Verif.Ctx.C42_all_parts_built' depends on axioms: [propext, Classical.choice, Quot.sound]
'Verif.Ctx.C42_register_likelihood' depends on axioms: [propext, Classical.choice, Quot.sound]
'Verif.Ctx.C42_missing_parameter_passes' depends on axioms: [propext, Classical.choice, Quot.sound]
'Verif.Fit.C43_uncached_query_partial' depends on axioms: [propext, Classical.choice, Quot.sound]
'Verif.Fit.C43_random_query_partial' depends on axioms: [propext, Classical.choice, Quot.sound]
'Verif.Fit.C43_errors' depends on axioms: [propext, Classical.choice, Quot.sound]
'Verif.Fit.C43_first_fit_partial' depends on axioms: [propext, Classical.choice, Quot.sound]
'Verif.Fit.C43_stale_after_query' depends on axioms: [propext, Classical.choice, Quot.sound]
'Verif.Fit.C43_continue_from' depends on axioms: [propext, Classical.choice, Quot.sound]
'Verif.Fit.C43_continuation_keeps_old_estimate' depends on axioms: [propext, Classical.choice, Quot.sound]
'Verif.Json.C44_plain_reads_back_partial' depends on axioms: [propext, Classical.choice, Quot.sound]
'Verif.Json.C44_constant_raises' depends on axioms: [propext, Classical.choice, Quot.sound]
'Verif.Json.C44_outcomes' depends on axioms: [propext, Classical.choice, Quot.sound]
'Verif.Json.C44_astral_character_changes' depends on axioms: [propext, Classical.choice, Quot.sound]
'Verif.Json.C44_tuple_becomes_list' depends on axioms: [propext, Classical.choice, Quot.sound]
'Verif.Json.C44_integer_key_becomes_string' depends on axioms: [propext, Classical.choice, Quot.sound]
'Verif.Json.C44_refused' depends on axioms: [propext, Classical.choice, Quot.sound]
'Verif.Json.C44_order' depends on axioms: [propext, Classical.choice, Quot.sound]
'Verif.Ctx.C45_start_positions' depends on axioms: [propext, Classical.choice, Quot.sound]
'Verif.Ctx.C45_completes' depends on axioms: [propext, Classical.choice, Quot.sound]
'Verif.Randgen.C46_large_count' depends on axioms: [propext, Classical.choice, Quot.sound]
'Verif.Randgen.C46_large_count_symmetric' depends on axioms: [propext, Classical.choice, Quot.sound]
'Verif.Randgen.C46_range' depends on axioms: [propext, Classical.choice, Quot.sound]
'Verif.Randgen.C46_limits' depends on axioms: [propext, Classical.choice, Quot.sound]
'Verif.Randgen.C46_small_count' depends on axioms: [propext, Classical.choice, Quot.sound]
'Verif.Randgen.C46_distribution' depends on axioms: [propext, Classical.choice, Quot.sound]
'Verif.Randgen.C46_fallback_range' depends on axioms: [propext, Classical.choice, Quot.sound]
'Verif.Randgen.C46_fallback_choice' depends on axioms: [propext, Classical.choice, Quot.sound]
'Verif.Randgen.C47_program_partial' depends on axioms: [propext, Classical.choice, Quot.sound]
'Verif.Randgen.C47_used_keys_complete' depends on axioms: [propext, Classical.choice, Quot.sound]
'Verif.Randgen.C47_twohalfnorm_reuses' depends on axioms: [propext, Classical.choice, Quot.sound]
'Verif.Randgen.C48_density' depends on axioms: [propext, Classical.choice, Quot.sound]
'Verif.Randgen.C48_density_error' depends on axioms: [propext, Classical.choice, Quot.sound]
'Verif.Randgen.C48_density_of_priors' depends on axioms: [propext, Classical.choice, Quot.sound]
'Verif.Randgen.C48_rvs_law_partial' depends on axioms: [propext, Classical.choice, Quot.sound]
'Verif.Randgen.C48_vectorised_gap' depends on axioms: [propext, Classical.choice, Quot.sound]
'Verif.Randgen.C49_truncated' depends on axioms: [propext, Classical.choice, Quot.sound]
'Verif.Randgen.C49_truncated_inside' depends on axioms: [propext, Classical.choice, Quot.sound]
'Verif.Randgen.C49_generalized' depends on axioms: [propext, Classical.choice, Quot.sound]
'Verif.Randgen.C49_generalized_elementwise' depends on axioms: [propext, Classical.choice, Quot.sound]
'Verif.Randgen.C49_generalized_ends' depends on axioms: [propext, Classical.choice, Quot.sound]
'Verif.Plugins.C50_er' depends on axioms: [propext, Classical.choice, Quot.sound]
'Verif.Plugins.C50_nr' depends on axioms: [propext, Classical.choice, Quot.sound]
'Verif.Plugins.C50_nest_er' depends on axioms: [propext, Classical.choice, Quot.sound]
'Verif.Plugins.C50_sampler' depends on axioms: [propext, Classical.choice, Quot.sound]
'Verif.Plugins.C50_yields' depends on axioms: [propext, Classical.choice, Quot.sound]
'Verif.Plugins.C51_efficiency' depends on axioms: [propext, Classical.choice, Quot.sound]
'Verif.Plugins.C51_nan' depends on axioms: [propext, Classical.choice, Quot.sound]
'Verif.Plugins.C51_threshold' depends on axioms: [propext, Classical.choice, Quot.sound]
'Verif.Plugins.C51_clip' depends on axioms: [propext, Classical.choice, Quot.sound]
'Verif.Plugins.C51_band' depends on axioms: [propext, Classical.choice, Quot.sound]
'Verif.Plugins.C52_er_drawn_recombination' depends on axioms: [propext, Classical.choice, Quot.sound]
'Verif.Plugins.C52_nr_quanta' depends on axioms: [propext, Classical.choice, Quot.sound]
'Verif.Plugins.C52_nr_box' depends on axioms: [propext, Classical.choice, Quot.sound]
'Verif.Plugins.C52_nr_fluctuation' depends on axioms: [propext, Classical.choice, Quot.sound]
'Verif.Plugins.C52_er_quanta' depends on axioms: [propext, Classical.choice, Quot.sound]
'Verif.Plugins.C52_quanta' depends on axioms: [propext, Classical.choice, Quot.sound]
'Verif.Plugins.C52_ions' depends on axioms: [propext, Classical.choice, Quot.sound]
'Verif.Plugins.C52_recombination' depends on axioms: [propext, Classical.choice, Quot.sound]
'Verif.Plugins.C52_ion_fraction' depends on axioms: [propext, Classical.choice, Quot.sound]
'Verif.Plugins.C52_negative_excitons' depends on axioms: [propext, Classical.choice, Quot.sound]
'Verif.Plugins.C52_yields' depends on axioms: [propext, Classical.choice, Quot.sound]
'Verif.Plugins.C52_nr_rolloff' depends on axioms: [propext, Classical.choice, Quot.sound]
'Verif.Plugins.C52_validity' depends on axioms: [propext, Classical.choice, Quot.sound]
'Verif.Plugins.C52_variance' depends on axioms: [propext, Classical.choice, Quot.sound]
'Verif.Plugins.C52_er_yields' depends on axioms: [propext, Classical.choice, Quot.sound]
'Verif.Plugins.C52_density_cancels' depends on axioms: [propext, Classical.choice, Quot.sound]
'Verif.Plugins.C52_er_ratio' depends on axioms: [propext, Classical.choice, Quot.sound]
'Verif.Plugins.C52_er_recombination' depends on axioms: [propext, Classical.choice, Quot.sound]
'Verif.Plugins.C52_fano' depends on axioms: [propext, Classical.choice, Quot.sound]
'Verif.Plugins.C52_fano_at_zero' depends on axioms: [propext, Classical.choice, Quot.sound]
'Verif.Plugins.C52_mean_recombination' depends on axioms: [propext, Classical.choice, Quot.sound]
'Verif.Plugins.C52_box' depends on axioms: [propext, Classical.choice, Quot.sound]
'Verif.Plugins.C53_s1' depends on axioms: [propext, Classical.choice, Quot.sound]
'Verif.Plugins.C53_detection_probability' depends on axioms: [propext, Classical.choice, Quot.sound]
'Verif.Plugins.C53_s2' depends on axioms: [propext, Classical.choice, Quot.sound]
'Verif.Plugins.C53_survival' depends on axioms: [propext, Classical.choice, Quot.sound]
'Verif.Conf.C54_first_candidate' depends on axioms: [propext, Classical.choice, Quot.sound]
'Verif.Conf.C54_idempotent' depends on axioms: [propext, Classical.choice, Quot.sound]
'Verif.Conf.C54_url_base_must_be_string' depends on axioms: [propext, Classical.choice, Quot.sound]
'Verif.Utils.C55_two_decimals_partial' depends on axioms: [propext, Classical.choice, Quot.sound]
'Verif.Utils.C55_ten_times_too_large' depends on axioms: [propext, Classical.choice, Quot.sound]
'Verif.Utils.C55_whole_memory' depends on axioms: [propext, Classical.choice, Quot.sound]
'Verif.Utils.C55_correct_iff' depends on axioms: [propext, Classical.choice, Quot.sound]
'Verif.Utils.C55_out_of_range' depends on axioms: [propext, Classical.choice, Quot.sound]
'Verif.Utils.C56_never_overwrites_partial' depends on axioms: [propext, Classical.choice, Quot.sound]
'Verif.Utils.C56_dotted_module_overwrites' depends on axioms: [propext, Classical.choice, Quot.sound]
'Verif.Utils.C56_dotted_module_always_overwrites' depends on axioms: [propext, Classical.choice, Quot.sound]
'Verif.Utils.C56_success_registers_all' depends on axioms: [propext, Classical.choice, Quot.sound]
'Verif.Utils.C56_only_extension_names' depends on axioms: [propext, Classical.choice, Quot.sound]
'Verif.Utils.C56_clash_refused' depends on axioms: [propext, Classical.choice, Quot.sound]
'Verif.Utils.C56_alias_refused' depends on axioms: [propext, Classical.choice, Quot.sound]
'Verif.Utils.C57_checksum_of_whole_content' depends on axioms: [propext, Classical.choice, Quot.sound]
'Verif.Utils.C57_blocks' depends on axioms: [propext, Classical.choice, Quot.sound]
'Verif.Plot.C58_linear' depends on axioms: [propext, Classical.choice, Quot.sound]
'Verif.Plot.C58_log' depends on axioms: [propext, Classical.choice, Quot.sound]
'Verif.Plot.C58_log_bars_shifted' depends on axioms: [propext, Classical.choice, Quot.sound]
'Verif.Plot.C58_zero_bins' depends on axioms: [propext, Classical.choice, Quot.sound]
'Verif.Plot.C58_selection' depends on axioms: [propext, Classical.choice, Quot.sound]
'Verif.Plot.C58_collapse' depends on axioms: [propext, Classical.choice, Quot.sound]
'Verif.Plot.C59_window_in_use' depends on axioms: [propext, Classical.choice, Quot.sound]
'Verif.Plot.C59_next_pow_two' depends on axioms: [propext, Classical.choice, Quot.sound]
'Verif.Plot.C59_window_partial' depends on axioms: [propext, Classical.choice, Quot.sound]
'Verif.Plot.C59_no_window_found' depends on axioms: [propext]
'Verif.Plot.C59_window_negation' depends on axioms: [propext]
'Verif.Plot.C59_chain_aligned' depends on axioms: [propext, Classical.choice, Quot.sound]
'Verif.Plot.C59_thinning' depends on axioms: [propext, Quot.sound]
'Verif.Plot.C59_best_fit_outside_chain' depends on axioms: [propext, Classical.choice, Quot.sound]
'Verif.Comp.C60_profiling_runs_data_flow_partial' depends on axioms: [propext, Classical.choice, Quot.sound]
'Verif.Comp.C60_single_run_is_simulation_partial' depends on axioms: [propext, Classical.choice, Quot.sound]
'Verif.Comp.C60_deterministic_same_data_partial' depends on axioms: [propext, Classical.choice, Quot.sound]
'Verif.Comp.C60_first_output_overridden' depends on axioms: [propext]
'Verif.Comp.C60_other_input_name' depends on axioms: [propext]
'Verif.Comp.C60_missing_value' depends on axioms: [propext, Quot.sound]
'Verif.Comp.C60_no_runs' depends on axioms: [propext, Quot.sound]
'Verif.Comp.C60_context_reports_each_component' depends on axioms: [propext, Classical.choice, Quot.sound]
'Verif.Comp.C60_context_key_collision' depends on axioms: [propext]
'Verif.Fit.C61_fit_writes' depends on axioms: [propext, Classical.choice, Quot.sound]
'Verif.Fit.C61_continuation_writes' depends on axioms: [propext, Classical.choice, Quot.sound]
'Verif.Fit.C61_attributes_in_order' depends on axioms: [propext, Classical.choice, Quot.sound]
'Verif.Fit.C61_crashed_fit_partial' depends on axioms: [propext, Classical.choice, Quot.sound]
'Verif.Fit.C61_history_of_fits_partial' depends on axioms: [propext, Classical.choice, Quot.sound]
'Verif.Fit.C61_crashed_continuation_partial' depends on axioms: [propext, Classical.choice, Quot.sound]
'Verif.Fit.C61_continuation_half_read' depends on axioms: [propext, Classical.choice, Quot.sound]
'Verif.Shipped.C62_registration' depends on axioms: [propext]
'Verif.Shipped.C62_any_request' depends on axioms: [propext, Quot.sound]
'Verif.Shipped.C62_unknown_request' depends on axioms: [propext, Quot.sound]
'Verif.Interp.C63_node_overflow' depends on axioms: [propext, Classical.choice, Quot.sound]
'Verif.Interp.C63_infinite_at_nodes' depends on axioms: [propext, Classical.choice, Quot.sound]
'Verif.Interp.C63_small_entries_partial' depends on axioms: [propext, Classical.choice, Quot.sound]
'Verif.Interp.C64_quantiles_too_low' depends on axioms: [propext, Classical.choice, Quot.sound]
'Verif.Interp.C64_uniform_median_is_wrong' depends on axioms: [propext, Classical.choice, Quot.sound]
'Verif.MapFile.C64_given_cdf_partial' depends on axioms: [propext, Classical.choice, Quot.sound]
'Verif.MapFile.C64_within_half_a_step_partial' depends on axioms: [propext, Classical.choice, Quot.sound]
'Verif.Ctx.C65_events_are_summed' depends on axioms: [propext, Classical.choice, Quot.sound]
'Verif.Ctx.C65_error' depends on axioms: [propext, Classical.choice, Quot.sound]
'Verif.Ctx.C66_restored_partial' depends on axioms: [propext, Classical.choice, Quot.sound]
'Verif.Ctx.C66_manual_configuration_is_lost' depends on axioms: [propext, Classical.choice, Quot.sound]
'Verif.Ctx.C66_missing_file_raises' depends on axioms: [propext, Classical.choice, Quot.sound]
'Verif.Randgen.C67_scalar_never_below' depends on axioms: [propext, Classical.choice, Quot.sound]
'Verif.Randgen.C67_below_partial' depends on axioms: [propext, Classical.choice, Quot.sound]
'Verif.Randgen.C68_percentiles' depends on axioms: [propext, Classical.choice, Quot.sound]
'Verif.Randgen.C68_symmetric' depends on axioms: [propext, Classical.choice, Quot.sound]
'Verif.Randgen.C68_failure' depends on axioms: [propext, Classical.choice, Quot.sound]
'Verif.Randgen.C69_law' depends on axioms: [propext, Classical.choice, Quot.sound]
'Verif.Randgen.C69_composition' depends on axioms: [propext, Classical.choice, Quot.sound]
'Verif.Randgen.C69_distribution' depends on axioms: [propext, Classical.choice, Quot.sound]
'Verif.Plugins.C70_cylinder' depends on axioms: [propext, Classical.choice, Quot.sound]
'Verif.Plugins.C70_uniform_area' depends on axioms: [propext, Classical.choice, Quot.sound]
'Verif.Plugins.C70_energy' depends on axioms: [propext, Classical.choice, Quot.sound]
'Verif.Plugins.C70_mono' depends on axioms: [propext, Classical.choice, Quot.sound]
'Verif.Plugins.C71_exceeds' depends on axioms: [propext, Classical.choice, Quot.sound]
'Verif.Plugins.C71_at_mean' depends on axioms: [propext, Classical.choice, Quot.sound]
'Verif.Plugins.C71_symmetric_partial' depends on axioms: [propext, Classical.choice, Quot.sound]
'Verif.Plugins.C71_bound_partial' depends on axioms: [propext, Classical.choice, Quot.sound]
'Verif.Plugins.C71_amplitude' depends on axioms: [propext, Classical.choice, Quot.sound]
'Verif.Plugins.C72_moments' depends on axioms: [propext, Classical.choice, Quot.sound]
'Verif.Shipped.C73_component_needs' depends on axioms: [propext, Classical.choice, Quot.sound]
'Verif.Shipped.C73_parameters_match' depends on axioms: [propext, Classical.choice, Quot.sound]
'Verif.Llh.C74_at_most_one_simulated' depends on axioms: [propext, Quot.sound]
'Verif.Llh.C74_second_refused' depends on axioms: [propext, Quot.sound]
'Verif.Llh.C74_duplicate_refused' depends on axioms: [propext, Quot.sound]
'Verif.Llh.C74_failure_keeps_likelihood' depends on axioms: [propext]
'Verif.Llh.C74_first_accepted_partial' depends on axioms: [propext, Classical.choice, Quot.sound]
'Verif.Llh.C74_components' depends on axioms: [propext, Quot.sound]
'Verif.Llh.C74_fixed_accepted' depends on axioms: [propext, Quot.sound]
'Verif.Plot.C75_collects_each_map_once' depends on axioms: [propext, Quot.sound]
'Verif.Plot.C75_one_file_per_figure_partial' depends on axioms: [propext, Classical.choice, Quot.sound]
'Verif.Plot.C75_sigma_map_keeps_upper_only' depends on axioms: [propext, Classical.choice, Quot.sound]
'Verif.Plot.C75_same_base_name_overwrites' depends on axioms: [propext, Quot.sound]
'Verif.Plot.C75_negation' depends on axioms: [propext, Classical.choice, Quot.sound]
'Verif.Plot.C76_fft_is_direct_sum' depends on axioms: [propext, Classical.choice, Quot.sound]
'Verif.Plot.C76_normalised' depends on axioms: [propext, Classical.choice, Quot.sound]
'Verif.Plot.C76_constant_chain' depends on axioms: [propext, Classical.choice, Quot.sound]
'Verif.Plot.C76_reported_time' depends on axioms: [propext, Classical.choice, Quot.sound]
'Verif.Plot.C77_accepted_iff_moved' depends on axioms: [propext, Classical.choice, Quot.sound]
'Verif.Plot.C77_cumulative' depends on axioms: [propext, Classical.choice, Quot.sound]
'Verif.Plot.C77_curves_are_fractions' depends on axioms: [propext, Classical.choice, Quot.sound]
'Verif.Plot.C77_moving_average' depends on axioms: [propext, Classical.choice, Quot.sound]
'Verif.Plot.C77_long_window' depends on axioms: [propext, Classical.choice, Quot.sound]
'Verif.Plot.C77_walker_panel' depends on axioms: [propext, Classical.choice, Quot.sound]
'Verif.Plot.C77_walker_panel_negation' depends on axioms: [propext, Classical.choice, Quot.sound]
'Verif.Plot.C77_thinning_inflates' depends on axioms: [propext, Classical.choice, Quot.sound]
'Verif.Randgen.C78_ends_almost_surely' depends on axioms: [propext, Classical.choice, Quot.sound]
'Verif.Randgen.C78_law' depends on axioms: [propext, Classical.choice, Quot.sound]
'Verif.Randgen.C78_mean' depends on axioms: [propext, Classical.choice, Quot.sound]
'Verif.Randgen.C78_distribution_total' depends on axioms: [propext, Classical.choice, Quot.sound]
'Verif.Llh.C79_bins' depends on axioms: [propext, Classical.choice, Quot.sound]
'Verif.Llh.C79_component_histogram' depends on axioms: [propext, Classical.choice, Quot.sound]
'Verif.Llh.C79_samples_unique' depends on axioms: [propext, Classical.choice, Quot.sound]
'Verif.Llh.C79_log_likelihood' depends on axioms: [propext, Classical.choice, Quot.sound]
'Verif.Llh.C79_posterior' depends on axioms: [propext, Classical.choice, Quot.sound]
'Verif.Llh.C80_template_unbiased' depends on axioms: [propext, Classical.choice, Quot.sound]
'Verif.Llh.C80_template_deviation' depends on axioms: [propext, Classical.choice, Quot.sound]
'Verif.Llh.C80_template_converges' depends on axioms: [propext, Classical.choice, Quot.sound]
'Verif.Llh.C80_log_likelihood_converges' depends on axioms: [propext, Classical.choice, Quot.sound]
'Verif.Llh.C80_log_likelihood_low' depends on axioms: [propext, Classical.choice, Quot.sound]
'Verif.Lineage.C81_hash_ignores_set_order' depends on axioms: [propext, Classical.choice, Quot.sound]
'Verif.Lineage.C81_component_identified_partial' depends on axioms: [propext, Classical.choice, Quot.sound]
'Verif.Lineage.C81_likelihood_identified_partial' depends on axioms: [propext, Classical.choice, Quot.sound]
'Verif.Lineage.C81_context_identified_partial' depends on axioms: [propext, Classical.choice, Quot.sound]
'Verif.Lineage.C81_floor_missing' depends on axioms: [propext, Classical.choice, Quot.sound]
'Verif.Lineage.C81_scaler_missing' depends on axioms: [propext, Classical.choice, Quot.sound]
'Verif.Lineage.C81_files_read_again' depends on axioms: [propext]
'Verif.Lineage.C81_dump' depends on axioms: [propext, Classical.choice, Quot.sound]
'Verif.Lineage.C81_errors' depends on axioms: [propext, Classical.choice, Quot.sound]
'Verif.Lineage.C81_literature_dump' depends on axioms: [propext, Classical.choice, Quot.sound]
'Verif.Lineage.C81_order' depends on axioms: [propext, Classical.choice, Quot.sound]
'Verif.Declare.C82_declared' depends on axioms: [propext, Quot.sound]
'Verif.Declare.C82_refused' depends on axioms: [propext, Quot.sound]
'Verif.Declare.C82_repeated_name' depends on axioms: [propext, Quot.sound]
'Verif.Declare.C82_instance' depends on axioms: [propext, Classical.choice, Quot.sound]
'Verif.Declare.C82_build_error' depends on axioms: [propext]
'Verif.Declare.C82_class_attributes' depends on axioms: [propext, Classical.choice, Quot.sound]
'Verif.Declare.C82_inputs_by_name' depends on axioms: [propext, Classical.choice, Quot.sound]
'Verif.Declare.C82_mismatch_refused' depends on axioms: [propext, Classical.choice, Quot.sound]
'Verif.Declare.C82_shadowed' depends on axioms: [propext, Classical.choice, Quot.sound]
'Verif.Declare.C82_set_partial' depends on axioms: [propext, Classical.choice, Quot.sound]
'Verif.Declare.C82_set_refused' depends on axioms: [propext, Classical.choice, Quot.sound]
'Verif.Declare.C82_set_tolerance' depends on axioms: [propext, Classical.choice, Quot.sound]
'Verif.Declare.C82_shipped' depends on axioms: [propext, Classical.choice, Quot.sound]
'Verif.Declare.C82_shipped_parameters_suffice' depends on axioms: [propext, Classical.choice, Quot.sound]
'Verif.Recompile.C83_same_as_without_compiling_partial' depends on axioms: [propext, Classical.choice, Quot.sound]
'Verif.Recompile.C83_rounds_partial' depends on axioms: [propext, Classical.choice, Quot.sound]
'Verif.Recompile.C83_other_likelihoods' depends on axioms: [propext, Quot.sound]
'Verif.Recompile.C83_option_missing' depends on axioms: [propext, Classical.choice, Quot.sound]
'Verif.Recompile.C83_errors' depends on axioms: [propext, Classical.choice, Quot.sound]
'Verif.Recompile.C83_text_is_cut' depends on axioms: [propext, Classical.choice, Quot.sound]
'Verif.Recompile.C83_seeds_collide' depends on axioms: [propext, Classical.choice, Quot.sound]
'Verif.Show.C84_rows' depends on axioms: [propext, Quot.sound]
'Verif.Show.C84_current_used' depends on axioms: [propext, Classical.choice, Quot.sound]
'Verif.Show.C84_after_use' depends on axioms: [propext, Classical.choice, Quot.sound]
'Verif.Show.C84_errors' depends on axioms: [propext, Classical.choice, Quot.sound]
'Verif.Show.C84_shared_option_twice' depends on axioms: [propext, Quot.sound]
'Verif.Show.C85_copy' depends on axioms: [propext]
'Verif.Show.C85_copy_succeeds' depends on axioms: [propext, Quot.sound]
'Verif.Show.C85_copy_simulates_partial' depends on axioms: [propext, Quot.sound]
'Verif.Show.C85_rate_lost' depends on axioms: [propext, Quot.sound]
'Verif.Show.C85_name_taken' depends on axioms: [propext, Quot.sound]
'Verif.Show.C85_later_plugins_lost' depends on axioms: [propext]
'Verif.Show.C85_shipped' depends on axioms: [propext, Quot.sound]
'Verif.Graph.C86_data_graph' depends on axioms: [propext, Classical.choice, Quot.sound]
'Verif.Graph.C86_drawable' depends on axioms: [propext, Classical.choice, Quot.sound]
'Verif.Graph.C86_plugin_graph' depends on axioms: [propext, Classical.choice, Quot.sound]
'Verif.Graph.C86_labels_partial' depends on axioms: [propext, Classical.choice, Quot.sound]
'Verif.Graph.C86_not_drawn' depends on axioms: [propext, Classical.choice, Quot.sound]
'Verif.Graph.C86_plugins_not_drawn' depends on axioms: [propext, Classical.choice, Quot.sound]
'Verif.Graph.C86_labels_lost' depends on axioms: [propext]
'Verif.Graph.C86_same_name' depends on axioms: [propext]
'Verif.Llh.C87_template_partial' depends on axioms: [propext, Classical.choice, Quot.sound]
'Verif.Llh.C87_errors' depends on axioms: [propext, Classical.choice, Quot.sound]
'Verif.Llh.C87_alias_missing' depends on axioms: [propext, Classical.choice, Quot.sound]
'Verif.Llh.C87_alias_wrong' depends on axioms: [propext, Classical.choice, Quot.sound]
'Verif.Plot.C88_drawn' depends on axioms: [propext, Classical.choice, Quot.sound]
'Verif.Plot.C88_shape_partial' depends on axioms: [propext, Classical.choice, Quot.sound]
'Verif.Plot.C88_too_low' depends on axioms: [propext, Classical.choice, Quot.sound]
'Verif.Plot.C88_outside' depends on axioms: [propext, Classical.choice, Quot.sound]
'Verif.Plot.C88_uniform' depends on axioms: [propext, Classical.choice, Quot.sound]
'Verif.Plot.C88_density_exists' depends on axioms: [propext, Classical.choice, Quot.sound]
'Verif.Plot.C88_unknown' depends on axioms: [propext, Classical.choice, Quot.sound]
'Verif.Plot.C88_other' depends on axioms: [propext, Classical.choice, Quot.sound]
'Verif.Plot.C89_lines' depends on axioms: [propext, Classical.choice, Quot.sound]
'Verif.Plot.C89_labels_partial' depends on axioms: [propext, Classical.choice, Quot.sound]
'Verif.Plot.C89_no_iteration_left' depends on axioms: [propext, Classical.choice, Quot.sound]
'Verif.Plot.C89_posterior_limits' depends on axioms: [propext, Classical.choice, Quot.sound]
'Verif.Plot.C89_shifted' depends on axioms: [propext, Classical.choice, Quot.sound]
'Verif.HistPlot.C90_picture_partial' depends on axioms: [propext, Classical.choice, Quot.sound]
'Verif.HistPlot.C90_colours_ordered' depends on axioms: [propext, Classical.choice, Quot.sound]
'Verif.HistPlot.C90_events' depends on axioms: [propext, Classical.choice, Quot.sound]
'Verif.HistPlot.C90_given_limits' depends on axioms: [propext, Classical.choice, Quot.sound]
'Verif.HistPlot.C90_other_shape' depends on axioms: [propext, Classical.choice, Quot.sound]
'Verif.HistPlot.C90_empty' depends on axioms: [propext, Classical.choice, Quot.sound]
'Verif.HistPlot.C90_nan_blanks_all' depends on axioms: [propext, Classical.choice, Quot.sound]
'Verif.HistPlot.C90_infinite_flattens' depends on axioms: [propext, Classical.choice, Quot.sound]
'Verif.Single.C91_counts' depends on axioms: [propext, Classical.choice, Quot.sound]
'Verif.Single.C91_exact_partial' depends on axioms: [propext, Classical.choice, Quot.sound]
'Verif.Single.C91_events_lost' depends on axioms: [propext, Classical.choice, Quot.sound]
'Verif.Single.C91_fraction_vanishes' depends on axioms: [propext, Classical.choice, Quot.sound]
'Verif.Single.C91_weights' depends on axioms: [propext, Classical.choice, Quot.sound]
'Verif.Single.C91_order_matters' depends on axioms: [propext, Classical.choice, Quot.sound]
'Verif.MapFile.C92_point_accepted' depends on axioms: [propext, Classical.choice, Quot.sound]
'Verif.MapFile.C92_regbin_accepted' depends on axioms: [propext, Classical.choice, Quot.sound]
'Verif.MapFile.C92_other_types' depends on axioms: [propext, Classical.choice, Quot.sound]
'Verif.MapFile.C92_missing_entries' depends on axioms: [propext, Classical.choice, Quot.sound]
'Verif.MapFile.C92_pdf_file' depends on axioms: [propext, Classical.choice, Quot.sound]
'Verif.MapFile.C92_name_in_list_not_converted' depends on axioms: [propext, Classical.choice, Quot.sound]
'Verif.MapFile.C92_one_axis_never_applies' depends on axioms: [propext, Classical.choice, Quot.sound]
'Verif.MapFile.C92_applies_partial' depends on axioms: [propext, Classical.choice, Quot.sound]
'Verif.MapFile.C92_bounds_2d' depends on axioms: [propext, Classical.choice, Quot.sound]
'Verif.MapFile.C92_bounds_3d' depends on axioms: [propext, Classical.choice, Quot.sound]
'Verif.MapFile.C92_stored_value_at_nodes' depends on axioms: [propext, Classical.choice, Quot.sound]
'Verif.MapFile.C92_stored_value_at_nodes_3d' depends on axioms: [propext, Classical.choice, Quot.sound]
'Verif.MapFile.C92_misnamed' depends on axioms: [propext, Classical.choice, Quot.sound]
'Verif.MapFile.C93_every_default_builds' depends on axioms: [propext, Classical.choice, Quot.sound]
'Verif.MapFile.C93_every_map_listed' depends on axioms: [propext, Classical.choice, Quot.sound]
'Verif.MapFile.C93_every_file_used' depends on axioms: [propext, Quot.sound]
'Verif.MapFile.C93_only_declared' depends on axioms: [propext, Classical.choice, Quot.sound]
'Verif.MapFile.C93_sigma' depends on axioms: [propext, Classical.choice, Quot.sound]
'Verif.MapFile.C93_declared' depends on axioms: [propext, Classical.choice, Quot.sound]
'Verif.MapFile.C93_efficiency' depends on axioms: [propext, Classical.choice, Quot.sound]
'Verif.MapFile.C93_threefold' depends on axioms: [propext, Classical.choice, Quot.sound]
'Verif.MapFile.C93_spectrum' depends on axioms: [propext, Classical.choice, Quot.sound]
'Verif.MapFile.C93_yields' depends on axioms: [propext, Classical.choice, Quot.sound]
'Verif.MapFile.C93_positions' depends on axioms: [propext, Classical.choice, Quot.sound]
'Verif.MapFile.C93_areas' depends on axioms: [propext, Classical.choice, Quot.sound]
'Verif.MapFile.C93_lifetime_and_resolution' depends on axioms: [propext, Classical.choice, Quot.sound]
'Verif.MapFile.C93_events_inside' depends on axioms: [propext, Classical.choice, Quot.sound]
'Verif.MapFile.C93_field_infinite_at_a_node' depends on axioms: [propext, Classical.choice, Quot.sound]
'Verif.Prof.C94_same_as_untimed' depends on axioms: [propext, Classical.choice, Quot.sound]
'Verif.Prof.C94_lines_and_readings' depends on axioms: [propext, Classical.choice, Quot.sound]
'Verif.Prof.C94_mean_and_std' depends on axioms: [propext, Classical.choice, Quot.sound]
'Verif.Prof.C94_times_add_up' depends on axioms: [propext, Classical.choice, Quot.sound]
'Verif.Prof.C94_overhead' depends on axioms: [propext, Classical.choice, Quot.sound]
'Verif.Prof.C94_parameters' depends on axioms: [propext, Classical.choice, Quot.sound]
'Verif.Prof.C94_full' depends on axioms: [propext, Classical.choice, Quot.sound]
'Verif.Prof.C94_context' depends on axioms: [propext, Classical.choice, Quot.sound]
'Verif.Prof.C94_compare' depends on axioms: [propext, Classical.choice, Quot.sound]
'Verif.Prof.C94_summary' depends on axioms: [propext, Classical.choice, Quot.sound]
'Verif.Prof.C94_summary_negative' depends on axioms: [propext, Classical.choice, Quot.sound]
'Verif.Prof.C94_not_ready' depends on axioms: [propext, Classical.choice, Quot.sound]
'Verif.Wrap.C95_binding' depends on axioms: [propext, Classical.choice, Quot.sound]
'Verif.Wrap.C95_call' depends on axioms: [propext, Classical.choice, Quot.sound]
'Verif.Wrap.C95_same_by_position_and_keyword' depends on axioms: [propext, Classical.choice, Quot.sound]
'Verif.Wrap.C95_without_parameters' depends on axioms: [propext, Classical.choice, Quot.sound]
'Verif.Names.C96_each_module_once' depends on axioms: [propext, Classical.choice, Quot.sound]
'Verif.Names.C96_package_first' depends on axioms: [propext, Classical.choice, Quot.sound]
'Verif.Names.C96_submodule' depends on axioms: [propext, Classical.choice, Quot.sound]
'Verif.Names.C96_imports' depends on axioms: [propext, Classical.choice, Quot.sound]
'Verif.Names.C96_origin' depends on axioms: [propext, Classical.choice, Quot.sound]
'Verif.Names.C96_exported_list' depends on axioms: [propext, Classical.choice, Quot.sound]
'Verif.Names.C96_star' depends on axioms: [propext, Classical.choice, Quot.sound]
'Verif.Names.C96_package' depends on axioms: [propext, Classical.choice, Quot.sound]
'Verif.Names.C96_overwritten_plugin' depends on axioms: [propext, Classical.choice, Quot.sound]
'Verif.Names.C96_use' depends on axioms: [propext, Classical.choice, Quot.sound]
'Verif.MapPic.C97_request' depends on axioms: [propext, Classical.choice, Quot.sound]
'Verif.MapPic.C97_request_depends_on_set_order' does not depend on any axioms
'Verif.MapPic.C97_last_build' depends on axioms: [propext, Classical.choice, Quot.sound]
'Verif.MapPic.C97_only_last_file_drawn' depends on axioms: [propext]
'Verif.MapPic.C97_unbuilt_map' depends on axioms: [propext, Quot.sound]
'Verif.MapPic.C97_axes' depends on axioms: [propext, Classical.choice, Quot.sound]
'Verif.MapPic.C97_bars_of_a_map_that_never_applies' depends on axioms: [propext, Classical.choice, Quot.sound]
'Verif.MapPic.C97_band' depends on axioms: [propext, Classical.choice, Quot.sound]
'Verif.MapPic.C97_lengths' depends on axioms: [propext, Classical.choice, Quot.sound]
'Verif.MapPic.C97_band_lengths' depends on axioms: [propext, Classical.choice, Quot.sound]
'Verif.MapPic.C97_band_on_bins' depends on axioms: [propext, Classical.choice, Quot.sound]
'Verif.MapPic.C97_first_letter_shown' depends on axioms: [propext, Classical.choice, Quot.sound]
'Verif.MapPic.C97_three_images' depends on axioms: [propext, Classical.choice, Quot.sound]
'Verif.MapPic.C97_axes_of_the_median' depends on axioms: [propext, Classical.choice, Quot.sound]
'Verif.MapPic.C97_line' depends on axioms: [propext, Classical.choice, Quot.sound]
'Verif.MapPic.C97_nearest_table_not_a_line' depends on axioms: [propext, Classical.choice, Quot.sound]
'Verif.MapPic.C97_log_table' depends on axioms: [propext, Classical.choice, Quot.sound]
'Verif.MapPic.C97_image' depends on axioms: [propext, Classical.choice, Quot.sound]
'Verif.MapPic.C97_image_at_nodes' depends on axioms: [propext, Classical.choice, Quot.sound]
'Verif.MapPic.C97_linear_grid_between_nodes' depends on axioms: [propext, Classical.choice, Quot.sound]
'Verif.Plugins.C98_cs1' depends on axioms: [propext, Classical.choice, Quot.sound]
'Verif.Plugins.C98_cs1_misplaced' depends on axioms: [propext, Classical.choice, Quot.sound]
'Verif.Plugins.C98_cs1_saturates' depends on axioms: [propext, Classical.choice, Quot.sound]
'Verif.Plugins.C98_cs2' depends on axioms: [propext, Classical.choice, Quot.sound]
'Verif.Plugins.C98_cs2_saturates' depends on axioms: [propext, Classical.choice, Quot.sound]
'Verif.Plugins.C98_hybrid_fair' depends on axioms: [propext, Classical.choice, Quot.sound]
'Verif.Plugins.C98_cs1_shipped' depends on axioms: [propext, Classical.choice, Quot.sound]
'Verif.Plugins.C98_cs2_ideal' depends on axioms: [propext, Classical.choice, Quot.sound]
'Verif.Plugins.C98_energy' depends on axioms: [propext, Classical.choice, Quot.sound]
'Verif.Plugins.C98_position' depends on axioms: [propext, Classical.choice, Quot.sound]
'Verif.Randgen.C99_uniform' depends on axioms: [propext, Classical.choice, Quot.sound]
'Verif.Randgen.C99_uniform_reversed' depends on axioms: [propext, Classical.choice, Quot.sound]
'Verif.Randgen.C99_normal' depends on axioms: [propext, Classical.choice, Quot.sound]
'Verif.Randgen.C99_gamma' depends on axioms: [propext, Classical.choice, Quot.sound]
'Verif.Randgen.C99_bernoulli' depends on axioms: [propext, Classical.choice, Quot.sound]
'Verif.Randgen.C99_skewnormal' depends on axioms: [propext, Classical.choice, Quot.sound]
'Verif.Randgen.C99_truncated_partial' depends on axioms: [propext, Classical.choice, Quot.sound]
'Verif.Randgen.C99_truncated_has_atoms' depends on axioms: [propext, Classical.choice, Quot.sound]
'Verif.Randgen.C99_source_exists' depends on axioms: [propext, Classical.choice, Quot.sound]
'Verif.Messages.C100_same_outcome' depends on axioms: [propext, Classical.choice, Quot.sound]
'Verif.Messages.C100_text' depends on axioms: [propext, Classical.choice, Quot.sound]
'Verif.Messages.C100_conflict_partial' depends on axioms: [propext, Classical.choice, Quot.sound]
'Verif.Messages.C100_conflict_files_exchanged' depends on axioms: [propext, Classical.choice, Quot.sound]
'Verif.Messages.C100_missing_dependency' depends on axioms: [propext, Quot.sound]
'Verif.Messages.C100_first_missing_request' depends on axioms: [propext, Quot.sound]
'Verif.Messages.C100_missing_parameters' depends on axioms: [propext, Classical.choice, Quot.sound]
'Verif.Messages.C100_not_existing_partial' depends on axioms: [propext, Classical.choice, Quot.sound]
'Verif.Messages.C100_existing_name_given_back' depends on axioms: [propext, Classical.choice, Quot.sound]
'Verif.Messages.C100_not_needed' depends on axioms: [propext, Classical.choice, Quot.sound]
'Verif.Messages.C100_argument' depends on axioms: [propext, Classical.choice, Quot.sound]
'Verif.Files.C101_format' depends on axioms: [propext, Classical.choice, Quot.sound]
'Verif.Files.C101_not_found' depends on axioms: [propext, Classical.choice, Quot.sound]
'Verif.Files.C101_lines_indented_partial' depends on axioms: [propext]
'Verif.Files.C101_string_lines_run_together' depends on axioms: [propext, Quot.sound]
'Verif.Files.C101_string_negation' does not depend on any axioms
'Verif.Files.C101_svg_partial' depends on axioms: [propext, Classical.choice, Quot.sound]
'Verif.Files.C101_svg_of_another_graph' depends on axioms: [propext, Classical.choice, Quot.sound]
'Verif.Files.C101_svg_missing' depends on axioms: [propext, Classical.choice, Quot.sound]
'Verif.Files.C101_save_code_partial' depends on axioms: [propext, Quot.sound]
'Verif.Files.C101_save_code_empties_file' depends on axioms: [propext]
'Verif.Files.C101_dump_without_fit' depends on axioms: [propext, Classical.choice, Quot.sound]
'Verif.Files.C101_dump_partial' depends on axioms: [propext, Classical.choice, Quot.sound]
'Verif.Files.C101_dump_half_written' depends on axioms: [propext, Classical.choice, Quot.sound]
'Verif.Files.C101_plots_saved' depends on axioms: [propext, Classical.choice, Quot.sound]
'Verif.Files.C101_plots_stop' depends on axioms: [propext, Classical.choice, Quot.sound]
'Verif.Files.C101_plots_refused' depends on axioms: [propext, Classical.choice, Quot.sound]
'Verif.Files.C101_plots_not_saved' depends on axioms: [propext]
'Verif.Files.C102_timed_is_the_function' depends on axioms: [propext]
'Verif.Files.C102_forms' depends on axioms: [propext]
'Verif.Files.C102_name_lost' depends on axioms: [propext]
'Verif.Files.C102_timed_simulate_refused' depends on axioms: [propext]
'Verif.Plugins.C103_electrons' depends on axioms: [propext, Classical.choice, Quot.sound]
'Verif.Plugins.C103_photons' depends on axioms: [propext, Classical.choice, Quot.sound]
'Verif.Plugins.C103_detected' depends on axioms: [propext, Classical.choice, Quot.sound]
'Verif.Plugins.C103_extracted' depends on axioms: [propext, Classical.choice, Quot.sound]
'Verif.Plugins.C103_moments' depends on axioms: [propext, Classical.choice, Quot.sound]
'Verif.Plugins.C103_photoelectrons' depends on axioms: [propext, Classical.choice, Quot.sound]
'Verif.Plugins.C103_hybrid' depends on axioms: [propext, Classical.choice, Quot.sound]
'Verif.Plugins.C103_electrons_shipped' depends on axioms: [propext, Classical.choice, Quot.sound]
'Verif.Summary.C104_components' depends on axioms: [propext, Quot.sound]
'Verif.Summary.C104_parameters' depends on axioms: [propext, Quot.sound]
'Verif.Summary.C104_entries' depends on axioms: [propext, Classical.choice, Quot.sound]
'Verif.Summary.C104_binned' depends on axioms: [propext, Classical.choice, Quot.sound]
'Verif.Summary.C104_literature' depends on axioms: [propext, Classical.choice, Quot.sound]
'Verif.Summary.C104_determines' depends on axioms: [propext, Classical.choice, Quot.sound]
'Verif.Summary.C104_context' depends on axioms: [propext, Classical.choice, Quot.sound]
'Verif.Summary.C104_failed_check' depends on axioms: [propext, Classical.choice, Quot.sound]
'Verif.Summary.C104_needed_partial' depends on axioms: [propext, Quot.sound]
'Verif.Summary.C104_alias_not_shown' depends on axioms: [propext, Classical.choice, Quot.sound]
'Verif.Summary.C104_worksheet' depends on axioms: [propext, Classical.choice, Quot.sound]
'Verif.Summary.C104_row' depends on axioms: [propext, Classical.choice, Quot.sound]
'Verif.Summary.C104_before_deduce' depends on axioms: [propext, Classical.choice, Quot.sound]
'Verif.Session.C105_frozen' depends on axioms: [propext, Classical.choice, Quot.sound]
'Verif.Session.C105_compile_reads_current' depends on axioms: [propext, Classical.choice, Quot.sound]
'Verif.Session.C105_set_then_compile' depends on axioms: [propext, Classical.choice, Quot.sound]
'Verif.Session.C105_sigma_stuck' depends on axioms: [propext, Classical.choice, Quot.sound]
'Verif.Session.C105_deduce_again' depends on axioms: [propext, Classical.choice, Quot.sound]
'Verif.Session.C105_file_name_refused' depends on axioms: [propext, Classical.choice, Quot.sound]
'Verif.Session.C105_url_base_must_exist' depends on axioms: [propext, Classical.choice, Quot.sound]
'Verif.Session.C105_context_options' depends on axioms: [propext, Classical.choice, Quot.sound]
'Verif.Session.C105_needed' depends on axioms: [propext, Classical.choice, Quot.sound]
'Verif.Session.C105_deduce_stores_defaults' depends on axioms: [propext, Classical.choice, Quot.sound]
'Verif.Session.C105_same_file_refused' depends on axioms: [propext, Classical.choice, Quot.sound]
'Verif.Session.C105_scaler_not_frozen' depends on axioms: [propext, Classical.choice, Quot.sound]
'Verif.Session.C105_clear_forgets' depends on axioms: [propext, Classical.choice, Quot.sound]
'Verif.Session.C105_options_leak_between_contexts' depends on axioms: [propext, Classical.choice, Quot.sound]
'Verif.Session.C105_deduce_keeps' depends on axioms: [propext, Classical.choice, Quot.sound]
'Verif.Llh.C106_setup_portable' depends on axioms: [propext, Classical.choice, Quot.sound]
'Verif.Llh.C106_independent' depends on axioms: [propext, Classical.choice, Quot.sound]
'Verif.Llh.C106_made' depends on axioms: [propext, Quot.sound]
'Verif.Llh.C106_not_made' depends on axioms: [propext]
'Verif.Llh.C106_clear' depends on axioms: [propext, Classical.choice, Quot.sound]
'Verif.Llh.C106_name_taken' depends on axioms: [propext, Classical.choice, Quot.sound]
'Verif.Llh.C106_again_refused' depends on axioms: [propext, Classical.choice, Quot.sound]
'Verif.Llh.C106_failure_takes_names' depends on axioms: [propext, Classical.choice, Quot.sound]
'Verif.Llh.C106_fixed_again' depends on axioms: [propext]
'Verif.Llh.C106_corrected_instruction_refused' depends on axioms: [propext]
'Verif.Instr.C107_only_known_items' depends on axioms: [propext, Quot.sound]
'Verif.Instr.C107_misspelt_ignored' depends on axioms: [propext, Quot.sound]
'Verif.Instr.C107_accepts' depends on axioms: [propext, Quot.sound]
'Verif.Instr.C107_by_name' depends on axioms: [propext]
'Verif.Instr.C107_shorthand' depends on axioms: [propext, Quot.sound]
'Verif.Instr.C107_missing' depends on axioms: [propext, Quot.sound]
'Verif.Instr.C107_copy_parameters_needed' depends on axioms: [propext, Quot.sound]
'Verif.Instr.C107_refused' depends on axioms: [propext, Quot.sound]
'Verif.Instr.C107_component_refused' depends on axioms: [propext, Quot.sound]
'Verif.Instr.C107_refused_sets_options' depends on axioms: [propext, Quot.sound]
'Verif.Instr.C107_copies' depends on axioms: [propext, Quot.sound]
'Verif.Keys.C108_seed_partial' depends on axioms: [propext, Classical.choice, Quot.sound]
'Verif.Keys.C108_seeds_coincide' depends on axioms: [propext, Classical.choice, Quot.sound]
'Verif.Keys.C108_refused_seed' depends on axioms: [propext, Classical.choice, Quot.sound]
'Verif.Keys.C108_clock_partial' depends on axioms: [propext, Classical.choice, Quot.sound]
'Verif.Keys.C108_same_microsecond' depends on axioms: [propext, Classical.choice, Quot.sound]
'Verif.Keys.C108_period' depends on axioms: [propext, Classical.choice, Quot.sound]
'Verif.Keys.C108_pigeonhole' depends on axioms: [propext, Classical.choice, Quot.sound]
'Verif.Keys.C108_equal_posteriors' depends on axioms: [propext, Classical.choice, Quot.sound]
'Verif.Llh.C109_linear' depends on axioms: [propext, Classical.choice, Quot.sound]
'Verif.Llh.C109_concave' depends on axioms: [propext, Classical.choice, Quot.sound]
'Verif.Llh.C109_best_fit' depends on axioms: [propext, Classical.choice, Quot.sound]
'Verif.Llh.C109_common_factor' depends on axioms: [propext, Classical.choice, Quot.sound]
'Verif.Llh.C109_only_predictions' depends on axioms: [propext, Classical.choice, Quot.sound]
'Verif.Llh.C109_zero_rate_fixed' depends on axioms: [propext, Quot.sound]
'Verif.Llh.C109_total' depends on axioms: [propext, Classical.choice, Quot.sound]
'Verif.Llh.C109_same_template' depends on axioms: [propext, Classical.choice, Quot.sound]
'Verif.Llh.C110_simulated_component_added' depends on axioms: [propext, Quot.sound]
'Verif.Llh.C110_error_stays' depends on axioms: [propext, Quot.sound]
'Verif.Llh.C110_fixed_component_anywhere' depends on axioms: [propext, Classical.choice, Quot.sound]
'Verif.Llh.C110_order_matters' depends on axioms: [propext, Classical.choice, Quot.sound]
'Verif.Llh.C110_same_key' depends on axioms: [propext, Quot.sound]
'Verif.Ctx.C110_likelihood_added' depends on axioms: [propext, Classical.choice, Quot.sound]
'Verif.Ctx.C110_fixed_likelihood_anywhere' depends on axioms: [propext, Classical.choice, Quot.sound]
'Verif.Conf.C111_search_partial' depends on axioms: [propext, Classical.choice, Quot.sound]
'Verif.Conf.C111_working_directory' depends on axioms: [propext, Classical.choice, Quot.sound]
'Verif.Conf.C111_configs_not_searched' depends on axioms: [propext, Classical.choice, Quot.sound]
'Verif.Conf.C111_instructs_searched' depends on axioms: [propext, Classical.choice, Quot.sound]
'Verif.Conf.C111_folder_returned' depends on axioms: [propext, Classical.choice, Quot.sound]
'Verif.Conf.C111_relative_url_base' depends on axioms: [propext, Classical.choice, Quot.sound]
'Verif.Conf.C111_absolute' depends on axioms: [propext, Classical.choice, Quot.sound]
'Verif.Llh.C112_repeats' depends on axioms: [propext, Classical.choice, Quot.sound]
'Verif.Llh.C112_expectation' depends on axioms: [propext, Classical.choice, Quot.sound]
'Verif.Equiprob.C113_one_dimension' depends on axioms: [propext, Classical.choice, Quot.sound]
'Verif.Equiprob.C113_two_dimensions' depends on axioms: [propext, Classical.choice, Quot.sound]
'Verif.Equiprob.C113_no_clip' depends on axioms: [propext, Quot.sound]
'Verif.Equiprob.C113_likelihood_1d' depends on axioms: [propext, Classical.choice, Quot.sound]
'Verif.Equiprob.C113_likelihood_2d' depends on axioms: [propext, Classical.choice, Quot.sound]
'Verif.Plugins.C114_s2' depends on axioms: [propext, Classical.choice, Quot.sound]
'Verif.Plugins.C114_anticorrelated' depends on axioms: [propext, Classical.choice, Quot.sound]
'Verif.Walk.C115_stationary' depends on axioms: [propext, Classical.choice, Quot.sound]
'Verif.Walk.C115_parameters' depends on axioms: [propext, Classical.choice, Quot.sound]
'Verif.Walk.C115_density' depends on axioms: [propext, Classical.choice, Quot.sound]
'Verif.Walk.C115_repeats' depends on axioms: [propext, Classical.choice, Quot.sound]
'Verif.Walk.C116_larger' depends on axioms: [propext, Classical.choice, Quot.sound]
'Verif.Walk.C116_best' depends on axioms: [propext, Classical.choice, Quot.sound]
'Verif.Walk.C116_exact' depends on axioms: [propext, Classical.choice, Quot.sound]
'Verif.Walk.C116_differs' depends on axioms: [propext, Classical.choice, Quot.sound]
'Verif.Llh.C117_accepted' depends on axioms: [propext, Classical.choice, Quot.sound]
'Verif.Llh.C117_less_noise' depends on axioms: [propext, Classical.choice, Quot.sound]
'Verif.Single.C118_shape' depends on axioms: [propext, Classical.choice, Quot.sound]
'Verif.Single.C118_events' depends on axioms: [propext, Classical.choice, Quot.sound]
'Verif.Single.C118_on_sim' depends on axioms: [propext, Classical.choice, Quot.sound]
'Verif.Single.C118_differs' depends on axioms: [propext, Classical.choice, Quot.sound]
'Verif.Continue.C119_starts_there_partial' depends on axioms: [propext, Classical.choice, Quot.sound]
'Verif.Continue.C119_other_number' depends on axioms: [propext, Classical.choice, Quot.sound]
'Verif.Continue.C119_own' depends on axioms: [propext, Classical.choice, Quot.sound]
'Verif.Continue.C119_nothing' depends on axioms: [propext, Classical.choice, Quot.sound]
'Verif.Continue.C119_mixed_up' depends on axioms: [propext, Classical.choice, Quot.sound]
'Verif.Single.C120_off_edges_partial' depends on axioms: [propext, Classical.choice, Quot.sound]
'Verif.Single.C120_neighbour' depends on axioms: [propext, Classical.choice, Quot.sound]
'Verif.Single.C120_lost_events' depends on axioms: [propext, Classical.choice, Quot.sound]
'Verif.Single.C120_grid_keeps' depends on axioms: [propext, Classical.choice, Quot.sound]
'Verif.Single.C120_just_above_an_edge' depends on axioms: [propext, Classical.choice, Quot.sound]
'Verif.Randgen.C121_spread_partial' depends on axioms: [propext, Classical.choice, Quot.sound]
'Verif.Randgen.C121_mean_partial' depends on axioms: [propext, Classical.choice, Quot.sound]
'Verif.Randgen.C121_shape' depends on axioms: [propext, Classical.choice, Quot.sound]
'Verif.Randgen.C121_fallback_partial' depends on axioms: [propext, Classical.choice, Quot.sound]
'Verif.Randgen.C121_tiny_probability' depends on axioms: [propext, Classical.choice, Quot.sound]
'Verif.Single.C122_error' depends on axioms: [propext, Classical.choice, Quot.sound]
'Verif.Single.C122_order_partial' depends on axioms: [propext, Classical.choice, Quot.sound]
'Verif.Single.C122_model_bin' depends on axioms: [propext, Classical.choice, Quot.sound]
'Verif.Single.C122_difference_lost' depends on axioms: [propext, Classical.choice, Quot.sound]
'Verif.Plugins.C123_quanta' depends on axioms: [propext, Classical.choice, Quot.sound]
'Verif.Plugins.C123_small_deposits' depends on axioms: [propext, Classical.choice, Quot.sound]
'Verif.Plugins.C123_ions_NR' depends on axioms: [propext, Classical.choice, Quot.sound]
'Verif.Plugins.C123_electrons_NR' depends on axioms: [propext, Classical.choice, Quot.sound]
'Verif.Plugins.C123_electrons_ER' depends on axioms: [propext, Classical.choice, Quot.sound]
'Verif.Plugins.C123_quanta_ER' depends on axioms: [propext, Classical.choice, Quot.sound]
'Verif.Plugins.C123_recoil_NR' depends on axioms: [propext, Classical.choice, Quot.sound]
'Verif.Interp.C124_point_map' depends on axioms: [propext, Classical.choice, Quot.sound]
'Verif.Interp.C124_point_map_increases' depends on axioms: [propext, Classical.choice, Quot.sound]
'Verif.Interp.C124_point_map_linear' depends on axioms: [propext, Classical.choice, Quot.sound]
'Verif.Interp.C124_bilinear' depends on axioms: [propext, Classical.choice, Quot.sound]
'Verif.Interp.C124_trilinear' depends on axioms: [propext, Classical.choice, Quot.sound]
'Verif.Interp.C124_bilinear_increases' depends on axioms: [propext, Classical.choice, Quot.sound]
'Verif.Interp.C124_bilinear_continuous_partial' depends on axioms: [propext, Classical.choice, Quot.sound]
'Verif.Interp.C124_idw_jumps' depends on axioms: [propext, Classical.choice, Quot.sound]
'Verif.Interp.C124_idw_not_continuous' depends on axioms: [propext, Classical.choice, Quot.sound]
'Verif.Single.C125_error' depends on axioms: [propext, Classical.choice, Quot.sound]
'Verif.Single.C125_small' depends on axioms: [propext, Classical.choice, Quot.sound]
'Verif.Single.C125_order' depends on axioms: [propext, Classical.choice, Quot.sound]
'Verif.Plot.C126_own_draw' depends on axioms: [propext, Classical.choice, Quot.sound]
'Verif.Plot.C126_own_start' depends on axioms: [propext, Classical.choice, Quot.sound]
'Verif.Plot.C126_independent' depends on axioms: [propext, Classical.choice, Quot.sound]
'Verif.Plot.C126_inside_partial' depends on axioms: [propext, Classical.choice, Quot.sound]
'Verif.Plot.C126_border' depends on axioms: [propext, Classical.choice, Quot.sound]
'Verif.Plot.C126_uniform' depends on axioms: [propext, Classical.choice, Quot.sound]
'Verif.Shipped.C127_options_reach_partial' depends on axioms: [propext, Quot.sound]
'Verif.Shipped.C127_correction_unused' depends on axioms: [propext, Quot.sound]
'Verif.Shipped.C127_field_ignored' depends on axioms: [propext, Quot.sound]
'Verif.Shipped.C127_sigma_options' does not depend on any axioms
'Verif.Shipped.C127_all' depends on axioms: [propext, Quot.sound]
'Verif.Lit.C128_points_partial' depends on axioms: [propext, Classical.choice, Quot.sound]
'Verif.Lit.C128_positive_energy' depends on axioms: [propext, Classical.choice, Quot.sound]
'Verif.Lit.C128_yields' depends on axioms: [propext, Classical.choice, Quot.sound]
'Verif.Lit.C128_negative_theta' depends on axioms: [propext, Classical.choice, Quot.sound]
'Verif.Lit.C128_nan_yield' depends on axioms: [propext, Classical.choice, Quot.sound]
'Verif.Lit.C128_zero_energy' depends on axioms: [propext, Classical.choice, Quot.sound]
'Verif.Lit.C128_band_partial' depends on axioms: [propext, Classical.choice, Quot.sound]
'Verif.Lit.C128_band_mean' depends on axioms: [propext, Classical.choice, Quot.sound]
'Verif.Lit.C128_band_gap' depends on axioms: [propext, Classical.choice, Quot.sound]
'Verif.Lit.C128_shipped_gap' depends on axioms: [propext, Classical.choice, Quot.sound]
'Verif.Lit.C128_shipped_numbers' depends on axioms: [propext, Classical.choice, Quot.sound]
'Verif.Lit.C128_shipped_both' depends on axioms: [propext, Classical.choice, Quot.sound]
'Verif.Lit.C128_shipped_points' depends on axioms: [propext, Classical.choice, Quot.sound]
'Verif.ShippedPars.C129_entries' depends on axioms: [propext, Classical.choice, Quot.sound]
'Verif.ShippedPars.C129_sampling' depends on axioms: [propext, Classical.choice, Quot.sound]
'Verif.ShippedPars.C129_starts' depends on axioms: [propext, Classical.choice, Quot.sound]
'Verif.ShippedPars.C129_probabilities' depends on axioms: [propext, Classical.choice, Quot.sound]
'Verif.ShippedPars.C129_survival_partial' depends on axioms: [propext, Classical.choice, Quot.sound]
'Verif.ShippedPars.C129_rates' depends on axioms: [propext, Classical.choice, Quot.sound]
'Verif.ShippedPars.C129_extraction' depends on axioms: [propext, Classical.choice, Quot.sound]
'Verif.ShippedPars.C129_extraction_flat' depends on axioms: [propext, Classical.choice, Quot.sound]
'Verif.ShippedPars.C129_yields' depends on axioms: [propext, Classical.choice, Quot.sound]
'Verif.ShippedPars.C129_theta' depends on axioms: [propext, Classical.choice, Quot.sound]
'Verif.ShippedPars.C129_names' depends on axioms: [propext, Classical.choice, Quot.sound]
'Verif.Randgen.C130_exactly_one' depends on axioms: [propext, Classical.choice, Quot.sound]
'Verif.Randgen.C130_conversion' depends on axioms: [propext, Classical.choice, Quot.sound]
'Verif.Randgen.C130_solver_independent' depends on axioms: [propext, Classical.choice, Quot.sound]
'Verif.Randgen.C130_symmetries' depends on axioms: [propext, Classical.choice, Quot.sound]
'Verif.Randgen.C130_between' depends on axioms: [propext, Classical.choice, Quot.sound]
'Verif.Randgen.C130_tolerance' depends on axioms: [propext, Classical.choice, Quot.sound]
'Verif.Randgen.C130_shipped' depends on axioms: [propext, Classical.choice, Quot.sound]
'Verif.SingleMaps.C131_point_map' depends on axioms: [propext, Classical.choice, Quot.sound]
'Verif.SingleMaps.C131_point_map_signed' depends on axioms: [propext, Classical.choice, Quot.sound]
'Verif.SingleMaps.C131_total' depends on axioms: [propext, Classical.choice, Quot.sound]
'Verif.SingleMaps.C131_bilinear' depends on axioms: [propext, Classical.choice, Quot.sound]
'Verif.SingleMaps.C131_trilinear' depends on axioms: [propext, Classical.choice, Quot.sound]
'Verif.SingleMaps.C131_unit_range' depends on axioms: [propext, Classical.choice, Quot.sound]
'Verif.SingleMaps.C131_bilinear_exceeds' depends on axioms: [propext, Classical.choice, Quot.sound]
'Verif.SingleMaps.C131_bilinear_unit_partial' depends on axioms: [propext, Classical.choice, Quot.sound]
'Verif.SingleMaps.C131_constant_map' depends on axioms: [propext, Classical.choice, Quot.sound]
'Verif.Plugins.C132_quanta' depends on axioms: [propext, Classical.choice, Quot.sound]
'Verif.Plugins.C132_ions_NR' depends on axioms: [propext, Classical.choice, Quot.sound]
'Verif.Plugins.C132_quanta_ER' depends on axioms: [propext, Classical.choice, Quot.sound]
'Verif.Plugins.C132_electrons_NR' depends on axioms: [propext, Classical.choice, Quot.sound]
'Verif.Plugins.C132_electrons_ER' depends on axioms: [propext, Classical.choice, Quot.sound]
'Verif.Llh.C133_expected' depends on axioms: [propext, Classical.choice, Quot.sound]
'Verif.Llh.C133_truth' depends on axioms: [propext, Classical.choice, Quot.sound]
'Verif.Llh.C134_data' depends on axioms: [propext, Classical.choice, Quot.sound]
'Verif.Llh.C134_predictions' depends on axioms: [propext, Classical.choice, Quot.sound]
'Verif.Llh.C134_power' depends on axioms: [propext, Classical.choice, Quot.sound]
'Verif.Llh.C134_floor' depends on axioms: [propext, Classical.choice, Quot.sound]
'Verif.Llh.C134_empty_piece' depends on axioms: [propext, Classical.choice, Quot.sound]
'Verif.Llh.C135_data' depends on axioms: [propext, Classical.choice, Quot.sound]
'Verif.Llh.C135_histogram' depends on axioms: [propext, Classical.choice, Quot.sound]
'Verif.Llh.C135_weighted' depends on axioms: [propext, Classical.choice, Quot.sound]
'Verif.Llh.C135_log_likelihood' depends on axioms: [propext, Classical.choice, Quot.sound]
'Verif.Plot.C136_made' depends on axioms: [propext, Classical.choice, Quot.sound]
'Verif.Plot.C136_panels' depends on axioms: [propext, Classical.choice, Quot.sound]
'Verif.Plot.C136_times' depends on axioms: [propext, Classical.choice, Quot.sound]
'Verif.Plot.C136_criterion_partial' depends on axioms: [propext, Classical.choice, Quot.sound]
'Verif.Plot.C136_thinned_line' depends on axioms: [propext, Classical.choice, Quot.sound]
'Verif.Plot.C136_short' depends on axioms: [propext, Classical.choice, Quot.sound]
'Verif.Plot.C136_stuck' depends on axioms: [propext, Classical.choice, Quot.sound]
'Verif.Plot.C136_one_parameter' depends on axioms: [propext, Classical.choice, Quot.sound]
'Verif.Plot.C136_no_iteration' depends on axioms: [propext, Classical.choice, Quot.sound]
'Verif.Plot.C136_thinned' depends on axioms: [propext, Classical.choice, Quot.sound]
'Verif.Plot.C137_colours' depends on axioms: [propext, Classical.choice, Quot.sound]
'Verif.Plot.C137_diagonal' depends on axioms: [propext, Classical.choice, Quot.sound]
'Verif.Plot.C137_made_partial' depends on axioms: [propext, Classical.choice, Quot.sound]
'Verif.Plot.C137_few_samples' depends on axioms: [propext, Classical.choice, Quot.sound]
'Verif.Plot.C137_flat_priors' depends on axioms: [propext, Classical.choice, Quot.sound]
'Verif.Plot.C137_flat_priors_all_plots' depends on axioms: [propext, Classical.choice, Quot.sound]
'Verif.Plot.C137_uniform_fit' depends on axioms: [propext, Classical.choice, Quot.sound]
'Verif.Llh.C138_rates' depends on axioms: [propext, Classical.choice, Quot.sound]
'Verif.Llh.C138_concave' depends on axioms: [propext, Classical.choice, Quot.sound]
'Verif.Llh.C138_no_dip' depends on axioms: [propext, Classical.choice, Quot.sound]
'Verif.Llh.C138_prior' depends on axioms: [propext, Classical.choice, Quot.sound]
'Verif.Plot.C139_made' depends on axioms: [propext, Classical.choice, Quot.sound]
'Verif.Plot.C139_bars' depends on axioms: [propext, Classical.choice, Quot.sound]
'Verif.Plot.C139_no_samples' depends on axioms: [propext, Classical.choice, Quot.sound]
'Verif.Plot.C139_legend_partial' depends on axioms: [propext, Classical.choice, Quot.sound]
'Verif.Plot.C139_legend' depends on axioms: [propext, Classical.choice, Quot.sound]
'Verif.Plot.C139_refused' depends on axioms: [propext, Classical.choice, Quot.sound]
'Verif.Plot.C139_nuclear_recoils' depends on axioms: [propext, Classical.choice, Quot.sound]
'Verif.Classes.C140_made' depends on axioms: [propext, Classical.choice, Quot.sound]
'Verif.Classes.C140_packaged' depends on axioms: [propext, Classical.choice, Quot.sound]
'Verif.Classes.C140_replaced' depends on axioms: [propext, Classical.choice, Quot.sound]
'Verif.Classes.C140_restored_partial' depends on axioms: [propext, Classical.choice, Quot.sound]
'Verif.Classes.C140_not_restored' depends on axioms: [propext, Classical.choice, Quot.sound]
'Verif.Classes.C140_arguments' depends on axioms: [propext, Classical.choice, Quot.sound]
'Verif.Plugins.C141_s1' depends on axioms: [propext, Classical.choice, Quot.sound]
'Verif.Plugins.C141_s2' depends on axioms: [propext, Classical.choice, Quot.sound]
'Verif.Plugins.C141_recombination' depends on axioms: [propext, Classical.choice, Quot.sound]
'Verif.Plugins.C141_seen' depends on axioms: [propext, Classical.choice, Quot.sound]
'Verif.Plugins.C141_accepted' depends on axioms: [propext, Classical.choice, Quot.sound]
'Verif.Plugins.C141_drift' depends on axioms: [propext, Classical.choice, Quot.sound]
'Verif.Plugins.C141_quanta' depends on axioms: [propext, Classical.choice, Quot.sound]
'Verif.Llh.C142_expected' depends on axioms: [propext, Classical.choice, Quot.sound]
'Verif.Llh.C142_truth' depends on axioms: [propext, Classical.choice, Quot.sound]
'Verif.Ctx.C143_bound' depends on axioms: [propext, Classical.choice, Quot.sound]
'Verif.Ctx.C143_narrow_band' depends on axioms: [propext, Classical.choice, Quot.sound]
'Verif.Walk.C143_proper' depends on axioms: [propext, Classical.choice, Quot.sound]
'Verif.Ctx.C144_likelihood' depends on axioms: [propext, Classical.choice, Quot.sound]
'Verif.Walk.C144_factor' depends on axioms: [propext, Classical.choice, Quot.sound]
'Verif.Walk.C144_posterior' depends on axioms: [propext, Classical.choice, Quot.sound]
'Verif.Order.C145_likelihood' depends on axioms: [propext, Classical.choice, Quot.sound]
'Verif.Order.C145_posterior' depends on axioms: [propext, Classical.choice, Quot.sound]
'Verif.Order.C145_given_keys' depends on axioms: [propext, Classical.choice, Quot.sound]
'Verif.Repeats.C146_mean_of_keys' depends on axioms: [propext, Classical.choice, Quot.sound]
'Verif.Repeats.C146_noise' depends on axioms: [propext, Classical.choice, Quot.sound]
'Verif.Repeats.C146_limit' depends on axioms: [propext, Classical.choice, Quot.sound]
'Verif.Repeats.C146_sampled' depends on axioms: [propext, Classical.choice, Quot.sound]
'Verif.Llh.C147_factor' depends on axioms: [propext, Classical.choice, Quot.sound]
'Verif.Llh.C147_balance' depends on axioms: [propext, Classical.choice, Quot.sound]
'Verif.Walk.C147_one_rate' depends on axioms: [propext, Classical.choice, Quot.sound]
'Verif.Walk.C147_gamma' depends on axioms: [propext, Classical.choice, Quot.sound]
'Verif.Startup.C148_settings' depends on axioms: [propext, Classical.choice, Quot.sound]
'Verif.Startup.C148_history' depends on axioms: [propext, Classical.choice, Quot.sound]
'Verif.Startup.C148_limit_commutes' depends on axioms: [propext, Classical.choice, Quot.sound]
'Verif.Startup.C148_check' depends on axioms: [propext, Classical.choice, Quot.sound]
'Verif.Llh.C149_difference' depends on axioms: [propext, Classical.choice, Quot.sound]
'Verif.Llh.C149_closer' depends on axioms: [propext, Classical.choice, Quot.sound]
'Verif.Llh.C149_best' depends on axioms: [propext, Classical.choice, Quot.sound]
'Verif.Llh.C149_repeated' depends on axioms: [propext, Classical.choice, Quot.sound]
'Verif.Llh.C150_agree_twohalfnorm' depends on axioms: [propext, Classical.choice, Quot.sound]
'Verif.Llh.C150_agree_norm' depends on axioms: [propext, Classical.choice, Quot.sound]
'Verif.Llh.C150_refused_twohalfnorm' depends on axioms: [propext, Classical.choice, Quot.sound]
'Verif.Llh.C150_refused_norm' depends on axioms: [propext, Classical.choice, Quot.sound]
'Verif.Llh.C150_values_twohalfnorm' depends on axioms: [propext, Classical.choice, Quot.sound]
'Verif.Llh.C150_values_norm' depends on axioms: [propext, Classical.choice, Quot.sound]
'Verif.Llh.C151_data' depends on axioms: [propext, Classical.choice, Quot.sound]
'Verif.Llh.C151_histogram' depends on axioms: [propext, Classical.choice, Quot.sound]
'Verif.Llh.C151_split' depends on axioms: [propext, Classical.choice, Quot.sound]
'Verif.Llh.C152_order' depends on axioms: [propext, Classical.choice, Quot.sound]
'Verif.Llh.C152_outside' depends on axioms: [propext, Quot.sound]
'Verif.Llh.C152_likelihood' depends on axioms: [propext, Classical.choice, Quot.sound]
'Verif.Walk.C153_names' depends on axioms: [propext, Classical.choice, Quot.sound]
'Verif.Walk.C153_posterior' depends on axioms: [propext, Classical.choice, Quot.sound]
'Verif.Walk.C153_density' depends on axioms: [propext, Classical.choice, Quot.sound]
'Verif.Walk.C153_conditional' depends on axioms: [propext, Classical.choice, Quot.sound]
'Verif.Walk.C153_evidence' depends on axioms: [propext, Classical.choice, Quot.sound]
'Verif.Walk.C154_reweight' depends on axioms: [propext, Classical.choice, Quot.sound]
'Verif.Walk.C154_narrow' depends on axioms: [propext, Classical.choice, Quot.sound]
'Verif.Walk.C154_truncated' depends on axioms: [propext, Classical.choice, Quot.sound]
'Verif.Ctx.C155_likelihood' depends on axioms: [propext, Classical.choice, Quot.sound]
'Verif.Ctx.C155_fitted' depends on axioms: [propext, Classical.choice, Quot.sound]
'Verif.Ctx.C155_posterior' depends on axioms: [propext, Classical.choice, Quot.sound]
'Verif.Randgen.C156_values' depends on axioms: [propext, Classical.choice, Quot.sound]
'Verif.Randgen.C156_split' depends on axioms: [propext, Classical.choice, Quot.sound]
'Verif.Randgen.C156_not_updated' depends on axioms: [propext, Classical.choice, Quot.sound]
'Verif.Walk.C157_exchange' depends on axioms: [propext, Classical.choice, Quot.sound]
'Verif.Walk.C157_factors' depends on axioms: [propext, Classical.choice, Quot.sound]
'Verif.Conf.C158_built' depends on axioms: [propext, Classical.choice, Quot.sound]
'Verif.Conf.C158_refused' depends on axioms: [propext, Classical.choice, Quot.sound]
'Verif.Conf.C158_bands' depends on axioms: [propext, Classical.choice, Quot.sound]
