{
 "claims": [
  {
   "property": "C01",
   "status": "proved",
   "theorems": [
    "Verif.Parameter.C01_names_closed"
   ],
   "note": ""
  },
  {
   "property": "C02",
   "status": "proved",
   "theorems": [
    "Verif.Parameter.C02_sample_prior_in_range",
    "Verif.Parameter.C02_init_parameter_forgets",
    "Verif.Parameter.C02_sample_init_in_range",
    "Verif.Parameter.C02_sample_init_completes"
   ],
   "note": ""
  },
  {
   "property": "C03",
   "status": "proved",
   "theorems": [
    "Verif.Parameter.C03_set_parameter_atomic",
    "Verif.Parameter.C03_read_your_writes",
    "Verif.Parameter.C03_reading"
   ],
   "note": ""
  },
  {
   "property": "C04",
   "status": "proved",
   "theorems": [
    "Verif.Parameter.C04_log_prior",
    "Verif.Parameter.C04_log_prior_order_independent",
    "Verif.Parameter.C04_nan_passes_range_check"
   ],
   "note": "NaN parameter values pass the range check: C04_nan_passes_range_check records it."
  },
  {
   "property": "C05",
   "status": "proved",
   "theorems": [
    "Verif.Parameter.C05_fit_vector_round_trip",
    "Verif.Parameter.C05_no_leakage"
   ],
   "note": ""
  },
  {
   "property": "C06",
   "status": "proved",
   "theorems": [
    "Verif.Hist.C06_hist1d_bins"
   ],
   "note": ""
  },
  {
   "property": "C07",
   "status": "proved",
   "theorems": [
    "Verif.Hist.C07_hist2d_bins"
   ],
   "note": ""
  },
  {
   "property": "C08",
   "status": "proved",
   "theorems": [
    "Verif.Hist.C08_hist1d_total",
    "Verif.Hist.C08_hist2d_total",
    "Verif.Hist.C08_additive_and_order_independent",
    "Verif.Hist.C08_weights_linear",
    "Verif.Hist.C08_nonneg",
    "Verif.Hist.C08_mesh"
   ],
   "note": ""
  },
  {
   "property": "C09",
   "status": "proved",
   "theorems": [
    "Verif.Hist.C09_mesh1d_bins",
    "Verif.Hist.C09_mesh2d_bins",
    "Verif.Hist.C09_mesh1d_total",
    "Verif.Hist.C09_mesh2d_total",
    "Verif.Hist.C09_agree_off_edges",
    "Verif.Hist.C09_disagree_on_edges"
   ],
   "note": "The two histogram functions disagree on edge samples: C09_disagree_on_edges."
  },
  {
   "property": "C10",
   "status": "proved",
   "theorems": [
    "Verif.Comp.C10_topological_order",
    "Verif.Comp.C10_same_name_dropped"
   ],
   "note": "Under distinct class names of the needed plugins; C10_same_name_dropped shows the hypothesis is needed."
  },
  {
   "property": "C11",
   "status": "proved",
   "theorems": [
    "Verif.Comp.C11_generated_code_computes_data_flow",
    "Verif.Comp.C11_values_unique",
    "Verif.Comp.C11_unset_name",
    "Verif.Comp.C11_shadowed_output_used",
    "Verif.Comp.C11_class_looked_up_by_name",
    "Verif.Comp.C11_missing_class",
    "Verif.Comp.C11_empty_plugin"
   ],
   "note": "The claim states its own hypothesis; C11_shadowed_output_used and C11_class_looked_up_by_name are the counterexamples without it."
  },
  {
   "property": "C12",
   "status": "proved",
   "theorems": [
    "Verif.Comp.C12_success_iff",
    "Verif.Comp.C12_acyclic_complete_succeeds",
    "Verif.Comp.C12_missing_fails",
    "Verif.Comp.C12_missing_request_valueError",
    "Verif.Comp.C12_cycle_fails"
   ],
   "note": ""
  },
  {
   "property": "C13",
   "status": "proved",
   "theorems": [
    "Verif.Comp.C13_needed_parameters"
   ],
   "note": ""
  },
  {
   "property": "C14",
   "status": "partial",
   "theorems": [
    "Verif.Comp.C14_last_provider_wins",
    "Verif.Comp.C14_provider_provides",
    "Verif.Comp.C14_defaults_agree",
    "Verif.Comp.C14_conflict_iff",
    "Verif.Comp.C14_failed_registration_stays"
   ],
   "note": "Rollback on a conflicting registration does not hold: C14_failed_registration_stays proves the negation."
  },
  {
   "property": "C15",
   "status": "partial",
   "theorems": [
    "Verif.Comp.C15_efficiency_column_partial",
    "Verif.Comp.C15_force_no_eff_sticky",
    "Verif.Comp.C15_failed_deduce_changes_weights"
   ],
   "note": "Independence of earlier deduce calls does not hold: C15_force_no_eff_sticky, C15_failed_deduce_changes_weights."
  },
  {
   "property": "C16",
   "status": "partial",
   "theorems": [
    "Verif.Comp.C16_compiled_runs_own_code_partial",
    "Verif.Comp.C16_no_second_deduce",
    "Verif.Comp.C16_compile_needs_deduce",
    "Verif.Comp.C16_clear_mixes_simulators"
   ],
   "note": "Holds between clear_cache calls; C16_clear_mixes_simulators proves the negation across a clear."
  },
  {
   "property": "C17",
   "status": "proved",
   "theorems": [
    "Verif.Comp.C17_on_pdf_total_is_rate",
    "Verif.Comp.C17_on_sim_total",
    "Verif.Comp.C17_on_sim_expected_events",
    "Verif.Comp.C17_unknown_norm_raises",
    "Verif.Comp.C17_fixed_on_sim_raises",
    "Verif.Comp.C17_on_sim_without_energy",
    "Verif.Llh.C17_expected_events_any_bins"
   ],
   "note": "A fixed component with on_sim raises AttributeError: C17_fixed_on_sim_raises."
  },
  {
   "property": "C18",
   "status": "proved",
   "theorems": [
    "Verif.Comp.C18_floor",
    "Verif.Comp.C18_every_bin_positive"
   ],
   "note": ""
  },
  {
   "property": "C19",
   "status": "proved",
   "theorems": [
    "Verif.Comp.C19_weighted_data_aligned",
    "Verif.Comp.C19_weights_sum_to_rate",
    "Verif.Comp.C19_floor_weights_at_most_rate",
    "Verif.Comp.C19_floor_weights_below_rate",
    "Verif.Comp.C19_fixed_weights_sum_to_rate",
    "Verif.Comp.C19_fixed_upper_edge_loses_rate",
    "Verif.Comp.C19_two_dim_exceeds_rate",
    "Verif.Comp.C19_fixed_data_unchanged",
    "Verif.Llh.C19_weighted_data_any_bins",
    "Verif.Llh.C19_weights_sum_any_bins",
    "Verif.Llh.C19_floor_weights_any_bins",
    "Verif.Llh.C19_fixed_weights_any_bins",
    "Verif.Llh.C19_no_efficiency_fails"
   ],
   "note": "For every kind of bins: the theorems ending in _any_bins. C19_floor_weights_below_rate, C19_fixed_upper_edge_loses_rate and C19_two_dim_exceeds_rate show the restrictions are needed. C19_no_efficiency_fails: for a component deduced without efficiency there are no weighted data."
  },
  {
   "property": "C20",
   "status": "proved",
   "theorems": [
    "Verif.Comp.C20_concatenation_in_order",
    "Verif.Comp.C20_errors",
    "Verif.Comp.C20_succeeds"
   ],
   "note": ""
  },
  {
   "property": "C21",
   "status": "proved",
   "theorems": [
    "Verif.Conf.C21_precedence",
    "Verif.Conf.C21_resolution_is_stable",
    "Verif.Conf.C21_first_default_wins"
   ],
   "note": "Two configurations sharing a name get the first default: C21_first_default_wins."
  },
  {
   "property": "C22",
   "status": "proved",
   "theorems": [
    "Verif.Conf.C22_stores_what_was_given",
    "Verif.Conf.C22_failure_keeps_earlier_entries",
    "Verif.Conf.C22_other_entries_dropped"
   ],
   "note": "C22_failure_keeps_earlier_entries and C22_other_entries_dropped record that a failing call is not atomic and that nested entries are replaced as a whole."
  },
  {
   "property": "C23",
   "status": "proved",
   "theorems": [
    "Verif.Conf.C23_unused_exact",
    "Verif.Conf.C23_resolved_not_reported"
   ],
   "note": ""
  },
  {
   "property": "C24",
   "status": "proved",
   "theorems": [
    "Verif.Conf.C24_anchor_values",
    "Verif.Conf.C24_monotone"
   ],
   "note": ""
  },
  {
   "property": "C25",
   "status": "proved",
   "theorems": [
    "Verif.Conf.C25_applied_parameter_is_declared",
    "Verif.Conf.C25_declared_parameter",
    "Verif.Conf.C25_set_config_changes_parameter"
   ],
   "note": "Between build and application; C25_set_config_changes_parameter shows the effect of changing the configuration in between."
  },
  {
   "property": "C26",
   "status": "partial",
   "theorems": [
    "Verif.Conf.C26_other_likelihoods_unchanged",
    "Verif.Conf.C26_built_files_are_configured_partial",
    "Verif.Conf.C26_conflicting_files_raise",
    "Verif.Conf.C26_forms_partial",
    "Verif.Conf.C26_bad_values",
    "Verif.Conf.C26_unnamed_build_pins_files"
   ],
   "note": "Holds for named likelihoods when no sub-map name is cached as a plain value. A build without likelihood name fixes the files for all later ones: C26_unnamed_build_pins_files proves the negation."
  },
  {
   "property": "C27",
   "status": "partial",
   "theorems": [
    "Verif.Conf.C27_instances_keep_values",
    "Verif.Conf.C27_instance_values_resolved",
    "Verif.Conf.C27_lineage_describes_last_build"
   ],
   "note": "The part about lineage does not hold: C27_lineage_describes_last_build proves the negation."
  },
  {
   "property": "C28",
   "status": "proved",
   "theorems": [
    "Verif.Interp.C28_idw_is_linear_interpolation",
    "Verif.Interp.C28_lerp_is_linear_interpolation",
    "Verif.Interp.C28_idw_equals_lerp",
    "Verif.Interp.C28_exact_at_reference",
    "Verif.Interp.C28_between_neighbours",
    "Verif.Interp.C28_repeated_position_differs",
    "Verif.Interp.C28_idw_and_lerp_point_maps"
   ],
   "note": "For strictly increasing positions; C28_repeated_position_differs shows the two methods differ otherwise."
  },
  {
   "property": "C29",
   "status": "proved",
   "theorems": [
    "Verif.Interp.C29_point_map",
    "Verif.Interp.C29_fewer_values",
    "Verif.Interp.C29_grid_2d",
    "Verif.Interp.C29_grid_3d",
    "Verif.Interp.C29_nn_point_map"
   ],
   "note": ""
  },
  {
   "property": "C30",
   "status": "proved",
   "theorems": [
    "Verif.Interp.C30_indices_in_range",
    "Verif.Interp.C30_bilinear_bounds",
    "Verif.Interp.C30_trilinear_bounds",
    "Verif.Interp.C30_bilinear_exact_at_nodes",
    "Verif.Interp.C30_trilinear_exact_at_nodes",
    "Verif.Interp.C30_bilinear_reproduces_affine",
    "Verif.Interp.C30_trilinear_reproduces_affine",
    "Verif.Interp.C30_bilinear_clamps",
    "Verif.Interp.C30_trilinear_clamps",
    "Verif.Interp.C30_bilinear_is_iterated_linear"
   ],
   "note": ""
  },
  {
   "property": "C31",
   "status": "proved",
   "theorems": [
    "Verif.Interp.C31_idw_2d_is_average",
    "Verif.Interp.C31_idw_3d_is_average",
    "Verif.Interp.C31_idw_2d_weights",
    "Verif.Interp.C31_idw_3d_weights",
    "Verif.Interp.C31_idw_2d_at_node",
    "Verif.Interp.C31_constant_maps",
    "Verif.Interp.C31_corners",
    "Verif.Interp.C31_cell_contains_position",
    "Verif.Interp.C31_idw_bounds",
    "Verif.Interp.C31_idw_bounds_3d",
    "Verif.Interp.C31_knn"
   ],
   "note": "Over the reals; C63 covers float32 at nodes."
  },
  {
   "property": "C32",
   "status": "partial",
   "theorems": [
    "Verif.Interp.C32_point_coordinates_checked",
    "Verif.Interp.C32_unknown_method_raises",
    "Verif.Interp.C32_regbin_edges_checked",
    "Verif.Interp.C32_logarithm_of_positive",
    "Verif.Interp.C32_stored_value_partial",
    "Verif.Interp.C32_log_point_returns_logarithm",
    "Verif.Interp.C32_log_point_does_not_return_stored_value"
   ],
   "note": "The build checks and the positivity of the argument hold. A logarithmic point map returns log10 of the stored value: C32_log_point_does_not_return_stored_value proves the negation of that part."
  },
  {
   "property": "C33",
   "status": "proved",
   "theorems": [
    "Verif.Interp.C33_cdf",
    "Verif.Interp.C33_exact_for_affine"
   ],
   "note": ""
  },
  {
   "property": "C34",
   "status": "proved",
   "theorems": [
    "Verif.Llh.C34_data_selected_1d",
    "Verif.Llh.C34_data_selected_2d",
    "Verif.Llh.C34_every_kept_event_counted",
    "Verif.Llh.C34_bin_contents",
    "Verif.Llh.C34_meshgrid_int_1d",
    "Verif.Llh.C34_meshgrid_int_2d",
    "Verif.Llh.C34_equiprob_1d",
    "Verif.Llh.C34_equiprob_2d",
    "Verif.Llh.C34_narrow_edges_drop_events",
    "Verif.Llh.C34_errors",
    "Verif.Llh.C34_irregular_2d"
   ],
   "note": "Explicit edges narrower than the clip drop kept events: C34_narrow_edges_drop_events. Equiprobable inner edges are assumed sorted (they come from GOFevaluation)."
  },
  {
   "property": "C35",
   "status": "proved",
   "theorems": [
    "Verif.Llh.C35_duplicate_raises",
    "Verif.Llh.C35_atomic",
    "Verif.Llh.C35_build_error",
    "Verif.Llh.C35_components_after",
    "Verif.Llh.C35_needed_parameters",
    "Verif.Llh.C35_declared_parameters",
    "Verif.Llh.C35_self_alias_loses_parameter"
   ],
   "note": "Alias names and targets disjoint, targets distinct; C35_self_alias_loses_parameter shows a parameter aliased to itself is lost."
  },
  {
   "property": "C36",
   "status": "proved",
   "theorems": [
    "Verif.Llh.C36_aliases_supply_parameters",
    "Verif.Llh.C36_replacement_twice",
    "Verif.Llh.C36_alias_names_removed",
    "Verif.Llh.C36_other_parameters_kept",
    "Verif.Llh.C36_chained_aliases_go_wrong",
    "Verif.Llh.C36_alias_name_as_parameter_is_lost"
   ],
   "note": "As stated; no component may need a parameter called like an alias (C36_alias_name_as_parameter_is_lost). C36_chained_aliases_go_wrong covers chains."
  },
  {
   "property": "C37",
   "status": "proved",
   "theorems": [
    "Verif.Llh.C37_model_hist",
    "Verif.Llh.C37_total",
    "Verif.Llh.C37_runs_unique",
    "Verif.Llh.C37_other_component_raises",
    "Verif.Llh.C37_weighted_data",
    "Verif.Llh.C37_total_is_sum_of_rates"
   ],
   "note": ""
  },
  {
   "property": "C38",
   "status": "proved",
   "theorems": [
    "Verif.Llh.C38_value",
    "Verif.Llh.C38_minus_infinity",
    "Verif.Llh.C38_never_nan",
    "Verif.Llh.C38_log_likelihood",
    "Verif.Llh.C38_is_poisson",
    "Verif.Llh.C38_maximal_at_data",
    "Verif.Llh.C38_fixed_shape_maximal_at_total"
   ],
   "note": ""
  },
  {
   "property": "C39",
   "status": "proved",
   "theorems": [
    "Verif.Llh.C39_one_component",
    "Verif.Llh.C39_two_half_logpdf",
    "Verif.Llh.C39_norm_logpdf",
    "Verif.Llh.C39_finite_or_minus_infinity",
    "Verif.Llh.C39_outside_band",
    "Verif.Llh.C39_one_event_simulated",
    "Verif.Llh.C39_values_twohalfnorm",
    "Verif.Llh.C39_values_norm",
    "Verif.Llh.C39_values_band",
    "Verif.Llh.C39_value",
    "Verif.Llh.C39_no_component_raises",
    "Verif.Llh.C39_negative_efficiency_gives_plus_infinity"
   ],
   "note": "For efficiencies that are NaN or not negative; C39_negative_efficiency_gives_plus_infinity shows the restriction is needed."
  },
  {
   "property": "C40",
   "status": "proved",
   "theorems": [
    "Verif.Ctx.C40_stores_parameters",
    "Verif.Ctx.C40_invalid_prior",
    "Verif.Ctx.C40_value",
    "Verif.Ctx.C40_minus_infinity",
    "Verif.Ctx.C40_returns_iff",
    "Verif.Ctx.C40_never_nan",
    "Verif.Ctx.C40_no_memory"
   ],
   "note": ""
  },
  {
   "property": "C41",
   "status": "partial",
   "theorems": [
    "Verif.Ctx.C41_copied",
    "Verif.Ctx.C41_others_unchanged",
    "Verif.Ctx.C41_sources_dropped",
    "Verif.Ctx.C41_missing_entry_raises",
    "Verif.Ctx.C41_copy_of_copy_is_lost"
   ],
   "note": "Copied parameters and all other names are as stated. Sources that are not rate parameters are dropped even when needed (C41_sources_dropped) and a copy of a copy is lost (C41_copy_of_copy_is_lost)."
  },
  {
   "property": "C42",
   "status": "partial",
   "theorems": [
    "Verif.Ctx.C42_check_partial",
    "Verif.Ctx.C42_needed_parameters",
    "Verif.Ctx.C42_all_parts_built",
    "Verif.Ctx.C42_register_likelihood",
    "Verif.Ctx.C42_missing_parameter_passes"
   ],
   "note": "The code checks the converse inclusion: C42_missing_parameter_passes proves the negation, C42_check_partial what the check does give."
  },
  {
   "property": "C43",
   "status": "partial",
   "theorems": [
    "Verif.Fit.C43_uncached_query_partial",
    "Verif.Fit.C43_random_query_partial",
    "Verif.Fit.C43_errors",
    "Verif.Fit.C43_first_fit_partial",
    "Verif.Fit.C43_stale_after_query",
    "Verif.Fit.C43_continue_from",
    "Verif.Fit.C43_continuation_keeps_old_estimate"
   ],
   "note": "Holds until something is cached. C43_stale_after_query proves that afterwards no fit or continuation changes what queries choose from; C43_continuation_keeps_old_estimate is a concrete history where the stored parameters are not those of the best sample."
  },
  {
   "property": "C44",
   "status": "partial",
   "theorems": [
    "Verif.Json.C44_plain_reads_back_partial",
    "Verif.Json.C44_constant_raises",
    "Verif.Json.C44_outcomes",
    "Verif.Json.C44_astral_character_changes",
    "Verif.Json.C44_tuple_becomes_list",
    "Verif.Json.C44_integer_key_becomes_string",
    "Verif.Json.C44_refused",
    "Verif.Json.C44_order"
   ],
   "note": "Proved for plain instructions at the level of characters, and NameError for constants anywhere. C44_astral_character_changes proves the negation for strings with characters outside the basic plane; C44_tuple_becomes_list and C44_integer_key_becomes_string for tuples and integer keys."
  },
  {
   "property": "C45",
   "status": "proved",
   "theorems": [
    "Verif.Ctx.C45_start_positions",
    "Verif.Ctx.C45_completes"
   ],
   "note": ""
  },
  {
   "property": "C46",
   "status": "proved",
   "theorems": [
    "Verif.Randgen.C46_large_count",
    "Verif.Randgen.C46_large_count_symmetric",
    "Verif.Randgen.C46_range",
    "Verif.Randgen.C46_limits",
    "Verif.Randgen.C46_small_count",
    "Verif.Randgen.C46_distribution",
    "Verif.Randgen.C46_fallback_range",
    "Verif.Randgen.C46_fallback_choice"
   ],
   "note": "The hybrid sampler and the normal fallback are modelled; the default binomial is jax.random.binomial itself and is outside the model. The distribution theorem is about ideal independent uniform draws."
  },
  {
   "property": "C47",
   "status": "partial",
   "theorems": [
    "Verif.Randgen.C47_program_partial",
    "Verif.Randgen.C47_used_keys_complete",
    "Verif.Randgen.C47_twohalfnorm_reuses"
   ],
   "note": "Holds for programs that do not call twohalfnorm; the negation is proved for twohalfnorm. Keys are free split paths: distinct paths are taken to be distinct keys."
  },
  {
   "property": "C48",
   "status": "partial",
   "theorems": [
    "Verif.Randgen.C48_density",
    "Verif.Randgen.C48_density_error",
    "Verif.Randgen.C48_density_of_priors",
    "Verif.Randgen.C48_rvs_law_partial",
    "Verif.Randgen.C48_vectorised_gap"
   ],
   "note": "Density complete. The array sampler follows the density; the vectorised sampler does not (C48_vectorised_gap)."
  },
  {
   "property": "C49",
   "status": "proved",
   "theorems": [
    "Verif.Randgen.C49_truncated",
    "Verif.Randgen.C49_truncated_inside",
    "Verif.Randgen.C49_generalized",
    "Verif.Randgen.C49_generalized_elementwise",
    "Verif.Randgen.C49_generalized_ends"
   ],
   "note": ""
  },
  {
   "property": "C50",
   "status": "proved",
   "theorems": [
    "Verif.Plugins.C50_er",
    "Verif.Plugins.C50_nr",
    "Verif.Plugins.C50_nest_er",
    "Verif.Plugins.C50_sampler",
    "Verif.Plugins.C50_yields"
   ],
   "note": "Draws enter as arguments constrained only by the range of their distribution (C46, C47 cover the samplers). No integer overflow; casts of NaN give 0."
  },
  {
   "property": "C51",
   "status": "proved",
   "theorems": [
    "Verif.Plugins.C51_efficiency",
    "Verif.Plugins.C51_nan",
    "Verif.Plugins.C51_threshold",
    "Verif.Plugins.C51_clip",
    "Verif.Plugins.C51_band"
   ],
   "note": "Map values are arbitrary arguments, NaN and infinities included; C51_nan says what NaN does."
  },
  {
   "property": "C52",
   "status": "proved",
   "theorems": [
    "Verif.Plugins.C52_er_drawn_recombination",
    "Verif.Plugins.C52_nr_quanta",
    "Verif.Plugins.C52_nr_box",
    "Verif.Plugins.C52_nr_fluctuation",
    "Verif.Plugins.C52_er_quanta",
    "Verif.Plugins.C52_quanta",
    "Verif.Plugins.C52_ions",
    "Verif.Plugins.C52_recombination",
    "Verif.Plugins.C52_ion_fraction",
    "Verif.Plugins.C52_negative_excitons",
    "Verif.Plugins.C52_yields",
    "Verif.Plugins.C52_nr_rolloff",
    "Verif.Plugins.C52_validity",
    "Verif.Plugins.C52_variance",
    "Verif.Plugins.C52_er_yields",
    "Verif.Plugins.C52_density_cancels",
    "Verif.Plugins.C52_er_ratio",
    "Verif.Plugins.C52_er_recombination",
    "Verif.Plugins.C52_fano",
    "Verif.Plugins.C52_fano_at_zero",
    "Verif.Plugins.C52_mean_recombination",
    "Verif.Plugins.C52_box"
   ],
   "note": "As stated. C52_negative_excitons and C52_fano_at_zero are the recorded exceptions."
  },
  {
   "property": "C53",
   "status": "proved",
   "theorems": [
    "Verif.Plugins.C53_s1",
    "Verif.Plugins.C53_detection_probability",
    "Verif.Plugins.C53_s2",
    "Verif.Plugins.C53_survival"
   ],
   "note": "Draws enter as arguments constrained only by the range of their distribution."
  },
  {
   "property": "C54",
   "status": "proved",
   "theorems": [
    "Verif.Conf.C54_first_candidate",
    "Verif.Conf.C54_idempotent",
    "Verif.Conf.C54_url_base_must_be_string"
   ],
   "note": "url_base unset or a string; C54_url_base_must_be_string covers the rest."
  },
  {
   "property": "C55",
   "status": "partial",
   "theorems": [
    "Verif.Utils.C55_two_decimals_partial",
    "Verif.Utils.C55_ten_times_too_large",
    "Verif.Utils.C55_whole_memory",
    "Verif.Utils.C55_correct_iff",
    "Verif.Utils.C55_out_of_range"
   ],
   "note": "Proved for requests from ten to ninety-nine percent. C55_ten_times_too_large and C55_whole_memory prove the negation below ten percent and at the whole memory; C55_correct_iff says exactly when it is right. Rounding of the float product is not modelled."
  },
  {
   "property": "C56",
   "status": "partial",
   "theorems": [
    "Verif.Utils.C56_never_overwrites_partial",
    "Verif.Utils.C56_dotted_module_overwrites",
    "Verif.Utils.C56_dotted_module_always_overwrites",
    "Verif.Utils.C56_success_registers_all",
    "Verif.Utils.C56_only_extension_names",
    "Verif.Utils.C56_clash_refused",
    "Verif.Utils.C56_alias_refused"
   ],
   "note": "Proved for module names without a dot. C56_dotted_module_overwrites proves the negation for extensions in a package."
  },
  {
   "property": "C57",
   "status": "proved",
   "theorems": [
    "Verif.Utils.C57_checksum_of_whole_content",
    "Verif.Utils.C57_blocks"
   ],
   "note": "The hash is an arbitrary streaming fold over bytes."
  },
  {
   "property": "C58",
   "status": "proved",
   "theorems": [
    "Verif.Plot.C58_linear",
    "Verif.Plot.C58_log",
    "Verif.Plot.C58_log_bars_shifted",
    "Verif.Plot.C58_zero_bins",
    "Verif.Plot.C58_selection",
    "Verif.Plot.C58_collapse"
   ],
   "note": "Over the reals. C58_log_bars_shifted shows that on logarithmic axes the bars drawn lie left of their bins."
  },
  {
   "property": "C59",
   "status": "proved",
   "theorems": [
    "Verif.Plot.C59_window_in_use",
    "Verif.Plot.C59_next_pow_two",
    "Verif.Plot.C59_window_partial",
    "Verif.Plot.C59_no_window_found",
    "Verif.Plot.C59_window_negation",
    "Verif.Plot.C59_chain_aligned",
    "Verif.Plot.C59_thinning",
    "Verif.Plot.C59_best_fit_outside_chain"
   ],
   "note": "As stated; C59_window_in_use covers the window. Taken alone the helper returns window 0 for a mask without a failing index (C59_no_window_found, C59_window_negation), but such a mask cannot come from chains that are not constant. C59_best_fit_outside_chain shows the best fit can be missing from the filtered chain."
  },
  {
   "property": "C60",
   "status": "partial",
   "theorems": [
    "Verif.Comp.C60_profiling_runs_data_flow_partial",
    "Verif.Comp.C60_single_run_is_simulation_partial",
    "Verif.Comp.C60_deterministic_same_data_partial",
    "Verif.Comp.C60_first_output_overridden",
    "Verif.Comp.C60_other_input_name",
    "Verif.Comp.C60_missing_value",
    "Verif.Comp.C60_no_runs",
    "Verif.Comp.C60_context_reports_each_component",
    "Verif.Comp.C60_context_key_collision"
   ],
   "note": "Holds for plugins looked up under their first output; C60_first_output_overridden, C60_other_input_name and C60_context_key_collision are the exceptions, proved as negations. Clock readings are not modelled."
  },
  {
   "property": "C61",
   "status": "partial",
   "theorems": [
    "Verif.Fit.C61_fit_writes",
    "Verif.Fit.C61_continuation_writes",
    "Verif.Fit.C61_attributes_in_order",
    "Verif.Fit.C61_crashed_fit_partial",
    "Verif.Fit.C61_history_of_fits_partial",
    "Verif.Fit.C61_crashed_continuation_partial",
    "Verif.Fit.C61_continuation_half_read"
   ],
   "note": "Holds for every history of fits and every crash point, and for continuations that keep the instruction or the batch size. C61_continuation_half_read proves the negation for the others."
  },
  {
   "property": "C62",
   "status": "proved",
   "theorems": [
    "Verif.Shipped.C62_registration",
    "Verif.Shipped.C62_any_request",
    "Verif.Shipped.C62_unknown_request"
   ],
   "note": "The class attributes are generated from the source text by tools/shipped.py; two classes with equal attributes are identified. The functions of the plugins are arbitrary of the declared arities."
  },
  {
   "property": "C63",
   "status": "partial",
   "theorems": [
    "Verif.Interp.C63_node_overflow",
    "Verif.Interp.C63_infinite_at_nodes",
    "Verif.Interp.C63_small_entries_partial"
   ],
   "note": "Does not hold: C63_infinite_at_nodes proves the negation for entries of at least four; C63_small_entries_partial covers entries of at most two."
  },
  {
   "property": "C64",
   "status": "partial",
   "theorems": [
    "Verif.Interp.C64_quantiles_too_low",
    "Verif.Interp.C64_uniform_median_is_wrong",
    "Verif.MapFile.C64_given_cdf_partial",
    "Verif.MapFile.C64_within_half_a_step_partial"
   ],
   "note": "Does not hold: the cdf value at x[k+1] is paired with the midpoint below it (C64_quantiles_too_low); the median of a flat pdf on three points comes out at 1/4 (C64_uniform_median_is_wrong). Proved in part: a map given as a cdf has exactly the tabulated distribution (C64_given_cdf_partial); one given as a pdf is off by at most half a table step (C64_within_half_a_step_partial)."
  },
  {
   "property": "C65",
   "status": "proved",
   "theorems": [
    "Verif.Ctx.C65_events_are_summed",
    "Verif.Ctx.C65_error"
   ],
   "note": ""
  },
  {
   "property": "C66",
   "status": "partial",
   "theorems": [
    "Verif.Ctx.C66_restored_partial",
    "Verif.Ctx.C66_manual_configuration_is_lost",
    "Verif.Ctx.C66_missing_file_raises"
   ],
   "note": "C66_manual_configuration_is_lost proves the negation for configurations passed by hand."
  },
  {
   "property": "C67",
   "status": "partial",
   "theorems": [
    "Verif.Randgen.C67_scalar_never_below",
    "Verif.Randgen.C67_below_partial"
   ],
   "note": "Violated in the scalar convention (C67_scalar_never_below); the other conventions are covered by C67_below_partial and C48_rvs_law_partial."
  },
  {
   "property": "C68",
   "status": "proved",
   "theorems": [
    "Verif.Randgen.C68_percentiles",
    "Verif.Randgen.C68_symmetric",
    "Verif.Randgen.C68_failure"
   ],
   "note": ""
  },
  {
   "property": "C69",
   "status": "proved",
   "theorems": [
    "Verif.Randgen.C69_law",
    "Verif.Randgen.C69_composition",
    "Verif.Randgen.C69_distribution"
   ],
   "note": "The gamma and Poisson draws of jax are taken to have their documented distributions and to be independent between keys; C69_law then gives the law of the drawn values."
  },
  {
   "property": "C70",
   "status": "proved",
   "theorems": [
    "Verif.Plugins.C70_cylinder",
    "Verif.Plugins.C70_uniform_area",
    "Verif.Plugins.C70_energy",
    "Verif.Plugins.C70_mono"
   ],
   "note": "Over the reals; the uniform draws are ideal."
  },
  {
   "property": "C71",
   "status": "partial",
   "theorems": [
    "Verif.Plugins.C71_exceeds",
    "Verif.Plugins.C71_at_mean",
    "Verif.Plugins.C71_symmetric_partial",
    "Verif.Plugins.C71_bound_partial",
    "Verif.Plugins.C71_amplitude"
   ],
   "note": "Does not hold: C71_exceeds proves the negation for every nonzero skewness. C71_symmetric_partial and C71_bound_partial give what does hold."
  },
  {
   "property": "C72",
   "status": "proved",
   "theorems": [
    "Verif.Plugins.C72_moments"
   ],
   "note": "Over the reals, with ideal normal draws."
  },
  {
   "property": "C73",
   "status": "proved",
   "theorems": [
    "Verif.Shipped.C73_component_needs",
    "Verif.Shipped.C73_parameters_match"
   ],
   "note": "For the four shipped instruction files; histograms and simulations are arbitrary."
  },
  {
   "property": "C74",
   "status": "partial",
   "theorems": [
    "Verif.Llh.C74_at_most_one_simulated",
    "Verif.Llh.C74_second_refused",
    "Verif.Llh.C74_duplicate_refused",
    "Verif.Llh.C74_failure_keeps_likelihood",
    "Verif.Llh.C74_first_accepted_partial",
    "Verif.Llh.C74_components",
    "Verif.Llh.C74_fixed_accepted"
   ],
   "note": "Does not hold: C74_at_most_one_simulated and C74_second_refused prove the negation; C74_first_accepted_partial is what does hold. A name in use is refused and a failed registration leaves the likelihood as it was (C74_duplicate_refused, C74_failure_keeps_likelihood)."
  },
  {
   "property": "C75",
   "status": "partial",
   "theorems": [
    "Verif.Plot.C75_collects_each_map_once",
    "Verif.Plot.C75_one_file_per_figure_partial",
    "Verif.Plot.C75_sigma_map_keeps_upper_only",
    "Verif.Plot.C75_same_base_name_overwrites",
    "Verif.Plot.C75_negation"
   ],
   "note": "C75_sigma_map_keeps_upper_only and C75_same_base_name_overwrites prove the negation; the partial theorem covers maps with one figure each and distinct base names."
  },
  {
   "property": "C76",
   "status": "proved",
   "theorems": [
    "Verif.Plot.C76_fft_is_direct_sum",
    "Verif.Plot.C76_normalised",
    "Verif.Plot.C76_constant_chain",
    "Verif.Plot.C76_reported_time"
   ],
   "note": "Over exact real and complex numbers; the Fourier transforms are their definitions. For a constant chain the code divides zero by zero (C76_constant_chain)."
  },
  {
   "property": "C77",
   "status": "partial",
   "theorems": [
    "Verif.Plot.C77_accepted_iff_moved",
    "Verif.Plot.C77_cumulative",
    "Verif.Plot.C77_curves_are_fractions",
    "Verif.Plot.C77_moving_average",
    "Verif.Plot.C77_long_window",
    "Verif.Plot.C77_walker_panel",
    "Verif.Plot.C77_walker_panel_negation",
    "Verif.Plot.C77_thinning_inflates"
   ],
   "note": "The curves are as stated. The panel per walker averages the cumulative fractions (C77_walker_panel_negation) and thinned chains count moves over several steps as one (C77_thinning_inflates)."
  },
  {
   "property": "C78",
   "status": "proved",
   "theorems": [
    "Verif.Randgen.C78_ends_almost_surely",
    "Verif.Randgen.C78_law",
    "Verif.Randgen.C78_mean",
    "Verif.Randgen.C78_distribution_total"
   ],
   "note": ""
  },
  {
   "property": "C79",
   "status": "proved",
   "theorems": [
    "Verif.Llh.C79_bins",
    "Verif.Llh.C79_component_histogram",
    "Verif.Llh.C79_samples_unique",
    "Verif.Llh.C79_log_likelihood",
    "Verif.Llh.C79_posterior"
   ],
   "note": "Over the reals, for finite parameters. The functions of the plugins are arbitrary; plugins are consistent (C10, C11) and return columns. Two simulated components of one likelihood cannot be registered (C74), so such a likelihood has at most one, plus any number of tables."
  },
  {
   "property": "C80",
   "status": "proved",
   "theorems": [
    "Verif.Llh.C80_template_unbiased",
    "Verif.Llh.C80_template_deviation",
    "Verif.Llh.C80_template_converges",
    "Verif.Llh.C80_log_likelihood_converges",
    "Verif.Llh.C80_log_likelihood_low"
   ],
   "note": "Events are ideal: independent with one law. That the shipped plugins draw such events is not part of it. C80_log_likelihood_low is for on_sim templates without the floor and predictions that are positive in every outcome."
  },
  {
   "property": "C81",
   "status": "partial",
   "theorems": [
    "Verif.Lineage.C81_hash_ignores_set_order",
    "Verif.Lineage.C81_component_identified_partial",
    "Verif.Lineage.C81_likelihood_identified_partial",
    "Verif.Lineage.C81_context_identified_partial",
    "Verif.Lineage.C81_floor_missing",
    "Verif.Lineage.C81_scaler_missing",
    "Verif.Lineage.C81_files_read_again",
    "Verif.Lineage.C81_dump",
    "Verif.Lineage.C81_errors",
    "Verif.Lineage.C81_literature_dump",
    "Verif.Lineage.C81_order"
   ],
   "note": "Identification holds up to the floor of the histogram and the parameter scaling a map, which are not in the lineage (C81_floor_missing, C81_scaler_missing), and for files not changed since they were read (C81_files_read_again). Hash and checksum are taken to have no collisions; the hash of nested lists of lists as constants is not covered. Writing fails and leaves an empty file for components with a set of constants (C81_dump)."
  },
  {
   "property": "C82",
   "status": "partial",
   "theorems": [
    "Verif.Declare.C82_declared",
    "Verif.Declare.C82_refused",
    "Verif.Declare.C82_repeated_name",
    "Verif.Declare.C82_instance",
    "Verif.Declare.C82_build_error",
    "Verif.Declare.C82_class_attributes",
    "Verif.Declare.C82_inputs_by_name",
    "Verif.Declare.C82_mismatch_refused",
    "Verif.Declare.C82_shadowed",
    "Verif.Declare.C82_set_partial",
    "Verif.Declare.C82_set_refused",
    "Verif.Declare.C82_set_tolerance",
    "Verif.Declare.C82_shipped",
    "Verif.Declare.C82_shipped_parameters_suffice"
   ],
   "note": "Two configurations of one name in one decoration are accepted and the first is dropped (C82_repeated_name); a configuration can hide a declaration or the method (C82_shadowed); rows of about 100000 numbers may differ in length (C82_set_tolerance). What the shipped code reads is extracted from the source text by tools/shipped_code.py."
  },
  {
   "property": "C83",
   "status": "partial",
   "theorems": [
    "Verif.Recompile.C83_same_as_without_compiling_partial",
    "Verif.Recompile.C83_rounds_partial",
    "Verif.Recompile.C83_other_likelihoods",
    "Verif.Recompile.C83_option_missing",
    "Verif.Recompile.C83_errors",
    "Verif.Recompile.C83_text_is_cut",
    "Verif.Recompile.C83_seeds_collide"
   ],
   "note": "Holds as stated if the option g4 is configured and, for events from files, given as a list. Without the option every call raises KeyError (C83_option_missing); a file name given as text is cut to its first character (C83_text_is_cut); rounds whose keys have equal sums share a seed (C83_seeds_collide). Only the entry g4 of the configuration is modelled, compilation is an argument."
  },
  {
   "property": "C84",
   "status": "proved",
   "theorems": [
    "Verif.Show.C84_rows",
    "Verif.Show.C84_current_used",
    "Verif.Show.C84_after_use",
    "Verif.Show.C84_errors",
    "Verif.Show.C84_shared_option_twice"
   ],
   "note": "An option set per likelihood without this one makes the table a KeyError where building gives ValueError (C84_errors); an option shared by two plugins is listed for each (C84_shared_option_twice)."
  },
  {
   "property": "C85",
   "status": "partial",
   "theorems": [
    "Verif.Show.C85_copy",
    "Verif.Show.C85_copy_succeeds",
    "Verif.Show.C85_copy_simulates_partial",
    "Verif.Show.C85_rate_lost",
    "Verif.Show.C85_name_taken",
    "Verif.Show.C85_later_plugins_lost",
    "Verif.Show.C85_shipped"
   ],
   "note": "Proved for originals with no plugins registered after construction and up to the rate. False otherwise: the rate name is lost, so the histogram of a copy is a KeyError (C85_rate_lost); later plugins are lost (C85_later_plugins_lost); a second copy under the default name cannot be deduced (C85_name_taken)."
  },
  {
   "property": "C86",
   "status": "partial",
   "theorems": [
    "Verif.Graph.C86_data_graph",
    "Verif.Graph.C86_drawable",
    "Verif.Graph.C86_plugin_graph",
    "Verif.Graph.C86_labels_partial",
    "Verif.Graph.C86_not_drawn",
    "Verif.Graph.C86_plugins_not_drawn",
    "Verif.Graph.C86_labels_lost",
    "Verif.Graph.C86_same_name"
   ],
   "note": "All but the labels. with_data_names is not handed to the recursive calls, so only requested plugins show their data (C86_labels_lost, C86_labels_partial). Plugins of the same name are drawn as one (C86_same_name)."
  },
  {
   "property": "C87",
   "status": "partial",
   "theorems": [
    "Verif.Llh.C87_template_partial",
    "Verif.Llh.C87_errors",
    "Verif.Llh.C87_alias_missing",
    "Verif.Llh.C87_alias_wrong"
   ],
   "note": "Holds when no parameter of the component is the name or target of an alias (C87_template_partial). Aliases are not applied: with an aliased parameter the template is a KeyError (C87_alias_missing) or silently made of the parameter of that name of another likelihood (C87_alias_wrong)."
  },
  {
   "property": "C88",
   "status": "partial",
   "theorems": [
    "Verif.Plot.C88_drawn",
    "Verif.Plot.C88_shape_partial",
    "Verif.Plot.C88_too_low",
    "Verif.Plot.C88_outside",
    "Verif.Plot.C88_uniform",
    "Verif.Plot.C88_density_exists",
    "Verif.Plot.C88_unknown",
    "Verif.Plot.C88_other"
   ],
   "note": "The curve is the density times the mass the curve has in the allowed range (C88_shape_partial). The allowed range is ignored by the plot: normal and two-half-normal curves lie below the density (C88_too_low), curves go on where the prior is zero (C88_outside), uniform ones have the right height only if the range is as wide as the interval (C88_uniform)."
  },
  {
   "property": "C89",
   "status": "partial",
   "theorems": [
    "Verif.Plot.C89_lines",
    "Verif.Plot.C89_labels_partial",
    "Verif.Plot.C89_no_iteration_left",
    "Verif.Plot.C89_posterior_limits",
    "Verif.Plot.C89_shifted"
   ],
   "note": "Which values are shown and their order is right (C89_lines); the labels are right without thinning and dropped iterations (C89_labels_partial). Otherwise points stand too far left by thin - 1 and by thin for each dropped iteration before them (C89_lines, C89_shifted)."
  },
  {
   "property": "C90",
   "status": "partial",
   "theorems": [
    "Verif.HistPlot.C90_picture_partial",
    "Verif.HistPlot.C90_colours_ordered",
    "Verif.HistPlot.C90_events",
    "Verif.HistPlot.C90_given_limits",
    "Verif.HistPlot.C90_other_shape",
    "Verif.HistPlot.C90_empty",
    "Verif.HistPlot.C90_nan_blanks_all",
    "Verif.HistPlot.C90_infinite_flattens"
   ],
   "note": "True for finite contents and bins with an area (C90_picture_partial, C90_given_limits, C90_colours_ordered, C90_events). Without explicit limits one NaN content, or with density one empty bin without area, removes the colours of all bins (C90_nan_blanks_all) and one infinite content gives all finite bins the same colour (C90_infinite_flattens). Histograms of another shape: C90_other_shape, C90_empty."
  },
  {
   "property": "C91",
   "status": "partial",
   "theorems": [
    "Verif.Single.C91_counts",
    "Verif.Single.C91_exact_partial",
    "Verif.Single.C91_events_lost",
    "Verif.Single.C91_fraction_vanishes",
    "Verif.Single.C91_weights",
    "Verif.Single.C91_order_matters"
   ],
   "note": "Exact up to 2^24 events (C91_exact_partial, C91_counts), weights up to a factor (1 \u00b1 2^-24)^m for m events in the bin (C91_weights). Beyond 2^24 events per bin all further ones are lost (C91_events_lost), so that the counted fraction goes to zero with the batch size (C91_fraction_vanishes); with weights the order of events matters (C91_order_matters). The default batch size is safe."
  },
  {
   "property": "C92",
   "status": "partial",
   "theorems": [
    "Verif.MapFile.C92_point_accepted",
    "Verif.MapFile.C92_regbin_accepted",
    "Verif.MapFile.C92_other_types",
    "Verif.MapFile.C92_missing_entries",
    "Verif.MapFile.C92_pdf_file",
    "Verif.MapFile.C92_name_in_list_not_converted",
    "Verif.MapFile.C92_one_axis_never_applies",
    "Verif.MapFile.C92_applies_partial",
    "Verif.MapFile.C92_bounds_2d",
    "Verif.MapFile.C92_bounds_3d",
    "Verif.MapFile.C92_stored_value_at_nodes",
    "Verif.MapFile.C92_stored_value_at_nodes_3d",
    "Verif.MapFile.C92_misnamed"
   ],
   "note": "A regular binning with one axis is accepted with every method and then raises at every position (C92_one_axis_never_applies): linspace of edges of shape (1,) gives searchsorted a two-dimensional table. A point map named pdf inside a list is not converted. All other parts hold."
  },
  {
   "property": "C93",
   "status": "partial",
   "theorems": [
    "Verif.MapFile.C93_every_default_builds",
    "Verif.MapFile.C93_every_map_listed",
    "Verif.MapFile.C93_every_file_used",
    "Verif.MapFile.C93_only_declared",
    "Verif.MapFile.C93_sigma",
    "Verif.MapFile.C93_declared",
    "Verif.MapFile.C93_efficiency",
    "Verif.MapFile.C93_threefold",
    "Verif.MapFile.C93_spectrum",
    "Verif.MapFile.C93_yields",
    "Verif.MapFile.C93_positions",
    "Verif.MapFile.C93_areas",
    "Verif.MapFile.C93_lifetime_and_resolution",
    "Verif.MapFile.C93_events_inside",
    "Verif.MapFile.C93_field_infinite_at_a_node"
   ],
   "note": "Holds over the reals. In float32 the constant field map is infinite at its nodes, some of which lie in the default volume (C93_field_infinite_at_a_node, an instance of C63)."
  },
  {
   "property": "C94",
   "status": "proved",
   "theorems": [
    "Verif.Prof.C94_same_as_untimed",
    "Verif.Prof.C94_lines_and_readings",
    "Verif.Prof.C94_mean_and_std",
    "Verif.Prof.C94_times_add_up",
    "Verif.Prof.C94_overhead",
    "Verif.Prof.C94_parameters",
    "Verif.Prof.C94_full",
    "Verif.Prof.C94_context",
    "Verif.Prof.C94_compare",
    "Verif.Prof.C94_summary",
    "Verif.Prof.C94_summary_negative",
    "Verif.Prof.C94_not_ready"
   ],
   "note": "The clock and the keys are arbitrary functions of the number of the reading. Without timed runs the means are NaN and the overhead is reported as zero."
  },
  {
   "property": "C95",
   "status": "proved",
   "theorems": [
    "Verif.Wrap.C95_binding",
    "Verif.Wrap.C95_call",
    "Verif.Wrap.C95_same_by_position_and_keyword",
    "Verif.Wrap.C95_without_parameters"
   ],
   "note": "Methods with plain parameters, as all decorated ones have. The method itself is an arbitrary function of its bound arguments."
  },
  {
   "property": "C96",
   "status": "proved",
   "theorems": [
    "Verif.Names.C96_each_module_once",
    "Verif.Names.C96_package_first",
    "Verif.Names.C96_submodule",
    "Verif.Names.C96_imports",
    "Verif.Names.C96_origin",
    "Verif.Names.C96_exported_list",
    "Verif.Names.C96_star",
    "Verif.Names.C96_package",
    "Verif.Names.C96_overwritten_plugin",
    "Verif.Names.C96_use"
   ],
   "note": "The statements of all modules are read from the source by tools/shipped_names.py. Both branches of conditional statements are taken one after the other and optional packages count as installed. Attributes of objects that are not modules are not followed."
  },
  {
   "property": "C97",
   "status": "partial",
   "theorems": [
    "Verif.MapPic.C97_request",
    "Verif.MapPic.C97_request_depends_on_set_order",
    "Verif.MapPic.C97_last_build",
    "Verif.MapPic.C97_only_last_file_drawn",
    "Verif.MapPic.C97_unbuilt_map",
    "Verif.MapPic.C97_axes",
    "Verif.MapPic.C97_bars_of_a_map_that_never_applies",
    "Verif.MapPic.C97_band",
    "Verif.MapPic.C97_lengths",
    "Verif.MapPic.C97_band_lengths",
    "Verif.MapPic.C97_band_on_bins",
    "Verif.MapPic.C97_first_letter_shown",
    "Verif.MapPic.C97_three_images",
    "Verif.MapPic.C97_axes_of_the_median",
    "Verif.MapPic.C97_line",
    "Verif.MapPic.C97_nearest_table_not_a_line",
    "Verif.MapPic.C97_log_table",
    "Verif.MapPic.C97_image",
    "Verif.MapPic.C97_image_at_nodes",
    "Verif.MapPic.C97_linear_grid_between_nodes"
   ],
   "note": "Proved for tables with the methods IDW and LERP (C97_line, C97_band), for grids of two axes with NN (C97_image) and for the nodes with LERP (C97_image_at_nodes). Violated by tables with NN, logarithmic tables, linear grids between the nodes, grids of one axis, maps with three files of different axes, maps with different files per likelihood, and different requests for the names of one map. Images of IDW grids between the nodes are not compared."
  },
  {
   "property": "C98",
   "status": "proved",
   "theorems": [
    "Verif.Plugins.C98_cs1",
    "Verif.Plugins.C98_cs1_misplaced",
    "Verif.Plugins.C98_cs1_saturates",
    "Verif.Plugins.C98_cs2",
    "Verif.Plugins.C98_cs2_saturates",
    "Verif.Plugins.C98_hybrid_fair",
    "Verif.Plugins.C98_cs1_shipped",
    "Verif.Plugins.C98_cs2_ideal",
    "Verif.Plugins.C98_energy",
    "Verif.Plugins.C98_position"
   ],
   "note": "For any samplers with the right means (C98_cs1, C98_cs2); the shipped binomial sampler has it up to its threshold (C98_hybrid_fair), so C98_cs1_shipped assumes nothing of the sampler; ideal samplers for S2 are constructed (C98_cs2_ideal). Above its threshold the shipped sampler rounds a normal number with corrections and its mean is not claimed."
  },
  {
   "property": "C99",
   "status": "partial",
   "theorems": [
    "Verif.Randgen.C99_uniform",
    "Verif.Randgen.C99_uniform_reversed",
    "Verif.Randgen.C99_normal",
    "Verif.Randgen.C99_gamma",
    "Verif.Randgen.C99_bernoulli",
    "Verif.Randgen.C99_skewnormal",
    "Verif.Randgen.C99_truncated_partial",
    "Verif.Randgen.C99_truncated_has_atoms",
    "Verif.Randgen.C99_source_exists"
   ],
   "note": "Laws proved as equalities of measures, the skew-normal density by exchanging the two normal numbers. The truncated sampler is a clipped one: C99_truncated_partial gives its law, C99_truncated_has_atoms shows that it is not the truncated normal law. With exchanged limits the uniform sampler silently returns the lower one (C99_uniform_reversed). Binomial, negative binomial, Poisson, generalized Poisson and two-half-normal samplers are C46, C69, C78 and C48."
  },
  {
   "property": "C100",
   "status": "partial",
   "theorems": [
    "Verif.Messages.C100_same_outcome",
    "Verif.Messages.C100_text",
    "Verif.Messages.C100_conflict_partial",
    "Verif.Messages.C100_conflict_files_exchanged",
    "Verif.Messages.C100_missing_dependency",
    "Verif.Messages.C100_first_missing_request",
    "Verif.Messages.C100_missing_parameters",
    "Verif.Messages.C100_not_existing_partial",
    "Verif.Messages.C100_existing_name_given_back",
    "Verif.Messages.C100_not_needed",
    "Verif.Messages.C100_argument"
   ],
   "note": "The functions with messages are proved to fail exactly where the functions of the other models do (C100_same_outcome). The message about two defaults always gives the default of one plugin as that of the other (C100_conflict_files_exchanged, for every registry), C100_conflict_partial is what holds. check_parameter_exist returns an existing single name as the names that do not exist (C100_existing_name_given_back), C100_not_existing_partial covers lists, sets and dictionaries."
  },
  {
   "property": "C101",
   "status": "partial",
   "theorems": [
    "Verif.Files.C101_format",
    "Verif.Files.C101_not_found",
    "Verif.Files.C101_lines_indented_partial",
    "Verif.Files.C101_string_lines_run_together",
    "Verif.Files.C101_string_negation",
    "Verif.Files.C101_svg_partial",
    "Verif.Files.C101_svg_of_another_graph",
    "Verif.Files.C101_svg_missing",
    "Verif.Files.C101_save_code_partial",
    "Verif.Files.C101_save_code_empties_file",
    "Verif.Files.C101_dump_without_fit",
    "Verif.Files.C101_dump_partial",
    "Verif.Files.C101_dump_half_written",
    "Verif.Files.C101_plots_saved",
    "Verif.Files.C101_plots_stop",
    "Verif.Files.C101_plots_refused",
    "Verif.Files.C101_plots_not_saved"
   ],
   "note": "Proved except where the code violates it: C101_string_lines_run_together (a string never keeps a line break), C101_svg_of_another_graph, C101_save_code_empties_file and C101_dump_half_written, each for all inputs of the kind. The _partial theorems are what holds. C101_plots_saved needs no condition on the formats because the names of the plots have no dots."
  },
  {
   "property": "C102",
   "status": "partial",
   "theorems": [
    "Verif.Files.C102_timed_is_the_function",
    "Verif.Files.C102_forms",
    "Verif.Files.C102_name_lost",
    "Verif.Files.C102_timed_simulate_refused"
   ],
   "note": "C102_timed_is_the_function is for every function that only adds to the printed lines. timeit does not use functools.wraps: C102_name_lost, C102_timed_simulate_refused."
  },
  {
   "property": "C103",
   "status": "proved",
   "theorems": [
    "Verif.Plugins.C103_electrons",
    "Verif.Plugins.C103_photons",
    "Verif.Plugins.C103_detected",
    "Verif.Plugins.C103_extracted",
    "Verif.Plugins.C103_moments",
    "Verif.Plugins.C103_photoelectrons",
    "Verif.Plugins.C103_hybrid",
    "Verif.Plugins.C103_electrons_shipped"
   ],
   "note": "The samplers are assumed independent with binomial laws; C103_hybrid shows it for the shipped sampler within its threshold, where it makes the trials, and C103_electrons_shipped is the law without assumption on samplers. Independence of the draws of different plugins is the ideal source of C99; rounding of single precision is not modelled."
  },
  {
   "property": "C104",
   "status": "partial",
   "theorems": [
    "Verif.Summary.C104_components",
    "Verif.Summary.C104_parameters",
    "Verif.Summary.C104_entries",
    "Verif.Summary.C104_binned",
    "Verif.Summary.C104_literature",
    "Verif.Summary.C104_determines",
    "Verif.Summary.C104_context",
    "Verif.Summary.C104_failed_check",
    "Verif.Summary.C104_needed_partial",
    "Verif.Summary.C104_alias_not_shown",
    "Verif.Summary.C104_worksheet",
    "Verif.Summary.C104_row",
    "Verif.Summary.C104_before_deduce"
   ],
   "note": "The parameters shown are those needed if there are no aliases (C104_needed_partial); with an alias they are not, C104_alias_not_shown. Everything else is proved. The text of sets, arrays and nested lists is a parameter."
  },
  {
   "property": "C105",
   "status": "partial",
   "theorems": [
    "Verif.Session.C105_frozen",
    "Verif.Session.C105_compile_reads_current",
    "Verif.Session.C105_set_then_compile",
    "Verif.Session.C105_sigma_stuck",
    "Verif.Session.C105_deduce_again",
    "Verif.Session.C105_file_name_refused",
    "Verif.Session.C105_url_base_must_exist",
    "Verif.Session.C105_context_options",
    "Verif.Session.C105_needed",
    "Verif.Session.C105_deduce_stores_defaults",
    "Verif.Session.C105_same_file_refused",
    "Verif.Session.C105_scaler_not_frozen",
    "Verif.Session.C105_clear_forgets",
    "Verif.Session.C105_options_leak_between_contexts",
    "Verif.Session.C105_deduce_keeps"
   ],
   "note": "Proved: C105_frozen, C105_compile_reads_current, C105_set_then_compile. Violated by the code, and proved so: C105_sigma_stuck, C105_same_file_refused, C105_scaler_not_frozen, C105_deduce_again, C105_file_name_refused, C105_url_base_must_exist, C105_options_leak_between_contexts, C105_clear_forgets."
  },
  {
   "property": "C106",
   "status": "partial",
   "theorems": [
    "Verif.Llh.C106_setup_portable",
    "Verif.Llh.C106_independent",
    "Verif.Llh.C106_made",
    "Verif.Llh.C106_not_made",
    "Verif.Llh.C106_clear",
    "Verif.Llh.C106_name_taken",
    "Verif.Llh.C106_again_refused",
    "Verif.Llh.C106_failure_takes_names",
    "Verif.Llh.C106_fixed_again",
    "Verif.Llh.C106_corrected_instruction_refused"
   ],
   "note": "Proved: C106_independent, C106_clear, C106_fixed_again. Violated by the code, and proved so: C106_name_taken, C106_again_refused, C106_failure_takes_names, C106_corrected_instruction_refused. Options shared by contexts are in C105."
  },
  {
   "property": "C107",
   "status": "partial",
   "theorems": [
    "Verif.Instr.C107_only_known_items",
    "Verif.Instr.C107_misspelt_ignored",
    "Verif.Instr.C107_accepts",
    "Verif.Instr.C107_by_name",
    "Verif.Instr.C107_shorthand",
    "Verif.Instr.C107_missing",
    "Verif.Instr.C107_copy_parameters_needed",
    "Verif.Instr.C107_refused",
    "Verif.Instr.C107_component_refused",
    "Verif.Instr.C107_refused_sets_options",
    "Verif.Instr.C107_copies"
   ],
   "note": "Proved: C107_accepts, C107_by_name, C107_shorthand, C107_missing, C107_refused, C107_component_refused. Violated by the code, and proved so: C107_only_known_items, C107_misspelt_ignored, C107_copy_parameters_needed, C107_refused_sets_options. What is built from the items is in other claims."
  },
  {
   "property": "C108",
   "status": "partial",
   "theorems": [
    "Verif.Keys.C108_seed_partial",
    "Verif.Keys.C108_seeds_coincide",
    "Verif.Keys.C108_refused_seed",
    "Verif.Keys.C108_clock_partial",
    "Verif.Keys.C108_same_microsecond",
    "Verif.Keys.C108_period",
    "Verif.Keys.C108_pigeonhole",
    "Verif.Keys.C108_equal_posteriors"
   ],
   "note": "Proved: C108_seed_partial, C108_clock_partial, C108_refused_seed. Violated by the code, and proved so: C108_seeds_coincide, C108_same_microsecond, C108_period, C108_pigeonhole, C108_equal_posteriors. What jax.random.PRNGKey returns is an assumption of the model."
  },
  {
   "property": "C109",
   "status": "proved",
   "theorems": [
    "Verif.Llh.C109_linear",
    "Verif.Llh.C109_concave",
    "Verif.Llh.C109_best_fit",
    "Verif.Llh.C109_common_factor",
    "Verif.Llh.C109_only_predictions",
    "Verif.Llh.C109_zero_rate_fixed",
    "Verif.Llh.C109_total",
    "Verif.Llh.C109_same_template"
   ],
   "note": "C109_linear, C109_concave, C109_best_fit, C109_common_factor and C109_only_predictions are about get_log_likelihood of likelihoods as built in C79; C109_total and C109_same_template about the predictions there; C109_zero_rate_fixed about the model histogram. Exact arithmetic."
  },
  {
   "property": "C110",
   "status": "proved",
   "theorems": [
    "Verif.Llh.C110_simulated_component_added",
    "Verif.Llh.C110_error_stays",
    "Verif.Llh.C110_fixed_component_anywhere",
    "Verif.Llh.C110_order_matters",
    "Verif.Llh.C110_same_key",
    "Verif.Ctx.C110_likelihood_added",
    "Verif.Ctx.C110_fixed_likelihood_anywhere"
   ],
   "note": "C110_simulated_component_added, C110_error_stays and C110_fixed_component_anywhere are about the model histogram, C110_same_key about weighted data, C110_likelihood_added and C110_fixed_likelihood_anywhere about log_posterior; C110_order_matters is the witness that simulated components do not commute. Exact arithmetic: with floats the sums of C110_fixed_component_anywhere may differ by rounding."
  },
  {
   "property": "C111",
   "status": "partial",
   "theorems": [
    "Verif.Conf.C111_search_partial",
    "Verif.Conf.C111_working_directory",
    "Verif.Conf.C111_configs_not_searched",
    "Verif.Conf.C111_instructs_searched",
    "Verif.Conf.C111_folder_returned",
    "Verif.Conf.C111_relative_url_base",
    "Verif.Conf.C111_absolute"
   ],
   "note": "C111_search_partial holds when the name is not in the working directory nor in the folders configs and instructs; C111_working_directory, C111_configs_not_searched, C111_instructs_searched and C111_folder_returned are the negations; C111_relative_url_base and C111_absolute are proved without restrictions beyond the url base being unset or text."
  },
  {
   "property": "C112",
   "status": "proved",
   "theorems": [
    "Verif.Llh.C112_repeats",
    "Verif.Llh.C112_expectation"
   ],
   "note": "C112_repeats (log posterior with repeats against the averaged prediction, with the case of equality), C112_expectation (expectation over keys of any distribution, with the case of equality)."
  },
  {
   "property": "C113",
   "status": "proved",
   "theorems": [
    "Verif.Equiprob.C113_one_dimension",
    "Verif.Equiprob.C113_two_dimensions",
    "Verif.Equiprob.C113_no_clip",
    "Verif.Equiprob.C113_likelihood_1d",
    "Verif.Equiprob.C113_likelihood_2d"
   ],
   "note": "C113_one_dimension, C113_two_dimensions, C113_no_clip (the functions themselves); C113_likelihood_1d, C113_likelihood_2d (data histogram of a likelihood, for a library whose edges are ascending). The library GOFevaluation is a parameter."
  },
  {
   "property": "C114",
   "status": "proved",
   "theorems": [
    "Verif.Plugins.C114_s2",
    "Verif.Plugins.C114_anticorrelated"
   ],
   "note": "C114_s2 (mean and variance of the S2 photoelectrons, for samplers with the binomial and Poisson laws); C114_anticorrelated (covariance of the corrected signals). Independent draws are iterated integrals; that the shipped and ideal samplers have the laws is C103_hybrid and trials_sampler, quantile_sampler."
  },
  {
   "property": "C115",
   "status": "proved",
   "theorems": [
    "Verif.Walk.C115_stationary",
    "Verif.Walk.C115_parameters",
    "Verif.Walk.C115_density",
    "Verif.Walk.C115_repeats"
   ],
   "note": "C115_stationary (law of walkers, keys and stored values), C115_parameters (law of the positions), C115_density and C115_repeats (what this density is). The stretch move is the default of emcee; emcee is outside the repository and its move is taken from its documentation. Convergence to the stationary law is not claimed."
  },
  {
   "property": "C116",
   "status": "proved",
   "theorems": [
    "Verif.Walk.C116_larger",
    "Verif.Walk.C116_best",
    "Verif.Walk.C116_exact",
    "Verif.Walk.C116_differs"
   ],
   "note": "C116_larger (one walker), C116_best (the largest value among the walkers), C116_exact (no noise) and C116_differs (the difference is strict in a concrete case). The largest value of one iteration is compared, not that of a whole chain."
  },
  {
   "property": "C117",
   "status": "proved",
   "theorems": [
    "Verif.Llh.C117_accepted",
    "Verif.Llh.C117_less_noise"
   ],
   "note": "C117_accepted (fixed events), C117_less_noise (random events). Normalisation on_sim without the floor; with on_pdf or the floor the histogram is not linear in the weights, C80 and C112 treat these."
  },
  {
   "property": "C118",
   "status": "proved",
   "theorems": [
    "Verif.Single.C118_shape",
    "Verif.Single.C118_events",
    "Verif.Single.C118_on_sim",
    "Verif.Single.C118_differs"
   ],
   "note": "C118_shape, C118_events, C118_on_sim, C118_differs. The contents themselves are those of C91, which stop at 2^24 events of weight one."
  },
  {
   "property": "C119",
   "status": "partial",
   "theorems": [
    "Verif.Continue.C119_starts_there_partial",
    "Verif.Continue.C119_other_number",
    "Verif.Continue.C119_own",
    "Verif.Continue.C119_nothing",
    "Verif.Continue.C119_mixed_up"
   ],
   "note": "C119_starts_there_partial (same fitted names), C119_other_number, C119_own, C119_nothing; C119_mixed_up is the violation: other names of the same number are not noticed. How emcee starts is an assumption stated in Model/Continue.lean."
  },
  {
   "property": "C120",
   "status": "partial",
   "theorems": [
    "Verif.Single.C120_off_edges_partial",
    "Verif.Single.C120_neighbour",
    "Verif.Single.C120_lost_events",
    "Verif.Single.C120_grid_keeps",
    "Verif.Single.C120_just_above_an_edge"
   ],
   "note": "C120_off_edges_partial (all four functions), C120_neighbour, C120_lost_events (exactly those rounded to the lowest edge), C120_grid_keeps; C120_just_above_an_edge is the violation. Neighbours and totals are for one dimension."
  },
  {
   "property": "C121",
   "status": "partial",
   "theorems": [
    "Verif.Randgen.C121_spread_partial",
    "Verif.Randgen.C121_mean_partial",
    "Verif.Randgen.C121_shape",
    "Verif.Randgen.C121_fallback_partial",
    "Verif.Randgen.C121_tiny_probability"
   ],
   "note": "C121_spread_partial and C121_mean_partial bound the hybrid sampler with explicit terms that vanish for large and blow up for small variances; C121_fallback_partial bounds the normal approximation by 3/4 and one half; C121_tiny_probability is the violation. C121_shape gives mean, variance and side of the skewness before rounding and clipping. The bounds are in terms of these moments, not of the law."
  },
  {
   "property": "C122",
   "status": "partial",
   "theorems": [
    "Verif.Single.C122_error",
    "Verif.Single.C122_order_partial",
    "Verif.Single.C122_model_bin",
    "Verif.Single.C122_difference_lost"
   ],
   "note": "C122_error is the bound, C122_order_partial what it implies for comparisons, C122_model_bin the sum over components; C122_difference_lost is the violation."
  },
  {
   "property": "C123",
   "status": "proved",
   "theorems": [
    "Verif.Plugins.C123_quanta",
    "Verif.Plugins.C123_small_deposits",
    "Verif.Plugins.C123_ions_NR",
    "Verif.Plugins.C123_electrons_NR",
    "Verif.Plugins.C123_electrons_ER",
    "Verif.Plugins.C123_quanta_ER",
    "Verif.Plugins.C123_recoil_NR"
   ],
   "note": "C123_quanta for deposits, C123_ions_NR and C123_electrons_NR for the two steps of nuclear recoils, C123_recoil_NR for both together, C123_quanta_ER and C123_electrons_ER for NEST electronic recoils; C123_small_deposits shows what the absolute bound does not exclude."
  },
  {
   "property": "C124",
   "status": "partial",
   "theorems": [
    "Verif.Interp.C124_point_map",
    "Verif.Interp.C124_point_map_increases",
    "Verif.Interp.C124_point_map_linear",
    "Verif.Interp.C124_bilinear",
    "Verif.Interp.C124_trilinear",
    "Verif.Interp.C124_bilinear_increases",
    "Verif.Interp.C124_bilinear_continuous_partial",
    "Verif.Interp.C124_idw_jumps",
    "Verif.Interp.C124_idw_not_continuous"
   ],
   "note": "Proved for maps of points (both methods) and for bilinear and trilinear maps. Fails for the default method IDW on regular bins: it averages the corners of the cell of the event only, weighting them with inverse distances, so it jumps where cells meet, by more than half the step between entries even for a linear map (C124_idw_jumps, C124_idw_not_continuous)."
  },
  {
   "property": "C125",
   "status": "proved",
   "theorems": [
    "Verif.Single.C125_error",
    "Verif.Single.C125_small",
    "Verif.Single.C125_order"
   ],
   "note": "C125_error is the bound with the numbers of roundings, C125_small the one in numbers, C125_order the comparison of parameter points. The contents themselves are the subject of C91 and C120."
  },
  {
   "property": "C126",
   "status": "partial",
   "theorems": [
    "Verif.Plot.C126_own_draw",
    "Verif.Plot.C126_own_start",
    "Verif.Plot.C126_independent",
    "Verif.Plot.C126_inside_partial",
    "Verif.Plot.C126_border",
    "Verif.Plot.C126_uniform"
   ],
   "note": "C126_own_draw, C126_own_start and C126_independent are complete; C126_inside_partial is the law inside the allowed range. The code violates the rest: C126_border (clipping puts probability on the ends of the range, where the prior of the fit has none) and C126_uniform (equality of the laws exactly if interval and range agree)."
  },
  {
   "property": "C127",
   "status": "partial",
   "theorems": [
    "Verif.Shipped.C127_options_reach_partial",
    "Verif.Shipped.C127_correction_unused",
    "Verif.Shipped.C127_field_ignored",
    "Verif.Shipped.C127_sigma_options",
    "Verif.Shipped.C127_all"
   ],
   "note": "C127_options_reach_partial covers all options but two; the code violates the statement for these: C127_field_ignored and C127_correction_unused. C127_sigma_options ties the maps with sigma parameters of C73 to the options."
  },
  {
   "property": "C128",
   "status": "partial",
   "theorems": [
    "Verif.Lit.C128_points_partial",
    "Verif.Lit.C128_positive_energy",
    "Verif.Lit.C128_yields",
    "Verif.Lit.C128_negative_theta",
    "Verif.Lit.C128_nan_yield",
    "Verif.Lit.C128_zero_energy",
    "Verif.Lit.C128_band_partial",
    "Verif.Lit.C128_band_mean",
    "Verif.Lit.C128_band_gap",
    "Verif.Lit.C128_shipped_gap",
    "Verif.Lit.C128_shipped_numbers",
    "Verif.Lit.C128_shipped_both",
    "Verif.Lit.C128_shipped_points"
   ],
   "note": "C128_points_partial and C128_band_partial hold where all yields are finite and the band covers the range; C128_band_mean is the average. The code violates the rest: C128_zero_energy, C128_band_gap, and with the shipped data C128_shipped_gap, C128_shipped_numbers and C128_shipped_both."
  },
  {
   "property": "C129",
   "status": "partial",
   "theorems": [
    "Verif.ShippedPars.C129_entries",
    "Verif.ShippedPars.C129_sampling",
    "Verif.ShippedPars.C129_starts",
    "Verif.ShippedPars.C129_probabilities",
    "Verif.ShippedPars.C129_survival_partial",
    "Verif.ShippedPars.C129_rates",
    "Verif.ShippedPars.C129_extraction",
    "Verif.ShippedPars.C129_extraction_flat",
    "Verif.ShippedPars.C129_yields",
    "Verif.ShippedPars.C129_theta",
    "Verif.ShippedPars.C129_names"
   ],
   "note": "C129_survival_partial leaves out the lower end of elife_sigma. The code violates the property for g2 (C129_extraction, C129_extraction_flat) and theta (C129_theta). The solver of two-half-normal errors is assumed to succeed on the shipped errors."
  },
  {
   "property": "C130",
   "status": "proved",
   "theorems": [
    "Verif.Randgen.C130_exactly_one",
    "Verif.Randgen.C130_conversion",
    "Verif.Randgen.C130_solver_independent",
    "Verif.Randgen.C130_symmetries",
    "Verif.Randgen.C130_between",
    "Verif.Randgen.C130_tolerance",
    "Verif.Randgen.C130_shipped"
   ],
   "note": "The solver is an argument: exact in C130_conversion, approximate in C130_tolerance. That scipy finds the solution is not proved."
  },
  {
   "property": "C131",
   "status": "partial",
   "theorems": [
    "Verif.SingleMaps.C131_point_map",
    "Verif.SingleMaps.C131_point_map_signed",
    "Verif.SingleMaps.C131_total",
    "Verif.SingleMaps.C131_bilinear",
    "Verif.SingleMaps.C131_trilinear",
    "Verif.SingleMaps.C131_unit_range",
    "Verif.SingleMaps.C131_bilinear_exceeds",
    "Verif.SingleMaps.C131_bilinear_unit_partial",
    "Verif.SingleMaps.C131_constant_map"
   ],
   "note": "The last sentence holds for point maps and trilinear maps (C131_unit_range) but not for bilinear maps, which multiply the weights first: a map of ones returns 1 + 2^-23 (C131_bilinear_exceeds), and at most 1 + 8 * 2^-24 (C131_bilinear_unit_partial). Constant point maps other than 1 are not returned exactly either (C131_constant_map). Overflow and underflow are not modelled."
  },
  {
   "property": "C132",
   "status": "proved",
   "theorems": [
    "Verif.Plugins.C132_quanta",
    "Verif.Plugins.C132_ions_NR",
    "Verif.Plugins.C132_quanta_ER",
    "Verif.Plugins.C132_electrons_NR",
    "Verif.Plugins.C132_electrons_ER"
   ],
   "note": "Root mean square distances are taken about the mean asked for, of which the true mean differs as stated in C123. The binomial split of the quanta into ions and excitons is covered by C121."
  },
  {
   "property": "C133",
   "status": "proved",
   "theorems": [
    "Verif.Llh.C133_expected",
    "Verif.Llh.C133_truth"
   ],
   "note": "The true means are those predicted by a simulation at the true parameters; how the prediction of a finite batch differs from that of an infinite one is the subject of C80 and C112. Equiprobable bins, whose edges depend on the data, are left out."
  },
  {
   "property": "C134",
   "status": "partial",
   "theorems": [
    "Verif.Llh.C134_data",
    "Verif.Llh.C134_predictions",
    "Verif.Llh.C134_power",
    "Verif.Llh.C134_floor",
    "Verif.Llh.C134_empty_piece"
   ],
   "note": "Holds if every bin holds at least the floor (C134_data, C134_predictions, C134_power). The floor given to nearly empty bins is a fixed content per bin, whatever the size of the bin, so dividing an empty region raises the prediction without bound (C134_floor, C134_empty_piece)."
  },
  {
   "property": "C135",
   "status": "proved",
   "theorems": [
    "Verif.Llh.C135_data",
    "Verif.Llh.C135_histogram",
    "Verif.Llh.C135_weighted",
    "Verif.Llh.C135_log_likelihood"
   ],
   "note": "Numbers are exact; in single precision a conversion may move a value across an edge (C120)."
  },
  {
   "property": "C136",
   "status": "partial",
   "theorems": [
    "Verif.Plot.C136_made",
    "Verif.Plot.C136_panels",
    "Verif.Plot.C136_times",
    "Verif.Plot.C136_criterion_partial",
    "Verif.Plot.C136_thinned_line",
    "Verif.Plot.C136_short",
    "Verif.Plot.C136_stuck",
    "Verif.Plot.C136_one_parameter",
    "Verif.Plot.C136_no_iteration",
    "Verif.Plot.C136_thinned"
   ],
   "note": "C136_thinned, C136_short, C136_stuck and C136_one_parameter prove the violations; the criterion holds without thinning and for at least 100 iterations. The eight lengths between the ends of the abscissa are arbitrary."
  },
  {
   "property": "C137",
   "status": "partial",
   "theorems": [
    "Verif.Plot.C137_colours",
    "Verif.Plot.C137_diagonal",
    "Verif.Plot.C137_made_partial",
    "Verif.Plot.C137_few_samples",
    "Verif.Plot.C137_flat_priors",
    "Verif.Plot.C137_flat_priors_all_plots",
    "Verif.Plot.C137_uniform_fit"
   ],
   "note": "C137_flat_priors and C137_few_samples prove the violations; they rest on the checks of corner.corner (at least as many samples as columns, no constant column), which are taken as given."
  },
  {
   "property": "C138",
   "status": "proved",
   "theorems": [
    "Verif.Llh.C138_rates",
    "Verif.Llh.C138_concave",
    "Verif.Llh.C138_no_dip",
    "Verif.Llh.C138_prior"
   ],
   "note": "C138_rates gives the log posterior as a function of the rates, C138_concave and C138_no_dip its shape, C138_prior the log prior. The keys are the same at the points compared; log_posterior itself takes new keys from the clock at each call, whose noise is the subject of C112."
  },
  {
   "property": "C139",
   "status": "partial",
   "theorems": [
    "Verif.Plot.C139_made",
    "Verif.Plot.C139_bars",
    "Verif.Plot.C139_no_samples",
    "Verif.Plot.C139_legend_partial",
    "Verif.Plot.C139_legend",
    "Verif.Plot.C139_refused",
    "Verif.Plot.C139_nuclear_recoils"
   ],
   "note": "All but the legend is proved. C139_legend_partial covers the figures whose last fitted parameter has a prior, or in which none has one; otherwise the prior is drawn but not named, C139_legend, and C139_nuclear_recoils shows this for the shipped nuclear recoil parameters."
  },
  {
   "property": "C140",
   "status": "partial",
   "theorems": [
    "Verif.Classes.C140_made",
    "Verif.Classes.C140_packaged",
    "Verif.Classes.C140_replaced",
    "Verif.Classes.C140_restored_partial",
    "Verif.Classes.C140_not_restored",
    "Verif.Classes.C140_arguments"
   ],
   "note": "C140_restored_partial covers from_backend of Context itself; C140_not_restored proves that the shipped classes cannot be restored from any file. The rest is proved. The second, optional argument of Context is not modelled here (see C66)."
  },
  {
   "property": "C141",
   "status": "proved",
   "theorems": [
    "Verif.Plugins.C141_s1",
    "Verif.Plugins.C141_s2",
    "Verif.Plugins.C141_recombination",
    "Verif.Plugins.C141_seen",
    "Verif.Plugins.C141_accepted",
    "Verif.Plugins.C141_drift",
    "Verif.Plugins.C141_quanta"
   ],
   "note": "C141_s1 and C141_s2 compare two parameter sets by the probabilities to reach any level, C141_accepted turns this into accepted events, C141_seen is strict. The detection and extraction probabilities are at most one. A larger gas gain or double photoelectron probability is not covered: they lower one step while raising another."
  },
  {
   "property": "C142",
   "status": "proved",
   "theorems": [
    "Verif.Llh.C142_expected",
    "Verif.Llh.C142_truth"
   ],
   "note": "C142_truth compares two parameter points with one evaluation each (repeat_times=1, the default); C142_expected bounds the average for any repeat_times. The same predictions are used for all data sets, that is keys are given. Literature likelihoods are not included."
  },
  {
   "property": "C143",
   "status": "proved",
   "theorems": [
    "Verif.Ctx.C143_bound",
    "Verif.Ctx.C143_narrow_band",
    "Verif.Walk.C143_proper"
   ],
   "note": "C143_bound gives the bound, C143_proper the finite integral, C143_narrow_band the counterexample without positive widths. For literature likelihoods the number of simulated points must be limited, which holds because the component is run with batch size one (C39)."
  },
  {
   "property": "C144",
   "status": "proved",
   "theorems": [
    "Verif.Ctx.C144_likelihood",
    "Verif.Walk.C144_factor",
    "Verif.Walk.C144_posterior"
   ],
   "note": "C144_likelihood, C144_factor and C144_posterior. That a component reads only the parameters it lists is a hypothesis here; for generated simulators it is C11 and C13. The posterior is the density that the sampler leaves unchanged (C115); C144_posterior asks that this density is measurable."
  },
  {
   "property": "C145",
   "status": "proved",
   "theorems": [
    "Verif.Order.C145_likelihood",
    "Verif.Order.C145_posterior",
    "Verif.Order.C145_given_keys"
   ],
   "note": "C145_likelihood and C145_posterior; C145_given_keys shows two contexts that differ in order only and have different values for the same keys. That a simulation leaves a key independent of its result, distributed as the key it was given, is a hypothesis about the generator (Fresh); sequences of independent draws satisfy it, and all steps built from such steps do."
  },
  {
   "property": "C146",
   "status": "proved",
   "theorems": [
    "Verif.Repeats.C146_mean_of_keys",
    "Verif.Repeats.C146_noise",
    "Verif.Repeats.C146_limit",
    "Verif.Repeats.C146_sampled"
   ],
   "note": "C146_mean_of_keys, C146_noise, C146_limit and C146_sampled. That the keys of the repetitions are independent is a hypothesis about the clock and the generator (C108). Finite sums in exact arithmetic."
  },
  {
   "property": "C147",
   "status": "proved",
   "theorems": [
    "Verif.Llh.C147_factor",
    "Verif.Llh.C147_balance",
    "Verif.Walk.C147_one_rate",
    "Verif.Walk.C147_gamma"
   ],
   "note": "C147_factor, C147_balance, C147_one_rate and C147_gamma. For the last two the likelihoods have one component each and no aliases. The density at rate exactly 0 is left out: there the code returns minus infinity although the Gamma density is positive if no data event is in the bins. Exact arithmetic."
  },
  {
   "property": "C148",
   "status": "proved",
   "theorems": [
    "Verif.Startup.C148_settings",
    "Verif.Startup.C148_history",
    "Verif.Startup.C148_limit_commutes",
    "Verif.Startup.C148_check"
   ],
   "note": "C148_settings, C148_history, C148_limit_commutes and C148_check. What jax does with the variables is not modelled."
  },
  {
   "property": "C149",
   "status": "proved",
   "theorems": [
    "Verif.Llh.C149_difference",
    "Verif.Llh.C149_closer",
    "Verif.Llh.C149_best",
    "Verif.Llh.C149_repeated"
   ],
   "note": "C149_difference, C149_closer, C149_best and C149_repeated. Bands are not covered: there the error depends on the energy drawn, and so does the normalisation."
  },
  {
   "property": "C150",
   "status": "proved",
   "theorems": [
    "Verif.Llh.C150_agree_twohalfnorm",
    "Verif.Llh.C150_agree_norm",
    "Verif.Llh.C150_refused_twohalfnorm",
    "Verif.Llh.C150_refused_norm",
    "Verif.Llh.C150_values_twohalfnorm",
    "Verif.Llh.C150_values_norm"
   ],
   "note": "C150_agree_twohalfnorm, C150_agree_norm, C150_refused_twohalfnorm, C150_refused_norm, C150_values_twohalfnorm and C150_values_norm. The model of numpy is the rule for one-dimensional arrays (common and spread in Model/Likelihood.lean)."
  },
  {
   "property": "C151",
   "status": "proved",
   "theorems": [
    "Verif.Llh.C151_data",
    "Verif.Llh.C151_histogram",
    "Verif.Llh.C151_split"
   ],
   "note": "C151_data, C151_histogram and C151_split. The bins are those of the configuration: equiprobable bins are computed from the data, so they differ between runs. All evaluations use the same key, and no plugin reads a rate (RateFree)."
  },
  {
   "property": "C152",
   "status": "proved",
   "theorems": [
    "Verif.Llh.C152_order",
    "Verif.Llh.C152_outside",
    "Verif.Llh.C152_likelihood"
   ],
   "note": "C152_order, C152_outside and C152_likelihood. That GOFevaluation finds the same equiprobable edges for the events in any order is an assumption (Equi.Symmetric), since the library is not part of the repository; for other bins it is not needed but asked for all the same."
  },
  {
   "property": "C153",
   "status": "proved",
   "theorems": [
    "Verif.Walk.C153_names",
    "Verif.Walk.C153_posterior",
    "Verif.Walk.C153_density",
    "Verif.Walk.C153_conditional",
    "Verif.Walk.C153_evidence"
   ],
   "note": "C153_names, C153_posterior, C153_density, C153_conditional and C153_evidence. The parameter must hold its fixed value, which is so after construction and after sample_prior and sample_init (C02); a value given to a fixed parameter by set_parameter is kept, not refused. Densities carry no normalisation of truncated priors, as in the code."
  },
  {
   "property": "C154",
   "status": "proved",
   "theorems": [
    "Verif.Walk.C154_reweight",
    "Verif.Walk.C154_narrow",
    "Verif.Walk.C154_truncated"
   ],
   "note": "C154_reweight, C154_narrow and C154_truncated. Both settings must be usable (a range is given, standard deviations are not zero, sigmas of a two-half-normal are found); the code does not normalise priors to their range, which is why narrowing changes nothing inside."
  },
  {
   "property": "C155",
   "status": "proved",
   "theorems": [
    "Verif.Ctx.C155_likelihood",
    "Verif.Ctx.C155_fitted",
    "Verif.Ctx.C155_posterior"
   ],
   "note": "C155_likelihood, C155_fitted and C155_posterior, the latter wherever the log prior is finite. Aliases are such that no name is also a target and no target has two names, and no component needs a parameter called like an alias; without that values get lost (C36). That a component reads only the parameters it lists is a hypothesis here; for generated simulators it is C11 and C13."
  },
  {
   "property": "C156",
   "status": "proved",
   "theorems": [
    "Verif.Randgen.C156_values",
    "Verif.Randgen.C156_split",
    "Verif.Randgen.C156_not_updated"
   ],
   "note": "C156_values, C156_split and C156_not_updated. What jax.random.uniform returns for a single key is an argument; the function is exported but not called inside the package."
  },
  {
   "property": "C157",
   "status": "proved",
   "theorems": [
    "Verif.Walk.C157_exchange",
    "Verif.Walk.C157_factors"
   ],
   "note": "C157_exchange and C157_factors, for given keys. How far a likelihood takes its key must not depend on the parameters, as is so for all samplers but generalized_poisson with its loop; averaged over keys the factors share random numbers, since the second likelihood goes on with the key of the first. That likelihoods read only the parameters they list is a hypothesis here, as in C144."
  },
  {
   "property": "C158",
   "status": "proved",
   "theorems": [
    "Verif.Conf.C158_built",
    "Verif.Conf.C158_refused",
    "Verif.Conf.C158_bands"
   ],
   "note": "C158_built, C158_refused, C158_bands. Which files load is a parameter of the model here; what a loaded file must contain is C92."
  }
 ]
}