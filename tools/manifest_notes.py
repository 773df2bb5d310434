# Status and note per property; read by the script that writes MANIFEST.json from the theorem names in lean/Verif/Props.
NOTES = {
 "C04": ("proved", "NaN parameter values pass the range check: C04_nan_passes_range_check records it."),
 "C09": ("proved", "The two histogram functions disagree on edge samples: C09_disagree_on_edges."),
 "C10": ("proved", "Under distinct class names of the needed plugins; C10_same_name_dropped shows the hypothesis is needed."),
 "C11": ("proved", "The claim states its own hypothesis; C11_shadowed_output_used and C11_class_looked_up_by_name are the counterexamples without it."),
 "C14": ("partial", "Rollback on a conflicting registration does not hold: C14_failed_registration_stays proves the negation."),
 "C15": ("partial", "Independence of earlier deduce calls does not hold: C15_force_no_eff_sticky, C15_failed_deduce_changes_weights."),
 "C16": ("partial", "Holds between clear_cache calls; C16_clear_mixes_simulators proves the negation across a clear."),
 "C17": ("proved", "A fixed component with on_sim raises AttributeError: C17_fixed_on_sim_raises."),
 "C19": ("proved", "For every kind of bins: the theorems ending in _any_bins. C19_floor_weights_below_rate, C19_fixed_upper_edge_loses_rate and C19_two_dim_exceeds_rate show the restrictions are needed. C19_no_efficiency_fails: for a component deduced without efficiency there are no weighted data."),
 "C21": ("proved", "Two configurations sharing a name get the first default: C21_first_default_wins."),
 "C22": ("proved", "C22_failure_keeps_earlier_entries and C22_other_entries_dropped record that a failing call is not atomic and that nested entries are replaced as a whole."),
 "C25": ("proved", "Between build and application; C25_set_config_changes_parameter shows the effect of changing the configuration in between."),
 "C26": ("partial", "Holds for named likelihoods when no sub-map name is cached as a plain value. A build without likelihood name fixes the files for all later ones: C26_unnamed_build_pins_files proves the negation."),
 "C27": ("partial", "The part about lineage does not hold: C27_lineage_describes_last_build proves the negation."),
 "C54": ("proved", "url_base unset or a string; C54_url_base_must_be_string covers the rest."),
 "C28": ("proved", "For strictly increasing positions; C28_repeated_position_differs shows the two methods differ otherwise."),
 "C31": ("proved", "Over the reals; C63 covers float32 at nodes."),
 "C32": ("partial", "The build checks and the positivity of the argument hold. A logarithmic point map returns log10 of the stored value: C32_log_point_does_not_return_stored_value proves the negation of that part."),
 "C64": ("partial", "Does not hold: the cdf value at x[k+1] is paired with the midpoint below it (C64_quantiles_too_low); the median of a flat pdf on three points comes out at 1/4 (C64_uniform_median_is_wrong). Proved in part: a map given as a cdf has exactly the tabulated distribution (C64_given_cdf_partial); one given as a pdf is off by at most half a table step (C64_within_half_a_step_partial)."),
 "C63": ("partial", "Does not hold: C63_infinite_at_nodes proves the negation for entries of at least four; C63_small_entries_partial covers entries of at most two."),
 "C34": ("proved", "Explicit edges narrower than the clip drop kept events: C34_narrow_edges_drop_events. Equiprobable inner edges are assumed sorted (they come from GOFevaluation)."),
 "C35": ("proved", "Alias names and targets disjoint, targets distinct; C35_self_alias_loses_parameter shows a parameter aliased to itself is lost."),
 "C36": ("proved", "As stated; no component may need a parameter called like an alias (C36_alias_name_as_parameter_is_lost). C36_chained_aliases_go_wrong covers chains."),
 "C39": ("proved", "For efficiencies that are NaN or not negative; C39_negative_efficiency_gives_plus_infinity shows the restriction is needed."),
 "C41": ("partial", "Copied parameters and all other names are as stated. Sources that are not rate parameters are dropped even when needed (C41_sources_dropped) and a copy of a copy is lost (C41_copy_of_copy_is_lost)."),
 "C42": ("partial", "The code checks the converse inclusion: C42_missing_parameter_passes proves the negation, C42_check_partial what the check does give."),
 "C43": ("partial", "Holds until something is cached. C43_stale_after_query proves that afterwards no fit or continuation changes what queries choose from; C43_continuation_keeps_old_estimate is a concrete history where the stored parameters are not those of the best sample."),
 "C61": ("partial", "Holds for every history of fits and every crash point, and for continuations that keep the instruction or the batch size. C61_continuation_half_read proves the negation for the others."),
 "C44": ("partial", "Proved for plain instructions at the level of characters, and NameError for constants anywhere. C44_astral_character_changes proves the negation for strings with characters outside the basic plane; C44_tuple_becomes_list and C44_integer_key_becomes_string for tuples and integer keys."),
 "C66": ("partial", "C66_manual_configuration_is_lost proves the negation for configurations passed by hand."),

 'C46':('proved','The hybrid sampler and the normal fallback are modelled; the default binomial is jax.random.binomial itself and is outside the model. The distribution theorem is about ideal independent uniform draws.'),
 'C47':('partial','Holds for programs that do not call twohalfnorm; the negation is proved for twohalfnorm. Keys are free split paths: distinct paths are taken to be distinct keys.'),
 'C48':('partial','Density complete. The array sampler follows the density; the vectorised sampler does not (C48_vectorised_gap).'),
 'C67':('partial','Violated in the scalar convention (C67_scalar_never_below); the other conventions are covered by C67_below_partial and C48_rvs_law_partial.'),
 'C69':('proved','The gamma and Poisson draws of jax are taken to have their documented distributions and to be independent between keys; C69_law then gives the law of the drawn values.'),
 'C50':('proved','Draws enter as arguments constrained only by the range of their distribution (C46, C47 cover the samplers). No integer overflow; casts of NaN give 0.'),
 'C51':('proved','Map values are arbitrary arguments, NaN and infinities included; C51_nan says what NaN does.'),
 'C52':('proved','As stated. C52_negative_excitons and C52_fano_at_zero are the recorded exceptions.'),
 'C53':('proved','Draws enter as arguments constrained only by the range of their distribution.'),
 'C70':('proved','Over the reals; the uniform draws are ideal.'),
 'C71':('partial','Does not hold: C71_exceeds proves the negation for every nonzero skewness. C71_symmetric_partial and C71_bound_partial give what does hold.'),
 'C72':('proved','Over the reals, with ideal normal draws.'),
 'C62':('proved','The class attributes are generated from the source text by tools/shipped.py; two classes with equal attributes are identified. The functions of the plugins are arbitrary of the declared arities.'),
 'C73':('proved','For the four shipped instruction files; histograms and simulations are arbitrary.'),
 'C74':('partial','Does not hold: C74_at_most_one_simulated and C74_second_refused prove the negation; C74_first_accepted_partial is what does hold. A name in use is refused and a failed registration leaves the likelihood as it was (C74_duplicate_refused, C74_failure_keeps_likelihood).'),
 'C55':('partial','Proved for requests from ten to ninety-nine percent. C55_ten_times_too_large and C55_whole_memory prove the negation below ten percent and at the whole memory; C55_correct_iff says exactly when it is right. Rounding of the float product is not modelled.'),
 'C56':('partial','Proved for module names without a dot. C56_dotted_module_overwrites proves the negation for extensions in a package.'),
 'C57':('proved','The hash is an arbitrary streaming fold over bytes.'),
 'C59':('proved','As stated; C59_window_in_use covers the window. Taken alone the helper returns window 0 for a mask without a failing index (C59_no_window_found, C59_window_negation), but such a mask cannot come from chains that are not constant. C59_best_fit_outside_chain shows the best fit can be missing from the filtered chain.'),
 'C60':('partial','Holds for plugins looked up under their first output; C60_first_output_overridden, C60_other_input_name and C60_context_key_collision are the exceptions, proved as negations. Clock readings are not modelled.'),
 'C58':('proved','Over the reals. C58_log_bars_shifted shows that on logarithmic axes the bars drawn lie left of their bins.'),
 'C75':('partial','C75_sigma_map_keeps_upper_only and C75_same_base_name_overwrites prove the negation; the partial theorem covers maps with one figure each and distinct base names.'),
 'C76':('proved','Over exact real and complex numbers; the Fourier transforms are their definitions. For a constant chain the code divides zero by zero (C76_constant_chain).'),
 'C77':('partial','The curves are as stated. The panel per walker averages the cumulative fractions (C77_walker_panel_negation) and thinned chains count moves over several steps as one (C77_thinning_inflates).'),
 'C79':('proved','Over the reals, for finite parameters. The functions of the plugins are arbitrary; plugins are consistent (C10, C11) and return columns. Two simulated components of one likelihood cannot be registered (C74), so such a likelihood has at most one, plus any number of tables.'),
 'C80':('proved','Events are ideal: independent with one law. That the shipped plugins draw such events is not part of it. C80_log_likelihood_low is for on_sim templates without the floor and predictions that are positive in every outcome.'),
 'C81':('partial','Identification holds up to the floor of the histogram and the parameter scaling a map, which are not in the lineage (C81_floor_missing, C81_scaler_missing), and for files not changed since they were read (C81_files_read_again). Hash and checksum are taken to have no collisions; the hash of nested lists of lists as constants is not covered. Writing fails and leaves an empty file for components with a set of constants (C81_dump).'),
 'C82':('partial','Two configurations of one name in one decoration are accepted and the first is dropped (C82_repeated_name); a configuration can hide a declaration or the method (C82_shadowed); rows of about 100000 numbers may differ in length (C82_set_tolerance). What the shipped code reads is extracted from the source text by tools/shipped_code.py.'),
 'C83':('partial','Holds as stated if the option g4 is configured and, for events from files, given as a list. Without the option every call raises KeyError (C83_option_missing); a file name given as text is cut to its first character (C83_text_is_cut); rounds whose keys have equal sums share a seed (C83_seeds_collide). Only the entry g4 of the configuration is modelled, compilation is an argument.'),
 'C84':('proved','An option set per likelihood without this one makes the table a KeyError where building gives ValueError (C84_errors); an option shared by two plugins is listed for each (C84_shared_option_twice).'),
 'C85':('partial','Proved for originals with no plugins registered after construction and up to the rate. False otherwise: the rate name is lost, so the histogram of a copy is a KeyError (C85_rate_lost); later plugins are lost (C85_later_plugins_lost); a second copy under the default name cannot be deduced (C85_name_taken).'),
 'C86':('partial','All but the labels. with_data_names is not handed to the recursive calls, so only requested plugins show their data (C86_labels_lost, C86_labels_partial). Plugins of the same name are drawn as one (C86_same_name).'),
 'C87':('partial','Holds when no parameter of the component is the name or target of an alias (C87_template_partial). Aliases are not applied: with an aliased parameter the template is a KeyError (C87_alias_missing) or silently made of the parameter of that name of another likelihood (C87_alias_wrong).'),
 'C88':('partial','The curve is the density times the mass the curve has in the allowed range (C88_shape_partial). The allowed range is ignored by the plot: normal and two-half-normal curves lie below the density (C88_too_low), curves go on where the prior is zero (C88_outside), uniform ones have the right height only if the range is as wide as the interval (C88_uniform).'),
 'C89':('partial','Which values are shown and their order is right (C89_lines); the labels are right without thinning and dropped iterations (C89_labels_partial). Otherwise points stand too far left by thin - 1 and by thin for each dropped iteration before them (C89_lines, C89_shifted).'),
 'C90':('partial','True for finite contents and bins with an area (C90_picture_partial, C90_given_limits, C90_colours_ordered, C90_events). Without explicit limits one NaN content, or with density one empty bin without area, removes the colours of all bins (C90_nan_blanks_all) and one infinite content gives all finite bins the same colour (C90_infinite_flattens). Histograms of another shape: C90_other_shape, C90_empty.'),
 'C91':('partial','Exact up to 2^24 events (C91_exact_partial, C91_counts), weights up to a factor (1 ± 2^-24)^m for m events in the bin (C91_weights). Beyond 2^24 events per bin all further ones are lost (C91_events_lost), so that the counted fraction goes to zero with the batch size (C91_fraction_vanishes); with weights the order of events matters (C91_order_matters). The default batch size is safe.'),
 'C92':('partial','A regular binning with one axis is accepted with every method and then raises at every position (C92_one_axis_never_applies): linspace of edges of shape (1,) gives searchsorted a two-dimensional table. A point map named pdf inside a list is not converted. All other parts hold.'),
 'C93':('partial','Holds over the reals. In float32 the constant field map is infinite at its nodes, some of which lie in the default volume (C93_field_infinite_at_a_node, an instance of C63).'),
 'C94':('proved','The clock and the keys are arbitrary functions of the number of the reading. Without timed runs the means are NaN and the overhead is reported as zero.'),
 'C95':('proved','Methods with plain parameters, as all decorated ones have. The method itself is an arbitrary function of its bound arguments.'),
 'C96':('proved','The statements of all modules are read from the source by tools/shipped_names.py. Both branches of conditional statements are taken one after the other and optional packages count as installed. Attributes of objects that are not modules are not followed.'),
 'C97':('partial','Proved for tables with the methods IDW and LERP (C97_line, C97_band), for grids of two axes with NN (C97_image) and for the nodes with LERP (C97_image_at_nodes). Violated by tables with NN, logarithmic tables, linear grids between the nodes, grids of one axis, maps with three files of different axes, maps with different files per likelihood, and different requests for the names of one map. Images of IDW grids between the nodes are not compared.'),
 'C98':('proved','For any samplers with the right means (C98_cs1, C98_cs2); the shipped binomial sampler has it up to its threshold (C98_hybrid_fair), so C98_cs1_shipped assumes nothing of the sampler; ideal samplers for S2 are constructed (C98_cs2_ideal). Above its threshold the shipped sampler rounds a normal number with corrections and its mean is not claimed.'),
 'C99':('partial','Laws proved as equalities of measures, the skew-normal density by exchanging the two normal numbers. The truncated sampler is a clipped one: C99_truncated_partial gives its law, C99_truncated_has_atoms shows that it is not the truncated normal law. With exchanged limits the uniform sampler silently returns the lower one (C99_uniform_reversed). Binomial, negative binomial, Poisson, generalized Poisson and two-half-normal samplers are C46, C69, C78 and C48.'),
 'C100':('partial','The functions with messages are proved to fail exactly where the functions of the other models do (C100_same_outcome). The message about two defaults always gives the default of one plugin as that of the other (C100_conflict_files_exchanged, for every registry), C100_conflict_partial is what holds. check_parameter_exist returns an existing single name as the names that do not exist (C100_existing_name_given_back), C100_not_existing_partial covers lists, sets and dictionaries.'),
 'C101':('partial','Proved except where the code violates it: C101_string_lines_run_together (a string never keeps a line break), C101_svg_of_another_graph, C101_save_code_empties_file and C101_dump_half_written, each for all inputs of the kind. The _partial theorems are what holds. C101_plots_saved needs no condition on the formats because the names of the plots have no dots.'),
 'C102':('partial','C102_timed_is_the_function is for every function that only adds to the printed lines. timeit does not use functools.wraps: C102_name_lost, C102_timed_simulate_refused.'),
 'C103':('proved','The samplers are assumed independent with binomial laws; C103_hybrid shows it for the shipped sampler within its threshold, where it makes the trials, and C103_electrons_shipped is the law without assumption on samplers. Independence of the draws of different plugins is the ideal source of C99; rounding of single precision is not modelled.'),
 'C104':('partial','The parameters shown are those needed if there are no aliases (C104_needed_partial); with an alias they are not, C104_alias_not_shown. Everything else is proved. The text of sets, arrays and nested lists is a parameter.'),
 'C105':('partial','Proved: C105_frozen, C105_compile_reads_current, C105_set_then_compile. Violated by the code, and proved so: C105_sigma_stuck, C105_same_file_refused, C105_scaler_not_frozen, C105_deduce_again, C105_file_name_refused, C105_url_base_must_exist, C105_options_leak_between_contexts, C105_clear_forgets.'),
 'C106':('partial','Proved: C106_independent, C106_clear, C106_fixed_again. Violated by the code, and proved so: C106_name_taken, C106_again_refused, C106_failure_takes_names, C106_corrected_instruction_refused. Options shared by contexts are in C105.'),
 'C107':('partial','Proved: C107_accepts, C107_by_name, C107_shorthand, C107_missing, C107_refused, C107_component_refused. Violated by the code, and proved so: C107_only_known_items, C107_misspelt_ignored, C107_copy_parameters_needed, C107_refused_sets_options. What is built from the items is in other claims.'),
 'C108':('partial','Proved: C108_seed_partial, C108_clock_partial, C108_refused_seed. Violated by the code, and proved so: C108_seeds_coincide, C108_same_microsecond, C108_period, C108_pigeonhole, C108_equal_posteriors. What jax.random.PRNGKey returns is an assumption of the model.'),
 'C109':('proved','C109_linear, C109_concave, C109_best_fit, C109_common_factor and C109_only_predictions are about get_log_likelihood of likelihoods as built in C79; C109_total and C109_same_template about the predictions there; C109_zero_rate_fixed about the model histogram. Exact arithmetic.'),
 'C110':('proved','C110_simulated_component_added, C110_error_stays and C110_fixed_component_anywhere are about the model histogram, C110_same_key about weighted data, C110_likelihood_added and C110_fixed_likelihood_anywhere about log_posterior; C110_order_matters is the witness that simulated components do not commute. Exact arithmetic: with floats the sums of C110_fixed_component_anywhere may differ by rounding.'),
 'C111':('partial','C111_search_partial holds when the name is not in the working directory nor in the folders configs and instructs; C111_working_directory, C111_configs_not_searched, C111_instructs_searched and C111_folder_returned are the negations; C111_relative_url_base and C111_absolute are proved without restrictions beyond the url base being unset or text.'),
 'C112':('proved','C112_repeats (log posterior with repeats against the averaged prediction, with the case of equality), C112_expectation (expectation over keys of any distribution, with the case of equality).'),
 'C113':('proved','C113_one_dimension, C113_two_dimensions, C113_no_clip (the functions themselves); C113_likelihood_1d, C113_likelihood_2d (data histogram of a likelihood, for a library whose edges are ascending). The library GOFevaluation is a parameter.'),
 'C114':('proved','C114_s2 (mean and variance of the S2 photoelectrons, for samplers with the binomial and Poisson laws); C114_anticorrelated (covariance of the corrected signals). Independent draws are iterated integrals; that the shipped and ideal samplers have the laws is C103_hybrid and trials_sampler, quantile_sampler.'),
 'C115':('proved','C115_stationary (law of walkers, keys and stored values), C115_parameters (law of the positions), C115_density and C115_repeats (what this density is). The stretch move is the default of emcee; emcee is outside the repository and its move is taken from its documentation. Convergence to the stationary law is not claimed.'),
 'C116':('proved','C116_larger (one walker), C116_best (the largest value among the walkers), C116_exact (no noise) and C116_differs (the difference is strict in a concrete case). The largest value of one iteration is compared, not that of a whole chain.'),
 'C117':('proved','C117_accepted (fixed events), C117_less_noise (random events). Normalisation on_sim without the floor; with on_pdf or the floor the histogram is not linear in the weights, C80 and C112 treat these.'),
 'C118':('proved','C118_shape, C118_events, C118_on_sim, C118_differs. The contents themselves are those of C91, which stop at 2^24 events of weight one.'),
 'C119':('partial','C119_starts_there_partial (same fitted names), C119_other_number, C119_own, C119_nothing; C119_mixed_up is the violation: other names of the same number are not noticed. How emcee starts is an assumption stated in Model/Continue.lean.'),
 'C120':('partial','C120_off_edges_partial (all four functions), C120_neighbour, C120_lost_events (exactly those rounded to the lowest edge), C120_grid_keeps; C120_just_above_an_edge is the violation. Neighbours and totals are for one dimension.'),
 'C121':('partial','C121_spread_partial and C121_mean_partial bound the hybrid sampler with explicit terms that vanish for large and blow up for small variances; C121_fallback_partial bounds the normal approximation by 3/4 and one half; C121_tiny_probability is the violation. C121_shape gives mean, variance and side of the skewness before rounding and clipping. The bounds are in terms of these moments, not of the law.'),
 'C122':('partial','C122_error is the bound, C122_order_partial what it implies for comparisons, C122_model_bin the sum over components; C122_difference_lost is the violation.'),
 'C123':('proved','C123_quanta for deposits, C123_ions_NR and C123_electrons_NR for the two steps of nuclear recoils, C123_recoil_NR for both together, C123_quanta_ER and C123_electrons_ER for NEST electronic recoils; C123_small_deposits shows what the absolute bound does not exclude.'),
 'C124':('partial','Proved for maps of points (both methods) and for bilinear and trilinear maps. Fails for the default method IDW on regular bins: it averages the corners of the cell of the event only, weighting them with inverse distances, so it jumps where cells meet, by more than half the step between entries even for a linear map (C124_idw_jumps, C124_idw_not_continuous).'),
 'C125':('proved','C125_error is the bound with the numbers of roundings, C125_small the one in numbers, C125_order the comparison of parameter points. The contents themselves are the subject of C91 and C120.'),
 'C126':('partial','C126_own_draw, C126_own_start and C126_independent are complete; C126_inside_partial is the law inside the allowed range. The code violates the rest: C126_border (clipping puts probability on the ends of the range, where the prior of the fit has none) and C126_uniform (equality of the laws exactly if interval and range agree).'),
 'C127':('partial','C127_options_reach_partial covers all options but two; the code violates the statement for these: C127_field_ignored and C127_correction_unused. C127_sigma_options ties the maps with sigma parameters of C73 to the options.'),
 'C128':('partial','C128_points_partial and C128_band_partial hold where all yields are finite and the band covers the range; C128_band_mean is the average. The code violates the rest: C128_zero_energy, C128_band_gap, and with the shipped data C128_shipped_gap, C128_shipped_numbers and C128_shipped_both.'),
 'C129':('partial','C129_survival_partial leaves out the lower end of elife_sigma. The code violates the property for g2 (C129_extraction, C129_extraction_flat) and theta (C129_theta). The solver of two-half-normal errors is assumed to succeed on the shipped errors.'),
 'C130':('proved','The solver is an argument: exact in C130_conversion, approximate in C130_tolerance. That scipy finds the solution is not proved.'),
 'C131':('partial','The last sentence holds for point maps and trilinear maps (C131_unit_range) but not for bilinear maps, which multiply the weights first: a map of ones returns 1 + 2^-23 (C131_bilinear_exceeds), and at most 1 + 8 * 2^-24 (C131_bilinear_unit_partial). Constant point maps other than 1 are not returned exactly either (C131_constant_map). Overflow and underflow are not modelled.'),
 'C132':('proved','Root mean square distances are taken about the mean asked for, of which the true mean differs as stated in C123. The binomial split of the quanta into ions and excitons is covered by C121.'),
 'C133':('proved','The true means are those predicted by a simulation at the true parameters; how the prediction of a finite batch differs from that of an infinite one is the subject of C80 and C112. Equiprobable bins, whose edges depend on the data, are left out.'),
 'C134':('partial','Holds if every bin holds at least the floor (C134_data, C134_predictions, C134_power). The floor given to nearly empty bins is a fixed content per bin, whatever the size of the bin, so dividing an empty region raises the prediction without bound (C134_floor, C134_empty_piece).'),
 'C135':('proved','Numbers are exact; in single precision a conversion may move a value across an edge (C120).'),
 'C136':('partial','C136_thinned, C136_short, C136_stuck and C136_one_parameter prove the violations; the criterion holds without thinning and for at least 100 iterations. The eight lengths between the ends of the abscissa are arbitrary.'),
 'C137':('partial','C137_flat_priors and C137_few_samples prove the violations; they rest on the checks of corner.corner (at least as many samples as columns, no constant column), which are taken as given.'),
 'C138':('proved','C138_rates gives the log posterior as a function of the rates, C138_concave and C138_no_dip its shape, C138_prior the log prior. The keys are the same at the points compared; log_posterior itself takes new keys from the clock at each call, whose noise is the subject of C112.'),
 'C139':('partial','All but the legend is proved. C139_legend_partial covers the figures whose last fitted parameter has a prior, or in which none has one; otherwise the prior is drawn but not named, C139_legend, and C139_nuclear_recoils shows this for the shipped nuclear recoil parameters.'),
 'C140':('partial','C140_restored_partial covers from_backend of Context itself; C140_not_restored proves that the shipped classes cannot be restored from any file. The rest is proved. The second, optional argument of Context is not modelled here (see C66).'),
 'C141':('proved','C141_s1 and C141_s2 compare two parameter sets by the probabilities to reach any level, C141_accepted turns this into accepted events, C141_seen is strict. The detection and extraction probabilities are at most one. A larger gas gain or double photoelectron probability is not covered: they lower one step while raising another.'),
 'C142':('proved','C142_truth compares two parameter points with one evaluation each (repeat_times=1, the default); C142_expected bounds the average for any repeat_times. The same predictions are used for all data sets, that is keys are given. Literature likelihoods are not included.'),
 'C143':('proved','C143_bound gives the bound, C143_proper the finite integral, C143_narrow_band the counterexample without positive widths. For literature likelihoods the number of simulated points must be limited, which holds because the component is run with batch size one (C39).'),
 'C144':('proved','C144_likelihood, C144_factor and C144_posterior. That a component reads only the parameters it lists is a hypothesis here; for generated simulators it is C11 and C13. The posterior is the density that the sampler leaves unchanged (C115); C144_posterior asks that this density is measurable.'),
 'C145':('proved','C145_likelihood and C145_posterior; C145_given_keys shows two contexts that differ in order only and have different values for the same keys. That a simulation leaves a key independent of its result, distributed as the key it was given, is a hypothesis about the generator (Fresh); sequences of independent draws satisfy it, and all steps built from such steps do.'),
 'C146':('proved','C146_mean_of_keys, C146_noise, C146_limit and C146_sampled. That the keys of the repetitions are independent is a hypothesis about the clock and the generator (C108). Finite sums in exact arithmetic.'),
 'C147':('proved','C147_factor, C147_balance, C147_one_rate and C147_gamma. For the last two the likelihoods have one component each and no aliases. The density at rate exactly 0 is left out: there the code returns minus infinity although the Gamma density is positive if no data event is in the bins. Exact arithmetic.'),
 'C148':('proved','C148_settings, C148_history, C148_limit_commutes and C148_check. What jax does with the variables is not modelled.'),
 'C149':('proved','C149_difference, C149_closer, C149_best and C149_repeated. Bands are not covered: there the error depends on the energy drawn, and so does the normalisation.'),
 'C150':('proved','C150_agree_twohalfnorm, C150_agree_norm, C150_refused_twohalfnorm, C150_refused_norm, C150_values_twohalfnorm and C150_values_norm. The model of numpy is the rule for one-dimensional arrays (common and spread in Model/Likelihood.lean).'),
 'C151':('proved','C151_data, C151_histogram and C151_split. The bins are those of the configuration: equiprobable bins are computed from the data, so they differ between runs. All evaluations use the same key, and no plugin reads a rate (RateFree).'),
 'C152':('proved','C152_order, C152_outside and C152_likelihood. That GOFevaluation finds the same equiprobable edges for the events in any order is an assumption (Equi.Symmetric), since the library is not part of the repository; for other bins it is not needed but asked for all the same.'),
 'C153':('proved','C153_names, C153_posterior, C153_density, C153_conditional and C153_evidence. The parameter must hold its fixed value, which is so after construction and after sample_prior and sample_init (C02); a value given to a fixed parameter by set_parameter is kept, not refused. Densities carry no normalisation of truncated priors, as in the code.'),
 'C154':('proved','C154_reweight, C154_narrow and C154_truncated. Both settings must be usable (a range is given, standard deviations are not zero, sigmas of a two-half-normal are found); the code does not normalise priors to their range, which is why narrowing changes nothing inside.'),
 'C155':('proved','C155_likelihood, C155_fitted and C155_posterior, the latter wherever the log prior is finite. Aliases are such that no name is also a target and no target has two names, and no component needs a parameter called like an alias; without that values get lost (C36). That a component reads only the parameters it lists is a hypothesis here; for generated simulators it is C11 and C13.'),
 'C156':('proved','C156_values, C156_split and C156_not_updated. What jax.random.uniform returns for a single key is an argument; the function is exported but not called inside the package.'),
 'C157':('proved','C157_exchange and C157_factors, for given keys. How far a likelihood takes its key must not depend on the parameters, as is so for all samplers but generalized_poisson with its loop; averaged over keys the factors share random numbers, since the second likelihood goes on with the key of the first. That likelihoods read only the parameters they list is a hypothesis here, as in C144.'),
 'C158':('proved','C158_built, C158_refused, C158_bands. Which files load is a parameter of the model here; what a loaded file must contain is C92.'),
}
