{"id": "C01", "title": "Parameter name set is closed under every history", "statement": "After building Parameter from a configuration, and after any sequence of sample_prior, sample_init and set_parameter calls (including ones that raise), the names returned by get_all_parameter are exactly the configured names in configuration order, parameter_fit is the duplicate-free ascending list of the names whose prior is not 'fixed', and fixed and fitted names partition all names.", "quantifier": "every parameter configuration, every finite sequence of API calls with arbitrary arguments and random draws", "why_tests_cant": "Tests run a few short call sequences on one configuration; the claim is an invariant over all histories, including histories with failing calls.", "anchors": ["appletree/parameter.py: Parameter.__init__, init_parameter, sample_prior, sample_init, set_parameter, parameter_fit"]}
{"id": "C02", "title": "Sampled parameters respect the allowed range", "statement": "Whenever sample_prior (for the known prior types) or sample_init completes, every fitted parameter lies in its allowed_range and every fixed parameter equals its configured value, whatever the random generator produced.", "quantifier": "all configurations with lower bound <= upper bound, all random draws, all previous parameter states", "why_tests_cant": "A test sees a few seeds; the clip must hold for the unbounded set of possible draws.", "anchors": ["appletree/parameter.py: Parameter.sample_prior, Parameter.sample_init"]}
{"id": "C03", "title": "set_parameter is all-or-nothing and read-your-writes", "statement": "set_parameter either raises and leaves every parameter unchanged, or returns and then get_parameter gives the new value for each named key (the last one for a repeated key) while every other parameter is unchanged. It raises when any key is unknown, when list lengths differ, when a scalar is not a number, or for an unsupported key type.", "quantifier": "all stores, all argument shapes (name, list, dict, set, other) and all values", "why_tests_cant": "Atomicity quantifies over the position of the bad key and over all stores.", "anchors": ["appletree/parameter.py: Parameter.set_parameter, check_parameter_exist, get_parameter, __getitem__"]}
{"id": "C04", "title": "log_prior is finite exactly inside the allowed ranges", "statement": "log_prior is minus infinity when any fitted parameter is outside its allowed range, and otherwise is the finite sum of the prior log densities. The result does not depend on the iteration order of the set of fitted names. (NaN values are a separate case: they pass the range check.)", "quantifier": "all configurations with positive widths, all parameter values including infinities and NaN, all iteration orders", "why_tests_cant": "Set iteration order is randomised per process and the value space is continuous.", "anchors": ["appletree/parameter.py: Parameter.log_prior"]}
{"id": "C05", "title": "Fit vector round trip and no leakage between evaluations", "statement": "Setting the fitted parameters from the dictionary zipped from parameter_fit and a vector makes parameter_fit_array return that vector, leaves the fixed parameters at their values, and makes the whole store depend only on that vector and the fixed values, not on any earlier evaluation.", "quantifier": "all configurations, all vectors of the right length, all earlier call histories", "why_tests_cant": "Independence from history ranges over all earlier walker positions.", "anchors": ["appletree/parameter.py: parameter_fit_array, set_parameter", "appletree/context.py: Context.log_posterior, Context.get_parameter"]}
{"id": "C06", "title": "1D irregular histogram counts each half-open bin exactly", "statement": "For ascending edges b_0..b_n the histogram has n entries and entry i is the total weight of the samples with b_i < x <= b_(i+1). Samples outside, and NaN samples, contribute nothing.", "quantifier": "all ascending edge lists, all sample lists, all weights", "why_tests_cant": "Edge values, NaN and samples outside the range are measure-zero or rare in random tests.", "anchors": ["appletree/hist.py: make_hist_irreg_bin_1d"]}
{"id": "C07", "title": "2D irregular histogram: out-of-range x never pollutes a visible bin", "statement": "For x edges and one row of y edges per x bin, entry (i,j) is the total weight of samples with x in (bx_i, bx_(i+1)] and y in (by_i,j, by_i,j+1]. The wrapped row index used below the first edge and the clamped index used above the last edge never reach a returned bin.", "quantifier": "all ascending x edges, all y edge tables, all samples and weights", "why_tests_cant": "The wrap/clamp happens silently only for out-of-range samples and depends on the row contents.", "anchors": ["appletree/hist.py: make_hist_irreg_bin_2d"]}
{"id": "C08", "title": "Histogram mass conservation, additivity and order independence", "statement": "The sum of a histogram is the total weight of the samples inside the binned region. The histogram of a concatenation is the sum of the histograms, permuting the samples changes nothing, and scaling weights scales the histogram. Non-negative weights give non-negative bins.", "quantifier": "all samples, weights, edges, permutations", "why_tests_cant": "An algebraic law over all inputs.", "anchors": ["appletree/hist.py: make_hist_irreg_bin_1d, make_hist_irreg_bin_2d, make_hist_mesh_grid"]}
{"id": "C09", "title": "Irregular and mesh-grid binning agree away from edges", "statement": "For the same edges the irregular histogram and the mesh-grid histogram agree whenever no sample equals an edge. They differ on edges: one keeps the upper edge, the other the lower edge and the last upper edge.", "quantifier": "all edges, all samples", "why_tests_cant": "Random float samples never hit an edge, so tests cannot see the disagreement.", "anchors": ["appletree/hist.py: make_hist_mesh_grid, make_hist_irreg_bin_1d"]}
{"id": "C10", "title": "Dependency resolution gives a complete topological order", "statement": "When deducing a simulation succeeds and the needed plugins have different class names, the resulting order contains every plugin needed for the requested data, directly or indirectly, and no other, contains each exactly once, and places every plugin after the plugins that provide its inputs.", "quantifier": "all plugin registries, all requested data lists", "why_tests_cant": "The space of dependency graphs is unbounded; ordering bugs appear only for particular diamond shapes.", "anchors": ["appletree/component.py: ComponentSim.dependencies_deduce, dependencies_simplify"]}
{"id": "C11", "title": "The generated simulation code computes the registered plugins' data flow", "statement": "Running the generated simulator never reads an unbound name. Each needed plugin runs once, with the random key threaded through the calls, and every value read or returned under a data name is the corresponding output of the plugin registered last for that name. This needs every used plugin to be the registered provider of all needed names it provides; without this a shadowed output can be used.", "quantifier": "all registries, plugin functions, keys, parameters", "why_tests_cant": "A shadowed output produces plausible numbers; tests use only the shipped registries.", "anchors": ["appletree/component.py: flush_source_code, deduce, compile, dependencies_simplify"]}
{"id": "C12", "title": "Resolution errors are exactly missing or cyclic dependencies", "statement": "Deduction over an acyclic registry in which every reachable name is provided always succeeds, with recursion depth bounded by the longest dependency chain. If a reachable name is unprovided it never succeeds, and if a reachable dependency cycle exists it never succeeds at any recursion limit.", "quantifier": "all registries and request lists, all recursion limits", "why_tests_cant": "Termination and failure quantify over all graphs.", "anchors": ["appletree/component.py: ComponentSim.dependencies_deduce"]}
{"id": "C13", "title": "needed_parameters is exact", "statement": "After deduce with needed plugins of different class names, needed_parameters is exactly the rate parameter (if named), the parameters declared by the plugins in the simulation, and the parameters required by their configurations. Nothing is left over from an earlier deduce.", "quantifier": "all registries, requests and earlier deduce calls", "why_tests_cant": "Stale or missing names depend on history and on graph shape.", "anchors": ["appletree/component.py: dependencies_simplify, deduce; ComponentFixed.deduce"]}
{"id": "C14", "title": "Plugin registration: last provider wins, defaults stay consistent", "statement": "After any sequence of successful registrations each data name maps to the plugin registered last that provides it, and all registered plugins sharing a configuration name agree on its default. A conflicting registration raises; the registry should then be unchanged (it is not: the new plugin stays registered).", "quantifier": "all registration sequences", "why_tests_cant": "Conflicts depend on order and on which plugins have been replaced.", "anchors": ["appletree/component.py: ComponentSim.register, register_all"]}
{"id": "C15", "title": "deduce decides the efficiency column, independently of earlier deduces", "statement": "After deduce without force_no_eff the simulation returns the requested data with the efficiency last and exactly once, and histogramming uses that column as weight; with force_no_eff unit weights are used. This should not depend on earlier deduce calls (it does: force_no_eff is sticky).", "quantifier": "all request lists, all sequences of deduce calls", "why_tests_cant": "Only particular call histories show the stickiness.", "anchors": ["appletree/component.py: ComponentSim.deduce, simulate_hist, simulate_weighted_data"]}
{"id": "C16", "title": "Compiled simulators are never mixed up between likelihoods", "statement": "A compiled simulator runs the code of its own component. A cached simulator for a likelihood is never replaced until the cache is cleared: a second deduction under the same likelihood name raises. In particular one likelihood can hold at most one simulated component.", "quantifier": "all sequences of deduce, compile and clear_cache over any number of components and likelihood names", "why_tests_cant": "Interleavings are unbounded.", "anchors": ["appletree/component.py: ComponentSim.code, compile, flush_source_code", "appletree/share.py: StaticValueDict, clear_cache"]}
{"id": "C17", "title": "Normalisation gives the configured expected number of events", "statement": "With norm_type on_pdf and a nonzero histogram sum, the model histogram sums to the rate. With on_sim it sums to rate times accepted weight over simulated events; without the floor the accepted weight is the weight of the events that lie in some bin, for every kind of bins. An unknown norm_type, in particular the default empty one, raises.", "quantifier": "all histograms, rates, batch sizes, samples and bins of every kind in one and two dimensions", "why_tests_cant": "An algebraic law over all histograms.", "anchors": ["appletree/component.py: Component.get_normalization, ComponentSim.simulate_hist, ComponentFixed.simulate_hist"]}
{"id": "C18", "title": "add_eps_to_hist makes every simulated bin positive", "statement": "With add_eps_to_hist every bin before normalisation is at least 1e-10 plus the mean efficiency, so with non-negative efficiencies and a positive rate every model bin is positive and the likelihood is never minus infinity because of an empty bin. Bins above the floor are unchanged.", "quantifier": "all samples and efficiencies", "why_tests_cant": "Empty bins are random events.", "anchors": ["appletree/component.py: Component.implement_binning"]}
{"id": "C19", "title": "Weighted data reproduces the histogram normalisation", "statement": "The data returned by simulate_weighted_data are exactly the events strictly inside the outermost edges, in order and aligned with their weights, for every kind of bins. For an on_pdf component without the floor and bins that fill a rectangle, the weights sum to the rate when something is accepted; for a fixed component also nothing may lie on an outermost edge. With the floor the sum is at most the rate. A component deduced without efficiency has no weighted data: the call raises. The stored data of a fixed component is not modified.", "quantifier": "all samples, rates and bins of every kind in one and two dimensions", "why_tests_cant": "Edge coincidences and alignment quantify over all masks.", "anchors": ["appletree/component.py: Component._clip, ComponentSim.simulate_weighted_data, ComponentFixed.simulate_weighted_data"]}
{"id": "C20", "title": "Repeated simulation concatenates aligned columns", "statement": "multiple_simulations(key,batch,par,times) with times>0 returns for each data name the concatenation of the batches in order, threading the key. With apply_eff it keeps exactly the events with positive efficiency, in order and aligned across columns; times<=0 raises.", "quantifier": "all simulators, keys, batch sizes, times, efficiency columns", "why_tests_cant": "Alignment must hold for every mask and number of batches.", "anchors": ["appletree/component.py: ComponentSim.multiple_simulations, multiple_simulations_compile"]}
{"id": "C21", "title": "Configuration resolution precedence and stability", "statement": "A configuration resolves to the value set by the user if any, otherwise to the default, which is then remembered. A per-likelihood dictionary resolves to the entry of that likelihood and raises if absent. Once resolved, every later resolution for the same name and likelihood gives the same value until set_config or clear_cache is used, whatever other resolutions happen in between.", "quantifier": "all caches, names, likelihoods and interleavings of resolutions", "why_tests_cant": "Stability quantifies over interleavings.", "anchors": ["appletree/config.py: Config._resolve_cached_config, Constant.build, ConstantSet.build"]}
{"id": "C22", "title": "set_global_config stores what was given", "statement": "After set_global_config succeeds without changing the search base itself, numbers and lists are stored unchanged, strings are stored as the resolved path, and per-likelihood dictionaries keep one entry per likelihood with strings resolved. (Entries of other types are silently dropped, and a failing call leaves the earlier entries applied.)", "quantifier": "all configuration dictionaries and file systems", "why_tests_cant": "Partial failure depends on the position of the bad entry.", "anchors": ["appletree/share.py: set_global_config"]}
{"id": "C23", "title": "Unused configurations are reported exactly", "statement": "check_unused_configs reports exactly the names present in the configuration cache that were never read or written by item access since the last clear.", "quantifier": "all histories of configuration operations", "why_tests_cant": "The answer is a function of the whole history.", "anchors": ["appletree/share.py: RecordingDict", "appletree/utils.py: check_unused_configs"]}
{"id": "C24", "title": "SigmaMap interpolates between lower, median and upper", "statement": "A SigmaMap returns the median at sigma 0, the upper map at 1 and the lower map at -1, is monotone in sigma when lower <= median <= upper, and is affine on each side.", "quantifier": "all map values and all sigma", "why_tests_cant": "A law over a continuous space.", "anchors": ["appletree/config.py: SigmaMap.apply"]}
{"id": "C25", "title": "The parameter read by a SigmaMap is the one declared", "statement": "The parameter a SigmaMap reads when applied is the one declared by required_parameter when the component was deduced, as long as the configuration is not changed in between; a list of four names its parameter, a list of other length uses name_sigma and a single file uses none.", "quantifier": "all configurations, all interleaved resolutions of other configurations", "why_tests_cant": "Depends on interleavings of cache writes by other plugins.", "anchors": ["appletree/config.py: SigmaMap.required_parameter, get_configs, apply", "appletree/component.py: dependencies_simplify"]}
{"id": "C26", "title": "SigmaMap file choices are isolated per likelihood", "statement": "Building a SigmaMap for one likelihood never changes the files resolved for another one. Rebuilding for the same likelihood with different files raises instead of silently keeping the old ones.", "quantifier": "all caches and build sequences", "why_tests_cant": "Quantifies over build interleavings.", "anchors": ["appletree/config.py: SigmaMap.build, _resolve_sigma_value, _update_sigma_cache"]}
{"id": "C27", "title": "Plugin instances keep their own configuration", "statement": "A plugin instance built for one likelihood keeps the configuration values it was built with, however many instances are built later for other likelihoods. Its lineage should describe these values (it describes the last build instead).", "quantifier": "all sequences of instance constructions", "why_tests_cant": "Only multi-likelihood histories show the sharing.", "anchors": ["appletree/plugin.py: Plugin.__init__, Plugin.lineage"]}
{"id": "C28", "title": "1D point maps interpolate linearly with constant extrapolation", "statement": "For strictly increasing reference positions the 1D inverse-distance interpolator equals piecewise linear interpolation: exact at reference points, between neighbouring values inside, and constant outside. It equals the 'LERP' interpolator everywhere.", "quantifier": "all reference tables and positions", "why_tests_cant": "A functional equality over a continuous domain.", "anchors": ["appletree/interpolation.py: curve_interpolator, interpolate_linear_1d (LERP)"]}
{"id": "C29", "title": "Nearest-neighbour maps return a nearest map entry", "statement": "Nearest-neighbour lookup returns the map entry at a grid point no other grid point of the axis is closer to, the lowest index on ties, and never an out-of-range index.", "quantifier": "all grids and positions", "why_tests_cant": "Ties and out-of-range positions.", "anchors": ["appletree/interpolation.py: find_nearest_indices, map_interpolator_nearest_neighbor_*"]}
{"id": "C30", "title": "Bilinear and trilinear maps: bounds, node exactness, affine exactness", "statement": "Bilinear and trilinear interpolation stays within the map's range, is exact at grid nodes, reproduces affine functions inside the box, clamps outside the box to the nearest boundary point, and never indexes out of range when there are at least two bins per axis.", "quantifier": "all maps, box sizes and positions", "why_tests_cant": "Continuous domain, cell boundaries.", "anchors": ["appletree/interpolation.py: map_interpolator_regular_binning_bilinear_2d/3d (LERP)"]}
{"id": "C31", "title": "Inverse-distance maps are weighted averages of map entries", "statement": "2D/3D inverse-distance interpolation and k-nearest-neighbour interpolation are convex combinations of map entries, so stay between the map's minimum and maximum and reproduce constant maps, also at nodes and outside the box; the 3D version uses the eight distinct cell corners.", "quantifier": "all maps and positions", "why_tests_cant": "Continuous domain.", "anchors": ["appletree/interpolation.py: map_interpolator_regular_binning_2d, _3d, map_interpolator_knn"]}
{"id": "C32", "title": "Logarithmic map axes", "statement": "Building a map with a logarithmic axis raises unless the coordinates on it are positive; after a successful build no logarithm of a non-positive coordinate is taken. A log_point map should return the stored value at a stored coordinate (it returns its log10).", "quantifier": "all map files and positions", "why_tests_cant": "Requires all coordinate tables.", "anchors": ["appletree/config.py: Map.build, _validate_log_coords, map_point, preprocess"]}
{"id": "C33", "title": "pdf to cdf conversion", "statement": "For increasing x and a non-negative pdf of positive integral the converted cdf is non-decreasing, lies in (0,1] up to zero segments and ends at one, and the trapezoidal integral is exact for affine functions.", "quantifier": "all tables", "why_tests_cant": "An algebraic law over all tables.", "anchors": ["appletree/config.py: Map.pdf_to_cdf", "appletree/utils.py: integrate_midpoint, cumulative_integrate_midpoint"]}
{"id": "C34", "title": "Data selection and binning lose no selected event", "statement": "The data kept by a likelihood are exactly those strictly inside the clip ranges, and when the outer bin edges equal the clip bounds every kept event is counted in exactly one bin.", "quantifier": "all data files, clips and bins", "why_tests_cant": "Edge coincidences.", "anchors": ["appletree/likelihood.py: Likelihood.__init__, set_binning, _resolve_bin_edges"]}
{"id": "C35", "title": "Registering components is guarded and atomic", "statement": "Registering a component name twice in a likelihood raises and leaves the likelihood unchanged; on success the new component is last, and the needed parameters are the union of the components' parameters with aliases substituted.", "quantifier": "all sequences of registrations and alias tables", "why_tests_cant": "Sequences and alias collisions.", "anchors": ["appletree/likelihood.py: Likelihood.register_component, LikelihoodLit.register_component"]}
{"id": "C36", "title": "Parameter aliases supply every component parameter", "statement": "If the caller supplies exactly the needed parameters of a likelihood, then after alias replacement every parameter needed by its components is present with the value of its alias. Applying replacement again changes nothing. This holds when alias names and targets are disjoint, targets are distinct and no component needs a parameter called like an alias; for chained aliases the double application gives wrong values.", "quantifier": "all alias tables and parameter dictionaries", "why_tests_cant": "Chains of aliases depend on dictionary order.", "anchors": ["appletree/likelihood.py: replace_alias, need_replacing_alias, register_component"]}
{"id": "C37", "title": "Model histogram is the sum over components", "statement": "The model histogram of a likelihood is the bin-wise sum of the component histograms and its total is the sum of the component totals; for on_pdf components this is the sum of the rates. The key is threaded through simulated components in registration order.", "quantifier": "any number and mix of components", "why_tests_cant": "Unbounded component lists.", "anchors": ["appletree/likelihood.py: _simulate_model_hist, get_num_events_accepted"]}
{"id": "C38", "title": "The binned log likelihood is Poisson and never NaN", "statement": "get_log_likelihood returns the Poisson log likelihood (up to a data constant) when all model bins are finite and positive and minus infinity otherwise, never NaN or plus infinity. Its value is largest when the model equals the data, and at fixed shape when the model total equals the data total.", "quantifier": "all data and model histograms including NaN, zero and infinite bins", "why_tests_cant": "Special floating values and a continuous optimum.", "anchors": ["appletree/likelihood.py: Likelihood.get_log_likelihood"]}
{"id": "C39", "title": "Literature likelihood accepts one component and never returns NaN", "statement": "LikelihoodLit accepts exactly one component, simulates one event whatever batch size is asked, and, for efficiencies that are not negative, returns a finite value or minus infinity; a point outside the measured band gives minus infinity even at zero efficiency.", "quantifier": "all components, batch sizes, parameters", "why_tests_cant": "Special floating values.", "anchors": ["appletree/likelihood.py: LikelihoodLit", "appletree/randgen.py: BandTwoHalfNorm.logpdf"]}
{"id": "C40", "title": "log_posterior composition", "statement": "log_posterior stores the parameters, returns (-inf, log_prior) without simulating when the prior is not finite, and otherwise the sum of all likelihoods plus the prior, averaged over the repeats, with the key threaded in order. The posterior is -inf if any likelihood is -inf and is never NaN when likelihoods are finite or -inf.", "quantifier": "all contexts, parameters, repeat counts", "why_tests_cant": "Unbounded numbers of likelihoods and repeats.", "anchors": ["appletree/context.py: Context.log_posterior"]}
{"id": "C41", "title": "Copied parameters stay available", "statement": "After update_parameter_config each copied parameter has the configuration of its source, and every name not a source is unchanged. Every parameter the likelihoods need and that was configured or copied should remain (it may not: sources that are not rate parameters are dropped even if needed).", "quantifier": "all configurations and copy tables", "why_tests_cant": "Collisions between copy sources, targets and needed names.", "anchors": ["appletree/context.py: Context.update_parameter_config"]}
{"id": "C42", "title": "The sanity check catches missing parameters", "statement": "If the context's sanity check passes, every parameter needed by a likelihood is provided by the parameter manager (the code checks only the converse inclusion).", "quantifier": "all contexts", "why_tests_cant": "A set inclusion over all contexts.", "anchors": ["appletree/context.py: Context._sanity_check, lineage"]}
{"id": "C43", "title": "Post-fit parameters come from the current chain", "statement": "get_post_parameters returns the parameters of the sample with the largest posterior in the current chain, and so does the metadata stored after every fit (this fails after continue_fitting: the first chain is kept).", "quantifier": "all sequences of fitting, continue_fitting and queries", "why_tests_cant": "Only histories with at least two stages show it.", "anchors": ["appletree/context.py: get_post_parameters, continue_fitting, _dump_meta"]}
{"id": "C44", "title": "A stored instruction can be read back", "statement": "from_backend rebuilds the same instruction that was stored: evaluating the serialized text gives back the instruction. This holds for instructions without booleans, null or non-finite numbers and raises for instructions containing true, false or null. Writing raises TypeError exactly if some value inside is an object json does not know or a dict with both string and integer keys, and the text does not depend on the order of the entries of dicts at any depth.", "quantifier": "all JSON-like instructions", "why_tests_cant": "The set of instruction values is unbounded.", "anchors": ["appletree/context.py: Context.from_backend, _dump_meta"]}
{"id": "C45", "title": "Every walker starts at a finite prior, in the fit order", "statement": "The starting positions built for fitting have one row per walker and one entry per fitted parameter in parameter_fit order, and each row has finite log_prior.", "quantifier": "all configurations, all random draws, all walker numbers", "why_tests_cant": "Random draws.", "anchors": ["appletree/context.py: Context.fitting, pre_fitting"]}
{"id": "C46", "title": "Binomial sampler stays in range and is exact at the limits", "statement": "With the hybrid sampler enabled, binomial returns a value in [0,n] for every draw, 0 when p<=0 or n<=0, n when p>=1, and on the small-n path exactly the number of successes among n independent trials, so its distribution is binomial. The normal approximation used where jax has no binomial stays in [0,n] too.", "quantifier": "all n, p and all draws", "why_tests_cant": "Range must hold in the tails, which sampling does not reach.", "anchors": ["appletree/randgen.py: binomial_hybrid, binomial (hybrid and fallback variants)"]}
{"id": "C47", "title": "Random keys are never reused", "statement": "In any simulation program built from the random samplers, every draw uses a different derived key, so draws are independent (twohalfnorm violates this: it uses one key for two draws).", "quantifier": "all sequences of sampler calls", "why_tests_cant": "Reuse is invisible in single-sampler tests.", "anchors": ["appletree/randgen.py: all samplers"]}
{"id": "C48", "title": "Two-half-normal density and sampler", "statement": "The two-half-normal log density integrates to one, is continuous with its maximum at mu. The sampler should follow it (the vectorised sampler does not: when sigma_pos > sigma_neg it never returns values just below mu).", "quantifier": "all mu, positive sigmas and all draws", "why_tests_cant": "An integral identity and an excluded interval.", "anchors": ["appletree/randgen.py: TwoHalfNorm, twohalfnorm"]}
{"id": "C49", "title": "Truncated and generalized samplers stay in their documented range", "statement": "truncate_normal returns values in [vmin,vmax] whatever the draw; generalized Poisson totals equal the sum of all generations and are at least the first generation.", "quantifier": "all draws", "why_tests_cant": "Tails.", "anchors": ["appletree/randgen.py: truncate_normal, generalized_poisson"]}
{"id": "C50", "title": "Quanta are conserved in the microphysics", "statement": "In every shipped ER and NR microphysics chain photons plus electrons equal the number of quanta, excitons plus ions equal quanta, electrons do not exceed ions and none is negative.", "quantifier": "all energies, parameters and random draws", "why_tests_cant": "Rare draws in the clips.", "anchors": ["appletree/plugins/er_microphys.py, nestv2.py, er_nestv2.py"]}
{"id": "C51", "title": "Efficiencies are probabilities", "statement": "The event efficiency computed by the shipped efficiency plugins lies in [0,1] for every event and every parameter value; band components keep every event.", "quantifier": "all events, parameters and map values", "why_tests_cant": "Sigma parameters can push maps outside [0,1].", "anchors": ["appletree/plugins/efficiency.py"]}
{"id": "C52", "title": "Mean yields are physical", "statement": "Mean excitons plus ions equal mean photons plus electrons and neither is negative, recombination probabilities lie in [0,1] and are below 1 whenever electrons are expected, and in the ER model light plus charge yield equals the inverse work function whenever the charge yield does not exceed it. Recombination fluctuations and drawn recombinations of the ER model are probabilities; the NR formulas follow the power laws of energy, field and density and the bell shape their parameters are named for; mean photons and electrons of the ER model add up to energy over work function. (The mean number of excitons does go negative where the light yield is clipped at zero, and the Fano factor is undefined at zero energy.)", "quantifier": "all positive inputs", "why_tests_cant": "A continuous parameter space.", "anchors": ["appletree/plugins/nestv2.py, er_nestv2.py, er_microphys.py"]}
{"id": "C53", "title": "Signal chain bounds", "statement": "Detected photons do not exceed produced photons, S1 photoelectrons lie between detected photons and twice detected photons, and extracted electrons never exceed drifted ones.", "quantifier": "all draws", "why_tests_cant": "Rare draws.", "anchors": ["appletree/plugins/detector.py"]}
{"id": "C54", "title": "File lookup order and idempotence", "statement": "get_file_path returns the first existing candidate in its documented order, never returns a path that does not exist in that search, and resolving a resolved path gives the same path.", "quantifier": "all file systems and names", "why_tests_cant": "Depends on the file system state.", "anchors": ["appletree/utils.py: get_file_path, _get_abspath"]}
{"id": "C55", "title": "set_gpu_memory_usage sets the requested fraction", "statement": "The memory fraction put in the environment equals the requested fraction to two decimals (this fails below 10 percent and at 100 percent).", "quantifier": "all fractions", "why_tests_cant": "Tests try one value.", "anchors": ["appletree/utils.py: set_gpu_memory_usage"]}
{"id": "C56", "title": "Extensions never overwrite silently", "statement": "Adding an extension class or module never replaces an existing attribute unless force is given (module names are compared under a different name than the one that is set).", "quantifier": "all modules and classes", "why_tests_cant": "Name collisions.", "anchors": ["appletree/utils.py: add_extensions, _add_extension"]}
{"id": "C57", "title": "File checksums do not depend on the read chunking", "statement": "The chunked checksum equals the checksum of the whole content for every file and chunk size.", "quantifier": "all files and chunk sizes", "why_tests_cant": "All lengths including multiples of the chunk size.", "anchors": ["appletree/utils.py: calculate_sha256"]}
{"id": "C58", "title": "Map plotting helpers are geometrically consistent", "statement": "Bin edges and centres derived for regular maps have matching lengths, are ordered and interleaved; collapsing axes averages exactly the selected bins and never averages an empty selection.", "quantifier": "all axes, bins and selections", "why_tests_cant": "All selections.", "anchors": ["appletree/plot.py: _regbin_edges_centers, _collapse_regbin_map"]}
{"id": "C59", "title": "Chain diagnostics helpers", "statement": "next_pow_two gives the least power of two not below n; the automatic window used for chains none of which is constant is the first index at or above the criterion; filtering non-finite posterior samples keeps parameters and posteriors aligned and the best fit is a largest-posterior sample.", "quantifier": "all inputs", "why_tests_cant": "All sizes.", "anchors": ["appletree/plot.py: next_pow_two, auto_window, Plotter.__init__"]}
{"id": "C60", "title": "Profiling runs the same data flow as the compiled simulator", "statement": "Profiling a deduced component never looks up a missing value and computes the same data as the compiled simulator when every plugin is the registered provider of its outputs.", "quantifier": "all registries and plugin functions", "why_tests_cant": "All graphs.", "anchors": ["appletree/profiler.py: profile_component"]}
{"id": "C61", "title": "Backend metadata and crash points", "statement": "After a crash at any point of fitting the stored file either can be used by from_backend with the metadata of a completed fit or is rejected; it is never silently half-read.", "quantifier": "all crash points", "why_tests_cant": "Crash points cannot be enumerated by tests.", "anchors": ["appletree/context.py: fitting, _dump_meta, from_backend"]}
{"id": "C62", "title": "Shipped components are well formed", "statement": "Every shipped simulated component has an acyclic complete registry in which each used plugin is the registered provider of all it provides, so C10-C12 apply to each of them for any requested data.", "quantifier": "all shipped components, all requestable data", "why_tests_cant": "The data requests are unbounded lists.", "anchors": ["appletree/components/*.py", "appletree/plugins/*.py"]}
{"id": "C63", "title": "Inverse-distance maps are finite at grid nodes in single precision", "statement": "Evaluating a two-dimensional regular-binned map with the IDW method exactly at a grid node returns a finite number close to the entry stored there, in the single precision the package computes with.", "quantifier": "every regular 2D map with ordinary spacing and entries, every node", "why_tests_cant": "tests evaluate at a few random positions and never exactly on a node; the overflow depends on the size of the entry", "anchors": ["appletree/interpolation.py: map_interpolator_regular_binning_2d, FLOAT_POS_MIN"]}
{"id": "C64", "title": "Inverse-cdf maps return the quantile", "statement": "A map built from a tabulated pdf by conversion to a cdf and evaluated at u returns the x below which the fraction u of the tabulated pdf lies, up to the resolution of linear interpolation.", "quantifier": "all tabulated pdfs", "why_tests_cant": "tests only check that sampling runs; a shift of half a table step is invisible in coarse comparisons", "anchors": ["appletree/config.py: Map.pdf_to_cdf", "appletree/utils.py: cumulative_integrate_midpoint"]}
{"id": "C65", "title": "Expected events of a context", "statement": "get_num_events_accepted of a context is the sum over its binned likelihoods of their expected events; literature likelihoods neither contribute nor disturb the others, and an error of one likelihood is not swallowed.", "quantifier": "all contexts, parameters, batch sizes and keys", "why_tests_cant": "Unbounded numbers and orders of likelihoods.", "anchors": ["appletree/context.py: Context.get_num_events_accepted"]}
{"id": "C66", "title": "A restored context is the stored one", "statement": "from_backend builds a context with the parameter configuration the stored fit used. It does when the configuration came from the file named in the instruction; a configuration passed by hand is not stored with the instruction, so the restored context has another one or raises.", "quantifier": "all instructions, files and manual configurations", "why_tests_cant": "Tests restore contexts made from instruction files only.", "anchors": ["appletree/context.py: Context.__init__, from_backend, _dump_meta"]}
{"id": "C67", "title": "Scalar draws of the two-half-normal reach both sides of the centre", "statement": "TwoHalfNorm.rvs returns values below mu with the probability the density gives them, in every calling convention (violated without an output shape and with Python numbers as sigmas: no value is ever below mu).", "quantifier": "all mu, positive sigmas and draws", "why_tests_cant": "Arrays behave; only the scalar convention with Python numbers is wrong, and only in distribution.", "anchors": ["appletree/randgen.py: TwoHalfNorm.rvs"]}
{"id": "C68", "title": "Errors are converted to sigmas with the right percentiles", "statement": "When the conversion of upper and lower errors to two-half-normal sigmas succeeds, the density with these sigmas leaves the one-sided one-sigma tail probability above mu plus the upper and below mu minus the lower error; equal errors are kept; a failed solve raises.", "quantifier": "all non-negative errors and all centres", "why_tests_cant": "A statement about integrals over a continuum of errors.", "anchors": ["appletree/utils.py: errors_to_two_half_norm_sigmas"]}
{"id": "C69", "title": "Negative binomial draws follow the negative binomial distribution", "statement": "negative_binomial(p, n) draws from two different keys and its values have the negative binomial distribution with n successes of probability p, for real n > 0 too.", "quantifier": "all n > 0, 0 < p < 1 and every value", "why_tests_cant": "A distribution over all naturals with an error easily hidden in the rate convention.", "anchors": ["appletree/randgen.py: negative_binomial, gamma, poisson"]}
{"id": "C70", "title": "Simulated events start inside the configured volume and energy range", "statement": "Positions drawn by the position plugin lie inside the configured cylinder and are uniform in its area and its height; energies drawn by the uniform energy plugin lie between the configured limits; energies of mono-energetic components are the draw where that is not negative and zero elsewhere.", "quantifier": "all configured limits and all draws", "why_tests_cant": "A statement about every draw and about a distribution; histograms of a sample have errors that hide a wrong radial law.", "anchors": ["appletree/plugins/common.py: UniformEnergySpectra, PositionSpectra"]}
{"id": "C71", "title": "The recombination fluctuation of the ER model stays below its amplitude", "statement": "The width omega of the ER recombination fluctuation never exceeds the configured amplitude and reaches it at its maximum, as its normalisation intends (violated for every nonzero skewness parameter: the normalisation divides by the value at the mean of the skewed bell, which is not its maximum).", "quantifier": "all recombination parameters and all electron fractions", "why_tests_cant": "A supremum over a continuum; at the shipped parameters the excess is small.", "anchors": ["appletree/plugins/er_nestv2.py: OmegaER"]}
{"id": "C72", "title": "The NR electron draw has the requested mean and variance", "statement": "Before rounding and clipping, the number of electrons drawn by the NR model has mean (1 - recombination probability) times the number of ions and the variance the fluctuation plugin asks for, for every skewness.", "quantifier": "all skewness parameters, variances, recombination probabilities and ion numbers", "why_tests_cant": "Moments of a skewed distribution over a continuum of parameters; the shift and scale corrections must cancel exactly.", "anchors": ["appletree/plugins/nestv2.py: TruePhotonElectronNR"]}
{"id": "C73", "title": "Shipped instructions and parameter files fit together", "statement": "A context made from any shipped instruction file with the parameter file it names passes the parameter check, and the parameters it manages are exactly those its components need, after copies and aliases, so that no simulation of it lacks a parameter.", "quantifier": "all shipped instruction files, all priors, draws, data files and maps", "why_tests_cant": "The tests run some of the contexts with some draws; whether a parameter is missing depends on which plugins are used and on the sigma maps configured.", "anchors": ["appletree/instructs/*.json", "appletree/parameters/*.json", "appletree/context.py: Context.__init__, update_parameter_config, _sanity_check", "appletree/likelihood.py: register_component"]}
{"id": "C74", "title": "A likelihood combines any number of simulated components", "statement": "Components that can each be simulated by themselves can be registered together in one likelihood (violated: a second simulated component is always refused with RuntimeError, because the name of the likelihood is already in the function cache).", "quantifier": "all likelihoods, components and sequences of registrations", "why_tests_cant": "Tests only combine one simulated component with fixed ones.", "anchors": ["appletree/likelihood.py: register_component", "appletree/component.py: ComponentSim.code, deduce, compile", "appletree/share.py: StaticValueDict"]}
{"id": "C75", "title": "Saving map plots leaves one file per figure", "statement": "plot_maps looks at every different map used by the simulations exactly once, under all the names it is configured with; when saving, every figure drawn can afterwards be found on disk in every requested format.", "quantifier": "all contexts, maps, collapse requests, base names and formats", "why_tests_cant": "All combinations of files and dimensions; overwriting depends on base names.", "anchors": ["appletree/plot.py: _collect_maps, _save_figure, plot_maps"]}
{"id": "C76", "title": "The autocorrelation time is the integrated autocorrelation of the chains", "statement": "The autocorrelation of a chain computed with Fourier transforms equals the directly computed one at every lag, is 1 at lag zero and at most 1 in size; the reported time is the integrated autocorrelation, averaged over walkers, at the first window passing the criterion.", "quantifier": "all chains that are not constant, all lengths, walkers and criteria", "why_tests_cant": "All lengths and chains; zero padding errors show only at some lengths.", "anchors": ["appletree/plot.py: autocorr_func_1d, next_pow_two, auto_window, autocorr_new"]}
{"id": "C77", "title": "The acceptance fraction counts accepted steps", "statement": "The cumulative and moving-average curves are fractions of accepted steps among the steps covered, always between 0 and 1, and the value shown for each walker is its fraction of accepted steps, whatever the window length and thinning.", "quantifier": "all chains with at least two iterations, all window lengths, discards and thinnings", "why_tests_cant": "All chains and window lengths.", "anchors": ["appletree/plot.py: Plotter.make_acceptance_fraction"]}
{"id": "C78", "title": "Generalized Poisson draws follow the generalized Poisson law", "statement": "For a positive mean and a dispersion between 0 and 1, the branching construction ends after finitely many generations with probability one, and the number it returns has the generalized Poisson distribution with the documented parameters and the requested mean.", "quantifier": "all means, all dispersions in [0, 1), all counts, ideal independent Poisson draws", "why_tests_cant": "A claim about a probability law and about termination of an unbounded loop; samples only suggest it.", "anchors": ["appletree/randgen.py: generalized_poisson"]}
{"id": "C79", "title": "The posterior is that of the configured model", "statement": "For a context whose likelihoods are built from data files, with components made of registered plugins or of fixed tables, the log posterior at given parameters is the log prior plus the mean over the repetitions of the binned Poisson log likelihoods of all data sets, where the number of events expected in each bin is the sum over the components of rate times normalised weight of the events that the plugins generate when each is called once, in an order in which inputs come first, with the random key handed on. It is minus infinity if a bin expects no event.", "quantifier": "all configurations, data, registries of consistent plugins with arbitrary functions, bins of every kind, parameters, keys, batch sizes and numbers of repetitions", "why_tests_cant": "The claim composes code generation, histogramming, aliasing, registration and the prior for arbitrary plugins and histories; no finite set of configurations covers it.", "anchors": ["appletree/context.py: Context.log_posterior", "appletree/likelihood.py: Likelihood.get_log_likelihood, Likelihood.simulate_model_hist", "appletree/component.py: ComponentSim.simulate_hist, ComponentSim.code, ComponentFixed.simulate_hist"]}
{"id": "C80", "title": "Predictions and log likelihoods converge with the batch size", "statement": "If the events a component simulates are independent with one law, then at every batch size a template normalised on the simulation has in each bin the rate times the probability that an event falls there and is accepted as its expectation, and the probability of a given deviation falls at least as fast as one over the batch size. Templates of both normalisations approach these values, and the log likelihood approaches the Poisson log likelihood of the data for them. At a finite batch size the mean log likelihood lies below that limit as soon as the prediction in a bin with data fluctuates, so it is the batch size and not repetition that removes the shift.", "quantifier": "all laws of events with square-integrable weights, configurations, plugins, bins of every kind, rates, data and batch sizes", "why_tests_cant": "It is a statement about probability distributions and a limit; a finite number of random runs can only estimate it.", "anchors": ["appletree/component.py: ComponentSim.simulate_hist, Component.implement_binning", "appletree/likelihood.py: Likelihood.get_log_likelihood, Likelihood.simulate_model_hist", "appletree/context.py: Context.log_likelihood"]}
{"id": "C81", "title": "The lineage identifies the model", "statement": "The lineage of a component, likelihood or context, and its hash, identify what was run. Equal hashes mean equal names, normalisation, bins, generated code, plugin declarations, configuration values, contents of map files and data; the hash does not depend on the process or on where files are stored. Writing a lineage to a file produces the whole lineage or raises an error.", "quantifier": "all compiled components, plugins, configurations of the four kinds, files and their contents, likelihoods of both kinds, and orders in which a set is walked", "why_tests_cant": "A test compares a few lineages; that no two different models share one, and which differences go unnoticed, ranges over all pairs of models.", "anchors": ["appletree/plugin.py: Plugin.lineage", "appletree/config.py: Config.lineage, Map.lineage, SigmaMap.lineage, ConstantSet", "appletree/component.py: ComponentSim.lineage, ComponentFixed.lineage, Component.lineage_hash", "appletree/likelihood.py: Likelihood.lineage, LikelihoodLit.lineage", "appletree/context.py: Context.lineage", "appletree/utils.py: dump_lineage, calculate_sha256"]}
{"id": "C82", "title": "A plugin gets what it declares", "statement": "A plugin class takes the configurations it declares and those it inherits; declaring one twice is refused. An instance can be made only if its code names the declared inputs in the declared order, so a value is never passed under another name; each configuration is found under its own name and hides nothing. A set of constants has one row per name, all of one length. The shipped plugins read exactly the parameters and configurations they declare.", "quantifier": "all plugin classes, inheritance chains, declarations, argument lists, configuration names, values of sets of constants, and all shipped plugins", "why_tests_cant": "A test decorates and constructs a few plugin classes; users write their own, with any names and order of arguments.", "anchors": ["appletree/config.py: takes_config, ConstantSet.build, ConstantSet._sanity_check", "appletree/plugin.py: Plugin.__init__, Plugin.sanity_check, Plugin.__call__", "appletree/plugins"]}
{"id": "C83", "title": "Repeated simulation with new compilation", "statement": "Compiling before every repetition gives what repeated simulation gives, unless the component takes its events from a file; then each round runs the program compiled for that file with the batch size asked for and its own seed. The columns of the rounds are put together in order, and the settings of other likelihoods do not change.", "quantifier": "all components, configurations of the file of events, likelihood names, keys, numbers of repetitions and compiled programs", "why_tests_cant": "The tests never call it; the claim ranges over all histories of keys, programs and configurations.", "anchors": ["appletree/component.py: Component.multiple_simulations_compile, Component.multiple_simulations, Component._use_mcinput"]}
{"id": "C84", "title": "The table of options tells what will be used", "statement": "show_config lists exactly the options of the plugins that the requested data need, each plugin once, with its default, the value set for this component's likelihood and what the plugin provides. A value shown as current is the value a plugin of that likelihood gets when it is built; nothing shown as current means that the default will be used, and that building is refused if there is none. After an option was read, the table shows the value read.", "quantifier": "every plugin registry, requested data, option store and likelihood name", "why_tests_cant": "A test prints the table of one component with one store; that table and use agree must hold for every store, including values set per likelihood.", "anchors": ["appletree/component.py: ComponentSim.show_config", "appletree/config.py: Config._resolve_cached_config, SigmaMap.get_configs"]}
{"id": "C85", "title": "A copied component simulates like the original", "statement": "new_component gives a component of the same class with the bins of the original. Deduced with the same arguments and the same option values, it simulates the same from the same key and needs the same parameters. It can be deduced under its own likelihood name, and asking for bins that were never set is refused.", "quantifier": "every component class, original, likelihood name, request and simulator", "why_tests_cant": "The only test calls new_component once and looks at nothing; what a copy computes depends on what happened to the original since construction.", "anchors": ["appletree/component.py: ComponentSim.new_component, Component.__init__", "appletree/likelihood.py: Likelihood.register_component"]}
{"id": "C86", "title": "The drawn dependency graphs show the dependencies of the simulation", "statement": "The graph of the data names has exactly the data the requested data need as nodes, and from each name exactly one arrow to every input of the plugin providing it. The graph of the plugins has exactly one node for each plugin that will be run and one arrow for each input it gets from another plugin. Both can be drawn whenever the dependencies resolve, and not when an input has no provider or something needs itself. Asked to show data names, the graph shows them at every plugin.", "quantifier": "every plugin registry, requested data and recursion depth", "why_tests_cant": "No test draws a graph, and looking at one picture says nothing about other registries; the recursion with a shared list of seen names is repeated once per input, so that nothing is drawn twice or left out needs an invariant.", "anchors": ["appletree/utils.py: add_deps_to_graph_tree, add_plugins_to_graph_tree", "appletree/component.py: ComponentSim.dependencies_deduce"]}
{"id": "C87", "title": "The template after a fit is the sample the fit used at the best parameters", "statement": "After a fit, the template of a component is the sample of events from which the likelihood makes the histogram of this component at the best parameters, given the same seed and batch size. Before a fit, for unknown likelihoods or components and for fixed components the request is refused.", "quantifier": "every finished fit, likelihood, component, alias table, batch size and random key", "why_tests_cant": "Tests call get_template on a context without aliases and only look whether it returns; whether it is the sample of the fit depends on the renaming of parameters, which the likelihood does before it simulates and the template does not.", "anchors": ["appletree/context.py: Context.get_template", "appletree/likelihood.py: Likelihood.replace_alias"]}
{"id": "C88", "title": "The prior drawn over the posterior is the prior of the fit", "statement": "In the marginal and the corner plot the curve drawn for the prior of a parameter is the probability density of the prior the fit used, over the same axis as the normalised histogram of the posterior.", "quantifier": "every parameter configuration, prior with its arguments, allowed range and abscissa", "why_tests_cant": "Tests only make the plots. That the density drawn agrees with the one sampled is a statement about all values of a continuous variable and about integrals over the allowed range.", "anchors": ["appletree/plot.py: Plotter._norm_pdf, _uniform_pdf, _thn_pdf, plot_marginal_posterior, plot_corner", "appletree/parameter.py: Parameter.log_prior"]}
{"id": "C89", "title": "The burn-in plot shows each value at its iteration", "statement": "In the burn-in plot the line of a walker shows its values at exactly the iterations that were kept, each at the number of the iteration, for the parameters, the log posterior and the log prior alike.", "quantifier": "every stored chain, discarded iterations, thinning, number of walkers and pattern of infinite posteriors", "why_tests_cant": "Tests draw one chain with the default thinning and do not look at the abscissas; where a point lands depends on all dropped iterations before it.", "anchors": ["appletree/plot.py: Plotter.__init__, plot_burn_in"]}
{"id": "C90", "title": "The picture of a two-dimensional histogram shows the histogram", "statement": "A two-dimensional histogram over irregular bins is drawn with one rectangle for each bin, whose corners are those of the bin, so that the events counted in a bin lie in its rectangle; the colours are ordered as the contents (or densities), with the colour of a bin depending linearly on its own content between the lowest and the highest one, and the axes show all bins.", "quantifier": "every binning, histogram (with NaN or infinite contents, as ratios and pulls have), choice of density and limits of the colour scale", "why_tests_cant": "A test makes the picture and does not look at it; one example cannot show that each bin is drawn once, at the right place and with the right colour for every shape of the bins and every content.", "anchors": ["appletree/utils.py: plot_irreg_histogram_2d", "appletree/hist.py: make_hist_irreg_bins_2d"]}
{"id": "C91", "title": "Histograms count exactly in the precision they are computed in", "statement": "The content of a bin is the number of events in it, or the total of their weights up to the rounding of one sum per event, although the contents are added up in single precision; in particular the predicted fraction of events in a bin gets better, not worse, with larger batches.", "quantifier": "every binning in one and two dimensions, irregular or mesh grid, every number and order of events and all non-negative weights", "why_tests_cant": "The loss sets in at 16777216 events per bin, far beyond what a test simulates; that nothing is lost below is a statement about all samples and orders of the sums.", "anchors": ["appletree/hist.py: make_hist_mesh_grid, make_hist_irreg_bin_1d, make_hist_irreg_bin_2d", "appletree/randgen.py: FLOAT"]}
{"id": "C92", "title": "Map files are accepted exactly when they are meaningful, and accepted maps can be read", "statement": "Building a map accepts a file exactly when its type is known, its entries are present, the method exists for its dimension, logarithmic axes have positive coordinates and are neither pdf nor cdf, and types given axis by axis match the axes; everything else raises KeyError, ValueError or IndexError. A pdf file builds the map of its cdf. A map that was built returns a value at every position, between the smallest and the largest entry, and linear interpolation returns the stored entry at every node of a linear, logarithmic or mixed grid.", "quantifier": "all map files, methods and positions", "why_tests_cant": "The combinations of types, names, axes and methods are unbounded; tests build a handful of files and apply them at a few positions.", "anchors": ["appletree/config.py: Map.build, build_point, build_regbin, _validate_log_coords, _get_regbin_interpolator, map_regbin", "appletree/interpolation.py: map_interpolator_regular_binning_1d"]}
{"id": "C93", "title": "The shipped maps build and mean what the plugins take them for", "statement": "Every map a shipped plugin declares has a default file that exists and builds with the declared method, and every shipped file is used. With the defaults: the efficiency is one exactly when the S2 passes its threshold and at least three photons were detected, whatever the scalers; energies follow the tabulated cumulative distribution between 0.3 and 4 keV; light and charge yields are non-negative and together within the number of quanta the work function allows; corrections, light collection and relative gain are one and the field is 23 V/cm at every position; areas have no bias and stay non-negative for draws above -4.3 and -23.5 standard deviations; events of the default volume lie inside every position map.", "quantifier": "all energies, positions, photon numbers, areas, draws and scaler values", "why_tests_cant": "Tests check that a simulation runs; that the tables are monotone, within bounds and sufficient for every position and energy is a statement about a continuum of inputs and all the numbers in the files.", "anchors": ["appletree/maps/*.json", "appletree/plugins: common, detector, efficiency, lyqy, reconstruction", "appletree/config.py: Map.build, SigmaMap.apply"]}
{"id": "C94", "title": "The profiler reports the time of each component and each plugin", "statement": "Profiling reports, under likelihood/component, one line per plugin with the mean and standard deviation of its own timed runs, in order; timing does not change what is computed. With a clock that does not run backwards the times are non-negative and add up to at most the time that passed. Full-simulation profiling succeeds exactly when every compiled component can be run the requested number of times from a fresh key. The comparison has a row for every profiled component and its overhead is positive exactly when the plugins alone took longer. The summary's grand total is the sum over all plugins and its list holds the slowest ones in order. With given parameters the context is left alone; otherwise its parameters are sampled anew once.", "quantifier": "all contexts, components, worksheets, clocks, numbers of warmup and timed runs", "why_tests_cant": "Times are not reproducible; tests only look at the keys of the result for one context.", "anchors": ["appletree/profiler.py: profile_plugin, profile_component, profile_context, profile_full_simulation, compare_plugin_vs_full, print_profile_summary"]}
{"id": "C95", "title": "Likelihood methods take their arguments in any way Python allows and see them with aliases replaced", "statement": "A method of a likelihood that replaces aliases accepts exactly the calls Python accepts for it: every argument given once, by position or by keyword, or left to its default. It then runs on the arguments as given, with only the aliased names of parameters replaced; however the arguments are passed the result is the same. Any other call is a TypeError, and so are parameters that are not a dictionary when there are aliases.", "quantifier": "all signatures, all lists of positional and keyword arguments, all alias tables and all methods", "why_tests_cant": "Tests call each method in one way; the claim is over all ways of passing arguments.", "anchors": ["appletree/likelihood.py: need_replacing_alias, Likelihood.replace_alias"]}
{"id": "C96", "title": "Importing the package binds every name that is used", "statement": "Importing the package succeeds in spite of the modules importing each other, and runs each module once. Every exported name is the object its module defines, the list of exported names is exactly those decorated, and import * takes over exactly these. No function of the package can fail because a global name, or an attribute of one of its modules, is missing, and the classes that the shipped components and instructions name exist.", "quantifier": "all packages of modules importing each other, all names; for the shipped package every module, every global name used in any function, every plugin class and every class named in a shipped instruction", "why_tests_cant": "Tests import the package and run some functions; a name missing in a branch that no test reaches, or overwritten by a later import, is not seen.", "anchors": ["appletree/utils.py: exporter", "appletree/__init__.py", "appletree/plugins/__init__.py", "appletree/components/__init__.py", "appletree/contexts/__init__.py"]}
{"id": "C97", "title": "The picture of a map shows what the map returns", "statement": "plot_maps draws every map the simulation uses, and reading a value off the figure gives what the map returns: a table is drawn as the function that is applied, an image shows at each position the value of the map there, and the band of a map with uncertainty contains what it returns for every parameter between -1 and 1. A request to collapse axes is used for the map it names.", "quantifier": "all files of maps, all methods, all positions inside the figure, all requests, all orders of building", "why_tests_cant": "Tests check that figures are made; that what they show agrees with the interpolation concerns every position and every file.", "anchors": ["appletree/plot.py: plot_maps, _plot_regular_map, _plot_sigma_map, _plot_map_1d_point, _plot_map_1d_regbin, _plot_map_2d_regbin, _plot_sigma_map_1d_point, _plot_sigma_map_1d_regbin, _lookup_collapse, _collect_maps", "appletree/config.py: Map.build", "appletree/plugin.py: Plugin.__init__"]}
{"id": "C98", "title": "The corrected signals and the reconstructed position are unbiased", "statement": "Averaged over independent draws whose means are those of their distributions, the corrected S1 of an event with n photons is g1 n and the corrected S2 of an event with n electrons is g2 n, both times one plus the bias of the reconstruction, so that W (cS1/g1 + cS2/g2) is the energy of the quanta. Position, electron lifetime, gas gain, double photoelectrons and smearing drop out. This ends where a probability would exceed one: there every photon is detected or every electron extracted, and the mean signal stays below g1 n or g2 n. The reconstructed position averages to the true one, with the resolution as its root mean square distance; the reconstructed radius belongs to that position.", "quantifier": "all numbers of quanta, all values of the parameters with probabilities in range, all positions (values of the correction maps), all probability spaces and samplers with the right means", "why_tests_cant": "A mean over random draws is a statement about a probability measure; a test sees a finite sample and needs a tolerance.", "anchors": ["appletree/plugins/detector.py: PhotonDetection, S1PE, ElectronDrifted, S2PE", "appletree/plugins/reconstruction.py: PositionRecon, S1, S2, cS1, cS2", "appletree/randgen.py: binomial_hybrid"]}
{"id": "C99", "title": "The samplers have the distributions they are named after", "statement": "If what jax.random draws is distributed as documented, the uniform sampler is uniform between its limits, the normal sampler normal with its mean and width, the gamma sampler gamma with shape alpha and rate beta, the Bernoulli sampler one with its probability, the skew-normal sampler skew-normal, and the truncated normal sampler truncated normal. (The last is violated: values outside the limits are put on the limits.)", "quantifier": "all parameters, all array sizes and elements, all probability spaces with ideal draws, all keys", "why_tests_cant": "Tests can only compare histograms of finitely many draws within tolerances; a law is a statement about all measurable sets.", "anchors": ["appletree/randgen.py: uniform, normal, gamma, bernoulli, skewnormal, truncate_normal"]}
{"id": "C100", "title": "Error messages name what is wrong", "statement": "An error raised while a model is put together names its cause: two plugins with different defaults for one configuration (both plugins, the configuration and the default of each), data that no plugin provides, parameters that do not exist, parameters that are not needed, and the argument of simulate that is in the wrong place. check_parameter_exist with return_not_exist gives the names that do not exist. (Violated: the two defaults are exchanged between the plugins, and for a single existing name the name itself is returned as not existing.)", "quantifier": "all registries, plugin classes, requested data, recursion depths, parameter managers, arguments and contexts", "why_tests_cant": "Tests check that an error is raised and hardly ever its text, and there is no finite list of wrong set-ups.", "anchors": ["appletree/component.py: ComponentSim.register, dependencies_deduce", "appletree/parameter.py: check_parameter_exist, set_parameter, get_parameter", "appletree/context.py: Context._sanity_check", "appletree/plugin.py: Plugin.sanity_check"]}
{"id": "C101", "title": "Files are read by their kind and written completely or not at all", "statement": "load_data reads csv and pickle files by the end of their name and refuses every other file; add_spaces indents every line; tree_to_svg returns the indented picture of the given graph and leaves only the svg file; save_code, dump_post_parameters and make_all_plots put what was asked into the named files, touch no other file, and a failure leaves existing files as they were. (Violated: add_spaces joins the lines of a string; tree_to_svg returns an older picture for a graph of another format; save_code before deduce empties the file; dump_post_parameters leaves half a file when a value cannot be written.)", "quantifier": "all file systems, paths, texts, graphs, parameter dictionaries, formats, and failures of any plot", "why_tests_cant": "Tests write one file into an empty directory; what happens to existing files at each failure is never looked at.", "anchors": ["appletree/utils.py: load_data, add_spaces, tree_to_svg", "appletree/component.py: ComponentSim.save_code", "appletree/context.py: Context.dump_post_parameters", "appletree/plot.py: Plotter.make_all_plots"]}
{"id": "C102", "title": "Timing a function does not change it", "statement": "A function decorated with timeit returns what it returned, raises what it raised and has the same effects, printing one line before and one after; the decorated function can be used wherever the function could. (The last is violated: name and arguments are lost, so a plugin with a timed simulate cannot be made.)", "quantifier": "all functions, arguments, states and indents", "why_tests_cant": "Tests time one function that returns a value; errors, nesting and other uses of the decorated function are not tried.", "anchors": ["appletree/utils.py: timeit", "appletree/plugin.py: Plugin.sanity_check"]}
{"id": "C103", "title": "The counts of an electronic recoil are binomially distributed along the chain", "statement": "Out of n quanta of an electronic recoil, the numbers of electrons, photons, detected photons and extracted electrons each follow the binomial distribution whose probability is the product of the probabilities of the steps: ionization, escape from recombination, detection, drift, extraction. Mean and variance of the numbers and of the S1 photoelectrons are those of independent quanta.", "quantifier": "all numbers of quanta, exciton-ion ratios, recombination fractions, gains, light collections and survival probabilities within their ranges, and all independent samplers with binomial laws, in particular the shipped hybrid sampler for counts within its threshold", "why_tests_cant": "Tests run a plugin once on random keys; the joint effect of several plugins on a distribution is a statement about all draws.", "anchors": ["appletree/plugins/er_microphys.py: IonizationER, RecombinationER", "appletree/plugins/detector.py: PhotonDetection, S1PE, ElectronDrifted, S2PE", "appletree/randgen.py: binomial"]}
{"id": "C104", "title": "The printed summaries show what is registered", "statement": "print_context_summary prints nothing if the context provides parameters that are not needed; otherwise it lists every likelihood and every component once, in order and numbered, with its class, rate, parameters and file, and nothing that is registered is hidden; the parameters shown are the ones the context needs (violated with aliases: the names shown are those inside the components, and a context providing them is refused); print_worksheet shows one row for each plugin in the order of execution with all names in full; before deduce a message is printed instead.", "quantifier": "all contexts, likelihoods, histories of registrations, components, aliases, worksheets and names", "why_tests_cant": "Tests call the summaries for their lack of exceptions; nobody compares the text with what is registered.", "anchors": ["appletree/context.py: Context.print_context_summary", "appletree/likelihood.py: Likelihood.print_likelihood_summary, Likelihood._print_components, LikelihoodLit.print_likelihood_summary", "appletree/profiler.py: print_component_code, print_worksheet"]}
{"id": "C105", "title": "Changing options in a running session", "statement": "In any sequence of set_config, creation of contexts, deduce and compile on any components, without clear_cache: a compiled component keeps the option values it was compiled with until it is compiled itself again (violated for the parameter of a SigmaMap, which is read when the map is applied); compile gives every plugin the values stored at that moment for its likelihood; so set_config followed by compile puts the new numbers and files in effect (violated for SigmaMap options: another file, or even the file in use, makes compile fail); the advice to run deduce again after set_config can be followed (violated: deduce never succeeds twice); a configuration file name is accepted (violated: AttributeError); options given for one context do not affect another (violated); url_base may be any address (violated: it must be found as a file).", "quantifier": "all sequences of operations on any number of components, plugin classes, option values, likelihood names and file systems", "why_tests_cant": "Tests set options once and compile once; that later changes take effect, and only where they should, depends on the whole history of a session.", "anchors": ["appletree/share.py: set_global_config, clear_cache", "appletree/component.py: ComponentSim.set_config, ComponentSim.deduce, ComponentSim.compile", "appletree/plugin.py: Plugin.__init__", "appletree/config.py: Constant.build, Map.build, SigmaMap.build, SigmaMap.apply", "appletree/context.py: Context.__init__, Context.update_url_base, Context.set_config"]}
{"id": "C106", "title": "Several contexts in one session", "statement": "Contexts made one after the other in a session do not disturb each other: each is made as it would be in a fresh session (proved if no earlier context used one of its likelihood names for a simulated likelihood, and after clear_cache; violated otherwise: the same instruction, or restoring a fit from its backend in the session that made it, raises RuntimeError); an instruction that failed can be corrected and used (violated: the names of the likelihoods completed before the failure stay taken). A context that is made has every likelihood of its instruction, each with exactly the components listed for it.", "quantifier": "all sessions of any number of contexts, successful or not, and clear_cache; all instructions, likelihood and component names, registries and numbers of components", "why_tests_cant": "Tests clear the cache before every context; what a session with several contexts does depends on the names and the order of all of them.", "anchors": ["appletree/context.py: Context.__init__, Context.from_backend, Context.register_all_likelihood, Context.register_likelihood, Context.register_component", "appletree/likelihood.py: Likelihood.register_component", "appletree/share.py: StaticValueDict, clear_cache", "appletree/component.py: ComponentSim.code, ComponentSim.compile"]}
{"id": "C107", "title": "An instruction is carried out as written, and its mistakes are reported", "statement": "A context is made from an instruction exactly if its options can be set, its parameters read and completed, and each of its likelihoods and components has the items it needs; what is made are the options, parameters, likelihoods and components the instruction gives, in its order, and nothing else. A component given by its class name is the component written in full; an instruction given by file name is its dictionary. Missing items, unknown classes and unknown types are refused with the exception for them. Misspelt items are reported (violated: ignored at all three levels). The documented items suffice (violated: copy_parameters is needed). A refused instruction changes nothing (violated: its options stay set).", "quantifier": "all instructions (any json dictionaries), any numbers of likelihoods and components, parameters given or read from a file, and all outcomes of setting options, reading files and building likelihoods and components", "why_tests_cant": "Tests read the instructions that ship with the package; what becomes of an item depends on its name, its level and everything before it in the instruction.", "anchors": ["appletree/context.py: Context.__init__, Context.register_all_likelihood, Context.register_likelihood, Context.register_component, Context.update_parameter_config", "appletree/likelihood.py: Likelihood.__init__, LikelihoodLit.__init__", "docs/source/advance/instruct.rst"]}
{"id": "C108", "title": "Simulations without a given key use their own random numbers", "statement": "Evaluations of the posterior, repeats of one evaluation and event counts, which make their keys from the clock, start from different keys (proved if they begin at least a microsecond apart, all within 2^32 - 1 microseconds or with 64-bit numbers enabled; violated otherwise: by default the keys repeat every 2^32 microseconds, about 71.6 minutes, so that an evaluation at the same parameters gives the same value, and processes started in the same microsecond share their keys). A given seed fixes the key, and different seeds give different keys (violated without 64-bit numbers for seeds that differ by a multiple of 2^32, such as -1 and 4294967295).", "quantifier": "all clock readings, all lists of evaluations of any length, all integer seeds, with and without 64-bit numbers", "why_tests_cant": "Tests run for seconds and use one seed; the keys repeat only after more than an hour, and for unlikely pairs of seeds.", "anchors": ["appletree/randgen.py: get_key", "appletree/context.py: Context.log_posterior, Context.get_template", "appletree/likelihood.py: Likelihood.get_num_events_accepted"]}
{"id": "C109", "title": "Rates scale their components and nothing else", "statement": "For given random numbers, if no plugin reads a rate, changing the rates of components changes neither the simulated events nor the key that is handed on: the expected number of events in every bin is the sum over the components of the rate times a template that does not depend on the rates. So the log likelihood is concave in all the rates together, strictly so where rates change the prediction in a bin with data; rates at which the data over the prediction, weighted with each template, adds up to the sum of the template are the best fit; among common multiples of given rates the best is the one for which the expected number of events equals the observed one; with on_pdf the expected number is the sum of the rates. Components with equal templates cannot be told apart, and a fixed component with rate zero might as well be absent.", "quantifier": "all likelihoods built from data files with any number of simulated and fixed components, consistent plugins with arbitrary functions that read no rate, bins of every kind, data, rates, keys and batch sizes", "why_tests_cant": "Tests evaluate the likelihood at a few points with one key; that the surface has no other maxima is a statement about all rates.", "anchors": ["appletree/component.py: Component.get_normalization, ComponentSim.simulate_hist, ComponentFixed.simulate_hist", "appletree/likelihood.py: Likelihood.get_log_likelihood, Likelihood._simulate_model_hist"]}
{"id": "C110", "title": "Adding a component or a data set leaves the rest of the model as it was", "statement": "Registering one more simulated component leaves the histograms and the random numbers of the components already there unchanged: it starts from the key they leave over and its histogram is added. A fixed component only adds its histogram wherever it is registered. A model that raised before goes on raising the same error. Histogram and weighted data of a likelihood are made from the same events for the same key. One more likelihood adds the mean over the repetitions of its own log likelihood to a finite posterior, starting from the keys the others leave over, and the posterior exists exactly when this likelihood can be evaluated there; one without simulated components adds its log likelihood wherever it stands. (The order of simulated components does matter: exchanging two of them changes their random numbers.)", "quantifier": "all likelihoods and contexts, all components and their functions, keys, batch sizes, parameters and numbers of repetitions", "why_tests_cant": "Tests build one or two fixed models; that extending a model does not disturb the rest is about every model and every extension.", "anchors": ["appletree/likelihood.py: Likelihood.register_component, Likelihood._simulate_model_hist, Likelihood.simulate_weighted_data", "appletree/context.py: Context.register_likelihood, Context.log_posterior"]}
{"id": "C111", "title": "Files are looked for where the manual says", "statement": "A file name is looked for in the places the manual lists, in that order: a name that begins with a slash, the url base if it begins with a slash, the folders maps, data, parameters and configs of the package, and the two sources of the collaboration; what is found is a file (violated: a file of the working directory is taken before the url base although its name does not begin with a slash, the folder configs is not searched while instructs is, and a folder can be returned, for example for the empty name). A url base that does not begin with a slash has no effect; a name that begins with a slash is answered with itself or by the last two sources.", "quantifier": "all file systems, names, url bases and caches", "why_tests_cant": "Tests look up a few names in one installation; precedence between places depends on what every one of them holds.", "anchors": ["appletree/utils.py: get_file_path, _get_abspath", "docs/source/advance/file.rst"]}
{"id": "C112", "title": "Simulation noise never raises the log likelihood on average", "statement": "For a fit whose components are simulated, every bin expecting events: the log posterior with repeated evaluation is at most the log prior plus the Poisson log likelihood of all data at the predictions averaged over the repetitions, with equality exactly when the repetitions agree in every bin that holds data. For a key drawn from any distribution, the expectation of the log likelihood is at most the log likelihood at the expected prediction, with equality exactly when the prediction is almost surely constant in every bin that holds data. So repeating averages the log likelihoods and not the predictions, and a finite batch biases the result downwards.", "quantifier": "all contexts of binned likelihoods with any plugins, tables, bins, data, aliases, parameters, batch sizes and numbers of repetitions; all probability distributions of keys with integrable predictions", "why_tests_cant": "The bias is a statement about averages over all random keys; a test sees a few keys and fluctuations larger than the bias.", "anchors": ["appletree/context.py: Context.log_posterior", "appletree/likelihood.py: Likelihood.get_log_likelihood, Likelihood.simulate_model_hist"]}
{"id": "C113", "title": "Equiprobable bins are those of the data inside the clip", "statement": "get_equiprob_bins_1d and get_equiprob_bins_2d give the binning library exactly the events strictly inside the clip (never NaN) and return as many edges as it finds, all within the clip; clipping moves no event to another bin, so every bin holds as many of these events as between the edges of the library. Hence the data histogram of a likelihood with bins_type equiprob holds in every bin the kept events between the edges the library found, and is flat if the library divides the events into equal parts.", "quantifier": "all data with NaN and infinite clips, all binnings a library may return, all likelihood configurations with equiprobable bins in one and two dimensions", "why_tests_cant": "Tests bin a few data sets; that clipping changes no count must hold for every data set, edge and clip.", "anchors": ["appletree/utils.py: get_equiprob_bins_1d, get_equiprob_bins_2d", "appletree/likelihood.py: Likelihood.set_binning"]}
{"id": "C114", "title": "The two signals of an event fluctuate as they should, against each other", "statement": "For an electronic recoil with n quanta, each an electron with probability e, the S2 has on average n Q c photoelectrons with variance n Q (c^2 (1 - Q) + c (1 + 3 p) / (1 + p)), Q the probability that a quantum gives an extracted electron, c = gas gain x relative gain x light collection, p the probability of double photoelectrons. The corrected S1 and the corrected S2 of the event are anticorrelated: their covariance is - g1 g2 (1 + bias1)(1 + bias2) times the variance n (1 - r)(ratio + r)/(1 + ratio)^2 of the number of electrons, whatever the detector adds to either.", "quantifier": "all numbers of quanta, all recombination and excitation ratios, all gains, survival probabilities, light collections, biases and smearings in their ranges, all samplers with the right laws (split) or means (detector)", "why_tests_cant": "Tests compare a few simulated samples with tolerances; widths and correlations are statements about all draws at all parameters.", "anchors": ["appletree/plugins/er_microphys.py: IonizationER, RecombinationER", "appletree/plugins/detector.py: PhotonDetection, S1PE, ElectronDrifted, S2PE", "appletree/plugins/reconstruction.py: S1, S2, cS1, cS2"]}
{"id": "C115", "title": "A fit samples the prior times the likelihood averaged over the simulations", "statement": "A fit moves walkers by the stretch move of emcee and compares the log posterior of a proposal, evaluated with fresh keys, with the value stored for the walker. The law in which positions and keys of all walkers are independent with the density exp(log_posterior) is left unchanged by every sequence of moves, stored values included. So the positions follow the density prior x average over the keys of exp(mean log likelihood of the repetitions): without repetition this is the prior times the average of the likelihood over the simulations, with repetitions it is never more than that, and outside of the prior it is zero.", "quantifier": "all contexts whose log posterior returns a value at every position and whose density is measurable, all numbers of walkers and parameters, all scales above one, all laws of the keys, all orders of moves with partners other than the walker, all quantities of the walkers", "why_tests_cant": "Tests run a few iterations with fixed settings; which law a chain with a noisy posterior leaves invariant is a statement about all of its random choices.", "anchors": ["appletree/context.py: Context.log_posterior, Context.pre_fitting, Context.fitting", "docs/source/basics/general.rst"]}
{"id": "C116", "title": "Log posteriors stored in a chain are on average larger than fresh ones", "statement": "The log posterior stored in a chain for a walker is that of the accepted proposal and is not evaluated again. In the stationary law of the fit it is therefore stochastically larger than what log_posterior returns when it is called again at the same parameters: every increasing function of it has a larger or equal average, whatever the walkers positions are weighted with, and the same holds for the best value among the walkers. Without noise in the log posterior the two agree; with noise they differ.", "quantifier": "all contexts whose log posterior returns a value at every position and whose density is measurable, all numbers of walkers and parameters, all laws of the keys, all orders of moves, all increasing functions of the posterior and all weights of the positions", "why_tests_cant": "A statement about averages over all random choices of a chain, for all noise.", "anchors": ["appletree/context.py: Context.log_posterior, Context.fitting, Context.get_post_parameters, Context.continue_fitting"]}
{"id": "C117", "title": "Weighting by efficiency is accepting on average, with less noise", "statement": "A template weights each simulated event by its efficiency instead of accepting or rejecting it. If every event is accepted with the probability that its efficiency is, the histogram of the accepted events has the weighted template as its mean in every bin, and around every number, the expected number of events in particular, its mean square deviation is that of the weighted template plus rate^2 / batch size times the mean of eff (1 - eff) in the bin, which is never negative.", "quantifier": "all events and efficiencies, all laws of the events, all batch sizes, ascending binnings, bins and rates, all pairwise independent decisions with the right probabilities; normalisation on the simulation without the floor", "why_tests_cant": "Means and deviations over all random decisions and all laws of the events.", "anchors": ["appletree/component.py: implement_binning, ComponentSim.simulate_hist, get_normalization"]}
{"id": "C118", "title": "Normalised templates keep shape and number of events in single precision", "statement": "With contents, sum and factor in single precision, every bin of a template that is normalised on its sum is its share of the configured number of events with a relative error of at most (d + 4) 2^-23, d being how many sums a content goes through, and so is the total; normalised on the simulation every bin is content times rate over batch size with a relative error of at most 2^-22. The total is in general not the configured number exactly.", "quantifier": "all nonnegative contents with positive sum, all orders in which they are added up of depth below 2^23 - 4, all nonnegative rates, all batch sizes; without overflow and underflow", "why_tests_cant": "A bound on rounding errors over all contents and all orders of summation that a compiler may choose.", "anchors": ["appletree/component.py: get_normalization, ComponentSim.simulate_hist, ComponentFixed.simulate_hist"]}
{"id": "C119", "title": "A continued fit starts where the other one ended", "statement": "continue_fitting(context) starts every walker at the parameters it had at the end of the other fit, by name, with the fixed parameters of the new context, and evaluates each walker once; it raises when the other context fits other parameters. It does when the fitted parameters are the same, in whatever order they are configured; with another number of them it raises; with other parameters of the same number the values are silently given to the wrong parameters. continue_fitting() evaluates nothing and goes on with the stored log posteriors; before any fit both raise.", "quantifier": "all parameter configurations of the two contexts, all chains, all random numbers", "why_tests_cant": "All pairs of configurations and chains.", "anchors": ["appletree/context.py: continue_fitting, pre_fitting, log_posterior", "appletree/parameter.py: parameter_fit, set_parameter"]}
{"id": "C120", "title": "Events are counted in their bins in single precision", "statement": "With coordinates and edges rounded to single precision, as in the compiled histogram functions, every event is counted in the bin that contains it. This holds for events that are not rounded to the same number as an edge; an event just above an edge of an irregular binning is counted in the bin below, and lost if the edge is the lowest one, although the selection in double precision kept it. Never is an event moved by more than one bin, and on a grid no event inside the range is lost.", "quantifier": "all data, weights and binnings in one and two dimensions (totals and neighbours in one), without overflow and underflow", "why_tests_cant": "All real coordinates and edges, next to the edges in particular.", "anchors": ["appletree/hist.py: make_hist_irreg_bin_1d, make_hist_irreg_bin_2d, make_hist_mesh_grid", "appletree/likelihood.py: __init__, _make_data_hist"]}
{"id": "C121", "title": "Approximated binomial draws keep the binomial mean and spread", "statement": "Where binomial does not sample exactly (the hybrid sampler above its threshold, and the normal approximation where jax has no binomial), the mean of its draws is n*p up to one half for the rounding and one quarter for the clipping, and their root mean square distance to n*p is at most the binomial width plus one half. Before rounding and clipping, the hybrid sampler's number has exactly the mean of the binomial law, its variance up to a vanishing term, and leans to the same side as the law. (Violated by the hybrid sampler at tiny variances: its correction terms grow as the variance n*p*(1-p) shrinks, so that 200 trials with probability 1e-12 all succeed in at least 15 percent of the draws.)", "quantifier": "all counts above the threshold, all probabilities strictly between zero and one, all thresholds, all monotone rounding functions to a nearest integer, all probability spaces with ideal normal draws", "why_tests_cant": "Means over a continuous distribution, for all counts and probabilities; tests draw samples at a few of them.", "anchors": ["appletree/randgen.py: binomial_hybrid, binomial, _binomial_normal_approx_dispatch"]}
{"id": "C122", "title": "Log likelihoods in single precision compare parameter points like exact ones", "statement": "With data, templates and all operations in single precision, as get_log_likelihood computes them, the log likelihood differs from the exact one by at most about (number of additions per term + 2 + inaccuracy of the logarithm) * 6e-8 times the sum over the bins of data*|log(model)| + model, and is minus infinity exactly when a bin of the model is not positive; so parameter points are ordered as by the exact log likelihoods. (Violated for large data sets when the log likelihoods differ by less than the bound: next to a bin with four million events, expecting 1/4 or 7/4 events in an empty bin gives the same number.)", "quantifier": "all numbers of bins, data, positive models, orders of summation, and logarithms of any relative accuracy; without overflow and underflow", "why_tests_cant": "All data and models; rounding errors accumulate with the number of bins and events.", "anchors": ["appletree/likelihood.py: get_log_likelihood, _simulate_model_hist"]}
{"id": "C123", "title": "Rounding and cutting keep the mean numbers of quanta", "statement": "The number of quanta of an energy deposit, and the numbers of ions, excitons, photons and electrons drawn by the NEST models, are normal draws that are cut off at zero (electrons also at the number of ions) and rounded. Their means are the ones the yields ask for up to half a particle per rounding and the effect of the cut, at most a quarter of the Fano factor (electrons of given ions: a quarter plus omega^2 Ni / (4 r (1 - r))); their spread is at most half a particle larger than asked for. So photons plus electrons of a nuclear recoil have the mean _Nph + _Ne up to 1 + (fano_ni + fano_nex) / 4, and the electrons the mean _Ne up to the stated bound. The bound is absolute: deposits below a tenth of the work function keep less than two fifths of their quanta.", "quantifier": "all energies, work functions, Fano factors, yields, recombination probabilities in (0,1), skewness and omega parameters, every way of rounding to a nearest integer, ideal normal numbers", "why_tests_cant": "Means over all draws for all parameters; a simulation shows them only with statistical errors.", "anchors": ["appletree/plugins/er_microphys.py: Quanta", "appletree/plugins/nestv2.py: TrueExcitonIonNR, TruePhotonElectronNR", "appletree/plugins/er_nestv2.py: TrueExcitonIonER, TruePhotonElectronER"]}
{"id": "C124", "title": "Maps vary continuously with the position", "statement": "Two events close to each other get close map values: if neighbouring entries of a map differ by at most D times their distance, the values of the map at any two positions, inside or outside its range, differ by at most D times the distance of the positions (one D per axis), and a map whose entries increase along an axis increases along it. In particular maps are continuous.", "quantifier": "all maps of points and of regular bins, all positions, interpolation methods IDW and LERP", "why_tests_cant": "A jump shows only at positions on both sides of a border between cells, for every map; tests sample positions.", "anchors": ["appletree/interpolation.py: curve_interpolator, map_interpolator_linear_1d, map_interpolator_regular_binning_2d, map_interpolator_regular_binning_bilinear_2d, map_interpolator_regular_binning_trilinear_3d"]}
{"id": "C125", "title": "From simulated contents to the log likelihood, rounding changes one part in a hundred thousand", "statement": "Let the contents of the templates be given. Adding them up, normalising them on their sum or on the batch size, multiplying with the rate, adding the components, taking the logarithm and adding up the log likelihood, all in single precision, gives minus infinity exactly when some bin is not meant to get events, and else the log likelihood of the exact model up to one part in a hundred thousand of the sum over the bins of data*|log(model)| + 2*model + data. So parameter points whose exact log likelihoods differ by more than that are ordered rightly.", "quantifier": "all lists of bins, data, contents, rates, up to 30 components (any number with the general bound), both ways of normalising for each, all orders of summation of depth up to 30 (any depth with the general bound), logarithms of relative accuracy 2^-22 (any accuracy with the general bound); without overflow and underflow", "why_tests_cant": "Roundings accumulate differently for every template, batch and parameter point; a comparison with double precision samples a few.", "anchors": ["appletree/component.py: get_normalization, simulate_hist", "appletree/likelihood.py: simulate_model_hist, get_log_likelihood"]}
{"id": "C126", "title": "Sampling the prior draws from the prior of the fit", "statement": "After sample_prior each fitted parameter is its own draw, cut to the allowed range, and parameters are independent if the draws are; sample_init likewise. Each value follows the prior that the fit uses, which is proportional to exp(log_prior). (Holds inside the allowed range up to the probability that the draw is allowed. Violated at the ends of the range for normal and two-half-normal priors: they come up with the probability of all draws beyond. Violated for uniform priors unless the interval of the prior is the allowed range.)", "quantifier": "all configurations, all histories of the parameter manager, all priors, allowed ranges, and laws of draws as numpy documents them", "why_tests_cant": "A statement about the joint distribution of all parameters, for all configurations; samples show the atoms only if the range is narrow.", "anchors": ["appletree/parameter.py: Parameter.sample_prior, Parameter.sample_init, Parameter.log_prior"]}
{"id": "C127", "title": "Options set by shipped instructions have an effect", "statement": "Every option set by a shipped instruction, for all or for named likelihoods, is read by a plugin that the binned quantities or the efficiency of those likelihoods depend on, and the named likelihoods exist. (Violated by the option field of literature_lyqy.json, which no plugin takes, and by s1_correction of neutron_low.json, whose likelihood is not binned in cs1.)", "quantifier": "all shipped instruction files, all their options, all likelihoods and components they name, all chains of dependencies", "why_tests_cant": "An option nobody reads raises no error; whether a plugin is used depends on the whole dependency graph of each component.", "anchors": ["appletree/instructs/*.json: configs", "appletree/component.py: ComponentSim.deduce, Component.set_config", "appletree/config.py: takes_config"]}
{"id": "C128", "title": "Literature likelihoods compare the yields inside the configured energy range", "statement": "The log likelihood of a literature constraint is the sum, over the measured points whose energy is in the configured range, of the log densities of the simulated yields; points outside the range do not matter. For a measured band the compared energy is in the range, and on average the value is the mean of the log density over the range. A usable parameter point has a finite value. (Violated: a non-positive energy draw of any point, in or out of the range, makes the light-yield likelihood minus infinity; a range that reaches out of the band makes it minus infinity at random. Both shipped bands do: 18 and 10.8 percent of evaluations, so more than a quarter of all evaluations of the shipped instruction fail whatever the parameters are.)", "quantifier": "all parameters, measured points, bands, ranges, energy draws, batch sizes and keys; and the shipped literature likelihoods", "why_tests_cant": "The failures depend on the random energy of each evaluation; a test with one seed sees a finite value.", "anchors": ["appletree/likelihood.py: LikelihoodLit.get_log_likelihood", "appletree/plugins/nestv2.py: MonoEnergiesSpectra, UniformEnergiesSpectra, LyNR, MonoEnergiesClipEff, BandEnergiesClipEff", "appletree/instructs/literature_lyqy.json", "appletree/randgen.py: BandTwoHalfNorm"]}
{"id": "C129", "title": "Shipped parameter files can be sampled, started from and simulated with", "statement": "With every shipped parameter file the parameter manager is built, sampling from the prior and from the starting distribution succeeds after any history, and every walker of a fit starts inside the ranges at a finite prior. Every value that the ranges allow keeps the simulation meaningful: detection, double photoelectron and ionisation probabilities are probabilities, electrons survive with a probability, rates are not negative and the yields are defined. (Violated: g2 may be up to 100 while the gas gain is about 30, so the extraction probability exceeds one, and there the simulation does not depend on g2; theta may be negative, and then the light yields of nuclear recoils are NaN; the lifetime may be scaled to zero.)", "quantifier": "all shipped parameter files, histories, draws, numbers of walkers and all values within the ranges", "why_tests_cant": "A test fits with some file and some draws; it does not visit every corner of the ranges.", "anchors": ["appletree/parameters/er.json, er_nestv2.json, er_rn220_ar37.json, nestv2.json, nestv2_yield_only.json, nr_low.json", "appletree/parameter.py: Parameter", "appletree/context.py: Context.fitting", "appletree/plugins/detector.py: S2PE, DriftLoss", "appletree/plugins/nestv2.py: LyNR"]}
{"id": "C130", "title": "Asymmetric errors determine the sigmas of a two-half-normal", "statement": "For errors that are not negative and not both zero there is exactly one pair of positive sigmas whose two-half-normal has its 16 and 84 percentiles at the errors, so the conversion returns the same sigmas whatever the solver, whenever it succeeds, and it raises for two zeros. The sigmas scale with the errors, are exchanged with them, equal them when they are equal, and otherwise are ordered like them and lie strictly between them. A solver that stops early returns positive sigmas too, and the tail probabilities are off by what is left of the equations. So every two-half-normal prior that can be set up has a density.", "quantifier": "all non-negative errors, all exact solvers, all approximate answers of a solver", "why_tests_cant": "Uniqueness and existence of the solution are statements about all sigmas; a test compares one conversion with a stored number.", "anchors": ["appletree/utils.py: errors_to_two_half_norm_sigmas", "appletree/parameter.py: Parameter.sample_prior, Parameter.log_prior", "appletree/plot.py: add_prior"]}
{"id": "C131", "title": "Maps evaluated in single precision", "statement": "Maps are evaluated in single precision. For point maps with non-negative entries the result is the exact interpolation up to a relative error of seven roundings, zero exactly where the exact one is zero, and for any entries the error is at most seven roundings of the largest one; with positions, entries and the event stored in single precision too, the slope times one rounding of the positions is added. For bilinear and trilinear maps on regular grids the error is at most a few roundings of the largest entry plus, along each axis, about five roundings per bin of the largest step between neighbours, also where rounding selects the neighbouring cell and outside the box. A map of efficiencies, that is of entries between 0 and 1, returns an efficiency.", "quantifier": "all tables and grids, all positions, all entries", "why_tests_cant": "Tests compare a few positions with a tolerance; the rounded cell index, the cells at the edge and the sums of rounded weights have to be right for every position.", "anchors": ["appletree/interpolation.py: curve_interpolator, map_interpolator_regular_binning_bilinear_2d, map_interpolator_regular_binning_trilinear_3d", "appletree/config.py: Map.build_point, Map.build_regbin"]}
{"id": "C132", "title": "Drawn numbers spread as widely as asked for", "statement": "Rounding to integers and cutting off at zero do not narrow the distributions of the yield models by more than they must. The root mean square distance of the number of quanta from its mean is the square root of the Fano factor times the mean, up to half a quantum and twice the Fano factor, from above and from below; so for ions and excitons of nuclear recoils and for the quanta of electronic recoils. The number of electrons left of given ions spreads by the square root of the variance asked for, up to half an electron and twice the variance over the distance from the mean to the nearer end of the possible range, for the skewed draw of nuclear recoils as for the normal draw of electronic recoils.", "quantifier": "all energies, yields, Fano factors, recombination probabilities, omegas, skewness parameters, numbers of ions and roundings to a nearest integer", "why_tests_cant": "Tests compare histograms of a few settings; a spread that is too small by a factor stays within statistical tolerances at small energies and has to be excluded for all of them.", "anchors": ["appletree/plugins/nestv2.py: TrueExcitonIonNR, TruePhotonElectronNR", "appletree/plugins/er_nestv2.py: TrueExcitonIonER, TruePhotonElectronER", "appletree/plugins/er_microphys.py: Quanta", "appletree/randgen.py: truncate_normal, skewnormal"]}
{"id": "C133", "title": "Data drawn from the model prefer the parameters they were drawn with", "statement": "For a likelihood with given bins and data sets that vary: if the number of events in each bin is on average what the model predicts at some parameters, the average of the log likelihood is largest there. At other parameters it is minus infinity for every data set if a bin expects no event, and else smaller by at least the sum over the bins of the squared differences of the square roots of the expected numbers, so equal only where the predictions agree in every bin. If the counts are independent and Poisson distributed, the probability that the data prefer the other parameters is at most the exponential of minus half that sum. The average is never larger than for a prediction equal to the true means.", "quantifier": "all distributions of data sets, all bins of fixed edges, registries of consistent plugins, fixed tables, parameters, keys and batch sizes", "why_tests_cant": "Toy studies fit a few data sets at one truth within the spread of the toys; that no parameter point is preferred on average has to hold for every model and every truth.", "anchors": ["appletree/likelihood.py: Likelihood.get_log_likelihood, Likelihood.simulate_model_hist, Likelihood.set_binning", "appletree/component.py: ComponentSim.simulate_hist, Component.implement_binning"]}
{"id": "C134", "title": "Dividing bins further", "statement": "Replacing the bin edges of a likelihood by edges that divide the same range further changes neither the selection of the data nor the events that are simulated. An old bin then contains as many data events, and predicts as many events, as its pieces together, and finer bins separate parameters on average at least as well as coarse ones.", "quantifier": "all bins in one and two dimensions with fixed edges, all divisions of them, all registries of consistent plugins, fixed tables, parameters, keys, batch sizes, data and distributions of data sets", "why_tests_cant": "Tests run one binning; that results for different binnings agree with each other concerns every pair of binnings, and the effect of the floor on empty bins is visible only where bins are nearly empty.", "anchors": ["appletree/component.py: Component.implement_binning, Component.get_normalization, ComponentSim.simulate_hist", "appletree/hist.py", "appletree/likelihood.py: Likelihood.set_binning, Likelihood.simulate_model_hist, Likelihood.get_log_likelihood"]}
{"id": "C135", "title": "The units of the binned quantities do not matter", "statement": "Writing the data, the bin edges and the clipping ranges of a likelihood in other units, or on another scale on which larger values stay larger, changes neither the selected events nor the data histogram; with plugins and tables in the same units, predictions and log likelihood are the same for every key, and weighted events have the same weights. For a number of bins instead of edges this holds for changes of scale and origin, and for equiprobable bins if the edges found for the data are converted with the data. What was refused is refused with the same error.", "quantifier": "all strictly increasing conversions of every quantity, bins of every kind, data, registries of consistent plugins, fixed tables, parameters, keys and batch sizes", "why_tests_cant": "Tests compare a few conversions of one data set; that no comparison with an edge changes has to hold for every conversion and every value, in particular for values on edges and in the last bin.", "anchors": ["appletree/hist.py", "appletree/likelihood.py: Likelihood.__init__, Likelihood.set_binning, Likelihood.get_log_likelihood", "appletree/component.py: Component.implement_binning, Component._clip, ComponentSim.simulate_hist, ComponentSim.simulate_weighted_data"]}
{"id": "C136", "title": "The autocorrelation plot tells whether a chain is long enough", "statement": "For every fit plot_autocorr draws one panel for each parameter, with the integrated autocorrelation time of the iterations up to each abscissa and a line that the time is below exactly if there are more than fifty autocorrelation times of them. (Violated: in a thinned chain the time is counted in iterations that are left and the line in iterations of the fit, so the line is too high by the thinning; a chain of fewer than 100 iterations is drawn up to 100; one walker that did not move removes the point; a fit of one parameter raises.)", "quantifier": "all chains, numbers of walkers and parameters, thinnings, and choices of the intermediate lengths", "why_tests_cant": "Tests draw one figure and look at nothing in it; which side of the line a point is on has to be right for every chain and thinning.", "anchors": ["appletree/plot.py: Plotter.plot_autocorr"]}
{"id": "C137", "title": "The corner plot shows the correlations of the fit", "statement": "For every fit plot_corner draws the samples of all parameters, the log posterior and the log prior against each other; the colour of a panel is the correlation coefficient of its two columns, between -1 and 1 and at an end exactly for columns that are linear functions of each other; on the diagonal every parameter has the line of the best fit and its prior, and the log posterior and log prior have none. (Violated: if all fitted parameters have free or uniform priors the log prior is constant and the plot raises, and make_all_plots with it; it also raises if there are fewer samples than columns.)", "quantifier": "all chains, parameter configurations and best fits", "why_tests_cant": "The test fits one configuration, whose priors are not all flat; that a plot is made has to hold for every configuration of priors.", "anchors": ["appletree/plot.py: Plotter.plot_corner, Plotter.make_all_plots", "appletree/parameter.py: Parameter.log_prior"]}
{"id": "C138", "title": "As a function of the rates the posterior has one peak", "statement": "For given random numbers, in a context of any number of likelihoods whose plugins read no rate, and for every mixture of priors: if the log posterior is finite at two sets of parameters that differ only in rates, it is finite on the whole straight line between them and at least the mean of the two values there, with any number of repetitions. So there is no dip between two good points, no second peak, and the allowed region has no holes. Equality is possible only if both points predict the same in every bin with data and agree in all parameters with a normal or two-half-normal prior. The log prior alone is concave in all the parameters together.", "quantifier": "all contexts with binned likelihoods of simulated and fixed components, aliases, priors, keys, batch sizes, repetitions, and pairs of parameter sets differing in rates", "why_tests_cant": "Whether a sampler can be trapped in a second peak depends on the values on whole lines in parameter space for every model and data set; a test evaluates single points.", "anchors": ["appletree/context.py: Context.log_posterior", "appletree/likelihood.py: Likelihood.get_log_likelihood", "appletree/parameter.py: Parameter.log_prior", "appletree/randgen.py: TwoHalfNorm.logpdf"]}
{"id": "C139", "title": "The marginal plot shows the posterior of every parameter beside its prior", "statement": "For every fit whose fitted parameters have a prior that can be drawn, the marginal plot has one panel per fitted parameter, in order, in the smallest two-column grid with room for all, with the prior of that parameter and no other. The bars of a panel are equally wide bins from the smallest to the largest sample (half a unit around if all samples are equal); every sample is in exactly one of them; the area of a bar is the fraction of the samples in it, so the bars have area one. An empty chain shows no bars. Without fitted parameters, without bins, or with a prior that cannot be drawn, the call fails. The legend names everything that is drawn.", "quantifier": "all configurations, lists of fitted parameters, chains of finite samples and numbers of bins", "why_tests_cant": "Whether the samples of every chain fall in exactly one bin of the right column, and which labels the legend has for every mixture of priors, is a statement over all chains and configurations; a test looks at one figure.", "anchors": ["appletree/plot.py: Plotter.plot_marginal_posterior"]}
{"id": "C140", "title": "The shipped contexts are those of their instruction files and can be restored", "statement": "ContextRn220() and ContextRn220Ar37() are Context(file) for the instruction file they name: the one in the package, unless the working directory or the url base has a file of that name. A fit made with any class of context can be restored with from_backend of that class (violated: from_backend of the shipped classes raises TypeError for every complete file, since it passes the stored instruction to a constructor that takes none; Context.from_backend works).", "quantifier": "all file systems, url bases, option caches, backend files and classes of contexts", "why_tests_cant": "The tests restore with the base class only; which file is used, and that no file at all can be restored, are statements over all file systems and files.", "anchors": ["appletree/contexts/er_only.py: ContextRn220, ContextRn220Ar37", "appletree/context.py: Context.__init__, Context.from_backend"]}
{"id": "C141", "title": "A better detector never makes the signals smaller", "statement": "Whatever the law of the number of photons or electrons of an event: with more of them, and with a larger g1, g2, survival probability or light collection, every number of detected photons, extracted electrons and S1 or S2 photoelectrons is reached at least as often, so an acceptance that grows with the signal accepts at least as many events. The probability to see a recoil at all rises strictly with g1. Less recombination gives at least as many electrons, more recombination at least as many photons; a longer electron lifetime, a faster drift and a shorter way give a larger survival probability; a larger energy gives at least as many quanta for the same random number.", "quantifier": "all laws of the numbers of photons and electrons, all parameter values in their ranges, all levels, all growing acceptances, and all samplers with binomial and Poisson laws", "why_tests_cant": "Simulated counts fluctuate, so a comparison of two samples proves nothing; the claim is about all levels of the distributions for all laws of the incoming counts.", "anchors": ["appletree/plugins/detector.py: PhotonDetection, S1PE, DriftLoss, ElectronDrifted, S2PE", "appletree/plugins/er_microphys.py: Quanta, IonizationER, RecombinationER"]}
{"id": "C142", "title": "The posterior of several likelihoods prefers the parameters the data were drawn with", "statement": "For a context of any number of likelihoods whose data vary: if the number of events in each bin of each likelihood is on average what the model predicts at some parameters, the average of the log posterior there exceeds the average at any other parameters by at least the difference of the log priors plus the sum over all bins of all likelihoods of the squared differences of the square roots of the predictions, and by the difference of the log priors alone only if the predictions agree in every bin; at parameters where some bin expects no event the log posterior is minus infinity for all data. If all counts are independent and Poisson distributed, the probability that the data prefer the other parameters is at most the exponential of minus half that sum. So every likelihood that is added separates parameters at least as well. With repetitions the average stays below the largest possible one by the mean distance of the predictions from the truth.", "quantifier": "all contexts with any number of binned likelihoods, all configurations, components, priors, keys, batch sizes, parameters, numbers of repetitions, and all laws of the data with integrable counts", "why_tests_cant": "It is about averages and probabilities over all data sets, for all models and parameters; a test fits a few toy data sets.", "anchors": ["appletree/context.py: log_posterior", "appletree/likelihood.py: Likelihood.get_log_likelihood", "appletree/parameter.py: log_prior"]}
{"id": "C143", "title": "The log posterior is bounded and the posterior can be normalised", "statement": "For a context whose binned data are not negative, and whose literature likelihoods have positive widths and efficiencies between zero and one, there is one number that no returned log posterior exceeds, whatever parameters are asked for, whatever keys the simulation uses, and for every batch size and number of repetitions. The posterior density averaged over the keys vanishes outside the box of allowed ranges and has a finite integral over the fitted parameters, so that the samples of a fit have a law to converge to. The condition on the widths is needed: if the width of a band is zero at one end of its table, every energy next to that end is accepted and the log likelihood exceeds every number.", "quantifier": "all contexts with any number of binned and literature likelihoods of every shape, all configurations of parameters and priors, all requested parameters (also NaN), keys, batch sizes, numbers of repetitions, and all laws of the keys", "why_tests_cant": "A supremum and an integral over all parameters and all random keys; a test evaluates the posterior at a few points.", "anchors": ["appletree/context.py: log_posterior", "appletree/likelihood.py: Likelihood.get_log_likelihood", "appletree/likelihood.py: LikelihoodLit.get_log_likelihood", "appletree/parameter.py: log_prior", "appletree/randgen.py: TwoHalfNorm.logpdf, BandTwoHalfNorm.logpdf"]}
{"id": "C144", "title": "A fitted parameter that no likelihood reads keeps its prior", "statement": "If no component of any likelihood needs a fitted parameter, under its own name or through an alias, then the log likelihoods and the random numbers they use do not depend on its value, the posterior density for given keys is its prior density times something that does not depend on it, and its posterior is its prior truncated to the allowed range: the posterior probability of any set of its values, also together with any quantity of the other fitted parameters, is the prior probability. So a parameter left in the configuration by mistake neither moves nor disturbs the others.", "quantifier": "all contexts with any number of binned and literature likelihoods with aliases, all configurations and kinds of priors, all positions of the parameter among the fitted ones, all keys and laws of the keys, batch sizes, numbers of repetitions, sets of values and quantities of the other parameters", "why_tests_cant": "A statement about the whole posterior of an arbitrary context; a test compares a few histograms of samples.", "anchors": ["appletree/context.py: log_posterior", "appletree/likelihood.py: replace_alias, get_log_likelihood", "appletree/parameter.py: log_prior"]}
{"id": "C145", "title": "The order in which likelihoods and components are listed does not matter, up to the random numbers used", "statement": "Two contexts with the same parameters and the same likelihoods, listed in different orders and with their components registered in different orders, give log posteriors with the same law when the keys are random: the same error for all keys, or the same log prior and values that are equally distributed, for any number of repetitions. The same holds for a single likelihood together with the key it leaves. For given keys the values may differ, because other random numbers are then used for each component.", "quantifier": "all contexts with any numbers of binned and literature likelihoods and of simulated and fixed components, all permutations, all parameters, batch sizes and numbers of repetitions, all laws of the keys for which each step leaves a fresh key", "why_tests_cant": "A statement about laws and all permutations; a test with given seeds sees different numbers for different orders and cannot tell whether they agree in law.", "anchors": ["appletree/context.py: _log_posterior_once, log_posterior", "appletree/likelihood.py: _simulate_model_hist, get_log_likelihood"]}
{"id": "C146", "title": "Repeating the simulation makes the log posterior less noisy, and changes what is sampled in a known way", "statement": "With repeat_times set to n the log posterior is the mean of n evaluations with their own keys. For independent keys its expectation does not depend on n, its variance is that of one evaluation divided by n, and it converges to the expectation as n grows. The density that a fit then samples is the n-th power of the mean of the n-th root of the density of one evaluation: it decreases with n, never below the exponential of the expected log posterior, and converges to that.", "quantifier": "all contexts and parameters whose log posterior for one repeat is finite for every key, all laws of the keys for which it is square integrable, all numbers of repetitions", "why_tests_cant": "Statements about laws, limits and all numbers of repetitions; a test sees the values for a few seeds.", "anchors": ["appletree/context.py: log_posterior, _log_posterior_once"]}
{"id": "C147", "title": "A common factor on all rates, and the posterior of a single rate", "statement": "If no plugin reads a rate and all rates are multiplied by a common factor u, the log posterior for given keys changes by the change of the log prior, plus the number of data events in all bins times log u, minus (u - 1) times the number of events expected in all bins in the mean of the repetitions. At equal log prior it is therefore largest, and only there, where the expected total equals the observed total. If one rate is the only fitted parameter and the rate of the only component of each likelihood, its posterior density for given keys is its prior density times a Gamma density, whose shape is the observed total plus one and whose inverse scale is the total expected at unit rate; with a flat prior the posterior is this Gamma law restricted to the allowed range.", "quantifier": "all contexts of binned likelihoods, data, bins, keys, batch sizes, numbers of repetitions and positive factors; for the Gamma law all allowed ranges and measurable sets of rates", "why_tests_cant": "A statement about the whole posterior as a function of a continuous parameter, for every data set and simulation.", "anchors": ["appletree/context.py: log_posterior", "appletree/likelihood.py: get_log_likelihood, _simulate_model_hist", "appletree/component.py: ComponentSim.simulate_hist", "appletree/parameter.py: log_prior"]}
{"id": "C148", "title": "Importing the package respects the user's memory settings and reports an unusable machine", "statement": "Importing the package changes no environment variable that is already set and no others than the two for the allocation of memory; these are set to false and platform, unless the user asked for aggressive allocation. In any sequence of imports, limits on the memory and changes by the user, the variables the user set keep the value given last, except the memory fraction, which set_gpu_memory_usage replaces; importing before or after limiting the memory gives the same environment. The import fails exactly if the trial allocation fails, with an ImportError naming the platform, or if the optional package with files exists and cannot be loaded; the warning about slow computation appears exactly on a CPU.", "quantifier": "all environments, all sequences of actions on them, all platforms and outcomes of the trial allocation and of the optional import", "why_tests_cant": "A test process has one environment and one machine; the import code runs once per process.", "anchors": ["appletree/__init__.py", "appletree/utils.py: get_platform, set_gpu_memory_usage"]}
{"id": "C149", "title": "A literature likelihood prefers the measured yields", "statement": "For literature data given as points with normal or two-half-normal errors, the log likelihoods at two parameter points differ by half the difference of the squared distances of the yields to the measured ones in units of the error on that side, each weighted with its efficiency. So yields that are closer have the larger log likelihood, the measured yields have the largest, and only yields that agree with them wherever the efficiency is not zero share it. If the errors mean what they say, the true yields have on average over repeated measurements a larger log likelihood than any others.", "quantifier": "all numbers of points, measured yields, errors, efficiencies, keys and parameter points; all probability spaces of repeated measurements, dependent or not", "why_tests_cant": "A test compares a few yields with one measurement; the statement is about all of them and about averages over measurements.", "anchors": ["appletree/likelihood.py: LikelihoodLit.get_log_likelihood, logpdf", "appletree/randgen.py: TwoHalfNorm.logpdf"]}
{"id": "C150", "title": "No measured point of a literature likelihood is dropped in silence", "statement": "If LikelihoodLit over points with errors returns a value, the numbers of simulated yields, measured centres, errors and efficiencies agree, except that a single number stands for all points; if the number of yields differs from the number of centres and neither is one, the evaluation raises ValueError. When they fit, there is a value, the sum over all measured points of the efficiency times the log density.", "quantifier": "all numbers of points, all arrays given one per point or one for all, components, parameters, keys", "why_tests_cant": "A test tries a few lengths; the statement is about all combinations of lengths.", "anchors": ["appletree/likelihood.py: LikelihoodLit.get_log_likelihood", "appletree/randgen.py: TwoHalfNorm.logpdf"]}
{"id": "C151", "title": "Splitting a data set into runs does not change what is inferred", "statement": "With bins given by the configuration, a likelihood made from a data file selects the same events, and counts the same number in each bin, as the likelihoods made from the parts of the file taken together. If each run is evaluated with the rates that belong to its share of the exposure, the log likelihoods of the runs add up to the log likelihood of the whole file plus a number that depends on the data and the shares alone; if the whole is minus infinity, so is every run.", "quantifier": "all data files and partitions into runs, configurations of the bins and cuts, shares, components, parameters, keys, batch sizes", "why_tests_cant": "A test splits one file at one point; the claim is about all files, splits and parameters.", "anchors": ["appletree/likelihood.py: Likelihood.__init__, set_binning, get_log_likelihood", "appletree/component.py: Component.implement_binning"]}
{"id": "C152", "title": "A likelihood depends on the selected events of its file alone", "statement": "Listing the events of a data file in another order gives a likelihood with the same bins and contents, or the same exception; an event that is cut away (an observable is NaN, on a bound of the clip or beyond) leaves everything as it is without it. Hence a file with the same events in another order, and any number of further events that are cut away, has the same log likelihood at all parameters.", "quantifier": "all data files, reorderings, added events that are cut away, kinds of bins, one or two observables, components, parameters, keys, batch sizes", "why_tests_cant": "A test shuffles one file; the claim is about all files and orders.", "anchors": ["appletree/likelihood.py: Likelihood.__init__, set_binning, _make_data_hist", "appletree/utils.py: get_equiprob_bins_1d, get_equiprob_bins_2d"]}
{"id": "C153", "title": "Fixing a parameter is conditioning on its value", "statement": "Take a fit and the same fit with one fitted parameter fixed at a value. The second fits the other parameters, in the same order. The log posterior of the first at that value and any values of the others is the log posterior of the second plus the log prior density of the parameter there; outside the allowed range the first is zero. Hence the posterior of the others given the value is the posterior of the fit with the parameter fixed, and the evidence of the first fit is that of the second averaged over the prior of the parameter.", "quantifier": "all configurations, parameters, values, likelihoods, positions, keys, batch sizes, numbers of repetitions, orders in which the prior walks its set, quantities of the other parameters", "why_tests_cant": "A test compares the two fits at a few positions; the claim is about all positions and about integrals over them.", "anchors": ["appletree/context.py: Context.log_posterior", "appletree/parameter.py: Parameter.init_parameter, log_prior, parameter_fit, set_parameter"]}
{"id": "C154", "title": "Another prior reweights the posterior, a narrower range cuts it", "statement": "Give one fitted parameter another prior or allowed range. At every position the posterior density changes by the ratio of the new and the old prior density of that parameter, and by nothing else. In particular narrowing its allowed range leaves the density as it is inside the new range and makes it zero outside, so that the posterior of the narrower fit is that of the wider one restricted to the range.", "quantifier": "all configurations, parameters, priors, ranges, likelihoods, positions, keys, batch sizes, numbers of repetitions, orders in which the prior walks its set, quantities integrated", "why_tests_cant": "A test compares two fits at a few positions; the claim is about all positions and about integrals over them.", "anchors": ["appletree/context.py: Context.log_posterior", "appletree/parameter.py: Parameter.log_prior, parameter_fit, set_parameter"]}
{"id": "C155", "title": "The names given to parameters do not matter", "statement": "Rename the parameters of a context, in the parameter configuration and through the aliases of the likelihoods, so that no two names fall together. Then the fitted parameters are the same under their new names, every likelihood has the same value and uses the same random numbers, and log posterior and log prior are the same at the same values, although the order of the fitted names changes.", "quantifier": "all renamings that keep names apart, configurations, aliases, likelihoods of both kinds, values, keys, batch sizes, numbers of repetitions, orders in which the prior walks its sets", "why_tests_cant": "A test renames one parameter at one point; the claim is about all renamings and values.", "anchors": ["appletree/likelihood.py: Likelihood.replace_alias, need_replacing_alias, LikelihoodLit", "appletree/context.py: Context.log_posterior", "appletree/parameter.py: Parameter.parameter_fit, log_prior"]}
{"id": "C156", "title": "One uniform number for each of many keys", "statement": "uniform_key_vectorized gives one number for each key of its array, in order, each that of its key alone and in [0,1) as single draws are. A program that splits its key into one to go on with and one for each number never uses a key twice. As documented no key is updated: a second call with the same keys repeats its numbers.", "quantifier": "all arrays of keys, histories of earlier draws, sources of random numbers", "why_tests_cant": "A test draws from a few keys; independence of the other keys and freedom from reuse are about all arrays and histories.", "anchors": ["appletree/randgen.py: uniform_key_vectorized"]}
{"id": "C157", "title": "Likelihoods that share no parameters do not inform each other", "statement": "Divide the fitted parameters into two blocks such that every likelihood reads parameters of one block only. Then, for given random numbers, the posterior density is a product of a factor for each block: exchanging the parameters of one block between two positions leaves the product of the two densities as it is. What one data set says about its parameters is not changed by fitting it together with another one.", "quantifier": "all configurations, numbers of likelihoods, divisions of the parameters, positions, keys, batch sizes, numbers of repetitions", "why_tests_cant": "A test fits two data sets together once; the claim is about all positions and all contexts.", "anchors": ["appletree/context.py: Context.log_posterior", "appletree/parameter.py: Parameter.log_prior", "appletree/likelihood.py: Likelihood.get_log_likelihood, LikelihoodLit.get_log_likelihood"]}
{"id": "C158", "title": "A map is built only from a file that is found and loads", "statement": "If building a map succeeds, the map holds the file configured for its likelihood, this file has been found and it could be loaded. A configured value that is not a file name raises TypeError, a file that is not found raises the error of the search, and a file that cannot be loaded raises ValueError. If a map with errors is built, none of its existing files failed to load.", "quantifier": "all configurations, likelihood names, contents of the cache of configurations, file systems and sets of loadable files", "why_tests_cant": "Tests build maps from a few shipped files; the claim is about every file and every order in which files are configured.", "anchors": ["appletree/config.py: Map.build, SigmaMap.build", "appletree/utils.py: get_file_path, load_json"]}
