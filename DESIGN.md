# Design: a Lean 4 model of appletree

Source: `/repo` (python, read as text, never run). Model: `lean/Verif/`. Properties: `properties.jsonl`.
Status per property: `MANIFEST.json`. Seeded-bug record: `seeded/LOG.jsonl`.

## 1. Layout

* `Verif/Base/*`   python-level building blocks: insertion-ordered dictionaries, exception values,
  extended floats (`nan`, `+inf`, `-inf`, finite real), list helpers.
* `Verif/Model/*`  the model. One file per source module; every definition cites file and lines in `/repo`.
* `Verif/Lemmas/*` helper lemmas about the model (not claims).
* `Verif/Spec/*`   the vocabulary the property theorems are stated in, kept apart from the model's own helpers.
* `Verif/Props/*`  the property theorems and non-vacuity examples beside them. A reader only needs these plus the
  specification and model definitions they mention.
* `tools/`         scripts: `commit.sh`, `manifest.py` (writes `MANIFEST.json`), `shipped.py` (reads the class attributes
  of the shipped plugins into `Model/Shipped.lean`), `seed.py` (runs seeded bugs), `axioms.py` (writes `AXIOMS.txt`).

## 2. Modelling conventions

* Python exceptions are values (`Except PyErr α`). An operation that may fail after writing part of its
  state returns the state *and* the result, so atomicity can be stated and refuted.
* Dictionaries are insertion-ordered association lists (`PyDict`), sets are lists compared by membership.
* Random numbers are arguments: a theorem quantified over all draws holds for every generator and seed.
  Where *which key* is used matters (C47, C48) keys are modelled as paths in the free binary split tree.
* Numbers. Comparison-only code (histogram indices, clips, masks) is over an arbitrary linear order, so it
  applies to non-NaN IEEE floats as they are. Arithmetic code is over an arbitrary linearly ordered field (or ℝ when
  log/exp/integrals are needed): rounding is not modelled. Special values (NaN, ±inf) are modelled explicitly
  by `XF` where the code branches on them (prior, likelihood, posterior).
* Recursion in the code becomes recursion on fuel, fuel being python's recursion limit; theorems say when
  some fuel suffices and when none does.
* Plugins' numeric bodies are arbitrary functions in the data-flow theorems (C10–C13, C60) and are modelled one by
  one in the physics theorems (C50–C53).

## 3. Plan per property

| id | modelled | how proved |
|---|---|---|
| C01 | `Parameter` as a state machine (config, fit/fixed names, value store) | invariant over op lists, induction |
| C02 | `sample_prior`, `sample_init` with arbitrary draws | loop induction, clip bounds |
| C03 | `set_parameter` on all argument shapes | case analysis, dict lemmas |
| C04 | `log_prior` over `XF` | fold induction, permutation invariance |
| C05 | `parameter_fit_array` after `set_parameter` | dict-update lemmas |
| C06–C09 | `searchsorted`, scatter-add, slice | refinement to a sum over a bin predicate |
| C10, C12 | `dependencies_deduce` (fuel), `dependencies_simplify` | induction on fuel; suffix-occurrence invariant |
| C11 | generated code as statements with an interpreter | refinement to plugin equations; witness for shadowing |
| C13 | `needed_parameters` accumulation | fold characterisation |
| C14 | `register` with state on failure | invariant over registration lists; witness for non-atomicity |
| C15 | `deduce` state incl. sticky flag | case analysis; witness |
| C16 | function cache with dictionary identities | invariant over op lists; witness |
| C17–C19 | `get_normalization`, `implement_binning`, weighted data | algebra |
| C20 | `multiple_simulations` | induction on `times` |
| C21–C23, C25, C26 | configuration cache as a recording dictionary, resolution functions | invariant over op lists |
| C24 | `SigmaMap.apply` | algebra |
| C27 | class-level config objects vs deep copies | invariant; witness for lineage |
| C28–C31 | interpolators over an ordered field | algebra, index lemmas |
| C32 | `Map.build` validation, `map_point` | case analysis; witness for log_point |
| C33 | trapezoid sums | induction |
| C34 | clip masks, edges | list/filter lemmas |
| C35, C36 | component table, alias tables | dict lemmas; witness for chains |
| C37, C38 | model histogram, Poisson likelihood over `XF` | fold induction; `Real.add_one_le_exp`/log inequality |
| C39 | `LikelihoodLit` | case analysis over `XF` |
| C40, C45 | `log_posterior`, `fitting` start positions | induction over likelihoods/repeats |
| C41, C42 | `update_parameter_config`, `_sanity_check` | dict lemmas; witnesses |
| C43 | sampler history with cached chain | state machine; witness |
| C44 | JSON writer and python literal evaluator | round trip by induction; witness |
| C46 | `binomial_hybrid` | case analysis; finite-sum distribution identity |
| C47 | key tree | freshness invariant; witness for twohalfnorm |
| C48 | two-half-normal density | Gaussian integral; support gap |
| C49 | truncation, branching loop | loop invariant |
| C50–C53 | plugin bodies | algebra and inequalities over ℝ |
| C54 | file lookup over an abstract file system | case analysis |
| C55 | decimal string of the fraction | arithmetic; witnesses |
| C56 | attribute tables | case analysis; witness |
| C57 | fold over chunks | induction |
| C58, C59 | plot helpers | list lemmas |
| C60 | profiler loop | simulation with C11 |
| C61 | attribute write sequence with crash prefix | prefix induction |
| C62 | registry tables of shipped components | decision procedure on the tables, then C10–C12 |
| C63, C64 | inverse-distance maps over floats with overflow; inverse-cdf maps | witnesses; algebra |
| C65, C66 | `get_num_events_accepted`; storing and restoring a context | fold lemmas; C44 |
| C67, C68 | scalar two-half-normal draws; error percentiles | Gaussian integrals |
| C69 | negative binomial as gamma–Poisson mixture, end to end from ideal draws per key | Gamma integral; independence of keys and Fubini; witness by an infinite product |
| C70–C72 | event positions and energies; skewed recombination fluctuation; NR electrons | push-forward measures, moments |
| C73, C74 | shipped instructions; registration with the global cache | computation on the tables; invariant, witness |
| C75 | collecting and saving map plots | fold invariant; witnesses |
| C76 | autocorrelation by Fourier transform | orthogonality of characters, Cauchy–Schwarz, telescoping |
| C77 | acceptance fraction | counting; witnesses |
| C78 | law of the generalized Poisson sampler | Markov chain of generations, Abel’s binomial identity, quantile construction |
| C79 | posterior from plugins, data and prior | composition of C10, C11, C17–C19, C34, C36–C38, C40 through one sample per component; induction over components and likelihoods |
| C80 | templates and log likelihood for large batches | unbiased mean and Chebyshev bound for sums of independent weights; convergence in probability through quotient, maximum and logarithm; `log x ≤ x - 1` for the shift at finite batches |
| C81 | lineages of components, likelihoods and contexts and their hashes | canonical form invariant under permutation and injective on the values that occur; witnesses for what is missing |
| C82 | declarations of plugins | induction over the arguments of the decorator and of `simulate`; evaluation of the extracted table of shipped plugins |
| C83 | repetition with compilation | induction over rounds; reduction to C20 |
| C84 | rows = options of reached plugins; current value = resolution | lemma on the seen list, deduce_mem_iff, case analysis of resolve |
| C85 | copy vs original through deduce and the generated code | unfold the constructor, needLoop with an accumulator |
| C86 | nodes = Reach, arrows = depends_on, drawn iff resolved | invariant on the seen list: fresh, closed under dependencies, arrows from a name exactly once |
| C87 | the template is the sample of the fit | same compiled code at parameters that agree where the code reads; witnesses with an alias |
| C88 | drawn curve against the density of the log prior | curve proportional to exp(log prior); integrals of Gaussian and two-half-normal densities; positive mass outside any interval |
| C89 | points of the burn-in plot | rank of an element in a filtered range; label = position minus (thin - 1) minus thin per dropped iteration |
| C90 | rectangles and colours of a drawn histogram | attained minimum and maximum of the values; Forall2 over the list of bins; propagation of NaN and infinity through the colour scale |
| C91 | histograms with rounded sums | round to nearest even with 24 digits; counting by ones is min(n, 2^24); induction on the sum for the relative error; the same histogram model with another sum |
| C92 | iff-characterisation of successful builds for both kinds of files, error cases, values at nodes and bounds for any mixture of axes | case analysis over the branches of build; reuse of C29-C32 |
| C93 | tables checked in the kernel, lifted to all inputs | checks on integer numerators by decide; general lemmas on linear, nearest-neighbour and inverse-distance maps; C28-C32, C64, C70 |
| C94 | timed loops with clock readings; both profiling loops reduced to one over the simulated components | induction over runs, worksheet and components |
| C95 | binding of positional and keyword arguments, then replacement of aliases | equivalence with a specification of bindings, by induction over the signature |
| C96 | import statements, star imports, exporter, circular imports, with fuel; the statements of all modules as generated data | invariants of loading by induction on fuel; monotonicity in fuel; evaluation of the shipped package by the kernel |
| C97 | what is handed to matplotlib for each kind of map, from the same file the map is built of; order of a set of names; last build of a shared configuration | comparison of the pixel of a position with the nearest node, of the drawn line with the linear interpolation, and of the band with the sigma formula; witnesses for the violations |
| C98 | means of binomial, Poisson and normal draws on product spaces | iterated integrals of the signals; linearity at each stage; uniform trials for the binomial sampler, quantiles for the Poisson sampler |
| C99 | laws of the draws of one element under ideal jax.random | maps of measures: affine maps of densities, the folded normal law, product measures; construction of an ideal source on an infinite product |
| C100 | parts of the messages beside the class of the exception; forgetting the message gives the other models | induction over the loops; Reach of C12 for missing dependencies |
| C101 | file system as a dictionary, json.dump piece by piece | induction over the loops; lines of a text as a normal form |
| C102 | function on state and printed lines | case split on the outcome |
| C103 | binomial laws of counts under product measures | thinning of a binomial law, Bernstein polynomials for the moments |
| C104 | calls of print with their values, and their text | induction over components; words of a line |
| C105 | machine of sessions: option cache, function cache, components and their instances | invariant over histories; ownership of instances by components |
| C106 | machine of sessions: contexts built from instructions with the function cache | two sessions agreeing on which names are taken; induction over likelihoods and components |
| C107 | reading of an instruction as events and a result | the instruction without its meaningless items gives the same run; characterisation of every loop by its success |
| C108 | get_key from clock readings and seeds, two-word keys | integer arithmetic modulo 2^32 and 2^64; pigeonhole |
| C109 | rates as the only changing parameters of a built likelihood | samples are unchanged by rates; tangents of the Poisson term; C38 for common factors |
| C110 | a model before and after an addition, run from the same key | appending to the loop over components; a table in the middle commutes with the sum; the posterior is linear in the values |
| C111 | the places the manual lists as a second search, compared with the one in the code | C54 and case analysis on the places |
| C112 | the log likelihood as a concave function of the prediction, averaged over repetitions and integrated over keys | tangents of the Poisson term (C109) on top of C79 |
| C113 | the two functions with the binning library as a parameter, numbers with infinities | clipping keeps the side of an edge on which an inside value lies |
| C114 | means and variances through thinning, Poisson amplification and double photoelectrons; layers of integrals for the covariance | binomial thinning, moments of the Poisson law, linearity layer by layer |
| C115 | the sampler as moves of single walkers that thread the context; detailed balance of the noisy step | change of variables for the stretch move, Tonelli, C40_no_memory for the context |
| C116 | the stationary law of C115, seen through stored values | Chebyshev inequality for comonotone functions, Tonelli |
| C117 | the weighted sum of independent decisions | variance of a sum of pairwise independent variables, C80 lemma for a bin |
| C118 | rounded sums, quotients and products | each rounding is a factor between 1-u and 1/(1-u), composed along the order of summation; the total three equal bins have is three times a dyadic number |
| C119 | the start of a continued fit | sorted lists with the same members are equal; C05 for each walker |
| C120 | the histogram functions on rounded coordinates and edges | rounding is monotone and odd; comparisons survive it unless two numbers become equal |
| C121 | the draws of binomial_hybrid above the threshold and of the normal approximation | Hermite polynomials of the normal draw give the variance exactly; clipping moves at most a multiple of the squared distance to the mean |
| C122 | the terms of get_log_likelihood and their sum, each operation rounded | induction over the order of summation; exact evaluation of the roundings in the example |
| C123 | means and second moments of the rounded and cut draws of the microphysics plugins | clipping moves a number by at most a multiple of its squared distance from the mean; integration over normal numbers |
| C124 | continuity of maps: Lipschitz bounds for linear interpolation, a jump for inverse distances | piecewise linear functions; explicit values on both sides of a border |
| C125 | rounding from template contents to the log likelihood | composition of C118 and C122: every bin of the model is its exact value within k roundings, the logarithm moves by at most k times one rounding |
| C126 | law and independence of sampled parameters | clipping is the identity inside the range; the density of the draws is the drawn curve of C88 |
| C127 | options of shipped instructions reach plugins | dependency closure of C10 computed for every shipped likelihood |
| C128 | literature likelihood of the yield components | weighted sums of C39 with the efficiencies of C51; uniform draws and Lebesgue measure for bands; the shipped tables read into the model |
| C129 | shipped parameter files | the files read into the model by tools/shipped_pars.py; the conditions of C02, C45 and C68 evaluated on every entry; interval bounds on the values allowed |
| C130 | conversion of errors to sigmas | strictly decreasing normal tails, intermediate value theorem for existence, comparison of shares for uniqueness |
| C131 | maps in single precision | each operation contributes a factor close to one; Lipschitz bounds of C124 carry over errors of the position |
| C132 | spread of the drawn numbers from below | fourth moments bound what clipping takes from the tails; Minkowski for the rounding |
| C133 | log likelihood of random data | linear in the counts, then Gibbs inequality with a Hellinger margin; Chernoff bound at one half for Poisson counts |
| C134 | predictions and likelihoods of two binnings of the same range | every event of a coarse bin lies in exactly one of its pieces; log-sum inequality for the separation; concrete component with an empty piece |
| C135 | histograms and likelihoods under conversions of coordinates and edges | only comparisons act on coordinates, so strictly increasing maps commute with every search; conversion of the values exchanged between plugins by induction along the data flow |
| C136 | panels of the autocorrelation plot as lists of points; the intermediate lengths are an argument | the estimate of each point from C76; a chain of 128 iterations evaluated by integer sums |
| C137 | columns, colours and diagonal of the corner plot; the checks of corner.corner | Cauchy-Schwarz with its case of equality; every finite log prior of flat priors is zero |
| C138 | log posterior of a context along a straight line in the rates | samples of all likelihoods at other rates by uniqueness of the draws (C79, C109); Jensen for the Poisson terms; the exponent of the two-half-normal as a sum of squared positive parts |
| C139 | marginal plot: panels, bars, legend | the bins cover the samples and are disjoint; the counts sum to the number of samples; last name in sorted order for the shipped file |
| C140 | classes of contexts: the instruction they are made from, directly and by from_backend | lookup order and idempotence of C54; case analysis on the class |
| C141 | stochastic order of counts along the signal chain | binomial means of growing functions by induction on the trials; Poisson tails by derivative; composition by the layer cake formula |
| C142 | log posterior of random data for several likelihoods | the log posterior as a sum over all bins of all likelihoods; the Gibbs inequality and Chernoff bound of C133 with the difference of log priors as offset |
| C143 | size of the log posterior | every Poisson term is at most its value at the count, every density at most its top, every prior at most its top; the density is zero outside the allowed ranges |
| C144 | parameters without influence | the log prior enters as an offset of every repetition; the term of the parameter splits off; Fubini for one coordinate |
| C145 | order of likelihoods and components | steps with fresh keys; the total depends on the laws of the results only; Fubini for the exchange of two neighbours |
| C146 | number of repetitions | mean over independent keys; strong law of large numbers; norms of exponent 1/n; Jensen; dominated convergence |
| C147 | common factor on the rates; one rate | C138; logarithm of a product bin by bin; Gamma density by completing the constant; conditional law |
| C148 | memory settings and check at import | case analysis; induction over the actions |
| C149 | log likelihood of points with errors | the density is a constant less half the squared pull; Gibbs inequality for the shifted two-half-normal density, strict because both are continuous |
| C150 | lengths of the arrays in `LikelihoodLit` | the common length of arrays as a value or ValueError; sums over a range of points |
| C151 | data taken in several runs | selection and counting distribute over concatenation; the log likelihood is linear in the log of the rates (C109) |
| C152 | order of the events in a data file, events outside the clip | selection and histograms of permuted lists |
| C153 | fixing a fitted parameter | stored values of both contexts agree, the sum of the log prior loses one term; Fubini for the evidence |
| C154 | another prior or allowed range for a fitted parameter | one term of the log prior is exchanged; stored values and likelihoods are the same |
| C155 | renaming parameters by aliases | lookups after alias replacement agree for all needed names; the sum of the log prior is permuted |
| C156 | one uniform number per key | the map over the keys; keys that are not derived from one another |
| C157 | likelihoods with separate parameters | terms of the log posterior are exchanged one by one; a density is positive exactly if all terms are finite |
| C158 | files of maps | cases of the search for a file; induction over the maps of a band |

## 4. Suspected disagreements between code and expectation

To be confirmed by a theorem (negation with a witness) when modelled; see section 6 for the confirmed list.

1. `set_gpu_memory_usage(0.05)` sets 0.5, `(1.0)` sets 0.1 (utils.py 264-274).
2. `_sanity_check` checks provided ⊆ needed, not needed ⊆ provided (context.py 418-428).
3. `get_post_parameters` keeps the first chain (context.py 315-345).
4. `from_backend` uses `eval` on JSON text (context.py 60-71).
5. `update_parameter_config` can drop a needed parameter (context.py 445-462).
6. `force_no_eff` is never reset (component.py 403-433).
7. `register` writes before it checks (component.py 207-246).
8. Shadowed plugin outputs (component.py 311-390).
9. A likelihood cannot hold two simulated components (component.py 397-401).
10. Plugin lineage describes the last build (plugin.py 94-106).
11. `log_point` maps return log10 values (config.py 264-270).
12. `twohalfnorm` reuses its key (randgen.py 618-647).
13. `add_extensions` compares the dotted name but sets the last segment (utils.py 563-590).
14. Chained aliases are applied twice (likelihood.py 25-43, 281-291).
15. `set_global_config` drops entries of other types in per-likelihood dictionaries (share.py 47-71).
16. `multiple_simulations_compile` needs a `g4` configuration (component.py 111-133).
17. 1D regular-binning maps pass a 2D array to `searchsorted` (interpolation.py 97-115).

## 5. Trusted base

* Lean's kernel (4.33.0) and Mathlib's definitions. Axioms: every theorem depends on at most `propext`, `Classical.choice`
  and `Quot.sound`; `AXIOMS.txt` lists them theorem by theorem. No other axiom, no `sorry`, no `native_decide`.
* The reading of the python source: the model is written by hand, except the table of class attributes in
  `Model/Shipped.lean`, of what the shipped code reads in `Model/ShippedCode.lean` and of the map files in
  `Model/ShippedMaps.lean`, which `tools/shipped.py`, `tools/shipped_code.py` and `tools/shipped_maps.py` extract from the
  source text. The numbers of the map files are their decimals, not rounded to binary.
* External behaviour taken as given: the stretch move of emcee (C115), the checks of `corner.corner` (C137), the bins of `np.histogram` (C139), the ends of `np.geomspace` (C136), that a simulation leaves a fresh key (C145, a hypothesis there), python dict/set/list semantics, numpy `clip`, `searchsorted`, JAX gather clamping and
  negative-index wrap, scatter-add, `json.dumps`, `eval` on literals. Each use is named in the model comments.

### 5.1 What is modelled

| source | model | left out |
|---|---|---|
| `component.py` | `Registry`, `Codegen`, `Component`, `CompHist`, `SingleNorm` (rounded normalisation), `Recompile`, `Session` (with the option cache), `Lineage`, `Show`, `Messages`, `Files` (`save_code`) | warnings and help texts |
| `config.py`, `share.py`, `plugin.py` | `Config`, `Declare`, `Session` (building at compile time), `Messages`, `Interp` (map arithmetic), `MapFile` (building from a file), `Lineage` | drawing of maps |
| `hist.py` | `Hist`, `Single` (rounded sums), `SingleBins` (rounded coordinates and edges) | overflow, underflow |
| `interpolation.py` | `Interp`, `SingleMaps` (rounded) | |
| `parameter.py` | `Parameter`, `Messages` | printing |
| `likelihood.py` | `Likelihood`, `Wrapper`, `Register`, `Whole` (all parts together), `SingleLlh` (rounded log likelihood), `SingleModel` (from contents to log likelihood), `Lineage`, `Summary` | |
| `context.py` | `Context`, `Contexts` (several in a session), `ContextClasses` (with `contexts/er_only.py`), `Walk` (the sampler at work), `Instruct` (what an instruction must contain), `Fit`, `Continue` (the start of a continued fit), `Json`, `Lineage`, `Template`, `Messages`, `Files`, `Summary` | MongoDB |
| `randgen.py` | `Randgen`, `UniformKey`, `Keys` (keys from seeds and from the clock) | the samplers of `jax.random` and numpyro themselves |
| `plugins/*.py` | `Plugins` | |
| `components/*.py`, `instructs/*.json`, `parameters/*.json`, `maps/*.json` | `Shipped`, `ShippedContext`, `ShippedMaps`, `ShippedLiterature` (generated by `tools/literature.py`), `ShippedPars` (generated by `tools/shipped_pars.py`), `Literature` (one event of the yield components), `MapUse` | rounding of the tabulated numbers |
| `profiler.py` | `Profiler`, `ProfileTime`, `Summary` (`print_worksheet`) | layout of the tables of timings |
| `plot.py` | `Plot`, `PriorPlot`, `BurnIn`, `ChainPlots`, `MarginalPlot`, `MapPic`, `Files` (`make_all_plots`) | the renderer: colours, ticks, axis scales |
| `__init__.py` of the package and its subpackages, all import statements | `Names`, `ShippedNames` (generated), `Startup` (memory settings, check of the machine) | what jax does with the settings |
| `utils.py` | `Utils`, `Graph`, `HistPlot`, `Files`, `Equiprob`, `Names` (`exporter`), `Startup` (`get_platform`), parts in `Config`, `Parameter`, `Interp`, `Likelihood` | MongoDB, plotting style |

### 5.2 Simplifications that matter

* No rounding except in C91, C118, C120, C122, C125 and C131. Numbers are exact unless a definition says otherwise; overflow is modelled only in C63 and special values only
  where the code branches on them (`XF`). Integer casts follow XLA: NaN becomes 0, infinities the extreme integers; integers
  do not overflow otherwise. `int(100 * fraction)` in `set_gpu_memory_usage` is exact here.
* `jit` is the identity; tracing and shapes are not modelled except where a property is about shapes.
* Draws are arguments. Distribution theorems (C46, C48, C67, C69, C70, C72, C78, C80) are about ideal independent draws.
* Keys are split paths: two keys are equal only when they come from the same splits.
* Maps enter plugins as the value they returned; interpolation has its own theorems (C28–C32).
* The ensemble sampler is an argument: the samples of each iteration. A crash leaves a prefix of the writes.
* Two plugin classes with equal attributes are identified. Plugin functions are arbitrary of the declared arity.
* The hash of C57 is any streaming hash.
* `_lookup_collapse` takes the first of a python set of names; the collapse request is an argument of C58.

## 6. Confirmed disagreements

Where the code does not do what the property says, the negation or a counterexample is proved. `*_partial` theorems
beside them say what does hold.

| property | what happens | theorem |
|---|---|---|
| C04 | a NaN parameter value passes the range check of the prior | C04_nan_passes_range_check |
| C09 | the two histogram functions put a sample on an edge in different bins | C09_disagree_on_edges |
| C10 | two plugins with one class name: one is dropped from the worksheet | C10_same_name_dropped |
| C11 | when a later plugin takes over one of several outputs, the earlier plugin still overwrites it | C11_shadowed_output_used, C11_class_looked_up_by_name |
| C14 | a registration refused for conflicting defaults stays in the registry | C14_failed_registration_stays |
| C15 | `force_no_eff` is never reset; a failed `deduce` already changed the weights | C15_force_no_eff_sticky, C15_failed_deduce_changes_weights |
| C16 | after `clear_cache` two compiled simulators can share code | C16_clear_mixes_simulators |
| C17 | a fixed component with `on_sim` raises AttributeError | C17_fixed_on_sim_raises |
| C19 | weighted data loses rate with the floor, at the upper edge and exceeds it in 2D; a component deduced with `force_no_eff` has none | C19_floor_weights_below_rate, C19_fixed_upper_edge_loses_rate, C19_two_dim_exceeds_rate, C19_no_efficiency_fails |
| C21 | of two configurations with one name the first default wins | C21_first_default_wins |
| C22 | `set_global_config` replaces nested entries and is not atomic | C22_other_entries_dropped, C22_failure_keeps_earlier_entries |
| C25 | changing the configuration after `build` changes the parameter a map reads | C25_set_config_changes_parameter |
| C26 | a build without likelihood name fixes the files for all later builds | C26_unnamed_build_pins_files |
| C27 | the lineage of a plugin describes the last build of its class | C27_lineage_describes_last_build |
| C28 | with repeated positions the two interpolations differ | C28_repeated_position_differs |
| C32 | a logarithmic point map returns log10 of the stored value | C32_log_point_does_not_return_stored_value |
| C34 | explicit edges narrower than the clip drop kept events | C34_narrow_edges_drop_events |
| C35 | a parameter aliased to itself is lost | C35_self_alias_loses_parameter |
| C36 | chained aliases are applied twice; an alias name cannot be a parameter | C36_chained_aliases_go_wrong, C36_alias_name_as_parameter_is_lost |
| C39 | a negative efficiency gives likelihood +infinity | C39_negative_efficiency_gives_plus_infinity |
| C41 | sources that are not rates are dropped; a copy of a copy is lost | C41_sources_dropped, C41_copy_of_copy_is_lost |
| C42 | the sanity check lets missing parameters pass | C42_missing_parameter_passes |
| C43 | estimates stay those of the first chain queried | C43_stale_after_query, C43_continuation_keeps_old_estimate |
| C44 | characters outside the basic plane, tuples, integer keys and constants do not survive | C44_astral_character_changes, C44_tuple_becomes_list, C44_integer_key_becomes_string, C44_constant_raises |
| C47 | `twohalfnorm` uses a key twice | C47_twohalfnorm_reuses |
| C48 | the vectorised two-half-normal sampler leaves a gap | C48_vectorised_gap |
| C52 | mean excitons can be negative; the Fano factor is not defined at zero | C52_negative_excitons, C52_fano_at_zero |
| C55 | below ten percent the fraction is ten times too large, the whole memory becomes a tenth | C55_ten_times_too_large, C55_whole_memory |
| C56 | an extension in a package overwrites silently; aliases are refused | C56_dotted_module_overwrites, C56_alias_refused |
| C58 | bars on logarithmic axes lie left of their bins | C58_log_bars_shifted |
| C59 | the best fit can be a sample that is in no kept iteration | C59_best_fit_outside_chain |
| C60 | profiling raises or uses other data than the simulation in some registrations; report keys collide | C60_first_output_overridden, C60_other_input_name, C60_context_key_collision |
| C61 | a crashed continuation leaves metadata that mixes two runs | C61_continuation_half_read |
| C63 | single-precision inverse-distance maps overflow at nodes | C63_infinite_at_nodes |
| C64 | inverse-cdf maps are half a bin too low | C64_quantiles_too_low, C64_uniform_median_is_wrong |
| C66 | configurations passed by hand are not stored | C66_manual_configuration_is_lost |
| C67 | scalar two-half-normal draws are never below the centre | C67_scalar_never_below |
| C71 | the recombination fluctuation exceeds its amplitude for every nonzero skewness | C71_exceeds |
| C74 | a likelihood refuses a second simulated component | C74_second_refused |
| C75 | saved figures overwrite one another | C75_sigma_map_keeps_upper_only, C75_same_base_name_overwrites |
| C77 | the panel per walker is not the acceptance fraction; thinning inflates it | C77_walker_panel_negation, C77_thinning_inflates |
| C81 | lineages lack the floor of histograms and the parameter scaling a map, and describe files as they are now | C81_floor_missing, C81_scaler_missing, C81_files_read_again |
| C81 | writing a lineage with a set of constants fails and empties the file | C81_dump |
| C80 | averaging repeated evaluations does not remove the shift of the log likelihood of a finite batch | C80_log_likelihood_low |
| C82 | two configurations of one name declared together are accepted | C82_repeated_name |
| C82 | a configuration may hide a declaration or the method | C82_shadowed |
| C82 | rows of a set of constants may differ in length | C82_set_tolerance |
| C83 | repetition with compilation raises KeyError unless an unrelated option is configured | C83_option_missing |
| C83 | a file of events given as text is cut to one character | C83_text_is_cut |
| C83 | rounds can share a seed | C83_seeds_collide |
| C84 | an option shared by two plugins appears twice in the table | `C84_shared_option_twice` |
| C84 | the table raises KeyError when a needed option is set per likelihood without this one | `C84_errors` |
| C85 | a copy has no rate name: its histograms raise KeyError and the rate is not among its needed parameters | `C85_rate_lost` |
| C85 | plugins registered after construction are lost in a copy | `C85_later_plugins_lost` |
| C85 | two copies with the default likelihood name: the second cannot be deduced | `C85_name_taken` |
| C86 | with_data_names is lost in the recursion | `C86_labels_lost` |
| C86 | two plugins of one name are drawn as one node | `C86_same_name` |
| C87 | get_template does not apply aliases: KeyError | `C87_alias_missing` |
| C87 | get_template does not apply aliases: silently another parameter | `C87_alias_wrong` |
| C88 | plotted priors ignore the allowed range: too low inside | `C88_too_low`, `C88_uniform` |
| C88 | plotted priors go on outside the allowed range | `C88_outside` |
| C88 | equal bounds of a uniform prior: ZeroDivisionError in the plots; negative width of a normal prior: curve upside down | `C88_other` |
| C89 | burn-in plot: points too far left for thinned chains and after dropped iterations | `C89_lines`, `C89_shifted` |
| C89 | burn-in plot fails if no iteration is finite for all walkers | `C89_no_iteration_left` |
| C90 | a NaN in a two-dimensional histogram (or an empty bin without area, with density) removes the colours of all bins | `C90_nan_blanks_all` |
| C90 | one infinite content gives all finite bins the same colour | `C90_infinite_flattens` |
| C90 | a histogram smaller than its bins is drawn in part without a warning; limits given do not help an empty one | `C90_other_shape`, `C90_empty` |
| C91 | in single precision a bin holds at most 2^24 events of weight one; the predicted fraction goes to zero with the batch size | `C91_events_lost`, `C91_fraction_vanishes` |
| C91 | in single precision weighted histograms depend on the order of events | `C91_order_matters` |
| C92 | a regular binning with one axis builds with any method, even an unknown one, and raises at every position | C92_one_axis_never_applies |
| C92 | a point map whose coordinate_name is the list ["pdf"] is not converted to a cdf | C92_name_in_list_not_converted |
| C93 | the shipped field map is infinite at its nodes in float32 | C93_field_infinite_at_a_node |
| C93 | the scalers of the two cut acceptances and of the detection efficiency do nothing with the shipped maps, whose three curves are equal | C93_efficiency |
| C96 | The plugin class BandEnergiesClipEff is defined in two modules and the package has only the one of er_nestv2 (plugins/nestv2.py 269, plugins/er_nestv2.py 244). Both have the same body, so nothing goes wrong. | C96_overwritten_plugin |
| C97 | A table with the method NN is drawn as a rising line, but the map jumps half way between the points (plot.py 622-630). | C97_nearest_table_not_a_line |
| C97 | A logarithmic table is drawn with the values of the file, but the map returns their logarithms (plot.py 622-630, config.py 249-275; see also C32). | C97_log_table |
| C97 | The image of a grid is constant around each node, also for the method LERP, which is not (plot.py 658-711). | C97_linear_grid_between_nodes |
| C97 | A map on one regular axis is drawn as bars although it raises whenever it is applied (plot.py 633-655; see also C92). | C97_bars_of_a_map_that_never_applies |
| C97 | A map on one regular axis whose coordinate_name is a string is labelled with the first letter only (plot.py 871). | C97_first_letter_shown |
| C97 | The lower and upper images of a map with uncertainty use the axes of the median map, even if their files have others (plot.py 929-1012). | C97_axes_of_the_median |
| C97 | If different requests are made for two names of one map, the order of a set of strings decides which is used; python randomises it in every run (plot.py 764-770). | C97_request_depends_on_set_order |
| C97 | Maps are objects of the plugin classes and are built again for each likelihood. If a map has different files for two likelihoods, plot_maps draws only the file built last, once (plot.py 464-491). | C97_only_last_file_drawn |
| C98 | The extraction probability g2/(gas_gain rel) is not cut to one (detector.py 156-157) as the detection probability is; with the shipped sampler every electron is extracted then, silently: the mean of cS2 is gas_gain rel n, less than g2 n. | C98_cs2_saturates |
| C99 | truncate_normal is described as a truncated normal sampler but clips: each limit has the probability of everything beyond it, also for the number of quanta and the recombination drawn in the ER components (randgen.py 144-165). | C99_truncated_has_atoms |
| C99 | uniform with limits in the wrong order returns the lower limit for every event instead of raising (randgen.py 43-66, through jax.random.uniform). | C99_uniform_reversed |
| C100 | The error about two plugins with different defaults of one configuration gives each plugin the default of the other: new_items is the configuration of the new plugin but is printed beside the name of the registered one (component.py 236-245). | C100_conflict_files_exchanged |
| C100 | check_parameter_exist(name, return_not_exist=True) returns the name itself beside True when it exists, where the documentation promises the list of names that do not exist (parameter.py 193-197). | C100_existing_name_given_back |
| C101 | add_spaces is documented to indent every line, but for a string it splits at newlines and does not put them back, so all lines run together (utils.py 440-448). | C101_string_lines_run_together, C101_string_negation |
| C101 | tree_to_svg reads save_as.svg whatever the format of the graph: with another format it returns the picture left by an earlier graph, or raises FileNotFoundError leaving source and picture behind (utils.py 452-465). | C101_svg_of_another_graph, C101_svg_missing |
| C101 | save_code opens the file before it reads the code: before deduce the file is emptied and AttributeError raised (component.py 486-489). | C101_save_code_empties_file |
| C101 | dump_post_parameters writes into the open file: a value json cannot write (set_parameter accepts arrays in lists) leaves a truncated text (context.py 352-356). | C101_dump_half_written |
| C102 | timeit returns a wrapper without the name and the arguments of the function (no functools.wraps): a plugin with a timed simulate raises IndexError when it is made, and timing twice prints _func (utils.py 232-248, plugin.py 78-79). | C102_timed_simulate_refused, C102_name_lost |
| C104 | The summary shows the names of parameters inside the components, not the aliases the context needs; a context that provides the names shown raises RuntimeError, even for the summary itself (likelihood.py 394-407, context.py 138, 418-428). | C104_alias_not_shown |
| C105 | The files of a SigmaMap cannot be changed by setting its option once a component was compiled: every further compilation fails, even if the file named is the one in use (config.py, SigmaMap.build). | C105_sigma_stuck, C105_same_file_refused |
| C105 | The parameter of a SigmaMap follows set_config immediately, without compile, while its maps do not (config.py, SigmaMap.apply). | C105_scaler_not_frozen |
| C105 | set_config warns to run deduce() and compile() again, but deduce() then always fails, since the likelihood name is taken in the function cache; clear_cache(), which allows it, also forgets the options set (component.py 498-502, share.py). | C105_deduce_again, C105_clear_forgets |
| C105 | set_config documents a file name as argument; it raises AttributeError (share.py, set_global_config). | C105_file_name_refused |
| C105 | url_base goes through get_file_path like any file, so that an address that is not a local path is refused and the context cannot be made (context.py 430-433, share.py). | C105_url_base_must_exist |
| C105 | Options given by the instruction of one context stay in effect for later contexts that do not give them (context.py 36-43, share.py). | C105_options_leak_between_contexts |
| C106 | A context cannot be made twice in a session, nor restored with from_backend in the session that fitted it: RuntimeError, since the likelihood names stay in the function cache (share.py 28-35, component.py 397-401). | C106_again_refused, C106_name_taken |
| C106 | An instruction that fails half way takes the names of the likelihoods completed so far, so that the corrected instruction fails too, until clear_cache(). | C106_failure_takes_names, C106_corrected_instruction_refused |
| C107 | Items with unknown names (x_clp for x_clip, confgs for configs) are ignored silently in instructions, likelihoods and components (context.py 36-57, 93-116; likelihood.py 62-70). | C107_only_known_items, C107_misspelt_ignored |
| C107 | The documentation of instructions (advance/instruct.rst) does not list copy_parameters among the items a likelihood must contain, but without it the context is a KeyError (context.py 450); it lists configs, x_clip and y_clip as mandatory, which are optional. | C107_copy_parameters_needed, C107_accepts |
| C107 | A refused instruction has already changed the global options and url_base (context.py 36-42). | C107_refused_sets_options |
| C108 | Keys made from the clock count microseconds, of which only the lower 32 bits are used unless 64-bit numbers are enabled: they repeat every 71.6 minutes, and evaluations in the same microsecond share them (randgen.py 34-40). | C108_period, C108_same_microsecond, C108_pigeonhole |
| C108 | Seeds given to get_key (and to Context.get_template) that differ by a multiple of 2^32 give the same events (randgen.py 40). | C108_seeds_coincide |
| C111 | The manual (`advance/file.rst`, docstring of `get_file_path`) lists the places where files are looked for; a file of the working directory comes first instead, `configs` is not searched, `instructs` is, and folders are returned | C111_working_directory, C111_configs_not_searched, C111_instructs_searched, C111_folder_returned |
| C118 | In single precision the total of a template normalised on its sum is not exactly the configured number of events. | C118_differs |
| C119 | `continue_fitting(context)` gives the values of one parameter to another when the two contexts fit different parameters of the same number | C119_mixed_up |
| C120 | An event just above the lower clip passes the selection in double precision and is lost by the histogram in single precision; one just above an inner edge is counted in the bin below | C120_just_above_an_edge |
| C121 | With APPLETREE_USE_HYBRID=1, binomial with n above 128 and a tiny positive p returns n in a sizeable fraction of the draws, because the Cornish-Fisher terms are divided by the variance; jax.random.binomial would return 0 | C121_tiny_probability |
| C122 | The log likelihood is computed in single precision: for data sets with millions of events in a bin, differences larger than one are rounded away | C122_difference_lost |
| C123 | The number of quanta is the rounded draw, so deposits below a tenth of the work function lose most of their quanta on average | C123_small_deposits |
| C124 | Maps on regular bins read with the default method `IDW` jump at the borders of cells: a map with entries 0, 1, 2, … read half-way between two rows is below k - 3/10 left of column k and above k + 3/10 at column k | C124_idw_jumps, C124_idw_not_continuous |
| C126 | `sample_prior` clips draws to the allowed range while `log_prior` cuts the prior off there, so the ends of the range are sampled with positive probability | C126_border |
| C126 | A `uniform` prior is sampled from `[lower, upper]` but counts as flat over the whole allowed range in the fit; the two agree only if the intervals are the same | C126_uniform |
| C127 | `literature_lyqy.json` sets an option `field`, but the field is a parameter; no plugin takes such an option, so the value is ignored | C127_field_ignored |
| C127 | `neutron_low.json` sets `s1_correction`, but bins in `num_s1_phd` and `cs2`, which do not depend on it | C127_correction_unused |
| C128 | A measured point outside the energy range gets weight zero, but NaN times zero is NaN: an energy draw that is not positive makes the light-yield likelihood minus infinity | C128_zero_energy, C128_nan_yield |
| C128 | `ly_lux_2022` and `qy_lux_2022` draw energies from 0 keV, but their bands begin at 0.45 and 0.27 keV; in 18 and 10.8 percent of evaluations (26.9 percent for both) the log likelihood is minus infinity whatever the parameters are | C128_shipped_gap, C128_shipped_numbers, C128_shipped_both |
| C129 | All files with `g2` allow values up to 100, but fix the gas gain at about 30: the extraction probability exceeds one, every electron is extracted, and the simulated signals do not depend on `g2` | C129_extraction, C129_extraction_flat |
| C129 | Both files for nuclear recoils allow negative `theta`, with which the light yield of every energy is NaN | C129_theta, C128_negative_theta |
| C131 | A bilinear map of efficiencies stays between 0 and 1: it may exceed 1 by rounding, because the four products of weights are rounded before they are summed; the trilinear map, which blends axis by axis, cannot | `C131_bilinear_exceeds`, `C131_bilinear_unit_partial`, `C131_unit_range` |
| C131 | A constant point map returns its constant: the sum of rounded products divided by the rounded sum may be the next number below | `C131_constant_map` |
| C134 | The floor of nearly empty bins does not depend on the size of the bin: with the floor, the number of events predicted in all bins grows at least in proportion to the number of bins, and dividing a bin of which one half is empty raises the number predicted in it from 2 to more than 3. | C134_floor, C134_empty_piece |
| C136 | C136: with `thin > 1` the plotted time counts thinned iterations but the line `N * thin / 50` counts iterations of the fit: a chain of 8 autocorrelation times is drawn below the line of 50 | `C136_thinned_line`, `C136_thinned` |
| C136 | C136: with fewer than 100 iterations the plot begins at 100 (times `thin`), beyond the end of the chain, with the estimate of the whole chain | `C136_short` |
| C136 | C136: one walker with a parameter that did not change makes the estimate nan for all walkers | `C136_stuck` |
| C136 | C136: `axes[-2]` is an IndexError for a fit of one parameter, so `make_all_plots` stops there too | `C136_one_parameter` |
| C137 | C137: the log prior of a fit with free and uniform priors only is constant, which `corner.corner` refuses; `make_all_plots` then makes neither the autocorrelation nor the acceptance plot | `C137_flat_priors`, `C137_flat_priors_all_plots`, `C137_uniform_fit` |
| C137 | C137: fewer samples than parameters plus two are refused | `C137_few_samples` |
| C139 | The legend of the marginal plot is that of the last panel (`axes[-1]`, plot.py 218). Names are sorted, so if the last fitted parameter has a free prior, the priors drawn in other panels are not named. This happens with the shipped `nr_low.json`, whose last fitted parameter is `t_qy`. | `C139_legend`, `C139_nuclear_recoils` |
| C140 | `from_backend` calls `cls(instruct)` (context.py 66), but the constructors of `ContextRn220` and `ContextRn220Ar37` take no argument (er_only.py 8, 17): a fit made with a shipped context cannot be restored with its own class, from whatever file. | `C140_not_restored` |
| C143 | A band with a zero width at the end of its table is accepted, and the log likelihood is unbounded next to it | C143_narrow_band |

Of the suspicions in section 4, numbers 3 (C43), 4 (C44), 9 (C74) and all others with a property number above are confirmed.
Number 17 is C92_one_axis_never_applies. For C59 the helper choosing the window returns 0 when no index fails the
criterion; C59_window_in_use proves this cannot happen for chains that are not constant.

## 7. How to read the seeded-bug record

`seeded/LOG.jsonl` counts an edit as caught when the build of the edited model fails. That has two limits.

* Of the 235 entries of rounds 1-5, 101 name a property theorem (`Cnn_...`) among the failures and 9 fail only in an example
  or a helper inside a Props file. In 124 entries only a helper lemma failed. Lean then never builds the property theorem, so
  the entry does not by itself show that the property's statement excludes the edit. One entry survived and was tightened.
* From round 6 on each line has a field `level`: `property`, `lemma` or `survived`. An edit that merely makes the model fail
  to compile is reported as `INVALID` by the runner and is not logged as caught.

Entries of level `lemma` are reviewed by hand against the statement of the claimed theorem. The outcome is in
`seeded/REVIEW.jsonl`; an entry that is not listed there has not been reviewed, or no statement was found that excludes it.
The review of lines 428 to 1162 found statements that were too weak. The theorems added for that reason are C44_refused,
C44_order, C96_package_first, C96_submodule, C96_imports, C106_made, C106_not_made and C121_shape.
