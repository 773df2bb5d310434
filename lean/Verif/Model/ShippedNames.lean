/-
Data: what the modules of the package import, define and refer to, in the order of their statements.

Written by `tools/shipped_names.py` from the source text of /repo/appletree.  Both branches of a conditional statement are listed one
after the other, and optional packages are taken as installed; names from outside the package are `external`.
-/
import Verif.Model.Names

namespace Verif.Names
open Verif

/-- `appletree/__init__.py` (lines 1-72). -/
def appletree : Mod where
  parent := none
  body := [
    .define "__version__" false,
    .external "os",
    .use "os" ["environ"],
    .use "os" ["environ", "setdefault"],
    .define "XLA_PYTHON_CLIENT_PREALLOCATE" false,
    .define "XLA_PYTHON_CLIENT_ALLOCATOR" false,
    .use "print" [],
    .use "XLA_PYTHON_CLIENT_PREALLOCATE" [],
    .use "XLA_PYTHON_CLIENT_ALLOCATOR" [],
    .fromImport "appletree" "utils" "utils" (some "appletree.utils"),
    .star "appletree.utils",
    .star "appletree.hist",
    .star "appletree.interpolation",
    .star "appletree.config",
    .star "appletree.parameter",
    .star "appletree.randgen",
    .star "appletree.share",
    .fromImport "appletree" "plugins" "plugins" (some "appletree.plugins"),
    .star "appletree.plugin",
    .star "appletree.components",
    .star "appletree.component",
    .star "appletree.likelihood",
    .star "appletree.contexts",
    .star "appletree.context",
    .star "appletree.plot",
    .fromImport "appletree" "profiler" "profiler" (some "appletree.profiler"),
    .star "appletree.profiler",
    .external "warn",
    .use "utils" ["get_platform"],
    .define "platform" false,
    .use "platform" [],
    .define "warning" false,
    .use "warn" [],
    .use "warning" [],
    .external "jax",
    .use "jax" ["numpy", "ones"],
    .use "BaseException" [],
    .use "ImportError" [],
    .use "platform" ["upper"],
    .external "aptext",
    .define "HAVE_APTEXT" false,
    .define "HAVE_APTEXT" false]
  later := []

/-- `appletree/component.py` (lines 1-662). -/
def appletree_component : Mod where
  parent := (some ("appletree", "component"))
  body := [
    .external "os",
    .external "warn",
    .external "partial",
    .external "Tuple",
    .external "List",
    .external "Dict",
    .external "Optional",
    .external "Union",
    .external "Set",
    .external "np",
    .external "pd",
    .external "jnp",
    .external "deterministic_hash",
    .fromImport "appletree" "utils" "utils" (some "appletree.utils"),
    .fromImport "appletree.config" "OMITTED" "OMITTED" none,
    .fromImport "appletree.plugin" "Plugin" "Plugin" none,
    .fromImport "appletree.share" "_cached_configs" "_cached_configs" none,
    .fromImport "appletree.share" "_cached_functions" "_cached_functions" none,
    .fromImport "appletree.share" "set_global_config" "set_global_config" none,
    .fromImport "appletree.utils" "exporter" "exporter" none,
    .fromImport "appletree.utils" "get_file_path" "get_file_path" none,
    .fromImport "appletree.utils" "load_data" "load_data" none,
    .fromImport "appletree.utils" "calculate_sha256" "calculate_sha256" none,
    .fromImport "appletree.hist" "make_hist_mesh_grid" "make_hist_mesh_grid" none,
    .fromImport "appletree.hist" "make_hist_irreg_bin_1d" "make_hist_irreg_bin_1d" none,
    .fromImport "appletree.hist" "make_hist_irreg_bin_2d" "make_hist_irreg_bin_2d" none,
    .use "exporter" [],
    .exporter false,
    .use "str" [],
    .use "bool" [],
    .use "Optional" [],
    .use "list" [],
    .use "property" [],
    .use "export" [],
    .define "Component" true,
    .use "Component" [],
    .use "Union" [],
    .use "List" [],
    .use "Tuple" [],
    .use "Dict" [],
    .define "ComponentSim" true,
    .define "ComponentFixed" true,
    .define "add_component_extensions" true,
    .define "_add_component_extension" true]
  later := [("Component", []), ("Dict", []), ("KeyError", []), ("List", []), ("NotImplementedError", []), ("OMITTED", []),
    ("Optional", []), ("Plugin", []), ("RuntimeError", []), ("Set", []), ("Tuple", []), ("Union", []), ("ValueError", []),
    ("_cached_configs", ["get"]), ("_cached_functions", []), ("bool", []), ("calculate_sha256", []), ("deterministic_hash", []),
    ("dict", []), ("dir", []), ("exec", []), ("get_file_path", []), ("getattr", []), ("hasattr", []), ("isinstance", []),
    ("issubclass", []), ("jnp", ["asarray"]), ("jnp", ["clip"]), ("jnp", ["inf"]), ("jnp", ["mean"]), ("jnp", ["ones"]), ("jnp",
    ["sum"]), ("len", []), ("list", []), ("load_data", []), ("make_hist_irreg_bin_1d", []), ("make_hist_irreg_bin_2d", []),
    ("make_hist_mesh_grid", []), ("np", ["array"]), ("np", ["hstack"]), ("np", ["ones"]), ("open", []), ("os", ["path",
    "basename"]), ("partial", []), ("pd", ["DataFrame"]), ("property", []), ("range", []), ("set", []), ("set_global_config",
    []), ("str", []), ("super", []), ("tuple", []), ("type", []), ("utils", ["FULL_PATH_LINEAGE"]), ("utils",
    ["_add_extension"]), ("utils", ["add_extensions"]), ("warn", []), ("zip", [])]

/-- `appletree/components/__init__.py` (lines 1-11). -/
def appletree_components : Mod where
  parent := (some ("appletree", "components"))
  body := [
    .fromImport "appletree.components" "er" "er" (some "appletree.components.er"),
    .star "appletree.components.er",
    .fromImport "appletree.components" "nr" "nr" (some "appletree.components.nr"),
    .star "appletree.components.nr",
    .fromImport "appletree.components" "ac" "ac" (some "appletree.components.ac"),
    .star "appletree.components.ac",
    .fromImport "appletree.components" "yields" "yields" (some "appletree.components.yields"),
    .star "appletree.components.yields"]
  later := []

/-- `appletree/components/ac.py` (lines 1-5). -/
def appletree_components_ac : Mod where
  parent := (some ("appletree.components", "ac"))
  body := [
    .fromImport "appletree.component" "ComponentFixed" "ComponentFixed" none,
    .use "ComponentFixed" [],
    .define "AC" false]
  later := []

/-- `appletree/components/er.py` (lines 1-63). -/
def appletree_components_er : Mod where
  parent := (some ("appletree.components", "er"))
  body := [
    .importAs "appletree" "apt",
    .fromImport "appletree.component" "ComponentSim" "ComponentSim" none,
    .use "ComponentSim" [],
    .define "ERBand" false,
    .define "ERPeak" false,
    .define "ERBandNestV2" false,
    .define "ERPeakNestV2" false]
  later := [("apt", ["plugins", "common", "MonoEnergySpectra"]), ("apt", ["plugins", "common", "PositionSpectra"]), ("apt",
    ["plugins", "common", "UniformEnergySpectra"]), ("apt", ["plugins", "detector"]), ("apt", ["plugins", "efficiency"]), ("apt",
    ["plugins", "er_microphys"]), ("apt", ["plugins", "er_nestv2"]), ("apt", ["plugins", "reconstruction"]), ("super", [])]

/-- `appletree/components/nr.py` (lines 1-18). -/
def appletree_components_nr : Mod where
  parent := (some ("appletree.components", "nr"))
  body := [
    .importAs "appletree" "apt",
    .fromImport "appletree.component" "ComponentSim" "ComponentSim" none,
    .use "ComponentSim" [],
    .define "NR" false]
  later := [("apt", ["plugins", "common", "FixedEnergySpectra"]), ("apt", ["plugins", "common", "PositionSpectra"]), ("apt",
    ["plugins", "detector"]), ("apt", ["plugins", "efficiency"]), ("apt", ["plugins", "lyqy"]), ("apt", ["plugins",
    "reconstruction"]), ("super", [])]

/-- `appletree/components/yields.py` (lines 1-31). -/
def appletree_components_yields : Mod where
  parent := (some ("appletree.components", "yields"))
  body := [
    .importAs "appletree" "apt",
    .fromImport "appletree.component" "ComponentSim" "ComponentSim" none,
    .use "ComponentSim" [],
    .define "MonoEnergiesYields" false,
    .define "BandEnergiesYields" false]
  later := [("apt", ["plugins", "BandEnergiesClipEff"]), ("apt", ["plugins", "EField"]), ("apt", ["plugins", "LyNR"]), ("apt",
    ["plugins", "MonoEnergiesClipEff"]), ("apt", ["plugins", "MonoEnergiesSpectra"]), ("apt", ["plugins", "PositionSpectra"]),
    ("apt", ["plugins", "QyNR"]), ("apt", ["plugins", "ThomasImelBox"]), ("apt", ["plugins", "TotalQuanta"]), ("apt", ["plugins",
    "UniformEnergiesSpectra"]), ("super", [])]

/-- `appletree/config.py` (lines 1-600). -/
def appletree_config : Mod where
  parent := (some ("appletree", "config"))
  body := [
    .external "os",
    .external "Optional",
    .external "Union",
    .external "Any",
    .external "immutabledict",
    .external "jnp",
    .external "warn",
    .external "np",
    .external "deterministic_hash",
    .fromImport "appletree" "utils" "utils" (some "appletree.utils"),
    .fromImport "appletree.share" "_cached_configs" "_cached_configs" none,
    .fromImport "appletree.utils" "exporter" "exporter" none,
    .fromImport "appletree.utils" "load_json" "load_json" none,
    .fromImport "appletree.utils" "get_file_path" "get_file_path" none,
    .fromImport "appletree.utils" "integrate_midpoint" "integrate_midpoint" none,
    .fromImport "appletree.utils" "cumulative_integrate_midpoint" "cumulative_integrate_midpoint" none,
    .fromImport "appletree.utils" "calculate_sha256" "calculate_sha256" none,
    .fromImport "appletree" "interpolation" "interpolation" (some "appletree.interpolation"),
    .fromImport "appletree.interpolation" "FLOAT_POS_MIN" "FLOAT_POS_MIN" none,
    .fromImport "appletree.interpolation" "FLOAT_POS_MAX" "FLOAT_POS_MAX" none,
    .use "exporter" [],
    .exporter false,
    .define "OMITTED" false,
    .use "__all__" ["extend"],
    .use "export" [],
    .define "takes_config" true,
    .use "Optional" [],
    .use "str" [],
    .use "OMITTED" [],
    .use "Union" [],
    .use "type" [],
    .use "tuple" [],
    .use "list" [],
    .use "Any" [],
    .use "property" [],
    .define "Config" true,
    .use "Config" [],
    .define "Constant" true,
    .use "interpolation" ["curve_interpolator"],
    .use "interpolation" ["map_interpolator_nearest_neighbor_1d"],
    .use "interpolation" ["map_interpolator_linear_1d"],
    .use "interpolation" ["map_interpolator_regular_binning_2d"],
    .use "interpolation" ["map_interpolator_regular_binning_bilinear_2d"],
    .use "interpolation" ["map_interpolator_regular_binning_nearest_neighbor_2d"],
    .use "interpolation" ["map_interpolator_regular_binning_3d"],
    .use "interpolation" ["map_interpolator_regular_binning_trilinear_3d"],
    .use "interpolation" ["map_interpolator_regular_binning_nearest_neighbor_3d"],
    .define "Map" true,
    .use "Map" [],
    .define "SigmaMap" true,
    .define "ConstantSet" true]
  later := [("Any", []), ("Config", []), ("Exception", []), ("FLOAT_POS_MAX", []), ("FLOAT_POS_MIN", []), ("KeyError", []),
    ("Map", []), ("NotImplementedError", []), ("OMITTED", []), ("Optional", []), ("RuntimeError", []), ("Union", []),
    ("ValueError", []), ("_cached_configs", []), ("any", []), ("calculate_sha256", []), ("cumulative_integrate_midpoint", []),
    ("deterministic_hash", []), ("dict", []), ("enumerate", []), ("float", []), ("get_file_path", []), ("hasattr", []),
    ("immutabledict", []), ("integrate_midpoint", []), ("interpolation", ["curve_interpolator"]), ("interpolation",
    ["map_interpolator_linear_1d"]), ("interpolation", ["map_interpolator_nearest_neighbor_1d"]), ("interpolation",
    ["map_interpolator_regular_binning_1d"]), ("interpolation", ["map_interpolator_regular_binning_2d"]), ("interpolation",
    ["map_interpolator_regular_binning_3d"]), ("interpolation", ["map_interpolator_regular_binning_bilinear_2d"]),
    ("interpolation", ["map_interpolator_regular_binning_nearest_neighbor_2d"]), ("interpolation",
    ["map_interpolator_regular_binning_nearest_neighbor_3d"]), ("interpolation",
    ["map_interpolator_regular_binning_trilinear_3d"]), ("isinstance", []), ("jnp", ["any"]), ("jnp", ["array"]), ("jnp",
    ["asarray"]), ("jnp", ["clip"]), ("jnp", ["log10"]), ("jnp", ["where"]), ("len", []), ("list", []), ("load_json", []), ("np",
    ["all"]), ("np", ["array"]), ("np", ["isclose"]), ("os", ["path", "basename"]), ("print", []), ("property", []), ("setattr",
    []), ("str", []), ("super", []), ("tuple", []), ("type", []), ("utils", ["FULL_PATH_LINEAGE"]), ("warn", []), ("zip", [])]

/-- `appletree/context.py` (lines 1-481). -/
def appletree_context : Mod where
  parent := (some ("appletree", "context"))
  body := [
    .external "warn",
    .external "os",
    .external "copy",
    .external "json",
    .external "importlib",
    .external "datetime",
    .external "Set",
    .external "Optional",
    .external "np",
    .external "h5py",
    .external "emcee",
    .external "deterministic_hash",
    .importAs "appletree" "apt",
    .fromImport "appletree" "randgen" "randgen" (some "appletree.randgen"),
    .fromImport "appletree" "Parameter" "Parameter" none,
    .fromImport "appletree.utils" "JSON_OPTIONS" "JSON_OPTIONS" none,
    .fromImport "appletree.utils" "load_json" "load_json" none,
    .fromImport "appletree.utils" "get_file_path" "get_file_path" none,
    .fromImport "appletree.share" "_cached_configs" "_cached_configs" none,
    .fromImport "appletree.share" "set_global_config" "set_global_config" none,
    .use "os" ["environ"],
    .use "classmethod" [],
    .use "property" [],
    .use "str" [],
    .use "int" [],
    .use "Optional" [],
    .define "Context" false]
  later := [("JSON_OPTIONS", []), ("Optional", []), ("Parameter", []), ("RuntimeError", []), ("Set", []), ("ValueError", []),
    ("_cached_configs", []), ("apt", ["__version__"]), ("classmethod", []), ("copy", ["deepcopy"]), ("datetime", ["now"]),
    ("deterministic_hash", []), ("dict", []), ("emcee", ["EnsembleSampler"]), ("emcee", ["backends", "HDFBackend"]), ("emcee",
    ["ensemble", "ndarray_to_list_of_dicts"]), ("eval", []), ("get_file_path", []), ("getattr", []), ("h5py", ["File"]),
    ("hasattr", []), ("importlib", ["import_module"]), ("int", []), ("isinstance", []), ("json", ["dump"]), ("json", ["dumps"]),
    ("len", []), ("load_json", []), ("np", ["argmax"]), ("np", ["float32"]), ("np", ["inf"]), ("np", ["isfinite"]), ("np",
    ["mean"]), ("np", ["median"]), ("np", ["random", "randint"]), ("open", []), ("print", []), ("property", []), ("randgen",
    ["get_key"]), ("range", []), ("set", []), ("set_global_config", []), ("sorted", []), ("str", []), ("warn", []), ("zip", [])]

/-- `appletree/contexts/__init__.py` (lines 1-2). -/
def appletree_contexts : Mod where
  parent := (some ("appletree", "contexts"))
  body := [
    .fromImport "appletree.contexts" "er_only" "er_only" (some "appletree.contexts.er_only"),
    .star "appletree.contexts.er_only"]
  later := []

/-- `appletree/contexts/er_only.py` (lines 1-20). -/
def appletree_contexts_er_only : Mod where
  parent := (some ("appletree.contexts", "er_only"))
  body := [
    .fromImport "appletree.context" "Context" "Context" none,
    .fromImport "appletree.utils" "get_file_path" "get_file_path" none,
    .use "Context" [],
    .define "ContextRn220" false,
    .define "ContextRn220Ar37" false]
  later := [("get_file_path", []), ("super", [])]

/-- `appletree/hist.py` (lines 1-61). -/
def appletree_hist : Mod where
  parent := (some ("appletree", "hist"))
  body := [
    .external "jnp",
    .external "jit",
    .external "vmap",
    .fromImport "appletree.utils" "exporter" "exporter" none,
    .use "exporter" [],
    .exporter false,
    .use "export" [],
    .use "jit" [],
    .define "make_hist_mesh_grid" true,
    .define "make_hist_irreg_bin_1d" true,
    .define "make_hist_irreg_bin_2d" true]
  later := [("jnp", ["histogramdd"]), ("jnp", ["searchsorted"]), ("jnp", ["stack"]), ("jnp", ["zeros"]), ("len", []), ("tuple",
    []), ("vmap", [])]

/-- `appletree/interpolation.py` (lines 1-434). -/
def appletree_interpolation : Mod where
  parent := (some ("appletree", "interpolation"))
  body := [
    .external "partial",
    .external "jnp",
    .external "jit",
    .external "lax",
    .fromImport "appletree.utils" "exporter" "exporter" none,
    .use "exporter" [],
    .exporter false,
    .use "jnp" ["finfo"],
    .use "jnp" ["float32"],
    .define "FLOAT_POS_MIN" false,
    .define "FLOAT_POS_MAX" false,
    .use "jit" [],
    .define "_L2_dist2" false,
    .use "export" [],
    .use "partial" [],
    .define "map_interpolator_knn" true,
    .define "curve_interpolator" true,
    .define "map_interpolator_regular_binning_1d" true,
    .define "map_interpolator_regular_binning_2d" true,
    .define "map_interpolator_regular_binning_3d" true,
    .define "map_interpolator_regular_binning_bilinear_2d" true,
    .define "map_interpolator_regular_binning_trilinear_3d" true,
    .define "find_nearest_indices" false,
    .define "map_interpolator_linear_1d" true,
    .define "map_interpolator_nearest_neighbor_1d" true,
    .define "map_interpolator_regular_binning_nearest_neighbor_2d" true,
    .define "map_interpolator_regular_binning_nearest_neighbor_3d" true]
  later := [("FLOAT_POS_MAX", []), ("FLOAT_POS_MIN", []), ("_L2_dist2", []), ("curve_interpolator", []), ("find_nearest_indices",
    []), ("float", []), ("int", []), ("jnp", ["abs"]), ("jnp", ["argmin"]), ("jnp", ["asarray"]), ("jnp", ["clip"]), ("jnp",
    ["expand_dims"]), ("jnp", ["finfo"]), ("jnp", ["float32"]), ("jnp", ["floor"]), ("jnp", ["interp"]), ("jnp", ["linspace"]),
    ("jnp", ["newaxis"]), ("jnp", ["searchsorted"]), ("jnp", ["shape"]), ("jnp", ["sqrt"]), ("jnp", ["sum"]), ("jnp", ["take"]),
    ("jnp", ["where"]), ("lax", ["top_k"]), ("len", [])]

/-- `appletree/likelihood.py` (lines 1-599). -/
def appletree_likelihood : Mod where
  parent := (some ("appletree", "likelihood"))
  body := [
    .external "os",
    .external "warn",
    .external "Type",
    .external "Dict",
    .external "Set",
    .external "Optional",
    .external "cast",
    .external "inspect",
    .external "deepcopy",
    .external "np",
    .external "norm",
    .external "deterministic_hash",
    .fromImport "appletree" "utils" "utils" (some "appletree.utils"),
    .fromImport "appletree" "randgen" "randgen" (some "appletree.randgen"),
    .fromImport "appletree.hist" "make_hist_mesh_grid" "make_hist_mesh_grid" none,
    .fromImport "appletree.hist" "make_hist_irreg_bin_1d" "make_hist_irreg_bin_1d" none,
    .fromImport "appletree.hist" "make_hist_irreg_bin_2d" "make_hist_irreg_bin_2d" none,
    .fromImport "appletree.utils" "get_file_path" "get_file_path" none,
    .fromImport "appletree.utils" "load_data" "load_data" none,
    .fromImport "appletree.utils" "get_equiprob_bins_1d" "get_equiprob_bins_1d" none,
    .fromImport "appletree.utils" "get_equiprob_bins_2d" "get_equiprob_bins_2d" none,
    .fromImport "appletree.utils" "calculate_sha256" "calculate_sha256" none,
    .fromImport "appletree.component" "Component" "Component" none,
    .fromImport "appletree.component" "ComponentSim" "ComponentSim" none,
    .fromImport "appletree.component" "ComponentFixed" "ComponentFixed" none,
    .fromImport "appletree.randgen" "TwoHalfNorm" "TwoHalfNorm" none,
    .fromImport "appletree.randgen" "BandTwoHalfNorm" "BandTwoHalfNorm" none,
    .define "need_replacing_alias" false,
    .use "Optional" [],
    .use "str" [],
    .use "Type" [],
    .use "Component" [],
    .use "need_replacing_alias" [],
    .use "bool" [],
    .use "property" [],
    .define "Likelihood" false,
    .use "Likelihood" [],
    .define "LikelihoodLit" false]
  later := [("AssertionError", []), ("BandTwoHalfNorm", []), ("Component", []), ("ComponentFixed", []), ("ComponentSim", []),
    ("Dict", []), ("NotImplementedError", []), ("Optional", []), ("RuntimeError", []), ("Set", []), ("TwoHalfNorm", ["logpdf"]),
    ("Type", []), ("TypeError", []), ("ValueError", []), ("all", []), ("bool", []), ("calculate_sha256", []), ("cast", []),
    ("deepcopy", []), ("deterministic_hash", []), ("dict", []), ("enumerate", []), ("float", []), ("get_equiprob_bins_1d", []),
    ("get_equiprob_bins_2d", []), ("get_file_path", []), ("inspect", ["signature"]), ("int", []), ("isinstance", []), ("len",
    []), ("list", []), ("load_data", []), ("make_hist_irreg_bin_1d", []), ("make_hist_irreg_bin_2d", []), ("make_hist_mesh_grid",
    []), ("need_replacing_alias", []), ("norm", ["logpdf"]), ("np", ["any"]), ("np", ["array"]), ("np", ["hstack"]), ("np",
    ["inf"]), ("np", ["isinf"]), ("np", ["isnan"]), ("np", ["linspace"]), ("np", ["log"]), ("np", ["ones"]), ("np", ["sum"]),
    ("np", ["zeros_like"]), ("os", ["path", "basename"]), ("print", []), ("property", []), ("randgen", ["get_key"]), ("set", []),
    ("setattr", []), ("str", []), ("super", []), ("tuple", []), ("utils", ["FULL_PATH_LINEAGE"]), ("warn", []), ("zip", [])]

/-- `appletree/parameter.py` (lines 1-258). -/
def appletree_parameter : Mod where
  parent := (some ("appletree", "parameter"))
  body := [
    .external "copy",
    .external "json",
    .external "np",
    .fromImport "appletree.randgen" "TwoHalfNorm" "TwoHalfNorm" none,
    .fromImport "appletree.utils" "errors_to_two_half_norm_sigmas" "errors_to_two_half_norm_sigmas" none,
    .use "property" [],
    .define "Parameter" false]
  later := [("KeyError", []), ("RuntimeError", []), ("TwoHalfNorm", ["logpdf"]), ("TwoHalfNorm", ["rvs"]), ("ValueError", []),
    ("copy", ["deepcopy"]), ("dict", []), ("errors_to_two_half_norm_sigmas", []), ("float", []), ("int", []), ("isinstance", []),
    ("json", ["load"]), ("len", []), ("list", []), ("np", ["array"]), ("np", ["clip"]), ("np", ["inf"]), ("np", ["random",
    "normal"]), ("np", ["random", "seed"]), ("np", ["random", "uniform"]), ("open", []), ("property", []), ("set", []),
    ("sorted", []), ("str", []), ("zip", [])]

/-- `appletree/plot.py` (lines 1-1014). -/
def appletree_plot : Mod where
  parent := (some ("appletree", "plot"))
  body := [
    .external "os",
    .external "warn",
    .external "json",
    .external "np",
    .external "norm",
    .external "h5py",
    .external "emcee",
    .external "corner",
    .external "matplotlib",
    .external "cm",
    .external "plt",
    .fromImport "appletree.utils" "errors_to_two_half_norm_sigmas" "errors_to_two_half_norm_sigmas" none,
    .fromImport "appletree.randgen" "TwoHalfNorm" "TwoHalfNorm" none,
    .fromImport "appletree.config" "Map" "Map" none,
    .fromImport "appletree.config" "SigmaMap" "SigmaMap" none,
    .fromImport "appletree.component" "ComponentSim" "ComponentSim" none,
    .use "staticmethod" [],
    .define "Plotter" false,
    .define "_collect_maps" false,
    .define "_regbin_edges_centers" false,
    .define "_collapse_regbin_map" false,
    .define "_plot_map_1d_point" false,
    .define "_plot_map_1d_regbin" false,
    .define "_plot_map_2d_regbin" false,
    .define "_plot_sigma_map_1d_point" false,
    .define "_plot_sigma_map_1d_regbin" false,
    .define "_lookup_collapse" false,
    .define "_plot_config" false,
    .define "_save_figure" false,
    .define "plot_maps" false,
    .define "_plot_regular_map" false,
    .define "_plot_sigma_map" false]
  later := [("ComponentSim", []), ("Map", []), ("SigmaMap", []), ("TwoHalfNorm", ["logpdf"]), ("ValueError", []),
    ("_collapse_regbin_map", []), ("_collect_maps", []), ("_lookup_collapse", []), ("_plot_config", []), ("_plot_map_1d_point",
    []), ("_plot_map_1d_regbin", []), ("_plot_map_2d_regbin", []), ("_plot_regular_map", []), ("_plot_sigma_map", []),
    ("_plot_sigma_map_1d_point", []), ("_plot_sigma_map_1d_regbin", []), ("_regbin_edges_centers", []), ("_save_figure", []),
    ("bool", []), ("cm", ["ScalarMappable"]), ("cm", ["coolwarm"]), ("corner", ["corner"]), ("emcee", ["backends",
    "HDFBackend"]), ("enumerate", []), ("errors_to_two_half_norm_sigmas", []), ("h5py", ["File"]), ("int", []), ("isinstance",
    []), ("json", ["loads"]), ("len", []), ("list", []), ("matplotlib", ["colors", "Normalize"]), ("norm", ["cdf"]), ("np",
    ["all"]), ("np", ["any"]), ("np", ["arange"]), ("np", ["argmax"]), ("np", ["argmin"]), ("np", ["array"]), ("np",
    ["atleast_1d"]), ("np", ["ceil"]), ("np", ["concatenate"]), ("np", ["conjugate"]), ("np", ["corrcoef"]), ("np", ["cumsum"]),
    ("np", ["empty"]), ("np", ["exp"]), ("np", ["fft", "fft"]), ("np", ["fft", "ifft"]), ("np", ["full_like"]), ("np",
    ["geomspace"]), ("np", ["interp"]), ("np", ["isfinite"]), ("np", ["linspace"]), ("np", ["log10"]), ("np", ["mean"]), ("np",
    ["ones"]), ("np", ["pi"]), ("np", ["sqrt"]), ("np", ["sum"]), ("np", ["zeros"]), ("os", ["makedirs"]), ("os", ["path",
    "basename"]), ("os", ["path", "join"]), ("os", ["path", "splitext"]), ("plt", ["figure"]), ("plt", ["rcParams"]), ("plt",
    ["subplots"]), ("plt", ["tight_layout"]), ("range", []), ("slice", []), ("staticmethod", []), ("str", []), ("tuple", []),
    ("warn", [])]

/-- `appletree/plugin.py` (lines 1-122). -/
def appletree_plugin : Mod where
  parent := (some ("appletree", "plugin"))
  body := [
    .external "inspect",
    .external "deepcopy",
    .external "List",
    .external "Tuple",
    .external "Optional",
    .external "immutabledict",
    .external "deterministic_hash",
    .fromImport "appletree" "utils" "utils" (some "appletree.utils"),
    .fromImport "appletree.utils" "exporter" "exporter" none,
    .use "exporter" [],
    .exporter false,
    .use "List" [],
    .use "str" [],
    .use "Tuple" [],
    .use "immutabledict" [],
    .use "Optional" [],
    .use "property" [],
    .use "export" [],
    .define "Plugin" true,
    .define "add_plugin_extensions" true,
    .define "_add_plugin_extension" true]
  later := [("List", []), ("NotImplementedError", []), ("Optional", []), ("Plugin", []), ("Tuple", []), ("ValueError", []),
    ("deepcopy", []), ("deterministic_hash", []), ("dict", []), ("enumerate", []), ("immutabledict", []), ("inspect",
    ["getfullargspec"]), ("property", []), ("setattr", []), ("str", []), ("utils", ["_add_extension"]), ("utils",
    ["add_extensions"]), ("zip", [])]

/-- `appletree/plugins/__init__.py` (lines 1-23). -/
def appletree_plugins : Mod where
  parent := (some ("appletree", "plugins"))
  body := [
    .fromImport "appletree.plugins" "common" "common" (some "appletree.plugins.common"),
    .star "appletree.plugins.common",
    .fromImport "appletree.plugins" "er_microphys" "er_microphys" (some "appletree.plugins.er_microphys"),
    .star "appletree.plugins.er_microphys",
    .fromImport "appletree.plugins" "lyqy" "lyqy" (some "appletree.plugins.lyqy"),
    .star "appletree.plugins.lyqy",
    .fromImport "appletree.plugins" "detector" "detector" (some "appletree.plugins.detector"),
    .star "appletree.plugins.detector",
    .fromImport "appletree.plugins" "reconstruction" "reconstruction" (some "appletree.plugins.reconstruction"),
    .star "appletree.plugins.reconstruction",
    .fromImport "appletree.plugins" "efficiency" "efficiency" (some "appletree.plugins.efficiency"),
    .star "appletree.plugins.efficiency",
    .fromImport "appletree.plugins" "nestv2" "nestv2" (some "appletree.plugins.nestv2"),
    .star "appletree.plugins.nestv2",
    .fromImport "appletree.plugins" "er_nestv2" "er_nestv2" (some "appletree.plugins.er_nestv2"),
    .star "appletree.plugins.er_nestv2"]
  later := []

/-- `appletree/plugins/common.py` (lines 1-114). -/
def appletree_plugins_common : Mod where
  parent := (some ("appletree.plugins", "common"))
  body := [
    .external "partial",
    .external "jit",
    .external "jnp",
    .fromImport "appletree" "randgen" "randgen" (some "appletree.randgen"),
    .fromImport "appletree.plugin" "Plugin" "Plugin" none,
    .fromImport "appletree.config" "takes_config" "takes_config" none,
    .fromImport "appletree.config" "Constant" "Constant" none,
    .fromImport "appletree.config" "Map" "Map" none,
    .fromImport "appletree.utils" "exporter" "exporter" none,
    .use "exporter" [],
    .exporter false,
    .use "Plugin" [],
    .use "partial" [],
    .use "jit" [],
    .use "export" [],
    .use "takes_config" [],
    .use "Constant" [],
    .use "float" [],
    .define "UniformEnergySpectra" true,
    .use "Map" [],
    .define "FixedEnergySpectra" true,
    .define "MonoEnergySpectra" true,
    .define "PositionSpectra" true]
  later := [("jit", []), ("jnp", ["cos"]), ("jnp", ["full"]), ("jnp", ["pi"]), ("jnp", ["sin"]), ("jnp", ["sqrt"]), ("partial",
    []), ("randgen", ["uniform"])]

/-- `appletree/plugins/detector.py` (lines 1-166). -/
def appletree_plugins_detector : Mod where
  parent := (some ("appletree.plugins", "detector"))
  body := [
    .external "jnp",
    .external "jit",
    .external "partial",
    .fromImport "appletree" "randgen" "randgen" (some "appletree.randgen"),
    .fromImport "appletree.plugin" "Plugin" "Plugin" none,
    .fromImport "appletree.config" "takes_config" "takes_config" none,
    .fromImport "appletree.config" "Constant" "Constant" none,
    .fromImport "appletree.config" "Map" "Map" none,
    .fromImport "appletree.utils" "exporter" "exporter" none,
    .use "exporter" [],
    .exporter false,
    .use "Plugin" [],
    .use "partial" [],
    .use "jit" [],
    .use "export" [],
    .use "takes_config" [],
    .use "Constant" [],
    .use "bool" [],
    .use "Map" [],
    .define "EField" true,
    .define "S1LCE" true,
    .define "S2LCE" true,
    .define "PhotonDetection" true,
    .define "S1PE" true,
    .define "DriftLoss" true,
    .define "ElectronDrifted" true,
    .define "S2PE" true]
  later := [("jit", []), ("jnp", ["abs"]), ("jnp", ["clip"]), ("jnp", ["exp"]), ("jnp", ["ones"]), ("jnp", ["shape"]), ("jnp",
    ["sqrt"]), ("jnp", ["stack"]), ("partial", []), ("randgen", ["FLOAT"]), ("randgen", ["binomial"]), ("randgen", ["poisson"]),
    ("randgen", ["uniform"])]

/-- `appletree/plugins/efficiency.py` (lines 1-94). -/
def appletree_plugins_efficiency : Mod where
  parent := (some ("appletree.plugins", "efficiency"))
  body := [
    .external "jnp",
    .external "jit",
    .external "partial",
    .fromImport "appletree.plugin" "Plugin" "Plugin" none,
    .fromImport "appletree.config" "takes_config" "takes_config" none,
    .fromImport "appletree.config" "SigmaMap" "SigmaMap" none,
    .fromImport "appletree.utils" "exporter" "exporter" none,
    .use "exporter" [],
    .exporter false,
    .use "Plugin" [],
    .use "partial" [],
    .use "jit" [],
    .use "export" [],
    .define "S2Threshold" true,
    .use "takes_config" [],
    .use "SigmaMap" [],
    .define "S1ReconEff" true,
    .define "S1CutAccept" true,
    .define "S2CutAccept" true,
    .define "Eff" true]
  later := [("jit", []), ("jnp", ["clip"]), ("jnp", ["where"]), ("partial", [])]

/-- `appletree/plugins/er_microphys.py` (lines 1-109). -/
def appletree_plugins_er_microphys : Mod where
  parent := (some ("appletree.plugins", "er_microphys"))
  body := [
    .external "jnp",
    .external "jit",
    .external "partial",
    .fromImport "appletree" "randgen" "randgen" (some "appletree.randgen"),
    .fromImport "appletree.plugin" "Plugin" "Plugin" none,
    .fromImport "appletree.utils" "exporter" "exporter" none,
    .use "exporter" [],
    .exporter false,
    .use "Plugin" [],
    .use "partial" [],
    .use "jit" [],
    .use "export" [],
    .define "Quanta" true,
    .define "IonizationER" true,
    .define "mTI" true,
    .define "RecombFluct" true,
    .define "TrueRecombER" true,
    .define "RecombinationER" true]
  later := [("int", []), ("jit", []), ("jnp", ["clip"]), ("jnp", ["exp"]), ("jnp", ["log"]), ("jnp", ["sqrt"]), ("jnp",
    ["where"]), ("partial", []), ("randgen", ["binomial"]), ("randgen", ["truncate_normal"])]

/-- `appletree/plugins/er_nestv2.py` (lines 1-257). -/
def appletree_plugins_er_nestv2 : Mod where
  parent := (some ("appletree.plugins", "er_nestv2"))
  body := [
    .external "jnp",
    .external "jsp",
    .external "jit",
    .external "partial",
    .fromImport "appletree" "randgen" "randgen" (some "appletree.randgen"),
    .fromImport "appletree.plugin" "Plugin" "Plugin" none,
    .fromImport "appletree.utils" "exporter" "exporter" none,
    .use "exporter" [],
    .exporter false,
    .use "Plugin" [],
    .use "partial" [],
    .use "jit" [],
    .use "export" [],
    .define "ExcitonIonRatioER" true,
    .define "QyER" true,
    .define "LyER" true,
    .define "MeanNphNeER" true,
    .define "MeanExcitonIonER" true,
    .define "FanoFactorER" true,
    .define "TrueExcitonIonER" true,
    .define "OmegaER" true,
    .define "TruePhotonElectronER" true,
    .define "BandEnergiesClipEff" true]
  later := [("int", []), ("jit", []), ("jnp", ["abs"]), ("jnp", ["clip"]), ("jnp", ["exp"]), ("jnp", ["inf"]), ("jnp", ["log"]),
    ("jnp", ["log10"]), ("jnp", ["maximum"]), ("jnp", ["ones"]), ("jnp", ["pi"]), ("jnp", ["power"]), ("jnp", ["shape"]), ("jnp",
    ["sign"]), ("jnp", ["sqrt"]), ("jsp", ["special", "erf"]), ("len", []), ("partial", []), ("randgen", ["binomial"]),
    ("randgen", ["normal"]), ("randgen", ["truncate_normal"])]

/-- `appletree/plugins/lyqy.py` (lines 1-74). -/
def appletree_plugins_lyqy : Mod where
  parent := (some ("appletree.plugins", "lyqy"))
  body := [
    .external "jnp",
    .external "jit",
    .external "partial",
    .fromImport "appletree" "randgen" "randgen" (some "appletree.randgen"),
    .fromImport "appletree.plugin" "Plugin" "Plugin" none,
    .fromImport "appletree.config" "takes_config" "takes_config" none,
    .fromImport "appletree.config" "Map" "Map" none,
    .fromImport "appletree.utils" "exporter" "exporter" none,
    .use "exporter" [],
    .exporter false,
    .use "Plugin" [],
    .use "partial" [],
    .use "jit" [],
    .use "export" [],
    .use "takes_config" [],
    .use "Map" [],
    .define "LightYield" true,
    .define "NumberPhoton" true,
    .define "ChargeYield" true,
    .define "NumberElectron" true]
  later := [("jit", []), ("jnp", ["clip"]), ("jnp", ["inf"]), ("partial", []), ("randgen", ["poisson"])]

/-- `appletree/plugins/nestv2.py` (lines 1-282). -/
def appletree_plugins_nestv2 : Mod where
  parent := (some ("appletree.plugins", "nestv2"))
  body := [
    .external "jnp",
    .external "jit",
    .external "partial",
    .fromImport "appletree" "randgen" "randgen" (some "appletree.randgen"),
    .fromImport "appletree.plugin" "Plugin" "Plugin" none,
    .fromImport "appletree.config" "takes_config" "takes_config" none,
    .fromImport "appletree.config" "Constant" "Constant" none,
    .fromImport "appletree.config" "ConstantSet" "ConstantSet" none,
    .fromImport "appletree.utils" "exporter" "exporter" none,
    .use "exporter" [],
    .exporter false,
    .use "Plugin" [],
    .use "partial" [],
    .use "jit" [],
    .use "export" [],
    .use "takes_config" [],
    .use "ConstantSet" [],
    .define "MonoEnergiesSpectra" true,
    .use "Constant" [],
    .use "float" [],
    .define "UniformEnergiesSpectra" true,
    .define "TotalQuanta" true,
    .define "ThomasImelBox" true,
    .define "QyNR" true,
    .define "LyNR" true,
    .define "MeanNphNe" true,
    .define "MeanExcitonIon" true,
    .define "TrueExcitonIonNR" true,
    .define "OmegaNR" true,
    .define "TruePhotonElectronNR" true,
    .define "MonoEnergiesClipEff" true,
    .define "BandEnergiesClipEff" true]
  later := [("float", []), ("int", []), ("jit", []), ("jnp", ["broadcast_to"]), ("jnp", ["clip"]), ("jnp", ["exp"]), ("jnp",
    ["full"]), ("jnp", ["inf"]), ("jnp", ["maximum"]), ("jnp", ["ones"]), ("jnp", ["pi"]), ("jnp", ["shape"]), ("jnp", ["sqrt"]),
    ("jnp", ["where"]), ("len", []), ("partial", []), ("randgen", ["skewnormal"]), ("randgen", ["truncate_normal"]), ("randgen",
    ["twohalfnorm"]), ("randgen", ["uniform"])]

/-- `appletree/plugins/reconstruction.py` (lines 1-154). -/
def appletree_plugins_reconstruction : Mod where
  parent := (some ("appletree.plugins", "reconstruction"))
  body := [
    .external "jit",
    .external "partial",
    .external "jnp",
    .fromImport "appletree" "randgen" "randgen" (some "appletree.randgen"),
    .fromImport "appletree.config" "takes_config" "takes_config" none,
    .fromImport "appletree.config" "Map" "Map" none,
    .fromImport "appletree.plugin" "Plugin" "Plugin" none,
    .fromImport "appletree.utils" "exporter" "exporter" none,
    .use "exporter" [],
    .exporter false,
    .use "Plugin" [],
    .use "partial" [],
    .use "jit" [],
    .use "export" [],
    .use "takes_config" [],
    .use "Map" [],
    .define "PositionRecon" true,
    .define "S1" true,
    .define "S2" true,
    .define "S1Correction" true,
    .define "S2Correction" true,
    .define "cS1" true,
    .define "cS2" true]
  later := [("jit", []), ("jnp", ["sqrt"]), ("jnp", ["stack"]), ("jnp", ["zeros_like"]), ("partial", []), ("randgen", ["normal"])]

/-- `appletree/profiler.py` (lines 1-419). -/
def appletree_profiler : Mod where
  parent := (some ("appletree", "profiler"))
  body := [
    .external "time",
    .external "Dict",
    .external "List",
    .external "Optional",
    .external "Any",
    .external "np",
    .importAs "appletree" "apt",
    .fromImport "appletree" "randgen" "randgen" (some "appletree.randgen"),
    .fromImport "appletree.component" "ComponentSim" "ComponentSim" none,
    .fromImport "appletree.utils" "exporter" "exporter" none,
    .use "exporter" [],
    .exporter false,
    .use "export" [],
    .use "Dict" [],
    .use "str" [],
    .use "float" [],
    .use "Any" [],
    .use "int" [],
    .define "profile_plugin" true,
    .use "ComponentSim" [],
    .use "bool" [],
    .use "List" [],
    .define "profile_component" true,
    .use "Optional" [],
    .define "profile_context" true,
    .define "print_profile_summary" true,
    .define "profile_full_simulation" true,
    .define "compare_plugin_vs_full" true,
    .define "print_component_code" true,
    .define "print_worksheet" true]
  later := [("Any", []), ("ComponentSim", []), ("Dict", []), ("RuntimeError", []), ("enumerate", []), ("hasattr", []),
    ("isinstance", []), ("len", []), ("np", ["mean"]), ("np", ["std"]), ("print", []), ("print_profile_summary", []),
    ("profile_component", []), ("profile_context", []), ("profile_full_simulation", []), ("profile_plugin", []), ("randgen",
    ["get_key"]), ("range", []), ("str", []), ("sum", []), ("time", ["perf_counter"])]

/-- `appletree/randgen.py` (lines 1-647). -/
def appletree_randgen : Mod where
  parent := (some ("appletree", "randgen"))
  body := [
    .external "os",
    .external "warn",
    .external "partial",
    .external "time",
    .external "jax",
    .external "jnp",
    .external "np",
    .external "random",
    .external "lax",
    .external "jit",
    .external "vmap",
    .external "interp1d",
    .fromImport "appletree.utils" "exporter" "exporter" none,
    .use "exporter" [],
    .exporter false,
    .define "HYBRID_BERNOULLI_THRESHOLD" false,
    .use "os" ["environ", "get"],
    .define "USE_HYBRID" false,
    .use "USE_HYBRID" [],
    .use "print" [],
    .use "HYBRID_BERNOULLI_THRESHOLD" [],
    .use "jax" ["config", "x64_enabled"],
    .use "np" ["int64"],
    .define "INT" false,
    .use "np" ["float64"],
    .define "FLOAT" false,
    .use "np" ["int32"],
    .define "INT" false,
    .use "np" ["float32"],
    .define "FLOAT" false,
    .use "export" [],
    .define "get_key" true,
    .use "partial" [],
    .use "jit" [],
    .define "uniform" true,
    .define "poisson" true,
    .define "gamma" true,
    .define "normal" true,
    .define "truncate_normal" true,
    .define "skewnormal" true,
    .define "bernoulli" true,
    .define "binomial_hybrid" true,
    .define "binomial" true,
    .use "hasattr" [],
    .use "random" [],
    .define "binomial" false,
    .external "_binomial_dispatch_numpyro",
    .use "warn" [],
    .define "ALWAYS_USE_NORMAL_APPROX_IN_BINOM" false,
    .define "ALWAYS_USE_NORMAL_APPROX_IN_BINOM" false,
    .use "ALWAYS_USE_NORMAL_APPROX_IN_BINOM" [],
    .define "binomial" false,
    .define "negative_binomial" true,
    .define "generalized_poisson" true,
    .define "uniform_key_vectorized" true,
    .use "staticmethod" [],
    .define "TwoHalfNorm" false,
    .define "BandTwoHalfNorm" false,
    .define "twohalfnorm" true]
  later := [("FLOAT", []), ("INT", []), ("TwoHalfNorm", ["logpdf"]), ("_binomial_dispatch_numpyro", []), ("binomial_hybrid", []),
    ("gamma", []), ("int", []), ("interp1d", []), ("jax", ["config", "x64_enabled"]), ("jax", ["default_backend"]), ("jax",
    ["lax", "while_loop"]), ("jax", ["random", "uniform"]), ("jnp", ["abs"]), ("jnp", ["any"]), ("jnp", ["arange"]), ("jnp",
    ["broadcast_shapes"]), ("jnp", ["broadcast_to"]), ("jnp", ["clip"]), ("jnp", ["copy"]), ("jnp", ["reshape"]), ("jnp",
    ["round"]), ("jnp", ["shape"]), ("jnp", ["size"]), ("jnp", ["sqrt"]), ("jnp", ["sum"]), ("jnp", ["where"]), ("lax",
    ["broadcast_shapes"]), ("lax", ["cond"]), ("lax", ["map"]), ("normal", []), ("np", ["abs"]), ("np", ["all"]), ("np",
    ["float32"]), ("np", ["float64"]), ("np", ["inf"]), ("np", ["int32"]), ("np", ["int64"]), ("np", ["isnan"]), ("np", ["log"]),
    ("np", ["nan"]), ("np", ["pi"]), ("np", ["random", "normal"]), ("np", ["random", "uniform"]), ("np", ["sqrt"]), ("np",
    ["where"]), ("poisson", []), ("random", ["PRNGKey"]), ("random", ["bernoulli"]), ("random", ["binomial"]), ("random",
    ["gamma"]), ("random", ["normal"]), ("random", ["poisson"]), ("random", ["split"]), ("random", ["uniform"]), ("staticmethod",
    []), ("time", []), ("vmap", [])]

/-- `appletree/share.py` (lines 1-71). -/
def appletree_share : Mod where
  parent := (some ("appletree", "share"))
  body := [
    .external "json",
    .use "dict" [],
    .define "RecordingDict" false,
    .define "StaticValueDict" false,
    .use "RecordingDict" [],
    .define "_cached_configs" false,
    .use "StaticValueDict" [],
    .define "_cached_functions" false,
    .define "clear_cache" false,
    .define "set_global_config" false]
  later := [("NotImplementedError", []), ("RuntimeError", []), ("_cached_configs", ["clear"]), ("_cached_configs", ["update"]),
    ("_cached_functions", ["clear"]), ("dict", []), ("float", []), ("int", []), ("isinstance", []), ("json", ["dumps"]), ("list",
    []), ("set", []), ("str", []), ("super", [])]

/-- `appletree/utils.py` (lines 1-675). -/
def appletree_utils : Mod where
  parent := (some ("appletree", "utils"))
  body := [
    .external "os",
    .external "json",
    .external "warn",
    .external "hashlib",
    .external "time",
    .external "_files",
    .external "jax",
    .external "np",
    .external "pd",
    .external "mpl",
    .external "Rectangle",
    .external "plt",
    .external "erf",
    .external "root",
    .external "chi2",
    .external "GOFevaluation",
    .fromImport "appletree.share" "_cached_configs" "_cached_configs" none,
    .define "NT_AUX_INSTALLED" false,
    .external "ntauxfiles",
    .define "NT_AUX_INSTALLED" false,
    .use "ImportError" [],
    .define "SKIP_MONGO_DB" false,
    .use "dict" [],
    .define "JSON_OPTIONS" false,
    .define "FULL_PATH_LINEAGE" false,
    .define "exporter" false,
    .use "exporter" [],
    .exporter true,
    .use "export" [],
    .define "use_xenon_plot_style" true,
    .use "str" [],
    .define "load_data" true,
    .define "load_json" true,
    .define "_get_abspath" true,
    .define "_package_path" false,
    .define "get_file_path" true,
    .define "calculate_sha256" true,
    .define "dump_lineage" true,
    .define "timeit" true,
    .define "get_platform" true,
    .define "set_gpu_memory_usage" true,
    .use "np" ["inf"],
    .use "np" [],
    .define "get_equiprob_bins_1d" true,
    .define "get_equiprob_bins_2d" true,
    .define "plot_irreg_histogram_2d" true,
    .define "add_spaces" true,
    .define "tree_to_svg" true,
    .use "list" [],
    .define "add_deps_to_graph_tree" true,
    .define "add_plugins_to_graph_tree" true,
    .define "add_extensions" true,
    .define "_add_extension" false,
    .define "integrate_midpoint" false,
    .define "cumulative_integrate_midpoint" false,
    .define "check_unused_configs" true,
    .define "errors_to_two_half_norm_sigmas" true]
  later := [("AttributeError", []), ("FileNotFoundError", []), ("GOFevaluation", ["utils", "get_equiprobable_binning"]),
    ("JSON_OPTIONS", []), ("NT_AUX_INSTALLED", []), ("NameError", []), ("Rectangle", []), ("RuntimeError", []), ("SKIP_MONGO_DB",
    []), ("ValueError", []), ("_add_extension", []), ("_cached_configs", ["accessed_keys"]), ("_cached_configs", ["keys"]),
    ("_files", []), ("_get_abspath", []), ("_package_path", []), ("add_deps_to_graph_tree", []), ("add_plugins_to_graph_tree",
    []), ("add_spaces", []), ("chi2", ["cdf"]), ("cumulative_integrate_midpoint", []), ("dir", []), ("enumerate", []), ("erf",
    []), ("get_file_path", []), ("getattr", []), ("hasattr", []), ("hashlib", ["sha256"]), ("int", []), ("isinstance", []),
    ("issubclass", []), ("iter", []), ("jax", ["default_backend"]), ("json", ["dumps"]), ("json", ["load"]), ("mpl", ["cm",
    "RdBu_r"]), ("mpl", ["cm", "ScalarMappable"]), ("mpl", ["colors", "Normalize"]), ("np", ["array"]), ("np", ["asarray"]),
    ("np", ["clip"]), ("np", ["cumsum"]), ("np", ["inf"]), ("np", ["max"]), ("np", ["min"]), ("np", ["sqrt"]), ("ntauxfiles",
    ["get_abspath"]), ("ntauxfiles", ["list_private_files"]), ("open", []), ("os", ["environ"]), ("os", ["path", "exists"]),
    ("os", ["path", "isfile"]), ("os", ["path", "join"]), ("os", ["remove"]), ("pd", ["read_csv"]), ("pd", ["read_pickle"]),
    ("plt", ["gcf"]), ("plt", ["rcParams", "update"]), ("plt", ["subplot"]), ("print", []), ("root", []), ("set", []),
    ("setattr", []), ("str", []), ("time", []), ("type", []), ("warn", [])]

/-- The names of python itself that the package uses. -/
def builtinNames : List String := ["AssertionError", "AttributeError", "BaseException", "Exception", "FileNotFoundError",
    "ImportError", "KeyError", "NameError", "NotImplementedError", "RuntimeError", "TypeError", "ValueError", "all", "any",
    "bool", "classmethod", "dict", "dir", "enumerate", "eval", "exec", "float", "getattr", "hasattr", "int", "isinstance",
    "issubclass", "iter", "len", "list", "open", "print", "property", "range", "set", "setattr", "slice", "sorted",
    "staticmethod", "str", "sum", "super", "tuple", "type", "zip"]

/-- The package: all modules under /repo/appletree. -/
def package : Program := [("appletree", appletree), ("appletree.component", appletree_component), ("appletree.components",
    appletree_components), ("appletree.components.ac", appletree_components_ac), ("appletree.components.er",
    appletree_components_er), ("appletree.components.nr", appletree_components_nr), ("appletree.components.yields",
    appletree_components_yields), ("appletree.config", appletree_config), ("appletree.context", appletree_context),
    ("appletree.contexts", appletree_contexts), ("appletree.contexts.er_only", appletree_contexts_er_only), ("appletree.hist",
    appletree_hist), ("appletree.interpolation", appletree_interpolation), ("appletree.likelihood", appletree_likelihood),
    ("appletree.parameter", appletree_parameter), ("appletree.plot", appletree_plot), ("appletree.plugin", appletree_plugin),
    ("appletree.plugins", appletree_plugins), ("appletree.plugins.common", appletree_plugins_common),
    ("appletree.plugins.detector", appletree_plugins_detector), ("appletree.plugins.efficiency", appletree_plugins_efficiency),
    ("appletree.plugins.er_microphys", appletree_plugins_er_microphys), ("appletree.plugins.er_nestv2",
    appletree_plugins_er_nestv2), ("appletree.plugins.lyqy", appletree_plugins_lyqy), ("appletree.plugins.nestv2",
    appletree_plugins_nestv2), ("appletree.plugins.reconstruction", appletree_plugins_reconstruction), ("appletree.profiler",
    appletree_profiler), ("appletree.randgen", appletree_randgen), ("appletree.share", appletree_share), ("appletree.utils",
    appletree_utils)]

/-- The component classes and likelihood types named in the shipped instructions (/repo/appletree/instructs). -/
def instructComponents : List String := ["AC", "BandEnergiesYields", "ERBand", "ERPeak", "MonoEnergiesYields", "NR"]
def instructTypes : List String := ["Likelihood", "LikelihoodLit"]

/-- The modules that define component classes. -/
def componentModules : List String := ["appletree.components.ac", "appletree.components.er", "appletree.components.nr",
    "appletree.components.yields"]

/-- The plugin classes by module. -/
def pluginClasses : List (String × String) := [("appletree.plugins.common", "UniformEnergySpectra"), ("appletree.plugins.common",
    "FixedEnergySpectra"), ("appletree.plugins.common", "MonoEnergySpectra"), ("appletree.plugins.common", "PositionSpectra"),
    ("appletree.plugins.detector", "EField"), ("appletree.plugins.detector", "S1LCE"), ("appletree.plugins.detector", "S2LCE"),
    ("appletree.plugins.detector", "PhotonDetection"), ("appletree.plugins.detector", "S1PE"), ("appletree.plugins.detector",
    "DriftLoss"), ("appletree.plugins.detector", "ElectronDrifted"), ("appletree.plugins.detector", "S2PE"),
    ("appletree.plugins.efficiency", "S2Threshold"), ("appletree.plugins.efficiency", "S1ReconEff"),
    ("appletree.plugins.efficiency", "S1CutAccept"), ("appletree.plugins.efficiency", "S2CutAccept"),
    ("appletree.plugins.efficiency", "Eff"), ("appletree.plugins.er_microphys", "Quanta"), ("appletree.plugins.er_microphys",
    "IonizationER"), ("appletree.plugins.er_microphys", "mTI"), ("appletree.plugins.er_microphys", "RecombFluct"),
    ("appletree.plugins.er_microphys", "TrueRecombER"), ("appletree.plugins.er_microphys", "RecombinationER"),
    ("appletree.plugins.er_nestv2", "ExcitonIonRatioER"), ("appletree.plugins.er_nestv2", "QyER"),
    ("appletree.plugins.er_nestv2", "LyER"), ("appletree.plugins.er_nestv2", "MeanNphNeER"), ("appletree.plugins.er_nestv2",
    "MeanExcitonIonER"), ("appletree.plugins.er_nestv2", "FanoFactorER"), ("appletree.plugins.er_nestv2", "TrueExcitonIonER"),
    ("appletree.plugins.er_nestv2", "OmegaER"), ("appletree.plugins.er_nestv2", "TruePhotonElectronER"),
    ("appletree.plugins.er_nestv2", "BandEnergiesClipEff"), ("appletree.plugins.lyqy", "LightYield"), ("appletree.plugins.lyqy",
    "NumberPhoton"), ("appletree.plugins.lyqy", "ChargeYield"), ("appletree.plugins.lyqy", "NumberElectron"),
    ("appletree.plugins.nestv2", "MonoEnergiesSpectra"), ("appletree.plugins.nestv2", "UniformEnergiesSpectra"),
    ("appletree.plugins.nestv2", "TotalQuanta"), ("appletree.plugins.nestv2", "ThomasImelBox"), ("appletree.plugins.nestv2",
    "QyNR"), ("appletree.plugins.nestv2", "LyNR"), ("appletree.plugins.nestv2", "MeanNphNe"), ("appletree.plugins.nestv2",
    "MeanExcitonIon"), ("appletree.plugins.nestv2", "TrueExcitonIonNR"), ("appletree.plugins.nestv2", "OmegaNR"),
    ("appletree.plugins.nestv2", "TruePhotonElectronNR"), ("appletree.plugins.nestv2", "MonoEnergiesClipEff"),
    ("appletree.plugins.nestv2", "BandEnergiesClipEff"), ("appletree.plugins.reconstruction", "PositionRecon"),
    ("appletree.plugins.reconstruction", "S1"), ("appletree.plugins.reconstruction", "S2"), ("appletree.plugins.reconstruction",
    "S1Correction"), ("appletree.plugins.reconstruction", "S2Correction"), ("appletree.plugins.reconstruction", "cS1"),
    ("appletree.plugins.reconstruction", "cS2")]

end Verif.Names
