{
 "claims": [
  {
   "property": "C01",
   "status": "proved",
   "theorems": [
    "Verif.Props.C01_move_layer_first",
    "Verif.Props.C01_move_layer"
   ],
   "note": "Documented index range (0 <= from, to < number of layers)."
  },
  {
   "property": "C02",
   "status": "partial",
   "theorems": [
    "Verif.Props.C02_move_preserves_iff",
    "Verif.Props.C02_reorder_preserves_partial",
    "Verif.Props.C02_reorder_loses_layer"
   ],
   "note": "False in general: a negative from_index with a larger to_index drops or duplicates a layer. Exact criterion for one call, preservation for all histories that meet it, and a witness of the loss."
  },
  {
   "property": "C03",
   "status": "proved",
   "theorems": [
    "Verif.Props.C03_swap_exchanges",
    "Verif.Props.C03_swap_involutive",
    "Verif.Props.C03_swap_atomic",
    "Verif.Props.C03_move_atomic",
    "Verif.Props.C03_rename"
   ],
   "note": ""
  },
  {
   "property": "C04",
   "status": "proved",
   "theorems": [
    "Verif.Props.C04_add_layer"
   ],
   "note": ""
  },
  {
   "property": "C05",
   "status": "proved",
   "theorems": [
    "Verif.Props.C05_label_names"
   ],
   "note": "Samples whose parameters carry the default names."
  },
  {
   "property": "C06",
   "status": "proved",
   "theorems": [
    "Verif.Props.C06_labels_distinct_iff"
   ],
   "note": ""
  },
  {
   "property": "C07",
   "status": "partial",
   "theorems": [
    "Verif.Props.C07_separate_partial",
    "Verif.Props.C07_separate_iff",
    "Verif.Props.C07_separate_sample_partial",
    "Verif.Props.C07_separate_wrong"
   ],
   "note": "False for layer names containing \"thickness\" or \"roughness\" (witness). Exact criterion on the names proved."
  },
  {
   "property": "C08",
   "status": "proved",
   "theorems": [
    "Verif.Props.C08_dict_roundtrip"
   ],
   "note": ""
  },
  {
   "property": "C09",
   "status": "partial",
   "theorems": [
    "Verif.Props.C09_from_dict_sets_partial",
    "Verif.Props.C09_from_dict_appends"
   ],
   "note": "False: from_dict appends to existing layers. Proved for a structure without layers, exact result otherwise."
  },
  {
   "property": "C10",
   "status": "proved",
   "theorems": [
    "Verif.Props.C10_copy_independent",
    "Verif.Props.C10_copy_equal"
   ],
   "note": ""
  },
  {
   "property": "C11",
   "status": "proved",
   "theorems": [
    "Verif.Props.C11_parameter",
    "Verif.Props.C11_layer",
    "Verif.Props.C11_substrate",
    "Verif.Props.C11_constant_layer",
    "Verif.Props.C11_layer_regular",
    "Verif.Props.C11_constant_regular",
    "Verif.Props.C11_substrate_regular",
    "Verif.Props.C11_ambient_regular"
   ],
   "note": ""
  },
  {
   "property": "C12",
   "status": "partial",
   "theorems": [
    "Verif.Props.C12_constant_partial",
    "Verif.Props.C12_range_sld_accepted"
   ],
   "note": "False: a range for the SLD is accepted and stored as None (witness)."
  },
  {
   "property": "C13",
   "status": "partial",
   "theorems": [
    "Verif.Props.C13_add_layer_step",
    "Verif.Props.C13_single_variable_partial",
    "Verif.Props.C13_several_variable_layers"
   ],
   "note": "False: has_variable_layer only looks at the first layer (witness of several variable layers)."
  },
  {
   "property": "C14",
   "status": "partial",
   "theorems": [
    "Verif.Props.C14_in_range_partial",
    "Verif.Props.C14_constant",
    "Verif.Props.C14_bolstered_iff",
    "Verif.Props.C14_bolstered_leaves_range"
   ],
   "note": "False for bolstered sampling: a normal draw more than one span outside the range leaves it after folding (witness). Exact criterion proved; proved for uniform and logarithmic, and for bolstered with draws within 1/width standard deviations. C126 gives the exact probability of leaving the range."
  },
  {
   "property": "C15",
   "status": "proved",
   "theorems": [
    "Verif.Props.C15_count",
    "Verif.Props.C15_bolstered_symmetric"
   ],
   "note": ""
  },
  {
   "property": "C16",
   "status": "partial",
   "theorems": [
    "Verif.Props.C16_roughness_partial",
    "Verif.Props.C16_table_partial",
    "Verif.Props.C16_roughness_exceeds"
   ],
   "note": "False through C14 for bolstered draws far outside the range (witness); proved for uniform, logarithmic and bounded bolstered draws and for constants, and for all bolstered draws up to a small probability (C126_table). Real-valued roughness and thickness only."
  },
  {
   "property": "C17",
   "status": "proved",
   "theorems": [
    "Verif.Props.C17_label_table",
    "Verif.Props.C17_rejects",
    "Verif.Props.C17_returns"
   ],
   "note": "Documented sample arguments; complex thickness or roughness is not modelled."
  },
  {
   "property": "C18",
   "status": "partial",
   "theorems": [
    "Verif.Props.C18_rectangle_partial",
    "Verif.Props.C18_reversed_raises",
    "Verif.Props.C18_leaves_rectangle",
    "Verif.Props.C14_in_range_partial"
   ],
   "note": "Proved for uniform and logarithmic sampling and for bounded bolstered draws, and for all bolstered draws up to a small probability (C126_table). False for bolstered draws far outside the range (C18_leaves_rectangle); with reversed imaginary limits bolstered sampling raises (C18_reversed_raises)."
  },
  {
   "property": "C19",
   "status": "proved",
   "theorems": [
    "Verif.Props.C19_first_fit_wins",
    "Verif.Props.C19_consistent",
    "Verif.Props.C19_rejected_fit"
   ],
   "note": "2-D real data with at least one row."
  },
  {
   "property": "C20",
   "status": "proved",
   "theorems": [
    "Verif.Props.C20_invertible"
   ],
   "note": ""
  },
  {
   "property": "C21",
   "status": "proved",
   "theorems": [
    "Verif.Props.C21_zero_mean_unit_variance"
   ],
   "note": ""
  },
  {
   "property": "C22",
   "status": "partial",
   "theorems": [
    "Verif.Props.C22_round_trip_partial",
    "Verif.Props.C22_absolute_max_zero"
   ],
   "note": "False for absolute_max with an upper limit of zero (witness); proved for all other samples, for tables with columns in any order and for arrays."
  },
  {
   "property": "C23",
   "status": "partial",
   "theorems": [
    "Verif.Props.C23_min_to_zero",
    "Verif.Props.C23_absolute_max_partial",
    "Verif.Props.C23_absolute_max_iff",
    "Verif.Props.C23_absolute_max_exceeds"
   ],
   "note": "min_to_zero fully proved; absolute_max is false for ranges reaching below minus the magnitude of the upper limit (exact criterion and witness)."
  },
  {
   "property": "C24",
   "status": "proved",
   "theorems": [
    "Verif.Props.C24_partition"
   ],
   "note": "absolute_max with upper limit zero excluded (non-finite values, see C22)."
  },
  {
   "property": "C25",
   "status": "partial",
   "theorems": [
    "Verif.Props.C25_literal_partial",
    "Verif.Props.C25_not_by_value"
   ],
   "note": "False of the code: the comparison uses object identity; proved for interned literals, and proved that any other string object silently disables the normalization."
  },
  {
   "property": "C26",
   "status": "proved",
   "theorems": [
    "Verif.Props.C26_epoch",
    "Verif.Props.C26_init"
   ],
   "note": ""
  },
  {
   "property": "C27",
   "status": "partial",
   "theorems": [
    "Verif.Props.C27_plain",
    "Verif.Props.C27_noise",
    "Verif.Props.C27_uniform_partial",
    "Verif.Props.C27_uniform_one",
    "Verif.Props.C27_unfitted"
   ],
   "note": "Plain and noise generator: full. Uniform noise generator: proved for batch sizes of at least 2; for batch size 1 the claim is false (the input loses its batch dimension), shown by C27_uniform_one."
  },
  {
   "property": "C28",
   "status": "partial",
   "theorems": [
    "Verif.Props.C28_shot",
    "Verif.Props.C28_poisson",
    "Verif.Props.C28_uniform",
    "Verif.Props.C28_background",
    "Verif.Props.C28_scaling_partial",
    "Verif.Props.C28_scaling_one",
    "Verif.Props.C28_shot_empty"
   ],
   "note": "False for apply_scaling_factor with a batch of one curve (C28_scaling_one). All other functions and batch sizes of at least one curve are proved."
  },
  {
   "property": "C29",
   "status": "proved",
   "theorems": [
    "Verif.Props.C29_shot",
    "Verif.Props.C29_poisson",
    "Verif.Props.C29_total"
   ],
   "note": "Negative intensities give NaN in the code; C29_total shows that non-negative curves always give a result."
  },
  {
   "property": "C30",
   "status": "partial",
   "theorems": [
    "Verif.Props.C30_single_partial",
    "Verif.Props.C30_batch",
    "Verif.Props.C30_mode_identity"
   ],
   "note": "Proved for the mode single. False for the mode batch: C30_batch shows that it raises TypeError whenever a range is set. C30_mode_identity: the mode is compared by identity."
  },
  {
   "property": "C31",
   "status": "proved",
   "theorems": [
    "Verif.Props.C31_split"
   ],
   "note": ""
  },
  {
   "property": "C32",
   "status": "partial",
   "theorems": [
    "Verif.Props.C32_always_raises",
    "Verif.Props.C32_empty_partial"
   ],
   "note": "False for every table with at least one row: the engine name is passed as q_noise_spread and every call raises (C32_always_raises). It holds for an empty table only."
  },
  {
   "property": "C33",
   "status": "partial",
   "theorems": [
    "Verif.Props.C33_wave_vectors",
    "Verif.Props.C33_unique",
    "Verif.Props.C33_division",
    "Verif.Props.C34_sharp",
    "Verif.Props.C34_nan"
   ],
   "note": "The wave numbers and the divisions at the interfaces are proved for every real q and physical SLD. The last sentence (no division by zero anywhere) is proved for sharp interfaces (C34_sharp) and false in general: C34_nan gives a physical layer with a rough buried interface for which the final quotient divides by zero."
  },
  {
   "property": "C34",
   "status": "partial",
   "theorems": [
    "Verif.Props.C34_range_partial",
    "Verif.Props.C34_sharp",
    "Verif.Props.C34_nan"
   ],
   "note": "Errors, length and range of all values are proved for every stack; for sharp interfaces every entry is a number. For rough interfaces an entry can be NaN (C34_nan); for films this does not happen above the critical edge (C158_number)."
  },
  {
   "property": "C35",
   "status": "proved",
   "theorems": [
    "Verif.Props.C35_pointwise",
    "Verif.Props.C35_rearrange",
    "Verif.Props.C35_transfer"
   ],
   "note": "The transfer-matrix form is stated for SLDs with non-negative imaginary part; the per-q independence for all stacks."
  },
  {
   "property": "C36",
   "status": "proved",
   "theorems": [
    "Verif.Props.C36_split"
   ],
   "note": "Any SLD except those with imaginary part -1e-30, which cancel the DELTA of the code."
  },
  {
   "property": "C37",
   "status": "proved",
   "theorems": [
    "Verif.Props.C37_vanish"
   ],
   "note": "Any SLD except those with imaginary part -1e-30, which cancel the DELTA of the code."
  },
  {
   "property": "C38",
   "status": "proved",
   "theorems": [
    "Verif.Props.C38_no_contrast"
   ],
   "note": ""
  },
  {
   "property": "C39",
   "status": "proved",
   "theorems": [
    "Verif.Props.C39_substrate",
    "Verif.Props.C39_below_one"
   ],
   "note": ""
  },
  {
   "property": "C40",
   "status": "partial",
   "theorems": [
    "Verif.Props.C40_refl1d_partial",
    "Verif.Props.C40_builtin_partial",
    "Verif.Props.C40_same_stack"
   ],
   "note": "Proved for samples with at least one layer and names without the words thickness and roughness (see C07). Without layers the simulation does not work, see C79."
  },
  {
   "property": "C41",
   "status": "proved",
   "theorems": [
    "Verif.Props.C41_lengths",
    "Verif.Props.C41_profile",
    "Verif.Props.C41_heights",
    "Verif.Props.C41_monotone",
    "Verif.Props.C41_antitone",
    "Verif.Props.C41_limits",
    "Verif.Props.C41_table",
    "Verif.Props.C41_table_lengths"
   ],
   "note": "Roughnesses are non-zero as in the quantifier; with roughness zero the step is sharp and its value at the interface height itself is NaN (smoothStep_sharp). C41_table needs at least one layer and names without the words thickness and roughness."
  },
  {
   "property": "C42",
   "status": "proved",
   "theorems": [
    "Verif.Props.C42_interpolation",
    "Verif.Props.C42_errors"
   ],
   "note": "Positive data; other values have no finite logarithm."
  },
  {
   "property": "C43",
   "status": "proved",
   "theorems": [
    "Verif.Props.C43_shift",
    "Verif.Props.C43_scale"
   ],
   "note": ""
  },
  {
   "property": "C44",
   "status": "proved",
   "theorems": [
    "Verif.Props.C44_angle",
    "Verif.Props.C44_q",
    "Verif.Props.C44_monotone",
    "Verif.Props.C44_energy",
    "Verif.Props.C44_zero"
   ],
   "note": ""
  },
  {
   "property": "C45",
   "status": "proved",
   "theorems": [
    "Verif.Props.C45_factors",
    "Verif.Props.C45_inverse"
   ],
   "note": ""
  },
  {
   "property": "C46",
   "status": "proved",
   "theorems": [
    "Verif.Props.C46_max",
    "Verif.Props.C46_first",
    "Verif.Props.C46_ratios",
    "Verif.Props.C46_empty"
   ],
   "note": ""
  },
  {
   "property": "C47",
   "status": "partial",
   "theorems": [
    "Verif.Props.C47_missing",
    "Verif.Props.C47_normalization",
    "Verif.Props.C47_valid",
    "Verif.Props.C47_beam_shape_swallowed"
   ],
   "note": "False for the beam shape: an unknown beam shape is silently ignored and the raw intensity returned (C47_beam_shape_swallowed). The rest of the statement is proved."
  },
  {
   "property": "C48",
   "status": "proved",
   "theorems": [
    "Verif.Props.C48_ranges",
    "Verif.Props.C48_between",
    "Verif.Props.C48_empty"
   ],
   "note": "For scans with as many intensities as angles, which both loaders produce."
  },
  {
   "property": "C49",
   "status": "partial",
   "theorems": [
    "Verif.Props.C49_round_trip_partial"
   ],
   "note": "Proved for blocks whose first column name does not start with # or L and that have data rows, with an interpreter stack deeper than the number of scans. Scans without data rows raise ValueError."
  },
  {
   "property": "C50",
   "status": "partial",
   "theorems": [
    "Verif.Props.C50_blocks_partial",
    "Verif.Props.C50_errors",
    "Verif.Props.C50_recursion"
   ],
   "note": "Blocks are ordered, disjoint and within the file. False for the stack: indexing recurses once per scan (C50_recursion)."
  },
  {
   "property": "C51",
   "status": "partial",
   "theorems": [
    "Verif.Props.C51_names_iff",
    "Verif.Props.C51_leading_l"
   ],
   "note": "False for a first name that starts with L or # (C51_leading_l); C51_names_iff is the exact criterion."
  },
  {
   "property": "C52",
   "status": "partial",
   "theorems": [
    "Verif.Props.C52_rectangular_partial",
    "Verif.Props.C52_errors",
    "Verif.Props.C52_duplicate_names"
   ],
   "note": "Proved for distinct column names. False for a repeated name, whose column gets two values per line (C52_duplicate_names)."
  },
  {
   "property": "C53",
   "status": "partial",
   "theorems": [
    "Verif.Props.C53_number",
    "Verif.Props.C53_listing_partial",
    "Verif.Props.C53_info_partial",
    "Verif.Props.C53_info_exists",
    "Verif.Props.C53_shared_prefix"
   ],
   "note": "The number is recovered for every stem and number, and the entries of the scan information belong to the file of their number. False for the listing: another experiment whose name starts with the stem breaks it (C53_shared_prefix). Stems with glob characters are not modelled."
  },
  {
   "property": "C54",
   "status": "partial",
   "theorems": [
    "Verif.Props.C54_order",
    "Verif.Props.C54_abort",
    "Verif.Props.C54_spec_skipped_iff",
    "Verif.Props.C54_fio_skipped",
    "Verif.Props.C54_fio_list",
    "Verif.Props.C54_corrupt_table_skipped",
    "Verif.Props.C54_missing_time_aborts",
    "Verif.Props.C54_fio_missing_aborts"
   ],
   "note": "Order and abort are proved for both loaders, and exactly which readable .fio scans are omitted. False for which scans are omitted: corrupt SPEC tables are silently skipped, a missing #D line aborts, a missing .fio file aborts."
  },
  {
   "property": "C55",
   "status": "partial",
   "theorems": [
    "Verif.Props.C55_trim_partial",
    "Verif.Props.C55_trim_back_zero"
   ],
   "note": "Proved for trim_back > 0 and for None. False for trim_back = 0, which removes all points."
  },
  {
   "property": "C56",
   "status": "partial",
   "theorems": [
    "Verif.Props.C56_joined",
    "Verif.Props.C56_sign_iff_partial"
   ],
   "note": "Everything is proved except the signs, which change when the curve changes its sign between two points at the same angle; C56_sign_iff_partial is the exact criterion."
  },
  {
   "property": "C57",
   "status": "proved",
   "theorems": [
    "Verif.Props.C57_loaded_scan",
    "Verif.Props.C57_no_angle_columns"
   ],
   "note": ""
  },
  {
   "property": "C58",
   "status": "partial",
   "theorems": [
    "Verif.Props.C58_default_partial",
    "Verif.Props.C58_custom_twice",
    "Verif.Props.C58_custom_once_partial",
    "Verif.Props.C58_custom_witness"
   ],
   "note": "Proved for the default region. False for a custom region with the default attenuator_counter: the factor is squared (C58_custom_twice)."
  },
  {
   "property": "C59",
   "status": "partial",
   "theorems": [
    "Verif.Props.C59_fio",
    "Verif.Props.C59_spec_partial",
    "Verif.Props.C59_spec_unchanged_partial",
    "Verif.Props.C59_spec_stale",
    "Verif.Props.C59_false",
    "Verif.Props.C59_spec_loader",
    "Verif.Props.C59_fio_loader"
   ],
   "note": "Proved for FioFitter for every history. False for SpecFitter: the reload creates a loader that fit does not use (C59_spec_stale, C59_false); the result is current only if the file and the parameters did not change since set_spec_file."
  },
  {
   "property": "C60",
   "status": "partial",
   "theorems": [
    "Verif.Props.C60_both_partial",
    "Verif.Props.C60_plain",
    "Verif.Props.C60_draws",
    "Verif.Props.C60_false",
    "Verif.Props.C60_code_partial"
   ],
   "note": "True if both optimizations are on (without refinement). False if only one is on: the plain prediction replaces the optimized one (C60_plain, C60_draws, C60_false)."
  },
  {
   "property": "C61",
   "status": "partial",
   "theorems": [
    "Verif.Props.C61_q_partial",
    "Verif.Props.C61_scaling_partial",
    "Verif.Props.C61_nan",
    "Verif.Props.C61_code_partial",
    "Verif.Props.C61_builtin_partial"
   ],
   "note": "Proved for simulated curves without NaN; a curve with zeros counts as infinitely far (its logarithm is -inf). If a simulated curve has a NaN, argmin selects a curve whose error is NaN (C61_nan). C61_code_partial and C61_builtin_partial are about the simulation of the code."
  },
  {
   "property": "C62",
   "status": "partial",
   "theorems": [
    "Verif.Props.C62_nonneg",
    "Verif.Props.C62_values",
    "Verif.Props.C62_labels_partial",
    "Verif.Props.C62_sld_altered"
   ],
   "note": "Non-negativity is proved for every fit. That no SLD is altered is false for parts with the word thickness or roughness in their name (C62_sld_altered)."
  },
  {
   "property": "C63",
   "status": "partial",
   "theorems": [
    "Verif.Props.C63_bounds_partial",
    "Verif.Props.C63_documented_partial",
    "Verif.Props.C63_false",
    "Verif.Props.C63_count",
    "Verif.Props.C63_minimum"
   ],
   "note": "The radius is fraction * |prediction - lower limit of the range|, which is within the documented one for ranges that start at or above zero. False otherwise (C63_false). Refinement fails for more free parameters than fractions and for predictions at the lower limit."
  },
  {
   "property": "C64",
   "status": "proved",
   "theorems": [
    "Verif.Props.C64_scan",
    "Verif.Props.C64_network_input"
   ],
   "note": ""
  },
  {
   "property": "C65",
   "status": "partial",
   "theorems": [
    "Verif.Props.C65_metric",
    "Verif.Props.C65_lengths",
    "Verif.Props.C65_rounded_partial",
    "Verif.Props.C65_rounded_zero",
    "Verif.Props.C65_mismatch"
   ],
   "note": "Proved for the log MSE. FitResult.curve_mse rounds it to six decimals: non-negative, within half a unit, but zero for curves that differ (C65_rounded_zero)."
  },
  {
   "property": "C66",
   "status": "partial",
   "theorems": [
    "Verif.Props.C66_paths",
    "Verif.Props.C66_ordered",
    "Verif.Props.C66_params",
    "Verif.Props.C66_saved",
    "Verif.Props.C66_rows",
    "Verif.Props.C66_files",
    "Verif.Props.C66_no_curve_mse",
    "Verif.Props.C66_empty"
   ],
   "note": "Order and saving are proved for every series and path. curve_mse raises AttributeError for every series (C66_no_curve_mse), and a series without results cannot be made (C66_empty)."
  },
  {
   "property": "C67",
   "status": "proved",
   "theorems": [
    "Verif.Props.C67_none_iff",
    "Verif.Props.C67_values",
    "Verif.Props.C67_unreadable"
   ],
   "note": ""
  },
  {
   "property": "C68",
   "status": "partial",
   "theorems": [
    "Verif.Props.C68_step_partial",
    "Verif.Props.C68_foreign",
    "Verif.Props.C68_false",
    "Verif.Props.C68_consistent"
   ],
   "note": "Proved for trained models and paths. False for other objects: the model is replaced, the curve fitter stays, and the call raises (C68_foreign, C68_false)."
  },
  {
   "property": "C69",
   "status": "proved",
   "theorems": [
    "Verif.Props.C69_history",
    "Verif.Props.C69_frame"
   ],
   "note": "Files whose member info is not foreign (every file made by this module)."
  },
  {
   "property": "C70",
   "status": "partial",
   "theorems": [
    "Verif.Props.C70_roundtrip_partial",
    "Verif.Props.C70_other_name",
    "Verif.Props.C70_no_extension",
    "Verif.Props.C70_stale",
    "Verif.Props.C70_info_conflict"
   ],
   "note": "Data and labels load back for every prior content. The claim about the information and about arbitrary names is false: attributes of earlier labels stay (C70_stale), names without extension load another file (C70_other_name, C70_no_extension), a foreign member info makes the call fail (C70_info_conflict)."
  },
  {
   "property": "C71",
   "status": "partial",
   "theorems": [
    "Verif.Props.C71_fresh_partial",
    "Verif.Props.C71_labels_partial",
    "Verif.Props.C71_mixes"
   ],
   "note": "True if the file held no labels before. False otherwise: new q values with old reflectivity and labels (C71_mixes)."
  },
  {
   "property": "C72",
   "status": "partial",
   "theorems": [
    "Verif.Props.C72_roundtrip_partial",
    "Verif.Props.C72_interrupted",
    "Verif.Props.C72_failed_save",
    "Verif.Props.C72_half_updated",
    "Verif.Props.C72_complex_range",
    "Verif.Props.C72_zero_imaginary",
    "Verif.Props.C72_incomplete"
   ],
   "note": "Interrupted saves: proved for every prior content and crash point. Round trip: proved for samples with real ranges; false for complex ranges and for complex numbers without imaginary part."
  },
  {
   "property": "C73",
   "status": "proved",
   "theorems": [
    "Verif.Props.C73_ensure",
    "Verif.Props.C73_collisions",
    "Verif.Props.C73_strip",
    "Verif.Props.C73_strip_keeps",
    "Verif.Props.C73_strip_ensure"
   ],
   "note": ""
  },
  {
   "property": "C74",
   "status": "proved",
   "theorems": [
    "Verif.Props.C74_remove_double"
   ],
   "note": ""
  },
  {
   "property": "C75",
   "status": "proved",
   "theorems": [
    "Verif.Props.C75_sums",
    "Verif.Props.C75_partition",
    "Verif.Props.C75_partition_line"
   ],
   "note": ""
  },
  {
   "property": "C76",
   "status": "proved",
   "theorems": [
    "Verif.Props.C76_inverse",
    "Verif.Props.C76_max",
    "Verif.Props.C76_identity",
    "Verif.Props.C76_constructor",
    "Verif.Props.C76_angles"
   ],
   "note": ""
  },
  {
   "property": "C77",
   "status": "partial",
   "theorems": [
    "Verif.Props.C77_mae_partial",
    "Verif.Props.C77_mape_partial",
    "Verif.Props.C77_rows_skipped",
    "Verif.Props.C77_zero_reference"
   ],
   "note": "Proved for tables of the same shape. False for different numbers of rows: unmatched rows are skipped (C77_rows_skipped)."
  },
  {
   "property": "C78",
   "status": "partial",
   "theorems": [
    "Verif.Props.C78_log_partial",
    "Verif.Props.C78_values",
    "Verif.Props.C78_background_counterexample"
   ],
   "note": "Proved without a background range; C78_values also gives the exact inputs and the pairing with the labels. False with a background range: the normally distributed background can be negative (counterexample)."
  },
  {
   "property": "C79",
   "status": "partial",
   "theorems": [
    "Verif.Props.C79_one_curve_per_row_partial",
    "Verif.Props.C79_own_row_partial",
    "Verif.Props.C79_bare_substrate",
    "Verif.Props.C79_errors"
   ],
   "note": "Proved for samples with at least one layer and layer names without the key words. False for bare substrates: the builtin engine returns no curve for any number of rows and refl1d raises (C79_bare_substrate)."
  },
  {
   "property": "C80",
   "status": "proved",
   "theorems": [
    "Verif.Props.C80_gauss",
    "Verif.Props.C80_box"
   ],
   "note": ""
  },
  {
   "property": "C81",
   "status": "partial",
   "theorems": [
    "Verif.Props.C81_fio_partial",
    "Verif.Props.C81_fio_command",
    "Verif.Props.C81_fio_misreported",
    "Verif.Props.C81_spec_raises",
    "Verif.Props.C81_spec_handler"
   ],
   "note": "True for FioFitter, which also reports existing scans as missing if a name in the settings is wrong. False for SpecFitter: fit raises for every missing number, and its handler of KeyError raises AttributeError."
  },
  {
   "property": "C82",
   "status": "partial",
   "theorems": [
    "Verif.Props.C82_spec",
    "Verif.Props.C82_fio_partial",
    "Verif.Props.C82_fio_raises",
    "Verif.Props.C82_fio_never"
   ],
   "note": "True for SpecFitter. False for FioFitter: without optimize_q every fit that gets as far raises TypeError and none returns a result."
  },
  {
   "property": "C83",
   "status": "partial",
   "theorems": [
    "Verif.Props.C83_spec",
    "Verif.Props.C83_fio",
    "Verif.Props.C83_empty"
   ],
   "note": "Proved for both fitters; false for ranges without reflectivity scans, which raise ValueError (C83_empty)."
  },
  {
   "property": "C84",
   "status": "partial",
   "theorems": [
    "Verif.Props.C84_fio",
    "Verif.Props.C84_fio_flag_partial",
    "Verif.Props.C84_spec_partial",
    "Verif.Props.C84_hidden",
    "Verif.Props.C84_empty",
    "Verif.Props.C84_no_file"
   ],
   "note": "Proved for FioFitter. SpecFitter lists scans without a #D line as not found (C84_hidden); files without scans raise ValueError (C84_empty)."
  },
  {
   "property": "C85",
   "status": "partial",
   "theorems": [
    "Verif.Props.C85_pilatus_exact",
    "Verif.Props.C85_pilatus_partial",
    "Verif.Props.C85_shifted",
    "Verif.Props.C85_no_index",
    "Verif.Props.C85_cbf",
    "Verif.Props.C85_nexus_exact",
    "Verif.Props.C85_nexus_no_index",
    "Verif.Props.C85_nexus_partial",
    "Verif.Props.C85_nexus_repeated",
    "Verif.Props.C85_nexus_order",
    "Verif.Props.C85_nan_index"
   ],
   "note": "Holds for complete, equally sized .tif images and for strictly increasing frame numbers. False otherwise: after a missing pilatus image all following ones are shifted, without an index column all images are black, .cbf files cannot be loaded, repeated or unordered frame numbers are misaligned. The exact result is proved in every case with an index column."
  },
  {
   "property": "C86",
   "status": "partial",
   "theorems": [
    "Verif.Props.C86_order_partial",
    "Verif.Props.C86_pilatus_twice",
    "Verif.Props.C86_mythen"
   ],
   "note": "Holds for lambda and eiger detectors without an index column. False for pilatus detectors with one (points are removed twice) and for mythen detectors (points are not removed)."
  },
  {
   "property": "C87",
   "status": "partial",
   "theorems": [
    "Verif.Props.C87_combined",
    "Verif.Props.C87_twice",
    "Verif.Props.C87_no_attenuator",
    "Verif.Props.C87_no_attenuator_call"
   ],
   "note": "The combined images are as stated for scans with an attenuator column. False: the images of the scans are overwritten, so that a second call multiplies with the attenuation again, and scans without attenuator column are a TypeError."
  },
  {
   "property": "C88",
   "status": "partial",
   "theorems": [
    "Verif.Props.C88_momentum",
    "Verif.Props.C88_other",
    "Verif.Props.C88_loader",
    "Verif.Props.C88_other_constant",
    "Verif.Props.C88_twice",
    "Verif.Props.C88_remove_double"
   ],
   "note": "Proved except for two parts that are false: a second call adds a second column, and transform.py uses another constant (12398 instead of 12380)."
  },
  {
   "property": "C89",
   "status": "partial",
   "theorems": [
    "Verif.Props.C89_rows",
    "Verif.Props.C89_unknown_motor"
   ],
   "note": "The lines are as stated if as many positions as images exist. False: for an unknown motor the first one is written without notice."
  },
  {
   "property": "C91",
   "status": "proved",
   "theorems": [
    "Verif.Props.C91_training",
    "Verif.Props.C91_starts_iff",
    "Verif.Props.C91_needs_data",
    "Verif.Props.C91_stale_preprocessor",
    "Verif.Props.C91_network"
   ],
   "note": "all executions: data, any number of trainings, then train; exact criterion when training starts. Batches of one curve lose their batch dimension (InputOf). Outside the quantifier: samples without layers (C79), names with key words (C07), edits of the sample between data and training."
  },
  {
   "property": "C92",
   "status": "partial",
   "theorems": [
    "Verif.Props.C92_statistics",
    "Verif.Props.C92_unchanged_partial",
    "Verif.Props.C92_network_shared",
    "Verif.Props.C92_witness"
   ],
   "note": "false for the network of a trainer that is trained again: general theorem and concrete execution; true for statistics, and for everything without further training"
  },
  {
   "property": "C98",
   "status": "partial",
   "theorems": [
    "Verif.Props.C98_simulated",
    "Verif.Props.C98_each",
    "Verif.Props.C98_improves_partial",
    "Verif.Props.C98_improves_inside",
    "Verif.Props.C98_undone",
    "Verif.Props.C98_code_partial"
   ],
   "note": "Relative to the two properties of the search of curve_fit stated in Spec/CurveFitter (WithinBounds, Descends). Improvement of the returned parameters is proved if predicted lengths are not below their range and the fractions are at most 1 (C98_improves_inside). False otherwise: the change of sign after the search can undo it (C98_undone); C98_improves_partial is about the parameters before it."
  },
  {
   "property": "C90",
   "status": "partial",
   "theorems": [
    "Verif.Props.C90_gauss",
    "Verif.Props.C90_lorentz",
    "Verif.Props.C90_lorentz_zero",
    "Verif.Props.C90_voigt",
    "Verif.Props.C90_multi_gauss",
    "Verif.Props.C90_multi_voigt",
    "Verif.Props.C90_gauss_lorentzian",
    "Verif.Props.C90_start",
    "Verif.Props.C90_start_empty",
    "Verif.Props.C90_gauss_lorentz_start",
    "Verif.Props.C90_two_lorentz",
    "Verif.Props.C90_no_background"
   ],
   "note": "The functions are as documented. Rejection of unsuitable peak lists is false: two Lorentz peaks are accepted and give a start curve without finite values (C90_two_lorentz); without a background parameter the last area is used as background (C90_no_background)."
  },
  {
   "property": "C93",
   "status": "partial",
   "theorems": [
    "Verif.Props.C93_order_partial",
    "Verif.Props.C93_complex",
    "Verif.Props.C93_numpy",
    "Verif.Props.C93_foreign",
    "Verif.Props.C93_in_partial",
    "Verif.Props.C93_int_partial",
    "Verif.Props.C93_limits"
   ],
   "note": "True for real values. False for complex values (C93_complex, C93_numpy: numpy complex values are compared by their real part only) and for other objects (C93_foreign): the test for equality raises TypeError."
  },
  {
   "property": "C94",
   "status": "partial",
   "theorems": [
    "Verif.Props.C94_append",
    "Verif.Props.C94_check",
    "Verif.Props.C94_foreign",
    "Verif.Props.C94_stats",
    "Verif.Props.C94_stats_exists",
    "Verif.Props.C94_array",
    "Verif.Props.C94_foreign_error",
    "Verif.Props.C94_positions"
   ],
   "note": "True for series built with append. False for extend, insert and item assignment, which list does not check (C94_foreign)."
  },
  {
   "property": "C95",
   "status": "proved",
   "theorems": [
    "Verif.Props.C95_series",
    "Verif.Props.C95_each",
    "Verif.Props.C95_profile"
   ],
   "note": "Results with one row of parameters, which is what the fitters create."
  },
  {
   "property": "C96",
   "status": "partial",
   "theorems": [
    "Verif.Props.C96_labels",
    "Verif.Props.C96_single",
    "Verif.Props.C96_rejects",
    "Verif.Props.C96_simple_nonneg",
    "Verif.Props.C96_simple_negative",
    "Verif.Props.C96_reachable"
   ],
   "note": "True except for the range of SimpleModel: its last layer has a relu, so that it cannot predict negative labels (C96_simple_negative). Weights are arbitrary, real arithmetic."
  },
  {
   "property": "C97",
   "status": "partial",
   "theorems": [
    "Verif.Props.C97_order",
    "Verif.Props.C97_stamps",
    "Verif.Props.C97_style",
    "Verif.Props.C97_setup",
    "Verif.Props.C97_succeeds",
    "Verif.Props.C97_path",
    "Verif.Props.C97_distinct",
    "Verif.Props.C97_extension"
   ],
   "note": "Trainings started in different seconds use different checkpoints. False otherwise: trainings of the same second share it (C97_distinct), and so do models whose names differ only behind the last dot (C97_extension)."
  },
  {
   "property": "C99",
   "status": "proved",
   "theorems": [
    "Verif.Props.C99_motor",
    "Verif.Props.C99_rois",
    "Verif.Props.C99_ub",
    "Verif.Props.C99_signal",
    "Verif.Props.C99_ub_commas",
    "Verif.Props.C99_unnamed",
    "Verif.Props.C99_example"
   ],
   "note": "header entries of a .fio file for every position of the line in the parameter block; the later lines must not mention the entry. float() is left open: it reads written numbers back and rejects brackets. C99_ub_commas and C99_unnamed state the two formats that are not read as intended."
  },
  {
   "property": "C100",
   "status": "partial",
   "theorems": [
    "Verif.Props.C100_panels_partial",
    "Verif.Props.C100_grid_fails",
    "Verif.Props.C100_single_region",
    "Verif.Props.C100_fitting_numbers",
    "Verif.Props.C100_area",
    "Verif.Props.C100_flat",
    "Verif.Props.C100_all"
   ],
   "note": "True for the regions whenever the panels fit on the grid. False otherwise: the grid has the rounded square root of the number of panels as rows and columns, too few for 2, 5, 6, 10, ... panels, where the call ends with a ValueError (C100_grid_fails, exact criterion C100_fitting_numbers); and the curve of the whole detector is divided by the number of images instead of pixels (C100_all)."
  },
  {
   "property": "C101",
   "status": "partial",
   "theorems": [
    "Verif.Props.C101_simple_residual",
    "Verif.Props.C101_gauss_lorentz_residual",
    "Verif.Props.C101_default_weight",
    "Verif.Props.C101_voigt_residual",
    "Verif.Props.C101_voigt_biased",
    "Verif.Props.C101_simple_fit",
    "Verif.Props.C101_gauss_lorentz_fit",
    "Verif.Props.C101_voigt_fit",
    "Verif.Props.C101_voigt_start",
    "Verif.Props.C101_sum",
    "Verif.Props.C101_overwritten",
    "Verif.Props.C101_multi_fails",
    "Verif.Props.C101_multi_type_error",
    "Verif.Props.C101_voigt_silent",
    "Verif.Props.C101_diff"
   ],
   "note": "True for simpleFit and gaussLorentzianFit. False for multiVoigtFit, whose optimum lies 0.9 below exact data (C101_voigt_biased) and which hides failures (C101_voigt_silent), and for multiFit, which never succeeds (C101_multi_fails). The search of scipy.optimize is left open."
  },
  {
   "property": "C102",
   "status": "partial",
   "theorems": [
    "Verif.Props.C102_units_partial",
    "Verif.Props.C102_wrong_unit",
    "Verif.Props.C102_prediction",
    "Verif.Props.C102_prediction_lengths",
    "Verif.Props.C102_over_scans",
    "Verif.Props.C102_over_time",
    "Verif.Props.C102_no_unit",
    "Verif.Props.C102_documented_names",
    "Verif.Props.C102_profile",
    "Verif.Props.C102_profiles",
    "Verif.Props.C102_colours_partial",
    "Verif.Props.C102_wrong_colour",
    "Verif.Props.C102_scan",
    "Verif.Props.C102_series",
    "Verif.Props.C102_selection",
    "Verif.Props.C102_empty_series",
    "Verif.Props.C102_not_numbers",
    "Verif.Props.C102_foreign"
   ],
   "note": "True for the drawn points, their order and axes. False: the density of a layer with thickness or roughness in its name is shown in \u00c5 (C102_wrong_unit, exact criterion C102_units_partial); the documented parameter names raise KeyError (C102_documented_names); the colours match the colour bar only for evenly spaced scan numbers (C102_colours_partial, C102_wrong_colour); scan_range selects positions, not scan numbers (C102_selection, C102_not_numbers). Drawing by matplotlib is not modelled."
  },
  {
   "property": "C103",
   "status": "proved",
   "theorems": [
    "Verif.Props.C103_passive",
    "Verif.Props.C103_one_layer"
   ],
   "note": "Sharp stacks: proved for every number of layers. Rough interfaces: proved for one layer on a substrate above the critical angles; false below (C34_nan)."
  },
  {
   "property": "C104",
   "status": "proved",
   "theorems": [
    "Verif.Props.C104_value",
    "Verif.Props.C104_lengths",
    "Verif.Props.C104_number_iff",
    "Verif.Props.C104_objective",
    "Verif.Props.C104_refine"
   ],
   "note": "The search of scipy.optimize is assumed not to end above its start (Descends)."
  },
  {
   "property": "C105",
   "status": "proved",
   "theorems": [
    "Verif.Props.C105_printed",
    "Verif.Props.C105_unique",
    "Verif.Props.C105_subscription",
    "Verif.Props.C105_printed_index"
   ],
   "note": "Printing and subscription are proved. Note: the layer printed as [i] is sample[i+1] (C105_printed_index). Names with line breaks are excluded."
  },
  {
   "property": "C106",
   "status": "partial",
   "theorems": [
    "Verif.Props.C106_weights",
    "Verif.Props.C106_degenerate"
   ],
   "note": "True except for the sum: the weights are normalized before the cut and add up to one only if nothing is cut (exact criterion in C106_weights). Degenerate widths: C106_degenerate."
  },
  {
   "property": "C107",
   "status": "proved",
   "theorems": [
    "Verif.Props.C107_continuous",
    "Verif.Props.C107_sharp"
   ],
   "note": "Over the complex numbers; exact wherever the model gives a number. Roughness may give NaN (C34_nan), which C107_continuous excludes at the point itself but not nearby."
  },
  {
   "property": "C108",
   "status": "proved",
   "theorems": [
    "Verif.Props.C108_total_reflection",
    "Verif.Props.C108_decay"
   ],
   "note": "Total reflection for a bare smooth substrate, with explicit error bound; decay for every stack of media with non-negative absorption."
  },
  {
   "property": "C109",
   "status": "proved",
   "theorems": [
    "Verif.Props.C109_perfect",
    "Verif.Props.C109_corrections",
    "Verif.Props.C109_refined",
    "Verif.Props.C109_learned",
    "Verif.Props.C109_trained",
    "Verif.Props.C109_code"
   ],
   "note": "Network, simulation and optimizer are arbitrary functions; exactness of the network is a hypothesis for the fitted curves only. The search of scipy.optimize is assumed to stay within its bounds and not to end above its start. C109_corrections is about the labels; simulated curves are made at the q values that were passed."
  },
  {
   "property": "C110",
   "status": "proved",
   "theorems": [
    "Verif.Props.C110_alone",
    "Verif.Props.C110_together",
    "Verif.Props.C110_generator",
    "Verif.Props.C110_code"
   ],
   "note": "C110_alone and C110_together for every simulation that works row by row, C110_code for the simulation of the code, which C110_generator shows to be simulate_reflectivity with its default arguments (normal numbers of width zero are their mean). Labels that are NaN are not followed by this simulation."
  },
  {
   "property": "C111",
   "status": "proved",
   "theorems": [
    "Verif.Props.C111_motors",
    "Verif.Props.C111_incomplete",
    "Verif.Props.C111_loaded"
   ],
   "note": "The restriction on the other words is needed: C111_confused shows a motor name with scan in it that is taken for another kind of scan. Splitting is at runs of white space as in str.split."
  },
  {
   "property": "C112",
   "status": "proved",
   "theorems": [
    "Verif.Props.C112_detectors",
    "Verif.Props.C112_unambiguous",
    "Verif.Props.C112_images",
    "Verif.Props.C112_mythen",
    "Verif.Props.C112_mythen_loads",
    "Verif.Props.C112_mythen_refused",
    "Verif.Props.C112_folder"
   ],
   "note": "A scan given by its bare file name is outside the statement: C112_bare shows that its files are looked for in a folder with the name of the scan file. Files are given as lists of numbers (second column)."
  },
  {
   "property": "C113",
   "status": "proved",
   "theorems": [
    "Verif.Props.C113_parratt",
    "Verif.Props.C113_sharp",
    "Verif.Props.C113_units",
    "Verif.Props.C113_simulated"
   ],
   "note": "C113_parratt: wherever the recursion is defined; C113_sharp: it is defined for every stack of sharp interfaces. The absorption of 1e-30/m\u00b2 that the code adds to every medium is part of the wave numbers on both sides."
  },
  {
   "property": "C114",
   "status": "proved",
   "theorems": [
    "Verif.Props.C114_thick",
    "Verif.Props.C114_on_substrate",
    "Verif.Props.C114_symmetric"
   ],
   "note": "The limit needs that the recursion of the lower part is defined (always so for a bare substrate below the layer, C114_on_substrate, and for sharp interfaces, C113_sharp) and that the curve of the shortened stack is a number."
  },
  {
   "property": "C115",
   "status": "proved",
   "theorems": [
    "Verif.Props.C115_corrected",
    "Verif.Props.C115_fit",
    "Verif.Props.C115_spec_scan",
    "Verif.Props.C115_spec",
    "Verif.Props.C115_fio_scan",
    "Verif.Props.C115_fio",
    "Verif.Props.C115_unnormalized"
   ],
   "note": "Starts from the parsed data: that both files parse to tables (SPEC) or scans (P08) related in this way is a hypothesis. Errors while loading: C115_spec_scan, C115_fio_scan; C115_fio is about scans that load. For P08 the monitor keeps its unit and the counter must not be the angle, attenuation or atten_position column (true for the defaults, see the example)."
  },
  {
   "property": "C116",
   "status": "proved",
   "theorems": [
    "Verif.Props.C116_fit",
    "Verif.Props.C116_result",
    "Verif.Props.C116_other_file"
   ],
   "note": "The network is opaque: keras is assumed to restore the function of the network. Samples with complex ranges or complex numbers without imaginary part cannot be saved and loaded at all (C72)."
  },
  {
   "property": "C117",
   "status": "proved",
   "theorems": [
    "Verif.Props.C117_reproducible",
    "Verif.Props.C117_unseeded",
    "Verif.Props.C117_repeats",
    "Verif.Props.C117_shared"
   ],
   "note": "np.random.seed is opaque (a function from seeds to states, or an error); a program ends with its first error. Samples are values: a program does not change a sample between calls. C117_shared is a witness for the last part of the statement."
  },
  {
   "property": "C118",
   "status": "proved",
   "theorems": [
    "Verif.Props.C118_builtin",
    "Verif.Props.C118_refl1d"
   ],
   "note": "Composition of the model of the fit (every option) with the model of the simulation and Parratt's recursion. With refl1d the arguments of the call are proved to describe the stack; what the package computes from them is opaque."
  },
  {
   "property": "C119",
   "status": "proved",
   "theorems": [
    "Verif.Props.C119_append",
    "Verif.Props.C119_load",
    "Verif.Props.C119_rows",
    "Verif.Props.C119_no_blank",
    "Verif.Props.C119_exhausted"
   ],
   "note": "With room on the stack for both parts, as stated. For a fixed recursion limit appending scans ends with a RecursionError for the whole file (C119_exhausted). Without the blank line the new scan swallows the earlier one (C119_no_blank)."
  },
  {
   "property": "C120",
   "status": "proved",
   "theorems": [
    "Verif.Props.C120_normalized_labels",
    "Verif.Props.C120_normalized_labels_abs",
    "Verif.Props.C120_labels_round_trip",
    "Verif.Props.C120_labels_round_trip_abs",
    "Verif.Props.C120_restored",
    "Verif.Props.C120_above",
    "Verif.Props.C120_standardized",
    "Verif.Props.C120_normalized_max",
    "Verif.Props.C120_normalized_first",
    "Verif.Props.C120_fold",
    "Verif.Props.C120_log_draws",
    "Verif.Props.C120_log_above",
    "Verif.Props.C120_interpolated",
    "Verif.Props.C120_mse",
    "Verif.Props.C120_selected"
   ],
   "note": "Functions of the model with a rounding after every operation (Model/Rounded); without rounding they are the functions of the other files (normalizeStep_exact, standardizeRows_exact, normalizeToMax_exact, interp_exact, meanSquared_exact and others). Real labels; overflow, underflow and the computation of mean and standard deviation are not modelled."
  },
  {
   "property": "C121",
   "status": "proved",
   "theorems": [
    "Verif.Props.C121_isolated",
    "Verif.Props.C121_fit",
    "Verif.Props.C121_fit_range",
    "Verif.Props.C121_set_file"
   ],
   "note": "The parts of the file end with a blank line (otherwise C119_no_blank). fit(reload=True) of SpecFitter does not read the file again (C59), so set_file has to be called."
  },
  {
   "property": "C122",
   "status": "partial",
   "theorems": [
    "Verif.Props.C122_values",
    "Verif.Props.C122_bolstered",
    "Verif.Props.C122_bolstered_few"
   ],
   "note": "Proved for uniform and logarithmic sampling and for the composition of bolstered samples. The last part is false: bolstered sampling of single values, as for every roughness that is drawn again, is plain uniform sampling (C122_bolstered_few). That the numbers of numpy behave like independent random variables is the assumption (structure Chance, which Chance.product fulfils)."
  },
  {
   "property": "C123",
   "status": "partial",
   "theorems": [
    "Verif.Props.C123_uniform",
    "Verif.Props.C123_scaling",
    "Verif.Props.C123_trainer",
    "Verif.Props.C123_shot",
    "Verif.Props.C123_shot_raised",
    "Verif.Props.C123_poisson",
    "Verif.Props.C123_poisson_documented",
    "Verif.Props.C123_uniform_curve"
   ],
   "note": "Proved for uniform noise and scaling. False for shot noise: negative values are replaced by 1e-16, so that the mean is larger than the clean point, at least sqrt(x c / 2 pi) (exact bounds in C123_shot). Poisson noise keeps the mean up to 1e-16, but its standard deviation is sqrt(x / c), not the documented sqrt(x c)."
  },
  {
   "property": "C124",
   "status": "proved",
   "theorems": [
    "Verif.Props.C124_table",
    "Verif.Props.C124_rows",
    "Verif.Props.C124_laws",
    "Verif.Props.C124_roughness"
   ],
   "note": "That the numbers of numpy behave like independent random variables is the assumption (structure Chance, which Chance.product fulfils). Bolstered sampling, whose counts around the limits are fixed, has no independent rows; see C122 and C125."
  },
  {
   "property": "C125",
   "status": "proved",
   "theorems": [
    "Verif.Props.C125_exchangeable",
    "Verif.Props.C125_subsets",
    "Verif.Props.C125_split",
    "Verif.Props.C125_value"
   ],
   "note": "That the numbers of numpy behave like independent random variables, and that a shuffle gives every order with the same probability, is the assumption (structure Chance, which Chance.product fulfils)."
  },
  {
   "property": "C126",
   "status": "proved",
   "theorems": [
    "Verif.Props.C126_value",
    "Verif.Props.C126_value_bounds",
    "Verif.Props.C126_table",
    "Verif.Props.C126_default"
   ],
   "note": "That the numbers of numpy behave like independent random variables is the assumption (structure Chance, which Chance.product fulfils). Quantifies the failures of C14, C16 and C18."
  },
  {
   "property": "C127",
   "status": "proved",
   "theorems": [
    "Verif.Props.C127_epochs",
    "Verif.Props.C127_batch",
    "Verif.Props.C127_left_out",
    "Verif.Props.C127_unshuffled",
    "Verif.Props.C127_positions"
   ],
   "note": "That a shuffle gives every order with the same probability, independently of all other random numbers, is the assumption (structure Chance). Keras calls on_epoch_end after every epoch; the positions of these calls in the sequence of random numbers are arbitrary but fixed (C127_positions)."
  },
  {
   "property": "C128",
   "status": "proved",
   "theorems": [
    "Verif.Props.C128_keys",
    "Verif.Props.C128_right_keys",
    "Verif.Props.C128_noise",
    "Verif.Props.C128_predict",
    "Verif.Props.C128_show",
    "Verif.Props.C128_command",
    "Verif.Props.C128_members",
    "Verif.Props.C128_spread"
   ],
   "note": "Which exception Python, numpy, pandas and h5py raise is part of the model (cited at the definitions); the theorems say for which arguments it reaches the caller."
  },
  {
   "property": "C129",
   "status": "proved",
   "theorems": [
    "Verif.Props.C129_support",
    "Verif.Props.C129_dense"
   ],
   "note": "For uniform and logarithmic sampling; the random numbers are the independent uniform numbers of the structure Chance."
  },
  {
   "property": "C130",
   "status": "proved",
   "theorems": [
    "Verif.Props.C130_generated",
    "Verif.Props.C130_same_curve",
    "Verif.Props.C130_unlearnable",
    "Verif.Props.C130_thickness",
    "Verif.Props.C130_network"
   ],
   "note": "For the builtin engine, uniform and logarithmic sampling, ambient density 0 and layer names without the key words (KeywordFree). The prediction is any continuous function of the curve; networks of dense layers with or without relu, with standardized input and scaled output, are such functions (C130_network)."
  },
  {
   "property": "C131",
   "status": "proved",
   "theorems": [
    "Verif.Props.C131_past",
    "Verif.Props.C131_loss",
    "Verif.Props.C131_stop",
    "Verif.Props.C131_misses",
    "Verif.Props.C131_select",
    "Verif.Props.C131_known",
    "Verif.Props.C131_train_test"
   ],
   "note": "For uniform and logarithmic sampling; the random numbers are those of the structure Chance. The validation set of Trainer.train is not covered: its samples enter the standardization of the input, and its loss steers the learning rate."
  },
  {
   "property": "C132",
   "status": "proved",
   "theorems": [
    "Verif.Props.C132_learnable",
    "Verif.Props.C132_iff",
    "Verif.Props.C132_substrate"
   ],
   "note": "For the builtin engine, uniform and logarithmic sampling and ambient density 0. That every admissible set of labels has a curve is a hypothesis; it holds for sharp interfaces (C34_sharp) and for substrates (C132_substrate). The continuous function is not claimed to be a network of a given size."
  },
  {
   "property": "C133",
   "status": "partial",
   "theorems": [
    "Verif.Props.C133_binding",
    "Verif.Props.C133_keyword",
    "Verif.Props.C133_position",
    "Verif.Props.C133_call_partial",
    "Verif.Props.C133_ignored",
    "Verif.Props.C133_not_always",
    "Verif.Props.C133_bad_call",
    "Verif.Props.C133_spec",
    "Verif.Props.C133_fio",
    "Verif.Props.C133_verbose",
    "Verif.Props.C133_not_silent",
    "Verif.Props.C133_unasked"
   ],
   "note": "False of the code: reload passed by position is ignored, so that the files are read again (C133_ignored, C133_not_always), and verbose never reaches the callback, which always prints (C133_verbose, C133_not_silent). A call that is not accepted may read the files before it raises (C133_bad_call). Proved for reload by keyword or left out (C133_call_partial), for every state and body of the methods."
  },
  {
   "property": "C134",
   "status": "proved",
   "theorems": [
    "Verif.Props.C134_lookup",
    "Verif.Props.C134_exists",
    "Verif.Props.C134_limit",
    "Verif.Props.C134_only_then"
   ],
   "note": "For the builtin engine, uniform and logarithmic sampling and ambient density 0; distances of curves are largest deviations. Looking up the nearest curve stands for what the training data contain; it is not what the trained network computes. That every admissible set of labels has a curve is a hypothesis as in C132."
  },
  {
   "property": "C135",
   "status": "proved",
   "theorems": [
    "Verif.Props.C135_both",
    "Verif.Props.C135_density",
    "Verif.Props.C135_one",
    "Verif.Props.C135_learnable"
   ],
   "note": "For the builtin engine and ambient density 0, in exact arithmetic. The critical edge includes the small absorption that the code adds (AboveEdge). Known density and unknown roughness: C132_substrate."
  },
  {
   "property": "C136",
   "status": "proved",
   "theorems": [
    "Verif.Props.C136_finite",
    "Verif.Props.C136_film",
    "Verif.Props.C136_thickness",
    "Verif.Props.C136_invisible"
   ],
   "note": "For the builtin engine and ambient density 0, in exact arithmetic. The number of points and the size of the errors are shown to exist, they are not computed. Films with the same roughness at both interfaces are covered by C158. Other rough films are only covered by C136_finite, where that the curve determines the label is a hypothesis."
  },
  {
   "property": "C137",
   "status": "proved",
   "theorems": [
    "Verif.Props.C137_tail",
    "Verif.Props.C137_total",
    "Verif.Props.C137_learnable"
   ],
   "note": "For the builtin engine, ambient density 0 and sharp interfaces, in exact arithmetic. The number of points and the size of the errors are shown to exist, they are not computed. Single thicknesses of several layers are not claimed to be determined."
  },
  {
   "property": "C138",
   "status": "proved",
   "theorems": [
    "Verif.Props.C138_steps",
    "Verif.Props.C138_film",
    "Verif.Props.C138_learnable"
   ],
   "note": "For the builtin engine, ambient density 0 and sharp interfaces, in exact arithmetic. The number of points and the size of the errors are shown to exist, they are not computed. Densities on both sides of half the density of the substrate are not covered: the limit of the tail is then the same for two densities."
  },
  {
   "property": "C139",
   "status": "partial",
   "theorems": [
    "Verif.Props.C139_generator",
    "Verif.Props.C139_training_partial",
    "Verif.Props.C139_leak",
    "Verif.Props.C139_witness"
   ],
   "note": "Proved for the samples, labels and their order (C139_generator), and for the inputs if the preprocessors agree (C139_training_partial). False in general: generate_training_data fits the preprocessor to noisy versions of all curves, before they are split, so that every withheld curve moves the mean at every q value by its difference divided by the number of samples, times a factor between 0.81 and 1.21 (C139_leak, C139_witness)."
  },
  {
   "property": "C140",
   "status": "proved",
   "theorems": [
    "Verif.Props.C140_batches",
    "Verif.Props.C140_train",
    "Verif.Props.C140_split",
    "Verif.Props.C140_one_less",
    "Verif.Props.C140_bolstered"
   ],
   "note": "Batches, split and values around the limits for IEEE 754 arithmetic with any number of binary digits and samples within the precision; C140_train for every rounding with a bounded relative error. The bound of one sample is reached: val_split=0.9 of ten samples leaves no training sample in double precision (C140_one_less)."
  },
  {
   "property": "C141",
   "status": "proved",
   "theorems": [
    "Verif.Props.C141_support",
    "Verif.Props.C141_unlearnable"
   ],
   "note": "Random numbers are independent numbers with the documented distributions; the order of the shuffles does not matter. The statement about all rows together is stronger than needed. Uniform and logarithmic sampling: C129, C130."
  },
  {
   "property": "C142",
   "status": "proved",
   "theorems": [
    "Verif.Props.C142_loss",
    "Verif.Props.C142_uniform",
    "Verif.Props.C142_sharp"
   ],
   "note": "The roughness of the upper one of the two layers must not be limited by its thickness (largest roughness at most half the least thickness), since otherwise the two thicknesses are not exchangeable. All admissible labels must have a curve (for sharp interfaces that always holds). Bolstered sampling is not covered; C141 gives a positive probability of a miss there."
  },
  {
   "property": "C143",
   "status": "partial",
   "theorems": [
    "Verif.Props.C143_restored_partial",
    "Verif.Props.C143_not_restored",
    "Verif.Props.C143_multilayer",
    "Verif.Props.C143_into",
    "Verif.Props.C143_copy"
   ],
   "note": "False in general: proved for at most one layer (C143_restored_partial) and refuted for every sample with two or more layers (C143_not_restored)."
  },
  {
   "property": "C144",
   "status": "proved",
   "theorems": [
    "Verif.Props.C144_thickness",
    "Verif.Props.C144_film",
    "Verif.Props.C144_value",
    "Verif.Props.C144_distinct",
    "Verif.Props.C144_consistent"
   ],
   "note": "The probability statements need vacuum above the sample, nothing with gain, at least one layer, another density in the lowest layer than in the substrate, a range of thicknesses for every layer, and roughnesses that the thicknesses do not limit (largest roughness at most half the least thickness). Numbers are real and complex numbers, not floats: with floats, equal values are unlikely but possible. Bolstered sampling is not covered. That even a film with the density of vacuum has different values is an effect of the small absorption that the code adds."
  },
  {
   "property": "C145",
   "status": "partial",
   "theorems": [
    "Verif.Props.C145_enough_partial",
    "Verif.Props.C145_refused",
    "Verif.Props.C145_exactly",
    "Verif.Props.C145_default",
    "Verif.Props.C145_rounded",
    "Verif.Props.C145_not_always"
   ],
   "note": "False of the code for val_split above one half: batch sizes between both numbers of curves are allowed by the documentation and raise a ValueError (C145_refused, for every such fraction and enough curves; C145_not_always). Proved for val_split up to one half (C145_enough_partial), also with rounded numbers (C145_rounded). The exact condition is C145_exactly; it is slightly weaker than the documented one."
  },
  {
   "property": "C146",
   "status": "proved",
   "theorems": [
    "Verif.Props.C146_falls",
    "Verif.Props.C146_rough",
    "Verif.Props.C146_dense",
    "Verif.Props.C146_sample"
   ],
   "note": "Real densities below vacuum; the edge includes the absorption 1e-30 that the code adds. Below the edge see C108."
  },
  {
   "property": "C147",
   "status": "partial",
   "theorems": [
    "Verif.Props.C147_spec_partial",
    "Verif.Props.C147_fio_partial",
    "Verif.Props.C147_fio_state_partial",
    "Verif.Props.C147_foreign",
    "Verif.Props.C147_not_always"
   ],
   "note": "False of the code for an object that is no model: set_trained_model stores it before the AttributeError, so that every later fit raises (C147_foreign, C147_not_always). Proved for all other calls that raise (C147_spec_partial, C147_fio_partial, C147_fio_state_partial)."
  },
  {
   "property": "C148",
   "status": "proved",
   "theorems": [
    "Verif.Props.C148_rises",
    "Verif.Props.C148_sample",
    "Verif.Props.C148_layered"
   ],
   "note": "Sharp interfaces; rough interfaces are not covered."
  },
  {
   "property": "C149",
   "status": "partial",
   "theorems": [
    "Verif.Props.C149_train_partial",
    "Verif.Props.C149_generate_partial",
    "Verif.Props.C149_stored",
    "Verif.Props.C149_single",
    "Verif.Props.C149_lost",
    "Verif.Props.C149_not_always"
   ],
   "note": "False of the code: generate_training_data stores the new data before it makes the preprocessor. generate_training_data(1) raises a TypeError (C149_single) and leaves one curve, with which no training starts (C149_lost, C149_not_always). Proved for train (C149_train_partial) and for calls without a positive number (C149_generate_partial); C149_stored describes what any failed call leaves. Random numbers that a failed call has drawn are not compared."
  },
  {
   "property": "C150",
   "status": "proved",
   "theorems": [
    "Verif.Props.C150_mirror",
    "Verif.Props.C150_film",
    "Verif.Props.C150_blind"
   ],
   "note": "Sharp interfaces and real densities; the comparison on the logarithmic scale is for one layer."
  },
  {
   "property": "C151",
   "status": "partial",
   "theorems": [
    "Verif.Props.C151_unchanged_partial",
    "Verif.Props.C151_later_partial",
    "Verif.Props.C151_from_dict",
    "Verif.Props.C151_not_always",
    "Verif.Props.C151_leftover"
   ],
   "note": "False of the code for from_dict, which changes the sample while it reads the dictionary (C151_not_always): what it leaves is described by C151_from_dict, and a second call with the corrected dictionary doubles the layers below the mistake (C151_leftover). Proved for all other methods. Layers are values in this model, so that rename_layer of an object that is in a sample twice is not covered."
  },
  {
   "property": "C152",
   "status": "proved",
   "theorems": [
    "Verif.Props.C152_tail",
    "Verif.Props.C152_determined",
    "Verif.Props.C152_sample",
    "Verif.Props.C152_roughness"
   ],
   "note": "Stacks in which several interfaces with a step share the smallest roughness are the subject of C153: their amplitudes can cancel at single momentum transfers."
  },
  {
   "property": "C153",
   "status": "proved",
   "theorems": [
    "Verif.Props.C153_tail",
    "Verif.Props.C153_determined",
    "Verif.Props.C153_exists",
    "Verif.Props.C153_sample",
    "Verif.Props.C153_roughness"
   ],
   "note": "Layers of thickness zero are left out: the two interfaces of such a layer lie at the same depth and can cancel at all momentum transfers."
  },
  {
   "property": "C154",
   "status": "proved",
   "theorems": [
    "Verif.Props.C154_span",
    "Verif.Props.C154_sample",
    "Verif.Props.C154_film"
   ],
   "note": "Layers of thickness zero are left out (see C153). Films with different roughnesses at their interfaces are not covered: the fringes then decay faster than the tail."
  },
  {
   "property": "C155",
   "status": "proved",
   "theorems": [
    "Verif.Props.C155_film",
    "Verif.Props.C155_sample"
   ],
   "note": "The density of the substrate is the same for both films and all densities are real; films denser than the substrate and films with different roughnesses at their interfaces are not covered."
  },
  {
   "property": "C156",
   "status": "proved",
   "theorems": [
    "Verif.Props.C156_tail",
    "Verif.Props.C156_surface",
    "Verif.Props.C156_sample"
   ],
   "note": "The uppermost layer has a positive real density; an absorbing uppermost layer is not covered (one constant cannot give two numbers)."
  },
  {
   "property": "C157",
   "status": "proved",
   "theorems": [
    "Verif.Props.C157_tail",
    "Verif.Props.C157_film_tail",
    "Verif.Props.C157_film",
    "Verif.Props.C157_blind",
    "Verif.Props.C157_sample"
   ],
   "note": "C157_blind is about the limit: at finite momentum transfers the two curves of course differ."
  },
  {
   "property": "C158",
   "status": "proved",
   "theorems": [
    "Verif.Props.C158_number",
    "Verif.Props.C158_determined",
    "Verif.Props.C158_learnable"
   ],
   "note": "In exact arithmetic. The number of points and the size of the errors are shown to exist, they are not computed; the roughness is known and the same at both interfaces."
  },
  {
   "property": "C159",
   "status": "proved",
   "theorems": [
    "Verif.Props.C159_classified",
    "Verif.Props.C159_partner",
    "Verif.Props.C159_blind",
    "Verif.Props.C159_other",
    "Verif.Props.C159_sample"
   ],
   "note": "In exact arithmetic. The partner has the same tail to leading order; whether the two curves can agree exactly from some momentum transfer on is not settled."
  },
  {
   "property": "C160",
   "status": "proved",
   "theorems": [
    "Verif.Props.C160_determined",
    "Verif.Props.C160_learnable"
   ],
   "note": "In exact arithmetic. The number of points and the size of the errors are shown to exist, they are not computed; nothing is claimed about the thickness."
  },
  {
   "property": "C161",
   "status": "proved",
   "theorems": [
    "Verif.Props.C161_determined",
    "Verif.Props.C161_learnable"
   ],
   "note": "In exact arithmetic. The number of points and the size of the errors are shown to exist, they are not computed."
  },
  {
   "property": "C162",
   "status": "proved",
   "theorems": [
    "Verif.Props.C162_determined",
    "Verif.Props.C162_learnable"
   ],
   "note": "In exact arithmetic. The number of points and the size of the errors are shown to exist, they are not computed; nothing is claimed about the thickness or the roughness of the surface."
  }
 ]
}
