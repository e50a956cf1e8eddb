import Verif.Props.Reorder
import Verif.Props.Labels
import Verif.Props.Layers
import Verif.Props.Dict
import Verif.Props.Copy
import Verif.Props.Sampling
import Verif.Props.LabelTable
import Verif.Props.Standardize
import Verif.Props.Preprocessing
import Verif.Props.Generator
import Verif.Props.Noise
import Verif.Props.Reflectivity
import Verif.Props.Flux
import Verif.Props.Simulate
import Verif.Props.SldProfile
import Verif.Props.Interpolation
import Verif.Props.Footprint
import Verif.Props.Scans
import Verif.Props.SpecFile
import Verif.Props.Loaders
import Verif.Props.Fio
import Verif.Props.P08
import Verif.Props.Rescaler
import Verif.Props.Prediction
import Verif.Props.FileNames
import Verif.Props.H5
import Verif.Props.H5Load
import Verif.Props.TrainedModel
import Verif.Props.CurveError
import Verif.Props.CurveFitter
import Verif.Props.CurveFitterCases
import Verif.Props.Polish
import Verif.Props.Results
import Verif.Props.Fitters
import Verif.Props.FitterCases
import Verif.Props.Images
import Verif.Props.ImageOrder
import Verif.Props.Combine
import Verif.Props.CalcQ
import Verif.Props.Trainer
import Verif.Props.TrainerCases
import Verif.Props.FioInfo
import Verif.Props.Refine
import Verif.Props.Peaks
import Verif.Props.Compare
import Verif.Props.ScanSeries
import Verif.Props.ResultProfiles
import Verif.Props.Networks
import Verif.Props.TrainingFiles
import Verif.Props.FioHeader
import Verif.Props.Plots
import Verif.Props.Fits
import Verif.Props.ResultPlots
import Verif.Props.Passive
import Verif.Props.Loss
import Verif.Props.Printing
import Verif.Props.Gaussian
import Verif.Props.Continuity
import Verif.Props.Limits
import Verif.Props.ClosedLoop
import Verif.Props.Independent
import Verif.Props.FitSimulator
import Verif.Props.ScanMotors
import Verif.Props.Detectors
import Verif.Props.Words
import Verif.Props.Parratt
import Verif.Props.Thick
import Verif.Props.Counts
import Verif.Props.LoadedFit
import Verif.Props.Seeds
import Verif.Props.RefineUndone
import Verif.Props.FittedCurve
import Verif.Props.Growing
import Verif.Props.CodeFit
import Verif.Props.Rounded
import Verif.Props.GrowingFits
import Verif.Props.Chance
import Verif.Props.NoiseChance
import Verif.Props.LabelLaw
import Verif.Props.Exchange
import Verif.Props.Tail
import Verif.Props.Epochs
import Verif.Props.ErrorKinds
import Verif.Props.Support
import Verif.Props.Ambiguity
import Verif.Props.TestSet
import Verif.Props.Learnable
import Verif.Props.Calls
import Verif.Props.Lookup
import Verif.Props.Identify
import Verif.Props.Film
import Verif.Props.Kinematic
import Verif.Props.Density
import Verif.Props.Withheld
import Verif.Props.RoundedCounts
import Verif.Props.DefaultSupport
import Verif.Props.Irreducible
import Verif.Props.OnSubstrate
import Verif.Props.Distinct
import Verif.Props.BatchSize
import Verif.Props.Falling
import Verif.Props.Recover
import Verif.Props.Fringes
import Verif.Props.TrainerRecover
import Verif.Props.Mirror
import Verif.Props.SampleCalls
import Verif.Props.RoughTail
import Verif.Props.LeastRough
import Verif.Props.RoughSpan
import Verif.Props.RoughFilm
import Verif.Props.SmoothSurface
import Verif.Props.BuriedInterface
import Verif.Props.RoughLearnable
import Verif.Props.Exchanged
import Verif.Props.SurfaceLearnable
import Verif.Props.BareLearnable
import Verif.Props.BuriedLearnable

/-! Axioms of every theorem listed in `MANIFEST.json` (generated). -/

#print axioms Verif.Props.C01_move_layer_first
#print axioms Verif.Props.C01_move_layer
#print axioms Verif.Props.C02_move_preserves_iff
#print axioms Verif.Props.C02_reorder_preserves_partial
#print axioms Verif.Props.C02_reorder_loses_layer
#print axioms Verif.Props.C03_swap_exchanges
#print axioms Verif.Props.C03_swap_involutive
#print axioms Verif.Props.C03_swap_atomic
#print axioms Verif.Props.C03_move_atomic
#print axioms Verif.Props.C03_rename
#print axioms Verif.Props.C04_add_layer
#print axioms Verif.Props.C05_label_names
#print axioms Verif.Props.C06_labels_distinct_iff
#print axioms Verif.Props.C07_separate_partial
#print axioms Verif.Props.C07_separate_iff
#print axioms Verif.Props.C07_separate_sample_partial
#print axioms Verif.Props.C07_separate_wrong
#print axioms Verif.Props.C08_dict_roundtrip
#print axioms Verif.Props.C09_from_dict_sets_partial
#print axioms Verif.Props.C09_from_dict_appends
#print axioms Verif.Props.C10_copy_independent
#print axioms Verif.Props.C10_copy_equal
#print axioms Verif.Props.C11_parameter
#print axioms Verif.Props.C11_layer
#print axioms Verif.Props.C11_substrate
#print axioms Verif.Props.C11_constant_layer
#print axioms Verif.Props.C11_layer_regular
#print axioms Verif.Props.C11_constant_regular
#print axioms Verif.Props.C11_substrate_regular
#print axioms Verif.Props.C11_ambient_regular
#print axioms Verif.Props.C12_constant_partial
#print axioms Verif.Props.C12_range_sld_accepted
#print axioms Verif.Props.C13_add_layer_step
#print axioms Verif.Props.C13_single_variable_partial
#print axioms Verif.Props.C13_several_variable_layers
#print axioms Verif.Props.C14_in_range_partial
#print axioms Verif.Props.C14_constant
#print axioms Verif.Props.C14_bolstered_iff
#print axioms Verif.Props.C14_bolstered_leaves_range
#print axioms Verif.Props.C15_count
#print axioms Verif.Props.C15_bolstered_symmetric
#print axioms Verif.Props.C16_roughness_partial
#print axioms Verif.Props.C16_table_partial
#print axioms Verif.Props.C16_roughness_exceeds
#print axioms Verif.Props.C17_label_table
#print axioms Verif.Props.C17_rejects
#print axioms Verif.Props.C17_returns
#print axioms Verif.Props.C18_rectangle_partial
#print axioms Verif.Props.C18_reversed_raises
#print axioms Verif.Props.C18_leaves_rectangle
#print axioms Verif.Props.C14_in_range_partial
#print axioms Verif.Props.C19_first_fit_wins
#print axioms Verif.Props.C19_consistent
#print axioms Verif.Props.C19_rejected_fit
#print axioms Verif.Props.C20_invertible
#print axioms Verif.Props.C21_zero_mean_unit_variance
#print axioms Verif.Props.C22_round_trip_partial
#print axioms Verif.Props.C22_absolute_max_zero
#print axioms Verif.Props.C23_min_to_zero
#print axioms Verif.Props.C23_absolute_max_partial
#print axioms Verif.Props.C23_absolute_max_iff
#print axioms Verif.Props.C23_absolute_max_exceeds
#print axioms Verif.Props.C24_partition
#print axioms Verif.Props.C25_literal_partial
#print axioms Verif.Props.C25_not_by_value
#print axioms Verif.Props.C26_epoch
#print axioms Verif.Props.C26_init
#print axioms Verif.Props.C27_plain
#print axioms Verif.Props.C27_noise
#print axioms Verif.Props.C27_uniform_partial
#print axioms Verif.Props.C27_uniform_one
#print axioms Verif.Props.C27_unfitted
#print axioms Verif.Props.C28_shot
#print axioms Verif.Props.C28_poisson
#print axioms Verif.Props.C28_uniform
#print axioms Verif.Props.C28_background
#print axioms Verif.Props.C28_scaling_partial
#print axioms Verif.Props.C28_scaling_one
#print axioms Verif.Props.C28_shot_empty
#print axioms Verif.Props.C29_shot
#print axioms Verif.Props.C29_poisson
#print axioms Verif.Props.C29_total
#print axioms Verif.Props.C30_single_partial
#print axioms Verif.Props.C30_batch
#print axioms Verif.Props.C30_mode_identity
#print axioms Verif.Props.C31_split
#print axioms Verif.Props.C32_always_raises
#print axioms Verif.Props.C32_empty_partial
#print axioms Verif.Props.C33_wave_vectors
#print axioms Verif.Props.C33_unique
#print axioms Verif.Props.C33_division
#print axioms Verif.Props.C34_sharp
#print axioms Verif.Props.C34_nan
#print axioms Verif.Props.C34_range_partial
#print axioms Verif.Props.C34_sharp
#print axioms Verif.Props.C34_nan
#print axioms Verif.Props.C35_pointwise
#print axioms Verif.Props.C35_rearrange
#print axioms Verif.Props.C35_transfer
#print axioms Verif.Props.C36_split
#print axioms Verif.Props.C37_vanish
#print axioms Verif.Props.C38_no_contrast
#print axioms Verif.Props.C39_substrate
#print axioms Verif.Props.C39_below_one
#print axioms Verif.Props.C40_refl1d_partial
#print axioms Verif.Props.C40_builtin_partial
#print axioms Verif.Props.C40_same_stack
#print axioms Verif.Props.C41_lengths
#print axioms Verif.Props.C41_profile
#print axioms Verif.Props.C41_heights
#print axioms Verif.Props.C41_monotone
#print axioms Verif.Props.C41_antitone
#print axioms Verif.Props.C41_limits
#print axioms Verif.Props.C41_table
#print axioms Verif.Props.C41_table_lengths
#print axioms Verif.Props.C42_interpolation
#print axioms Verif.Props.C42_errors
#print axioms Verif.Props.C43_shift
#print axioms Verif.Props.C43_scale
#print axioms Verif.Props.C44_angle
#print axioms Verif.Props.C44_q
#print axioms Verif.Props.C44_monotone
#print axioms Verif.Props.C44_energy
#print axioms Verif.Props.C44_zero
#print axioms Verif.Props.C45_factors
#print axioms Verif.Props.C45_inverse
#print axioms Verif.Props.C46_max
#print axioms Verif.Props.C46_first
#print axioms Verif.Props.C46_ratios
#print axioms Verif.Props.C46_empty
#print axioms Verif.Props.C47_missing
#print axioms Verif.Props.C47_normalization
#print axioms Verif.Props.C47_valid
#print axioms Verif.Props.C47_beam_shape_swallowed
#print axioms Verif.Props.C48_ranges
#print axioms Verif.Props.C48_between
#print axioms Verif.Props.C48_empty
#print axioms Verif.Props.C49_round_trip_partial
#print axioms Verif.Props.C50_blocks_partial
#print axioms Verif.Props.C50_errors
#print axioms Verif.Props.C50_recursion
#print axioms Verif.Props.C51_names_iff
#print axioms Verif.Props.C51_leading_l
#print axioms Verif.Props.C52_rectangular_partial
#print axioms Verif.Props.C52_errors
#print axioms Verif.Props.C52_duplicate_names
#print axioms Verif.Props.C53_number
#print axioms Verif.Props.C53_listing_partial
#print axioms Verif.Props.C53_info_partial
#print axioms Verif.Props.C53_info_exists
#print axioms Verif.Props.C53_shared_prefix
#print axioms Verif.Props.C54_order
#print axioms Verif.Props.C54_abort
#print axioms Verif.Props.C54_spec_skipped_iff
#print axioms Verif.Props.C54_fio_skipped
#print axioms Verif.Props.C54_fio_list
#print axioms Verif.Props.C54_corrupt_table_skipped
#print axioms Verif.Props.C54_missing_time_aborts
#print axioms Verif.Props.C54_fio_missing_aborts
#print axioms Verif.Props.C55_trim_partial
#print axioms Verif.Props.C55_trim_back_zero
#print axioms Verif.Props.C56_joined
#print axioms Verif.Props.C56_sign_iff_partial
#print axioms Verif.Props.C57_loaded_scan
#print axioms Verif.Props.C57_no_angle_columns
#print axioms Verif.Props.C58_default_partial
#print axioms Verif.Props.C58_custom_twice
#print axioms Verif.Props.C58_custom_once_partial
#print axioms Verif.Props.C58_custom_witness
#print axioms Verif.Props.C59_fio
#print axioms Verif.Props.C59_spec_partial
#print axioms Verif.Props.C59_spec_unchanged_partial
#print axioms Verif.Props.C59_spec_stale
#print axioms Verif.Props.C59_false
#print axioms Verif.Props.C59_spec_loader
#print axioms Verif.Props.C59_fio_loader
#print axioms Verif.Props.C60_both_partial
#print axioms Verif.Props.C60_plain
#print axioms Verif.Props.C60_draws
#print axioms Verif.Props.C60_false
#print axioms Verif.Props.C60_code_partial
#print axioms Verif.Props.C61_q_partial
#print axioms Verif.Props.C61_scaling_partial
#print axioms Verif.Props.C61_nan
#print axioms Verif.Props.C61_code_partial
#print axioms Verif.Props.C61_builtin_partial
#print axioms Verif.Props.C62_nonneg
#print axioms Verif.Props.C62_values
#print axioms Verif.Props.C62_labels_partial
#print axioms Verif.Props.C62_sld_altered
#print axioms Verif.Props.C63_bounds_partial
#print axioms Verif.Props.C63_documented_partial
#print axioms Verif.Props.C63_false
#print axioms Verif.Props.C63_count
#print axioms Verif.Props.C63_minimum
#print axioms Verif.Props.C64_scan
#print axioms Verif.Props.C64_network_input
#print axioms Verif.Props.C65_metric
#print axioms Verif.Props.C65_lengths
#print axioms Verif.Props.C65_rounded_partial
#print axioms Verif.Props.C65_rounded_zero
#print axioms Verif.Props.C65_mismatch
#print axioms Verif.Props.C66_paths
#print axioms Verif.Props.C66_ordered
#print axioms Verif.Props.C66_params
#print axioms Verif.Props.C66_saved
#print axioms Verif.Props.C66_rows
#print axioms Verif.Props.C66_files
#print axioms Verif.Props.C66_no_curve_mse
#print axioms Verif.Props.C66_empty
#print axioms Verif.Props.C67_none_iff
#print axioms Verif.Props.C67_values
#print axioms Verif.Props.C67_unreadable
#print axioms Verif.Props.C68_step_partial
#print axioms Verif.Props.C68_foreign
#print axioms Verif.Props.C68_false
#print axioms Verif.Props.C68_consistent
#print axioms Verif.Props.C69_history
#print axioms Verif.Props.C69_frame
#print axioms Verif.Props.C70_roundtrip_partial
#print axioms Verif.Props.C70_other_name
#print axioms Verif.Props.C70_no_extension
#print axioms Verif.Props.C70_stale
#print axioms Verif.Props.C70_info_conflict
#print axioms Verif.Props.C71_fresh_partial
#print axioms Verif.Props.C71_labels_partial
#print axioms Verif.Props.C71_mixes
#print axioms Verif.Props.C72_roundtrip_partial
#print axioms Verif.Props.C72_interrupted
#print axioms Verif.Props.C72_failed_save
#print axioms Verif.Props.C72_half_updated
#print axioms Verif.Props.C72_complex_range
#print axioms Verif.Props.C72_zero_imaginary
#print axioms Verif.Props.C72_incomplete
#print axioms Verif.Props.C73_ensure
#print axioms Verif.Props.C73_collisions
#print axioms Verif.Props.C73_strip
#print axioms Verif.Props.C73_strip_keeps
#print axioms Verif.Props.C73_strip_ensure
#print axioms Verif.Props.C74_remove_double
#print axioms Verif.Props.C75_sums
#print axioms Verif.Props.C75_partition
#print axioms Verif.Props.C75_partition_line
#print axioms Verif.Props.C76_inverse
#print axioms Verif.Props.C76_max
#print axioms Verif.Props.C76_identity
#print axioms Verif.Props.C76_constructor
#print axioms Verif.Props.C76_angles
#print axioms Verif.Props.C77_mae_partial
#print axioms Verif.Props.C77_mape_partial
#print axioms Verif.Props.C77_rows_skipped
#print axioms Verif.Props.C77_zero_reference
#print axioms Verif.Props.C78_log_partial
#print axioms Verif.Props.C78_values
#print axioms Verif.Props.C78_background_counterexample
#print axioms Verif.Props.C79_one_curve_per_row_partial
#print axioms Verif.Props.C79_own_row_partial
#print axioms Verif.Props.C79_bare_substrate
#print axioms Verif.Props.C79_errors
#print axioms Verif.Props.C80_gauss
#print axioms Verif.Props.C80_box
#print axioms Verif.Props.C81_fio_partial
#print axioms Verif.Props.C81_fio_command
#print axioms Verif.Props.C81_fio_misreported
#print axioms Verif.Props.C81_spec_raises
#print axioms Verif.Props.C81_spec_handler
#print axioms Verif.Props.C82_spec
#print axioms Verif.Props.C82_fio_partial
#print axioms Verif.Props.C82_fio_raises
#print axioms Verif.Props.C82_fio_never
#print axioms Verif.Props.C83_spec
#print axioms Verif.Props.C83_fio
#print axioms Verif.Props.C83_empty
#print axioms Verif.Props.C84_fio
#print axioms Verif.Props.C84_fio_flag_partial
#print axioms Verif.Props.C84_spec_partial
#print axioms Verif.Props.C84_hidden
#print axioms Verif.Props.C84_empty
#print axioms Verif.Props.C84_no_file
#print axioms Verif.Props.C85_pilatus_exact
#print axioms Verif.Props.C85_pilatus_partial
#print axioms Verif.Props.C85_shifted
#print axioms Verif.Props.C85_no_index
#print axioms Verif.Props.C85_cbf
#print axioms Verif.Props.C85_nexus_exact
#print axioms Verif.Props.C85_nexus_no_index
#print axioms Verif.Props.C85_nexus_partial
#print axioms Verif.Props.C85_nexus_repeated
#print axioms Verif.Props.C85_nexus_order
#print axioms Verif.Props.C85_nan_index
#print axioms Verif.Props.C86_order_partial
#print axioms Verif.Props.C86_pilatus_twice
#print axioms Verif.Props.C86_mythen
#print axioms Verif.Props.C87_combined
#print axioms Verif.Props.C87_twice
#print axioms Verif.Props.C87_no_attenuator
#print axioms Verif.Props.C87_no_attenuator_call
#print axioms Verif.Props.C88_momentum
#print axioms Verif.Props.C88_other
#print axioms Verif.Props.C88_loader
#print axioms Verif.Props.C88_other_constant
#print axioms Verif.Props.C88_twice
#print axioms Verif.Props.C88_remove_double
#print axioms Verif.Props.C89_rows
#print axioms Verif.Props.C89_unknown_motor
#print axioms Verif.Props.C91_training
#print axioms Verif.Props.C91_starts_iff
#print axioms Verif.Props.C91_needs_data
#print axioms Verif.Props.C91_stale_preprocessor
#print axioms Verif.Props.C91_network
#print axioms Verif.Props.C92_statistics
#print axioms Verif.Props.C92_unchanged_partial
#print axioms Verif.Props.C92_network_shared
#print axioms Verif.Props.C92_witness
#print axioms Verif.Props.C98_simulated
#print axioms Verif.Props.C98_each
#print axioms Verif.Props.C98_improves_partial
#print axioms Verif.Props.C98_improves_inside
#print axioms Verif.Props.C98_undone
#print axioms Verif.Props.C98_code_partial
#print axioms Verif.Props.C90_gauss
#print axioms Verif.Props.C90_lorentz
#print axioms Verif.Props.C90_lorentz_zero
#print axioms Verif.Props.C90_voigt
#print axioms Verif.Props.C90_multi_gauss
#print axioms Verif.Props.C90_multi_voigt
#print axioms Verif.Props.C90_gauss_lorentzian
#print axioms Verif.Props.C90_start
#print axioms Verif.Props.C90_start_empty
#print axioms Verif.Props.C90_gauss_lorentz_start
#print axioms Verif.Props.C90_two_lorentz
#print axioms Verif.Props.C90_no_background
#print axioms Verif.Props.C93_order_partial
#print axioms Verif.Props.C93_complex
#print axioms Verif.Props.C93_numpy
#print axioms Verif.Props.C93_foreign
#print axioms Verif.Props.C93_in_partial
#print axioms Verif.Props.C93_int_partial
#print axioms Verif.Props.C93_limits
#print axioms Verif.Props.C94_append
#print axioms Verif.Props.C94_check
#print axioms Verif.Props.C94_foreign
#print axioms Verif.Props.C94_stats
#print axioms Verif.Props.C94_stats_exists
#print axioms Verif.Props.C94_array
#print axioms Verif.Props.C94_foreign_error
#print axioms Verif.Props.C94_positions
#print axioms Verif.Props.C95_series
#print axioms Verif.Props.C95_each
#print axioms Verif.Props.C95_profile
#print axioms Verif.Props.C96_labels
#print axioms Verif.Props.C96_single
#print axioms Verif.Props.C96_rejects
#print axioms Verif.Props.C96_simple_nonneg
#print axioms Verif.Props.C96_simple_negative
#print axioms Verif.Props.C96_reachable
#print axioms Verif.Props.C97_order
#print axioms Verif.Props.C97_stamps
#print axioms Verif.Props.C97_style
#print axioms Verif.Props.C97_setup
#print axioms Verif.Props.C97_succeeds
#print axioms Verif.Props.C97_path
#print axioms Verif.Props.C97_distinct
#print axioms Verif.Props.C97_extension
#print axioms Verif.Props.C99_motor
#print axioms Verif.Props.C99_rois
#print axioms Verif.Props.C99_ub
#print axioms Verif.Props.C99_signal
#print axioms Verif.Props.C99_ub_commas
#print axioms Verif.Props.C99_unnamed
#print axioms Verif.Props.C99_example
#print axioms Verif.Props.C100_panels_partial
#print axioms Verif.Props.C100_grid_fails
#print axioms Verif.Props.C100_single_region
#print axioms Verif.Props.C100_fitting_numbers
#print axioms Verif.Props.C100_area
#print axioms Verif.Props.C100_flat
#print axioms Verif.Props.C100_all
#print axioms Verif.Props.C101_simple_residual
#print axioms Verif.Props.C101_gauss_lorentz_residual
#print axioms Verif.Props.C101_default_weight
#print axioms Verif.Props.C101_voigt_residual
#print axioms Verif.Props.C101_voigt_biased
#print axioms Verif.Props.C101_simple_fit
#print axioms Verif.Props.C101_gauss_lorentz_fit
#print axioms Verif.Props.C101_voigt_fit
#print axioms Verif.Props.C101_voigt_start
#print axioms Verif.Props.C101_sum
#print axioms Verif.Props.C101_overwritten
#print axioms Verif.Props.C101_multi_fails
#print axioms Verif.Props.C101_multi_type_error
#print axioms Verif.Props.C101_voigt_silent
#print axioms Verif.Props.C101_diff
#print axioms Verif.Props.C102_units_partial
#print axioms Verif.Props.C102_wrong_unit
#print axioms Verif.Props.C102_prediction
#print axioms Verif.Props.C102_prediction_lengths
#print axioms Verif.Props.C102_over_scans
#print axioms Verif.Props.C102_over_time
#print axioms Verif.Props.C102_no_unit
#print axioms Verif.Props.C102_documented_names
#print axioms Verif.Props.C102_profile
#print axioms Verif.Props.C102_profiles
#print axioms Verif.Props.C102_colours_partial
#print axioms Verif.Props.C102_wrong_colour
#print axioms Verif.Props.C102_scan
#print axioms Verif.Props.C102_series
#print axioms Verif.Props.C102_selection
#print axioms Verif.Props.C102_empty_series
#print axioms Verif.Props.C102_not_numbers
#print axioms Verif.Props.C102_foreign
#print axioms Verif.Props.C103_passive
#print axioms Verif.Props.C103_one_layer
#print axioms Verif.Props.C104_value
#print axioms Verif.Props.C104_lengths
#print axioms Verif.Props.C104_number_iff
#print axioms Verif.Props.C104_objective
#print axioms Verif.Props.C104_refine
#print axioms Verif.Props.C105_printed
#print axioms Verif.Props.C105_unique
#print axioms Verif.Props.C105_subscription
#print axioms Verif.Props.C105_printed_index
#print axioms Verif.Props.C106_weights
#print axioms Verif.Props.C106_degenerate
#print axioms Verif.Props.C107_continuous
#print axioms Verif.Props.C107_sharp
#print axioms Verif.Props.C108_total_reflection
#print axioms Verif.Props.C108_decay
#print axioms Verif.Props.C109_perfect
#print axioms Verif.Props.C109_corrections
#print axioms Verif.Props.C109_refined
#print axioms Verif.Props.C109_learned
#print axioms Verif.Props.C109_trained
#print axioms Verif.Props.C109_code
#print axioms Verif.Props.C110_alone
#print axioms Verif.Props.C110_together
#print axioms Verif.Props.C110_generator
#print axioms Verif.Props.C110_code
#print axioms Verif.Props.C111_motors
#print axioms Verif.Props.C111_incomplete
#print axioms Verif.Props.C111_loaded
#print axioms Verif.Props.C112_detectors
#print axioms Verif.Props.C112_unambiguous
#print axioms Verif.Props.C112_images
#print axioms Verif.Props.C112_mythen
#print axioms Verif.Props.C112_mythen_loads
#print axioms Verif.Props.C112_mythen_refused
#print axioms Verif.Props.C112_folder
#print axioms Verif.Props.C113_parratt
#print axioms Verif.Props.C113_sharp
#print axioms Verif.Props.C113_units
#print axioms Verif.Props.C113_simulated
#print axioms Verif.Props.C114_thick
#print axioms Verif.Props.C114_on_substrate
#print axioms Verif.Props.C114_symmetric
#print axioms Verif.Props.C115_corrected
#print axioms Verif.Props.C115_fit
#print axioms Verif.Props.C115_spec_scan
#print axioms Verif.Props.C115_spec
#print axioms Verif.Props.C115_fio_scan
#print axioms Verif.Props.C115_fio
#print axioms Verif.Props.C115_unnormalized
#print axioms Verif.Props.C116_fit
#print axioms Verif.Props.C116_result
#print axioms Verif.Props.C116_other_file
#print axioms Verif.Props.C117_reproducible
#print axioms Verif.Props.C117_unseeded
#print axioms Verif.Props.C117_repeats
#print axioms Verif.Props.C117_shared
#print axioms Verif.Props.C118_builtin
#print axioms Verif.Props.C118_refl1d
#print axioms Verif.Props.C119_append
#print axioms Verif.Props.C119_load
#print axioms Verif.Props.C119_rows
#print axioms Verif.Props.C119_no_blank
#print axioms Verif.Props.C119_exhausted
#print axioms Verif.Props.C120_normalized_labels
#print axioms Verif.Props.C120_normalized_labels_abs
#print axioms Verif.Props.C120_labels_round_trip
#print axioms Verif.Props.C120_labels_round_trip_abs
#print axioms Verif.Props.C120_restored
#print axioms Verif.Props.C120_above
#print axioms Verif.Props.C120_standardized
#print axioms Verif.Props.C120_normalized_max
#print axioms Verif.Props.C120_normalized_first
#print axioms Verif.Props.C120_fold
#print axioms Verif.Props.C120_log_draws
#print axioms Verif.Props.C120_log_above
#print axioms Verif.Props.C120_interpolated
#print axioms Verif.Props.C120_mse
#print axioms Verif.Props.C120_selected
#print axioms Verif.Props.C121_isolated
#print axioms Verif.Props.C121_fit
#print axioms Verif.Props.C121_fit_range
#print axioms Verif.Props.C121_set_file
#print axioms Verif.Props.C122_values
#print axioms Verif.Props.C122_bolstered
#print axioms Verif.Props.C122_bolstered_few
#print axioms Verif.Props.C123_uniform
#print axioms Verif.Props.C123_scaling
#print axioms Verif.Props.C123_trainer
#print axioms Verif.Props.C123_shot
#print axioms Verif.Props.C123_shot_raised
#print axioms Verif.Props.C123_poisson
#print axioms Verif.Props.C123_poisson_documented
#print axioms Verif.Props.C123_uniform_curve
#print axioms Verif.Props.C124_table
#print axioms Verif.Props.C124_rows
#print axioms Verif.Props.C124_laws
#print axioms Verif.Props.C124_roughness
#print axioms Verif.Props.C125_exchangeable
#print axioms Verif.Props.C125_subsets
#print axioms Verif.Props.C125_split
#print axioms Verif.Props.C125_value
#print axioms Verif.Props.C126_value
#print axioms Verif.Props.C126_value_bounds
#print axioms Verif.Props.C126_table
#print axioms Verif.Props.C126_default
#print axioms Verif.Props.C127_epochs
#print axioms Verif.Props.C127_batch
#print axioms Verif.Props.C127_left_out
#print axioms Verif.Props.C127_unshuffled
#print axioms Verif.Props.C127_positions
#print axioms Verif.Props.C128_keys
#print axioms Verif.Props.C128_right_keys
#print axioms Verif.Props.C128_noise
#print axioms Verif.Props.C128_predict
#print axioms Verif.Props.C128_show
#print axioms Verif.Props.C128_command
#print axioms Verif.Props.C128_members
#print axioms Verif.Props.C128_spread
#print axioms Verif.Props.C129_support
#print axioms Verif.Props.C129_dense
#print axioms Verif.Props.C130_generated
#print axioms Verif.Props.C130_same_curve
#print axioms Verif.Props.C130_unlearnable
#print axioms Verif.Props.C130_thickness
#print axioms Verif.Props.C130_network
#print axioms Verif.Props.C131_past
#print axioms Verif.Props.C131_loss
#print axioms Verif.Props.C131_stop
#print axioms Verif.Props.C131_misses
#print axioms Verif.Props.C131_select
#print axioms Verif.Props.C131_known
#print axioms Verif.Props.C131_train_test
#print axioms Verif.Props.C132_learnable
#print axioms Verif.Props.C132_iff
#print axioms Verif.Props.C132_substrate
#print axioms Verif.Props.C133_binding
#print axioms Verif.Props.C133_keyword
#print axioms Verif.Props.C133_position
#print axioms Verif.Props.C133_call_partial
#print axioms Verif.Props.C133_ignored
#print axioms Verif.Props.C133_not_always
#print axioms Verif.Props.C133_bad_call
#print axioms Verif.Props.C133_spec
#print axioms Verif.Props.C133_fio
#print axioms Verif.Props.C133_verbose
#print axioms Verif.Props.C133_not_silent
#print axioms Verif.Props.C133_unasked
#print axioms Verif.Props.C134_lookup
#print axioms Verif.Props.C134_exists
#print axioms Verif.Props.C134_limit
#print axioms Verif.Props.C134_only_then
#print axioms Verif.Props.C135_both
#print axioms Verif.Props.C135_density
#print axioms Verif.Props.C135_one
#print axioms Verif.Props.C135_learnable
#print axioms Verif.Props.C136_finite
#print axioms Verif.Props.C136_film
#print axioms Verif.Props.C136_thickness
#print axioms Verif.Props.C136_invisible
#print axioms Verif.Props.C137_tail
#print axioms Verif.Props.C137_total
#print axioms Verif.Props.C137_learnable
#print axioms Verif.Props.C138_steps
#print axioms Verif.Props.C138_film
#print axioms Verif.Props.C138_learnable
#print axioms Verif.Props.C139_generator
#print axioms Verif.Props.C139_training_partial
#print axioms Verif.Props.C139_leak
#print axioms Verif.Props.C139_witness
#print axioms Verif.Props.C140_batches
#print axioms Verif.Props.C140_train
#print axioms Verif.Props.C140_split
#print axioms Verif.Props.C140_one_less
#print axioms Verif.Props.C140_bolstered
#print axioms Verif.Props.C141_support
#print axioms Verif.Props.C141_unlearnable
#print axioms Verif.Props.C142_loss
#print axioms Verif.Props.C142_uniform
#print axioms Verif.Props.C142_sharp
#print axioms Verif.Props.C143_restored_partial
#print axioms Verif.Props.C143_not_restored
#print axioms Verif.Props.C143_multilayer
#print axioms Verif.Props.C143_into
#print axioms Verif.Props.C143_copy
#print axioms Verif.Props.C144_thickness
#print axioms Verif.Props.C144_film
#print axioms Verif.Props.C144_value
#print axioms Verif.Props.C144_distinct
#print axioms Verif.Props.C144_consistent
#print axioms Verif.Props.C145_enough_partial
#print axioms Verif.Props.C145_refused
#print axioms Verif.Props.C145_exactly
#print axioms Verif.Props.C145_default
#print axioms Verif.Props.C145_rounded
#print axioms Verif.Props.C145_not_always
#print axioms Verif.Props.C146_falls
#print axioms Verif.Props.C146_rough
#print axioms Verif.Props.C146_dense
#print axioms Verif.Props.C146_sample
#print axioms Verif.Props.C147_spec_partial
#print axioms Verif.Props.C147_fio_partial
#print axioms Verif.Props.C147_fio_state_partial
#print axioms Verif.Props.C147_foreign
#print axioms Verif.Props.C147_not_always
#print axioms Verif.Props.C148_rises
#print axioms Verif.Props.C148_sample
#print axioms Verif.Props.C148_layered
#print axioms Verif.Props.C149_train_partial
#print axioms Verif.Props.C149_generate_partial
#print axioms Verif.Props.C149_stored
#print axioms Verif.Props.C149_single
#print axioms Verif.Props.C149_lost
#print axioms Verif.Props.C149_not_always
#print axioms Verif.Props.C150_mirror
#print axioms Verif.Props.C150_film
#print axioms Verif.Props.C150_blind
#print axioms Verif.Props.C151_unchanged_partial
#print axioms Verif.Props.C151_later_partial
#print axioms Verif.Props.C151_from_dict
#print axioms Verif.Props.C151_not_always
#print axioms Verif.Props.C151_leftover
#print axioms Verif.Props.C152_tail
#print axioms Verif.Props.C152_determined
#print axioms Verif.Props.C152_sample
#print axioms Verif.Props.C152_roughness
#print axioms Verif.Props.C153_tail
#print axioms Verif.Props.C153_determined
#print axioms Verif.Props.C153_exists
#print axioms Verif.Props.C153_sample
#print axioms Verif.Props.C153_roughness
#print axioms Verif.Props.C154_span
#print axioms Verif.Props.C154_sample
#print axioms Verif.Props.C154_film
#print axioms Verif.Props.C155_film
#print axioms Verif.Props.C155_sample
#print axioms Verif.Props.C156_tail
#print axioms Verif.Props.C156_surface
#print axioms Verif.Props.C156_sample
#print axioms Verif.Props.C157_tail
#print axioms Verif.Props.C157_film_tail
#print axioms Verif.Props.C157_film
#print axioms Verif.Props.C157_blind
#print axioms Verif.Props.C157_sample
#print axioms Verif.Props.C158_number
#print axioms Verif.Props.C158_determined
#print axioms Verif.Props.C158_learnable
#print axioms Verif.Props.C159_classified
#print axioms Verif.Props.C159_partner
#print axioms Verif.Props.C159_blind
#print axioms Verif.Props.C159_other
#print axioms Verif.Props.C159_sample
#print axioms Verif.Props.C160_determined
#print axioms Verif.Props.C160_learnable
#print axioms Verif.Props.C161_determined
#print axioms Verif.Props.C161_learnable
#print axioms Verif.Props.C162_determined
#print axioms Verif.Props.C162_learnable
