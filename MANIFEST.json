{
 "claims": [
  {
   "property": "C01",
   "status": "proved",
   "theorems": [
    "Resistics.C01_sample_datetime_round_trip",
    "Resistics.C01_truncated_period_off_by_one"
   ],
   "note": "Round trip for every fs whose period is kept by to_timedelta (iff characterised by periodKept_iff); C01_truncated_period_off_by_one shows what happens otherwise. Exact arithmetic; double precision in C56."
  },
  {
   "property": "C02",
   "status": "proved",
   "theorems": [
    "Resistics.C02_from_time_first_at_or_after",
    "Resistics.C02_to_time_last_at_or_before",
    "Resistics.C02_range_is_exactly_enclosed_samples"
   ],
   "note": "Exact arithmetic; in double precision the range can lose a sample at either end (C56_range_loses_samples)."
  },
  {
   "property": "C03",
   "status": "proved",
   "theorems": [
    "Resistics.C03_refused_or_in_range",
    "Resistics.C03_clamped_to_recording",
    "Resistics.C03_check_times"
   ],
   "note": ""
  },
  {
   "property": "C04",
   "status": "proved",
   "theorems": [
    "Resistics.C04_span_to_n_samples",
    "Resistics.C04_floor_counts_samples_in_span",
    "Resistics.C04_methods_ordered",
    "Resistics.C04_datetime_array",
    "Resistics.C04_datetime_array_samples",
    "Resistics.C04_adjusted_metadata"
   ],
   "note": ""
  },
  {
   "property": "C05",
   "status": "proved",
   "theorems": [
    "Resistics.C05_read_returns_requested_samples",
    "Resistics.C05_ascii_agrees_with_numpy",
    "Resistics.C05_ascii_single_channel_squeezed"
   ],
   "note": "Numpy reader in full; ASCII reader for two or more channels; for one channel the code returns a 1-d array (C05_ascii_single_channel_squeezed)."
  },
  {
   "property": "C06",
   "status": "proved",
   "theorems": [
    "Resistics.C06_subsection_exact",
    "Resistics.C06_subsection_compose"
   ],
   "note": ""
  },
  {
   "property": "C07",
   "status": "proved",
   "theorems": [
    "Resistics.C07_windows_inside"
   ],
   "note": ""
  },
  {
   "property": "C08",
   "status": "proved",
   "theorems": [
    "Resistics.C08_windows_consecutive",
    "Resistics.C08_window_times"
   ],
   "note": ""
  },
  {
   "property": "C09",
   "status": "proved",
   "theorems": [
    "Resistics.C09_no_window_lost",
    "Resistics.C09_failure",
    "Resistics.C09_succeeds",
    "Resistics.C09_gives_up_on_large_overlaps",
    "Resistics.C09_table_complete",
    "Resistics.C09_table_succeeds",
    "Resistics.C09_short_recording_refused"
   ],
   "note": "No window is lost whenever a table is produced; C09_succeeds for 2*olap <= win+1; for larger overlaps the code can give up (C09_gives_up_on_large_overlaps)."
  },
  {
   "property": "C10",
   "status": "proved",
   "theorems": [
    "Resistics.C10_window_start_near_instant",
    "Resistics.C10_recordings_align"
   ],
   "note": "Exact arithmetic; in double precision the same window of two recordings can be one sample apart even on a common grid (C56_windows_misaligned)."
  },
  {
   "property": "C11",
   "status": "proved",
   "theorems": [
    "Resistics.C11_round_trip",
    "Resistics.C11_floor_ceil_round",
    "Resistics.C11_before_reference_refused",
    "Resistics.C11_spacing"
   ],
   "note": ""
  },
  {
   "property": "C12",
   "status": "proved",
   "theorems": [
    "Resistics.C12_levels",
    "Resistics.C12_window_contents",
    "Resistics.C12_succeeds",
    "Resistics.C12_single_channel_squeezed",
    "Resistics.C12_single_window_loses_channels",
    "Resistics.C12_windows_counted",
    "Resistics.C12_zero_overlap_refused"
   ],
   "note": "Contents for two or more channels and min_n_wins >= 2; outside of that np.squeeze changes the shape (C12_single_channel_squeezed, C12_single_window_loses_channels)."
  },
  {
   "property": "C13",
   "status": "proved",
   "theorems": [
    "Resistics.C13_get_local",
    "Resistics.C13_get_global",
    "Resistics.C13_get_global_wrong_witness"
   ],
   "note": "Local index in full; the code's global lookup adds the offset, so it is right exactly for offset 0 (C13_get_global, witness C13_get_global_wrong_witness)."
  },
  {
   "property": "C14",
   "status": "proved",
   "theorems": [
    "Resistics.C14_one_size_per_level",
    "Resistics.C14_default_sizes",
    "Resistics.C14_explicit_sizes",
    "Resistics.C14_overlaps",
    "Resistics.C14_overlap_can_exceed_explicit_window",
    "Resistics.C14_default_setup"
   ],
   "note": "Overlap below window size under the stated condition; C14_overlap_can_exceed_explicit_window shows the condition is needed."
  },
  {
   "property": "C15",
   "status": "proved",
   "theorems": [
    "Resistics.C15_target_size",
    "Resistics.C15_target_levels",
    "Resistics.C15_windower_starts_reproduced",
    "Resistics.C15_target_starts_shifted"
   ],
   "note": "WindowerTarget stores the first time instead of the reference time: C15_target_starts_shifted."
  },
  {
   "property": "C16",
   "status": "proved",
   "theorems": [
    "Resistics.C16_eval_freqs_min",
    "Resistics.C16_eval_freqs_size",
    "Resistics.C16_ladder"
   ],
   "note": ""
  },
  {
   "property": "C17",
   "status": "proved",
   "theorems": [
    "Resistics.C17_decimation_factor",
    "Resistics.C17_factor_monotone"
   ],
   "note": ""
  },
  {
   "property": "C18",
   "status": "proved",
   "theorems": [
    "Resistics.C18_parameters_consistent",
    "Resistics.C18_freqs_below_level_nyquist",
    "Resistics.C18_default_setup",
    "Resistics.C18_increasing_frequencies_break_increments"
   ],
   "note": "For non-increasing evaluation frequencies; C18_increasing_frequencies_break_increments shows the hypothesis is needed."
  },
  {
   "property": "C19",
   "status": "proved",
   "theorems": [
    "Resistics.C19_eval_freq_lookup",
    "Resistics.C19_level_index_unique",
    "Resistics.C19_setup_length"
   ],
   "note": ""
  },
  {
   "property": "C20",
   "status": "proved",
   "theorems": [
    "Resistics.C20_pyramid",
    "Resistics.C20_increment_one",
    "Resistics.C20_levels_consistent"
   ],
   "note": ""
  },
  {
   "property": "C21",
   "status": "proved",
   "theorems": [
    "Resistics.C21_downsample_factors",
    "Resistics.C21_stages_bounded",
    "Resistics.C21_bound_fails_for_large_primes"
   ],
   "note": "Product and bound; the bound has the exception stated in the property (single prime factors larger than the maximum), with a witness."
  },
  {
   "property": "C22",
   "status": "proved",
   "theorems": [
    "Resistics.C22_square_root_rounded",
    "Resistics.C22_prime_factorisation",
    "Resistics.C22_is_the_factorisation"
   ],
   "note": ""
  },
  {
   "property": "C23",
   "status": "proved",
   "theorems": [
    "Resistics.C23_chain_consistent",
    "Resistics.C23_last_time"
   ],
   "note": ""
  },
  {
   "property": "C24",
   "status": "proved",
   "theorems": [
    "Resistics.C24_remove_mean",
    "Resistics.C24_remove_mean_idempotent",
    "Resistics.C24_add",
    "Resistics.C24_multiply",
    "Resistics.C24_interpolate_nans_keeps",
    "Resistics.C24_interpolate_nans_succeeds",
    "Resistics.C24_interpolate_nans_gap",
    "Resistics.C24_interpolate_nans_ends",
    "Resistics.C24_interpolate_nans_run",
    "Resistics.C24_interpolate_nans_no_nan",
    "Resistics.C24_apply_function",
    "Resistics.C24_apply_function_loses_unlisted_channels"
   ],
   "note": "ApplyFunction loses unlisted channels in the code: proved as C24_apply_function / C24_apply_function_loses_unlisted_channels."
  },
  {
   "property": "C25",
   "status": "proved",
   "theorems": [
    "Resistics.C25_shift_timestamps",
    "Resistics.C25_exact_on_linear"
   ],
   "note": ""
  },
  {
   "property": "C26",
   "status": "proved",
   "theorems": [
    "Resistics.C26_low_high_pass",
    "Resistics.C26_band_pass",
    "Resistics.C26_notch",
    "Resistics.C26_notch_wrong_below_2Hz"
   ],
   "note": "Notch only for fs >= 2 Hz; below that the code is wrong (C26_notch_wrong_below_2Hz)."
  },
  {
   "property": "C27",
   "status": "proved",
   "theorems": [
    "Resistics.C27_evaluation",
    "Resistics.C27_on_bin",
    "Resistics.C27_linear_exact"
   ],
   "note": ""
  },
  {
   "property": "C28",
   "status": "proved",
   "theorems": [
    "Resistics.C28_smooth_length",
    "Resistics.C28_uniform_filter",
    "Resistics.C28_uniform_run",
    "Resistics.C28_gaussian_ignores_sigma",
    "Resistics.C28_mirrored_ends"
   ],
   "note": "Gaussian smoother: the code passes 1 instead of sigma (C28_gaussian_ignores_sigma)."
  },
  {
   "property": "C29",
   "status": "proved",
   "theorems": [
    "Resistics.C29_level_wins",
    "Resistics.C29_site_wins"
   ],
   "note": ""
  },
  {
   "property": "C30",
   "status": "proved",
   "theorems": [
    "Resistics.C30_selection",
    "Resistics.C30_order_irrelevant",
    "Resistics.C30_refused",
    "Resistics.C30_counts",
    "Resistics.C30_not_there"
   ],
   "note": ""
  },
  {
   "property": "C31",
   "status": "proved",
   "theorems": [
    "Resistics.C31_site_data",
    "Resistics.C31_project_gather",
    "Resistics.C31_no_windows",
    "Resistics.C31_reserved_site_name"
   ],
   "note": "For sites not named combined_index (C31_reserved_site_name shows what happens otherwise); C31_no_windows covers selections without windows."
  },
  {
   "property": "C32",
   "status": "proved",
   "theorems": [
    "Resistics.C32_quick_site",
    "Resistics.C32_agrees",
    "Resistics.C32_quick_gather",
    "Resistics.C32_too_many_frequencies_collide"
   ],
   "note": "For perLevel frequencies on each level; C32_too_many_frequencies_collide shows the hypothesis is needed."
  },
  {
   "property": "C33",
   "status": "proved",
   "theorems": [
    "Resistics.C33_rows",
    "Resistics.C33_solves_iff",
    "Resistics.C33_exact_data",
    "Resistics.C33_unique",
    "Resistics.C33_equations",
    "Resistics.C33_windows_must_match",
    "Resistics.C33_preparers_agree",
    "Resistics.C33_least_squares_fits",
    "Resistics.C33_recovery"
   ],
   "note": ""
  },
  {
   "property": "C34",
   "status": "proved",
   "theorems": [
    "Resistics.C34_solution",
    "Resistics.C34_bad_index"
   ],
   "note": ""
  },
  {
   "property": "C35",
   "status": "proved",
   "theorems": [
    "Resistics.C35_equal_lengths",
    "Resistics.C35_last_pair_wins",
    "Resistics.C35_collision"
   ],
   "note": ""
  },
  {
   "property": "C36",
   "status": "proved",
   "theorems": [
    "Resistics.C36_bisquare",
    "Resistics.C36_bisquare_support",
    "Resistics.C36_huber",
    "Resistics.C36_huber_influence",
    "Resistics.C36_trimmed_mean",
    "Resistics.C36_negative_residuals",
    "Resistics.C36_trim_rule",
    "Resistics.C36_half_kept",
    "Resistics.C36_exact_data",
    "Resistics.C36_no_iterations",
    "Resistics.C36_result_is_a_fit"
   ],
   "note": ""
  },
  {
   "property": "C37",
   "status": "proved",
   "theorems": [
    "Resistics.C37_completed",
    "Resistics.C37_long_variation",
    "Resistics.C37_missing_lists",
    "Resistics.C37_builtin",
    "Resistics.C37_dict_roundtrip",
    "Resistics.C37_validate",
    "Resistics.C37_registered",
    "Resistics.C37_component",
    "Resistics.C37_resistivity",
    "Resistics.C37_periods",
    "Resistics.C37_resistivity_scaling",
    "Resistics.C37_resistivity_phase"
   ],
   "note": ""
  },
  {
   "property": "C38",
   "status": "proved",
   "theorems": [
    "Resistics.C38_one_record",
    "Resistics.C38_append_only",
    "Resistics.C38_contents_kept",
    "Resistics.C38_inputs_unchanged",
    "Resistics.C38_result",
    "Resistics.C38_shallow_effect",
    "Resistics.C38_decimator_effect",
    "Resistics.C38_writer_effect",
    "Resistics.C38_time_writer_effect",
    "Resistics.C38_set_chan_effect",
    "Resistics.C38_families"
   ],
   "note": "Heap model with the sharing that shallow metadata copies create. Append-only and contents kept for every sequence of calls (C38_append_only, C38_contents_kept), results depend on contents alone (C38_result, C38_one_record), inputs exactly unchanged for the calls without shallow copies (C38_inputs_unchanged), exact effect of the others (C38_shallow_effect, C38_decimator_effect, C38_writer_effect, C38_time_writer_effect, C38_set_chan_effect), and who shares with whom (C38_families)."
  },
  {
   "property": "C39",
   "status": "proved",
   "theorems": [
    "Resistics.C39_refuses_existing",
    "Resistics.C39_file_in_the_way",
    "Resistics.C39_touches_only_its_output",
    "Resistics.C39_writes"
   ],
   "note": "File system model with recorded intermediate states; all five writers. The class default of overwrite is True although its documentation says False."
  },
  {
   "property": "C40",
   "status": "proved",
   "theorems": [
    "Resistics.C40_survives_other_writes",
    "Resistics.C40_interrupted_first_write_decimated",
    "Resistics.C40_interrupted_first_write_windowed",
    "Resistics.C40_interrupted_first_write_spectra",
    "Resistics.C40_interrupted_overwrite_decimated",
    "Resistics.C40_interrupted_overwrite_windowed",
    "Resistics.C40_interrupted_overwrite_spectra",
    "Resistics.C40_time_numpy_reads_the_recording",
    "Resistics.C40_time_numpy_round_trip",
    "Resistics.C40_single_sample_not_readable",
    "Resistics.C40_interrupted_first_write_time",
    "Resistics.C40_ascii_not_readable",
    "Resistics.C40_decimated_round_trip",
    "Resistics.C40_windowed_round_trip",
    "Resistics.C40_spectra_round_trip",
    "Resistics.C40_time_metadata_iff"
   ],
   "note": "Decimated, windowed, spectra and numpy time data; interrupted and later writes. C40_single_sample_not_readable and C40_ascii_not_readable show the limits: one-sample recordings and the output of the ASCII writer cannot be read back. Interrupting an overwrite can leave the old metadata with the new arrays (C40_interrupted_overwrite_*)."
  },
  {
   "property": "C41",
   "status": "proved",
   "theorems": [
    "Resistics.C41_response_is_interpolated",
    "Resistics.C41_response_unique",
    "Resistics.C41_response_at_table_entry",
    "Resistics.C41_first_reader_that_succeeds",
    "Resistics.C41_calibrates_exactly_the_selected",
    "Resistics.C41_single_frequency_refused",
    "Resistics.C41_input_unchanged",
    "Resistics.C41_reads_the_named_file",
    "Resistics.C41_unknown_channel",
    "Resistics.C41_file_name"
   ],
   "note": "Exact arithmetic; exp(1j*phase) is a parameter. C41_single_frequency_refused states the case in which numpy.squeeze makes the assignment fail."
  },
  {
   "property": "C42",
   "status": "proved",
   "theorems": [
    "Resistics.C42_text_is_read",
    "Resistics.C42_which_files",
    "Resistics.C42_no_marker"
   ],
   "note": "Number parsing and pi/180 are parameters; white space and lower case are ASCII only; the order of rows of equal frequency is not claimed."
  },
  {
   "property": "C43",
   "status": "proved",
   "theorems": [
    "Resistics.C43_exactly_overlapping",
    "Resistics.C43_symmetric",
    "Resistics.C43_unknown_site",
    "Resistics.C43_loaded_well_formed"
   ],
   "note": ""
  },
  {
   "property": "C44",
   "status": "proved",
   "theorems": [
    "Resistics.C44_existing_project_untouched",
    "Resistics.C44_create_refusals",
    "Resistics.C44_creates",
    "Resistics.C44_created_loads",
    "Resistics.C44_interrupted",
    "Resistics.C44_loads_iff",
    "Resistics.C44_load_refusals",
    "Resistics.C44_lists_exactly"
   ],
   "note": ""
  },
  {
   "property": "C45",
   "status": "proved",
   "theorems": [
    "Resistics.C45_solution_read_back",
    "Resistics.C45_other_solutions",
    "Resistics.C45_interrupted_solution",
    "Resistics.C45_failed_solution",
    "Resistics.C45_paths_distinct",
    "Resistics.C45_paths_in_their_directory",
    "Resistics.C45_slashes_collide",
    "Resistics.C45_fs_strings",
    "Resistics.C45_mask_names",
    "Resistics.C45_solution_names",
    "Resistics.C45_solution_name_collisions"
   ],
   "note": ""
  },
  {
   "property": "C46",
   "status": "proved",
   "theorems": [
    "Resistics.C46_refuses_sizes",
    "Resistics.C46_unchanged",
    "Resistics.C46_downsampled",
    "Resistics.C46_no_limit",
    "Resistics.C46_apply",
    "Resistics.C46_never_grows",
    "Resistics.C46_indices_rounded"
   ],
   "note": "The algorithm of the external package lttbc is modelled in exact arithmetic; single precision without overflow and subnormal numbers; no NaN."
  },
  {
   "property": "C47",
   "status": "proved",
   "theorems": [
    "Resistics.C47_round_trip",
    "Resistics.C47_exact",
    "Resistics.C47_same_text",
    "Resistics.C47_early_years",
    "Resistics.C47_trailing_text_refused",
    "Resistics.C47_calendar",
    "Resistics.C47_read_digits",
    "Resistics.C47_stable",
    "Resistics.C47_to_datetime",
    "Resistics.C47_to_datetime_other",
    "Resistics.C47_timestamp"
   ],
   "note": "strftime/strptime of the external class attodatetime modelled for the one format used; the parser takes fields of full width only (strptime also takes fewer digits, which datetime_to_string never writes)."
  },
  {
   "property": "C48",
   "status": "proved",
   "theorems": [
    "Resistics.C48_rebuilt",
    "Resistics.C48_refusals",
    "Resistics.C48_parameters",
    "Resistics.C48_registry",
    "Resistics.C48_registry_consistent",
    "Resistics.C48_stable",
    "Resistics.C48_configuration",
    "Resistics.C48_consumed",
    "Resistics.C48_custom_names",
    "Resistics.C48_any_class"
   ],
   "note": ""
  },
  {
   "property": "C49",
   "status": "proved",
   "theorems": [
    "Resistics.C49_spectra_access",
    "Resistics.C49_get_chan",
    "Resistics.C49_set_chan",
    "Resistics.C49_windowed_get_chan"
   ],
   "note": ""
  },
  {
   "property": "C50",
   "status": "proved",
   "theorems": [
    "Resistics.C50_end_to_end",
    "Resistics.C50_stages",
    "Resistics.C50_recovered"
   ],
   "note": ""
  },
  {
   "property": "C51",
   "status": "proved",
   "theorems": [
    "Resistics.C51_frequency_grid",
    "Resistics.C51_fourier_run",
    "Resistics.C51_no_clamping",
    "Resistics.C51_windower_output_shaped",
    "Resistics.C51_timestamps"
   ],
   "note": "For three-dimensional windowed arrays (the windower returns them for two or more channels and windows)."
  },
  {
   "property": "C52",
   "status": "proved",
   "theorems": [
    "Resistics.C52_phase",
    "Resistics.C52_phase_ex",
    "Resistics.C52_tipper_length"
   ],
   "note": ""
  },
  {
   "property": "C53",
   "status": "proved",
   "theorems": [
    "Resistics.C53_detrend_constant",
    "Resistics.C53_detrend_linear",
    "Resistics.C53_linear",
    "Resistics.C53_tone",
    "Resistics.C53_inversion"
   ],
   "note": ""
  },
  {
   "property": "C54",
   "status": "proved",
   "theorems": [
    "Resistics.C54_site_fs",
    "Resistics.C54_project_fs",
    "Resistics.C54_get_sites",
    "Resistics.C54_get_measurements",
    "Resistics.C54_get_site",
    "Resistics.C54_get_measurement"
   ],
   "note": ""
  },
  {
   "property": "C55",
   "status": "proved",
   "theorems": [
    "Resistics.C55_loaded_well_placed",
    "Resistics.C55_stored",
    "Resistics.C55_order",
    "Resistics.C55_interrupted",
    "Resistics.C55_failed"
   ],
   "note": ""
  },
  {
   "property": "C56",
   "status": "proved",
   "theorems": [
    "Resistics.C56_count_error",
    "Resistics.C56_n_samples",
    "Resistics.C56_period",
    "Resistics.C56_sample_time",
    "Resistics.C56_round_trip",
    "Resistics.C56_from_time",
    "Resistics.C56_to_time",
    "Resistics.C56_range_loses_samples",
    "Resistics.C56_increments_error",
    "Resistics.C56_window_round_trip",
    "Resistics.C56_window_within_one",
    "Resistics.C56_windows",
    "Resistics.C56_window_samples",
    "Resistics.C56_windows_misaligned"
   ],
   "note": "IEEE binary64 rounding (ties to even) of every operation of to_timedelta, to_seconds, to_n_samples, datetime_to_win; no overflow or subnormal numbers; attotime exact. Findings: C56_range_loses_samples, C56_windows_misaligned."
  },
  {
   "property": "C57",
   "status": "proved",
   "theorems": [
    "Resistics.C57_estimates",
    "Resistics.C57_no_samples",
    "Resistics.C57_timestamps",
    "Resistics.C57_default_timestamps",
    "Resistics.C57_exact_timestamps",
    "Resistics.C57_level_timestamps",
    "Resistics.C57_window_times",
    "Resistics.C57_drift",
    "Resistics.C57_plot",
    "Resistics.C57_plot_some_channels",
    "Resistics.C57_plot_reordered",
    "Resistics.C57_plot_figure_needs_channels",
    "Resistics.C57_ten_levels",
    "Resistics.C57_dec_plot"
   ],
   "note": "pandas timestamps as whole nanoseconds (pd.Timedelta rounds, pd.to_datetime cuts); figures as titles of rows and lines. Findings: C57_drift, C57_plot_some_channels, C57_plot_reordered, C57_ten_levels."
  },
  {
   "property": "C58",
   "status": "proved",
   "theorems": [
    "Resistics.C58_quick_read",
    "Resistics.C58_same_recording",
    "Resistics.C58_relabelled",
    "Resistics.C58_agrees",
    "Resistics.C58_wrong_frequencies",
    "Resistics.C58_fit",
    "Resistics.C58_calibrator_keeps",
    "Resistics.C58_saved",
    "Resistics.C58_no_measurement_at_rate",
    "Resistics.C58_quick_view",
    "Resistics.C58_quick_view_decimated",
    "Resistics.C58_nothing_to_read",
    "Resistics.C58_quick_spectra"
   ],
   "note": "SingleRun lists what the run needs: readers and calibrator that read only their directory, names that are path components, one measurement at the rate, reference time = first time; C58_fit and C58_calibrator_keeps show that the linear chain of the package and SensorCalibrator meet the last two hypotheses; demo_single_run is a concrete run. Findings: C58_wrong_frequencies, C58_no_measurement_at_rate."
  },
  {
   "property": "C59",
   "status": "proved",
   "theorems": [
    "Resistics.C59_over_itself_only",
    "Resistics.C59_over_itself",
    "Resistics.C59_stored",
    "Resistics.C59_failed",
    "Resistics.C59_others",
    "Resistics.C59_listed",
    "Resistics.C59_succeeds",
    "Resistics.C59_interrupted"
   ],
   "note": "DefaultReaders are the two readers of the default configuration (the ASCII data part is a parameter); a processed recording of one sample is stored but cannot be read back (C40_single_sample_not_readable). The example at the end is a concrete run; EnvDemo has a recording lost by writing it over itself (C59_over_itself, C59_over_itself_only)."
  },
  {
   "property": "C60",
   "status": "proved",
   "theorems": [
    "Resistics.C60_between_sites",
    "Resistics.C60_no_common_windows",
    "Resistics.C60_missing_site",
    "Resistics.C60_equations",
    "Resistics.C60_recovered",
    "Resistics.C60_window_times",
    "Resistics.C60_same_time",
    "Resistics.C60_loaded_keyed",
    "Resistics.C60_ready",
    "Resistics.C60_end_to_end"
   ],
   "note": "SiteReady describes stored data as processing leaves them (C60_ready); measurements without readable evaluation metadata are skipped, as in the code. Times of windows for the default windower (C60_window_times, C60_same_time), exact arithmetic. C60_end_to_end needs no calibration, a linear chain and a determined system; RemoteDemo is a concrete run with two sites."
  },
  {
   "property": "C61",
   "status": "proved",
   "theorems": [
    "Resistics.C61_text",
    "Resistics.C61_text_no_channels",
    "Resistics.C61_text_identifies",
    "Resistics.C61_impedance_plot",
    "Resistics.C61_all_components",
    "Resistics.C61_impedance_refused",
    "Resistics.C61_tipper_angle",
    "Resistics.C61_tipper_angle_ambiguous",
    "Resistics.C61_tipper_plot",
    "Resistics.C61_tipper_missing"
   ],
   "note": "Exact arithmetic, zeros not negative, frequencies not zero; axes, markers and layout of the figures are not modelled."
  },
  {
   "property": "C62",
   "status": "proved",
   "theorems": [
    "Resistics.C62_ols_least_squares",
    "Resistics.C62_ols_exact",
    "Resistics.C62_normalize",
    "Resistics.C62_intercept_shift",
    "Resistics.C62_intercept_needs_more",
    "Resistics.C62_wls_fits_exactly",
    "Resistics.C62_wls_exact",
    "Resistics.C62_wls_once",
    "Resistics.C62_wls_weights",
    "Resistics.C62_wls_no_iterations",
    "Resistics.C62_huber_flags",
    "Resistics.C62_huber_near",
    "Resistics.C62_huber_shrinks",
    "Resistics.C62_theil_sen_draws",
    "Resistics.C62_theil_sen_drawn",
    "Resistics.C62_theil_sen_majority",
    "Resistics.C62_theil_sen_exact",
    "Resistics.C62_theil_sen_accepted",
    "Resistics.C62_ransac_exact",
    "Resistics.C62_ransac_flat",
    "Resistics.C62_one_failure",
    "Resistics.C62_recovery",
    "Resistics.C62_same_window",
    "Resistics.C62_sample_determines"
   ],
   "note": "scikit-learn is a parameter with the specifications LinearSpec, HuberSpec, TheilSenSpec and RansacSpec (version 0.24.2, from its documentation; a model of all four is constructed in Lean). Exact real arithmetic; the spatial median of Theil-Sen is exact; n_jobs and random states have no counterpart. Finding: C62_same_window (samples with three equations of one window never determine the coefficients)."
  },
  {
   "property": "C63",
   "status": "proved",
   "theorems": [
    "Resistics.C63_decimation",
    "Resistics.C63_ladder",
    "Resistics.C63_levels",
    "Resistics.C63_windows",
    "Resistics.C63_processed",
    "Resistics.C63_refused",
    "Resistics.C63_succeeds",
    "Resistics.C63_recovered",
    "Resistics.C63_transfer_function"
   ],
   "note": "scipy, the evaluation frequencies as computed (IsLadder: exact at octaves, anything in between), next_fast_len, the Kaiser window and scikit-learn are parameters with the hypotheses DefaultEnv, SciPy.Linear and TheilSenSpec; C63_ladder shows that get_eval_freqs_size in exact arithmetic is such a ladder. Between 512 and 608 samples (or 1 and 1.2 seconds) success depends on where the windows fall."
  },
  {
   "property": "C64",
   "status": "proved",
   "theorems": [
    "Resistics.C64_groups",
    "Resistics.C64_span",
    "Resistics.C64_one_group",
    "Resistics.C64_plot",
    "Resistics.C64_eleven_levels",
    "Resistics.C64_level_not_there",
    "Resistics.C64_level_stack",
    "Resistics.C64_default_stack",
    "Resistics.C64_mean_of_groups",
    "Resistics.C64_section",
    "Resistics.C64_section_one_channel",
    "Resistics.C64_section_sparse"
   ],
   "note": "np.absolute as computed is a parameter (a rational for every value), means are exact; pandas groupers of fixed length with the resolution of pandas timestamps; layout, legends' text and colours of the figures are not modelled, nor the downsampling of rows without numbers."
  },
  {
   "property": "C65",
   "status": "proved",
   "theorems": [
    "Resistics.C65_names",
    "Resistics.C65_created",
    "Resistics.C65_without_name",
    "Resistics.C65_assigned",
    "Resistics.C65_renamed",
    "Resistics.C65_channels_of_type",
    "Resistics.C65_missing_metadata",
    "Resistics.C65_types",
    "Resistics.C65_any",
    "Resistics.C65_from_dictionaries",
    "Resistics.C65_from_dictionaries_iff",
    "Resistics.C65_types_by_name",
    "Resistics.C65_number_of_channels"
   ],
   "note": "Dictionaries of channel metadata are modelled by the keys that matter (name, data_files, chan_type); other fields (sensor, gains ...) keep their values and are not modelled. Validation errors of pydantic are ValueErrors."
  },
  {
   "property": "C66",
   "status": "proved",
   "theorems": [
    "Resistics.C66_site_table",
    "Resistics.C66_project_rows",
    "Resistics.C66_project_table",
    "Resistics.C66_margin",
    "Resistics.C66_plot",
    "Resistics.C66_in_view",
    "Resistics.C66_late_reference"
   ],
   "note": "A data frame is the list of its rows (DataFrame.append of pandas 1); times parsed by pandas are rounded down to nanoseconds; the margin is computed in double precision as pandas does; colours and layout of the figure are not modelled."
  },
  {
   "property": "C67",
   "status": "proved",
   "theorems": [
    "Resistics.C67_tree",
    "Resistics.C67_same_project",
    "Resistics.C67_determined",
    "Resistics.C67_solution",
    "Resistics.C67_needs_reload",
    "Resistics.C67_new_measurement",
    "Resistics.C67_solution_written",
    "Resistics.C67_listable",
    "Resistics.C67_new",
    "Resistics.C67_only_outputs",
    "Resistics.C67_kept",
    "Resistics.C67_loads",
    "Resistics.C67_reload",
    "Resistics.C67_evals"
   ],
   "note": "Names used by the calls must be single components of paths; readers and calibration look only where they are told to (Local). The listing of directories and the times of the operating system are parameters of loading. Concrete sessions are in Props/EnvDemo.lean."
  },
  {
   "property": "C68",
   "status": "proved",
   "theorems": [
    "Resistics.C68_metadata",
    "Resistics.C68_channels",
    "Resistics.C68_ones",
    "Resistics.C68_linear",
    "Resistics.C68_random",
    "Resistics.C68_fixed",
    "Resistics.C68_consistent",
    "Resistics.C68_counted",
    "Resistics.C68_last_sample",
    "Resistics.C68_periodic",
    "Resistics.C68_offset",
    "Resistics.C68_decimated",
    "Resistics.C68_decimated_linear",
    "Resistics.C68_decimated_random",
    "Resistics.C68_decimated_periodic",
    "Resistics.C68_spectra_metadata",
    "Resistics.C68_not_halved",
    "Resistics.C68_spectra_basic",
    "Resistics.C68_regression_metadata",
    "Resistics.C68_solution"
   ],
   "note": "Texts of times are given by the times they denote; sampling frequencies and offsets are not negative; sines and their arguments are exact, the number format is any conversion applied to each value."
  },
  {
   "property": "C69",
   "status": "proved",
   "theorems": [
    "Resistics.C69_unwrap",
    "Resistics.C69_recovers",
    "Resistics.C69_unchanged",
    "Resistics.C69_twice",
    "Resistics.C69_mag_phs",
    "Resistics.C69_mag_phs_unwrapped",
    "Resistics.C69_no_level",
    "Resistics.C69_freq",
    "Resistics.C69_freq_ambiguous"
   ],
   "note": "Exact arithmetic over the reals and complex numbers, without negative zeros; np.unwrap is modelled as numpy documents and implements it for the default period and axis."
  },
  {
   "property": "C70",
   "status": "proved",
   "theorems": [
    "Resistics.C70_subscript",
    "Resistics.C70_array",
    "Resistics.C70_dataframe",
    "Resistics.C70_dataframe_refused",
    "Resistics.C70_setup",
    "Resistics.C70_cal_columns",
    "Resistics.C70_cal_samples",
    "Resistics.C70_cal_dataframe",
    "Resistics.C70_cal_text",
    "Resistics.C70_cal_plot"
   ],
   "note": "pandas is modelled by its checks of lengths and by the resulting columns; calibration data read from JSON are C42's and any three lists."
  },
  {
   "property": "C71",
   "status": "proved",
   "theorems": [
    "Resistics.C71_record",
    "Resistics.C71_name",
    "Resistics.C71_rebuilt",
    "Resistics.C71_replay",
    "Resistics.C71_file",
    "Resistics.C71_file_without_times",
    "Resistics.C71_get_record",
    "Resistics.C71_fields",
    "Resistics.C71_history",
    "Resistics.C71_other_name",
    "Resistics.C71_wrong_name",
    "Resistics.C71_custom_functions",
    "Resistics.C71_undescribed",
    "Resistics.C71_used_up",
    "Resistics.C71_far_years",
    "Resistics.C71_time_texts_distinct"
   ],
   "note": "Numbers are exact and orders natural; the messages of a processor are a function of what it does and the data; pandas is a parameter that reads the ISO text of the timestamps it can represent (such a reader is defined and proved for the concrete case); texts of custom functions are a parameter that may raise."
  },
  {
   "property": "C72",
   "status": "proved",
   "theorems": [
    "Resistics.C72_time",
    "Resistics.C72_decimated",
    "Resistics.C72_windowed",
    "Resistics.C72_fourier",
    "Resistics.C72_evals",
    "Resistics.C72_smoothed",
    "Resistics.C72_levels",
    "Resistics.C72_calibrated",
    "Resistics.C72_get_chans",
    "Resistics.C72_gathered",
    "Resistics.C72_chain",
    "Resistics.C72_unused_channels",
    "Resistics.C72_same_solution"
   ],
   "note": "Windowing for two or more channels (one channel: C73) and at least two windows a level; processors of spectra of a configuration have to be channelwise, which is proved for the smoothers; calibration with the conditions under which C41 shows that it succeeds; quick_tf without calibration files."
  },
  {
   "property": "C73",
   "status": "proved",
   "theorems": [
    "Resistics.C73_windowed",
    "Resistics.C73_fourier",
    "Resistics.C73_evals",
    "Resistics.C73_smoothed",
    "Resistics.C73_chain",
    "Resistics.C73_get_freq",
    "Resistics.C73_mag_phs",
    "Resistics.C73_timestamps",
    "Resistics.C73_get_chan_first_window",
    "Resistics.C73_calibration",
    "Resistics.C73_plot_fails"
   ],
   "note": "At least two windows a level, so that only the axis of the channels is removed; processors of spectra are smoothers; the squeeze in get_freq for a single window is described in C69."
  },
  {
   "property": "C74",
   "status": "proved",
   "theorems": [
    "Resistics.C74_float",
    "Resistics.C74_int",
    "Resistics.C74_reads_nearest",
    "Resistics.C74_overflow",
    "Resistics.C74_distinct",
    "Resistics.C74_int_as_float"
   ],
   "note": "The algorithm of repr is modelled as: the fewest digits that are read back, of these the nearest; -0.0 is represented by 0 (the sign of a zero is the only thing not modelled)."
  },
  {
   "property": "C75",
   "status": "proved",
   "theorems": [
    "Resistics.C75_round_trip",
    "Resistics.C75_distinct",
    "Resistics.C75_trailing_text",
    "Resistics.C75_interrupted",
    "Resistics.C75_printable"
   ],
   "note": "Surrogates without their other half, which are no characters, are refused by the model of the reader; numbers are doubles, integers, infinities and nan; keys of a dictionary are different texts."
  },
  {
   "property": "C76",
   "status": "proved",
   "theorems": [
    "Resistics.C76_round_trip",
    "Resistics.C76_numbers",
    "Resistics.C76_interrupted",
    "Resistics.C76_left_over",
    "Resistics.C76_distinct",
    "Resistics.C76_other_fields",
    "Resistics.C76_required",
    "Resistics.C76_read_as_project",
    "Resistics.C76_spectra_as_windowed",
    "Resistics.C76_other_classes",
    "Resistics.C76_count_channels",
    "Resistics.C76_no_channels",
    "Resistics.C76_time_defaults",
    "Resistics.C76_cal_defaults",
    "Resistics.C76_combined_defaults",
    "Resistics.C76_chan_defaults"
   ],
   "note": "Years from 1000 on and integers in float fields up to 2^53; windows and overlaps positive as validated; times to 24 decimals of the second. How pydantic coerces values of other JSON types than those written is a parameter of the reader."
  },
  {
   "property": "C77",
   "status": "proved",
   "theorems": [
    "Resistics.C77_processors",
    "Resistics.C77_copy",
    "Resistics.C77_run_time_processors",
    "Resistics.C77_decimated",
    "Resistics.C77_windows_are_views",
    "Resistics.C77_target_windows_are_views",
    "Resistics.C77_window_cells",
    "Resistics.C77_set_chan",
    "Resistics.C77_read_only",
    "Resistics.C77_write_one",
    "Resistics.C77_set_after_decimating",
    "Resistics.C77_mapped",
    "Resistics.C77_save",
    "Resistics.C77_save_over_itself",
    "Resistics.C77_history"
   ],
   "note": "Cells of arrays in memory and of mapped files; a cell of a file that was truncated cannot be read (on Linux the first page of it reads as zeros). The dtype check of set_chan, broadcasting and the order of the numbers in a file of a transposed array are not modelled; metadata are values here (their sharing is C38)."
  },
  {
   "property": "C78",
   "status": "proved",
   "theorems": [
    "Resistics.C78_number",
    "Resistics.C78_python_numbers",
    "Resistics.C78_line",
    "Resistics.C78_recording",
    "Resistics.C78_single",
    "Resistics.C78_too_large",
    "Resistics.C78_samples",
    "Resistics.C78_comment_shifts",
    "Resistics.C78_comment_loses",
    "Resistics.C78_refused",
    "Resistics.C78_foreign_character",
    "Resistics.C78_channel_file",
    "Resistics.C78_written_then_read"
   ],
   "note": "np.savetxt and np.loadtxt of numpy 1.21.2; no negative zero, ASCII white space and letters, a delimiter of one character, no hexadecimal numbers or underscores."
  },
  {
   "property": "C79",
   "status": "proved",
   "theorems": [
    "Resistics.C79_factor_power_of_two",
    "Resistics.C79_factor",
    "Resistics.C79_factor_rounded",
    "Resistics.C79_eval_freqs",
    "Resistics.C79_eval_freqs_min",
    "Resistics.C79_level_fs",
    "Resistics.C79_level_fs_rounded",
    "Resistics.C79_decimation_setup",
    "Resistics.C79_default_decimation",
    "Resistics.C79_floor_div",
    "Resistics.C79_overlap",
    "Resistics.C79_overlap_decimal",
    "Resistics.C79_overlap_rounded",
    "Resistics.C79_window_setup",
    "Resistics.C79_target",
    "Resistics.C79_target_exact"
   ],
   "note": "No overflow and no subnormal numbers; np.power(2, i/2) is a parameter, exact for whole powers of two and correct to the last place otherwise. For division factors that are no power of two the claim excludes frequencies within a part in 2^40 of a border, where it fails (C79_factor_rounded); overlaps of other proportions are within one sample, not exact (C79_overlap_rounded)."
  },
  {
   "property": "C80",
   "status": "proved",
   "theorems": [
    "Resistics.C80_scalar_and_dict_differ",
    "Resistics.C80_set_chan",
    "Resistics.C80_set_chan_widened",
    "Resistics.C80_shift_close",
    "Resistics.C80_shift_lost",
    "Resistics.C80_shift_repeats",
    "Resistics.C80_shift_repeats_occurs",
    "Resistics.C80_shift_integer_refused",
    "Resistics.C80_mean_close",
    "Resistics.C80_mean_left",
    "Resistics.C80_floating_type_kept",
    "Resistics.C80_chain_type_kept",
    "Resistics.C80_integer_type",
    "Resistics.C80_add_exact",
    "Resistics.C80_multiply_exact",
    "Resistics.C80_add_close",
    "Resistics.C80_multiply_close",
    "Resistics.C80_integer_amounts_cut",
    "Resistics.C80_integer_factor_erases",
    "Resistics.C80_integer_scalar",
    "Resistics.C80_through_double",
    "Resistics.C80_integer_filter_erases",
    "Resistics.C80_gaps",
    "Resistics.C80_integer_window",
    "Resistics.C80_window_close"
   ],
   "note": ""
  },
  {
   "property": "C81",
   "status": "proved",
   "theorems": [
    "Resistics.C81_text_is_read",
    "Resistics.C81_which_texts",
    "Resistics.C81_row_order",
    "Resistics.C81_cut_is_read",
    "Resistics.C81_cut_in_number",
    "Resistics.C81_degrees",
    "Resistics.C81_degrees_special",
    "Resistics.C81_json_written",
    "Resistics.C81_json_interrupted",
    "Resistics.C81_json_is_no_text",
    "Resistics.C81_first_reader",
    "Resistics.C81_missing_file",
    "Resistics.C81_interrupted_is_missing",
    "Resistics.C81_text_carries",
    "Resistics.C81_same_data"
   ],
   "note": "White space and letter case of ASCII; no underscores between digits or digits of other scripts in numbers; rows of equal frequency keep their order (pandas promises none)."
  },
  {
   "property": "C82",
   "status": "proved",
   "theorems": [
    "Resistics.Par.C82_existing_safe",
    "Resistics.Par.C82_overwrite_race",
    "Resistics.Par.C82_project_race",
    "Resistics.Par.C82_project_lost",
    "Resistics.Par.C82_solution_race",
    "Resistics.Par.C82_reader",
    "Resistics.Par.C82_reader_whole",
    "Resistics.Par.C82_project_directories",
    "Resistics.Par.C82_nothing_vanishes",
    "Resistics.Par.C82_ends",
    "Resistics.Par.C82_separate"
   ],
   "note": ""
  },
  {
   "property": "C83",
   "status": "proved",
   "theorems": [
    "Resistics.C83_calibration",
    "Resistics.C83_magnitude_positive",
    "Resistics.C83_calibration_refused",
    "Resistics.C83_evaluation"
   ],
   "note": "No overflow, no subnormal numbers among frequencies and positions (the spectra may be subnormal), no fused multiply-add; the exponential of the phase and the division of the spectra are not rounded here."
  },
  {
   "property": "C84",
   "status": "proved",
   "theorems": [
    "Resistics.C84_trim_rule",
    "Resistics.C84_monotone",
    "Resistics.C84_half_kept",
    "Resistics.C84_exact_data",
    "Resistics.C84_always_fits",
    "Resistics.C84_iterations",
    "Resistics.C84_huber",
    "Resistics.C84_bisquare"
   ],
   "note": "No overflow or underflow; NumPy 1.21 and scikit-learn 0.24.2; the predictions of the model are any numbers."
  },
  {
   "property": "C85",
   "status": "proved",
   "theorems": [
    "Resistics.C85_load",
    "Resistics.C85_checks",
    "Resistics.C85_listing",
    "Resistics.C85_queries",
    "Resistics.C85_processing",
    "Resistics.C85_selection",
    "Resistics.C85_transfer_functions",
    "Resistics.C85_same_windows",
    "Resistics.C85_tables",
    "Resistics.C85_common_window_common_time",
    "Resistics.C85_overlap_order_matters"
   ],
   "note": "Any two orders of listing of any disk (the order is the parameter `ls` of the model of loading). The clock is read at the same times in both runs. What is neither file nor directory is not modelled. `C85_overlap_order_matters` is the limit of the code."
  },
  {
   "property": "C86",
   "status": "proved",
   "theorems": [
    "Resistics.C86_uniform_close",
    "Resistics.C86_smooth_length",
    "Resistics.C86_one_point_exact",
    "Resistics.C86_large_value_erases",
    "Resistics.C86_constant",
    "Resistics.C86_gaussian_close",
    "Resistics.C86_gaussian_local",
    "Resistics.C86_uniform_run",
    "Resistics.C86_gaussian_run"
   ],
   "note": "All rows up to 2^50 / 8 frequencies. The filters are written after the C code of SciPy 1.6/1.7 (ni_filters.c), which is not part of /repo; the weights of the Gaussian filter are parameters (values of exp), not negative. No overflow and no subnormal numbers in the doubles of the filter."
  },
  {
   "property": "C87",
   "status": "proved",
   "theorems": [
    "Resistics.C87_product",
    "Resistics.C87_auto_power",
    "Resistics.C87_exchange",
    "Resistics.C87_singles_in_double",
    "Resistics.C87_weak_signals_vanish",
    "Resistics.C87_rows",
    "Resistics.C87_product_norm",
    "Resistics.C87_exact_data",
    "Resistics.C87_preparers_agree"
   ],
   "note": "No overflow. NumPy multiplies complex numbers with four products, a difference and a sum, no fused operations (NumPy 1.21)."
  },
  {
   "property": "C88",
   "status": "proved",
   "theorems": [
    "Resistics.C88_quotient",
    "Resistics.C88_quotient_norm",
    "Resistics.C88_power_of_two",
    "Resistics.C88_conjugates",
    "Resistics.C88_quarter_turn",
    "Resistics.C88_single_frequency_refused",
    "Resistics.C88_run",
    "Resistics.C88_exact_response",
    "Resistics.C88_flat_response",
    "Resistics.C88_reciprocal_rounded"
   ],
   "note": "No overflow, no subnormal numbers before the quotients are stored. NumPy divides complex numbers with a rounded ratio and a rounded reciprocal (NumPy 1.21, no fused operations). Sine and cosine are parameters, exact up to a part in 2^51 (cisNear_exists shows that there are such); a response of exactly zero (infinities and NaN in the code) is excluded."
  },
  {
   "property": "C89",
   "status": "proved",
   "theorems": [
    "Resistics.C89_noise",
    "Resistics.C89_noise_nearly",
    "Resistics.C89_rounded",
    "Resistics.C89_rounded_nearly",
    "Resistics.C89_gain_exists",
    "Resistics.C89_noise_level",
    "Resistics.C89_noisy_recording",
    "Resistics.C89_weighted",
    "Resistics.C89_weighted_noise",
    "Resistics.C89_half_gain_exists"
   ],
   "note": "About solvers that minimise the sum of squared residuals, as the ordinary least squares solver does by C62_ols_least_squares, and the iteratively weighted solver without intercept (C89_weighted*, LinearSpec describes scikit-learn's weighted fit); the coefficients are real numbers. Huber, Theil-Sen and RANSAC are not covered. C89_noisy_recording takes the noise from a further channel of the recording, so that the statement can name its spectra; the chain must be linear as in C50. The gain is a property of the data; C89_gain_exists and C89_half_gain_exists show when there is one."
  },
  {
   "property": "C90",
   "status": "proved",
   "theorems": [
    "Resistics.C90_resistivity",
    "Resistics.C90_phase",
    "Resistics.C90_phase_ex",
    "Resistics.C90_lengths",
    "Resistics.C90_both_ends"
   ],
   "note": "No overflow, subnormal numbers or negative zeros. np.absolute, np.power and np.angle are parameters, exact up to a part in 2^52, a part in 2^52 and 1/2^51 (accurate_exists shows that there are such); np.unwrap is that of NumPy 1.21. Arrays of length one are not broadcast against longer ones."
  },
  {
   "property": "C91",
   "status": "proved",
   "theorems": [
    "Resistics.C91_row",
    "Resistics.C91_run",
    "Resistics.C91_offset",
    "Resistics.C91_noise",
    "Resistics.C91_samples_follow",
    "Resistics.C91_accuracy",
    "Resistics.C91_evaluated",
    "Resistics.C91_evaluated_noise"
   ],
   "note": "No overflow. np.mean, scipy.signal.detrend with type linear and scipy.fft.rfft are parameters: the mean is exact up to e times the mean of the absolute values, line and transform up to e times the root of the sum of squares (fourier_accurate_exists shows that there are such for every positive e). Windows of at least two samples; integers without detrending are not covered (C80)."
  }
 ]
}
