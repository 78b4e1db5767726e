'Resistics.C01_sample_datetime_round_trip' depends on axioms: [propext, Classical.choice, Quot.sound]
'Resistics.C01_truncated_period_off_by_one' depends on axioms: [propext, Classical.choice, Quot.sound]
'Resistics.C02_from_time_first_at_or_after' depends on axioms: [propext, Classical.choice, Quot.sound]
'Resistics.C02_to_time_last_at_or_before' depends on axioms: [propext, Classical.choice, Quot.sound]
'Resistics.C02_range_is_exactly_enclosed_samples' depends on axioms: [propext, Classical.choice, Quot.sound]
'Resistics.C03_refused_or_in_range' depends on axioms: [propext, Classical.choice, Quot.sound]
'Resistics.C03_clamped_to_recording' depends on axioms: [propext, Classical.choice, Quot.sound]
'Resistics.C03_check_times' depends on axioms: [propext, Classical.choice, Quot.sound]
'Resistics.C04_span_to_n_samples' depends on axioms: [propext, Classical.choice, Quot.sound]
'Resistics.C04_floor_counts_samples_in_span' depends on axioms: [propext, Classical.choice, Quot.sound]
'Resistics.C04_methods_ordered' depends on axioms: [propext, Classical.choice, Quot.sound]
'Resistics.C04_datetime_array' depends on axioms: [propext, Classical.choice, Quot.sound]
'Resistics.C04_datetime_array_samples' depends on axioms: [propext, Classical.choice, Quot.sound]
'Resistics.C04_adjusted_metadata' depends on axioms: [propext, Classical.choice, Quot.sound]
'Resistics.C05_read_returns_requested_samples' depends on axioms: [propext, Classical.choice, Quot.sound]
'Resistics.C05_ascii_agrees_with_numpy' depends on axioms: [propext, Classical.choice, Quot.sound]
'Resistics.C05_ascii_single_channel_squeezed' depends on axioms: [propext, Classical.choice, Quot.sound]
'Resistics.C06_subsection_exact' depends on axioms: [propext, Classical.choice, Quot.sound]
'Resistics.C06_subsection_compose' depends on axioms: [propext, Classical.choice, Quot.sound]
'Resistics.C07_windows_inside' depends on axioms: [propext, Classical.choice, Quot.sound]
'Resistics.C08_windows_consecutive' depends on axioms: [propext, Classical.choice, Quot.sound]
'Resistics.C08_window_times' depends on axioms: [propext, Classical.choice, Quot.sound]
'Resistics.C09_no_window_lost' depends on axioms: [propext, Classical.choice, Quot.sound]
'Resistics.C09_failure' depends on axioms: [propext, Classical.choice, Quot.sound]
'Resistics.C09_succeeds' depends on axioms: [propext, Classical.choice, Quot.sound]
'Resistics.C09_gives_up_on_large_overlaps' depends on axioms: [propext, Classical.choice, Quot.sound]
'Resistics.C09_table_complete' depends on axioms: [propext, Classical.choice, Quot.sound]
'Resistics.C09_table_succeeds' depends on axioms: [propext, Classical.choice, Quot.sound]
'Resistics.C09_short_recording_refused' depends on axioms: [propext, Classical.choice, Quot.sound]
'Resistics.C10_window_start_near_instant' depends on axioms: [propext, Classical.choice, Quot.sound]
'Resistics.C10_recordings_align' depends on axioms: [propext, Classical.choice, Quot.sound]
'Resistics.C11_round_trip' depends on axioms: [propext, Classical.choice, Quot.sound]
'Resistics.C11_floor_ceil_round' depends on axioms: [propext, Classical.choice, Quot.sound]
'Resistics.C11_before_reference_refused' depends on axioms: [propext, Classical.choice, Quot.sound]
'Resistics.C11_spacing' depends on axioms: [propext, Classical.choice, Quot.sound]
'Resistics.C12_levels' depends on axioms: [propext, Classical.choice, Quot.sound]
'Resistics.C12_window_contents' depends on axioms: [propext, Classical.choice, Quot.sound]
'Resistics.C12_succeeds' depends on axioms: [propext, Classical.choice, Quot.sound]
'Resistics.C12_single_channel_squeezed' depends on axioms: [propext, Classical.choice, Quot.sound]
'Resistics.C12_single_window_loses_channels' depends on axioms: [propext, Classical.choice, Quot.sound]
'Resistics.C12_windows_counted' depends on axioms: [propext, Classical.choice, Quot.sound]
'Resistics.C12_zero_overlap_refused' depends on axioms: [propext, Quot.sound]
'Resistics.C13_get_local' depends on axioms: [propext, Classical.choice, Quot.sound]
'Resistics.C13_get_global' depends on axioms: [propext, Classical.choice, Quot.sound]
'Resistics.C13_get_global_wrong_witness' depends on axioms: [propext, Quot.sound]
'Resistics.C14_one_size_per_level' depends on axioms: [propext, Classical.choice, Quot.sound]
'Resistics.C14_default_sizes' depends on axioms: [propext, Classical.choice, Quot.sound]
'Resistics.C14_explicit_sizes' depends on axioms: [propext, Classical.choice, Quot.sound]
'Resistics.C14_overlaps' depends on axioms: [propext, Classical.choice, Quot.sound]
'Resistics.C14_overlap_can_exceed_explicit_window' depends on axioms: [propext, Classical.choice, Quot.sound]
'Resistics.C14_default_setup' depends on axioms: [propext, Classical.choice, Quot.sound]
'Resistics.C15_target_size' depends on axioms: [propext, Classical.choice, Quot.sound]
'Resistics.C15_target_levels' depends on axioms: [propext, Classical.choice, Quot.sound]
'Resistics.C15_windower_starts_reproduced' depends on axioms: [propext, Classical.choice, Quot.sound]
'Resistics.C15_target_starts_shifted' depends on axioms: [propext, Classical.choice, Quot.sound]
'Resistics.C16_eval_freqs_min' depends on axioms: [propext, Classical.choice, Quot.sound]
'Resistics.C16_eval_freqs_size' depends on axioms: [propext, Classical.choice, Quot.sound]
'Resistics.C16_ladder' depends on axioms: [propext, Classical.choice, Quot.sound]
'Resistics.C17_decimation_factor' depends on axioms: [propext, Classical.choice, Quot.sound]
'Resistics.C17_factor_monotone' depends on axioms: [propext, Classical.choice, Quot.sound]
'Resistics.C18_parameters_consistent' depends on axioms: [propext, Classical.choice, Quot.sound]
'Resistics.C18_freqs_below_level_nyquist' depends on axioms: [propext, Classical.choice, Quot.sound]
'Resistics.C18_default_setup' depends on axioms: [propext, Classical.choice, Quot.sound]
'Resistics.C18_increasing_frequencies_break_increments' depends on axioms: [propext, Classical.choice, Quot.sound]
'Resistics.C19_eval_freq_lookup' depends on axioms: [propext, Classical.choice, Quot.sound]
'Resistics.C19_level_index_unique' depends on axioms: [propext, Quot.sound]
'Resistics.C19_setup_length' depends on axioms: [propext, Classical.choice, Quot.sound]
'Resistics.C20_pyramid' depends on axioms: [propext, Classical.choice, Quot.sound]
'Resistics.C20_increment_one' depends on axioms: [propext, Classical.choice, Quot.sound]
'Resistics.C20_levels_consistent' depends on axioms: [propext, Classical.choice, Quot.sound]
'Resistics.C21_downsample_factors' depends on axioms: [propext, Classical.choice, Quot.sound]
'Resistics.C21_stages_bounded' depends on axioms: [propext, Classical.choice, Quot.sound]
'Resistics.C21_bound_fails_for_large_primes' depends on axioms: [propext, Classical.choice, Quot.sound]
'Resistics.C22_square_root_rounded' depends on axioms: [propext, Classical.choice, Quot.sound]
'Resistics.C22_prime_factorisation' depends on axioms: [propext, Classical.choice, Quot.sound]
'Resistics.C22_is_the_factorisation' depends on axioms: [propext, Classical.choice, Quot.sound]
'Resistics.C23_chain_consistent' depends on axioms: [propext, Classical.choice, Quot.sound]
'Resistics.C23_last_time' depends on axioms: [propext, Classical.choice, Quot.sound]
'Resistics.C24_remove_mean' depends on axioms: [propext, Classical.choice, Quot.sound]
'Resistics.C24_remove_mean_idempotent' depends on axioms: [propext, Classical.choice, Quot.sound]
'Resistics.C24_add' depends on axioms: [propext, Classical.choice, Quot.sound]
'Resistics.C24_multiply' depends on axioms: [propext, Classical.choice, Quot.sound]
'Resistics.C24_interpolate_nans_keeps' depends on axioms: [propext, Classical.choice, Quot.sound]
'Resistics.C24_interpolate_nans_succeeds' depends on axioms: [propext, Classical.choice, Quot.sound]
'Resistics.C24_interpolate_nans_gap' depends on axioms: [propext, Classical.choice, Quot.sound]
'Resistics.C24_interpolate_nans_ends' depends on axioms: [propext, Classical.choice, Quot.sound]
'Resistics.C24_interpolate_nans_run' depends on axioms: [propext, Classical.choice, Quot.sound]
'Resistics.C24_interpolate_nans_no_nan' depends on axioms: [propext, Classical.choice, Quot.sound]
'Resistics.C24_apply_function' depends on axioms: [propext, Classical.choice, Quot.sound]
'Resistics.C24_apply_function_loses_unlisted_channels' depends on axioms: [propext, Classical.choice, Quot.sound]
'Resistics.C25_shift_timestamps' depends on axioms: [propext, Classical.choice, Quot.sound]
'Resistics.C25_exact_on_linear' depends on axioms: [propext, Classical.choice, Quot.sound]
'Resistics.C26_low_high_pass' depends on axioms: [propext, Classical.choice, Quot.sound]
'Resistics.C26_band_pass' depends on axioms: [propext, Classical.choice, Quot.sound]
'Resistics.C26_notch' depends on axioms: [propext, Classical.choice, Quot.sound]
'Resistics.C26_notch_wrong_below_2Hz' depends on axioms: [propext, Classical.choice, Quot.sound]
'Resistics.C27_evaluation' depends on axioms: [propext, Classical.choice, Quot.sound]
'Resistics.C27_on_bin' depends on axioms: [propext, Classical.choice, Quot.sound]
'Resistics.C27_linear_exact' depends on axioms: [propext, Classical.choice, Quot.sound]
'Resistics.C28_smooth_length' depends on axioms: [propext, Classical.choice, Quot.sound]
'Resistics.C28_uniform_filter' depends on axioms: [propext, Classical.choice, Quot.sound]
'Resistics.C28_uniform_run' depends on axioms: [propext, Classical.choice, Quot.sound]
'Resistics.C28_gaussian_ignores_sigma' depends on axioms: [propext, Classical.choice, Quot.sound]
'Resistics.C28_mirrored_ends' depends on axioms: [propext, Classical.choice, Quot.sound]
'Resistics.C29_level_wins' depends on axioms: [propext, Classical.choice, Quot.sound]
'Resistics.C29_site_wins' depends on axioms: [propext, Classical.choice, Quot.sound]
'Resistics.C30_selection' depends on axioms: [propext, Classical.choice, Quot.sound]
'Resistics.C30_order_irrelevant' depends on axioms: [propext, Classical.choice, Quot.sound]
'Resistics.C30_refused' depends on axioms: [propext, Classical.choice, Quot.sound]
'Resistics.C30_counts' depends on axioms: [propext, Classical.choice, Quot.sound]
'Resistics.C30_not_there' depends on axioms: [propext, Classical.choice, Quot.sound]
'Resistics.C31_site_data' depends on axioms: [propext, Classical.choice, Quot.sound]
'Resistics.C31_project_gather' depends on axioms: [propext, Classical.choice, Quot.sound]
'Resistics.C31_no_windows' depends on axioms: [propext, Classical.choice, Quot.sound]
'Resistics.C31_reserved_site_name' depends on axioms: [propext, Classical.choice, Quot.sound]
'Resistics.C32_quick_site' depends on axioms: [propext, Classical.choice, Quot.sound]
'Resistics.C32_agrees' depends on axioms: [propext, Classical.choice, Quot.sound]
'Resistics.C32_quick_gather' depends on axioms: [propext, Classical.choice, Quot.sound]
'Resistics.C32_too_many_frequencies_collide' depends on axioms: [propext, Classical.choice, Quot.sound]
'Resistics.C33_rows' depends on axioms: [propext, Classical.choice, Quot.sound]
'Resistics.C33_solves_iff' depends on axioms: [propext, Classical.choice, Quot.sound]
'Resistics.C33_exact_data' depends on axioms: [propext, Classical.choice, Quot.sound]
'Resistics.C33_unique' depends on axioms: [propext, Classical.choice, Quot.sound]
'Resistics.C33_equations' depends on axioms: [propext, Classical.choice, Quot.sound]
'Resistics.C33_windows_must_match' depends on axioms: [propext, Classical.choice, Quot.sound]
'Resistics.C33_preparers_agree' depends on axioms: [propext, Classical.choice, Quot.sound]
'Resistics.C33_least_squares_fits' depends on axioms: [propext, Classical.choice, Quot.sound]
'Resistics.C33_recovery' depends on axioms: [propext, Classical.choice, Quot.sound]
'Resistics.C34_solution' depends on axioms: [propext, Classical.choice, Quot.sound]
'Resistics.C34_bad_index' depends on axioms: [propext, Classical.choice, Quot.sound]
'Resistics.C35_equal_lengths' depends on axioms: [propext, Classical.choice, Quot.sound]
'Resistics.C35_last_pair_wins' depends on axioms: [propext, Classical.choice, Quot.sound]
'Resistics.C35_collision' depends on axioms: [propext, Classical.choice, Quot.sound]
'Resistics.C36_bisquare' depends on axioms: [propext, Classical.choice, Quot.sound]
'Resistics.C36_bisquare_support' depends on axioms: [propext, Classical.choice, Quot.sound]
'Resistics.C36_huber' depends on axioms: [propext, Classical.choice, Quot.sound]
'Resistics.C36_huber_influence' depends on axioms: [propext, Classical.choice, Quot.sound]
'Resistics.C36_trimmed_mean' depends on axioms: [propext, Classical.choice, Quot.sound]
'Resistics.C36_negative_residuals' depends on axioms: [propext, Classical.choice, Quot.sound]
'Resistics.C36_trim_rule' depends on axioms: [propext, Classical.choice, Quot.sound]
'Resistics.C36_half_kept' depends on axioms: [propext, Classical.choice, Quot.sound]
'Resistics.C36_exact_data' depends on axioms: [propext, Classical.choice, Quot.sound]
'Resistics.C36_no_iterations' depends on axioms: [propext, Classical.choice, Quot.sound]
'Resistics.C36_result_is_a_fit' depends on axioms: [propext, Classical.choice, Quot.sound]
'Resistics.C37_completed' depends on axioms: [propext, Classical.choice, Quot.sound]
'Resistics.C37_long_variation' depends on axioms: [propext, Classical.choice, Quot.sound]
'Resistics.C37_missing_lists' depends on axioms: [propext, Classical.choice, Quot.sound]
'Resistics.C37_builtin' depends on axioms: [propext, Classical.choice, Quot.sound]
'Resistics.C37_dict_roundtrip' depends on axioms: [propext, Classical.choice, Quot.sound]
'Resistics.C37_validate' depends on axioms: [propext, Classical.choice, Quot.sound]
'Resistics.C37_registered' depends on axioms: [propext, Quot.sound]
'Resistics.C37_component' depends on axioms: [propext, Classical.choice, Quot.sound]
'Resistics.C37_resistivity' depends on axioms: [propext, Classical.choice, Quot.sound]
'Resistics.C37_periods' depends on axioms: [propext, Classical.choice, Quot.sound]
'Resistics.C37_resistivity_scaling' depends on axioms: [propext, Classical.choice, Quot.sound]
'Resistics.C37_resistivity_phase' depends on axioms: [propext, Classical.choice, Quot.sound]
'Resistics.C38_one_record' depends on axioms: [propext, Classical.choice, Quot.sound]
'Resistics.C38_append_only' depends on axioms: [propext, Classical.choice, Quot.sound]
'Resistics.C38_contents_kept' depends on axioms: [propext, Classical.choice, Quot.sound]
'Resistics.C38_inputs_unchanged' depends on axioms: [propext, Classical.choice, Quot.sound]
'Resistics.C38_result' depends on axioms: [propext, Classical.choice, Quot.sound]
'Resistics.C38_shallow_effect' depends on axioms: [propext, Classical.choice, Quot.sound]
'Resistics.C38_decimator_effect' depends on axioms: [propext, Classical.choice, Quot.sound]
'Resistics.C38_writer_effect' depends on axioms: [propext, Classical.choice, Quot.sound]
'Resistics.C38_time_writer_effect' depends on axioms: [propext, Classical.choice, Quot.sound]
'Resistics.C38_set_chan_effect' depends on axioms: [propext, Classical.choice, Quot.sound]
'Resistics.C38_families' depends on axioms: [propext, Classical.choice, Quot.sound]
'Resistics.C39_refuses_existing' depends on axioms: [propext, Classical.choice, Quot.sound]
'Resistics.C39_file_in_the_way' depends on axioms: [propext, Classical.choice, Quot.sound]
'Resistics.C39_touches_only_its_output' depends on axioms: [propext, Classical.choice, Quot.sound]
'Resistics.C39_writes' depends on axioms: [propext, Classical.choice, Quot.sound]
'Resistics.C40_survives_other_writes' depends on axioms: [propext, Classical.choice, Quot.sound]
'Resistics.C40_interrupted_first_write_decimated' depends on axioms: [propext, Classical.choice, Quot.sound]
'Resistics.C40_interrupted_first_write_windowed' depends on axioms: [propext, Classical.choice, Quot.sound]
'Resistics.C40_interrupted_first_write_spectra' depends on axioms: [propext, Classical.choice, Quot.sound]
'Resistics.C40_interrupted_overwrite_decimated' depends on axioms: [propext, Classical.choice, Quot.sound]
'Resistics.C40_interrupted_overwrite_windowed' depends on axioms: [propext, Classical.choice, Quot.sound]
'Resistics.C40_interrupted_overwrite_spectra' depends on axioms: [propext, Classical.choice, Quot.sound]
'Resistics.C40_time_numpy_reads_the_recording' depends on axioms: [propext, Classical.choice, Quot.sound]
'Resistics.C40_time_numpy_round_trip' depends on axioms: [propext, Classical.choice, Quot.sound]
'Resistics.C40_single_sample_not_readable' depends on axioms: [propext, Classical.choice, Quot.sound]
'Resistics.C40_interrupted_first_write_time' depends on axioms: [propext, Classical.choice, Quot.sound]
'Resistics.C40_ascii_not_readable' depends on axioms: [propext, Classical.choice, Quot.sound]
'Resistics.C40_decimated_round_trip' depends on axioms: [propext, Classical.choice, Quot.sound]
'Resistics.C40_windowed_round_trip' depends on axioms: [propext, Classical.choice, Quot.sound]
'Resistics.C40_spectra_round_trip' depends on axioms: [propext, Classical.choice, Quot.sound]
'Resistics.C40_time_metadata_iff' depends on axioms: [propext, Classical.choice, Quot.sound]
'Resistics.C41_response_is_interpolated' depends on axioms: [propext, Classical.choice, Quot.sound]
'Resistics.C41_response_unique' depends on axioms: [propext, Classical.choice, Quot.sound]
'Resistics.C41_response_at_table_entry' depends on axioms: [propext, Classical.choice, Quot.sound]
'Resistics.C41_first_reader_that_succeeds' depends on axioms: [propext, Quot.sound]
'Resistics.C41_calibrates_exactly_the_selected' depends on axioms: [propext, Classical.choice, Quot.sound]
'Resistics.C41_single_frequency_refused' depends on axioms: [propext, Classical.choice, Quot.sound]
'Resistics.C41_input_unchanged' depends on axioms: [propext, Classical.choice, Quot.sound]
'Resistics.C41_reads_the_named_file' depends on axioms: [propext, Classical.choice, Quot.sound]
'Resistics.C41_unknown_channel' depends on axioms: [propext, Classical.choice, Quot.sound]
'Resistics.C41_file_name' depends on axioms: [propext, Classical.choice, Quot.sound]
'Resistics.C42_text_is_read' depends on axioms: [propext, Classical.choice, Quot.sound]
'Resistics.C42_which_files' depends on axioms: [propext, Classical.choice, Quot.sound]
'Resistics.C42_no_marker' depends on axioms: [propext, Classical.choice, Quot.sound]
'Resistics.C43_exactly_overlapping' depends on axioms: [propext, Classical.choice, Quot.sound]
'Resistics.C43_symmetric' depends on axioms: [propext, Classical.choice, Quot.sound]
'Resistics.C43_unknown_site' depends on axioms: [propext]
'Resistics.C43_loaded_well_formed' depends on axioms: [propext, Classical.choice, Quot.sound]
'Resistics.C44_existing_project_untouched' depends on axioms: [propext]
'Resistics.C44_create_refusals' depends on axioms: [propext, Quot.sound]
'Resistics.C44_creates' depends on axioms: [propext, Classical.choice, Quot.sound]
'Resistics.C44_created_loads' depends on axioms: [propext, Classical.choice, Quot.sound]
'Resistics.C44_interrupted' depends on axioms: [propext, Classical.choice, Quot.sound]
'Resistics.C44_loads_iff' depends on axioms: [propext, Classical.choice, Quot.sound]
'Resistics.C44_load_refusals' depends on axioms: [propext]
'Resistics.C44_lists_exactly' depends on axioms: [propext, Classical.choice, Quot.sound]
'Resistics.C45_solution_read_back' depends on axioms: [propext, Classical.choice, Quot.sound]
'Resistics.C45_other_solutions' depends on axioms: [propext, Classical.choice, Quot.sound]
'Resistics.C45_interrupted_solution' depends on axioms: [propext, Classical.choice, Quot.sound]
'Resistics.C45_failed_solution' depends on axioms: [propext, Classical.choice, Quot.sound]
'Resistics.C45_paths_distinct' depends on axioms: [propext, Classical.choice, Quot.sound]
'Resistics.C45_paths_in_their_directory' depends on axioms: [propext, Classical.choice, Quot.sound]
'Resistics.C45_slashes_collide' depends on axioms: [propext, Classical.choice, Quot.sound]
'Resistics.C45_fs_strings' depends on axioms: [propext, Classical.choice, Quot.sound]
'Resistics.C45_mask_names' depends on axioms: [propext, Classical.choice, Quot.sound]
'Resistics.C45_solution_names' depends on axioms: [propext, Classical.choice, Quot.sound]
'Resistics.C45_solution_name_collisions' depends on axioms: [propext, Classical.choice, Quot.sound]
'Resistics.C46_refuses_sizes' depends on axioms: [propext, Classical.choice, Quot.sound]
'Resistics.C46_unchanged' depends on axioms: [propext, Classical.choice, Quot.sound]
'Resistics.C46_downsampled' depends on axioms: [propext, Classical.choice, Quot.sound]
'Resistics.C46_no_limit' depends on axioms: [propext, Classical.choice, Quot.sound]
'Resistics.C46_apply' depends on axioms: [propext, Classical.choice, Quot.sound]
'Resistics.C46_never_grows' depends on axioms: [propext, Classical.choice, Quot.sound]
'Resistics.C46_indices_rounded' depends on axioms: [propext, Classical.choice, Quot.sound]
'Resistics.C47_round_trip' depends on axioms: [propext, Classical.choice, Quot.sound]
'Resistics.C47_exact' depends on axioms: [propext, Classical.choice, Quot.sound]
'Resistics.C47_same_text' depends on axioms: [propext, Classical.choice, Quot.sound]
'Resistics.C47_early_years' depends on axioms: [propext, Classical.choice, Quot.sound]
'Resistics.C47_trailing_text_refused' depends on axioms: [propext, Classical.choice, Quot.sound]
'Resistics.C47_calendar' depends on axioms: [propext, Classical.choice, Quot.sound]
'Resistics.C47_read_digits' depends on axioms: [propext, Classical.choice, Quot.sound]
'Resistics.C47_stable' depends on axioms: [propext, Classical.choice, Quot.sound]
'Resistics.C47_to_datetime' depends on axioms: [propext, Classical.choice, Quot.sound]
'Resistics.C47_to_datetime_other' depends on axioms: [propext, Classical.choice, Quot.sound]
'Resistics.C47_timestamp' depends on axioms: [propext, Classical.choice, Quot.sound]
'Resistics.C48_rebuilt' depends on axioms: [propext, Classical.choice, Quot.sound]
'Resistics.C48_refusals' depends on axioms: [propext, Quot.sound]
'Resistics.C48_parameters' depends on axioms: [propext, Quot.sound]
'Resistics.C48_registry' depends on axioms: [propext, Classical.choice, Quot.sound]
'Resistics.C48_registry_consistent' depends on axioms: [propext, Classical.choice, Quot.sound]
'Resistics.C48_stable' depends on axioms: [propext, Classical.choice, Quot.sound]
'Resistics.C48_configuration' depends on axioms: [propext, Classical.choice, Quot.sound]
'Resistics.C48_consumed' depends on axioms: [propext, Quot.sound]
'Resistics.C48_custom_names' depends on axioms: [propext, Quot.sound]
'Resistics.C48_any_class' depends on axioms: [propext, Quot.sound]
'Resistics.C49_spectra_access' depends on axioms: [propext, Classical.choice, Quot.sound]
'Resistics.C49_get_chan' depends on axioms: [propext, Quot.sound]
'Resistics.C49_set_chan' depends on axioms: [propext, Quot.sound]
'Resistics.C49_windowed_get_chan' depends on axioms: [propext, Classical.choice, Quot.sound]
'Resistics.C50_end_to_end' depends on axioms: [propext, Classical.choice, Quot.sound]
'Resistics.C50_stages' depends on axioms: [propext, Classical.choice, Quot.sound]
'Resistics.C50_recovered' depends on axioms: [propext, Classical.choice, Quot.sound]
'Resistics.C51_frequency_grid' depends on axioms: [propext, Classical.choice, Quot.sound]
'Resistics.C51_fourier_run' depends on axioms: [propext, Classical.choice, Quot.sound]
'Resistics.C51_no_clamping' depends on axioms: [propext, Classical.choice, Quot.sound]
'Resistics.C51_windower_output_shaped' depends on axioms: [propext, Classical.choice, Quot.sound]
'Resistics.C51_timestamps' depends on axioms: [propext, Classical.choice, Quot.sound]
'Resistics.C52_phase' depends on axioms: [propext, Classical.choice, Quot.sound]
'Resistics.C52_phase_ex' depends on axioms: [propext, Classical.choice, Quot.sound]
'Resistics.C52_tipper_length' depends on axioms: [propext, Classical.choice, Quot.sound]
'Resistics.C53_detrend_constant' depends on axioms: [propext, Classical.choice, Quot.sound]
'Resistics.C53_detrend_linear' depends on axioms: [propext, Classical.choice, Quot.sound]
'Resistics.C53_linear' depends on axioms: [propext, Classical.choice, Quot.sound]
'Resistics.C53_tone' depends on axioms: [propext, Classical.choice, Quot.sound]
'Resistics.C53_inversion' depends on axioms: [propext, Classical.choice, Quot.sound]
'Resistics.C54_site_fs' depends on axioms: [propext, Classical.choice, Quot.sound]
'Resistics.C54_project_fs' depends on axioms: [propext, Classical.choice, Quot.sound]
'Resistics.C54_get_sites' depends on axioms: [propext, Classical.choice, Quot.sound]
'Resistics.C54_get_measurements' depends on axioms: [propext]
'Resistics.C54_get_site' depends on axioms: [propext, Quot.sound]
'Resistics.C54_get_measurement' depends on axioms: [propext, Quot.sound]
'Resistics.C55_loaded_well_placed' depends on axioms: [propext, Classical.choice, Quot.sound]
'Resistics.C55_stored' depends on axioms: [propext, Classical.choice, Quot.sound]
'Resistics.C55_order' depends on axioms: [propext, Classical.choice, Quot.sound]
'Resistics.C55_interrupted' depends on axioms: [propext, Classical.choice, Quot.sound]
'Resistics.C55_failed' depends on axioms: [propext, Classical.choice, Quot.sound]
'Resistics.C56_count_error' depends on axioms: [propext, Classical.choice, Quot.sound]
'Resistics.C56_n_samples' depends on axioms: [propext, Classical.choice, Quot.sound]
'Resistics.C56_period' depends on axioms: [propext, Classical.choice, Quot.sound]
'Resistics.C56_sample_time' depends on axioms: [propext, Classical.choice, Quot.sound]
'Resistics.C56_round_trip' depends on axioms: [propext, Classical.choice, Quot.sound]
'Resistics.C56_from_time' depends on axioms: [propext, Classical.choice, Quot.sound]
'Resistics.C56_to_time' depends on axioms: [propext, Classical.choice, Quot.sound]
'Resistics.C56_range_loses_samples' depends on axioms: [propext, Classical.choice, Quot.sound]
'Resistics.C56_increments_error' depends on axioms: [propext, Classical.choice, Quot.sound]
'Resistics.C56_window_round_trip' depends on axioms: [propext, Classical.choice, Quot.sound]
'Resistics.C56_window_within_one' depends on axioms: [propext, Classical.choice, Quot.sound]
'Resistics.C56_windows' depends on axioms: [propext, Classical.choice, Quot.sound]
'Resistics.C56_window_samples' depends on axioms: [propext, Classical.choice, Quot.sound]
'Resistics.C56_windows_misaligned' depends on axioms: [propext, Classical.choice, Quot.sound]
'Resistics.C57_estimates' depends on axioms: [propext, Classical.choice, Quot.sound]
'Resistics.C57_no_samples' depends on axioms: [propext, Classical.choice, Quot.sound]
'Resistics.C57_timestamps' depends on axioms: [propext, Classical.choice, Quot.sound]
'Resistics.C57_default_timestamps' depends on axioms: [propext, Classical.choice, Quot.sound]
'Resistics.C57_exact_timestamps' depends on axioms: [propext, Classical.choice, Quot.sound]
'Resistics.C57_level_timestamps' depends on axioms: [propext, Classical.choice, Quot.sound]
'Resistics.C57_window_times' depends on axioms: [propext, Classical.choice, Quot.sound]
'Resistics.C57_drift' depends on axioms: [propext, Classical.choice, Quot.sound]
'Resistics.C57_plot' depends on axioms: [propext, Classical.choice, Quot.sound]
'Resistics.C57_plot_some_channels' depends on axioms: [propext, Classical.choice, Quot.sound]
'Resistics.C57_plot_reordered' depends on axioms: [propext, Classical.choice, Quot.sound]
'Resistics.C57_plot_figure_needs_channels' depends on axioms: [propext, Classical.choice, Quot.sound]
'Resistics.C57_ten_levels' depends on axioms: [propext, Classical.choice, Quot.sound]
'Resistics.C57_dec_plot' depends on axioms: [propext, Classical.choice, Quot.sound]
'Resistics.C58_quick_read' depends on axioms: [propext, Classical.choice, Quot.sound]
'Resistics.C58_same_recording' depends on axioms: [propext, Classical.choice, Quot.sound]
'Resistics.C58_relabelled' depends on axioms: [propext, Classical.choice, Quot.sound]
'Resistics.C58_agrees' depends on axioms: [propext, Classical.choice, Quot.sound]
'Resistics.C58_wrong_frequencies' depends on axioms: [propext, Classical.choice, Quot.sound]
'Resistics.C58_fit' depends on axioms: [propext, Classical.choice, Quot.sound]
'Resistics.C58_calibrator_keeps' depends on axioms: [propext, Classical.choice, Quot.sound]
'Resistics.C58_saved' depends on axioms: [propext, Classical.choice, Quot.sound]
'Resistics.C58_no_measurement_at_rate' depends on axioms: [propext, Classical.choice, Quot.sound]
'Resistics.C58_quick_view' depends on axioms: [propext, Classical.choice, Quot.sound]
'Resistics.C58_quick_view_decimated' depends on axioms: [propext, Classical.choice, Quot.sound]
'Resistics.C58_nothing_to_read' depends on axioms: [propext, Classical.choice, Quot.sound]
'Resistics.C58_quick_spectra' depends on axioms: [propext, Classical.choice, Quot.sound]
'Resistics.C59_over_itself_only' depends on axioms: [propext, Classical.choice, Quot.sound]
'Resistics.C59_over_itself' depends on axioms: [propext, Classical.choice, Quot.sound]
'Resistics.C59_stored' depends on axioms: [propext, Classical.choice, Quot.sound]
'Resistics.C59_failed' depends on axioms: [propext, Classical.choice, Quot.sound]
'Resistics.C59_others' depends on axioms: [propext, Classical.choice, Quot.sound]
'Resistics.C59_listed' depends on axioms: [propext, Classical.choice, Quot.sound]
'Resistics.C59_succeeds' depends on axioms: [propext, Classical.choice, Quot.sound]
'Resistics.C59_interrupted' depends on axioms: [propext, Classical.choice, Quot.sound]
'Resistics.C60_between_sites' depends on axioms: [propext, Classical.choice, Quot.sound]
'Resistics.C60_no_common_windows' depends on axioms: [propext, Classical.choice, Quot.sound]
'Resistics.C60_missing_site' depends on axioms: [propext, Classical.choice, Quot.sound]
'Resistics.C60_equations' depends on axioms: [propext, Classical.choice, Quot.sound]
'Resistics.C60_recovered' depends on axioms: [propext, Classical.choice, Quot.sound]
'Resistics.C60_window_times' depends on axioms: [propext, Classical.choice, Quot.sound]
'Resistics.C60_same_time' depends on axioms: [propext, Classical.choice, Quot.sound]
'Resistics.C60_loaded_keyed' depends on axioms: [propext, Classical.choice, Quot.sound]
'Resistics.C60_ready' depends on axioms: [propext, Classical.choice, Quot.sound]
'Resistics.C60_end_to_end' depends on axioms: [propext, Classical.choice, Quot.sound]
'Resistics.C61_text' depends on axioms: [propext, Classical.choice, Quot.sound]
'Resistics.C61_text_no_channels' depends on axioms: [propext, Classical.choice, Quot.sound]
'Resistics.C61_text_identifies' depends on axioms: [propext, Classical.choice, Quot.sound]
'Resistics.C61_impedance_plot' depends on axioms: [propext, Classical.choice, Quot.sound]
'Resistics.C61_all_components' depends on axioms: [propext, Classical.choice, Quot.sound]
'Resistics.C61_impedance_refused' depends on axioms: [propext, Classical.choice, Quot.sound]
'Resistics.C61_tipper_angle' depends on axioms: [propext, Classical.choice, Quot.sound]
'Resistics.C61_tipper_angle_ambiguous' depends on axioms: [propext, Classical.choice, Quot.sound]
'Resistics.C61_tipper_plot' depends on axioms: [propext, Classical.choice, Quot.sound]
'Resistics.C61_tipper_missing' depends on axioms: [propext, Classical.choice, Quot.sound]
'Resistics.C62_ols_least_squares' depends on axioms: [propext, Classical.choice, Quot.sound]
'Resistics.C62_ols_exact' depends on axioms: [propext, Classical.choice, Quot.sound]
'Resistics.C62_normalize' depends on axioms: [propext, Classical.choice, Quot.sound]
'Resistics.C62_intercept_shift' depends on axioms: [propext, Classical.choice, Quot.sound]
'Resistics.C62_intercept_needs_more' depends on axioms: [propext, Classical.choice, Quot.sound]
'Resistics.C62_wls_fits_exactly' depends on axioms: [propext, Classical.choice, Quot.sound]
'Resistics.C62_wls_exact' depends on axioms: [propext, Classical.choice, Quot.sound]
'Resistics.C62_wls_once' depends on axioms: [propext, Classical.choice, Quot.sound]
'Resistics.C62_wls_weights' depends on axioms: [propext, Classical.choice, Quot.sound]
'Resistics.C62_wls_no_iterations' depends on axioms: [propext, Classical.choice, Quot.sound]
'Resistics.C62_huber_flags' depends on axioms: [propext, Classical.choice, Quot.sound]
'Resistics.C62_huber_near' depends on axioms: [propext, Classical.choice, Quot.sound]
'Resistics.C62_huber_shrinks' depends on axioms: [propext, Classical.choice, Quot.sound]
'Resistics.C62_theil_sen_draws' depends on axioms: [propext, Classical.choice, Quot.sound]
'Resistics.C62_theil_sen_drawn' depends on axioms: [propext, Classical.choice, Quot.sound]
'Resistics.C62_theil_sen_majority' depends on axioms: [propext, Classical.choice, Quot.sound]
'Resistics.C62_theil_sen_exact' depends on axioms: [propext, Classical.choice, Quot.sound]
'Resistics.C62_theil_sen_accepted' depends on axioms: [propext, Classical.choice, Quot.sound]
'Resistics.C62_ransac_exact' depends on axioms: [propext, Classical.choice, Quot.sound]
'Resistics.C62_ransac_flat' depends on axioms: [propext, Classical.choice, Quot.sound]
'Resistics.C62_one_failure' depends on axioms: [propext, Classical.choice, Quot.sound]
'Resistics.C62_recovery' depends on axioms: [propext, Classical.choice, Quot.sound]
'Resistics.C62_same_window' depends on axioms: [propext, Classical.choice, Quot.sound]
'Resistics.C62_sample_determines' depends on axioms: [propext, Classical.choice, Quot.sound]
'Resistics.C63_decimation' depends on axioms: [propext, Classical.choice, Quot.sound]
'Resistics.C63_ladder' depends on axioms: [propext, Classical.choice, Quot.sound]
'Resistics.C63_levels' depends on axioms: [propext, Classical.choice, Quot.sound]
'Resistics.C63_windows' depends on axioms: [propext, Classical.choice, Quot.sound]
'Resistics.C63_processed' depends on axioms: [propext, Classical.choice, Quot.sound]
'Resistics.C63_refused' depends on axioms: [propext, Classical.choice, Quot.sound]
'Resistics.C63_succeeds' depends on axioms: [propext, Classical.choice, Quot.sound]
'Resistics.C63_recovered' depends on axioms: [propext, Classical.choice, Quot.sound]
'Resistics.C63_transfer_function' depends on axioms: [propext, Classical.choice, Quot.sound]
'Resistics.C64_groups' depends on axioms: [propext, Classical.choice, Quot.sound]
'Resistics.C64_span' depends on axioms: [propext, Classical.choice, Quot.sound]
'Resistics.C64_one_group' depends on axioms: [propext, Classical.choice, Quot.sound]
'Resistics.C64_plot' depends on axioms: [propext, Classical.choice, Quot.sound]
'Resistics.C64_eleven_levels' depends on axioms: [propext, Classical.choice, Quot.sound]
'Resistics.C64_level_not_there' depends on axioms: [propext, Classical.choice, Quot.sound]
'Resistics.C64_level_stack' depends on axioms: [propext, Classical.choice, Quot.sound]
'Resistics.C64_default_stack' depends on axioms: [propext, Classical.choice, Quot.sound]
'Resistics.C64_mean_of_groups' depends on axioms: [propext, Classical.choice, Quot.sound]
'Resistics.C64_section' depends on axioms: [propext, Classical.choice, Quot.sound]
'Resistics.C64_section_one_channel' depends on axioms: [propext, Classical.choice, Quot.sound]
'Resistics.C64_section_sparse' depends on axioms: [propext, Classical.choice, Quot.sound]
'Resistics.C65_names' depends on axioms: [propext]
'Resistics.C65_created' depends on axioms: [propext]
'Resistics.C65_without_name' depends on axioms: [propext]
'Resistics.C65_assigned' depends on axioms: [propext]
'Resistics.C65_renamed' depends on axioms: [propext]
'Resistics.C65_channels_of_type' depends on axioms: [propext, Quot.sound]
'Resistics.C65_missing_metadata' depends on axioms: [propext, Quot.sound]
'Resistics.C65_types' depends on axioms: [propext, Classical.choice, Quot.sound]
'Resistics.C65_any' depends on axioms: [propext, Quot.sound]
'Resistics.C65_from_dictionaries' depends on axioms: [propext, Quot.sound]
'Resistics.C65_from_dictionaries_iff' depends on axioms: [propext, Quot.sound]
'Resistics.C65_types_by_name' depends on axioms: [propext, Quot.sound]
'Resistics.C65_number_of_channels' depends on axioms: [propext]
'Resistics.C66_site_table' depends on axioms: [propext, Classical.choice, Quot.sound]
'Resistics.C66_project_rows' depends on axioms: [propext, Classical.choice, Quot.sound]
'Resistics.C66_project_table' depends on axioms: [propext, Classical.choice, Quot.sound]
'Resistics.C66_margin' depends on axioms: [propext, Classical.choice, Quot.sound]
'Resistics.C66_plot' depends on axioms: [propext, Classical.choice, Quot.sound]
'Resistics.C66_in_view' depends on axioms: [propext, Classical.choice, Quot.sound]
'Resistics.C66_late_reference' depends on axioms: [propext, Classical.choice, Quot.sound]
'Resistics.C67_tree' depends on axioms: [propext, Classical.choice, Quot.sound]
'Resistics.C67_same_project' depends on axioms: [propext, Classical.choice, Quot.sound]
'Resistics.C67_determined' depends on axioms: [propext, Classical.choice, Quot.sound]
'Resistics.C67_solution' depends on axioms: [propext, Classical.choice, Quot.sound]
'Resistics.C67_needs_reload' depends on axioms: [propext, Classical.choice, Quot.sound]
'Resistics.C67_new_measurement' depends on axioms: [propext, Classical.choice, Quot.sound]
'Resistics.C67_solution_written' depends on axioms: [propext, Classical.choice, Quot.sound]
'Resistics.C67_listable' depends on axioms: [propext, Classical.choice, Quot.sound]
'Resistics.C67_new' depends on axioms: [propext, Classical.choice, Quot.sound]
'Resistics.C67_only_outputs' depends on axioms: [propext, Classical.choice, Quot.sound]
'Resistics.C67_kept' depends on axioms: [propext, Classical.choice, Quot.sound]
'Resistics.C67_loads' depends on axioms: [propext, Classical.choice, Quot.sound]
'Resistics.C67_reload' depends on axioms: [propext, Classical.choice, Quot.sound]
'Resistics.C67_evals' depends on axioms: [propext, Classical.choice, Quot.sound]
'Resistics.C68_metadata' depends on axioms: [propext, Classical.choice, Quot.sound]
'Resistics.C68_channels' depends on axioms: [propext]
'Resistics.C68_ones' depends on axioms: [propext, Classical.choice, Quot.sound]
'Resistics.C68_linear' depends on axioms: [propext, Classical.choice, Quot.sound]
'Resistics.C68_random' depends on axioms: [propext, Classical.choice, Quot.sound]
'Resistics.C68_fixed' depends on axioms: [propext, Classical.choice, Quot.sound]
'Resistics.C68_consistent' depends on axioms: [propext, Classical.choice, Quot.sound]
'Resistics.C68_counted' depends on axioms: [propext, Classical.choice, Quot.sound]
'Resistics.C68_last_sample' depends on axioms: [propext, Classical.choice, Quot.sound]
'Resistics.C68_periodic' depends on axioms: [propext, Classical.choice, Quot.sound]
'Resistics.C68_offset' depends on axioms: [propext, Classical.choice, Quot.sound]
'Resistics.C68_decimated' depends on axioms: [propext, Classical.choice, Quot.sound]
'Resistics.C68_decimated_linear' depends on axioms: [propext, Classical.choice, Quot.sound]
'Resistics.C68_decimated_random' depends on axioms: [propext, Classical.choice, Quot.sound]
'Resistics.C68_decimated_periodic' depends on axioms: [propext, Classical.choice, Quot.sound]
'Resistics.C68_spectra_metadata' depends on axioms: [propext, Classical.choice, Quot.sound]
'Resistics.C68_not_halved' depends on axioms: [propext, Classical.choice, Quot.sound]
'Resistics.C68_spectra_basic' depends on axioms: [propext, Classical.choice, Quot.sound]
'Resistics.C68_regression_metadata' depends on axioms: [propext]
'Resistics.C68_solution' depends on axioms: [propext, Classical.choice, Quot.sound]
'Resistics.C69_unwrap' depends on axioms: [propext, Classical.choice, Quot.sound]
'Resistics.C69_recovers' depends on axioms: [propext, Classical.choice, Quot.sound]
'Resistics.C69_unchanged' depends on axioms: [propext, Classical.choice, Quot.sound]
'Resistics.C69_twice' depends on axioms: [propext, Classical.choice, Quot.sound]
'Resistics.C69_mag_phs' depends on axioms: [propext, Classical.choice, Quot.sound]
'Resistics.C69_mag_phs_unwrapped' depends on axioms: [propext, Classical.choice, Quot.sound]
'Resistics.C69_no_level' depends on axioms: [propext, Classical.choice, Quot.sound]
'Resistics.C69_freq' depends on axioms: [propext, Classical.choice, Quot.sound]
'Resistics.C69_freq_ambiguous' depends on axioms: [propext, Quot.sound]
'Resistics.C70_subscript' depends on axioms: [propext, Classical.choice, Quot.sound]
'Resistics.C70_array' depends on axioms: [propext, Classical.choice, Quot.sound]
'Resistics.C70_dataframe' depends on axioms: [propext, Classical.choice, Quot.sound]
'Resistics.C70_dataframe_refused' depends on axioms: [propext, Classical.choice, Quot.sound]
'Resistics.C70_setup' depends on axioms: [propext, Classical.choice, Quot.sound]
'Resistics.C70_cal_columns' does not depend on any axioms
'Resistics.C70_cal_samples' does not depend on any axioms
'Resistics.C70_cal_dataframe' depends on axioms: [propext, Quot.sound]
'Resistics.C70_cal_text' depends on axioms: [propext, Classical.choice, Quot.sound]
'Resistics.C70_cal_plot' does not depend on any axioms
'Resistics.C71_record' depends on axioms: [propext, Classical.choice, Quot.sound]
'Resistics.C71_name' does not depend on any axioms
'Resistics.C71_rebuilt' depends on axioms: [propext, Classical.choice, Quot.sound]
'Resistics.C71_replay' depends on axioms: [propext, Classical.choice, Quot.sound]
'Resistics.C71_file' depends on axioms: [propext, Classical.choice, Quot.sound]
'Resistics.C71_file_without_times' depends on axioms: [propext, Classical.choice, Quot.sound]
'Resistics.C71_get_record' does not depend on any axioms
'Resistics.C71_fields' depends on axioms: [propext, Classical.choice, Quot.sound]
'Resistics.C71_history' depends on axioms: [propext, Quot.sound]
'Resistics.C71_other_name' depends on axioms: [propext, Classical.choice, Quot.sound]
'Resistics.C71_wrong_name' depends on axioms: [propext, Classical.choice, Quot.sound]
'Resistics.C71_custom_functions' depends on axioms: [propext, Classical.choice, Quot.sound]
'Resistics.C71_undescribed' depends on axioms: [propext, Classical.choice, Quot.sound]
'Resistics.C71_used_up' depends on axioms: [propext, Classical.choice, Quot.sound]
'Resistics.C71_far_years' depends on axioms: [propext, Classical.choice, Quot.sound]
'Resistics.C71_time_texts_distinct' depends on axioms: [propext, Classical.choice, Quot.sound]
'Resistics.C72_time' depends on axioms: [propext, Classical.choice, Quot.sound]
'Resistics.C72_decimated' depends on axioms: [propext, Classical.choice, Quot.sound]
'Resistics.C72_windowed' depends on axioms: [propext, Classical.choice, Quot.sound]
'Resistics.C72_fourier' depends on axioms: [propext, Classical.choice, Quot.sound]
'Resistics.C72_evals' depends on axioms: [propext, Classical.choice, Quot.sound]
'Resistics.C72_smoothed' depends on axioms: [propext, Classical.choice, Quot.sound]
'Resistics.C72_levels' depends on axioms: [propext]
'Resistics.C72_calibrated' depends on axioms: [propext, Classical.choice, Quot.sound]
'Resistics.C72_get_chans' depends on axioms: [propext, Classical.choice, Quot.sound]
'Resistics.C72_gathered' depends on axioms: [propext, Classical.choice, Quot.sound]
'Resistics.C72_chain' depends on axioms: [propext, Classical.choice, Quot.sound]
'Resistics.C72_unused_channels' depends on axioms: [propext, Classical.choice, Quot.sound]
'Resistics.C72_same_solution' depends on axioms: [propext, Classical.choice, Quot.sound]
'Resistics.C73_windowed' depends on axioms: [propext, Classical.choice, Quot.sound]
'Resistics.C73_fourier' depends on axioms: [propext, Classical.choice, Quot.sound]
'Resistics.C73_evals' depends on axioms: [propext, Classical.choice, Quot.sound]
'Resistics.C73_smoothed' depends on axioms: [propext, Quot.sound]
'Resistics.C73_chain' depends on axioms: [propext, Classical.choice, Quot.sound]
'Resistics.C73_get_freq' depends on axioms: [propext, Quot.sound]
'Resistics.C73_mag_phs' depends on axioms: [propext, Classical.choice, Quot.sound]
'Resistics.C73_timestamps' depends on axioms: [propext, Classical.choice, Quot.sound]
'Resistics.C73_get_chan_first_window' depends on axioms: [propext, Classical.choice, Quot.sound]
'Resistics.C73_calibration' depends on axioms: [propext, Quot.sound]
'Resistics.C73_plot_fails' depends on axioms: [propext, Classical.choice, Quot.sound]
'Resistics.C74_float' depends on axioms: [propext, Classical.choice, Quot.sound]
'Resistics.C74_int' depends on axioms: [propext, Classical.choice, Quot.sound]
'Resistics.C74_reads_nearest' depends on axioms: [propext, Classical.choice, Quot.sound]
'Resistics.C74_overflow' depends on axioms: [propext, Classical.choice, Quot.sound]
'Resistics.C74_distinct' depends on axioms: [propext, Classical.choice, Quot.sound]
'Resistics.C74_int_as_float' depends on axioms: [propext, Classical.choice, Quot.sound]
'Resistics.C75_round_trip' depends on axioms: [propext, Classical.choice, Quot.sound]
'Resistics.C75_distinct' depends on axioms: [propext, Classical.choice, Quot.sound]
'Resistics.C75_trailing_text' depends on axioms: [propext, Classical.choice, Quot.sound]
'Resistics.C75_interrupted' depends on axioms: [propext, Classical.choice, Quot.sound]
'Resistics.C75_printable' depends on axioms: [propext, Classical.choice, Quot.sound]
'Resistics.C76_round_trip' depends on axioms: [propext, Classical.choice, Quot.sound]
'Resistics.C76_numbers' depends on axioms: [propext, Quot.sound]
'Resistics.C76_interrupted' depends on axioms: [propext, Classical.choice, Quot.sound]
'Resistics.C76_left_over' depends on axioms: [propext, Classical.choice, Quot.sound]
'Resistics.C76_distinct' depends on axioms: [propext, Classical.choice, Quot.sound]
'Resistics.C76_other_fields' depends on axioms: [propext, Classical.choice, Quot.sound]
'Resistics.C76_required' depends on axioms: [propext, Classical.choice, Quot.sound]
'Resistics.C76_read_as_project' depends on axioms: [propext, Classical.choice, Quot.sound]
'Resistics.C76_spectra_as_windowed' depends on axioms: [propext, Classical.choice, Quot.sound]
'Resistics.C76_other_classes' depends on axioms: [propext, Classical.choice, Quot.sound]
'Resistics.C76_count_channels' depends on axioms: [propext, Classical.choice, Quot.sound]
'Resistics.C76_no_channels' depends on axioms: [propext, Classical.choice, Quot.sound]
'Resistics.C76_time_defaults' depends on axioms: [propext, Classical.choice, Quot.sound]
'Resistics.C76_cal_defaults' depends on axioms: [propext, Classical.choice, Quot.sound]
'Resistics.C76_combined_defaults' depends on axioms: [propext, Classical.choice, Quot.sound]
'Resistics.C76_chan_defaults' depends on axioms: [propext, Classical.choice, Quot.sound]
'Resistics.C77_processors' depends on axioms: [propext, Classical.choice, Quot.sound]
'Resistics.C77_copy' depends on axioms: [propext, Classical.choice, Quot.sound]
'Resistics.C77_run_time_processors' depends on axioms: [propext, Classical.choice, Quot.sound]
'Resistics.C77_decimated' depends on axioms: [propext, Classical.choice, Quot.sound]
'Resistics.C77_windows_are_views' depends on axioms: [propext, Classical.choice, Quot.sound]
'Resistics.C77_target_windows_are_views' depends on axioms: [propext, Classical.choice, Quot.sound]
'Resistics.C77_window_cells' depends on axioms: [propext, Classical.choice, Quot.sound]
'Resistics.C77_set_chan' depends on axioms: [propext, Classical.choice, Quot.sound]
'Resistics.C77_read_only' depends on axioms: [propext]
'Resistics.C77_write_one' depends on axioms: [propext, Quot.sound]
'Resistics.C77_set_after_decimating' depends on axioms: [propext, Classical.choice, Quot.sound]
'Resistics.C77_mapped' depends on axioms: [propext, Classical.choice, Quot.sound]
'Resistics.C77_save' depends on axioms: [propext, Quot.sound]
'Resistics.C77_save_over_itself' depends on axioms: [propext, Quot.sound]
'Resistics.C77_history' depends on axioms: [propext, Classical.choice, Quot.sound]
'Resistics.C78_number' depends on axioms: [propext, Classical.choice, Quot.sound]
'Resistics.C78_python_numbers' depends on axioms: [propext, Classical.choice, Quot.sound]
'Resistics.C78_line' depends on axioms: [propext, Classical.choice, Quot.sound]
'Resistics.C78_recording' depends on axioms: [propext, Classical.choice, Quot.sound]
'Resistics.C78_single' depends on axioms: [propext, Classical.choice, Quot.sound]
'Resistics.C78_too_large' depends on axioms: [propext, Classical.choice, Quot.sound]
'Resistics.C78_samples' depends on axioms: [propext, Classical.choice, Quot.sound]
'Resistics.C78_comment_shifts' depends on axioms: [propext, Classical.choice, Quot.sound]
'Resistics.C78_comment_loses' depends on axioms: [propext, Classical.choice, Quot.sound]
'Resistics.C78_refused' depends on axioms: [propext, Classical.choice, Quot.sound]
'Resistics.C78_foreign_character' depends on axioms: [propext, Classical.choice, Quot.sound]
'Resistics.C78_channel_file' depends on axioms: [propext, Classical.choice, Quot.sound]
'Resistics.C78_written_then_read' depends on axioms: [propext, Classical.choice, Quot.sound]
'Resistics.C79_factor_power_of_two' depends on axioms: [propext, Classical.choice, Quot.sound]
'Resistics.C79_factor' depends on axioms: [propext, Classical.choice, Quot.sound]
'Resistics.C79_factor_rounded' depends on axioms: [propext, Classical.choice, Quot.sound]
'Resistics.C79_eval_freqs' depends on axioms: [propext, Classical.choice, Quot.sound]
'Resistics.C79_eval_freqs_min' depends on axioms: [propext, Classical.choice, Quot.sound]
'Resistics.C79_level_fs' depends on axioms: [propext, Classical.choice, Quot.sound]
'Resistics.C79_level_fs_rounded' depends on axioms: [propext, Classical.choice, Quot.sound]
'Resistics.C79_decimation_setup' depends on axioms: [propext, Classical.choice, Quot.sound]
'Resistics.C79_default_decimation' depends on axioms: [propext, Classical.choice, Quot.sound]
'Resistics.C79_floor_div' depends on axioms: [propext, Classical.choice, Quot.sound]
'Resistics.C79_overlap' depends on axioms: [propext, Classical.choice, Quot.sound]
'Resistics.C79_overlap_decimal' depends on axioms: [propext, Classical.choice, Quot.sound]
'Resistics.C79_overlap_rounded' depends on axioms: [propext, Classical.choice, Quot.sound]
'Resistics.C79_window_setup' depends on axioms: [propext, Classical.choice, Quot.sound]
'Resistics.C79_target' depends on axioms: [propext, Classical.choice, Quot.sound]
'Resistics.C79_target_exact' depends on axioms: [propext, Classical.choice, Quot.sound]
'Resistics.C80_scalar_and_dict_differ' depends on axioms: [propext, Classical.choice, Quot.sound]
'Resistics.C80_set_chan' depends on axioms: [propext, Quot.sound]
'Resistics.C80_set_chan_widened' depends on axioms: [propext, Classical.choice, Quot.sound]
'Resistics.C80_shift_close' depends on axioms: [propext, Classical.choice, Quot.sound]
'Resistics.C80_shift_lost' depends on axioms: [propext, Classical.choice, Quot.sound]
'Resistics.C80_shift_repeats' depends on axioms: [propext, Classical.choice, Quot.sound]
'Resistics.C80_shift_repeats_occurs' depends on axioms: [propext, Classical.choice, Quot.sound]
'Resistics.C80_shift_integer_refused' depends on axioms: [propext, Classical.choice, Quot.sound]
'Resistics.C80_mean_close' depends on axioms: [propext, Classical.choice, Quot.sound]
'Resistics.C80_mean_left' depends on axioms: [propext, Classical.choice, Quot.sound]
'Resistics.C80_floating_type_kept' depends on axioms: [propext, Classical.choice, Quot.sound]
'Resistics.C80_chain_type_kept' depends on axioms: [propext, Classical.choice, Quot.sound]
'Resistics.C80_integer_type' depends on axioms: [propext, Classical.choice, Quot.sound]
'Resistics.C80_add_exact' depends on axioms: [propext, Classical.choice, Quot.sound]
'Resistics.C80_multiply_exact' depends on axioms: [propext, Classical.choice, Quot.sound]
'Resistics.C80_add_close' depends on axioms: [propext, Classical.choice, Quot.sound]
'Resistics.C80_multiply_close' depends on axioms: [propext, Classical.choice, Quot.sound]
'Resistics.C80_integer_amounts_cut' depends on axioms: [propext, Classical.choice, Quot.sound]
'Resistics.C80_integer_factor_erases' depends on axioms: [propext, Classical.choice, Quot.sound]
'Resistics.C80_integer_scalar' depends on axioms: [propext, Classical.choice, Quot.sound]
'Resistics.C80_through_double' depends on axioms: [propext, Classical.choice, Quot.sound]
'Resistics.C80_integer_filter_erases' depends on axioms: [propext, Classical.choice, Quot.sound]
'Resistics.C80_gaps' depends on axioms: [propext, Classical.choice, Quot.sound]
'Resistics.C80_integer_window' depends on axioms: [propext, Classical.choice, Quot.sound]
'Resistics.C80_window_close' depends on axioms: [propext, Classical.choice, Quot.sound]
'Resistics.C81_text_is_read' depends on axioms: [propext, Classical.choice, Quot.sound]
'Resistics.C81_which_texts' depends on axioms: [propext, Classical.choice, Quot.sound]
'Resistics.C81_row_order' depends on axioms: [propext, Classical.choice, Quot.sound]
'Resistics.C81_cut_is_read' depends on axioms: [propext, Classical.choice, Quot.sound]
'Resistics.C81_cut_in_number' depends on axioms: [propext, Classical.choice, Quot.sound]
'Resistics.C81_degrees' depends on axioms: [propext, Classical.choice, Quot.sound]
'Resistics.C81_degrees_special' depends on axioms: [propext, Classical.choice, Quot.sound]
'Resistics.C81_json_written' depends on axioms: [propext, Classical.choice, Quot.sound]
'Resistics.C81_json_interrupted' depends on axioms: [propext, Classical.choice, Quot.sound]
'Resistics.C81_json_is_no_text' depends on axioms: [propext, Classical.choice, Quot.sound]
'Resistics.C81_first_reader' depends on axioms: [propext, Classical.choice, Quot.sound]
'Resistics.C81_missing_file' depends on axioms: [propext, Classical.choice, Quot.sound]
'Resistics.C81_interrupted_is_missing' depends on axioms: [propext, Classical.choice, Quot.sound]
'Resistics.C81_text_carries' depends on axioms: [propext, Classical.choice, Quot.sound]
'Resistics.C81_same_data' depends on axioms: [propext, Classical.choice, Quot.sound]
'Resistics.Par.C82_existing_safe' depends on axioms: [propext, Classical.choice, Quot.sound]
'Resistics.Par.C82_overwrite_race' depends on axioms: [propext, Classical.choice, Quot.sound]
'Resistics.Par.C82_project_race' depends on axioms: [propext, Classical.choice, Quot.sound]
'Resistics.Par.C82_project_lost' depends on axioms: [propext, Classical.choice, Quot.sound]
'Resistics.Par.C82_solution_race' depends on axioms: [propext, Classical.choice, Quot.sound]
'Resistics.Par.C82_reader' depends on axioms: [propext, Classical.choice, Quot.sound]
'Resistics.Par.C82_reader_whole' depends on axioms: [propext, Classical.choice, Quot.sound]
'Resistics.Par.C82_project_directories' depends on axioms: [propext, Classical.choice, Quot.sound]
'Resistics.Par.C82_nothing_vanishes' depends on axioms: [propext, Quot.sound]
'Resistics.Par.C82_ends' depends on axioms: [propext, Classical.choice, Quot.sound]
'Resistics.Par.C82_separate' depends on axioms: [propext, Classical.choice, Quot.sound]
'Resistics.C83_calibration' depends on axioms: [propext, Classical.choice, Quot.sound]
'Resistics.C83_magnitude_positive' depends on axioms: [propext, Classical.choice, Quot.sound]
'Resistics.C83_calibration_refused' depends on axioms: [propext, Classical.choice, Quot.sound]
'Resistics.C83_evaluation' depends on axioms: [propext, Classical.choice, Quot.sound]
'Resistics.C84_trim_rule' depends on axioms: [propext, Classical.choice, Quot.sound]
'Resistics.C84_monotone' depends on axioms: [propext, Classical.choice, Quot.sound]
'Resistics.C84_half_kept' depends on axioms: [propext, Classical.choice, Quot.sound]
'Resistics.C84_exact_data' depends on axioms: [propext, Classical.choice, Quot.sound]
'Resistics.C84_always_fits' depends on axioms: [propext, Classical.choice, Quot.sound]
'Resistics.C84_iterations' depends on axioms: [propext, Classical.choice, Quot.sound]
'Resistics.C84_huber' depends on axioms: [propext, Classical.choice, Quot.sound]
'Resistics.C84_bisquare' depends on axioms: [propext, Classical.choice, Quot.sound]
'Resistics.C85_load' depends on axioms: [propext, Classical.choice, Quot.sound]
'Resistics.C85_checks' depends on axioms: [propext, Quot.sound]
'Resistics.C85_listing' depends on axioms: [propext, Classical.choice, Quot.sound]
'Resistics.C85_queries' depends on axioms: [propext, Classical.choice, Quot.sound]
'Resistics.C85_processing' depends on axioms: [propext, Classical.choice, Quot.sound]
'Resistics.C85_selection' depends on axioms: [propext, Classical.choice, Quot.sound]
'Resistics.C85_transfer_functions' depends on axioms: [propext, Classical.choice, Quot.sound]
'Resistics.C85_same_windows' depends on axioms: [propext, Classical.choice, Quot.sound]
'Resistics.C85_tables' depends on axioms: [propext, Classical.choice, Quot.sound]
'Resistics.C85_common_window_common_time' depends on axioms: [propext, Classical.choice, Quot.sound]
'Resistics.C85_overlap_order_matters' depends on axioms: [propext, Classical.choice, Quot.sound]
'Resistics.C86_uniform_close' depends on axioms: [propext, Classical.choice, Quot.sound]
'Resistics.C86_smooth_length' depends on axioms: [propext, Classical.choice, Quot.sound]
'Resistics.C86_one_point_exact' depends on axioms: [propext, Classical.choice, Quot.sound]
'Resistics.C86_large_value_erases' depends on axioms: [propext, Classical.choice, Quot.sound]
'Resistics.C86_constant' depends on axioms: [propext, Classical.choice, Quot.sound]
'Resistics.C86_gaussian_close' depends on axioms: [propext, Classical.choice, Quot.sound]
'Resistics.C86_gaussian_local' depends on axioms: [propext, Classical.choice, Quot.sound]
'Resistics.C86_uniform_run' depends on axioms: [propext, Classical.choice, Quot.sound]
'Resistics.C86_gaussian_run' depends on axioms: [propext, Classical.choice, Quot.sound]
'Resistics.C87_product' depends on axioms: [propext, Classical.choice, Quot.sound]
'Resistics.C87_auto_power' depends on axioms: [propext, Classical.choice, Quot.sound]
'Resistics.C87_exchange' depends on axioms: [propext, Classical.choice, Quot.sound]
'Resistics.C87_singles_in_double' depends on axioms: [propext, Classical.choice, Quot.sound]
'Resistics.C87_weak_signals_vanish' depends on axioms: [propext, Classical.choice, Quot.sound]
'Resistics.C87_rows' depends on axioms: [propext, Classical.choice, Quot.sound]
'Resistics.C87_product_norm' depends on axioms: [propext, Classical.choice, Quot.sound]
'Resistics.C87_exact_data' depends on axioms: [propext, Classical.choice, Quot.sound]
'Resistics.C87_preparers_agree' depends on axioms: [propext, Classical.choice, Quot.sound]
'Resistics.C88_quotient' depends on axioms: [propext, Classical.choice, Quot.sound]
'Resistics.C88_quotient_norm' depends on axioms: [propext, Classical.choice, Quot.sound]
'Resistics.C88_power_of_two' depends on axioms: [propext, Classical.choice, Quot.sound]
'Resistics.C88_conjugates' depends on axioms: [propext, Classical.choice, Quot.sound]
'Resistics.C88_quarter_turn' depends on axioms: [propext, Classical.choice, Quot.sound]
'Resistics.C88_single_frequency_refused' depends on axioms: [propext, Classical.choice, Quot.sound]
'Resistics.C88_run' depends on axioms: [propext, Classical.choice, Quot.sound]
'Resistics.C88_exact_response' depends on axioms: [propext, Classical.choice, Quot.sound]
'Resistics.C88_flat_response' depends on axioms: [propext, Classical.choice, Quot.sound]
'Resistics.C88_reciprocal_rounded' depends on axioms: [propext, Classical.choice, Quot.sound]
'Resistics.C89_noise' depends on axioms: [propext, Classical.choice, Quot.sound]
'Resistics.C89_noise_nearly' depends on axioms: [propext, Classical.choice, Quot.sound]
'Resistics.C89_rounded' depends on axioms: [propext, Classical.choice, Quot.sound]
'Resistics.C89_rounded_nearly' depends on axioms: [propext, Classical.choice, Quot.sound]
'Resistics.C89_gain_exists' depends on axioms: [propext, Classical.choice, Quot.sound]
'Resistics.C89_noise_level' depends on axioms: [propext, Classical.choice, Quot.sound]
'Resistics.C89_noisy_recording' depends on axioms: [propext, Classical.choice, Quot.sound]
'Resistics.C89_weighted' depends on axioms: [propext, Classical.choice, Quot.sound]
'Resistics.C89_weighted_noise' depends on axioms: [propext, Classical.choice, Quot.sound]
'Resistics.C89_half_gain_exists' depends on axioms: [propext, Classical.choice, Quot.sound]
'Resistics.C90_resistivity' depends on axioms: [propext, Classical.choice, Quot.sound]
'Resistics.C90_phase' depends on axioms: [propext, Classical.choice, Quot.sound]
'Resistics.C90_phase_ex' depends on axioms: [propext, Classical.choice, Quot.sound]
'Resistics.C90_lengths' depends on axioms: [propext, Classical.choice, Quot.sound]
'Resistics.C90_both_ends' depends on axioms: [propext, Classical.choice, Quot.sound]
'Resistics.C91_row' depends on axioms: [propext, Classical.choice, Quot.sound]
'Resistics.C91_run' depends on axioms: [propext, Classical.choice, Quot.sound]
'Resistics.C91_offset' depends on axioms: [propext, Classical.choice, Quot.sound]
'Resistics.C91_noise' depends on axioms: [propext, Classical.choice, Quot.sound]
'Resistics.C91_samples_follow' depends on axioms: [propext, Classical.choice, Quot.sound]
'Resistics.C91_accuracy' depends on axioms: [propext, Classical.choice, Quot.sound]
'Resistics.C91_evaluated' depends on axioms: [propext, Classical.choice, Quot.sound]
'Resistics.C91_evaluated_noise' depends on axioms: [propext, Classical.choice, Quot.sound]
