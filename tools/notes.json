{
 "C01": {
  "status": "proved",
  "note": "Round trip for every fs whose period is kept by to_timedelta (iff characterised by periodKept_iff); C01_truncated_period_off_by_one shows what happens otherwise. Exact arithmetic; double precision in C56."
 },
 "C05": {
  "status": "proved",
  "note": "Numpy reader in full; ASCII reader for two or more channels; for one channel the code returns a 1-d array (C05_ascii_single_channel_squeezed)."
 },
 "C21": {
  "status": "proved",
  "note": "Product and bound; the bound has the exception stated in the property (single prime factors larger than the maximum), with a witness."
 },
 "C24": {
  "status": "proved",
  "note": "ApplyFunction loses unlisted channels in the code: proved as C24_apply_function / C24_apply_function_loses_unlisted_channels."
 },
 "C26": {
  "status": "proved",
  "note": "Notch only for fs >= 2 Hz; below that the code is wrong (C26_notch_wrong_below_2Hz)."
 },
 "C49": {
  "status": "proved",
  "note": ""
 },
 "C09": {
  "status": "proved",
  "note": "No window is lost whenever a table is produced; C09_succeeds for 2*olap <= win+1; for larger overlaps the code can give up (C09_gives_up_on_large_overlaps)."
 },
 "C12": {
  "status": "proved",
  "note": "Contents for two or more channels and min_n_wins >= 2; outside of that np.squeeze changes the shape (C12_single_channel_squeezed, C12_single_window_loses_channels)."
 },
 "C13": {
  "status": "proved",
  "note": "Local index in full; the code's global lookup adds the offset, so it is right exactly for offset 0 (C13_get_global, witness C13_get_global_wrong_witness)."
 },
 "C14": {
  "status": "proved",
  "note": "Overlap below window size under the stated condition; C14_overlap_can_exceed_explicit_window shows the condition is needed."
 },
 "C15": {
  "status": "proved",
  "note": "WindowerTarget stores the first time instead of the reference time: C15_target_starts_shifted."
 },
 "C18": {
  "status": "proved",
  "note": "For non-increasing evaluation frequencies; C18_increasing_frequencies_break_increments shows the hypothesis is needed."
 },
 "C27": {
  "status": "proved",
  "note": ""
 },
 "C28": {
  "status": "proved",
  "note": "Gaussian smoother: the code passes 1 instead of sigma (C28_gaussian_ignores_sigma)."
 },
 "C51": {
  "status": "proved",
  "note": "For three-dimensional windowed arrays (the windower returns them for two or more channels and windows)."
 },
 "C31": {
  "status": "proved",
  "note": "For sites not named combined_index (C31_reserved_site_name shows what happens otherwise); C31_no_windows covers selections without windows."
 },
 "C32": {
  "status": "proved",
  "note": "For perLevel frequencies on each level; C32_too_many_frequencies_collide shows the hypothesis is needed."
 },
 "C38": {
  "status": "proved",
  "note": "Heap model with the sharing that shallow metadata copies create. Append-only and contents kept for every sequence of calls (C38_append_only, C38_contents_kept), results depend on contents alone (C38_result, C38_one_record), inputs exactly unchanged for the calls without shallow copies (C38_inputs_unchanged), exact effect of the others (C38_shallow_effect, C38_decimator_effect, C38_writer_effect, C38_time_writer_effect, C38_set_chan_effect), and who shares with whom (C38_families)."
 },
 "C39": {
  "status": "proved",
  "note": "File system model with recorded intermediate states; all five writers. The class default of overwrite is True although its documentation says False."
 },
 "C40": {
  "status": "proved",
  "note": "Decimated, windowed, spectra and numpy time data; interrupted and later writes. C40_single_sample_not_readable and C40_ascii_not_readable show the limits: one-sample recordings and the output of the ASCII writer cannot be read back. Interrupting an overwrite can leave the old metadata with the new arrays (C40_interrupted_overwrite_*)."
 },
 "C41": {
  "status": "proved",
  "note": "Exact arithmetic; exp(1j*phase) is a parameter. C41_single_frequency_refused states the case in which numpy.squeeze makes the assignment fail."
 },
 "C42": {
  "status": "proved",
  "note": "Number parsing and pi/180 are parameters; white space and lower case are ASCII only; the order of rows of equal frequency is not claimed."
 },
 "C46": {
  "status": "proved",
  "note": "The algorithm of the external package lttbc is modelled in exact arithmetic; single precision without overflow and subnormal numbers; no NaN."
 },
 "C47": {
  "status": "proved",
  "note": "strftime/strptime of the external class attodatetime modelled for the one format used; the parser takes fields of full width only (strptime also takes fewer digits, which datetime_to_string never writes)."
 },
 "C56": {
  "status": "proved",
  "note": "IEEE binary64 rounding (ties to even) of every operation of to_timedelta, to_seconds, to_n_samples, datetime_to_win; no overflow or subnormal numbers; attotime exact. Findings: C56_range_loses_samples, C56_windows_misaligned."
 },
 "C02": {
  "status": "proved",
  "note": "Exact arithmetic; in double precision the range can lose a sample at either end (C56_range_loses_samples)."
 },
 "C10": {
  "status": "proved",
  "note": "Exact arithmetic; in double precision the same window of two recordings can be one sample apart even on a common grid (C56_windows_misaligned)."
 },
 "C57": {
  "status": "proved",
  "note": "pandas timestamps as whole nanoseconds (pd.Timedelta rounds, pd.to_datetime cuts); figures as titles of rows and lines. Findings: C57_drift, C57_plot_some_channels, C57_plot_reordered, C57_ten_levels."
 },
 "C58": {
  "status": "proved",
  "note": "SingleRun lists what the run needs: readers and calibrator that read only their directory, names that are path components, one measurement at the rate, reference time = first time; C58_fit and C58_calibrator_keeps show that the linear chain of the package and SensorCalibrator meet the last two hypotheses; demo_single_run is a concrete run. Findings: C58_wrong_frequencies, C58_no_measurement_at_rate."
 },
 "C59": {
  "status": "proved",
  "note": "DefaultReaders are the two readers of the default configuration (the ASCII data part is a parameter); a processed recording of one sample is stored but cannot be read back (C40_single_sample_not_readable). The example at the end is a concrete run; EnvDemo has a recording lost by writing it over itself (C59_over_itself, C59_over_itself_only)."
 },
 "C60": {
  "status": "proved",
  "note": "SiteReady describes stored data as processing leaves them (C60_ready); measurements without readable evaluation metadata are skipped, as in the code. Times of windows for the default windower (C60_window_times, C60_same_time), exact arithmetic. C60_end_to_end needs no calibration, a linear chain and a determined system; RemoteDemo is a concrete run with two sites."
 },
 "C61": {
  "status": "proved",
  "note": "Exact arithmetic, zeros not negative, frequencies not zero; axes, markers and layout of the figures are not modelled."
 },
 "C62": {
  "status": "proved",
  "note": "scikit-learn is a parameter with the specifications LinearSpec, HuberSpec, TheilSenSpec and RansacSpec (version 0.24.2, from its documentation; a model of all four is constructed in Lean). Exact real arithmetic; the spatial median of Theil-Sen is exact; n_jobs and random states have no counterpart. Finding: C62_same_window (samples with three equations of one window never determine the coefficients)."
 },
 "C63": {
  "status": "proved",
  "note": "scipy, the evaluation frequencies as computed (IsLadder: exact at octaves, anything in between), next_fast_len, the Kaiser window and scikit-learn are parameters with the hypotheses DefaultEnv, SciPy.Linear and TheilSenSpec; C63_ladder shows that get_eval_freqs_size in exact arithmetic is such a ladder. Between 512 and 608 samples (or 1 and 1.2 seconds) success depends on where the windows fall."
 },
 "C64": {
  "status": "proved",
  "note": "np.absolute as computed is a parameter (a rational for every value), means are exact; pandas groupers of fixed length with the resolution of pandas timestamps; layout, legends' text and colours of the figures are not modelled, nor the downsampling of rows without numbers."
 },
 "C65": {
  "status": "proved",
  "note": "Dictionaries of channel metadata are modelled by the keys that matter (name, data_files, chan_type); other fields (sensor, gains ...) keep their values and are not modelled. Validation errors of pydantic are ValueErrors."
 },
 "C66": {
  "status": "proved",
  "note": "A data frame is the list of its rows (DataFrame.append of pandas 1); times parsed by pandas are rounded down to nanoseconds; the margin is computed in double precision as pandas does; colours and layout of the figure are not modelled."
 },
 "C67": {
  "status": "proved",
  "note": "Names used by the calls must be single components of paths; readers and calibration look only where they are told to (Local). The listing of directories and the times of the operating system are parameters of loading. Concrete sessions are in Props/EnvDemo.lean."
 },
 "C68": {
  "status": "proved",
  "note": "Texts of times are given by the times they denote; sampling frequencies and offsets are not negative; sines and their arguments are exact, the number format is any conversion applied to each value."
 },
 "C69": {
  "status": "proved",
  "note": "Exact arithmetic over the reals and complex numbers, without negative zeros; np.unwrap is modelled as numpy documents and implements it for the default period and axis."
 },
 "C70": {
  "status": "proved",
  "note": "pandas is modelled by its checks of lengths and by the resulting columns; calibration data read from JSON are C42's and any three lists."
 },
 "C71": {
  "status": "proved",
  "note": "Numbers are exact and orders natural; the messages of a processor are a function of what it does and the data; pandas is a parameter that reads the ISO text of the timestamps it can represent (such a reader is defined and proved for the concrete case); texts of custom functions are a parameter that may raise."
 },
 "C72": {
  "status": "proved",
  "note": "Windowing for two or more channels (one channel: C73) and at least two windows a level; processors of spectra of a configuration have to be channelwise, which is proved for the smoothers; calibration with the conditions under which C41 shows that it succeeds; quick_tf without calibration files."
 },
 "C73": {
  "status": "proved",
  "note": "At least two windows a level, so that only the axis of the channels is removed; processors of spectra are smoothers; the squeeze in get_freq for a single window is described in C69."
 },
 "C74": {
  "status": "proved",
  "note": "The algorithm of repr is modelled as: the fewest digits that are read back, of these the nearest; -0.0 is represented by 0 (the sign of a zero is the only thing not modelled)."
 },
 "C75": {
  "status": "proved",
  "note": "Surrogates without their other half, which are no characters, are refused by the model of the reader; numbers are doubles, integers, infinities and nan; keys of a dictionary are different texts."
 },
 "C76": {
  "status": "proved",
  "note": "Years from 1000 on and integers in float fields up to 2^53; windows and overlaps positive as validated; times to 24 decimals of the second. How pydantic coerces values of other JSON types than those written is a parameter of the reader."
 },
 "C77": {
  "status": "proved",
  "note": "Cells of arrays in memory and of mapped files; a cell of a file that was truncated cannot be read (on Linux the first page of it reads as zeros). The dtype check of set_chan, broadcasting and the order of the numbers in a file of a transposed array are not modelled; metadata are values here (their sharing is C38)."
 },
 "C78": {
  "status": "proved",
  "note": "np.savetxt and np.loadtxt of numpy 1.21.2; no negative zero, ASCII white space and letters, a delimiter of one character, no hexadecimal numbers or underscores."
 },
 "C79": {
  "status": "proved",
  "note": "No overflow and no subnormal numbers; np.power(2, i/2) is a parameter, exact for whole powers of two and correct to the last place otherwise. For division factors that are no power of two the claim excludes frequencies within a part in 2^40 of a border, where it fails (C79_factor_rounded); overlaps of other proportions are within one sample, not exact (C79_overlap_rounded)."
 },
 "C81": {
  "status": "proved",
  "note": "White space and letter case of ASCII; no underscores between digits or digits of other scripts in numbers; rows of equal frequency keep their order (pandas promises none)."
 },
 "C83": {
  "status": "proved",
  "note": "No overflow, no subnormal numbers among frequencies and positions (the spectra may be subnormal), no fused multiply-add; the exponential of the phase and the division of the spectra are not rounded here."
 },
 "C84": {
  "status": "proved",
  "note": "No overflow or underflow; NumPy 1.21 and scikit-learn 0.24.2; the predictions of the model are any numbers."
 },
 "C85": {
  "status": "proved",
  "note": "Any two orders of listing of any disk (the order is the parameter `ls` of the model of loading). The clock is read at the same times in both runs. What is neither file nor directory is not modelled. `C85_overlap_order_matters` is the limit of the code."
 },
 "C86": {
  "status": "proved",
  "note": "All rows up to 2^50 / 8 frequencies. The filters are written after the C code of SciPy 1.6/1.7 (ni_filters.c), which is not part of /repo; the weights of the Gaussian filter are parameters (values of exp), not negative. No overflow and no subnormal numbers in the doubles of the filter."
 },
 "C87": {
  "status": "proved",
  "note": "No overflow. NumPy multiplies complex numbers with four products, a difference and a sum, no fused operations (NumPy 1.21)."
 },
 "C88": {
  "status": "proved",
  "note": "No overflow, no subnormal numbers before the quotients are stored. NumPy divides complex numbers with a rounded ratio and a rounded reciprocal (NumPy 1.21, no fused operations). Sine and cosine are parameters, exact up to a part in 2^51 (cisNear_exists shows that there are such); a response of exactly zero (infinities and NaN in the code) is excluded."
 },
 "C89": {
  "status": "proved",
  "note": "About solvers that minimise the sum of squared residuals, as the ordinary least squares solver does by C62_ols_least_squares, and the iteratively weighted solver without intercept (C89_weighted*, LinearSpec describes scikit-learn's weighted fit); the coefficients are real numbers. Huber, Theil-Sen and RANSAC are not covered. C89_noisy_recording takes the noise from a further channel of the recording, so that the statement can name its spectra; the chain must be linear as in C50. The gain is a property of the data; C89_gain_exists and C89_half_gain_exists show when there is one."
 },
 "C90": {
  "status": "proved",
  "note": "No overflow, subnormal numbers or negative zeros. np.absolute, np.power and np.angle are parameters, exact up to a part in 2^52, a part in 2^52 and 1/2^51 (accurate_exists shows that there are such); np.unwrap is that of NumPy 1.21. Arrays of length one are not broadcast against longer ones."
 },
 "C91": {
  "status": "proved",
  "note": "No overflow. np.mean, scipy.signal.detrend with type linear and scipy.fft.rfft are parameters: the mean is exact up to e times the mean of the absolute values, line and transform up to e times the root of the sum of squares (fourier_accurate_exists shows that there are such for every positive e). Windows of at least two samples; integers without detrending are not covered (C80)."
 }
}