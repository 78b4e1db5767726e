#!/usr/bin/env python3
"""Regenerates /verif/properties.jsonl from the table below."""
import json, pathlib
P = []
def p(title, statement, quantifier, why, anchors):
    P.append(dict(id=f"C{len(P)+1:02d}", title=title, statement=statement,
                  quantifier=quantifier, why_tests_cant=why, anchors=anchors))

p("Sample <-> datetime round trip",
  "For a recording with sampling frequency fs, the datetime returned by sample_to_datetime for a sample converts back, by from_time_to_sample and by to_time_to_sample, to the same sample (in exact arithmetic; what double precision changes is C56).",
  "every fs > 0 whose period to_timedelta keeps exactly, every first time, recording length and sample index (and, for the other fs, the exact amount by which the conversion is off)",
  "Round-off and the sub-0.0001 ns truncation in to_timedelta only bite for particular fs/sample combinations; tests sample a few fs values.",
  ["resistics/sampling.py:to_timedelta", "resistics/sampling.py:sample_to_datetime", "resistics/sampling.py:from_time_to_sample", "resistics/sampling.py:to_time_to_sample", "resistics/sampling.py:to_n_samples"])
p("Time bounds select exactly the enclosed samples",
  "datetimes_to_samples returns the first sample coincident with or after the from time and the last sample coincident with or before the to time; every sample of the recording whose timestamp lies in [from, to] is in the returned range and no other sample is (in exact arithmetic; what double precision changes is C56).",
  "every fs, recording extent and requested from/to times (before, inside, between samples, at samples, after)",
  "Requested times range over a continuum; boundary cases (between samples, equal to the last sample) are infinitely many.",
  ["resistics/sampling.py:datetimes_to_samples", "resistics/sampling.py:check_from_time", "resistics/sampling.py:check_to_time", "resistics/sampling.py:to_n_samples"])
p("Out of range requests are clamped or refused, never wrapped",
  "A from time before the recording is moved to the first sample, a to time after the recording is moved to the last sample, a from time after the end or a to time before the start raises ValueError; whenever samples are returned they are inside 0..n_samples-1.",
  "every recording and requested interval",
  "All orderings of four times over a continuum.",
  ["resistics/sampling.py:check_from_time", "resistics/sampling.py:check_to_time", "resistics/sampling.py:datetimes_to_samples", "resistics/sampling.py:check_sample"])
p("Number of samples is inclusive and consistent with timestamps",
  "A recording of n samples at fs spans (n-1)/fs, and converting that span back with to_n_samples gives n for every rounding method; time metadata adjusted to a new fs, first time and n_samples always satisfies last_time = first_time + (n_samples-1)/fs; datetime_array lists n times, starting at first_time, spaced 1/fs.",
  "every fs > 0, n >= 1, first time and rounding method",
  "Must hold for unboundedly long recordings.",
  ["resistics/sampling.py:to_n_samples", "resistics/sampling.py:datetime_array", "resistics/time.py:adjust_time_metadata"])
p("Reading part of a recording returns exactly the requested samples",
  "A time data reader asked for a range returns data and metadata that agree: n_samples is the number of columns, first_time is the timestamp of the first returned sample, and returned sample i is the sample from_sample+i of the recording. When both times and samples are given the times win; an empty or reversed range raises; a missing bound means the start or end.",
  "every recording, every combination of optional from/to times and samples",
  "Sixteen option combinations times a continuum of bounds and unbounded recordings.",
  ["resistics/time.py:TimeReader._get_read_samples", "resistics/time.py:TimeReader._get_return_metadata", "resistics/time.py:TimeReaderNumpy.read_data", "resistics/time.py:TimeReaderAscii.read_data"])
p("Subsection keeps data and timestamps aligned and composes",
  "Subsection(from,to) returns precisely the samples whose timestamps lie in [from,to], each keeping its timestamp, and taking a subsection of a subsection is the same as taking the subsection of the intersected interval.",
  "every time data and all nested interval requests",
  "Composition over arbitrary intervals and recording lengths.",
  ["resistics/time.py:Subsection.run", "resistics/sampling.py:datetimes_to_samples"])
p("Windows lie inside the recording",
  "Every window listed by get_win_table starts at or after the first sample, ends at or before the last sample, and holds exactly win_size samples.",
  "every reference time, recording extent, fs, window size and overlap for which a table is returned",
  "Depends on exact ceil/floor interplay between global window grid and sample grid for all real offsets.",
  ["resistics/window.py:get_first_and_last_win", "resistics/window.py:get_win_table"])
p("Windows are consecutive and overlap by exactly overlap_size",
  "In a window table the global indices are consecutive starting at the first window, local indices count from zero, and consecutive windows share exactly overlap_size samples.",
  "every input for which a table is returned",
  "Unbounded number of windows.",
  ["resistics/window.py:get_win_table"])
p("No complete window is lost",
  "get_first_and_last_win lists the earliest and the latest global window that fit in the recording: no global window whose time span lies in the recording is omitted; the window table has exactly one row for each window that fits; the only failure is a ValueError. When twice the overlap is at most win_size + 1 and the recording does not start before the reference time, a pair is always returned (with the last before the first when no window fits), and a table is returned whenever the recording is at least one window long; a shorter recording can be refused with a ValueError.",
  "every reference time, recording extent, fs, window size and overlap",
  "The search performs at most two corrections; whether that is enough depends on overlap for all real-valued offsets.",
  ["resistics/window.py:get_first_and_last_win", "resistics/window.py:datetime_to_win"])
p("Global windows align across recordings",
  "Two recordings at the same fs windowed against the same reference time place the samples of the same global window within one sample of the same instant, and at exactly the same instant when their first samples lie on a common sample grid through the reference time (in exact arithmetic; what double precision changes is C56).",
  "every pair of recordings with arbitrary start times and lengths",
  "A relational property over pairs of recordings with continuous start times.",
  ["resistics/window.py:get_win_table", "resistics/window.py:win_to_datetime", "resistics/gather.py:get_site_wins"])
p("Global window index <-> time",
  "datetime_to_win inverts win_to_datetime for every rounding method; floor gives the last window starting at or before the time, ceil the first window starting at or after it; a time before the reference time is refused; window starts are spaced by the increment duration.",
  "every reference time, fs, window size, overlap < window size, and window index",
  "Unbounded window indices and continuous times.",
  ["resistics/window.py:datetime_to_win", "resistics/window.py:win_to_datetime", "resistics/window.py:inc_duration", "resistics/window.py:win_duration"])
p("Windowed data are slices of the decimated data",
  "For every level the windower keeps, window k of channel c is exactly the samples from_sample_k .. to_sample_k of that channel and level in order, the level metadata count equals the number of windows in the data, index_offset + k is the global index of window k, and levels are kept up to (not including) the first with too few windows. (At least two channels and a minimum of two windows: otherwise numpy squeezes an axis away.)",
  "every decimated data set, window parameters and reference time",
  "Strided view arithmetic must be right for all sizes, overlaps and offsets.",
  ["resistics/window.py:Windower.run", "resistics/window.py:Windower._get_level_data", "resistics/window.py:get_win_table"])
p("A window can be fetched by local or by global index",
  "get_local(level, k) returns window k of the level and refuses indices outside; get_global(level, g) returns the window whose global index is g exactly when the index offset of the level is 0 (the code adds the offset instead of subtracting it).",
  "every windowed data set, level and global index",
  "Tests with a zero index offset cannot tell + from -; claim is over all offsets.",
  ["resistics/window.py:WindowedData.get_global", "resistics/window.py:WindowedData.get_local"])
p("Window parameters are complete and legal for every level",
  "WindowSetup returns one window size and one overlap size per decimation level, no window size below min_size and no overlap below min_olap, explicit sizes are used as given, and each overlap is smaller than its window whenever the minimum overlap is smaller than every window and no explicit overlap exceeds its window.",
  "every setup (factors, minimums, explicit lists) and list of decimated sampling frequencies",
  "Combinations of options over unbounded level lists.",
  ["resistics/window.py:WindowSetup.run", "resistics/window.py:WindowSetup._get_win_sizes", "resistics/window.py:WindowSetup._get_olap_sizes"])
p("Target windowing respects its minimum and stores the right reference time",
  "WindowerTarget picks a window size of at least min_size from the level length, target and overlap, and the stored window metadata (reference time, index offset) reproduce the actual start time of each window exactly when the reference time equals the first time (the code stores the first time).",
  "every decimated data, target, overlap proportion and reference time",
  "The inconsistency only shows when the reference time differs from the recording start.",
  ["resistics/window.py:WindowerTarget.run", "resistics/window.py:WindowerTarget._get_win_size"])
p("Evaluation frequencies are the complete half-octave ladder",
  "get_eval_freqs returns strictly decreasing frequencies starting at fs/4, each 1/sqrt 2 of the previous; with f_min it returns exactly those not below f_min; with n_freqs exactly n_freqs; invalid f_min is refused; the search always terminates.",
  "every fs > 0 and f_min or n_freqs",
  "Loop termination and completeness for unbounded ladders.",
  ["resistics/decimate.py:get_eval_freqs_min", "resistics/decimate.py:get_eval_freqs_size", "resistics/decimate.py:get_eval_freqs"])
p("Decimation factor is the largest safe power of the division factor",
  "The factor chosen for a level is a power of the division factor, keeps the decimated sampling frequency at or above four times the highest evaluation frequency of the level, is the largest such power, never decreases when frequencies decrease, and is 1 when there is no room.",
  "every fs, division factor >= 2 and positive highest frequency",
  "Loop over unboundedly many divisions; monotonicity relates two runs.",
  ["resistics/decimate.py:DecimationSetup._get_decimation_factor", "resistics/decimate.py:DecimationSetup._get_factors"])
p("Decimation parameters are self consistent",
  "For the parameters produced by the decimation setup, the product of the increments up to a level is the factor of that level, dec_fs is fs/factor, and every increment is at least 1.",
  "every fs, division factor, and non-increasing list of evaluation frequencies",
  "Holds across arbitrary many levels; user-supplied frequency orders matter.",
  ["resistics/decimate.py:DecimationParameters", "resistics/decimate.py:DecimationSetup.run"])
p("Every evaluation frequency belongs to exactly one level and index",
  "The (level, index) pairs enumerate the evaluation frequencies exactly once, get_eval_freq(level, idx) is the idx-th of get_eval_freqs(level), and out of range levels or indices are refused.",
  "every frequency list, number of levels and per-level count",
  "Index arithmetic over unbounded tables.",
  ["resistics/decimate.py:DecimationParameters.get_eval_freqs", "resistics/decimate.py:DecimationParameters.get_eval_freq", "resistics/decimate.py:DecimationParameters.check_level", "resistics/decimate.py:DecimationParameters.check_eval_idx"])
p("Decimation produces a gap-free pyramid of levels",
  "Decimator returns levels 0..k with no gaps, the metadata list as long as the data, each level at fs divided by the running product of increments, stopping at the first level with too few samples; the level-l data are the increment-wise decimation of the level-(l-1) data and increments of 1 leave data unchanged.",
  "every time data and decimation parameters",
  "Unbounded level count and data lengths.",
  ["resistics/decimate.py:Decimator.run", "resistics/decimate.py:Decimator._decimate"])
p("Downsampling in stages equals the requested factor",
  "The stage factors used by the time-data decimation multiply to the requested factor, and no stage exceeds the maximum single factor unless it is a single prime factor above it.",
  "every factor >= 1 and maximum single factor",
  "Prime factorisation over all integers.",
  ["resistics/time.py:Decimate._get_downsample_factors", "resistics/time.py:Decimate._prime_factorisation"])
p("Prime factorisation is correct",
  "The factorisation used for staged decimation returns primes in ascending order whose product is the number.",
  "every integer >= 2",
  "All integers; the trial-division bound shrinks while the loop runs.",
  ["resistics/time.py:Decimate._prime_factorisation"])
p("Time processors keep data and metadata consistent",
  "After any sequence of time data processors the number of columns equals metadata n_samples, the channel list is unchanged, and last_time = first_time + (n_samples-1)/fs.",
  "every time data and every finite chain of the supported processors",
  "All chains of processors, unbounded length.",
  ["resistics/letsgo.py:run_time_processors", "resistics/time.py:Subsection.run", "resistics/time.py:Resample.run", "resistics/time.py:Decimate.run", "resistics/time.py:ShiftTimestamps.run", "resistics/time.py:adjust_time_metadata"])
p("Pointwise processors act per channel and per sample as documented",
  "RemoveMean leaves zero mean and is idempotent; Add and Multiply change only the selected channels and by the given amount; InterpolateNans leaves non-NaN samples unchanged, leaves no NaN when a channel has a valid sample, and fills within the range of the neighbours; ApplyFunction applies the function to the given channels (the code returns uninitialised memory for the channels not given).",
  "every data array and parameter choice",
  "Ranges over all array contents and lengths.",
  ["resistics/time.py:InterpolateNans.run", "resistics/time.py:RemoveMean.run", "resistics/time.py:Add.run", "resistics/time.py:Multiply.run", "resistics/time.py:ApplyFunction.run"])
p("Shifting timestamps interpolates on the new grid",
  "ShiftTimestamps refuses shifts not smaller than a sample period, returns one sample fewer, and sample i is the linear interpolation of the input at the new timestamp; on linear signals the result is exact.",
  "every time data and shift",
  "Continuum of shifts, all lengths.",
  ["resistics/time.py:ShiftTimestamps.run"])
p("Filters refuse cutoffs at or above what the sampling allows",
  "LowPass, HighPass and BandPass refuse every filter band reaching above the Nyquist frequency and accept every band below it; Notch does so for fs of at least 2 Hz.",
  "every fs and cutoff choice",
  "Continuum of fs/cutoffs; the bug depends on fs relative to 2 Hz.",
  ["resistics/time.py:LowPass.run", "resistics/time.py:HighPass.run", "resistics/time.py:BandPass.run", "resistics/time.py:Notch.run"])
p("Spectra are evaluated at the requested frequencies by linear interpolation",
  "Evaluation at a frequency between two spectral bins is the linear interpolation of the two neighbouring bins, equals the bin value when it is on a bin, is exact on spectra linear in frequency, clamps outside, and keeps number of windows, offsets and channels for every level.",
  "every spectra grid, evaluation frequency and data",
  "Continuum of frequencies and arrays.",
  ["resistics/spectra.py:EvaluationFreqs.run", "resistics/spectra.py:EvaluationFreqs._get_level_data"])
p("Spectral smoothing windows are odd and positive",
  "The uniform smoother always uses an odd length of at least 1 that never exceeds the requested proportion of the frequencies by more than one; it leaves constant spectra and the shape of the data unchanged, a length of one changes nothing and interior values are the mean over the centred stretch. The Gaussian smoother ignores its sigma.",
  "every proportion and number of frequencies",
  "All sizes and proportions.",
  ["resistics/spectra.py:SpectraSmootherUniform._get_smooth_length"])
p("Site windows: each global window maps to one measurement that holds it",
  "For a level, the site window table lists, in increasing order and once each, exactly the global windows held by some measurement of the site at that level, each mapped to the first measurement that holds it.",
  "every set of measurements with arbitrary, possibly overlapping windows",
  "All combinations of measurements, offsets and lengths.",
  ["resistics/gather.py:get_site_level_wins", "resistics/gather.py:get_site_wins", "resistics/gather.py:get_site_evals_metadata"])
p("Selection is exactly the set of windows common to all sites",
  "For each level present at every site the selected windows are exactly those recorded at all sites, in increasing order, independent of the order or repetition of site names; levels are 0..min-1; every window is selected for every evaluation frequency.",
  "every list of sites and their measurements",
  "Set identity over arbitrary site/measurement collections.",
  ["resistics/gather.py:Selector.run", "resistics/gather.py:Selection"])
p("Gathered rows refer to the same window at all sites",
  "Row r of the output, input and cross data for an evaluation frequency is the data of the same global window (the r-th selected window) read from the measurement the selection names, for the requested channels; every row is filled.",
  "every selection, site choice, channel choice and measurement layout",
  "Index arithmetic across measurements for unbounded data; uninitialised rows would only show for unlucky layouts.",
  ["resistics/gather.py:ProjectGather.run", "resistics/gather.py:ProjectGather._get_site_data", "resistics/gather.py:ProjectGather._populate_data", "resistics/gather.py:ProjectGather._get_indices", "resistics/gather.py:ProjectGather._get_empty_data"])
p("Quick gathering agrees with single-site project gathering",
  "For one measurement, quick gathering and project gathering of a one-measurement site give the same data for every evaluation frequency, and the evaluation index determines level and frequency uniquely.",
  "every evaluation data set",
  "Relational between two code paths on all data.",
  ["resistics/gather.py:QuickGather.run", "resistics/gather.py:ProjectGather.run"])
p("Regression rows are the cross-power equations",
  "A complex transfer function satisfies out = sum_i Z_i in_i (cross-powers with every cross channel, every window) iff its real/imaginary coefficient vector solves the real system built by the preparer; data generated exactly from Z give zero residual at Z for every evaluation frequency, and any least squares solver then returns exactly Z when the inputs are independent. Preparing spectra directly and preparing gathered data agree.",
  "every number of windows, channels and all complex data",
  "All data and dimensions.",
  ["resistics/regression.py:RegressionPreparerGathered", "resistics/regression.py:RegressionPreparerSpectra"])
p("Solution assembly and lookup are inverse",
  "The tensor assembled from real coefficients has entry (out, in) = coef[2i] + j coef[2i+1]; get_component and get_tensor of the resulting solution return these for every evaluation frequency and channel pair.",
  "every transfer function with distinct component keys, every coefficient array",
  "All channel sets and evaluation frequency counts.",
  ["resistics/regression.py:SolverScikit._solve", "resistics/regression.py:SolverScikit._get_solution", "resistics/regression.py:Solution.get_component", "resistics/regression.py:Solution.get_tensor", "resistics/transfunc.py:get_component_key"])
p("Distinct channel pairs have distinct component keys",
  "Two different (output, input) channel pairs never share a component key when all output names have the same length (or all input names do); without that they can (Hx+Ey = HxE+y), and then one component silently replaces the other.",
  "every pair of channel-name pairs",
  "All strings.",
  ["resistics/transfunc.py:get_component_key", "resistics/regression.py:SolverScikit._get_solution"])
p("Robust weights are valid weights",
  "For residual sizes >= 0, bisquare, Huber and trimmed-mean weights lie in [0,1], equal 1 at zero residual and never increase with the residual. In the weighted least squares iteration an equation keeps full weight iff its absolute residual is at most the median plus twice the interquartile range; at least half the equations always keep full weight; on exactly linear data the result is that of the unweighted fit.",
  "every residual and scale",
  "Continuum of residuals.",
  ["resistics/regression.py:SolverScikitWLS"])
p("Transfer function definitions are completed consistently",
  "A transfer function definition has channel counts equal to its channel lists; cross channels default to the input channels; number of equations/regressors are as many as cross-channels x windows and inputs; the periods of a solution are the reciprocals of its frequencies; impedance resistivity is 0.2 T |Z|^2, scales quadratically, and is unchanged by phase.",
  "every channel selection and every complex impedance",
  "All channel lists and complex values.",
  ["resistics/transfunc.py:TransferFunction", "resistics/transfunc.py:ImpedanceTensor", "resistics/regression.py:RegressionPreparerGathered"])
p("Processing history is append-only and input data is not modified",
  "A process returns data whose history is the input's history followed by one new record; whatever calls are made, the data and metadata of existing objects never change except that records are appended to histories (and set_chan assigns samples); the input's history itself is unchanged too, except by Subsection, Resample, Decimate, ShiftTimestamps, Decimator and the writers, which append their record to the input and to every object sharing its history.",
  "every process and every sequence of process calls on shared data",
  "Aliasing shows only through later use of the input; quantifies over call histories.",
  ["resistics/common.py:History", "resistics/common.py:get_history", "resistics/time.py:Subsection.run", "resistics/time.py:Resample.run", "resistics/time.py:Decimate.run", "resistics/time.py:TimeWriterNumpy.run"])
p("Writers never replace existing output unless allowed",
  "With overwrite off, a writer pointed at an existing directory changes nothing on disk and says so by an exception; with overwrite on, or without the directory, it creates the missing parent directories and writes its files. Whatever the outcome, and at every point where it may be interrupted, nothing outside its own output files has changed except that missing parent directories exist.",
  "every file system state and directory path, every writer, every interruption point",
  "All prior file system states and crash points.",
  ["resistics/common.py:ResisticsWriter", "resistics/decimate.py:DecimatedDataWriter", "resistics/window.py:WindowedDataWriter", "resistics/spectra.py:SpectraDataWriter"])
p("Written data read back unchanged",
  "Reading a directory written by the decimated, windowed or spectra data writer returns the same levels and the same arrays and metadata up to the appended history record; the numpy time writer/reader pair likewise returns the same data for recordings of at least two samples. Later writes elsewhere do not change this. A first write that is interrupted leaves nothing that can be read; an interrupted overwrite leaves an unreadable directory, the new data, or (the only inconsistency possible) the old metadata with the new arrays.",
  "every data set (all level counts and arrays), file system state, history of later writes and interruption point",
  "Unbounded level counts; string keyed archives.",
  ["resistics/decimate.py:DecimatedDataReader", "resistics/window.py:WindowedDataReader", "resistics/spectra.py:SpectraDataReader", "resistics/time.py:TimeWriterNumpy", "resistics/time.py:TimeReaderNumpy"])
p("Calibration changes only what it should",
  "Sensor calibration divides each selected channel that has calibration data by the calibration response interpolated at each level's frequencies, leaves every other channel and the input object unchanged, and uses the first reader in the list that yields data. (The selection names no channel twice; a level of a single frequency and several windows is refused, as numpy squeezes an axis away.)",
  "every spectra data, channel selection, reader list and calibration table",
  "All reader outcome combinations and frequency grids.",
  ["resistics/calibrate.py:SensorCalibrator.run", "resistics/calibrate.py:SensorCalibrator._get_cal_data", "resistics/calibrate.py:Calibrator._calibrate", "resistics/calibrate.py:Calibrator._interpolate"])
p("Calibration text files are parsed up to the first blank line",
  "The text calibration reader returns one row per line after the data marker until the first empty line or end of file, sorted by frequency, with phase converted to radians exactly when the file says degrees; a file without marker is refused.",
  "every list of file lines",
  "All files.",
  ["resistics/calibrate.py:SensorCalibrationTXT"])
p("Concurrent sites are those overlapping in time",
  "get_concurrent(site) lists exactly the other sites whose recording interval intersects that of the site; concurrency is symmetric.",
  "every project and site",
  "All collections of intervals.",
  ["resistics/project.py:Project.get_concurrent"])
p("Project creation and loading",
  "Creating a project where there is a project file changes nothing and raises ProjectCreateError; otherwise it makes exactly the project file and the missing directories and leaves a loadable project (unless a file stands where the time directory should be). Interrupted at any point but one (while the project file is being written) it can be repeated with the same result. Loading succeeds exactly when the project file can be parsed and the time directory is there (the other sub-directories are not tested), and lists exactly the sub-directories of the time directory as sites and the sub-directories that some reader can read as measurements, with the first such reader; directories that no reader can read are skipped.",
  "every file system state, and every crash point during creation",
  "All directory trees and crash points.",
  ["resistics/letsgo.py:ProjectCreator.run", "resistics/letsgo.py:ProjectLoader.run", "resistics/letsgo.py:ProjectLoader._check_subdirs"])
p("Project paths are unambiguous",
  "When names are single path components, different (site, measurement, configuration, data kind) never share a path and every path is in the directory of its kind; names with slashes can collide. Solution file names are different for different (fs to a millionth, transfer function, variant, postfix) when the parts have no underscores; the collisions otherwise possible are known (letter case of the name, spaces and underscores of the variant, frequencies equal to a millionth). A solution written by the processing step is the one read back by get_solution with the same request.",
  "every combination of names",
  "All name strings.",
  ["resistics/project.py:get_meas_evals_path", "resistics/project.py:get_results_path", "resistics/project.py:get_solution_name", "resistics/letsgo.py:get_solution"])
p("Plot downsampling keeps end points and never grows",
  "lttb downsampling refuses x/y of different size, returns the input unchanged when there are at most max_pts points, and otherwise, for max_pts >= 2, returns exactly max_pts points of the series in order, the first and the last among them, with coordinates rounded to single precision (at most one part in 2^24). So the plotted points of up to 2^24 samples are at their own sample index; limit of the code: with more samples an index can be off, because indices are rounded to single precision.",
  "every series and max_pts",
  "All series lengths.",
  ["resistics/plot.py:lttb_downsample", "resistics/plot.py:apply_lttb"])
p("High resolution datetimes survive serialisation",
  "For every datetime from year 1000 on, datetime_from_string(datetime_to_string(t)) is the instant t rounded down to a multiple of 1e-24 seconds, so t itself exactly when it has at most 24 decimal digits of the second; two datetimes have the same text exactly when they agree down to 1e-24 seconds. What is read from a text has at most 24 digits, so reading and writing again changes nothing. to_datetime reads such text exactly and leaves only other text to pandas; pandas timestamps keep their nanoseconds. Limit of the code: years before 1000 are written without leading zeros and their text is refused by datetime_from_string.",
  "every datetime",
  "All date-times down to 1e-24 s digits.",
  ["resistics/sampling.py:datetime_to_string", "resistics/sampling.py:datetime_from_string", "resistics/sampling.py:to_datetime"])
p("Processes are rebuilt as the class they were saved as",
  "Validating a saved process dictionary rebuilds the registered class named in it (the class registered last under that name) with its saved parameters; unknown names and dictionaries without a name are refused. Limits of the code: validation takes the name out of the dictionary, so the same dictionary cannot be validated twice; a process saved with a custom name is refused; and any registered process is accepted for any process field, whatever kind of process the field asks for.",
  "every registry content and dictionary",
  "All registration histories.",
  ["resistics/common.py:ResisticsProcess.validate", "resistics/common.py:ResisticsProcess.__init_subclass__"])
p("Channel and level access never returns the wrong item",
  "Accessing a channel by name returns that channel's row or raises ChannelNotFoundError; accessing a level returns that level or raises; set_chan replaces one row only and refuses wrong sizes.",
  "every data set, channel name and level",
  "All names, duplicates, and indices including negatives.",
  ["resistics/common.py:check_chan", "resistics/time.py:TimeData.get_chan", "resistics/time.py:TimeData.set_chan", "resistics/spectra.py:SpectraData.get_chan", "resistics/decimate.py:DecimatedData.get_level"])
p("End to end: exact linear data are recovered",
  "If an output channel equals a fixed real linear combination of the input channels at every time sample, and the filters, the decimation, the transform and the processors of the configuration are linear, then after time data processing, decimation, windowing, Fourier transform, spectra processing, evaluation frequency interpolation and gathering, the regression system of that channel at every evaluation frequency is satisfied exactly by that combination; with any least squares regression and predictors that determine a transfer function, quick_tf without calibration returns exactly that combination at every evaluation frequency. The Fourier transform, the time data processors (but Add, per channel factors and custom functions) and the smoothers of the package are linear in this sense.",
  "every recording, every real transfer function, every linear decimation filter and transform, all configurations",
  "Composition of all stages on all data.",
  ["resistics/letsgo.py:quick_tf", "resistics/decimate.py:Decimator.run", "resistics/window.py:Windower.run", "resistics/spectra.py:FourierTransform.run", "resistics/spectra.py:EvaluationFreqs.run", "resistics/gather.py:QuickGather.run", "resistics/regression.py:RegressionPreparerGathered.run"])
p("Fourier transform: frequency grid, shape and timestamps",
  "The Fourier transform of windowed data keeps number of levels, windows, channels and index offsets; its frequency grid runs from 0 in equal steps of fs/n up to at most Nyquist with as many frequencies as values per row; the timestamps of its windows are the times of the window starts.",
  "every windowed data set, transform length function and row transform",
  "All level counts, window sizes (even and odd) and sampling frequencies.",
  ["resistics/spectra.py:FourierTransform.run", "resistics/spectra.py:FourierTransform._get_level_data", "resistics/spectra.py:SpectraData.get_timestamps"])
p("Phases are continuous and equal to the impedance angle",
  "get_phase returns for each period the angle of the impedance in degrees up to full turns, the first one unchanged and with no jump above 180 degrees between periods; for ExHx and ExHy it is the angle plus 180 degrees in [-180, 180). The tipper length is the length of the real parts.",
  "every component and number of periods",
  "All complex values.",
  ["resistics/transfunc.py:ImpedanceTensor.get_phase", "resistics/transfunc.py:Tipper.get_length"])
p("A row is detrended and transformed as documented",
  "Before the transform a row loses nothing, its mean, or its least-squares line; the transform is linear, maps a tone of complex amplitude A at bin m to A sqrt(n)/2 at bin m and zero elsewhere, and every sample of the row can be recovered from it.",
  "every row, detrending, window function and transform length",
  "All rows and lengths.",
  ["resistics/spectra.py:FourierTransform._get_level_data"])
p("Project and site queries",
  "The sampling frequencies of a site or project are listed once each, increasing, and are exactly those of its measurements; get_sites and get_measurements with a sampling frequency return exactly the sites and measurements having it, in order; a site or measurement is found by name or the documented exception is raised.",
  "every project, site, name and sampling frequency",
  "All projects.",
  ["resistics/project.py:Site.fs", "resistics/project.py:Site.get_measurement", "resistics/project.py:Site.get_measurements", "resistics/project.py:Project.fs", "resistics/project.py:Project.get_site", "resistics/project.py:Project.get_sites"])
p("Stored evaluation data of a project",
  "Processing measurements of a loaded project to evaluation data stores for each one exactly the data computed from its time data and calibration files as they were at the start; evaluation data of other measurements and other configurations and every file of the project outside the evals directory are unchanged. The order and repetition of the measurements do not matter. A run interrupted at any point can be repeated and ends with exactly the files of an uninterrupted run. A measurement whose data cannot be computed touches no file.",
  "every project, list of measurements, configuration, file system and crash point",
  "All projects, orders and crash points.",
  ["resistics/letsgo.py:process_time_to_evals", "resistics/project.py:get_meas_evals_path", "resistics/gather.py:get_site_evals_metadata"])
p("What double precision arithmetic changes",
  "With every floating point operation of the code rounded to IEEE double precision: counting samples with the default rounding recovers the sample from its time; from_time_to_sample and to_time_to_sample give a sample at most one away from the exact one and refuse the same times; datetime_to_win recovers a window from its start time with the default rounding and is at most one off with floor and ceil; every window found by get_first_and_last_win after the first lies completely in the recording and none that does is missed but perhaps the one before the first; the first sample of a window table is at most one sample before the time of the first window. The bounds are sharp: at 100 Hz, times exactly on samples 14 and 29 convert to samples 15 and 28, and the same window of two recordings can be one sample apart.",
  "every fs, first time, requested time, reference time, window and overlap size, for up to 2^46 samples or 2^47 windows",
  "Rounding errors depend on the exact bits of every number; about 6 percent of the samples at 100 Hz are affected, none at 10 Hz or 128 Hz, so tests at a few frequencies see nothing.",
  ["resistics/sampling.py:to_timedelta", "resistics/sampling.py:to_seconds", "resistics/sampling.py:to_n_samples", "resistics/sampling.py:from_time_to_sample", "resistics/sampling.py:to_time_to_sample", "resistics/window.py:datetime_to_win", "resistics/window.py:get_first_and_last_win", "resistics/window.py:get_win_table"])
p("Estimated timestamps and plots of time data",
  "get_timestamps of time data and of decimation levels returns one time per sample; without estimation they are the sample times, with estimation (the default) whole nanoseconds which are off by at most 1 ns plus half a nanosecond per sample, not at all when first time and period are whole nanoseconds, and increasing up to 1 GHz; timestamps of selected samples are those of the samples among all; window starts likewise with half a nanosecond per window. Plotting time data (decimated data of up to ten levels) draws for each channel one line per level in the row titled by the channel, made of samples of that channel at their timestamps. Limits of the code: the drift exceeds a sample period after 1.2 s at 65536 Hz; asking for some of the channels raises KeyError; channels asked for in another order are drawn under the wrong titles; more than ten levels cannot be plotted.",
  "every recording of up to 2^24 samples, sampling frequency, first time, selection of samples, maximum number of points, channel order and decimated data",
  "The drift shows only at frequencies whose period is not a whole number of nanoseconds and for long recordings; plots are not inspected by tests.",
  ["resistics/sampling.py:datetime_array_estimate", "resistics/time.py:TimeData.get_timestamps", "resistics/decimate.py:DecimatedData.get_timestamps", "resistics/window.py:get_win_starts", "resistics/window.py:get_win_ends", "resistics/time.py:TimeData.plot", "resistics/decimate.py:DecimatedData.plot", "resistics/plot.py:get_time_fig"])
p("Quick processing of a directory agrees with the project",
  "quick_read returns what the first reader in the configuration that can read the directory reads, whatever exceptions the others raise, and raises TimeDataReadError exactly when none can; for a measurement of a project loaded with these readers it is the recording the project reads. quick_view shows the processed recording or its decimation levels; quick_spectra gives the spectra that quick_tf continues from, referenced to the first time of the recording. When a measurement is processed to evaluation data in a project whose reference time is the first time of the recording, and it is the only one of its site at its sampling frequency, the transfer function that process_evals_to_tf returns and saves is exactly the one quick_tf computes from the directory with the calibration files of the project. Limit of the code: when time data processors change the sampling frequency, process_evals_to_tf at the sampling frequency of the recording labels the right components with frequencies too large by the ratio, and at the sampling frequency after processing it raises ValueError.",
  "every configuration, project, file system, recording and calibration files",
  "Two code paths through all stages have to give the same numbers for all data, and the labels differ only when a processor changes the sampling frequency.",
  ["resistics/letsgo.py:quick_read", "resistics/letsgo.py:quick_view", "resistics/letsgo.py:quick_spectra", "resistics/letsgo.py:quick_tf", "resistics/letsgo.py:process_time_to_evals", "resistics/letsgo.py:process_evals_to_tf"])
p("Processing time data into a measurement",
  "process_time stores the recording it reads from the measurement, after the time data processors of the configuration, as a measurement that the numpy reader returns (sample for sample, for recordings of at least two samples), replacing a measurement that is already there; it succeeds whenever the data can be read and processed and the target can be written. The one exception, a limit of the code: the numpy reader maps the file instead of loading it, and the writer truncates the file before it takes the samples, so that with a configuration without time processors a numpy recording written onto itself is lost (the process is killed with the file damaged, or values that do not depend on the recording are stored); this can only happen without processors and when the target is the measurement itself. When the data cannot be read or processed the exception is passed on and no file is touched. At every moment, however the call ends, the project can be loaded with the same metadata and every other measurement is exactly as before; after success a project loaded with the default readers has the new measurement with the metadata of the processed recording, and an interrupted first write leaves no measurement.",
  "every configuration, project, measurement, request, target, file system and crash point",
  "All recordings, projects and crash points.",
  ["resistics/letsgo.py:process_time", "resistics/project.py:get_meas_time_path", "resistics/time.py:TimeWriterNumpy", "resistics/letsgo.py:load"])
p("Transfer functions between sites of a project",
  "process_evals_to_tf for an output site, an input site (the output site by default) and a cross site (the input site by default) uses exactly the windows that all of them have, at the levels all of them have, in increasing order; the rows of the regression are, window by window, output of the output site times conjugate cross channel of the cross site against input of the input site times the same conjugate; every row comes from stored data of its own site. The stored window with a given index covers the same time in every measurement of the project, up to less than one sample: it starts at the reference time of the project plus index times increment. When the stored outputs are combinations of the inputs, any least squares regression returns exactly the impedances (they may differ by frequency) whatever the remote site recorded, as long as the system determines them; likewise from recordings whose channels are in a real linear relation. Without a common window AttributeError is raised, and a site that is missing or has nothing at the sampling frequency is an error: a remote reference is never left out silently.",
  "every project, configuration, file system, recordings, output, input and cross site",
  "Wrong pairing of windows or sites still gives plausible transfer functions; it has to be excluded for all combinations of recordings.",
  ["resistics/letsgo.py:process_evals_to_tf", "resistics/letsgo.py:process_time_to_evals", "resistics/gather.py:Selector", "resistics/gather.py:ProjectGather", "resistics/gather.py:get_site_wins", "resistics/regression.py:RegressionPreparerGathered", "resistics/window.py:Windower"])
p("Displayed transfer functions",
  "to_string of a transfer function gives one line for each output or input channel, in order, in aligned columns with the equals sign in the middle line and each row of the tensor listing the components of the output channel with all input channels; two transfer functions with the same text have the same output and input channels (names without blanks or line breaks). Plotting the impedance tensor adds to the figure, after what it holds, two lines per component asked for (all four by default): periods against apparent resistivity 0.2 T |Z|^2, and periods against the phase in degrees, which is the direction of Z, or of -Z within [-180, 180) for ExHx and ExHy; a component that is missing or not of the tensor raises KeyError, one with the wrong number of values ValueError, leaving in the figure exactly the complete lines of the components before it. The tipper plot has the length of the real part and the angles of real and imaginary parts; an angle is between -90 and 90 degrees and is the direction of the tipper only if its x component is not negative (opposite otherwise, so that opposite tippers show the same angle), and is NaN exactly for a zero tipper.",
  "every transfer function, channel names, components, frequencies, figure and choice of components",
  "Displays are checked by eye at most; layout and quadrants must be right for all channel names and all values.",
  ["resistics/transfunc.py:TransferFunction.to_string", "resistics/transfunc.py:ImpedanceTensor.plot", "resistics/transfunc.py:ImpedanceTensor.get_phase", "resistics/transfunc.py:ImpedanceTensor.get_resistivity", "resistics/transfunc.py:Tipper.plot", "resistics/transfunc.py:Tipper.get_real_angle"])
p("Solvers",
  "Without an intercept (the default) SolverScikitOLS is a least squares regression and SolverScikitWLS with n_iter >= 1 leaves no residual on exact data, so both return exactly the transfer function of exact, independent spectra; WLS is the reweighting of C36 around scikit-learn's fit, equals OLS for n_iter = 1 and has no coefficients for n_iter <= 0. With fit_intercept a linear relation with a constant is recovered when predictors and constant determine it, adding a constant to the observations changes nothing, but at least one equation more than coefficients is needed; normalize has no effect when the predictors determine the coefficients. SolverScikitHuber takes no notice of fit_intercept and normalize, leaves a total absolute residual bounded by that of any other coefficients plus a small penalty, and never returns the coefficients of exact data unless they are zero. SolverScikitTheilSen recovers a relation that more than half of the samples drawn satisfy exactly and determine; a proportion n_subsamples is accepted exactly when it gives at least as many equations as unknowns. SolverScikitRANSAC recovers exact data whose observations vary and never returns coefficients for observations without deviation. One failed regression (one output channel at one frequency) leaves no solution at all.",
  "every system of equations, flags and parameters of the solvers, and every scikit-learn that meets its documented specification",
  "Tests run the solvers on one small example; the effect of flags, sizes and degenerate data shows only on other systems.",
  ["resistics/regression.py:SolverScikit", "resistics/regression.py:SolverScikitOLS", "resistics/regression.py:SolverScikitHuber", "resistics/regression.py:SolverScikitTheilSen", "resistics/regression.py:SolverScikitRANSAC", "resistics/regression.py:SolverScikitWLS"])
p("The default configuration processes every long enough recording",
  "The default configuration makes, for every sampling frequency, eight levels of five evaluation frequencies, the half octaves down from a quarter of the sampling frequency, decimated by 1, 4, 32, 128, 1024, 4096, 32768 and 131072. Decimation gives exactly the levels that are left with 256 samples (KeyError when the recording has less than 256); windows are a quarter of a second long but at least 128 samples and overlap by a quarter. Every recording with at least two channels, 608 samples and 1.2 seconds is processed: the result has at least five windows at each level, has each level that is left with 608 samples and never one with less than 512; a recording with less than 512 samples, or of less than a second (but for four samples), is refused. quick_tf without calibration data then estimates an impedance tensor at the first 5, 10, ... or 40 evaluation frequencies from every such recording with the channels Ex, Ey, Hx and Hy, and returns exactly the combination when both electric channels are fixed real combinations of the magnetic ones and more than half of the samples of equations drawn by the regression determine the tensor.",
  "every sampling frequency up to 10^13 Hz, recording, reference time, directory, scipy and scikit-learn that meet their specifications",
  "The defaults of six classes must fit together for every sampling frequency and length; tests run them on one recording.",
  ["resistics/config.py:get_default_configuration", "resistics/config.py:Configuration", "resistics/decimate.py:DecimationSetup", "resistics/decimate.py:Decimator", "resistics/window.py:WindowSetup", "resistics/sampling.py", "resistics/letsgo.py:quick_tf", "resistics/regression.py:SolverScikitTheilSen"])
p("Plots of spectra",
  "SpectraData.plot draws for up to ten levels one line per level and channel, in the row of the channel, with the mean magnitude of all windows at frequencies of the level (first and last kept when downsampled); more than ten levels raise StopIteration. plot_level_stack groups the windows by their starts into consecutive intervals of the length asked for, aligned to midnight of the first window plus the offset, every window in exactly one group, and draws for each group the mean of its own windows (the weighted mean of these is the overall mean); groups without windows have no values; more than ten groups, in particular windows that span ten group lengths, raise StopIteration; without a grouping there is one group, with the lines of plot. plot_level_section maps the logarithms of the group means at the middles of the groups with ticks exactly at the powers of ten between the values; it raises ZeroDivisionError for one channel and ValueError when a group has no windows (windows two group lengths apart) or a mean is zero.",
  "every spectra of matching shapes, level, grouping, offset, number format and maximum number of points",
  "Group boundaries, empty groups and the number of colours depend on dates and lengths that tests do not vary.",
  ["resistics/spectra.py:SpectraData.plot", "resistics/spectra.py:SpectraData.plot_level_stack", "resistics/spectra.py:SpectraData.plot_level_section", "resistics/spectra.py:SpectraData.get_timestamps", "resistics/plot.py:apply_lttb"])
p("Channel types and channel metadata",
  "The type of a channel name is electric for Ex, Ey and E1 to E4, magnetic for Hx, Hy, Hz, Bx, By and Bz, and any other name raises ValueError; no name is both. Channel metadata keep a type that is given and otherwise get that of the name; a single data file becomes a list of one. get_chans_with_type and the lists of electric and magnetic channels contain exactly the channels of the type, in the order of the recording; get_chan_types lists each type in use once in alphabetical order; a listed channel without metadata is a KeyError. get_time_metadata describes exactly the listed channels, each by its own dictionary, and succeeds exactly when every listed channel has a dictionary from which metadata can be made. Limits of the code: a renamed channel keeps the type of its old name, metadata without name and type raise KeyError rather than a validation error, and a wrong number of channels is kept.",
  "every channel name, dictionary of channel metadata, recording and type",
  "All names, orders and dictionaries.",
  ["resistics/common.py:get_chan_type", "resistics/common.py:is_electric", "resistics/common.py:is_magnetic", "resistics/time.py:ChanMetadata", "resistics/time.py:TimeMetadata.get_chan_types", "resistics/time.py:TimeMetadata.get_chans_with_type", "resistics/time.py:TimeMetadata.get_electric_chans", "resistics/time.py:TimeMetadata.get_magnetic_chans", "resistics/time.py:get_time_metadata"])
p("Tables and timelines of sites and projects",
  "The table of a site has one row per measurement, in order, with its name, sampling frequency and first and last time rounded down to nanoseconds; the table of a loaded project has exactly one row for each measurement that can be asked for by site and name, and no other. plot raises ValueError exactly when there are no measurements; otherwise it shows one bar per row, ordered by label and first time, and every bar lies on the time axis, which begins and ends with a margin of a tenth of the time shown; the project timeline has a line at the reference time. Limit of the code: only a reference time before the first recording widens the axis, so that one after the last recording by more than the margin is out of view.",
  "every site, project, file system, reference time and recording times",
  "All projects.",
  ["resistics/project.py:Site.to_dataframe", "resistics/project.py:Site.plot", "resistics/project.py:Project.to_dataframe", "resistics/project.py:Project.plot", "resistics/plot.py:plot_timeline"])
p("Sessions with a project",
  "A project can be processed in any sequence of calls of process_time, process_time_to_evals and process_evals_to_tf that end normally, raise or are interrupted at any change of the disk, mixed with loading the project again with any configuration. Whatever happens, all that differs on the disk afterwards is below the project: directories made on the way to the outputs of these calls and the files these calls write; the project metadata, the calibration files and every recording, evaluation data and results no call writes are as before, and the disk stays a tree that can be listed and the project can be loaded, with the same metadata and, but for recordings that calls wrote, exactly the same measurements. The evaluation data that gathering reads are those of the last normal process_time_to_evals for the measurement and configuration name, and are determined by the project as it was loaded, the recording and that configuration, however calls and loads were ordered; the same holds for the solution read by get_solution. A solution that can be computed is stored unless a file is in the way of its directory. reload keeps the configuration and shows what is on the disk, load without configuration uses the default one. new makes a project that can then be loaded, with the metadata given and no sites. Limit of the code: a recording stored by process_time is unknown to the environment (KeyError-like failure, nothing written) until it is loaded again; then it is read as it was written (unless it was written over itself without processors).",
  "every environment, disk, sequence of calls and loads, configuration, failure and point of interruption",
  "Histories of calls, failures and crash points are unbounded; tests run single calls in a fresh project.",
  ["resistics/letsgo.py:new", "resistics/letsgo.py:load", "resistics/letsgo.py:reload", "resistics/letsgo.py:ResisticsEnvironment", "resistics/letsgo.py:process_time", "resistics/letsgo.py:process_time_to_evals", "resistics/letsgo.py:process_evals_to_tf"])
p("Generated test data",
  "The functions of resistics.testing make data that are what their metadata say: the recording has the channels, sampling frequency, number of samples and first time asked for (to the nanosecond), its last time is that of the last sample up to half a nanosecond per period and exactly if the period is a whole number of nanoseconds (and then it is a consistent recording in the sense all processing relies on), the array has a row per channel and a column per sample, and the history has the one record of the generator. Values are ones, the sample number, those drawn, the sum of the sines (repeating after p samples whenever every frequency goes through whole cycles in p samples), or fixed; the recording with missing values agrees with the simple one elsewhere. Shifting the timestamps of data with an offset by the rest of the period puts them on whole periods, with values on the same line. Decimated data have the levels asked for, the last with the sampling frequency and number of samples given and every other with factor times those of the next; values count up and down, are those drawn, or the sines of the frequencies up to half the sampling frequency of the level (KeyError without frequencies for a channel); no levels is an IndexError. Spectra metadata have one level per level asked for that has an index offset. The solution has a tensor made of its components at each of its frequencies. Limits of the code: when the period is rounded down (3 Hz) a read up to the last time of the recording misses the last sample; spectra levels are divided cumulatively, by 2^(0+1+...+i), not 2^i.",
  "every sampling frequency, first time, number of samples, levels and factor, number format, drawn values and list of frequencies",
  "Tests compare a few literals; the rest of the test suite relies on these functions for other arguments.",
  ["resistics/testing.py"])
p("Magnitudes, phases and single frequencies of spectra",
  "SpectraData.get_mag_phs gives arrays of the shape of the level whose entries are the magnitude and a phase of each value (magnitude times exp(i phase) is the value), the phase above -pi and at most pi. With unwrap=True they are still magnitude and phase of the value, every row starts with the phase in the usual range, and from one frequency to the next a phase changes by at most pi; a phase that really changes by less than pi per frequency is recovered exactly from its values modulo whole turns, and rows without jumps are not changed. A level without data is a KeyError. get_freq gives a matrix of windows and channels, but a list when there is one window or one channel and a number when there is one of each, so that two windows of one channel cannot be told from one window of two.",
  "every spectra, level, window, channel and frequency, every row of phases of any length",
  "Rows of any length with any pattern of jumps; tests do not call unwrap.",
  ["resistics/spectra.py:SpectraData.get_mag_phs", "resistics/spectra.py:SpectraData.get_freq"])
p("Tables of decimation parameters and calibration data",
  "Subscripting DecimationParameters with a level gives the evaluation frequencies of the level, with a level and an index one frequency; everything outside is a ValueError. to_numpy exists exactly when there are n_levels times per_level frequencies, holds at row l and column i the frequency of level l and index i, and read row by row is the list of frequencies. to_dataframe has per level the evaluation frequencies, the sampling frequency, the total and the incremental factor that the getters give, and exists exactly when all lists have the right lengths, which is so for all parameters a DecimationSetup makes. CalibrationData give frequency, magnitude and phase by name and refuse other names with ValueError; their number of samples is that of the frequencies unless one is given; to_dataframe exists exactly when the three lists are of equal length and has them as columns; calibration data read from a text file have a table of at least one row with increasing frequencies. plot adds exactly the magnitude and the phase to the figure it is given.",
  "every decimation parameters, setup, level, index, calibration data, calibration file and figure",
  "All lengths and contents.",
  ["resistics/decimate.py:DecimationParameters.__getitem__", "resistics/decimate.py:DecimationParameters.to_numpy", "resistics/decimate.py:DecimationParameters.to_dataframe", "resistics/calibrate.py:CalibrationData"])
p("The history says how to repeat the processing",
  "Running a time processor adds one record at the end of the history: the times shown by the clocks, the name of the processor with all its parameters as JSON values, its messages and the type process. For every processor but custom functions, what is in the record is enough: whatever other classes are registered, as long as none takes its name, ResisticsProcess.validate makes from it a processor that on any data gives the same result or the same exception and writes the same record. So after any sequence of processors, rebuilding and running the records they added, in order, on the data from before gives the same data again and records that say the same; records read from a file are those written. Limits of the code: a processor with a name of its own cannot be rebuilt (ValueError) and one with the name of another class comes back as that class without an error; custom functions cannot be rebuilt, and one that cannot be described cannot even be run; rebuilding takes the name out of the record in the history, so that it works once (KeyError after that); times in years that pandas cannot represent are written but cannot be read again.",
  "every sequence of processors with any parameters, every data, every registry and every clock",
  "All sequences of processors and all parameters; the tests of parameters compare single dictionaries.",
  ["resistics/common.py:Record", "resistics/common.py:get_record", "resistics/common.py:get_history", "resistics/common.py:ResisticsProcess.parameters", "resistics/common.py:ResisticsProcess.validate", "resistics/time.py:TimeProcess", "resistics/time.py:serialize_custom_fnc"])
p("Channels are processed independently of one another",
  "Processing a recording with only some of its channels, or with the same channels in another order, gives for these channels exactly what processing the whole recording gives for them: after any sequence of time data processors (functions given for every channel), after decimation, after windowing with either windower (two or more channels, at least two windows a level), after the Fourier transform, smoothing, reduction to the evaluation frequencies and sensor calibration, with the same metadata otherwise. Looking up channels that are left gives the same values, gathering for a transfer function whose channels are left gives the same data. So channels that a transfer function does not use have no effect: quick_tf gives the same solution (or the same failure of gathering and solving) with and without them.",
  "every recording, choice and order of channels, configuration of channelwise processes, transfer function and disk",
  "All recordings, subsets and orders of channels and chains of processes; an effect of one channel on another shows only for particular combinations.",
  ["resistics/time.py:TimeProcess", "resistics/decimate.py:Decimator", "resistics/window.py:Windower", "resistics/window.py:WindowerTarget", "resistics/spectra.py:FourierTransform", "resistics/spectra.py:EvaluationFreqs", "resistics/spectra.py:SpectraData.get_chans", "resistics/calibrate.py:SensorCalibrator", "resistics/gather.py:QuickGather", "resistics/letsgo.py:quick_tf"])
p("Recordings with one channel",
  "For a recording with one channel the windower removes the axis of the channels. Up to the evaluation frequencies the processes still work along the last axis: windows, Fourier transform, smoothing and evaluation give for the channel alone exactly the values it has when it is processed among other channels, and so do get_freq, get_mag_phs and get_timestamps. Limits of the code: get_chan gives the spectrum of the first window only and get_chans repeats it, without an error; sensor calibration raises an IndexError when there are calibration data for the channel and leaves the spectra unchanged otherwise; plot raises an IndexError.",
  "every recording, channel, configuration of channelwise processes and smoothers, level and frequency index",
  "All recordings and levels; the test suite has no recording with one channel that goes through windowing.",
  ["resistics/window.py:Windower", "resistics/spectra.py:SpectraData", "resistics/spectra.py:FourierTransform", "resistics/spectra.py:EvaluationFreqs", "resistics/calibrate.py:SensorCalibrator"])
p("Numbers in text",
  "A float that is written with json (or repr) and read again is the same double, whatever its size: the shortest decimal that is written is read back exactly, whole numbers are read back as whole numbers and floats as floats. Reading any decimal gives a double nearest to it, and infinity exactly when it is beyond the largest double (by half a last place or more). Different doubles have different texts, and no text of a float is the text of an int. An int of up to 2^53 that becomes a float keeps its value. So sampling frequencies, factors, gains and transfer functions in metadata files survive storing.",
  "every double, every integer and every decimal",
  "There are 2^64 doubles; tests try a few.",
  ["resistics/common.py:WriteableMetadata.write", "resistics/common.py:ResisticsModel.to_string"])
p("JSON text",
  "Metadata, solutions and calibration data are stored as json text. Every value (texts with any characters, numbers, lists and dictionaries nested to any depth) is read back unchanged, with any white space around it; different values have different texts; whatever it contains the text is printable ASCII on one line. A text that has anything but white space after the value, for example the rest of a longer file, is refused with a ValueError, and so is every proper beginning of the text of a list or dictionary: a metadata file whose writing was interrupted is never taken for a complete one.",
  "every JSON value of any size and depth, every white space, every point of interruption",
  "All values, all lengths of the beginning.",
  ["resistics/common.py:WriteableMetadata.write", "resistics/time.py:TimeReader.read_metadata", "resistics/letsgo.py:ResisticsEnvironment", "resistics/calibrate.py:SensorCalibrationJSON"])
p("Metadata files",
  "Every metadata file (recordings, decimated data, windowed data, spectra, calibration data, projects and solutions with their histories and contributors) is read back with all fields, at any depth, as it was written, except that write replaces the information about the file and that whole numbers which were defaults of floats become floats of the same value. Objects with the same text are the same. A file whose writing was interrupted anywhere is a ValueError, as whatever class it is read. Fields that a class does not have are ignored, a missing required field is refused (ValueError), the others get their defaults: places -999, gains 1, type of a channel from its name, number of channels from the list. Limits of the code: spectra metadata are accepted as windowed metadata, windowed and spectra metadata are accepted as a project file, data without levels as that of other classes, and nothing else is mistaken; metadata without channels and number of channels are a MetadataReadError instead of a ValueError.",
  "every object of the seven classes, every time of writing and reading, every point of interruption, every pair of classes",
  "All contents of all fields and all nesting; tests compare single examples after writing them.",
  ["resistics/common.py:WriteableMetadata", "resistics/common.py:ResisticsFile", "resistics/common.py:History", "resistics/time.py:TimeMetadata", "resistics/time.py:ChanMetadata", "resistics/decimate.py:DecimatedMetadata", "resistics/window.py:WindowedMetadata", "resistics/spectra.py:SpectraMetadata", "resistics/calibrate.py:CalibrationData", "resistics/project.py:ProjectMetadata", "resistics/regression.py:Solution", "resistics/gather.py:SiteCombinedMetadata", "resistics/transfunc.py:TransferFunction"])
p("Which objects share their samples",
  "Time data behave as values: processors and copy make objects with samples of their own and change nothing that existed, set_chan changes that channel of that object and nothing else, and after any history of processing, copying, decimating and setting channels (going on after exceptions) every object holds what it would hold if all were separate values. Exceptions to it, in the code: the levels of decimated data up to the first increment other than one are the array of the recording and follow a channel set on it later, while all later levels keep what was computed; windows are writeable views of the decimated data, are at any time the windows of what the levels hold then, and overlapping windows share their common samples, so writing into one window changes the others; recordings of the numpy reader are views of the file, are read-only (set_chan is a ValueError), show what the file holds when it is rewritten with an array of the same shape, and saving one to its own file fails and loses the file, while saving anything else stores exactly its values and changes no other file and no memory.",
  "every memory, every set of objects and every history of calls of any length, every processor, decimation and window parameters, every cell written",
  "All histories of calls and all ways of sharing; that an object did not change has to be known of every other object.",
  ["resistics/time.py:TimeData.set_chan", "resistics/time.py:TimeData.copy", "resistics/time.py:TimeProcess", "resistics/time.py:TimeReaderNumpy", "resistics/time.py:TimeWriterNumpy", "resistics/decimate.py:Decimator", "resistics/window.py:Windower._get_level_data", "resistics/letsgo.py:run_time_processors"])
p("Recordings as text",
  "TimeReaderAscii and TimeWriterAscii, character by character. A word is read exactly if it is a number (sign, digits, point, exponent, or infinity or nan in any case, with blanks around it) and then as the double nearest to it, rounded once more to the nearest single precision number (to infinity exactly beyond the largest one); every text Python writes for a number is read as that number. A text of header lines, whatever is on them, and a line for each sample with a number for each of at least two channels, separated by blanks or by the delimiter, with Unix, Windows or Mac newlines, with or without comments behind the numbers and a newline at the end, is read like the table of its numbers by the numpy reader, whatever is asked for: the same samples at the same times or the same refusal. A word on the lines asked for that is no number is a ValueError. The file written for a channel is read back sample by sample: to a millionth and single precision, exactly for single precision numbers of at most six decimals, so for all whole numbers of up to 24 bits, for infinity and nan. Limits of the code: a blank or comment line between the samples counts as a sample while it is skipped (samples behind it come one too early) and in the range asked for it loses a sample that the metadata count; what the writer stores of several channels is read by the ASCII reader without complaint as the first channel alone.",
  "every text, delimiter, number of header lines, table of numbers, range of samples and time, every recording written and every disk",
  "All texts and all numbers; tests write and read two small arrays.",
  ["resistics/time.py:TimeReaderAscii", "resistics/time.py:TimeWriterAscii", "resistics/time.py:TimeReader.run"])
p("Decimation and windows are set up as documented in double precision arithmetic too",
  "With every floating point operation rounded to a double: the default evaluation frequencies are strictly decreasing, exact for whole octaves and within a part in 2^51 otherwise, and `get_eval_freqs` down to a minimum stops exactly at it; with a division factor that is a power of two `DecimationSetup.run` gives what exact arithmetic gives, so the default setup always makes the levels decimated by 1, 4, 32, ... with exact sampling frequencies; with other division factors the factor is right unless the frequency is within a part in 2^40 of the border, and level sampling frequencies are within three units in the last place; `WindowSetup.run` gives the exact sizes for overlap proportions such as a quarter, any overlap is within one sample and less than its window; `WindowerTarget` sizes are within one sample, and exact for such proportions.",
  "every sampling frequency, list of frequencies, division factor, window factor, overlap proportion and size within the stated (large) bounds",
  "double rounding errors depend on the bits of every input: tests see the few frequencies they try, and the wrong cases (a border that is missed, a window one sample short) are rare",
  ["resistics/decimate.py:get_eval_freqs", "resistics/decimate.py:DecimationSetup", "resistics/decimate.py:DecimationParameters", "resistics/window.py:WindowSetup", "resistics/window.py:WindowerTarget"])
p("Number types of samples",
  "Processing data of single or double precision keeps the type (except ApplyFunction, which always gives double precision), and every processor does in that type what it does in exact arithmetic up to a few units in the last place: Add, Multiply, RemoveMean (whatever the order of the additions; the mean that is left is of the size of the rounding errors), InterpolateNans (samples that are there stay bit for bit), filters, Resample and Decimate (computed in double precision and rounded once), ShiftTimestamps up to the number of samples whose positions the type can hold, and the window function. Integer data: the result is integer or double precision according to the processor; sums and products that fit are exact; filtered and resampled integers are cut towards zero. Limits of the code: amounts of Add and Multiply per channel are cut to whole numbers for integer data, so that a factor below one erases the channel, while the same factor given as one number is used exactly; a window function on integer data that are not detrended is cut to zeros and ones; ShiftTimestamps of single precision data returns the samples unshifted (or shifted by a whole sample) from sample 2^23 on although the metadata say they were shifted, and repeats samples beyond 2^24; ShiftTimestamps of integer data with more samples than the integer type can count is a ValueError. set_chan refuses a row of another number type than the data, whatever its numbers (so also a row taken from integer data before a processor made them doubles), and otherwise stores it without a change.",
  "every number type, all data, every amount, order of summation, filter result, shift and sampling frequency, every window function",
  "All numbers and types; the tests use one array of whole numbers, and the loss of the shift shows only behind eight million samples.",
  ["resistics/time.py:RemoveMean", "resistics/time.py:Add", "resistics/time.py:Multiply", "resistics/time.py:InterpolateNans", "resistics/time.py:LowPass", "resistics/time.py:Resample", "resistics/time.py:Decimate", "resistics/time.py:ShiftTimestamps", "resistics/time.py:ApplyFunction", "resistics/spectra.py:FourierTransform"])
p("Calibration files character by character",
  "The two calibration readers on the characters of a file. A text is read exactly when it has a line with CALIBRATION DATA, at least one line behind it, only lines of three numbers up to the next blank line or the end, and an equals sign on each line that names sensor, serial number, gain, units or chopper; then frequencies, magnitudes and phases are the doubles nearest to what is written, in order of frequency with nan last, phases are changed exactly when the unit is degrees, and then to the radians of the written number up to two roundings; sensor and serial number are those of the last line that names them, the gain that of the first. The order of rows of different frequency, white space at the ends of lines and the kind of newline do not matter. JSON files are read back as they were written, with the place of the file; text files can carry whatever JSON files can, and then both readers give the same data. The reader that is used is the first whose file exists and can be read, and a JSON file is never taken for a text file. Limits of the code: a text file that was cut off between two rows, or inside the last number of a row, is read without complaint with the rows and digits that are left; a JSON file that was cut off is refused, but the calibrator treats it like a missing file and leaves the channel uncalibrated; a phase unit such as Degrees is taken for radians.",
  "every text, set of calibration data, order of rows, newline, point where the file was cut, list of readers and directory",
  "All texts and all numbers; the tests read three or four rows.",
  ["resistics/calibrate.py:SensorCalibrationTXT", "resistics/calibrate.py:SensorCalibrationJSON", "resistics/calibrate.py:SensorCalibrationReader", "resistics/calibrate.py:SensorCalibrator._get_cal_data", "resistics/calibrate.py:CalibrationData"])
p("Several processes at once",
  "Processes that write data, create projects and save solutions at the same time, one system call after the other in any order, any of them interrupted at any time. Nothing ever vanishes, and outside the places of the jobs nothing changes but missing directories on the way to them. Every process ends after a number of turns that does not depend on the others. Processes in separate places never fail, leave what they would leave alone, and at every moment their place is in a state that it goes through when they are alone, even when they make the same missing parent directories. A process that is to write to a directory that was there without overwriting, or to create a project where there was one, always raises, whatever the others do, and changes nothing. Data whose metadata can be read while they are being written are complete. Limits of the code: two processes that write to the same new directory with overwrite=False may both return normally, and one replaces the files of the other; two processes that create a project in the same directory may both return normally and leave a project file that cannot be loaded; of two processes that save solutions with different names to a new directory, one may raise and lose its solution.",
  "every set of processes and jobs of any size, every disk, every interleaving of their system calls, every point of interruption, every moment at which somebody reads",
  "All schedules; tests run one process, and the wrong orders are rare.",
  ["resistics/common.py:ResisticsWriter._check_dir", "resistics/common.py:WriteableMetadata.write", "resistics/letsgo.py:ProjectCreator", "resistics/letsgo.py:run_solver", "resistics/time.py:TimeWriterNumpy", "resistics/time.py:TimeWriterAscii", "resistics/decimate.py:DecimatedDataWriter", "resistics/window.py:WindowedDataWriter", "resistics/spectra.py:SpectraDataWriter"])
p("Evaluation frequencies and calibration in floating point numbers",
  "With every operation rounded: EvaluationFreqs succeeds for spectra of single or double precision on increasing frequencies; the value at an evaluation frequency that is a frequency of the spectra is exactly the value of that bin, beyond the first or last frequency it is exactly the value of the first or last bin, and in between it always comes from the two bins next to the frequency (the rounded position never falls on another bin): it is the value on the line between them up to (bin + 8) / 2^53 of their difference and eight units in the last place of the type of the spectra, and exactly their value when both are the same. Magnitude and phase of a sensor at a frequency of the calibration file are exactly those of the file, beyond the file those at its ends, in between on the line up to eight roundings; magnitudes stay positive unless neighbouring rows differ by a factor of more than 2^48, so that the spectra are not divided by zero.",
  "every list of frequencies (up to 2^53), spectra of single or double precision, evaluation frequency, calibration table",
  "Positions and portions are rounded at every step, and a position that is rounded to the wrong side would use the wrong bin or run out of the array; tests see a few frequencies.",
  ["resistics/spectra.py:EvaluationFreqs", "resistics/calibrate.py:Calibrator", "resistics/calibrate.py:SensorCalibrator"])
p("Robust weights in double precision arithmetic",
  "In the iteratively weighted least squares solver, with every operation of the residuals, of the median, of the quartiles and of the scaling rounded to double precision: after each fit an equation keeps its full weight when its residual is at most the median plus twice the interquartile range of all residuals (one when the range is zero), and loses it when it is above that by more than a part in 2^51 of the range; there are no weights other than zero and one; an equation that is fitted better never has less weight than one that is fitted worse; at least half of the equations keep their weight, so that a model that can be fitted with half of the equations can be fitted in every iteration; data that are fitted exactly lose no weight; the result is that of the last of the iterations, each with the weights from the residuals of the one before, and no iterations are an AttributeError. The Huber weights are positive, at most one, one up to the threshold and never increasing; the bisquare weights of residuals that are not negative are between zero and one, one at zero, zero from the threshold on, never increasing and within 9 / 2^53 of the formula.",
  "all observations and predictions (up to 2^51 of them), every number of iterations, every model and fit, every threshold and residual",
  "Quartiles, scaling and comparison are rounded: a test sees a few residuals, not the ones on the border.",
  ["resistics/regression.py:SolverScikitWLS"])
p("The order of directory listings",
  "File systems list the entries of a directory in any order, and copies of a project in another. Whatever the order: the same project is loaded, or loading fails in the same way; sites and measurements by name, numbers, sampling frequencies, begin and end, concurrent sites, tables and timelines are the same, up to the order of rows; measurements are processed to the same files, step by step; the same windows are selected for a transfer function; and the same transfer function is computed and written as long as no two measurements of a site have a window in common, which measurements recorded one after the other do not have. `dir_contents`, `dir_files` and `dir_subdirs` give every entry of a directory once, `is_file`, `is_dir`, `assert_file` and `assert_dir` tell files, directories and missing paths apart. Limits of the code: when measurements of a site overlap, the values of a common window, and with them the transfer function, are those of the measurement that the directory happens to list first; hidden files are listed although the documentation excludes them.",
  "every disk, every two orders of listing, every project, configuration, list of sites and sampling frequency",
  "The order cannot be chosen in a test: it depends on the file system, and tests see one of them.",
  ["resistics/letsgo.py:ProjectLoader", "resistics/common.py:dir_contents", "resistics/common.py:dir_subdirs", "resistics/common.py:dir_files", "resistics/common.py:assert_dir", "resistics/common.py:is_file", "resistics/project.py:Project", "resistics/project.py:Site", "resistics/gather.py:get_site_level_wins", "resistics/gather.py:Selector", "resistics/gather.py:ProjectGather"])
p("Smoothing of spectra in floating point numbers",
  "With every operation rounded, and the filters of SciPy as they compute (the uniform one as a running mean): both smoothers keep metadata (but for the record) and shape of the spectra. The length of the uniform smoother is odd, at least one and the proportion of the number of frequencies up to one and a rounding. Its value at position i is the mean of the 2h+1 values around it in the row continued by mirror images, up to (2h + 3 + 8i) / 2^53 of the largest value of the whole row, and the storing in single or double precision. A constant spectrum stays constant. Over one point nothing changes as long as the values are multiples of one unit of at most 2^52 units. The Gaussian smoother gives the weighted sum up to 2r + 3 roundings for weights up to the distance r, those of width one whatever its sigma, and looks at nothing beyond the farthest weight. Limit of the code: the running mean carries rounding errors from low to high frequencies, so that a coefficient that is large in comparison with the others erases all coefficients above it, even with a length of one, where the smoother should do nothing.",
  "every spectrum of single or double precision, proportion, length, list of weights and position",
  "Rounding errors pile up along the row and depend on every value before; tests smooth ten small whole numbers.",
  ["resistics/spectra.py:SpectraSmootherUniform", "resistics/spectra.py:SpectraSmootherGaussian"])
p("Cross powers and regression equations in floating point numbers",
  "With the complex products of the regression preparer rounded in the number type of the gathered data: each part of a cross power is exact up to three roundings of its two products, and as a complex number up to six roundings of its size; the power of a channel with itself is exactly real and not negative; exchanging the channels gives exactly the conjugate. Preparing succeeds as in exact arithmetic, and the equations are the exact equations for the rounded cross powers, so that output data that are exactly Z times the input data satisfy every equation with Z up to rounding errors relative to the sizes of the data and of Z. Data of single precision gathered in double precision, as for a project, give cross powers that are the doubles nearest to the exact ones. Preparing spectra directly and preparing them after quick gathering give exactly the same rounded equations. Limit of the code: the quick way to a transfer function keeps single precision, where cross powers of weak signals (parts up to 2^-76) are all zero.",
  "all gathered data of single or double precision with any numbers of windows and channels, every transfer function Z",
  "Every product is rounded, and whether Z is found from data that follow it depends on all of them; tests use whole numbers.",
  ["resistics/regression.py:RegressionPreparerGathered", "resistics/regression.py:RegressionPreparerSpectra", "resistics/gather.py:ProjectGather", "resistics/gather.py:QuickGather"])
p("Calibration of spectra in floating point numbers",
  "With every operation rounded: the sensor calibrator on spectra of single or double precision succeeds, adds a record and keeps levels, windows and channels; rows of channels that are not selected or have no calibration data are kept bit by bit; every other value is divided by the response with the interpolated magnitude and phase, up to a part in 2^47 of the quotient and the rounding when it is stored in the precision of the spectra. For calibration files of positive magnitudes, neighbouring ones within a factor of R, and phases up to B, it is the value divided by the exact response up to (7 + R + 2B) / 2^49 of it, and the exact response is not zero. A quotient of complex numbers is exact up to a part in 2^48; it is exact when the response is real or imaginary and a power of two; quotients of conjugates are conjugates and a quarter turn of the spectrum turns the quotient, exactly. A flat response (magnitude one, phase zero) changes no bit. Levels of a single frequency with more than one window are refused with a ValueError. Limit of the arithmetic: quotients go through a rounded reciprocal, so that 49 divided by 49 is not one.",
  "all spectra of single or double precision, selections of channels, calibration tables and frequencies; every sine and cosine exact up to a part in 2^51",
  "Rounding errors of interpolation, sine and cosine, product and division depend on every value; tests compare a few with tolerances.",
  ["resistics/calibrate.py:Calibrator", "resistics/calibrate.py:SensorCalibrator"])

p("Accuracy of transfer functions from noisy and rounded data",
  "For any gathered spectra and any transfer function Z (the true one, say): the solution of the least squares solver differs from Z at every frequency by at most the size of the noise (what the output spectra are besides Z times the input spectra, times the cross channels, over all windows and cross channels) divided by the gain of the inputs (the smallest size of what coefficients of size one contribute to the equations); in particular by at most noise level times largest cross value times the root of the number of equations over the gain, for each component. With a numerical method that is only nearly as good as least squares, by at most twice that and the inaccuracy of the method over the gain. With the cross powers rounded in single or double precision the same holds with the rounding errors of the cross powers added to the noise and taken off the gain. Inputs that are independent of each other over windows and cross channels have a positive gain. The iteratively weighted solver succeeds on any data and keeps at least half of the equations; in these its result differs from what any Z predicts by at most the noise of the kept equations alone, so that its error is at most the noise divided by the gain of the inputs in whatever half of the equations, which is positive when every half determines the transfer function. From the recording: when the samples of an output channel are a fixed combination of the samples of the input channels plus noise samples, quick_tf through linear processors, decimation, windowing, Fourier transform, smoothing, evaluation and least squares gives that combination up to the size of the noise spectra times the cross spectra, over the gain of the inputs.",
  "all gathered data, in exact arithmetic or of single or double precision, every transfer function, noise, gain, number of windows and channels, every least squares method and inaccuracy",
  "No measurement follows a transfer function exactly; tests recover it from a few exact or random data and cannot bound the error for all noise.",
  ["resistics/regression.py:RegressionPreparerGathered", "resistics/regression.py:Solver", "resistics/regression.py:SolverScikitOLS", "resistics/regression.py:SolverScikitWLS"])

p("Apparent resistivity and phase in floating point numbers",
  "With every operation rounded: the apparent resistivity of an impedance Z at frequency f is |Z|^2 / (5 f) up to eleven parts in 2^53, never negative, and zero exactly if Z is zero. The phases of all components except ExHx and ExHy are, for up to 2^20 periods, the angles of the impedances in degrees plus whole turns (none for the first period, at most k for period k), up to (k+1)^2 / 2^39 degrees, and from one period to the next no phase jumps by more than 180 + (k+4) / 2^39 degrees. The phases of ExHx and ExHy are between -180 and 180, both included, and are the angle plus 180 degrees up to whole turns and (k+1)^2 / 2^38 degrees; every negative angle of at most 2^-45 degrees gives exactly 180, while zero gives -180. Real and imaginary parts of different lengths are refused.",
  "all impedances and positive frequencies, up to 2^20 periods; every routine for absolute values, squares and angles that is exact up to a part in 2^52 or 1/2^51",
  "Unwrapping compares rounded jumps with half a turn, where one rounding error decides about a whole turn; tests use a few well separated phases.",
  ["resistics/transfunc.py:ImpedanceTensor", "resistics/transfunc.py:Component", "resistics/regression.py:Solution"])

p("The Fourier transform in floating point numbers",
  "With detrending, window function and transform computed in the number type of the windows (integers are detrended in double precision): the transform of windowed data succeeds as in exact arithmetic with the same channels, levels, windows and frequencies, and for a window function between -1 and 1 every coefficient of every level, window and channel is that of exact arithmetic up to four roundings and three times the inaccuracy of the library routines (mean, least squares line, transform), relative to the root of the sum of the squared samples of the window, offset and trend included. Of a constant window no more than that is left after detrending. Spectra that follow a transfer function in exact arithmetic follow it after the rounded transform up to the same bound for the output channel plus that of each input channel times its coefficient, which is the noise the accuracy of transfer functions depends on; with the rounded interpolation to evaluation frequencies, 33 roundings instead of four. So from samples whose exact spectra follow Z (as those that are fixed real coefficients times the input samples do) to the least squares solution, with every step rounded, the error is bounded by the sizes of samples and cross channels over the gain of the inputs.",
  "all windowed data of single or double precision, integers that are exact in double precision when detrended, all kinds of detrending, window functions between -1 and 1, transform lengths; every library with relative inaccuracy up to 1/16",
  "Rounding errors of every sample enter every coefficient; tests compare the spectra of a few sines with tolerances.",
  ["resistics/spectra.py:FourierTransform", "resistics/spectra.py:EvaluationFreqs", "resistics/regression.py:RegressionPreparerGathered", "resistics/regression.py:Solver"])

out = pathlib.Path(__file__).resolve().parent.parent / "properties.jsonl"
out.write_text("".join(json.dumps(x) + "\n" for x in P))
print(len(P))
