# A Lean 4 model of resistics/resistics

## Layout

* `lean/Verif/Model/*.lean`  – the model: total functions mirroring /repo function by function (each definition cites file and
  lines). Exceptions are values (`Except Err α`).
* `lean/Verif/Lemmas/*.lean` – helper lemmas used only by proofs.
* `lean/Verif/Props/*.lean`  – the property theorems `Cnn_…`, with their small specifications and a non-vacuity `example` beside
  each (`…Demo` modules hold the larger concrete cases).
* `MANIFEST.json` – property → theorem names (made by `tools/mkmanifest.py`); `properties.jsonl` is made by `tools/mkprops.py`.
* `AXIOMS.txt` – the axioms of every claimed theorem (made by `tools/mkaxioms.py`).
* `seeded/` – wrong-program experiments: `mutants*.json` (the edits), `results*.jsonl` (what failed), `LOG.jsonl` (the log).

| model | code | property theorems |
|---|---|---|
| `Sampling` | sampling.py | `Props/Sampling` C01–C04 |
| `Float64` | sampling.py, window.py in double precision | `Props/Float64` C56 |
| `DateText` | text form of date times, sampling.py | `Props/DateText` C47 |
| `NumPy` | the numpy and Python sequence operations used | – |
| `Time` | time.py: metadata, readers, processors | `TimeRead` C05–C06, `TimeProc` C21–C23, `TimePoint` C24–C26, C49 |
| `Decimate` | decimate.py | `Decimate` C16–C20 |
| `Window` | window.py | `Window` C07–C11, `Windower` C12–C15 |
| `Spectra` | spectra.py | `Spectra` C27, C28, C51, `Fourier` C53 |
| `Gather` | gather.py | `Gather` C29–C30, `GatherData` C31–C32 |
| `Regression` | regression.py | `Regression`, `RegressionSpectra` C33, `Solution` C34–C35, `Robust` C36 |
| `TransFunc` | transfunc.py | `TransFunc` C37, C52 |
| `History` | common.py histories, sharing of metadata between objects | `History`, `HistoryCalls`, `HistorySession` C38 |
| `Files` | the writers and readers of common.py, time.py, decimate.py, window.py, spectra.py | `Files`, `FilesRead`, `FilesCrash` C39–C40 |
| `Calibrate` | calibrate.py | `Calibrate` C41, `CalText` C42 |
| `Project` | project.py, creation and loading in letsgo.py | `Project*` C43–C45, C54 |
| `Registry` | process and transfer function registries | `Registry` C48 |
| `Process` | processing functions of letsgo.py | `Process` C45, `Evals` C55, `Linear`, `EndToEnd*` C50 |
| `Plot` | plot.py downsampling | `Plot` C46 |
| `Timestamps` | estimated timestamps, plots of time data | `Timestamps` C57 |
| `Show` | text and plots of transfer functions, transfunc.py | `Show` C61 |
| `Solvers` | the five solvers around scikit-learn, regression.py:753-1074 | `Solvers` C62 |
| `Default` | the default configuration, config.py:123-157 | `Default`, `DefaultDemo` C63 |
| `SpecPlot` | plots of spectra, spectra.py:177-368 with the pandas groupers they use | `SpecPlot` C64 |
| `Channels` | channel types and channel metadata, common.py (names), time.py (`ChanMetadata`, `TimeMetadata` queries, `get_time_metadata`) | `Channels` C65 |
| `Timeline` | tables and timelines of sites and projects, project.py:173-211, 316-331, plot.py:83-130 | `Timeline` C66 |
| `Environment` | sessions: `new`, `load`, `reload`, the processing calls of an environment, letsgo.py:69-89, 219-278, 650-808 | `Environment`, `EnvSession`, `EnvDemo` C67 |
| `Generated` | generated test data, testing.py:56-900 | `Generated` C68 |
| `Phase` | magnitudes, phases, `np.unwrap` and single frequencies of spectra, spectra.py:126-140 | `Phase` C69 |
| `Tables` | tables of decimation parameters and calibration data | `Tables` C70 |
| `Records` | records, histories, parameters of the time processors, rebuilding and replaying them | `Records` C71 |
| (all processes) | recordings with some of the channels | `Chosen`, `ChosenChain` C72 |
| `OneChan` | spectra of recordings with one channel: arrays without the axis of the channels | `OneChan` C73 |
| `FloatText` | texts of ints and doubles: `repr`, `float`, `json` | `FloatText` C74 |
| `Json` | `json.dumps` and `json.loads` | `Json` C75 |
| `MetaText` | the fields of all metadata classes and their validation from JSON | `MetaText`, `MetaFiles` C76 |
| `Memory` | arrays as cells of a memory: who shares samples with whom, mapped files | `Memory`, `MemorySession` C77 |
| `TextData` | recordings as text, character by character, time.py:997-1059, 1149-1182 | `TextData`, `TextFiles`, `TextDemo` C78 |
| `Setup64` | setup of decimation and windows with every operation rounded to double precision, decimate.py:21-101, 194-209, 369-494, window.py:888-1001, 1501-1532 | `Setup64`, `SetupLadder`, `SetupWindows` C79 (`Lemmas/Fl`: the nearest number of 53 bits) |
| `NumTypes` | the number type (`dtype`) of samples through the processors and the window function, time.py:550-577, 1331-1376, 1404-1580, 1647, 1717, 1799, 1879, 1963-1970, 2057-2063, 2231-2264, 2348-2353, spectra.py:539-542 | `NumTypes`, `NumMean`, `NumShift`, `NumLost`, `NumDemo` C80 |
| `CalChars` | calibration readers on the characters of a file, calibrate.py:189-219, 245-280, 315-426, 537-550 | `CalChars`, `CalCut`, `CalJson`, `CalTrip`, `CalDemo` C81 |
| `Parallel` | writers, project creation and saving of solutions as programs of system calls, processes that take turns, common.py:441-452, 920-930, letsgo.py:33-66, 802-808 | `Parallel`, `ParallelRun`, `ParallelRace` C82 |
| `Eval64` | evaluation frequencies and calibration interpolation in floating point numbers, spectra.py:656-753, calibrate.py:472-498 | `Eval64`, `Eval64Run` C83 |
| `Robust64` | residuals, median, quartiles, scaling, weights and the loop of weighted least squares in double precision, regression.py:1042-1138 | `Robust64` C84 |
| `Listing` | path checks and directory listings, iteration over sites and projects, common.py:26-198, project.py:132-148, 242-253 | `Order`, `OrderDemo` C85 |
| `Smooth64` | the smoothers with every operation rounded, spectra.py:847-975, and the filters of `scipy.ndimage` they call | `Smooth64`, `Smooth64Run` C86 |
| `Powers64` | cross powers with rounded complex products of both preparers, regression.py:165-608 | `Powers64`, `PowersSpectra64` C87 |
| `Cal64` | calibration with rounded interpolation, response and quotients, calibrate.py:439-535 | `Cal64`, `Cal64Run` C88 |
| (no new model: `Regression`, `Powers64`) | error bounds for the solution | `Accuracy`, `AccuracyRobust`, `AccuracyChain` C89 |
| `Phase64` | resistivity and phase with every operation rounded, transfunc.py:378-424, and `np.unwrap` | `Phase64` C90 |
| `Fourier64` | detrending, window function and transform in the number type of the windows, spectra.py:507-553 | `Fourier64`, `FourierEval64`, `FourierAccuracy` C91 |
| `Quick` | `quick_view`; quick processing against the project | `Quick` C58, `ProcessTime` C59, `Remote`/`RemoteDemo` C60 |

## Trusted base

* Lean 4.33.0's kernel; axioms at most `propext`, `Classical.choice`, `Quot.sound` (per theorem: `AXIOMS.txt`).  No own axioms,
  nothing that rests on compiled code.
* The reading of the Python source: the code is not run here; the model is tied to it only through the citations on each
  definition.
* Assumed of external code, by parameters and hypotheses of the theorems: SciPy filters and decimation (a function per row, output
  length; linear for C50), the fast Fourier transform (the finite sum that defines it, `Props/Fourier`), scikit-learn (a function
  from predictors, observations and weights to coefficients; "returns a least squares solution" where a theorem needs it), lttbc
  (its algorithm in exact arithmetic), attotime (exact arithmetic and the text of one format), pandas (lists of rows), pydantic
  1.8.2 (`copy()` is shallow; validation errors), numpy 1.21.2 (`Model/NumPy`), the parsing of numbers in calibration files.

### Global simplifications (apply to all modules)

* **Numbers.** Python floats are exact rationals, reals or complex numbers, except in `Model/Float64.lean` (binary64 rounding of the
  sampling and window arithmetic) and `Model/Plot.lean` (single precision coordinates).  NaN is `none` where the code
  distinguishes it; there is no overflow.
* **Datetimes** (`attotime`) are exact rational seconds since an arbitrary epoch; calendar fields only in `DateText`.
* **numpy arrays** are lists; dtype and memory layout are not modelled, views only in `Memory` (C77).  Where `np.squeeze` or broadcasting changes what the
  code does, the theorem says so.
* **Sharing.** Aliasing of metadata and histories is modelled in `History` (C38), aliasing of arrays in `Memory` (C77), which justifies treating arrays as values elsewhere.
* **File system** is a map from paths to directories and files with the list of all states passed through (crash points: before,
  in the middle of and after every file; directory by directory).  Other operating system errors and concurrent programs are not
  modelled.
* **Not modelled**: logging, layout and axes of figures, plots of spectra, pretty printing other than of transfer functions, progress
  bars, the testing module.

## Findings: where the code does not do what it says

Each is a theorem about the model of the code as it is (the property states the limit).

* C12 `np.squeeze` removes the channel axis for one channel, and the window axis for one window; zero overlap is refused.
* C13 `get_global` adds the offset instead of subtracting it.  C15 `WindowerTarget` stores the first time as reference time.
* C09 with large overlaps the search for the last window gives up although complete windows exist.
* C24 `ApplyFunction` returns uninitialised memory (`np.empty`) for channels not listed.  C26 `Notch` is wrong below 2 Hz.  C28 the Gaussian smoother ignores
  its sigma.
* C05 the ASCII reader returns a one-dimensional array for one channel; C40 the output of the ASCII writer cannot be read back, nor
  can a recording of one sample.
* C35 different channel pairs can share a component key; C31 a site named `combined_index` replaces the index.
* C38 several processes append their record to the history of their input, since the copy of the metadata is shallow.
* C40 interrupting an overwrite can leave old metadata with new arrays.
* C41 a level with one frequency and several windows is refused by broadcasting.
* C44 loading tests only the time directory.  C45 names with slashes, underscores or spaces can collide.
* C46 with more than 2^24 samples, plotted indices are rounded.  C47 years before 1000 cannot be read back.
* C48 a process dictionary cannot be validated twice; a process with a custom name cannot be rebuilt.
* C57 estimated timestamps drift by more than a sample at 65536 Hz after 1.2 s; plotting some channels raises `KeyError`, plotting
  reordered channels puts them under the wrong titles; more than ten levels cannot be plotted.
* C59 `process_time` without time processors onto the same numpy measurement destroys the recording: the reader maps the file
  (`mmap_mode="r"`), the writer truncates it before it takes the samples.
* C58 when a time data processor changes the sampling frequency, `process_evals_to_tf` labels the transfer function with frequencies
  too large by the ratio (`C58_wrong_frequencies`); asking for the processed sampling frequency raises `ValueError`.
* C61 the phase plotted for `ExHx` and `ExHy` is that of the impedance with opposite sign; tipper angles are wrong by 180 degrees when
  the x component is negative.
* C62 the Huber solver takes no notice of `fit_intercept` and `normalize` and always fits an intercept with a penalty of 0.0001;
  the RANSAC solver has no solution when an output channel is dead, and a Theil-Sen solver with a proportion of subsamples has none
  when a single evaluation frequency has too few windows, because one failed regression discards all others.
* C62 the Theil-Sen solver (the default) draws samples of four equations for an impedance tensor; those with three equations of one
  window never determine it (`C62_same_window`), so exact data are returned only if more than half of the samples drawn determine it.
* C63 the default configuration needs 608 samples and 1.2 seconds to be sure of a result, 512 samples and a second at least.
* C64 plots of spectra fail (StopIteration) for more than ten levels or groups, counting empty groups; sections fail for one channel, for a group without windows and for a mean of zero, and their colour scale is upside down when no power of ten lies between the values.
* C65 a channel that is renamed keeps the type of its old name; channel metadata without name and type raise `KeyError` instead of a validation error; `get_time_metadata` keeps a wrong `n_chans`.
* C66 the time axis of a project timeline is widened only by an early reference time, a late one is drawn out of view.
* C67 a recording stored by `process_time` is unknown to the environment until `reload`; `process_time_to_evals` for it raises before that.
* C68 generated metadata use periods of whole nanoseconds: where the period is rounded down (3 Hz), selecting up to the last time misses the last sample; `spectra_metadata_multilevel` divides the sampling frequency cumulatively (128, 64, 16, 2), not by two per level.
* C69 `get_freq` drops axes of size one, so that its result cannot be told apart for one channel and for one window.
* C70 `CalibrationData` keep a number of samples that contradicts their lists.
* C71 `ResisticsProcess.validate` takes the name out of the dictionary it is given, so that rebuilding a process from a record of a history damages the history; a processor named after another class is rebuilt as that class; an `ApplyFunction` whose function has no description raises after it has computed its result.
* C73 with one channel the windower's squeeze removes the axis of the channels: `SpectraData.get_chan` silently returns the first window only, calibration and plots raise `IndexError`.
* C75 (no defect) writing metadata is not atomic, but an interrupted metadata file is always refused when it is read.
* C76 spectra metadata are accepted as windowed metadata, and windowed or spectra metadata in the place of the project file as those of a project without a description; metadata without `chans` and `n_chans` are a `KeyError` inside a validator, which the reader turns into a `MetadataReadError`, while without `chans` alone they are a `ValidationError` (`ValueError`).
* C77 level 0 of decimated data (and further levels while the increment is one) is the array of the recording: setting a channel of the recording afterwards changes these levels but not the later ones; windows are writeable views that overlap, so writing into one window changes its neighbours and the recording; a recording read by the numpy reader changes when its file is rewritten.
* C78 a blank or comment line between the samples of a text recording is counted while skipping: samples behind it come one too early and a range with it has one sample fewer than its metadata say; the ASCII reader keeps single precision only, the numpy reader doubles; what the ASCII writer stores of several channels (a file each) the ASCII reader reads without complaint as the first channel alone, in one dimension.
* C79 with a division factor that is not a power of two the rounded sampling frequencies matter: a frequency of `fs / 36` is put on a level decimated by 3 instead of 9 (factor 3, 1000 Hz), a level decimated by 49 has a sampling frequency just below its whole number and windows one sample shorter; an overlap proportion of 0.29 of 100 samples is 28
* C80 amounts per channel of `Add` and `Multiply` are stored in an array of the type of the data: for integer data a factor below one turns the channel into zeros, while the same factor as one number for all channels is right; filters of integer data cut their result towards zero, the window function is cut to zeros and ones when integer data are not detrended; `ShiftTimestamps` computes positions in the type of the data: in single precision the shift is lost from sample 2^23 on although the metadata say the samples were shifted, beyond 2^24 samples are repeated, and integer data with more samples than the integers can count raise `ValueError`
* C81 a text calibration file that was cut off between two rows, or inside the last number of a row, is read without complaint (`C81_cut_is_read`, `C81_cut_in_number`); an interrupted JSON file counts as missing and the channel stays uncalibrated (`C81_interrupted_is_missing`); a phase unit other than exactly `degrees` – `Degrees`, `deg` – is taken for radians (Props/CalDemo).
* C82 `overwrite=False` looks three times: two processes writing to the same new directory may both return normally and one replaces the other's files (`C82_overwrite_race`); two processes creating a project in the same directory may both return normally and leave a project file that cannot be loaded (`C82_project_race`, `C82_project_lost`); of two processes saving solutions to a new directory one may raise FileExistsError and its solution is lost (`C82_solution_race`).
* C84 `bisquare` gives weights above one to scaled residuals below minus the threshold (example in `Robust64`); the solver does not use it.
* C85 with overlapping measurements of a site the transfer function depends on the order in which the file system lists the measurements (`C85_overlap_order_matters`); `dir_files` lists hidden files although its documentation excludes them.
* C86 the uniform smoother is a running mean: a coefficient of 2^60 is followed by zeros instead of ones, even when the smoother has a length of one (`C86_large_value_erases`).
* C87 `QuickGather` keeps the precision of the spectra, so that cross powers of weak single precision signals underflow to zero (`C87_weak_signals_vanish`); `ProjectGather` stores double precision.
* C88 complex quotients go through a rounded reciprocal: 49 divided by 49 is `1 - 2^-53` (example in `Cal64Run`).
* C90 phases of `ExHx` and `ExHy` just below zero degrees become exactly 180, those of zero -180 (`C90_both_ends`).
* C56 a requested time range can lose a sample at either end, and the same window of two recordings can be one sample apart,
  because of rounding errors at common sampling frequencies (25, 50, 100, 200, 250, 500, 1000 Hz).

## Plan per property

* **C01 Sample <-> datetime round trip** – Model sampling.py over ℚ incl. the to_timedelta truncation; prove round trip when 1/fs is representable, exact characterisation (off by one) when truncated. Double precision: C56.
* **C02 Time bounds select exactly the enclosed samples** – Spec: IsFirstAtOrAfter / IsLastAtOrBefore over sample times; prove for all from/to.
* **C03 Out of range requests are clamped or refused, never wrapped** – Same model; clamping/error theorem and range theorem.
* **C04 Number of samples is inclusive and consistent with timestamps** – to_n_samples inverse of span for each method; adjust_time_metadata invariant; datetime_array.
* **C05 Reading part of a recording returns exactly the requested samples** – Model _get_read_samples with 4 options; numpy/ascii reader as list slice; spec on list indices and timestamps.
* **C06 Subsection keeps data and timestamps aligned and composes** – Subsection as list slice; composition theorem by extensionality on (timestamp,value) lists.
* **C07 Windows lie inside the recording** – Exact ℚ floor/ceil arithmetic on get_first_and_last_win + get_win_table.
* **C08 Windows are consecutive and overlap by exactly overlap_size** – List-level theorem on the table.
* **C09 No complete window is lost** – Maximality theorem; success condition; counterexample witnesses for large overlaps.
* **C10 Global windows align across recordings** – Corollary: start sample time within one sample of the window time; equality on common grid.
* **C11 Global window index <-> time** – Floor/ceil arithmetic.
* **C12 Windowed data are slices of the decimated data** – Model sliding_window_view + strided slice; element-wise theorem.
* **C13 A window can be fetched by local or by global index** – Code violates it (offset is added): negation with witness, holds iff offset = 0.
* **C14 Window parameters are complete and legal for every level** – List maps; hypothesis-free length/min theorems; olap<win under stated condition plus counterexample.
* **C15 Target windowing respects its minimum and stores the right reference time** – Arithmetic; negation for stored reference time.
* **C16 Evaluation frequencies are the complete half-octave ladder** – Abstract ratio: squares of the frequencies are fs²/16/2^(i) so the ladder is compared exactly in squared form; termination by fuel bound.
* **C17 Decimation factor is the largest safe power of the division factor** – Well-founded loop; greatest power theorem; monotonicity.
* **C18 Decimation parameters are self consistent** – Products by induction; counterexample for user-ordered frequencies.
* **C19 Every evaluation frequency belongs to exactly one level and index** – Index bijection.
* **C20 Decimation produces a gap-free pyramid of levels** – Recursion over levels with abstract decimation step.
* **C21 Downsampling in stages equals the requested factor** – Greedy grouping; product invariant; bound when all primes small; counterexample otherwise.
* **C22 Prime factorisation is correct** – Trial division loop invariant; Nat.Prime. The code bounds the loop with `int(np.sqrt(n))`, a rounded square root: `Props/Factor64.lean` proves the same for every square root that is accurate to rounding, so the exact root of the model is no simplification.
* **C23 Time processors keep data and metadata consistent** – Inductive processor language; invariant by induction over the chain.
* **C24 Pointwise processors act per channel and per sample as documented** – List models of each processor; NaN as none.
* **C25 Shifting timestamps interpolates on the new grid** – Linear interpolation on lists.
* **C26 Filters refuse cutoffs at or above what the sampling allows** – Guards of the filters; Notch violates: negation witnesses.
* **C27 Spectra are evaluated at the requested frequencies by linear interpolation** – np.interp model; linear interpolation theorems.
* **C28 Spectral smoothing windows are odd and positive** – Arithmetic.
* **C29 Site windows: each global window maps to one measurement that holds it** – Fold/duplicate removal/sort model; membership, order, first-holder theorem.
* **C30 Selection is exactly the set of windows common to all sites** – Set theorem on join of tables.
* **C31 Gathered rows refer to the same window at all sites** – Gather model with explicit uninitialised cells; every cell filled with the right value.
* **C32 Quick gathering agrees with single-site project gathering** – Relational theorem between two models.
* **C33 Regression rows are the cross-power equations** – Matrix rows over a complex model (Gaussian-like pairs over a field); iff theorem.
* **C34 Solution assembly and lookup are inverse** – Association list model.
* **C35 Distinct channel pairs have distinct component keys** – Negation witness; injectivity for equal-length names.
* **C36 Robust weights are valid weights** – Real/ordered-field inequalities.
* **C37 Transfer function definitions are completed consistently** – Defaults; field algebra.
* **C38 Processing history is append-only and input data is not modified** – Heap model with references for shallow copies; frame theorems and negation witnesses.
* **C39 Writers never replace existing output unless allowed** – Abstract file system.
* **C40 Written data read back unchanged** – Abstract file system; Nat.repr/parse round trip for level keys.
* **C41 Calibration changes only what it should** – List model with reader outcomes as Except.
* **C42 Calibration text files are parsed up to the first blank line** – Line list model.
* **C43 Concurrent sites are those overlapping in time** – Interval logic.
* **C44 Project creation and loading** – File tree model with a step list for crash points; _check_subdirs bug as negation.
* **C45 Project paths are unambiguous** – Path lists injectivity; solution name injectivity conditions and collisions.
* **C46 Plot downsampling keeps end points and never grows** – Guards; the buckets of the lttb algorithm; single precision coordinates.
* **C47 High resolution datetimes survive serialisation** – Calendar fields with digit groups; days before a year; instants.
* **C48 Processes are rebuilt as the class they were saved as** – Registry as association list.
* **C49 Channel and level access never returns the wrong item** – List lookup theorems.
* **C50 End to end: exact linear data are recovered** – Module-linear-map composition theorem across the model stages.
* **C51 Fourier transform: grid, shape, timestamps** – `rfftfreq` grid and metadata; list shapes.
* **C52 Phases** – `unwrap` as a fold over real angles; angle of a complex number.
* **C53 A row is detrended and transformed as documented** – The finite Fourier sum; orthogonality of roots of unity; normal equations.
* **C54 Project and site queries** – Lists of sites and measurements.
* **C55 Stored evaluation data** – File system model with crash points; frames per measurement; fold over measurements.
* **C56 What double precision changes** – Relative error bounds through every operation; witnesses by kernel computation.
* **C57 Estimated timestamps and plots** – Nanosecond rounding as floor and round; figures as titles and lines.
* **C58 Quick processing** – The run of one measurement through the project (C55, C31, C32) composed and compared with `quick_tf`; the calibrator and the linear chain (C50) meet the hypotheses; two concrete runs.
* **C59 Processing time data** – `process_time` as read, processors, numpy writer on the file system of C39/C40; the loaded project (C44) in every state of the trace; a concrete run.
* **C60 Transfer functions between sites** – `process_evals_to_tf` over the stored data: selection (C30), gathering (C31), regression rows (C33) composed for arbitrary output, input and cross sites of a project with arbitrary other files; the times of stored windows from decimation (C20), window tables (C10) and the Fourier transform (C51); recovery of the impedances with a remote reference, from stored data and from recordings; a concrete two site run.
* **C61 Displayed transfer functions** – Text as strings with lengths and columns, parsed back; figures as lists of lines with the state left after an exception; trigonometry of `arctan`.
* **C62 Solvers** – scikit-learn as a parameter with specifications of its four estimators; least squares geometry (parallelogram identity, dimension count), Huber loss bounds, spatial medians by the triangle inequality; a model of the specifications by choice.
* **C63 Default configuration** – the defaults of the setups composed: exact arithmetic of half octaves and powers of two, ceilings of repeated division, five windows in the window table (C09), then C12, C51, C27 and the end-to-end theorems with the majority theorem of C62; a concrete recording.
* **C64 Plots of spectra** – the groupers of pandas as floors of times, partition of the windows by monotone floors, means as sums over the partition; lines by C46; ends of the colour scale as ceiling and floor of least and greatest value.
* **C65 Channel types and metadata** – specification by an inductive relation on names; filters over the channels with lookups in the dictionary of metadata.
* **C66 Tables and timelines** – rows related to measurements one by one, uniqueness from C44; least and greatest times; the margin by the error bounds of C57.
* **C67 Sessions with a project** – events as an inductive relation between environments and disks (a call is cut at any state of its trace); frame of every call by C39/C45/C59, induction over the session; determinism by locality of readers.
* **C68 Generated test data** – one lemma for the shape of all generators over the metadata; rounding bounds of C57; shifting by C25; sines with Mathlib's `Real.sin` (floating-point error of `numpy.sin` not modelled, number formats as any function).
* **C69 Magnitudes, phases and single frequencies** – `np.unwrap` as a recursion along the row; whole turns and steps of at most half a turn by induction, uniqueness from both; polar form by Mathlib's `Complex.arg`.
* **C70 Tables** – reshaping against the getters of C19, sizes of a setup from C18, text files from C42.
* **C71 Records** – the time processors as classes of the registry of C48 with pydantic's checks; per class, what is written passes the checks and decodes to the same parameters; induction over the sequence of processors.
* **C72 Channels** – every process commutes with choosing channels (a list of different positions): per process from its model, induction over the processors and the levels; then gathering looks up the same rows, so the solutions are equal.
* **C73 One channel** – models of the processes on arrays with two axes; each commutes with taking the rows of one channel; the failures are computed from the models.
* **C74 Numbers in text** – a double is an integer of at most 53 bits times a power of two (spec `IsDouble`); rounding to nearest is proved optimal; the shortest decimal is searched as CPython does, and 17 digits always suffice.
* **C75 JSON text** – writer and parser character by character; round trip by mutual induction over values, interruption by showing that a parse of a beginning would extend to the whole text.
* **C76 metadata files** – each class as a record with its writer to JSON and its validation from the fields of a JSON dictionary (pydantic v1: required fields, defaults, validators in order, unknown fields ignored); round trip per class composed with C75; coercions of other JSON types are parameters of the reader.
* **C77 sharing of samples** – objects with cells instead of numbers and a memory (allocated numbers, arrays in files); each operation refines the one on values, its result is new or the very array given, writes change the cells named; windowing is natural in the type of the samples, hence views; refinement over histories of calls by an invariant (all time data apart, levels either the recording's array or apart from all time data).
* **C78 recordings as text** – numbers, words, lines and files specified by grammars, `float`, `split`, universal newlines and `np.loadtxt`/`np.savetxt` by functions on characters; reading is equivalent to the grammar; whole recordings by reduction to the reader of tables (C05); single precision as nearest number with 24 bits.
* **C79 setup in double precision** – every operation of the setup rounded by `fl` (no overflow, no subnormals), `np.power(2, i / 2)` a parameter assumed exact for whole powers and correct to the last place otherwise (`PowOk`, met by a concrete function); `fl` proved nearest and monotone; equality with the exact model for powers of two, so C14–C18 and C63 carry over, error bounds otherwise
* **C80 number types** – types as signed integers of so many bits, single and double precision; storing (`astype`, assignment) and arithmetic as functions on the exact result (cut towards zero, wrap around, nearest number); numbers outside the integers and the order of summation are parameters; types of results by cases over the processors, induction over chains; errors from the distance to the nearest number, induction over the tree of additions for the mean, sorted positions and their segment for the shift
* **C81 calibration files** – characters to lines to words to doubles (C78 numbers); tables as permutations of the written rows in order; the metadata depend only on the lines that name something, and rows name nothing, so files with the same header can be exchanged row by row (cut files, other orders); JSON through C75/C76; a listing of any calibration data is read back by following each line.
* **C82 several processes** – every system call (stat, mkdir, open, write) is one atomic step; what others do in between is anything within a rely condition; rely–guarantee composition for any set of processes by induction on the schedule, the promises of each program by induction on its files, parent directories and writes; races by explicit schedules of arbitrary jobs. Not modelled: removal of files (the code never does it), rights, full disks, links, buffers inside one write (a write may be split into any list of writes), system calls that are not atomic.
* **C83 evaluation and calibration in floating point** – `np.interp` with every operation rounded (`fl`); the rounded position stays between the two bins because `fl (1 + 2^-53) = 1` and rounding is monotone; the portion is exact (a double minus its whole part), then cast to the type of the spectra; error bounds by factors `1 + e`; the run as in C27.
* **C84 robust weights in double precision** – the percentiles of NumPy (`_lerp` from both sides) stay between their neighbours, hence the quartiles are in order and the scale is positive; the rule for the weights, monotonicity and the half that is kept follow from monotone rounding; the loop by induction on the number of iterations.
* **C85 order of listings** – two listings of one file system are permutations of one another; loading gives projects whose dictionaries are permutations, and every function of a project is shown to respect them; the window tables are sorted lists, so equal when they have the same members.
* **C86 smoothing in floating point** – induction over the running mean with an error bound that grows with the position; the first sum by induction over its terms; the Gaussian filter by induction over the distances; runs as in C28.
* **C87 cross powers in floating point** – rounding errors of the two parts of a product; the rows of the equations as in C33 with the rounded cross powers; the residual of exact data by the triangle inequality. The preparer for spectra and the one for gathered data agree as in C33, with the number type of each level.
* **C88 calibration in floating point** – relative errors of ratio, reciprocal and numerators give a bound in parts and in norm; response by the triangle inequality and `‖e^{ia} − e^{ib}‖ ≤ |a − b|`; the run as in C41 with the rounded quotients.
* **C89 accuracy** – the list equations of C33 and C87 as a least squares problem in a complex Euclidean space: Pythagoras for a least residual, triangle inequality for a nearly least one; Cauchy–Schwarz for the rounding of the gain; the gain of independent inputs from an injective linear map of finite dimension. The weighted solver through C36 and C62: its result is a least fit of the kept real equations. Noise in the samples of a recording: the relation "inputs times z plus noise" is a linear relation between channels, which the chain of C50 keeps.
* **C90 resistivity and phase in floating point** – relative errors multiply along the products; a correction of `np.unwrap` is a whole number of turns up to 1/2^48, by cases of the sign of the jump and of the remainder; accumulated by induction over the periods; degrees by the distance of `np.pi` from π.
* **C91 Fourier transform in floating point** – sizes of rows are Euclidean norms: the transform does not enlarge them (Cauchy–Schwarz), nor does detrending (least squares); rounding errors of mean, difference, window function and product by the triangle inequality; the run by C51 twice, exact and rounded; then through evaluation (C83) and cross powers (C87) to the least squares solution by C89.
