import Mathlib.Analysis.SpecialFunctions.Trigonometric.Basic
import Verif.Model.Channels
import Verif.Model.Default
import Verif.Model.Timestamps

/-!
# Model of /repo/resistics/testing.py: generated recordings, decimated data, spectra and solutions

The text of a time is given by the time it denotes, in a form that pandas reads.  Sampling frequencies are positive or zero and numbers
of samples are at least zero.  `cast` is the conversion of a value to the number format asked for.
-/

namespace Resistics

/-! ## Time metadata -/

/-- The time dictionaries at /repo/resistics/testing.py:76-84, 115-123 and 160-169: the last time is the first plus a number of sampling
periods, each of them a whole number of nanoseconds. -/
def genTimeMeta (chans : List String) (fs : ℚ) (first : DateTime) (n : ℕ) : Except Err TimeMeta := do
  let r ← pyRecip fs
  return { fs := fs, chans := chans, nSamples := n, firstTime := pandasTime first,
           lastTime := pandasTime first + pandasDelta r * ((n : ℚ) - 1) }

/-- /repo/resistics/testing.py:56-92 `time_metadata_1chan`, without the metadata of the channel. -/
def timeMetadata1chan (fs : ℚ) (first : DateTime) (n : ℕ) : Except Err TimeMeta := genTimeMeta ["chan1"] fs first n

/-- /repo/resistics/testing.py:95-137 `time_metadata_2chan`, without the metadata of the channels. -/
def timeMetadata2chan (fs : ℚ) (first : DateTime) (n : ℕ) : Except Err TimeMeta := genTimeMeta ["chan1", "chan2"] fs first n

/-- /repo/resistics/testing.py:140-176 `time_metadata_mt`, without the metadata of the channels. -/
def timeMetadataMt (fs : ℚ) (first : DateTime) (n : ℕ) : Except Err TimeMeta := genTimeMeta ["Ex", "Ey", "Hx", "Hy"] fs first n

/-- /repo/resistics/testing.py:77-92: the metadata of the channel of `time_metadata_1chan`. -/
def timeInfo1chan : Except Err TimeInfo :=
  getTimeInfo (some ["chan1"]) (some 1)
    [("chan1", { name := some "chan1", chanType := some "electric", dataFiles := .one "example1.ascii" })]

/-- /repo/resistics/testing.py:116-137: the metadata of the channels of `time_metadata_2chan`. -/
def timeInfo2chan : Except Err TimeInfo :=
  getTimeInfo (some ["chan1", "chan2"]) (some 2)
    [("chan1", { name := some "chan1", chanType := some "electric", dataFiles := .one "example1.ascii" }),
     ("chan2", { name := some "chan2", chanType := some "magnetic", dataFiles := .one "example2.ascii" })]

/-- /repo/resistics/testing.py:161-176: the metadata of the channels of `time_metadata_mt`. -/
def timeInfoMt : Except Err TimeInfo :=
  getTimeInfo (some ["Ex", "Ey", "Hx", "Hy"]) (some 4)
    [("Ex", { name := some "Ex", dataFiles := .one "Ex.ascii" }), ("Ey", { name := some "Ey", dataFiles := .one "Ex.ascii" }),
     ("Hx", { name := some "Hx", dataFiles := .one "Ex.ascii" }), ("Hy", { name := some "Hy", dataFiles := .one "Ex.ascii" })]

/-! ## Time data -/

/-- `metadata.history.add_record(record)` and `TimeData(metadata, data)`. -/
def genTimeData {V : Type} (name : String) (md : TimeMeta) (data : List (List V)) : TimeData V :=
  { md := { md with history := md.history ++ [name] }, data := data }

/-- /repo/resistics/testing.py:179-217 `time_data_ones`. -/
def timeDataOnes (cast : ℚ → ℚ) (fs : ℚ) (first : DateTime) (n : ℕ) : Except Err (TimeData ℚ) := do
  let md ← timeMetadataMt fs first n
  return genTimeData "time_data_ones" md (List.replicate md.chans.length (List.replicate n (cast 1)))

/-- The values at /repo/resistics/testing.py:244-252. -/
def simpleValues : List (List ℚ) :=
  [[1, 1, 1, 0, 0, 0, 1, 1, 1, 0, 0, 0, 0, 0, 1, 1],
   [1, 2, 3, 4, 5, 6, 7, 8, 9, 1, 2, 3, 4, 5, 6, 7],
   [1, 2, 3, 5, 1, 2, 3, 4, 2, 6, 7, 6, 5, 4, 3, 2],
   [2, 0, 0, 1, 2, 3, 0, 0, 0, 0, 0, 1, 3, 3, 3, 3]]

/-- /repo/resistics/testing.py:220-259 `time_data_simple`. -/
def timeDataSimple (cast : ℚ → ℚ) (fs : ℚ) (first : DateTime) : Except Err (TimeData ℚ) := do
  let md ← timeMetadataMt fs first (shape1 simpleValues)
  return genTimeData "time_data_simple" md (simpleValues.map fun row => row.map cast)

/-- The values at /repo/resistics/testing.py:286-294; `none` is `nan`. -/
def nanValues : List (List (Option ℚ)) :=
  [[some 1, some 1, some 1, some 0, none, some 0, some 1, some 1, some 1, none, some 0, some 0, some 0, some 0, some 1, some 1],
   [some 1, some 2, none, none, some 5, some 6, none, some 8, some 9, some 1, some 2, some 3, some 4, some 5, some 6, some 7],
   [none, some 2, some 3, some 5, some 1, some 2, some 3, some 4, some 2, some 6, some 7, none, none, some 4, some 3, some 2],
   [some 2, some 0, some 0, some 1, some 2, some 3, none, none, none, some 0, some 0, some 1, some 3, some 3, some 3, some 3]]

/-- /repo/resistics/testing.py:262-301 `time_data_with_nans`. -/
def timeDataWithNans (cast : ℚ → ℚ) (fs : ℚ) (first : DateTime) : Except Err (TimeData (Option ℚ)) := do
  let md ← timeMetadataMt fs first (shape1 nanValues)
  return genTimeData "time_data_with_nans" md (nanValues.map fun row => row.map fun v => v.map cast)

/-- `np.arange(n)` in a number format. -/
def arangeRow (cast : ℚ → ℚ) (n : ℕ) : List ℚ := (List.range n).map fun (i : ℕ) => cast (i : ℚ)

/-- /repo/resistics/testing.py:304-344 `time_data_linear`. -/
def timeDataLinear (cast : ℚ → ℚ) (fs : ℚ) (first : DateTime) (n : ℕ) : Except Err (TimeData ℚ) := do
  let md ← timeMetadataMt fs first n
  return genTimeData "time_data_linear" md (List.replicate md.chans.length (arangeRow cast n))

/-- /repo/resistics/testing.py:347-385 `time_data_random`: `draw c i` is the value drawn for row `c` and sample `i`. -/
def timeDataRandom (draw : ℕ → ℕ → ℚ) (cast : ℚ → ℚ) (fs : ℚ) (first : DateTime) (n : ℕ) : Except Err (TimeData ℚ) := do
  let md ← timeMetadataMt fs first n
  return genTimeData "time_data_random" md
    ((List.range md.chans.length).map fun c => (List.range n).map fun i => cast (draw c i))

/-- `np.sin(times * 2 * np.pi * freq)` for one sample, `times = np.arange(0, n_samples) * (1 / fs)`.  Simplification: exact arithmetic. -/
noncomputable def sineAt (fs freq : ℚ) (i : ℕ) : ℝ := Real.sin ((i : ℝ) * (1 / (fs : ℝ)) * 2 * Real.pi * (freq : ℝ))

/-- One sample of /repo/resistics/testing.py:419-422: the sum is converted after each frequency. -/
noncomputable def periodicAt (cast : ℝ → ℝ) (freqs : List ℚ) (fs : ℚ) (i : ℕ) : ℝ :=
  freqs.foldl (fun acc freq => cast (acc + sineAt fs freq i)) 0

/-- /repo/resistics/testing.py:388-433 `time_data_periodic`. -/
noncomputable def timeDataPeriodic (cast : ℝ → ℝ) (freqs : List ℚ) (fs : ℚ) (first : DateTime) (n : ℕ) : Except Err (TimeData ℝ) := do
  let md ← timeMetadata1chan fs first n
  return genTimeData "time_data_periodic" md [(List.range n).map (periodicAt cast freqs fs)]

/-- /repo/resistics/testing.py:436-479 `time_data_with_offset` for an offset of at least zero; the data are integers whatever the format
asked for. -/
def timeDataWithOffset (offset fs : ℚ) (first : DateTime) (n : ℕ) : Except Err (TimeData ℚ) := do
  let md ← timeMetadata1chan fs (pandasTime first + pandasDelta offset) n
  return genTimeData "time_data_with_offset" md [arangeRow id n]

/-! ## Decimated data -/

/-- The body of the loop at /repo/resistics/testing.py:521-534.  A sampling frequency of zero gives an infinite duration, which cannot be
converted. -/
def genLevelMeta (fs : ℚ) (first : DateTime) (n nLevels factor ilevel : ℕ) : Except Err LevelMeta :=
  if fs * (factor ^ (nLevels - 1 - ilevel) : ℕ) = 0 then .error .other
  else .ok {
    fs := fs * (factor ^ (nLevels - 1 - ilevel) : ℕ)
    nSamples := (n * factor ^ (nLevels - 1 - ilevel) : ℕ)
    firstTime := pandasTime first
    lastTime := pandasTime first +
      toTimedelta ((((n * factor ^ (nLevels - 1 - ilevel) : ℕ) : ℚ) - 1) * 1 / (fs * (factor ^ (nLevels - 1 - ilevel) : ℕ))) }

/-- /repo/resistics/testing.py:482-544 `decimated_metadata`. -/
def decimatedMetadata (fs : ℚ) (first : DateTime) (n nLevels factor : ℕ) : Except Err DecMeta := do
  let levels ← (List.range nLevels).mapM (genLevelMeta fs first n nLevels factor)
  let l0 ← pyIndex levels 0
  let md ← timeMetadata2chan l0.fs first l0.nSamples.toNat
  return { fs := levels.map (·.fs), chans := md.chans, nLevels := nLevels, firstTime := md.firstTime, lastTime := md.lastTime,
           levels := levels, history := md.history }

/-- The body of the loops at /repo/resistics/testing.py:579-581, 625-628 and 675-687. -/
def genDecLevel {V : Type} (md : DecMeta) (values : ℕ → LevelMeta → Except Err (List (List V))) (ilevel : ℕ) :
    Except Err (ℕ × List (List V)) := do
  let lm ← pyIndex md.levels ((ilevel : ℕ) : ℤ)
  let rows ← values ilevel lm
  return (ilevel, rows)

/-- `metadata.history.add_record(record)` and `DecimatedData(metadata, data)`, where the values of each level come from its metadata. -/
def genDecData {V : Type} (name : String) (md : DecMeta) (values : ℕ → LevelMeta → Except Err (List (List V))) :
    Except Err (DecData V) := do
  let data ← (List.range md.nLevels).mapM (genDecLevel md values)
  return { md := { md with history := md.history ++ [name] }, data := data }

/-- /repo/resistics/testing.py:547-590 `decimated_data_random`: `draw l c i` is the value drawn for level `l`, row `c` and sample `i`. -/
def decimatedDataRandom (draw : ℕ → ℕ → ℕ → ℚ) (fs : ℚ) (first : DateTime) (n nLevels factor : ℕ) : Except Err (DecData ℚ) := do
  let md ← decimatedMetadata fs first n nLevels factor
  genDecData "decimated_data_random" md fun ilevel lm =>
    .ok ((List.range md.chans.length).map fun c => (List.range lm.nSamples.toNat).map (draw ilevel c))

/-- /repo/resistics/testing.py:593-637 `decimated_data_linear`. -/
def decimatedDataLinear (fs : ℚ) (first : DateTime) (n nLevels factor : ℕ) : Except Err (DecData ℚ) := do
  let md ← decimatedMetadata fs first n nLevels factor
  genDecData "decimated_data_linear" md fun _ lm =>
    .ok [arangeRow id lm.nSamples.toNat, (arangeRow id lm.nSamples.toNat).map fun v => -1 * v]

/-- The frequencies left at /repo/resistics/testing.py:682-684. -/
def keptFreqs (levelFs : ℚ) (freqs : List ℚ) : List ℚ := freqs.filter fun f => ¬ levelFs / 2 < f

/-- /repo/resistics/testing.py:678-686: the values of one channel. -/
noncomputable def periodicChan (freqs : List (String × List ℚ)) (lm : LevelMeta) (chan : String) : Except Err (List ℝ) := do
  let l ← dictGet freqs chan
  return (List.range lm.nSamples.toNat).map (periodicAt id (keptFreqs lm.fs l) lm.fs)

/-- /repo/resistics/testing.py:640-696 `decimated_data_periodic`. -/
noncomputable def decimatedDataPeriodic (freqs : List (String × List ℚ)) (fs : ℚ) (first : DateTime) (n nLevels factor : ℕ) :
    Except Err (DecData ℝ) := do
  let md ← decimatedMetadata fs first n nLevels factor
  genDecData "decimated_data_periodic" md fun _ lm => md.chans.mapM (periodicChan freqs lm)

/-! ## Spectra -/

/-- An argument that is one number for all levels or a list. -/
inductive PerLevel where
  | one (k : ℤ)
  | many (l : List ℤ)
  deriving DecidableEq, Repr

/-- /repo/resistics/testing.py:733-736. -/
def PerLevel.expand (nLevels : ℕ) : PerLevel → List ℤ
  | .one k => List.replicate nLevels k
  | .many l => l

/-- The loop at /repo/resistics/testing.py:740-754 over the levels from `ilevel` on; the sampling frequency is divided again and again. -/
def genSpecLevels (nWins : List ℤ) : List ℤ → ℕ → ℚ → Except Err (List SpecLevelMeta)
  | [], _, _ => .ok []
  | offset :: rest, ilevel, fs => do
      let w ← pyIndex nWins (ilevel : ℤ)
      let tail ← genSpecLevels nWins rest (ilevel + 1) (fs / (2 ^ ilevel : ℕ))
      return { fs := fs / (2 ^ ilevel : ℕ), nWins := w, winSize := 20, olapSize := 5, indexOffset := offset, nFreqs := 2,
               freqs := [fs / (2 ^ ilevel : ℕ) / 4, fs / (2 ^ ilevel : ℕ) / 8] } :: tail

/-- /repo/resistics/testing.py:756-759. -/
def genSpecChans (given : List String) : Option (List String) → Except Err (List String)
  | none => .ok given
  | some l => if l.length ≠ 2 then .error .value else .ok l

/-- /repo/resistics/testing.py:699-764 `spectra_metadata_multilevel`; `start` is the default first time of `time_metadata_2chan`. -/
def spectraMetadataMultilevel (start : DateTime) (fs : ℚ) (nLevels : ℕ) (nWins indexOffset : PerLevel) (chans : Option (List String)) :
    Except Err SpecMeta := do
  let levels ← genSpecLevels (nWins.expand nLevels) ((indexOffset.expand nLevels).take nLevels) 0 fs
  let md ← timeMetadata2chan 10 start 11
  let chans ← genSpecChans md.chans chans
  return { fs := levels.map (·.fs), chans := chans, nLevels := levels.length, firstTime := md.firstTime, lastTime := md.lastTime,
           levels := levels, refTime := md.firstTime, history := md.history }

/-- The values at /repo/resistics/testing.py:779-784, real and imaginary parts. -/
def basicSpectra : SpecArr (ℚ × ℚ) :=
  [[[(0, 0), (1, 1), (2, 2), (3, 3), (4, 4), (5, 5), (6, 6), (7, 7), (8, 8), (9, 9)]],
   [[(-1, 1), (0, 2), (1, 3), (2, 4), (3, 5), (4, 6), (5, 7), (6, 8), (7, 9), (8, 10)]]]

/-- The metadata at /repo/resistics/testing.py:786-795. -/
def basicSpecLevel : SpecLevelMeta where
  fs := 180
  nWins := 2
  winSize := 20
  olapSize := 5
  indexOffset := 0
  nFreqs := 10
  freqs := [0, 10, 20, 30, 40, 50, 60, 70, 80, 90]

/-- /repo/resistics/testing.py:767-807 `spectra_data_basic`; `start` is the default first time of `time_metadata_1chan`. -/
def spectraDataBasic (start : DateTime) : Except Err (SpecData (ℚ × ℚ)) := do
  let md ← timeMetadata1chan 10 start 11
  mkSpecData { fs := [180], chans := md.chans, nLevels := 1, firstTime := md.firstTime, lastTime := md.lastTime,
               levels := [basicSpecLevel], refTime := md.firstTime, history := md.history ++ ["spec_data_basic"] } [(0, basicSpectra)]

/-! ## Regression input and solution -/

/-- /repo/resistics/testing.py:829-847: the metadata of a site (no data). -/
def genSite (fs : ℚ) (freqs : List ℚ) (chans : List String) : SiteCombined ℚ where
  siteName := "site1"
  fs := fs
  measurements := ["run1", "run2"]
  chans := chans
  nEvals := freqs.length
  evalFreqs := freqs
  histories := [("run1", []), ("run2", [])]
  data := []

/-- /repo/resistics/testing.py:810-859 `regression_input_metadata_mt`: the contributors; the one record of the history has no effect. -/
def regressionInputMetadataMt (fs : ℚ) (freqs : List ℚ) : List (String × SiteCombined ℚ) :=
  [("out_data", genSite fs freqs ["Ex", "Ey"]), ("in_data", genSite fs freqs ["Hx", "Hy"]), ("cross_data", genSite fs freqs ["Hx", "Hy"])]

/-- /repo/resistics/testing.py:862-877 `components_mt`. -/
def componentsMt : List (String × Component) :=
  [("ExHx", { real := [1, 1, 2, 2, 3], imag := [5, 5, 4, 4, 3] }),
   ("ExHy", { real := [1, 2, 3, 4, 5], imag := [-5, -4, -3, -2, -1] }),
   ("EyHx", { real := [-1, -2, -3, -4, -5], imag := [5, 4, 3, 2, 1] }),
   ("EyHy", { real := [-1, -1, -2, -2, -3], imag := [-5, -5, -4, -4, -3] })]

/-- /repo/resistics/testing.py:880-900 `solution_mt`. -/
def solutionMt : Solution where
  tf := impedanceTensor
  freqs := [10, 20, 30, 40, 50]
  components := componentsMt

end Resistics
