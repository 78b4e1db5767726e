import Verif.Model.Decimate
import Verif.Model.Calibrate

/-!
# Model of the tables of decimation parameters and calibration data

/repo/resistics/decimate.py:210-216 and 318-329, /repo/resistics/calibrate.py:58-138.
-/

namespace Resistics

/-! ## Decimation parameters -/

/-- The argument of a subscript: an integer or a pair. -/
inductive DecIndex where
  | level (l : ℤ)
  | pair (l idx : ℤ)
  deriving DecidableEq, Repr

/-- /repo/resistics/decimate.py:210-216 `__getitem__`: frequencies of a level, or one frequency. -/
def DecParams.getItem {K : Type} (p : DecParams K) : DecIndex → Except Err (List K ⊕ K)
  | .level l => (p.getEvalFreqs l).map Sum.inl
  | .pair l idx => (p.getEvalFreq l idx).map Sum.inr

/-- /repo/resistics/decimate.py:318-320 `to_numpy`: `reshape` raises `ValueError` when the sizes differ. -/
def DecParams.toNumpy {K : Type} (p : DecParams K) : Except Err (List (List K)) :=
  if p.evalFreqs.length ≠ p.nLevels * p.perLevel then .error .value
  else .ok ((List.range p.nLevels).map (reshapeRow p.evalFreqs p.perLevel))

/-- A data frame with rows for the decimation levels. -/
structure DecFrame (K : Type) where
  freqs : List (List K)
  fs : List K
  factors : List ℕ
  increments : List ℕ
  deriving DecidableEq, Repr

/-- `df[name] = column`: a column of another length is a `ValueError`.  Simplification: also for a data frame without rows. -/
def setColumn {α : Type} (nRows : ℕ) (column : List α) : Except Err (List α) :=
  if column.length ≠ nRows then .error .value else .ok column

/-- /repo/resistics/decimate.py:322-329 `to_dataframe`; the index counts the levels. -/
def DecParams.toDataframe {K : Type} (p : DecParams K) : Except Err (DecFrame K) := do
  let freqs ← p.toNumpy
  let fs ← setColumn freqs.length p.decFs
  let factors ← setColumn freqs.length p.decFactors
  let increments ← setColumn freqs.length p.decIncrements
  return { freqs := freqs, fs := fs, factors := factors, increments := increments }

/-! ## Calibration data -/

/-- `CalibrationData` with its number of samples. -/
structure CalTable where
  cal : CalData
  nSamples : ℤ
  deriving DecidableEq, Repr

/-- Construction with the validator /repo/resistics/calibrate.py:61-66: a number of samples that is given is kept. -/
def mkCalTable (cal : CalData) (nSamples : Option ℤ) : CalTable := { cal := cal, nSamples := nSamples.getD cal.frequency.length }

/-- /repo/resistics/calibrate.py:68-78 `__getitem__`. -/
def CalTable.getItem (t : CalTable) (arg : String) : Except Err (List ℚ) :=
  if arg = "frequency" then .ok t.cal.frequency
  else if arg = "magnitude" then .ok t.cal.magnitude
  else if arg = "phase" then .ok t.cal.phase
  else .error .value

/-- /repo/resistics/calibrate.py:130-138 `to_dataframe`: the rows (frequency, magnitude, phase).  Columns of different lengths are a
`ValueError`. -/
def CalTable.toDataframe (t : CalTable) : Except Err (List (ℚ × ℚ × ℚ)) :=
  if t.cal.magnitude.length ≠ t.cal.frequency.length ∨ t.cal.phase.length ≠ t.cal.frequency.length then .error .value
  else .ok (t.cal.frequency.zip (t.cal.magnitude.zip t.cal.phase))

/-- A line of a calibration plot. -/
structure CalLine where
  row : ℕ
  x : List ℚ
  y : List ℚ
  name : String
  color : String
  inLegend : Bool
  deriving DecidableEq, Repr

/-- /repo/resistics/calibrate.py:80-128 `plot`: the lines of the figure given, or of a new one, and two more. -/
def CalTable.plot (t : CalTable) (fig : Option (List CalLine)) (color : String := "blue") (legend : String := "CalibrationData") :
    List CalLine :=
  fig.getD [] ++
    [{ row := 1, x := t.cal.frequency, y := t.cal.magnitude, name := legend, color := color, inLegend := true },
     { row := 2, x := t.cal.frequency, y := t.cal.phase, name := legend, color := color, inLegend := false }]

/-- /repo/resistics/calibrate.py:260-280 and 315-343: what the readers return; neither format holds more than the model of
`CalData` and, in JSON, the number of samples. -/
def readCalTable (toNum : String → Except Err ℚ) (deg : ℚ) (lines : List String) : Except Err CalTable := do
  let d ← readCalText toNum deg lines
  return mkCalTable d none

end Resistics
