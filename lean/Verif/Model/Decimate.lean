import Mathlib.Analysis.SpecialFunctions.Pow.Real
import Mathlib.Algebra.Order.Floor.Semiring
import Verif.Model.Time

/-!
# Model of /repo/resistics/decimate.py

The decimation parameters are modelled over any ordered field `K` with a floor (used at `ℚ` and `ℝ`); the
default evaluation frequencies involve `sqrt 2` and are real.
-/

namespace Resistics

/-! ## Evaluation frequencies -/

/-- /repo/resistics/decimate.py:66: `f0 / np.power(2, (ii - 1.0) / 2.0)`. -/
noncomputable def ladderFreq (f0 : ℝ) (ii : ℕ) : ℝ := f0 / (2 : ℝ) ^ (((ii : ℝ) - 1) / 2)

/-- The `while True` loop at /repo/resistics/decimate.py:63-70, run at most `fuel` times. -/
noncomputable def evalFreqsLoop (f0 fMin : ℝ) : ℕ → ℕ → List ℝ → List ℝ
  | 0, _, acc => acc
  | fuel + 1, ii, acc =>
      let freq := ladderFreq f0 ii
      open Classical in
      if freq < fMin then acc else evalFreqsLoop f0 fMin fuel (ii + 1) (acc ++ [freq])

/-- /repo/resistics/decimate.py:21-71 `get_eval_freqs_min`.  The fuel suffices for the loop to end by its own
condition (proved by the completeness theorem). -/
noncomputable def getEvalFreqsMin (fs fMin : ℝ) : Except Err (List ℝ) :=
  let f0 := fs / 4
  open Classical in
  if fMin ≤ 0 then .error .value
  else if f0 < fMin then .error .value
  else .ok (evalFreqsLoop f0 fMin (⌈(f0 / fMin) ^ 2⌉₊ + 2) 1 [])

/-- /repo/resistics/decimate.py:74-101 `get_eval_freqs_size`. -/
noncomputable def getEvalFreqsSize (fs : ℝ) (nFreqs : ℕ) : List ℝ :=
  let f0 := fs / 4
  (List.range nFreqs).map fun (i : ℕ) => f0 / (2 : ℝ) ^ ((((i + 1 : ℕ) : ℝ) - 1) / 2)

/-- /repo/resistics/decimate.py:104-142 `get_eval_freqs`. -/
noncomputable def getEvalFreqs (fs : ℝ) (fMin : Option ℝ) (nFreqs : Option ℕ) : Except Err (List ℝ) :=
  match fMin, nFreqs with
  | none, none => .error .value
  | some f, _ => getEvalFreqsMin fs f
  | none, some n => .ok (getEvalFreqsSize fs n)

/-! ## Decimation parameters -/

/-- /repo/resistics/decimate.py:145-192 `DecimationParameters`.  Simplification: levels, counts and factors are
natural numbers. -/
structure DecParams (K : Type) where
  fs : K
  nLevels : ℕ
  perLevel : ℕ
  minSamples : ℕ
  evalFreqs : List K
  decFactors : List ℕ
  decIncrements : List ℕ
  decFs : List K
  deriving DecidableEq, Repr

variable {K : Type} [Field K] [LinearOrder K] [FloorSemiring K]

/-- /repo/resistics/decimate.py:194-201 `set_dec_increments`: element-wise division by the previous factor,
converted to int.  Simplification: factors are positive, so the conversion is the floor. -/
def decIncrements (factors : List ℕ) : List ℕ :=
  List.zipWith (fun f d => f / d) factors (1 :: factors.dropLast)

/-- /repo/resistics/decimate.py:203-209 `set_dec_fs`: `fs * reciprocal(factors)`. -/
def decFsList (fs : K) (factors : List ℕ) : List K := factors.map fun (f : ℕ) => fs * (f : K)⁻¹

/-- Construction of `DecimationParameters` without explicit increments and frequencies
(/repo/resistics/decimate.py:145-209); `min_samples` must be positive and `divisor[1:] = dec_factors[:-1]`
needs as many factors as levels. -/
def mkDecParams (fs : K) (nLevels perLevel minSamples : ℕ) (evalFreqs : List K) (factors : List ℕ) :
    Except Err (DecParams K) :=
  if minSamples = 0 then .error .value
  else if factors.length ≠ nLevels then .error .value
  else .ok { fs := fs, nLevels := nLevels, perLevel := perLevel, minSamples := minSamples,
             evalFreqs := evalFreqs, decFactors := factors,
             decIncrements := decIncrements factors, decFs := decFsList fs factors }

/-- /repo/resistics/decimate.py:218-221 `check_level`. -/
def DecParams.checkLevel {K : Type} (p : DecParams K) (level : ℤ) : Except Err Unit :=
  if level < 0 ∨ (p.nLevels : ℤ) ≤ level then .error .value else .ok ()

/-- /repo/resistics/decimate.py:223-226 `check_eval_idx`. -/
def DecParams.checkEvalIdx {K : Type} (p : DecParams K) (idx : ℤ) : Except Err Unit :=
  if idx < 0 ∨ (p.perLevel : ℤ) ≤ idx then .error .value else .ok ()

/-- /repo/resistics/decimate.py:228-244 `get_eval_freqs`. -/
def DecParams.getEvalFreqs {K : Type} (p : DecParams K) (level : ℤ) : Except Err (List K) := do
  p.checkLevel level
  let indexFrom := p.perLevel * level
  return pySlice p.evalFreqs indexFrom (indexFrom + p.perLevel)

/-- /repo/resistics/decimate.py:246-265 `get_eval_freq`. -/
def DecParams.getEvalFreq {K : Type} (p : DecParams K) (level idx : ℤ) : Except Err K := do
  p.checkLevel level
  p.checkEvalIdx idx
  pyIndex p.evalFreqs (p.perLevel * level + idx)

/-- /repo/resistics/decimate.py:267-282 `get_fs`. -/
def DecParams.getFs {K : Type} (p : DecParams K) (level : ℤ) : Except Err K := do
  p.checkLevel level
  pyIndex p.decFs level

/-- /repo/resistics/decimate.py:284-299 `get_total_factor`. -/
def DecParams.getTotalFactor {K : Type} (p : DecParams K) (level : ℤ) : Except Err ℕ := do
  p.checkLevel level
  pyIndex p.decFactors level

/-- /repo/resistics/decimate.py:301-316 `get_incremental_factor`. -/
def DecParams.getIncrementalFactor {K : Type} (p : DecParams K) (level : ℤ) : Except Err ℕ := do
  p.checkLevel level
  pyIndex p.decIncrements level

/-- The loop at /repo/resistics/decimate.py:486-494, run at most `fuel` times. -/
def decLoop (div : ℕ) (target : K) : ℕ → K → ℕ → ℕ
  | 0, _, factor => factor
  | fuel + 1, fs, factor =>
      let test := fs / (div : K)
      if target ≤ test then decLoop div target fuel test (factor * div) else factor

/-- /repo/resistics/decimate.py:453-494 `_get_decimation_factor`.  For `f_max ≤ 0` or `div_factor ≤ 1` the
Python loop need not terminate; the fuel suffices for it to end by its own condition otherwise. -/
def getDecimationFactor (div : ℕ) (fs fMax : K) : ℕ :=
  let target := fMax * 4
  if fs < target then 1
  else decLoop div target (⌊fs / target⌋₊ + 1) fs 1

/-- `np.max` of an array row; `ValueError` for an empty row. -/
def npMax {K : Type} [LinearOrder K] : List K → Except Err K
  | [] => .error .value
  | x :: xs => .ok (xs.foldl max x)

/-- Row `ilevel` of `eval_freqs.reshape(n_levels, per_level)`. -/
def reshapeRow {K : Type} (freqs : List K) (perLevel ilevel : ℕ) : List K :=
  (freqs.drop (perLevel * ilevel)).take perLevel

/-- Body of the loop at /repo/resistics/decimate.py:448-450. -/
def levelFactor (div : ℕ) (fs : K) (freqs : List K) (perLevel ilevel : ℕ) : Except Err ℕ := do
  let m ← npMax (reshapeRow freqs perLevel ilevel)
  return getDecimationFactor div fs m

/-- /repo/resistics/decimate.py:426-451 `_get_factors`. -/
def getFactors (nLevels perLevel div : ℕ) (fs : K) (freqs : List K) : Except Err (List ℕ) :=
  (List.range nLevels).mapM (levelFactor div fs freqs perLevel)

/-- `DecimationSetup` (/repo/resistics/decimate.py:363-367). -/
structure DecSetup (K : Type) where
  nLevels : ℕ := 8
  perLevel : ℕ := 5
  minSamples : ℕ := 256
  divFactor : ℕ := 2
  evalFreqs : Option (List K) := none

/-- /repo/resistics/decimate.py:394-424 `_get_eval_freqs`; `deflt` is the default ladder
`get_eval_freqs(fs, n_freqs=n)`. -/
def DecSetup.getEvalFreqs {K : Type} [Field K] [LinearOrder K] (s : DecSetup K) (deflt : K → ℕ → List K)
    (fs : K) : Except Err (List K) :=
  let nyquist := fs / 2
  let nFreqs := s.nLevels * s.perLevel
  match s.evalFreqs with
  | none => .ok (deflt fs nFreqs)
  | some freqs =>
      if freqs.length ≠ nFreqs then .error .value
      else if freqs.any fun f => nyquist < f then .error .value
      else .ok freqs

/-- /repo/resistics/decimate.py:369-392 `DecimationSetup.run`. -/
def DecSetup.run (s : DecSetup K) (deflt : K → ℕ → List K) (fs : K) : Except Err (DecParams K) := do
  let freqs ← s.getEvalFreqs deflt fs
  let factors ← getFactors s.nLevels s.perLevel s.divFactor fs freqs
  mkDecParams fs s.nLevels s.perLevel s.minSamples freqs factors

/-! ## Decimated data -/

/-- /repo/resistics/decimate.py:497-511 `DecimatedLevelMetadata`. -/
structure LevelMeta where
  fs : ℚ
  nSamples : ℤ
  firstTime : DateTime
  lastTime : DateTime
  deriving DecidableEq, Repr

/-- The part of `DecimatedMetadata` that processing depends on (/repo/resistics/decimate.py:514-536). -/
structure DecMeta where
  fs : List ℚ
  chans : List String
  nLevels : ℕ
  firstTime : DateTime
  lastTime : DateTime
  levels : List LevelMeta
  history : List String
  deriving DecidableEq, Repr

/-- /repo/resistics/decimate.py:539-599 `DecimatedData`: a dictionary from level to array, in insertion
order. -/
structure DecData (V : Type) where
  md : DecMeta
  data : List (ℕ × List (List V))
  deriving DecidableEq, Repr

/-- `DecimatedLevelMetadata(**time_data.metadata.dict())`. -/
def levelMetaOf (md : TimeMeta) : LevelMeta :=
  { fs := md.fs, nSamples := md.nSamples, firstTime := md.firstTime, lastTime := md.lastTime }

/-- Subscription of the level dictionary; `KeyError` when absent. -/
def dictGet {α β : Type} [BEq α] (d : List (α × β)) (k : α) : Except Err β :=
  match d.lookup k with
  | some x => .ok x
  | none => .error .key

/-- /repo/resistics/decimate.py:601-622 `get_level`.  A negative level passes the check and is then a
`KeyError`. -/
def DecData.getLevel {V : Type} (d : DecData V) (level : ℤ) : Except Err (List (List V)) :=
  if (d.md.nLevels : ℤ) ≤ level then .error .value
  else if level < 0 then .error .key
  else dictGet d.data level.toNat

/-- /repo/resistics/decimate.py:776-783 `_decimate`.  `Decimate(factor=0)` is a validation error. -/
def decimatorDecimate (sp : SciPy) (maxSingle : ℕ) (td : TimeData ℚ) (factor : ℕ) :
    Except Err (TimeData ℚ) :=
  if factor = 1 then .ok td
  else if factor = 0 then .error .value
  else decimateProc sp maxSingle factor td

/-- /repo/resistics/decimate.py:785-791 `_resample`. -/
def decimatorResample (sp : SciPy) (td : TimeData ℚ) (factor : ℕ) : Except Err (TimeData ℚ) :=
  if factor = 1 then .ok td
  else if factor = 0 then .error .zeroDiv
  else resample sp (td.md.fs / factor) td

/-- State of the loop at /repo/resistics/decimate.py:757-768: the level dictionary and the level metadata. -/
structure DecAcc where
  data : List (ℕ × List (List ℚ)) := []
  levels : List LevelMeta := []

/-- The loop at /repo/resistics/decimate.py:757-768 over the given remaining levels. -/
def decimatorLoop (step : TimeData ℚ → ℕ → Except Err (TimeData ℚ)) (p : DecParams ℚ) :
    List ℕ → TimeData ℚ → DecAcc → Except Err DecAcc
  | [], _, acc => .ok acc
  | ilevel :: rest, td, acc => do
      let factor ← pyIndex p.decIncrements (ilevel : ℤ)
      let new ← step td factor
      if new.md.nSamples < p.minSamples then .ok acc
      else do
        let _ ← pyIndex p.decFs (ilevel : ℤ)
        decimatorLoop step p rest new
          { data := acc.data ++ [(ilevel, new.data)], levels := acc.levels ++ [levelMetaOf new.md] }

/-- /repo/resistics/decimate.py:734-774 `Decimator.run` for the configured decimation function.
`DecimatedData.__init__` reads `data[0]` (597), a `KeyError` when no level was produced. -/
def decimatorRun (step : TimeData ℚ → ℕ → Except Err (TimeData ℚ)) (p : DecParams ℚ) (td : TimeData ℚ) :
    Except Err (DecData ℚ) := do
  let acc ← decimatorLoop step p (List.range p.nLevels) td {}
  let md : DecMeta :=
    { fs := acc.levels.map (·.fs), chans := td.md.chans, nLevels := acc.levels.length,
      firstTime := td.md.firstTime, lastTime := td.md.lastTime, levels := acc.levels,
      history := td.md.history ++ ["Decimator"] }
  let _ ← dictGet acc.data 0
  return { md := md, data := acc.data }

/-- `Decimator(resample=..., max_single_factor=...).run` (/repo/resistics/decimate.py:752). -/
def Decimator.run (sp : SciPy) (useResample : Bool) (maxSingle : ℕ) (p : DecParams ℚ) (td : TimeData ℚ) :
    Except Err (DecData ℚ) :=
  decimatorRun (if useResample then decimatorResample sp else decimatorDecimate sp maxSingle) p td

end Resistics
