import Verif.Model.Float64
import Verif.Model.Decimate

/-!
# Model of the setup of decimation and windows in double precision arithmetic: /repo/resistics/decimate.py, /repo/resistics/window.py

The same functions as in `Verif.Model.Decimate` and `Verif.Model.Window`, but with every floating point operation of the code rounded to
IEEE double precision by `fl` (no overflow and no subnormal numbers).  `pow k` stands for `np.power(2, k / 2)`, whose rounding depends on
the library.
-/

namespace Resistics

/-! ## Evaluation frequencies -/

/-- /repo/resistics/decimate.py:66, 101: `f0 / np.power(2, i / 2)` with `f0 = fs / 4`. -/
def ladderFreqF (pow : ℕ → ℚ) (fs : ℚ) (i : ℕ) : ℚ := fl (fl (fs / 4) / pow i)

/-- /repo/resistics/decimate.py:74-101 `get_eval_freqs_size`. -/
def getEvalFreqsSizeF (pow : ℕ → ℚ) (fs : ℚ) (nFreqs : ℕ) : List ℚ := (List.range nFreqs).map (ladderFreqF pow fs)

/-- The `while True` loop at /repo/resistics/decimate.py:63-70, run at most `fuel` times. -/
def evalFreqsLoopF (pow : ℕ → ℚ) (fs fMin : ℚ) : ℕ → ℕ → List ℚ → List ℚ
  | 0, _, acc => acc
  | fuel + 1, i, acc =>
    if ladderFreqF pow fs i < fMin then acc else evalFreqsLoopF pow fs fMin fuel (i + 1) (acc ++ [ladderFreqF pow fs i])

/-- /repo/resistics/decimate.py:21-71 `get_eval_freqs_min`. -/
def getEvalFreqsMinF (pow : ℕ → ℚ) (fs fMin : ℚ) : Except Err (List ℚ) :=
  if fMin ≤ 0 then .error .value
  else if fl (fs / 4) < fMin then .error .value
  else .ok (evalFreqsLoopF pow fs fMin (⌈(fs / 4 / fMin) ^ 2⌉₊ + 3) 0 [])

/-! ## Decimation -/

/-- The loop at /repo/resistics/decimate.py:486-494, run at most `fuel` times. -/
def decLoopF (div : ℕ) (target : ℚ) : ℕ → ℚ → ℕ → ℕ
  | 0, _, factor => factor
  | fuel + 1, fs, factor =>
    if target ≤ fl (fs / div) then decLoopF div target fuel (fl (fs / div)) (factor * div) else factor

/-- /repo/resistics/decimate.py:453-494 `_get_decimation_factor`, for positive frequencies and `div_factor` of at least two. -/
def getDecimationFactorF (div : ℕ) (fs fMax : ℚ) : ℕ :=
  if fs < fl (fMax * 4) then 1 else decLoopF div (fl (fMax * 4)) (⌊fs / fl (fMax * 4)⌋₊ + 1) fs 1

/-- Body of the loop at /repo/resistics/decimate.py:448-450. -/
def levelFactorF (div : ℕ) (fs : ℚ) (freqs : List ℚ) (perLevel ilevel : ℕ) : Except Err ℕ := do
  let m ← npMax (reshapeRow freqs perLevel ilevel)
  return getDecimationFactorF div fs m

/-- /repo/resistics/decimate.py:426-451 `_get_factors`. -/
def getFactorsF (nLevels perLevel div : ℕ) (fs : ℚ) (freqs : List ℚ) : Except Err (List ℕ) :=
  (List.range nLevels).mapM (levelFactorF div fs freqs perLevel)

/-- /repo/resistics/decimate.py:203-209 `set_dec_fs`: `fs * np.reciprocal(factors)`. -/
def decFsListF (fs : ℚ) (factors : List ℕ) : List ℚ := factors.map fun (f : ℕ) => fl (fs * fl (1 / f))

/-- /repo/resistics/decimate.py:145-209 `DecimationParameters` without explicit increments and frequencies.  The increments are quotients
of integers that are exact when they are whole (/repo/resistics/decimate.py:194-201). -/
def mkDecParamsF (fs : ℚ) (nLevels perLevel minSamples : ℕ) (evalFreqs : List ℚ) (factors : List ℕ) : Except Err (DecParams ℚ) :=
  if minSamples = 0 then .error .value
  else if factors.length ≠ nLevels then .error .value
  else .ok { fs := fs, nLevels := nLevels, perLevel := perLevel, minSamples := minSamples, evalFreqs := evalFreqs, decFactors := factors,
             decIncrements := decIncrements factors, decFs := decFsListF fs factors }

/-- /repo/resistics/decimate.py:394-424 `_get_eval_freqs`; half a double is exact. -/
def DecSetup.getEvalFreqsF (s : DecSetup ℚ) (pow : ℕ → ℚ) (fs : ℚ) : Except Err (List ℚ) :=
  s.getEvalFreqs (getEvalFreqsSizeF pow) fs

/-- /repo/resistics/decimate.py:369-392 `DecimationSetup.run`. -/
def DecSetup.runF (s : DecSetup ℚ) (pow : ℕ → ℚ) (fs : ℚ) : Except Err (DecParams ℚ) := do
  let freqs ← s.getEvalFreqsF pow fs
  let factors ← getFactorsF s.nLevels s.perLevel s.divFactor fs freqs
  mkDecParamsF fs s.nLevels s.perLevel s.minSamples freqs factors

/-- `int(math.sqrt(n))` at /repo/resistics/time.py:2159: `sqrt` is the square root of doubles, `n` is converted to a double. -/
def intSqrtF (sqrt : ℚ → ℚ) (n : ℕ) : ℕ := (pyInt (sqrt (fl n))).toNat

/-- /repo/resistics/time.py:2135-2165 `_prime_factorisation`. -/
def primeFactorisationF (sqrt : ℚ → ℚ) (n : ℕ) : List ℕ := primeFactorisationWith (intSqrtF sqrt) n

/-! ## Windows -/

/-- `x // y` of two positive doubles, as CPython computes it: the exact remainder is taken off, the quotient is rounded down, and
corrected if it was just below a whole number. -/
def floorDivF (x y : ℚ) : ℤ :=
  let div := fl (fl (x - (x - y * ⌊x / y⌋)) / y)
  if 1 / 2 < div - ⌊div⌋ then ⌊div⌋ + 1 else ⌊div⌋

/-- Body of the loop at /repo/resistics/window.py:974-978, for a positive sampling frequency and window factor. -/
def WindowSetup.levelWinSizeF (s : WindowSetup) (decFs : List ℚ) (ilevel : ℕ) : Except Err ℤ := do
  let fs ← pyIndex decFs (ilevel : ℤ)
  if s.winFactor = 0 then throw .zeroDiv
  return max (floorDivF fs s.winFactor) s.minSize

/-- /repo/resistics/window.py:957-979 `_get_win_sizes`. -/
def WindowSetup.getWinSizesF (s : WindowSetup) (nLevels : ℕ) (decFs : List ℚ) : Except Err (List ℤ) :=
  (List.range nLevels).mapM (s.levelWinSizeF decFs)

/-- /repo/resistics/window.py:981-1001 `_get_olap_sizes`. -/
def WindowSetup.getOlapSizesF (s : WindowSetup) (winSizes : List ℤ) : List ℤ :=
  winSizes.map fun (w : ℤ) => max (pyInt (fl ((w : ℚ) * s.olapProportion))) s.minOlap

/-- The window sizes given, or computed (/repo/resistics/window.py:926-929). -/
def WindowSetup.chosenWinSizesF (s : WindowSetup) (nLevels : ℕ) (decFs : List ℚ) : Except Err (List ℤ) :=
  match s.winSizes with
  | none => s.getWinSizesF nLevels decFs
  | some w => .ok w

/-- /repo/resistics/window.py:888-955 `WindowSetup.run`. -/
def WindowSetup.runF (s : WindowSetup) (nLevels : ℕ) (decFs : List ℚ) : Except Err WinParams := do
  let winSizes ← s.chosenWinSizesF nLevels decFs
  let winSizes ← fitLevels nLevels winSizes
  let olapSizes ← fitLevels nLevels (s.olapSizes.getD (s.getOlapSizesF winSizes))
  return { nLevels := nLevels, minNWins := s.minNWins, winSizes := winSizes, olapSizes := olapSizes }

/-- /repo/resistics/window.py:1501-1532 `_get_win_size` of `WindowerTarget`. -/
def WindowerTarget.getWinSizeF (t : WindowerTarget) (lm : LevelMeta) : Except Err ℤ :=
  let d := fl (fl (1 - t.olapProportion) * (t.target : ℚ))
  if d = 0 then .error .zeroDiv
  else
    let winSize := ⌊fl ((lm.nSamples : ℚ) / d)⌋
    if winSize < t.minSize then .ok t.minSize else .ok winSize

/-- Sizes used by `WindowerTarget` (/repo/resistics/window.py:1466-1467). -/
def WindowerTarget.sizesF (t : WindowerTarget) (_ : ℕ) (lm : LevelMeta) : Except Err (ℤ × ℤ) := do
  let w ← t.getWinSizeF lm
  return (w, ⌊fl (t.olapProportion * (w : ℚ))⌋)

end Resistics
