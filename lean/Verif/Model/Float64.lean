import Verif.Model.Window
import Mathlib.Data.Int.Log

/-!
# Model of /repo/resistics/sampling.py and of window indices in double precision arithmetic

The same functions as in `Verif.Model.Sampling` and `Verif.Model.Window`, but with every floating point operation of the code
rounded to IEEE double precision.  Date times and time deltas (attotime) are exact.
-/

namespace Resistics

/-- Rounding to IEEE double precision: 53 significant bits, ties to even.  Simplification: no overflow and no subnormal
numbers. -/
def fl (x : ℚ) : ℚ :=
  if x = 0 then 0
  else (pyRound (x / (2 : ℚ) ^ (Int.log 2 |x| - 52)) : ℚ) * (2 : ℚ) ^ (Int.log 2 |x| - 52)

/-- /repo/resistics/sampling.py:247-262, `to_timedelta` of the float `delta`. -/
def toTimedeltaF (delta : ℚ) : TimeDelta :=
  let seconds := ⌊delta⌋
  let delta := fl (fl (delta - seconds) * 1000000)
  let microseconds := ⌊delta⌋
  let delta := fl (delta - microseconds)
  let nanoseconds := fl (delta * 1000)
  let nanoseconds := if nanoseconds ≠ 0 ∧ nanoseconds < fl (1 / 10000) then 0 else nanoseconds
  seconds + microseconds / 1000000 + nanoseconds / 1000000000

/-- The whole seconds of a time delta within its day. -/
def deltaSeconds (delta : TimeDelta) : ℤ := ⌊delta - ⌊delta / 86400⌋ * 86400⌋

/-- The whole microseconds of a time delta within its second. -/
def deltaMicros (delta : TimeDelta) : ℤ := ⌊(delta - ⌊delta⌋) * 1000000⌋

/-- The nanoseconds of a time delta within its microsecond. -/
def deltaNanos (delta : TimeDelta) : ℚ := ((delta - ⌊delta⌋) * 1000000 - deltaMicros delta) * 1000

/-- /repo/resistics/sampling.py:314-320, `to_seconds`, and the sum of its two results
(/repo/resistics/sampling.py:378, /repo/resistics/window.py:352, 355). -/
def totalSecondsF (delta : TimeDelta) : ℚ :=
  let daysInSeconds : ℚ := ⌊delta / 86400⌋ * (3600 * 24)
  let microsecondsInSeconds := fl (deltaMicros delta / 1000000)
  let nanosecondsInSeconds := fl (fl (deltaNanos delta) / 1000000000)
  let remainingInSeconds := fl (fl (deltaSeconds delta + microsecondsInSeconds) + nanosecondsInSeconds)
  fl (fl daysInSeconds + remainingInSeconds)

/-- /repo/resistics/sampling.py:378-380: the number of samples before rounding. -/
def countSamplesF (delta : TimeDelta) (fs : ℚ) : ℚ := fl (fl (totalSecondsF delta * fs) + 1)

/-- /repo/resistics/sampling.py:376-389, `to_n_samples`. -/
def toNSamplesF (delta : TimeDelta) (fs : ℚ) (method : RoundMethod := .round) : ℤ := applyRound (countSamplesF delta fs) method

/-- /repo/resistics/sampling.py:474-478, `sample_to_datetime` without a number of samples, for a sampling frequency that is
not zero. -/
def sampleToDatetimeF (fs : ℚ) (firstTime : DateTime) (sample : ℤ) : DateTime :=
  firstTime + sample * toTimedeltaF (fl (1 / fs))

/-- /repo/resistics/sampling.py:712-715, `from_time_to_sample`. -/
def fromTimeToSampleF (fs : ℚ) (firstTime lastTime fromTime : DateTime) : Except Err ℤ := do
  let t ← checkFromTime firstTime lastTime fromTime
  return toNSamplesF (t - firstTime) fs .ceil - 1

/-- /repo/resistics/sampling.py:764-767, `to_time_to_sample`. -/
def toTimeToSampleF (fs : ℚ) (firstTime lastTime toTime : DateTime) : Except Err ℤ := do
  let t ← checkToTime firstTime lastTime toTime
  return toNSamplesF (t - firstTime) fs .floor - 1

/-- /repo/resistics/window.py:350-356: the number of increments before rounding. -/
def countIncrementsF (delta increment : TimeDelta) : ℚ := fl (totalSecondsF delta / totalSecondsF increment)

/-- /repo/resistics/window.py:346-367, `datetime_to_win`, for a positive increment. -/
def datetimeToWinF (refTime time : DateTime) (increment : TimeDelta) (method : RoundMethod := .round) : Except Err ℤ :=
  if time < refTime then .error .value else .ok (applyRound (countIncrementsF (time - refTime) increment) method)

/-- /repo/resistics/window.py:112-148, `win_duration`, for a sampling frequency that is not zero. -/
def winDurationF (winSize : ℤ) (fs : ℚ) : TimeDelta := toTimedeltaF (fl (1 / fs)) * ((winSize - 1 : ℤ) : ℚ)

/-- /repo/resistics/window.py:151-185, `inc_duration`, for a sampling frequency that is not zero. -/
def incDurationF (winSize olapSize : ℤ) (fs : ℚ) : TimeDelta := toTimedeltaF (fl (1 / fs)) * ((winSize - olapSize : ℤ) : ℚ)

/-- /repo/resistics/window.py:475-490, `get_first_and_last_win`.  The adjustment of the last window compares date times, which
are exact. -/
def getFirstAndLastWinF (refTime : DateTime) (md : LevelMeta) (winSize olapSize : ℤ) : Except Err (ℤ × ℤ) := do
  let increment := incDurationF winSize olapSize md.fs
  let firstWin ← datetimeToWinF refTime md.firstTime increment .ceil
  let lastWin ← datetimeToWinF refTime md.lastTime increment .floor
  let lastWin ← adjustLastWin refTime md.lastTime (winDurationF winSize md.fs) increment 2 lastWin
  return (firstWin, lastWin)

/-- /repo/resistics/window.py:673-690, `get_win_table`: the global window and the from and to samples of each row. -/
def getWinSamplesF (refTime : DateTime) (md : LevelMeta) (winSize olapSize : ℤ) : Except Err (List (ℤ × ℤ × ℤ)) := do
  let incrementSize := winSize - olapSize
  let (firstWin, lastWin) ← getFirstAndLastWinF refTime md winSize olapSize
  let firstWinTime := winToDatetime refTime firstWin (incDurationF winSize olapSize md.fs)
  let nWins := lastWin - firstWin + 1
  let firstSample := toNSamplesF (firstWinTime - md.firstTime) md.fs .floor - 1
  if nWins < 0 then .error .value
  else .ok ((List.range nWins.toNat).map fun (k : ℕ) =>
    (firstWin + k, firstSample + k * incrementSize, firstSample + winSize - 1 + k * incrementSize))

end Resistics
