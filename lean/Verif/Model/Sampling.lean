import Mathlib.Algebra.Order.Floor.Ring
import Mathlib.Data.Rat.Floor
import Verif.Model.Basic

/-!
# Model of /repo/resistics/sampling.py

Datetimes (`RSDateTime`, attotime) are exact rational seconds since an arbitrary epoch, timedeltas exact
rational seconds, and floats exact rationals.
-/

namespace Resistics

/-- An `RSDateTime`, in seconds since some epoch (/repo/resistics/sampling.py:15-49). Simplification:
attotime stores a calendar date and decimal nanoseconds; only the instant is modelled. -/
abbrev DateTime := ℚ
/-- An `RSTimeDelta`, in seconds. -/
abbrev TimeDelta := ℚ

/-- Python's built-in `round` on a number: nearest integer, ties to even
(used at /repo/resistics/sampling.py:389, window.py:367). -/
def pyRound (x : ℚ) : ℤ :=
  let f := ⌊x⌋
  if x - f < 1 / 2 then f
  else if 1 / 2 < x - f then f + 1
  else if f % 2 = 0 then f else f + 1

/-- The `method` argument of the rounding functions; every string other than "floor" and "ceil" means
"round" (/repo/resistics/sampling.py:385-389). -/
inductive RoundMethod where
  | round | floor | ceil
  deriving DecidableEq, Repr

/-- /repo/resistics/sampling.py:247-262, `to_timedelta` for an int or float number of seconds: split in
whole seconds, whole microseconds and nanoseconds; nanoseconds below 0.0001 are dropped. -/
def toTimedelta (delta : ℚ) : TimeDelta :=
  let seconds := ⌊delta⌋
  let delta := (delta - seconds) * 1000000
  let microseconds := ⌊delta⌋
  let delta := delta - microseconds
  let nanoseconds := delta * 1000
  let nanoseconds := if nanoseconds ≠ 0 ∧ nanoseconds < 1 / 10000 then 0 else nanoseconds
  seconds + microseconds / 1000000 + nanoseconds / 1000000000

/-- /repo/resistics/sampling.py:314-320, `to_seconds`: days in seconds, and the rest.
Simplification: `delta.seconds + microseconds/1e6 + nanoseconds/1e9` is the exact remainder. -/
def toSeconds (delta : TimeDelta) : ℚ × ℚ :=
  let days := ⌊delta / 86400⌋
  let daysInSeconds : ℚ := days * (3600 * 24)
  (daysInSeconds, delta - daysInSeconds)

/-- The rounding tail shared by /repo/resistics/sampling.py:382-389 and window.py:360-367: exact integers
are returned unchanged, then "floor" / "ceil" / round. -/
def applyRound (n : ℚ) (method : RoundMethod) : ℤ :=
  if n = ⌊n⌋ then ⌊n⌋
  else match method with
    | .floor => ⌊n⌋
    | .ceil => ⌈n⌉
    | .round => pyRound n

/-- /repo/resistics/sampling.py:376-389, `to_n_samples`. -/
def toNSamples (delta : TimeDelta) (fs : ℚ) (method : RoundMethod := .round) : ℤ :=
  let (daysInSeconds, remainingInSeconds) := toSeconds delta
  let nSamples := (daysInSeconds + remainingInSeconds) * fs
  -- add 1 to be inclusive of start and end
  let nSamples := nSamples + 1
  applyRound nSamples method

/-- /repo/resistics/sampling.py:429-433, `check_sample`. -/
def checkSample (nSamples sample : ℤ) : Except Err Bool :=
  if sample < 0 then .error .value
  else if nSamples ≤ sample then .error .value
  else .ok true

/-- `1 / fs` in Python: raises `ZeroDivisionError` for zero. -/
def pyRecip (fs : ℚ) : Except Err ℚ := if fs = 0 then .error .zeroDiv else .ok (1 / fs)

/-- /repo/resistics/sampling.py:474-478, `sample_to_datetime`. -/
def sampleToDatetime (fs : ℚ) (firstTime : DateTime) (sample : ℤ) (nSamples : Option ℤ := none) :
    Except Err DateTime := do
  match nSamples with
  | some n => if sample < 0 ∨ n ≤ sample then throw .value
  | none => pure ()
  let r ← pyRecip fs
  return firstTime + sample * toTimedelta r

/-- /repo/resistics/sampling.py:528-533, `samples_to_datetimes`. -/
def samplesToDatetimes (fs : ℚ) (firstTime : DateTime) (fromSample toSample : ℤ) :
    Except Err (DateTime × DateTime) := do
  if toSample ≤ fromSample then throw .value
  let fromTime ← sampleToDatetime fs firstTime fromSample
  let toTime ← sampleToDatetime fs firstTime toSample
  return (fromTime, toTime)

/-- /repo/resistics/sampling.py:595-603, `check_from_time`. -/
def checkFromTime (firstTime lastTime fromTime : DateTime) : Except Err DateTime :=
  if lastTime < fromTime then .error .value
  else if fromTime - firstTime < 0 then .ok firstTime
  else .ok fromTime

/-- /repo/resistics/sampling.py:662-670, `check_to_time`. -/
def checkToTime (firstTime lastTime toTime : DateTime) : Except Err DateTime :=
  if toTime < firstTime then .error .value
  else if lastTime - toTime < 0 then .ok lastTime
  else .ok toTime

/-- /repo/resistics/sampling.py:712-715, `from_time_to_sample`. -/
def fromTimeToSample (fs : ℚ) (firstTime lastTime fromTime : DateTime) : Except Err ℤ := do
  let fromTime ← checkFromTime firstTime lastTime fromTime
  let deltaFirst := fromTime - firstTime
  return toNSamples deltaFirst fs .ceil - 1

/-- /repo/resistics/sampling.py:764-767, `to_time_to_sample`. -/
def toTimeToSample (fs : ℚ) (firstTime lastTime toTime : DateTime) : Except Err ℤ := do
  let toTime ← checkToTime firstTime lastTime toTime
  let deltaFirst := toTime - firstTime
  return toNSamples deltaFirst fs .floor - 1

/-- /repo/resistics/sampling.py:827-829, `datetimes_to_samples`. -/
def datetimesToSamples (fs : ℚ) (firstTime lastTime fromTime toTime : DateTime) :
    Except Err (ℤ × ℤ) := do
  let fromSample ← fromTimeToSample fs firstTime lastTime fromTime
  let toSample ← toTimeToSample fs firstTime lastTime toTime
  return (fromSample, toSample)

/-- /repo/resistics/sampling.py:883-887, `datetime_array`: `n_samples` wins over `samples`; neither is a
`ValueError`.  Simplification: a negative `n_samples` is not modelled (`np.arange` of it is empty). -/
def datetimeArray (firstTime : DateTime) (fs : ℚ) (nSamples : Option ℕ) (samples : Option (List ℤ)) :
    Except Err (List DateTime) := do
  match nSamples, samples with
  | some n, _ => do
      let r ← pyRecip fs
      return (List.range n).map fun (k : ℕ) => firstTime + (k : ℚ) * toTimedelta r
  | none, none => throw .value
  | none, some s => do
      let r ← pyRecip fs
      return s.map fun (k : ℤ) => firstTime + (k : ℚ) * toTimedelta r

end Resistics
