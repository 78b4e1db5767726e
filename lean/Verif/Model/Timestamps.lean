import Verif.Model.Plot
import Verif.Model.Spectra

/-!
# Model of estimated timestamps and of the plots of time data

`pandas` timestamps count whole nanoseconds.
-/

namespace Resistics

/-- `pd.to_datetime(first_time.isoformat())`: the digits after the nanoseconds are dropped.  Simplification: at most 18 digits of
the second, since pandas hands longer text to another parser. -/
def pandasTime (t : DateTime) : DateTime := ⌊t * 1000000000⌋ / 1000000000

/-- `pd.Timedelta(x, "s")` for a number of at least zero: whole seconds, and the rest rounded to nine digits.  Simplification: exact
arithmetic. -/
def pandasDelta (x : ℚ) : TimeDelta := ⌊x⌋ + (pyRound ((x - ⌊x⌋) * 1000000000) : ℚ) / 1000000000

/-- The times of given samples in /repo/resistics/sampling.py:939. -/
def estimateTimes (firstTime : DateTime) (dt : TimeDelta) (samples : List ℤ) : List DateTime :=
  samples.map fun (k : ℤ) => pandasTime firstTime + (k : ℚ) * dt

/-- /repo/resistics/sampling.py:930-939, `datetime_array_estimate`: `n_samples` wins over `samples`; neither is a `ValueError`.
Simplification: a negative `n_samples` and sampling frequencies above 1 GHz (a step of zero) are not modelled. -/
def datetimeArrayEstimate (firstTime : DateTime) (fs : ℚ) (nSamples : Option ℕ) (samples : Option (List ℤ)) :
    Except Err (List DateTime) := do
  let r ← pyRecip fs
  match nSamples, samples with
  | some n, _ => .ok (estimateTimes firstTime (pandasDelta r) ((List.range n).map fun (i : ℕ) => (i : ℤ)))
  | none, some s => .ok (estimateTimes firstTime (pandasDelta r) s)
  | none, none => .error .value

/-- The choice of function in /repo/resistics/time.py:602 and decimate.py:656. -/
def datetimeArrayBy (estimate : Bool) (firstTime : DateTime) (fs : ℚ) (nSamples : Option ℕ) (samples : Option (List ℤ)) :
    Except Err (List DateTime) :=
  if estimate then datetimeArrayEstimate firstTime fs nSamples samples else datetimeArray firstTime fs nSamples samples

/-- /repo/resistics/time.py:602-609 and decimate.py:656-664: samples if given, else all. -/
def timestampsOf (firstTime : DateTime) (fs : ℚ) (nSamples : ℤ) (samples : Option (List ℤ)) (estimate : Bool) :
    Except Err (List DateTime) :=
  match samples with
  | some s => datetimeArrayBy estimate firstTime fs none (some s)
  | none => datetimeArrayBy estimate firstTime fs (some nSamples.toNat) none

/-- /repo/resistics/time.py:579-609, `TimeData.get_timestamps`. -/
def TimeData.getTimestamps {V : Type} (td : TimeData V) (samples : Option (List ℤ) := none) (estimate : Bool := true) :
    Except Err (List DateTime) :=
  timestampsOf td.md.firstTime td.md.fs td.md.nSamples samples estimate

/-- /repo/resistics/decimate.py:652-664, `DecimatedData.get_timestamps`. -/
def DecData.getTimestamps {V : Type} (d : DecData V) (level : ℤ) (samples : Option (List ℤ) := none) (estimate : Bool := true) :
    Except Err (List DateTime) := do
  if (d.md.nLevels : ℤ) ≤ level then .error .value
  else
    let lm ← pyIndex d.md.levels level
    timestampsOf lm.firstTime lm.fs lm.nSamples samples estimate

/-- /repo/resistics/window.py:544-549, `get_win_starts`, with the resolution of pandas. -/
def winStartsEstimate (refTime : DateTime) (winSize olapSize : ℤ) (fs : ℚ) (nWins : ℕ) (indexOffset : ℤ) :
    Except Err (List DateTime) := do
  let increment ← incDuration winSize olapSize fs
  if winSize - olapSize = 0 then .error .zeroDiv
  else datetimeArrayEstimate (winToDatetime refTime indexOffset increment) (fs / ((winSize - olapSize : ℤ) : ℚ)) (some nWins) none

/-- /repo/resistics/window.py:598, `get_win_ends`, for a window size of at least one. -/
def winEndsEstimate (starts : List DateTime) (winSize : ℤ) (fs : ℚ) : Except Err (List DateTime) := do
  let r ← pyRecip fs
  return starts.map (· + pandasDelta (((winSize - 1 : ℤ) : ℚ) * r))

/-- A line of a plot: the row of the figure (from 1), the times and the values. -/
structure Trace where
  row : ℕ
  times : List DateTime
  values : List ℚ
  deriving DecidableEq, Repr

/-- /repo/resistics/plot.py:160-183, `get_time_fig`: a figure with a row for each channel, given by the titles of its rows; every
channel needs a label. -/
def getTimeFig (chans labelled : List String) : Except Err (List String) :=
  if chans.all (· ∈ labelled) then .ok chans else .error .key

/-- /repo/resistics/time.py:676-682: the figure to draw in. -/
def TimeData.figure {V : Type} (td : TimeData V) (fig : Option (List String)) (chans : Option (List String)) :
    Except Err (List String) :=
  match fig with
  | some titles => if chans = none then .error .value else .ok titles
  | none =>
      if (chans.getD td.md.chans).all (· ∈ td.md.chans) then getTimeFig td.md.chans (chans.getD td.md.chans) else .error .key

/-- The body of the loop at /repo/resistics/time.py:685-698 for a channel that has data; a figure of `rows` rows. -/
def TimeData.trace (td : TimeData ℚ) (d : DType) (maxPts : Option ℤ) (rows : ℕ) (p : String × ℕ) : Except Err Trace := do
  let row ← td.getChan p.1
  let r ← applyLttb d row maxPts
  let times ← td.getTimestamps (some (r.1.map pyInt)) true
  if p.2 < rows then .ok { row := p.2 + 1, times := times, values := r.2 } else .error .other

/-- /repo/resistics/time.py:675-699, `TimeData.plot`: the titles of the rows of the figure and the lines drawn; `fig` is the figure
given, `d` the number format of the data.  Channels without data are skipped. -/
def TimeData.plot (td : TimeData ℚ) (d : DType) (fig : Option (List String)) (chans : Option (List String)) (maxPts : Option ℤ) :
    Except Err (List String × List Trace) := do
  let titles ← td.figure fig chans
  let traces ← ((chans.getD td.md.chans).zipIdx.filter fun p => p.1 ∈ td.md.chans).mapM (td.trace d maxPts titles.length)
  return (titles, traces)

/-- /repo/resistics/decimate.py:689-697: the time data of a level. -/
def DecData.levelData (d : DecData ℚ) (level : ℕ) : Except Err (TimeData ℚ) := do
  let lm ← pyIndex d.md.levels (level : ℤ)
  let data ← dictGet d.data level
  return { md := { fs := lm.fs, chans := d.md.chans, nSamples := lm.nSamples, firstTime := lm.firstTime, lastTime := lm.lastTime },
           data := data }

/-- The number of colours of `plotly.express.colors.qualitative.Plotly`. -/
def plotlyColors : ℕ := 10

/-- The body of the loop at /repo/resistics/decimate.py:687-701; `next(colors)` fails when there is no colour left. -/
def DecData.plotLevel (d : DecData ℚ) (t : DType) (maxPts : Option ℤ) (titles : List String) (level : ℕ) :
    Except Err (List Trace) := do
  let td ← d.levelData level
  if plotlyColors ≤ level then .error .other
  else (td.plot t (some titles) (some d.md.chans) maxPts).map (·.2)

/-- /repo/resistics/decimate.py:678-702, `DecimatedData.plot`: the titles of the rows and the lines of each level. -/
def DecData.plot (d : DecData ℚ) (t : DType) (maxPts : Option ℤ) : Except Err (List String × List (List Trace)) := do
  let titles ← getTimeFig d.md.chans d.md.chans
  let traces ← (List.range d.md.nLevels).mapM (d.plotLevel t maxPts titles)
  return (titles, traces)

end Resistics
