import Mathlib.Data.Nat.Sqrt
import Verif.Model.Sampling
import Verif.Model.NumPy

/-!
# Model of /repo/resistics/time.py

Time data are lists of rows (channels) of samples.  dtype conversions (`astype`) are in Model/NumTypes.
-/

namespace Resistics

/-- The part of `TimeMetadata` that processing depends on (/repo/resistics/time.py:88-272).
`nSamples` is an integer because pydantic does not re-validate on assignment.  History records are
modelled by the name of the process that added them.  Channel metadata, location etc. are not modelled. -/
structure TimeMeta where
  fs : ℚ
  chans : List String
  nSamples : ℤ
  firstTime : DateTime
  lastTime : DateTime
  history : List String := []
  deriving DecidableEq, Repr

/-- /repo/resistics/time.py:442-484 `TimeData`: metadata plus a channels × samples array. -/
structure TimeData (V : Type) where
  md : TimeMeta
  data : List (List V)
  deriving DecidableEq, Repr

/-- /repo/resistics/time.py:179-182 `TimeMetadata.nyquist`. -/
def TimeMeta.nyquist (md : TimeMeta) : ℚ := md.fs / 2
/-- /repo/resistics/time.py:169-172 `TimeMetadata.dt`. -/
def TimeMeta.dt (md : TimeMeta) : ℚ := 1 / md.fs

/-- /repo/resistics/time.py:432-439 `adjust_time_metadata`. -/
def adjustTimeMetadata (md : TimeMeta) (fs : ℚ) (firstTime : DateTime) (nSamples : ℤ) :
    Except Err TimeMeta := do
  let r ← pyRecip fs
  let duration := toTimedelta r * ((nSamples - 1 : ℤ) : ℚ)
  return { md with fs := fs, firstTime := firstTime, nSamples := nSamples,
                   lastTime := firstTime + duration }

/-- /repo/resistics/time.py:482-484, 515-529: the dictionary from channel name to row, filled in order so
that the last duplicate wins; `KeyError` (here `none`) for an unknown name. -/
def chanIndex (chans : List String) (chan : String) : Option ℕ :=
  chans.zipIdx.foldl (fun acc p => if p.1 = chan then some p.2 else acc) none

/-- /repo/resistics/common.py:314-319 `check_chan`. -/
def checkChan (chan : String) (chans : List String) : Except Err Bool :=
  if chan ∈ chans then .ok true else .error .chanNotFound

/-- /repo/resistics/time.py:531-548 `TimeData.get_chan`. -/
def TimeData.getChan {V : Type} (td : TimeData V) (chan : String) : Except Err (List V) := do
  let _ ← checkChan chan td.md.chans
  match chanIndex td.md.chans chan with
  | none => throw .key
  | some i => pyIndex td.data i

/-- /repo/resistics/time.py:550-577 `TimeData.set_chan` (returning the new data).  The
dtype check is in `setChanTyped` (Model/NumTypes). -/
def TimeData.setChan {V : Type} (td : TimeData V) (chan : String) (row : List V) :
    Except Err (TimeData V) := do
  let _ ← checkChan chan td.md.chans
  if (row.length : ℤ) ≠ td.md.nSamples then throw .value
  match chanIndex td.md.chans chan with
  | none => throw .key
  | some i => if i < td.data.length then return { td with data := td.data.set i row } else throw .index

/-- /repo/resistics/time.py:1214-1220 `new_time_data`, for a process named `name` (its record). -/
def newTimeData {V : Type} (td : TimeData V) (name : String) (md : Option TimeMeta)
    (data : Option (List (List V))) : TimeData V :=
  let md := md.getD td.md
  { md := { md with history := md.history ++ [name] }, data := data.getD td.data }

/-! ## Reading -/

/-- The optional bounds of a read request (/repo/resistics/time.py:713-722). Simplification: times are
already converted with `to_datetime`. -/
structure ReadReq where
  fromTime : Option DateTime := none
  toTime : Option DateTime := none
  fromSample : Option ℤ := none
  toSample : Option ℤ := none

/-- /repo/resistics/time.py:893-904: the first sample to read; a time wins over a sample. -/
def readFromBound (md : TimeMeta) (r : ReadReq) : Except Err ℤ :=
  match r.fromTime, r.fromSample with
  | some t, _ => fromTimeToSample md.fs md.firstTime md.lastTime t
  | none, some s => do let _ ← checkSample md.nSamples s; pure s
  | none, none => pure 0

/-- /repo/resistics/time.py:906-917: the last sample to read; a time wins over a sample. -/
def readToBound (md : TimeMeta) (r : ReadReq) : Except Err ℤ :=
  match r.toTime, r.toSample with
  | some t, _ => toTimeToSample md.fs md.firstTime md.lastTime t
  | none, some s => do let _ ← checkSample md.nSamples s; pure s
  | none, none => pure (md.nSamples - 1)

/-- /repo/resistics/time.py:888-921 `TimeReader._get_read_samples`. -/
def getReadSamples (md : TimeMeta) (r : ReadReq) : Except Err (ℤ × ℤ) := do
  let readFrom ← readFromBound md r
  let readTo ← readToBound md r
  if readTo ≤ readFrom then throw .value
  return (readFrom, readTo)

/-- /repo/resistics/time.py:943-952 `TimeReader._get_return_metadata`. -/
def getReturnMetadata (md : TimeMeta) (readFrom readTo : ℤ) : Except Err TimeMeta := do
  let fromTime ← sampleToDatetime md.fs md.firstTime readFrom
  let nRead := readTo - readFrom + 1
  adjustTimeMetadata md md.fs fromTime nRead

/-- /repo/resistics/time.py:1072-1108 `TimeReaderNumpy.read_data`; `file` is the stored array. -/
def readDataNumpy {V : Type} (file : List (List V)) (md : TimeMeta) (readFrom readTo : ℤ) :
    Except Err (TimeData V) := do
  let data := file.map fun row => pySlice row readFrom (readTo + 1)
  let md ← getReturnMetadata md readFrom readTo
  return { md := { md with history := md.history ++ ["TimeReaderNumpy"] }, data := data }

/-- /repo/resistics/time.py:748-766 `TimeReader.run` with the numpy `read_data`; the metadata have been
read or given.  `scale_data` is the identity for this reader (811-831). -/
def readNumpy {V : Type} (file : List (List V)) (md : TimeMeta) (r : ReadReq) :
    Except Err (TimeData V) := do
  let (a, b) ← getReadSamples md r
  readDataNumpy file md a b

/-- The lines of an ASCII data file: header lines, then one row of values per sample. -/
inductive AsciiLine (V : Type) where
  | header
  | row (values : List V)

/-- The array returned by `np.loadtxt` (default `ndmin = 0`): dimensions of size one are squeezed away. -/
inductive NDArr (V : Type) where
  | d0 (x : V)
  | d1 (xs : List V)
  | d2 (rows : List (List V))
  deriving DecidableEq, Repr

/-- Transpose of a list of rows with `n` columns (rows shorter than `n` contribute nothing). -/
def transposeN {V : Type} (n : ℕ) (rows : List (List V)) : List (List V) :=
  (List.range n).map fun c => rows.filterMap fun r => r[c]?

/-- Parsing one line of values; a header line is not numeric (`ValueError`). -/
def parseAsciiLine {V : Type} : AsciiLine V → Except Err (List V)
  | .header => .error .value
  | .row v => .ok v

/-- The array `np.loadtxt` builds from parsed rows, transposed: rows must have equal lengths (else
`ValueError`); dimensions of size one are squeezed away. -/
def loadtxtArray {V : Type} (rows : List (List V)) : Except Err (NDArr V) :=
  match rows with
  | [] => .ok (.d1 [])
  | r :: rest =>
    if rest.all fun x => x.length = r.length then
      match rest, r with
      | [], [x] => .ok (.d0 x)
      | [], xs => .ok (.d1 xs)
      | _, [_] => .ok (.d1 rows.flatten)
      | _, _ => .ok (.d2 (transposeN r.length rows))
    else .error .value

/-- `np.loadtxt(file, skiprows, max_rows).transpose()` as used at /repo/resistics/time.py:1046-1053:
skip lines, parse at most `maxRows` lines.
Simplification: comments and blank lines inside the data are not modelled. -/
def loadtxtT {V : Type} (lines : List (AsciiLine V)) (skip maxRows : ℕ) : Except Err (NDArr V) := do
  let rows ← ((lines.drop skip).take maxRows).mapM parseAsciiLine
  loadtxtArray rows

/-- /repo/resistics/time.py:1010-1059 `TimeReaderAscii.read_data` (array part; the metadata part is
`getReturnMetadata`).  `readFrom` is non-negative when it comes from `getReadSamples`. -/
def readDataAscii {V : Type} (lines : List (AsciiLine V)) (nHeader : ℕ) (md : TimeMeta)
    (readFrom readTo : ℤ) : Except Err (TimeMeta × NDArr V) := do
  let nSamples := readTo - readFrom + 1
  let data ← loadtxtT lines (readFrom.toNat + nHeader) nSamples.toNat
  let md ← getReturnMetadata md readFrom readTo
  return ({ md with history := md.history ++ ["TimeReaderAscii"] }, data)

/-- `TimeReader.run` with the ASCII `read_data` (/repo/resistics/time.py:748-766, 1010-1059). -/
def readAscii {V : Type} (lines : List (AsciiLine V)) (nHeader : ℕ) (md : TimeMeta) (r : ReadReq) :
    Except Err (TimeMeta × NDArr V) := do
  let (a, b) ← getReadSamples md r
  readDataAscii lines nHeader md a b

/-! ## Processors -/

/-- /repo/resistics/time.py:1269-1307 `Subsection.run`.  (The shallow `metadata.copy()` at 1303 shares the
history with the input; that aliasing is modelled in `Model/History.lean`.) -/
def subsection {V : Type} (fromTime toTime : DateTime) (td : TimeData V) : Except Err (TimeData V) := do
  let fs := td.md.fs
  let firstTime := td.md.firstTime
  let lastTime := td.md.lastTime
  let (fromSample, toSample) ← datetimesToSamples fs firstTime lastTime fromTime toTime
  let nSamples := toSample - fromSample + 1
  let (fromTime, _) ← samplesToDatetimes fs firstTime fromSample toSample
  let md ← adjustTimeMetadata td.md fs fromTime nSamples
  let data := td.data.map fun row => pySlice row fromSample (toSample + 1)
  return newTimeData td "Subsection" (some md) (some data)

/-- /repo/resistics/time.py:1355-1376 `InterpolateNans._interpolate_nans`; NaN is `none`. -/
def interpolateNansRow (row : List (Option ℚ)) : Except Err (List (Option ℚ)) := do
  if row.all Option.isSome then return row
  let known := row.zipIdx.filterMap fun (p : Option ℚ × ℕ) => p.1.map fun v => ((p.2 : ℚ), v)
  row.zipIdx.mapM fun (p : Option ℚ × ℕ) =>
    match p.1 with
    | some v => pure (some v)
    | none => do let y ← npInterp known (p.2 : ℚ); pure (some y)

/-- /repo/resistics/time.py:1331-1353 `InterpolateNans.run`: every channel's row is treated.
Simplification: with duplicate channel names the code treats the last duplicate's row twice. -/
def interpolateNans (td : TimeData (Option ℚ)) : Except Err (TimeData (Option ℚ)) := do
  let data ← td.data.mapM interpolateNansRow
  return newTimeData td "InterpolateNans" none (some data)

/-- /repo/resistics/time.py:1404-1426 `RemoveMean.run`. -/
def removeMean (td : TimeData ℚ) : TimeData ℚ :=
  newTimeData td "RemoveMean" none (some (td.data.map fun row => row.map (· - npMean row)))

/-- A scalar or per-channel parameter (`Union[float, Dict[str, float]]`). -/
inductive PerChan where
  | scalar (x : ℚ)
  | dict (d : List (String × ℚ))

/-- One iteration of the loops at /repo/resistics/time.py:1499-1502 and 1576-1579. -/
def perChanStep (d : List (String × ℚ)) (chans : List String) (v : List ℚ) (chan : String) : List ℚ :=
  match d.lookup chan, chanIndex chans chan with
  | some x, some i => v.set i x
  | _, _ => v

/-- The per-row vector built by `_get_add` / `_get_mult` (/repo/resistics/time.py:1494-1503, 1571-1580)
starting from the neutral value.  Simplification: the dictionary is an association list in which the
first entry of a key counts; the vector's dtype is not modelled. -/
def perChanVector (p : PerChan) (neutral : ℚ) (op : ℚ → ℚ → ℚ) (chans : List String) : List ℚ :=
  match p with
  | .scalar x => chans.map fun _ => op neutral x
  | .dict d => chans.foldl (perChanStep d chans) (chans.map fun _ => neutral)

/-- /repo/resistics/time.py:1473-1492 `Add.run`. -/
def addProc (p : PerChan) (td : TimeData ℚ) : TimeData ℚ :=
  newTimeData td "Add" none
    (some (List.zipWith (fun row x => row.map (· + x)) td.data (perChanVector p 0 (· + ·) td.md.chans)))

/-- /repo/resistics/time.py:1550-1569 `Multiply.run`. -/
def multiplyProc (p : PerChan) (td : TimeData ℚ) : TimeData ℚ :=
  newTimeData td "Multiply" none
    (some (List.zipWith (fun row x => row.map (· * x)) td.data (perChanVector p 1 (· * ·) td.md.chans)))

/-- External numerical routines (scipy.signal), as parameters.  Each acts row by row. -/
structure SciPy where
  /-- `sosfiltfilt(butter(...))`: kind of filter, order, normalised band edges, row -/
  sosfilt : String → ℕ → List ℚ → List ℚ → Except Err (List ℚ)
  /-- `decimate(row, q, zero_phase=True)` -/
  decimate : ℕ → List ℚ → Except Err (List ℚ)
  /-- `resample_poly(row, up, down)` -/
  resample : ℕ → ℕ → List ℚ → List ℚ
  /-- `Fraction(x).limit_denominator()` -/
  limitDen : ℚ → ℚ

/-- The assumed behaviour of the external routines: output lengths. -/
structure SciPy.Lawful (sp : SciPy) : Prop where
  sosfilt_length : ∀ k o w r r', sp.sosfilt k o w r = .ok r' → r'.length = r.length
  decimate_length : ∀ q r r', 1 ≤ q → sp.decimate q r = .ok r' → r'.length = (r.length + q - 1) / q
  resample_length : ∀ u d r, 1 ≤ d → (sp.resample u d r).length = (r.length * u + d - 1) / d
  limitDen_nonpos : ∀ x, x ≤ 0 → sp.limitDen x ≤ 0

/-- `data.shape[1]`, the number of columns.  Simplification: 0 for an array without rows. -/
def shape1 {V : Type} (data : List (List V)) : ℕ := (data.head?.map List.length).getD 0

/-- `butter(order, Wn, ...)` for a digital filter: every critical frequency must satisfy `0 < Wn < 1`,
else `ValueError` (scipy 1.7.1, `iirfilter`). -/
def butterCheck (wn : List ℚ) : Except Err (List ℚ) :=
  if wn.all fun w => 0 < w ∧ w < 1 then .ok wn else .error .value

/-- /repo/resistics/time.py:1638-1646 and 1708-1716: the guard of `LowPass` / `HighPass` and the
normalised frequency given to `butter`. -/
def passBand (cutoff : ℚ) (md : TimeMeta) : Except Err (List ℚ) :=
  if md.nyquist < cutoff then .error .procRun
  else butterCheck [cutoff / md.nyquist]

/-- /repo/resistics/time.py:1783-1798: guards of `BandPass` and the normalised band. -/
def bandPassBand (low high : ℚ) (md : TimeMeta) : Except Err (List ℚ) :=
  if high < low then .error .procRun
  else if md.nyquist < high then .error .procRun
  else butterCheck [low / md.nyquist, high / md.nyquist]

/-- /repo/resistics/time.py:1863-1878: guard of `Notch` and the normalised band.  Note that the
*normalised* upper edge is compared with, and replaced by, the Nyquist frequency in Hz (1872-1874). -/
def notchBand (notch : ℚ) (band : Option ℚ) (md : TimeMeta) : Except Err (List ℚ) :=
  let nyquist := md.nyquist
  if nyquist < notch then .error .procRun
  else
    let band := band.getD (1 / 10 * md.fs)
    let low := (notch - band / 2) / nyquist
    let high := (notch + band / 2) / nyquist
    let high := if nyquist < high then nyquist else high
    butterCheck [low, high]

/-- The common tail of the four filters: filter every row (e.g. /repo/resistics/time.py:1647-1650). -/
def filterProc (sp : SciPy) (kind : String) (order : ℕ) (band : Except Err (List ℚ)) (td : TimeData ℚ) :
    Except Err (TimeData ℚ) := do
  let wn ← band
  let data ← td.data.mapM (sp.sosfilt kind order wn)
  return newTimeData td kind none (some data)

/-- /repo/resistics/time.py:1955-1979 `Resample.run`.  `resample_poly` raises `ValueError` when `up` or
`down` is below 1. -/
def resample (sp : SciPy) (newFs : ℚ) (td : TimeData ℚ) : Except Err (TimeData ℚ) := do
  let fs := td.md.fs
  if fs = 0 then throw .zeroDiv
  let frac := sp.limitDen (newFs / fs)
  if frac.num < 1 then throw .value
  let data := td.data.map (sp.resample frac.num.toNat frac.den)
  let nSamples := shape1 data
  let md ← adjustTimeMetadata td.md newFs td.md.firstTime nSamples
  return newTimeData td "Resample" (some md) (some data)

/-- /repo/resistics/time.py:2151-2155: strip factors of two from `n` (the loop runs at most `fuel`
times; `n ≤ fuel` suffices for `n ≥ 1`, see `Lemmas`). For `n = 0` the Python loop does not terminate. -/
def stripTwos : ℕ → ℕ → List ℕ → List ℕ × ℕ
  | 0, n, acc => (acc, n)
  | fuel + 1, n, acc => if n % 2 = 0 then stripTwos fuel (n / 2) (acc ++ [2]) else (acc, n)

/-- /repo/resistics/time.py:2160-2162: `while n % ii == 0`. -/
def stripFactor (ii : ℕ) : ℕ → ℕ → List ℕ → List ℕ × ℕ
  | 0, n, acc => (acc, n)
  | fuel + 1, n, acc => if n % ii = 0 then stripFactor ii fuel (n / ii) (acc ++ [ii]) else (acc, n)

/-- `range(3, stop, 2)`. -/
def oddRange (stop : ℕ) : List ℕ := (List.range ((stop - 3 + 1) / 2)).map fun i => 3 + 2 * i

/-- /repo/resistics/time.py:2135-2165 `_prime_factorisation`, where `root n` is `int(math.sqrt(n))`. -/
def primeFactorisationWith (root : ℕ → ℕ) (n : ℕ) : List ℕ :=
  let (primeList, n) := stripTwos n n []
  if n = 1 then primeList
  else
    let (primeList, n) := (oddRange (root n + 1)).foldl
      (fun (s : List ℕ × ℕ) ii => stripFactor ii s.2 s.2 s.1) (primeList, n)
    if 2 < n then primeList ++ [n] else primeList

/-- `_prime_factorisation` with the exact square root; C22 shows that rounding it makes no difference. -/
def primeFactorisation (n : ℕ) : List ℕ := primeFactorisationWith Nat.sqrt n

/-- /repo/resistics/time.py:2125-2132: group the prime factors; `val` is the current product. -/
def groupFactors (maxSingle : ℕ) : List ℕ → ℕ → List ℕ → List ℕ
  | [], val, acc => acc ++ [val]
  | f :: fs, val, acc =>
      if maxSingle < val * f then groupFactors maxSingle fs f (acc ++ [val])
      else groupFactors maxSingle fs (val * f) acc

/-- /repo/resistics/time.py:2121-2133 `_get_downsample_factors`. -/
def getDownsampleFactors (maxSingle factor : ℕ) : List ℕ :=
  if factor ≤ maxSingle then [factor]
  else groupFactors maxSingle (primeFactorisation factor) 1 []

/-- /repo/resistics/time.py:2058-2061 on one row: decimate by each stage factor, skipping ones. -/
def decimateRow (sp : SciPy) (factors : List ℕ) (row : List ℚ) : Except Err (List ℚ) :=
  factors.foldlM (fun r f => if f = 1 then pure r else sp.decimate f r) row

/-- /repo/resistics/time.py:2046-2074 `Decimate.run` (`factor ≥ 1`, `max_single_factor ≥ 2` are enforced by
pydantic at construction). -/
def decimateProc (sp : SciPy) (maxSingle factor : ℕ) (td : TimeData ℚ) : Except Err (TimeData ℚ) := do
  let factors := getDownsampleFactors maxSingle factor
  let data ← td.data.mapM (decimateRow sp factors)
  let fs := td.md.fs
  if factor = 0 then throw .zeroDiv
  let newFs := fs / factor
  let nSamples := shape1 data
  let md ← adjustTimeMetadata td.md newFs td.md.firstTime nSamples
  return newTimeData td "Decimate" (some md) (some data)

/-- `interp1d(arange(n), row)(x)` for the shifted points used at /repo/resistics/time.py:2255-2258: linear
interpolation between the samples around `x`; `ValueError` outside `[0, n-1]`. -/
def interp1d (row : List ℚ) (x : ℚ) : Except Err ℚ :=
  if x < 0 ∨ (row.length : ℚ) - 1 < x then .error .value
  else npInterp (row.zipIdx.map fun (p : ℚ × ℕ) => ((p.2 : ℚ), p.1)) x

/-- /repo/resistics/time.py:2231-2264 `ShiftTimestamps.run` (`shift > 0` enforced by pydantic). -/
def shiftTimestamps (shift : ℚ) (td : TimeData ℚ) : Except Err (TimeData ℚ) := do
  let md := td.md
  if md.fs = 0 then throw .zeroDiv
  if md.dt ≤ shift then throw .procRun
  let normShift := shift / md.dt
  let nSamples := md.nSamples - 1
  let delta := toTimedelta shift
  let firstTime := md.firstTime + delta
  if md.nSamples < 1 then throw .value  -- interp1d needs at least one point
  let data ← td.data.mapM fun row =>
    (npArange 0 nSamples).mapM fun (i : ℤ) => interp1d row ((i : ℚ) + normShift)
  let md ← adjustTimeMetadata md md.fs firstTime nSamples
  return newTimeData td "ShiftTimestamps" (some md) (some data)

/-- One iteration of the loop at /repo/resistics/time.py:2349-2353. -/
def applyStep {V : Type} (td : TimeData V) (data : List (List V)) (p : String × (List V → List V)) :
    Except Err (List (List V)) :=
  if p.1 ∈ td.md.chans then do
    let row ← td.getChan p.1
    let new := p.2 row
    if new.length = row.length then
      match chanIndex td.md.chans p.1 with
      | none => .error .key
      | some i => .ok (data.set i new)
    else .error .value
  else .ok data

/-- /repo/resistics/time.py:2332-2355 `ApplyFunction.run`.  `junk` is the arbitrary initial content of
`np.empty(shape=...)` (2348).  Simplification: a function whose result is not of the row's size raises `ValueError`
(numpy would also broadcast a single value). -/
def applyFunction {V : Type} (junk : ℕ → ℕ → V) (fncs : List (String × (List V → List V)))
    (td : TimeData V) : Except Err (TimeData V) := do
  let data ← fncs.foldlM (applyStep td) (td.data.mapIdx fun i row => row.mapIdx fun j _ => junk i j)
  return newTimeData td "ApplyFunction" none (some data)

/-- The time data processors of /repo/resistics/time.py with their parameters (numbers without NaN;
`InterpolateNans` is modelled in full on optional values above).  A filter carries its kind, its order and the
band computed from the metadata. -/
inductive Proc where
  | subsection (fromTime toTime : DateTime)
  | interpolateNans
  | removeMean
  | add (p : PerChan)
  | multiply (p : PerChan)
  | lowPass (cutoff : ℚ) (order : ℕ)
  | highPass (cutoff : ℚ) (order : ℕ)
  | bandPass (low high : ℚ) (order : ℕ)
  | notch (freq : ℚ) (band : Option ℚ) (order : ℕ)
  | resample (newFs : ℚ)
  | decimate (maxSingle factor : ℕ)
  | shift (shift : ℚ)
  | apply (junk : ℕ → ℕ → ℚ) (fncs : List (String × (List ℚ → List ℚ)))

/-- The class name of a processor, which names its history record (/repo/resistics/common.py:825-830). -/
def Proc.name : Proc → String
  | .subsection _ _ => "Subsection"
  | .interpolateNans => "InterpolateNans"
  | .removeMean => "RemoveMean"
  | .add _ => "Add"
  | .multiply _ => "Multiply"
  | .lowPass _ _ => "LowPass"
  | .highPass _ _ => "HighPass"
  | .bandPass _ _ _ => "BandPass"
  | .notch _ _ _ => "Notch"
  | .resample _ => "Resample"
  | .decimate _ _ => "Decimate"
  | .shift _ => "ShiftTimestamps"
  | .apply _ _ => "ApplyFunction"

/-- The constraints pydantic enforces when a processor is constructed
(/repo/resistics/time.py:2029-2030, 2208). -/
def Proc.Valid : Proc → Prop
  | .decimate maxSingle factor => 2 ≤ maxSingle ∧ 1 ≤ factor
  | .shift s => 0 < s
  | _ => True

/-- `process.run(time_data)` for each processor.  These data have no NaN, so `InterpolateNans` returns them
unchanged (/repo/resistics/time.py:1370-1371; see `C24_interpolate_nans_no_nan`). -/
def Proc.run (sp : SciPy) : Proc → TimeData ℚ → Except Err (TimeData ℚ)
  | .subsection f t, td => Resistics.subsection f t td
  | .interpolateNans, td => .ok (newTimeData td "InterpolateNans" none (some td.data))
  | .removeMean, td => .ok (Resistics.removeMean td)
  | .add p, td => .ok (addProc p td)
  | .multiply p, td => .ok (multiplyProc p td)
  | .lowPass c o, td => filterProc sp "LowPass" o (passBand c td.md) td
  | .highPass c o, td => filterProc sp "HighPass" o (passBand c td.md) td
  | .bandPass l h o, td => filterProc sp "BandPass" o (bandPassBand l h td.md) td
  | .notch f b o, td => filterProc sp "Notch" o (notchBand f b td.md) td
  | .resample f, td => Resistics.resample sp f td
  | .decimate m f, td => decimateProc sp m f td
  | .shift s, td => shiftTimestamps s td
  | .apply j f, td => applyFunction j f td

/-- /repo/resistics/letsgo.py:281-300 `run_time_processors`: run the configured processors in order. -/
def runTimeProcessors (sp : SciPy) (procs : List Proc) (td : TimeData ℚ) : Except Err (TimeData ℚ) :=
  procs.foldlM (fun td p => p.run sp td) td

end Resistics
