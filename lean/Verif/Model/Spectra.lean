import Mathlib.Analysis.SpecialFunctions.Complex.Circle
import Verif.Model.Window

/-!
# Model of /repo/resistics/spectra.py

Values of a spectrum are elements of any type `V` on which the rationals act (complex numbers, or pairs of
rationals in the examples).  Simplification: the array of a level is a windows × channels × frequencies list; the
squeezed shapes of `Verif.Model.Window` are not followed further.
-/

namespace Resistics

/-- /repo/resistics/spectra.py:26-47 `SpectraLevelMetadata`. -/
structure SpecLevelMeta where
  fs : ℚ
  nWins : ℤ
  winSize : ℤ
  olapSize : ℤ
  indexOffset : ℤ
  nFreqs : ℕ
  freqs : List ℚ
  deriving DecidableEq, Repr

/-- The part of `SpectraMetadata` that processing depends on (/repo/resistics/spectra.py:50-73). -/
structure SpecMeta where
  fs : List ℚ
  chans : List String
  nLevels : ℕ
  firstTime : DateTime
  lastTime : DateTime
  levels : List SpecLevelMeta
  refTime : DateTime
  history : List String
  deriving DecidableEq, Repr

/-- One level of a spectrum: windows × channels × frequencies. -/
abbrev SpecArr (V : Type) := List (List (List V))

/-- /repo/resistics/spectra.py:76-99 `SpectraData`. -/
structure SpecData (V : Type) where
  md : SpecMeta
  data : List (ℕ × SpecArr V)
  deriving DecidableEq, Repr

/-- `data[level]` for an integer key. -/
def levelGet {β : Type} (d : List (ℕ × β)) (level : ℤ) : Except Err β :=
  if level < 0 then .error .key else dictGet d level.toNat

/-- Construction of `SpectraData`: `__init__` reads `data[0]` (/repo/resistics/spectra.py:97). -/
def mkSpecData {V : Type} (md : SpecMeta) (data : List (ℕ × SpecArr V)) : Except Err (SpecData V) := do
  let _ ← dictGet data 0
  return { md := md, data := data }

/-- /repo/resistics/spectra.py:101-105 `get_level`. -/
def SpecData.getLevel {V : Type} (d : SpecData V) (level : ℤ) : Except Err (SpecArr V) :=
  if (d.md.nLevels : ℤ) ≤ level then .error .value else levelGet d.data level

/-- `arr[..., idx, :]` of one window array. -/
def chanOf {V : Type} (arr : SpecArr V) (idx : ℤ) : Except Err (List (List V)) :=
  arr.mapM fun win => pyIndex win idx

/-- /repo/resistics/spectra.py:107-114 `get_chan`. -/
def SpecData.getChan {V : Type} (d : SpecData V) (level : ℤ) (chan : String) : Except Err (List (List V)) := do
  if chan ∉ d.md.chans then throw .chanNotFound
  let idx ← listIndex d.md.chans chan
  let arr ← levelGet d.data level
  chanOf arr idx

/-- /repo/resistics/spectra.py:116-124 `get_chans`: windows × chosen channels × frequencies. -/
def SpecData.getChans {V : Type} (d : SpecData V) (level : ℤ) (chans : List String) : Except Err (SpecArr V) := do
  if ∃ c ∈ chans, c ∉ d.md.chans then throw .chanNotFound
  let indices ← chans.mapM (listIndex d.md.chans)
  let arr ← levelGet d.data level
  arr.mapM fun win => indices.mapM fun i => pyIndex win i

/-- `arr[..., idx]`: windows × channels. -/
def freqOf {V : Type} (arr : SpecArr V) (idx : ℤ) : Except Err (List (List V)) :=
  arr.mapM fun win => win.mapM fun row => pyIndex row idx

/-- /repo/resistics/spectra.py:126-131 `get_freq`.  Simplification: the final `np.squeeze`, which drops axes of
size one, is not modelled. -/
def SpecData.getFreq {V : Type} (d : SpecData V) (level idx : ℤ) : Except Err (List (List V)) := do
  let lm ← pyIndex d.md.levels level
  if idx < 0 ∨ (lm.nFreqs : ℤ) ≤ idx then throw .value
  let arr ← levelGet d.data level
  freqOf arr idx

/-- /repo/resistics/spectra.py:142-175 `get_timestamps`. -/
def SpecData.getTimestamps {V : Type} (d : SpecData V) (level : ℤ) : Except Err (List DateTime) := do
  if (d.md.nLevels : ℤ) ≤ level then throw .value
  let lm ← pyIndex d.md.levels level
  getWinStarts d.md.refTime lm.winSize lm.olapSize lm.fs lm.nWins.toNat lm.indexOffset

/-! ## Fourier transform -/

/-- `scipy.fft.rfftfreq(n, d=1/fs)`: `k * fs / n` for `k = 0 .. n/2`.  `n` is at least one. -/
def rfftfreq (n : ℕ) (fs : ℚ) : List ℚ := (List.range (n / 2 + 1)).map fun (k : ℕ) => (k : ℚ) * fs / n

/-- /repo/resistics/spectra.py:555-562 `_get_level_metadata`. -/
def specLevelMeta (lm : WinLevelMeta) (freqs : List ℚ) : SpecLevelMeta :=
  { fs := lm.fs, nWins := lm.nWins, winSize := lm.winSize, olapSize := lm.olapSize, indexOffset := lm.indexOffset,
    nFreqs := freqs.length, freqs := freqs }

/-- The 3-d array of a windowed level.  Simplification: other shapes are not followed (`other`). -/
def winArr3 {V : Type} : WinArr V → Except Err (List (List (List V)))
  | .d3 w => .ok w
  | _ => .error .other

/-- One level of `FourierTransform.run` (/repo/resistics/spectra.py:488-501): `nfl` is `next_fast_len`, `ft`
transforms one row of samples to `n` points. -/
def fourierLevel {V W : Type} (nfl : ℕ → ℕ) (ft : ℕ → List V → List W) (win : WinData V) (ilevel : ℕ) :
    Except Err (SpecArr W × SpecLevelMeta) := do
  let lm ← pyIndex win.md.levels (ilevel : ℤ)
  let n := nfl lm.winSize.toNat
  let raw ← win.getLevel ilevel
  let arr ← winArr3 raw
  return (arr.map fun w => w.map fun row => ft n row, specLevelMeta lm (rfftfreq n lm.fs))

/-- /repo/resistics/spectra.py:564-572 `_get_metadata`. -/
def specMetaOf (md : WinMeta) (levels : List SpecLevelMeta) (name : String) : SpecMeta :=
  { fs := md.fs, chans := md.chans, nLevels := md.nLevels, firstTime := md.firstTime, lastTime := md.lastTime,
    levels := levels, refTime := md.refTime, history := md.history ++ [name] }

/-- /repo/resistics/spectra.py:463-505 `FourierTransform.run`. -/
def fourierRun {V W : Type} (nfl : ℕ → ℕ) (ft : ℕ → List V → List W) (win : WinData V) :
    Except Err (SpecData W) := do
  let out ← (List.range win.md.nLevels).mapM (fourierLevel nfl ft win)
  mkSpecData (specMetaOf win.md (out.map Prod.snd) "FourierTransform")
    ((out.map Prod.fst).zipIdx.map fun q => (q.2, q.1))

/-- `scipy.signal.detrend` of one row, by type (/repo/resistics/spectra.py:539-540): subtract nothing, the mean, or
the least-squares line. -/
inductive Detrend where
  | none | constant | linear
  deriving DecidableEq, Repr

/-- Mean of a row of real numbers. -/
noncomputable def realMean (row : List ℝ) : ℝ := row.sum / row.length

/-- Slope of the least-squares line through `(i, row[i])`. -/
noncomputable def lsSlope (row : List ℝ) : ℝ :=
  ((row.zipIdx.map fun (p : ℝ × ℕ) => ((p.2 : ℝ) - ((row.length : ℝ) - 1) / 2) * p.1).sum) /
  ((row.zipIdx.map fun (p : ℝ × ℕ) => ((p.2 : ℝ) - ((row.length : ℝ) - 1) / 2) ^ 2).sum)

/-- `signal.detrend(row, type=...)`. -/
noncomputable def detrendRow : Detrend → List ℝ → List ℝ
  | .none, row => row
  | .constant, row => row.map fun x => x - realMean row
  | .linear, row => row.zipIdx.map fun (p : ℝ × ℕ) =>
      p.1 - (realMean row + lsSlope row * ((p.2 : ℝ) - ((row.length : ℝ) - 1) / 2))

/-- `scipy.fft.rfft(x, n, norm="ortho")` of a real row: zero-padded (or cut) to `n` points, coefficients
`0 .. n/2`. -/
noncomputable def rfftOrtho (n : ℕ) (x : List ℝ) : List ℂ :=
  (List.range (n / 2 + 1)).map fun (k : ℕ) =>
    (((x.take n).zipIdx.map fun (p : ℝ × ℕ) =>
      (p.1 : ℂ) * Complex.exp (-(2 * Real.pi * k * p.2 / n : ℝ) * Complex.I)).sum) / (Real.sqrt n : ℂ)

/-- /repo/resistics/spectra.py:507-544 `_get_level_data`, one row: detrend, multiply by the window function
(`coeffs`, a parameter: the values of `scipy.signal.get_window`), transform.  Simplification: exact arithmetic. -/
noncomputable def fourierRow (d : Detrend) (coeffs : ℕ → List ℝ) (n : ℕ) (row : List ℝ) : List ℂ :=
  rfftOrtho n (List.zipWith (fun x c => x * c) (detrendRow d row) (coeffs row.length))

/-! ## Evaluation frequencies -/

/-- /repo/resistics/spectra.py:735-736: position of an evaluation frequency in the frequency array. -/
def evalIndex (freqs : List ℚ) (f : ℚ) : Except Err ℚ :=
  npInterp (freqs.zipIdx.map fun (p : ℚ × ℕ) => (p.1, (p.2 : ℚ))) f

/-- /repo/resistics/spectra.py:737-744, one value. -/
def evalAt {V : Type} [AddCommGroup V] [Module ℚ V] (row : List V) (idx : ℚ) : Except Err V := do
  let lo ← pyIndex row ⌊idx⌋
  let hi ← pyIndex row ⌈idx⌉
  let portion := idx - (⌊idx⌋ : ℚ)
  return lo + portion • (hi - lo)

/-- /repo/resistics/spectra.py:698-744 `_get_level_data`. -/
def evalLevelData {V : Type} [AddCommGroup V] [Module ℚ V] (freqs : List ℚ) (arr : SpecArr V)
    (evalFreqs : List ℚ) : Except Err (SpecArr V) := do
  let idxs ← evalFreqs.mapM (evalIndex freqs)
  arr.mapM fun win => win.mapM fun row => idxs.mapM (evalAt row)

/-- /repo/resistics/spectra.py:746-753 `_get_level_metadata`. -/
def evalLevelMeta (lm : SpecLevelMeta) (evalFreqs : List ℚ) : SpecLevelMeta :=
  { lm with nFreqs := evalFreqs.length, freqs := evalFreqs }

/-- Body of the loop at /repo/resistics/spectra.py:681-691. -/
def evalLevel {V : Type} [AddCommGroup V] [Module ℚ V] (p : DecParams ℚ) (spec : SpecData V) (ilevel : ℕ) :
    Except Err (SpecArr V × SpecLevelMeta) := do
  let lm ← pyIndex spec.md.levels (ilevel : ℤ)
  let evalFreqs ← p.getEvalFreqs ilevel
  let arr ← spec.getLevel ilevel
  let out ← evalLevelData lm.freqs arr evalFreqs
  return (out, evalLevelMeta lm evalFreqs)

/-- /repo/resistics/spectra.py:656-696 `EvaluationFreqs.run`. -/
def evalFreqsRun {V : Type} [AddCommGroup V] [Module ℚ V] (p : DecParams ℚ) (spec : SpecData V) :
    Except Err (SpecData V) := do
  let out ← (List.range spec.md.nLevels).mapM (evalLevel p spec)
  mkSpecData { spec.md with levels := out.map Prod.snd, history := spec.md.history ++ ["EvaluationFreqs"] }
    ((out.map Prod.fst).zipIdx.map fun q => (q.2, q.1))

/-! ## Smoothing -/

/-- /repo/resistics/spectra.py:907-914 `_get_smooth_length`. -/
def getSmoothLength (lengthProportion : ℚ) (dataSize : ℕ) : ℤ :=
  let length := pyInt (lengthProportion * dataSize)
  let length := if length % 2 = 0 then length + 1 else length
  if length < 1 then 1 else length

/-- Index with the boundary mode "reflect" of `scipy.ndimage` (`d c b a | a b c d | d c b a`). -/
def reflectIndex (n : ℕ) (j : ℤ) : ℕ :=
  let m := j % (2 * n : ℕ)
  if m < n then m.toNat else (2 * n - 1 - m).toNat

/-- `scipy.ndimage.uniform_filter1d(row, length)` for an odd length: the mean over `length` points centred at each
point, with reflection at the ends. -/
def uniformFilter {V : Type} [AddCommGroup V] [Module ℚ V] (row : List V) (length : ℤ) : List V :=
  (List.range row.length).map fun (i : ℕ) =>
    (1 / (length : ℚ)) • ((List.range length.toNat).map fun (d : ℕ) =>
      (row[reflectIndex row.length ((i : ℤ) - length / 2 + d)]?).getD 0).sum

/-- The loop shared by the smoothers: level by level (/repo/resistics/spectra.py:894-901, 967-971). -/
def smoothLevel {V : Type} (filt : ℕ → List V → List V) (spec : SpecData V) (ilevel : ℕ) :
    Except Err (SpecArr V) := do
  let lm ← pyIndex spec.md.levels (ilevel : ℤ)
  let arr ← spec.getLevel ilevel
  return arr.map fun win => win.map fun row => filt lm.nFreqs row

/-- The metadata are copied and the data replaced (/repo/resistics/spectra.py:902-905, 972-975). -/
def smoothRun {V : Type} (name : String) (filt : ℕ → List V → List V) (spec : SpecData V) :
    Except Err (SpecData V) := do
  let out ← (List.range spec.md.nLevels).mapM (smoothLevel filt spec)
  mkSpecData { spec.md with history := spec.md.history ++ [name] } (out.zipIdx.map fun q => (q.2, q.1))

/-- /repo/resistics/spectra.py:875-905 `SpectraSmootherUniform.run`. -/
def smoothUniformRun {V : Type} [AddCommGroup V] [Module ℚ V] (lengthProportion : ℚ) (spec : SpecData V) :
    Except Err (SpecData V) :=
  smoothRun "SpectraSmootherUniform" (fun n row => uniformFilter row (getSmoothLength lengthProportion n)) spec

/-- /repo/resistics/spectra.py:948-975 `SpectraSmootherGaussian.run`; `gauss s` is
`scipy.ndimage.gaussian_filter1d(·, s)`. The code passes 1, not its `sigma`.
Simplification: the shared loop also looks up the level metadata, which the code does not need here. -/
def smoothGaussianRun {V : Type} (gauss : ℚ → List V → List V) (_sigma : ℚ) (spec : SpecData V) :
    Except Err (SpecData V) :=
  smoothRun "SpectraSmootherGaussian" (fun _ row => gauss 1 row) spec

end Resistics
