import Verif.Model.Process
import Verif.Model.SpecPlot
import Verif.Model.Phase

/-!
# Model of spectra of recordings with one channel

The squeeze in the windower (/repo/resistics/window.py:1387-1389) removes the axis of the channels when there is one channel, so that the
arrays of a level have two axes, windows × samples, and all later arrays windows × frequencies.
-/

namespace Resistics

/-- /repo/resistics/spectra.py:76-99 `SpectraData` whose arrays have two axes. -/
structure FlatSpec (V : Type) where
  md : SpecMeta
  data : List (ℕ × List (List V))
  deriving DecidableEq, Repr

/-- Construction of `SpectraData`: `__init__` reads `data[0]` (/repo/resistics/spectra.py:97). -/
def mkFlat {V : Type} (md : SpecMeta) (data : List (ℕ × List (List V))) : Except Err (FlatSpec V) := do
  let _ ← dictGet data 0
  return { md := md, data := data }

/-- /repo/resistics/spectra.py:101-105 `get_level`. -/
def FlatSpec.getLevel {V : Type} (d : FlatSpec V) (level : ℤ) : Except Err (List (List V)) :=
  if (d.md.nLevels : ℤ) ≤ level then .error .value else levelGet d.data level

/-- /repo/resistics/spectra.py:107-114 `get_chan`: `data[level][..., idx, :]` is one row of an array with two axes. -/
def FlatSpec.getChan {V : Type} (d : FlatSpec V) (level : ℤ) (chan : String) : Except Err (List V) := do
  if chan ∉ d.md.chans then throw .chanNotFound
  let idx ← listIndex d.md.chans chan
  let arr ← levelGet d.data level
  pyIndex arr idx

/-- /repo/resistics/spectra.py:116-124 `get_chans`: `data[level][..., indices, :]` picks rows of an array with two axes. -/
def FlatSpec.getChans {V : Type} (d : FlatSpec V) (level : ℤ) (chans : List String) : Except Err (List (List V)) := do
  if ∃ c ∈ chans, c ∉ d.md.chans then throw .chanNotFound
  let indices ← chans.mapM (listIndex d.md.chans)
  let arr ← levelGet d.data level
  indices.mapM fun i => pyIndex arr i

/-- /repo/resistics/spectra.py:126-131 `get_freq`.  Simplification: the final `np.squeeze`, which drops the axis of a single window, is not
modelled. -/
def FlatSpec.getFreq {V : Type} (d : FlatSpec V) (level idx : ℤ) : Except Err (List V) := do
  let lm ← pyIndex d.md.levels level
  if idx < 0 ∨ (lm.nFreqs : ℤ) ≤ idx then throw .value
  let arr ← levelGet d.data level
  arr.mapM fun row => pyIndex row idx

/-- /repo/resistics/spectra.py:132-140 `get_mag_phs`. -/
noncomputable def FlatSpec.getMagPhs (d : FlatSpec ℂ) (level : ℤ) (unwrap : Bool) : Except Err (List (List ℝ) × List (List ℝ)) := do
  let spec ← levelGet d.data level
  return (spec.map fun row => row.map fun z => ‖z‖,
    spec.map fun row => if unwrap then npUnwrap (row.map Complex.arg) else row.map Complex.arg)

/-- /repo/resistics/spectra.py:142-175 `get_timestamps`. -/
def FlatSpec.getTimestamps {V : Type} (d : FlatSpec V) (level : ℤ) : Except Err (List DateTime) := do
  if (d.md.nLevels : ℤ) ≤ level then throw .value
  let lm ← pyIndex d.md.levels level
  getWinStarts d.md.refTime lm.winSize lm.olapSize lm.fs lm.nWins.toNat lm.indexOffset

/-! ## Processes -/

/-- The 2-d array of a windowed level of one channel. -/
def winArr2 {V : Type} : WinArr V → Except Err (List (List V))
  | .d2 w => .ok w
  | _ => .error .other

/-- One level of `FourierTransform.run` (/repo/resistics/spectra.py:488-501, 507-544): detrending, the product with the window function and the
transform work along the last axis. -/
def flatFourierLevel {V W : Type} (nfl : ℕ → ℕ) (ft : ℕ → List V → List W) (win : WinData V) (ilevel : ℕ) :
    Except Err (List (List W) × SpecLevelMeta) := do
  let lm ← pyIndex win.md.levels (ilevel : ℤ)
  let n := nfl lm.winSize.toNat
  let raw ← win.getLevel ilevel
  let arr ← winArr2 raw
  return (arr.map fun row => ft n row, specLevelMeta lm (rfftfreq n lm.fs))

/-- /repo/resistics/spectra.py:463-505 `FourierTransform.run`. -/
def flatFourier {V W : Type} (nfl : ℕ → ℕ) (ft : ℕ → List V → List W) (win : WinData V) : Except Err (FlatSpec W) := do
  let out ← (List.range win.md.nLevels).mapM (flatFourierLevel nfl ft win)
  mkFlat (specMetaOf win.md (out.map Prod.snd) "FourierTransform") ((out.map Prod.fst).zipIdx.map fun q => (q.2, q.1))

/-- Body of the loop at /repo/resistics/spectra.py:681-691, with 698-744: the interpolation works along the last axis. -/
def flatEvalLevel {V : Type} [AddCommGroup V] [Module ℚ V] (p : DecParams ℚ) (spec : FlatSpec V) (ilevel : ℕ) :
    Except Err (List (List V) × SpecLevelMeta) := do
  let lm ← pyIndex spec.md.levels (ilevel : ℤ)
  let evalFreqs ← p.getEvalFreqs ilevel
  let arr ← spec.getLevel ilevel
  let idxs ← evalFreqs.mapM (evalIndex lm.freqs)
  let out ← arr.mapM fun row => idxs.mapM (evalAt row)
  return (out, evalLevelMeta lm evalFreqs)

/-- /repo/resistics/spectra.py:656-696 `EvaluationFreqs.run`. -/
def flatEvals {V : Type} [AddCommGroup V] [Module ℚ V] (p : DecParams ℚ) (spec : FlatSpec V) : Except Err (FlatSpec V) := do
  let out ← (List.range spec.md.nLevels).mapM (flatEvalLevel p spec)
  mkFlat { spec.md with levels := out.map Prod.snd, history := spec.md.history ++ ["EvaluationFreqs"] }
    ((out.map Prod.fst).zipIdx.map fun q => (q.2, q.1))

/-- One level of the smoothers (/repo/resistics/spectra.py:894-901, 967-971), which work along the last axis. -/
def flatSmoothLevel {V : Type} (filt : ℕ → List V → List V) (spec : FlatSpec V) (ilevel : ℕ) : Except Err (List (List V)) := do
  let lm ← pyIndex spec.md.levels (ilevel : ℤ)
  let arr ← spec.getLevel ilevel
  return arr.map fun row => filt lm.nFreqs row

/-- The smoothers (/repo/resistics/spectra.py:875-905, 948-975), see `smoothRun`. -/
def flatSmooth {V : Type} (name : String) (filt : ℕ → List V → List V) (spec : FlatSpec V) : Except Err (FlatSpec V) := do
  let out ← (List.range spec.md.nLevels).mapM (flatSmoothLevel filt spec)
  mkFlat { spec.md with history := spec.md.history ++ [name] } (out.zipIdx.map fun q => (q.2, q.1))

/-- One channel of `SensorCalibrator.run` (/repo/resistics/calibrate.py:519-532): `data[ilevel][:, idx]` has one axis, so that
`chan_data[:, np.newaxis, :]` in `_calibrate` (calibrate.py:469) is an `IndexError`. -/
def flatCalibrateChan (md : SpecMeta) (get : String → Option CalData) (chan : String) : Except Err Unit :=
  match get chan with
  | none => .ok ()
  | some _ => if md.nLevels = 0 then .ok () else .error .index

/-- /repo/resistics/calibrate.py:512-535 `SensorCalibrator.run`. -/
def flatCalibrate {W : Type} (sel : Option (List String)) (get : String → Option CalData) (d : FlatSpec W) : Except Err (FlatSpec W) := do
  let _ ← (calChans sel d.md.chans).mapM (flatCalibrateChan d.md get)
  mkFlat { d.md with history := d.md.history ++ ["SensorCalibrator"] } d.data

/-- The steps from time data to data at the evaluation frequencies (/repo/resistics/letsgo.py:641-647), for one channel and smoothers as
processors of spectra. -/
noncomputable def Config.flatToEvals (c : Config) (smoothers : List (String × (ℕ → List ℂ → List ℂ))) (refTime : DateTime) (td : TimeData ℚ) :
    Except Err (DecParams ℚ × FlatSpec ℂ) := do
  let td ← runTimeProcessors c.sp c.timeProcs td
  let p ← c.decSetup.run c.defaultFreqs td.md.fs
  let dec ← c.decimate p td
  let win ← c.window refTime dec
  let spec ← flatFourier c.nfl c.ft win
  let spec ← smoothers.foldlM (fun s f => flatSmooth f.1 f.2 s) spec
  let evals ← flatEvals p spec
  return (p, evals)

/-! ## Plots -/

/-- `np.mean(np.absolute(arr), axis=0)` of an array of windows with `freqs` values. -/
def flatMeanMag {V : Type} [Zero V] (mag : V → ℚ) (freqs : ℕ) (arr : List (List V)) : List (Option ℚ) :=
  (List.range freqs).map fun k => if arr = [] then none else some ((arr.map fun row => mag (row.getD k 0)).sum / (arr.length : ℚ))

/-- /repo/resistics/spectra.py:261-309 `_add_stack_data` for a stack with one axis: `data.shape[0]` is the number of frequencies, and
`data[idx, :]` an `IndexError`. -/
def flatAddStack (stack : List (Option ℚ)) : Except Err (List StackLine) := if stack = [] then .ok [] else .error .index

/-- The body of the loop at /repo/resistics/spectra.py:198-205. -/
def FlatSpec.plotLevel {V : Type} [Zero V] (s : FlatSpec V) (mag : V → ℚ) (level : ℕ) : Except Err (List StackLine) := do
  let _ ← pyIndex s.md.levels (level : ℤ)
  let arr ← dictGet s.data level
  let _ ← nextColor level
  flatAddStack (flatMeanMag mag (arr.headD []).length arr)

/-- /repo/resistics/spectra.py:177-206 `SpectraData.plot`. -/
def FlatSpec.plot {V : Type} [Zero V] (s : FlatSpec V) (mag : V → ℚ) : Except Err (List (List StackLine)) :=
  (List.range s.md.nLevels).mapM (s.plotLevel mag)

end Resistics
