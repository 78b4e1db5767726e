import Mathlib.Analysis.SpecialFunctions.Log.Base
import Verif.Model.Timestamps

/-!
# Model of the plots of spectra in /repo/resistics/spectra.py

`mag` is `np.absolute` as computed: a number of the array, taken as rational, for every value of the spectrum.  Means are exact.
A mean that is not a number (of no windows) is `none`.
-/

namespace Resistics

/-- The start of the day of a time. -/
def dayStart (t : DateTime) : DateTime := (⌊t / 86400⌋ : ℚ) * 86400

/-- The start of the first day that starts at or after a time: `ceil("D")`. -/
def dayCeil (t : DateTime) : DateTime := (⌈t / 86400⌉ : ℚ) * 86400

/-- The rest of a division, `%` of Python for a positive divisor. -/
def restOf (x step : ℚ) : ℚ := x - (⌊x / step⌋ : ℚ) * step

/-- pandas: the origin of the groups: the day of the first time and the offset (`origin="start_day"`). -/
def groupOrigin (offset : TimeDelta) (times : List DateTime) : DateTime := dayStart (times.headD 0) + offset

/-- pandas: the start of the first group. -/
def groupFirst (step offset : TimeDelta) (times : List DateTime) : DateTime :=
  times.headD 0 - restOf (times.headD 0 - groupOrigin offset times) step

/-- pandas: the end of the last group. -/
def groupLast (step offset : TimeDelta) (times : List DateTime) : DateTime :=
  times.getLastD 0 + (step - restOf (times.getLastD 0 - groupOrigin offset times) step)

/-- pandas: the starts of the groups. -/
def groupStarts (step offset : TimeDelta) (times : List DateTime) : List DateTime :=
  (List.range ⌊(groupLast step offset times - groupFirst step offset times) / step⌋.toNat).map fun (k : ℕ) =>
    groupFirst step offset times + (k : ℚ) * step

/-- The positions of the times in a group. -/
def groupMembers (step : TimeDelta) (times : List DateTime) (start : DateTime) : List ℕ :=
  (List.range times.length).filter fun i => decide (start ≤ times.getD i 0 ∧ times.getD i 0 < start + step)

/-- `groupby(pd.Grouper(freq=step, offset=offset))` of a frame that numbers its rows, as it is iterated over: groups without rows
are included.  Simplifications: the times increase; the group length is fixed (no months); a length of zero or less is an error. -/
def grouper (step offset : TimeDelta) (times : List DateTime) : Except Err (List (DateTime × List ℕ)) :=
  if step ≤ 0 then .error .value
  else if times = [] then .ok []
  else .ok ((groupStarts step offset times).map fun start => (start, groupMembers step times start))

/-- `np.mean(np.absolute(arr), axis=0)` of an array of windows with `chans` rows of `freqs` values. -/
def meanMag {V : Type} [Zero V] (mag : V → ℚ) (chans freqs : ℕ) (arr : SpecArr V) : List (List (Option ℚ)) :=
  (List.range chans).map fun c => (List.range freqs).map fun k =>
    if arr = [] then none
    else some ((arr.map fun win => mag ((win.getD c []).getD k 0)).sum / (arr.length : ℚ))

/-- The number of rows of an array of a level. -/
def arrChans {V : Type} (arr : SpecArr V) : ℕ := (arr.headD []).length

/-- The number of values in a row of an array of a level. -/
def arrFreqs {V : Type} (arr : SpecArr V) : ℕ := ((arr.headD []).headD []).length

/-- A line of a stack plot: the row of the figure (from 1), the frequencies, the values and whether it has a legend entry. -/
structure StackLine where
  row : ℕ
  freqs : List ℚ
  values : List (Option ℚ)
  legend : Bool
  deriving DecidableEq, Repr

/-- `apply_lttb` of a row that may be without numbers.  Simplification: the downsampling of a row without numbers is an error. -/
def applyLttbRow (d : DType) (maxPts : Option ℤ) (row : List (Option ℚ)) : Except Err (List ℚ × List (Option ℚ)) :=
  if none ∈ row then
    if (maxPts.getD row.length) < (row.length : ℤ) then .error .other
    else .ok ((List.range row.length).map fun (i : ℕ) => (i : ℚ), row)
  else (applyLttb d (row.map fun v => v.getD 0) maxPts).map fun r => (r.1, r.2.map some)

/-- The body of the loop at /repo/resistics/spectra.py:297-308; a figure of `rows` rows. -/
def stackLine (d : DType) (maxPts : Option ℤ) (rows : ℕ) (freqs : List ℚ) (p : List (Option ℚ) × ℕ) : Except Err StackLine := do
  let r ← applyLttbRow d maxPts p.1
  let fs ← r.1.mapM fun i => pyIndex freqs (pyInt i)
  if p.2 < rows then .ok { row := p.2 + 1, freqs := fs, values := r.2, legend := p.2 == 0 } else .error .other

/-- /repo/resistics/spectra.py:261-309 `_add_stack_data`: the lines that are added. -/
def addStackData (d : DType) (maxPts : Option ℤ) (rows : ℕ) (freqs : List ℚ) (stack : List (List (Option ℚ))) :
    Except Err (List StackLine) :=
  stack.zipIdx.mapM (stackLine d maxPts rows freqs)

/-- `next(colors)` for the colour number `i`: a `StopIteration` when there is none left. -/
def nextColor (i : ℕ) : Except Err ℕ := if plotlyColors ≤ i then .error .other else .ok i

/-- The body of the loop at /repo/resistics/spectra.py:198-205. -/
def SpecData.plotLevel {V : Type} [Zero V] (s : SpecData V) (mag : V → ℚ) (d : DType) (maxPts : Option ℤ) (level : ℕ) :
    Except Err (List StackLine) := do
  let lm ← pyIndex s.md.levels (level : ℤ)
  let arr ← dictGet s.data level
  let _ ← nextColor level
  addStackData d maxPts s.md.chans.length lm.freqs (meanMag mag (arrChans arr) (arrFreqs arr) arr)

/-- /repo/resistics/spectra.py:177-206 `SpectraData.plot`: the lines of every level.  `d` is the number format of the magnitudes. -/
def SpecData.plot {V : Type} [Zero V] (s : SpecData V) (mag : V → ℚ) (d : DType) (maxPts : Option ℤ) :
    Except Err (List (List StackLine)) :=
  (List.range s.md.nLevels).mapM (s.plotLevel mag d maxPts)

/-- `SpectraData.get_timestamps` (/repo/resistics/spectra.py:142-175) with the resolution of pandas. -/
def SpecData.windowStarts {V : Type} (s : SpecData V) (level : ℤ) : Except Err (List DateTime) := do
  if (s.md.nLevels : ℤ) ≤ level then .error .value
  else
    let lm ← pyIndex s.md.levels level
    winStartsEstimate s.md.refTime lm.winSize lm.olapSize lm.fs lm.nWins.toNat lm.indexOffset

/-- /repo/resistics/spectra.py:239-242: the grouping, all days of the recording if none is given. -/
def SpecData.groupLength {V : Type} (s : SpecData V) (grouping : Option TimeDelta) : TimeDelta :=
  grouping.getD (dayCeil (pandasTime s.md.lastTime) - dayStart (pandasTime s.md.firstTime))

/-- `self.data[level][group["local"]]` and its mean (/repo/resistics/spectra.py:255 and 342). -/
def SpecData.groupStack {V : Type} [Zero V] (s : SpecData V) (mag : V → ℚ) (level : ℤ) (members : List ℕ) :
    Except Err (List (List (Option ℚ))) := do
  let arr ← levelGet s.data level
  let wins ← members.mapM fun (i : ℕ) => pyIndex arr (i : ℤ)
  return meanMag mag (arrChans arr) (arrFreqs arr) wins

/-- The body of the loop at /repo/resistics/spectra.py:254-258. -/
def SpecData.plotGroup {V : Type} [Zero V] (s : SpecData V) (mag : V → ℚ) (d : DType) (maxPts : Option ℤ) (level : ℤ)
    (freqs : List ℚ) (p : (DateTime × List ℕ) × ℕ) : Except Err (DateTime × List StackLine) := do
  let stack ← s.groupStack mag level p.1.2
  let _ ← nextColor p.2
  let lines ← addStackData d maxPts s.md.chans.length freqs stack
  return (p.1.1, lines)

/-- /repo/resistics/spectra.py:208-259 `plot_level_stack`: the lines of each group, with the start of the group as legend. -/
def SpecData.plotLevelStack {V : Type} [Zero V] (s : SpecData V) (mag : V → ℚ) (d : DType) (level : ℤ) (maxPts : Option ℤ)
    (grouping : Option TimeDelta) (offset : TimeDelta) : Except Err (List (DateTime × List StackLine)) := do
  let lm ← pyIndex s.md.levels level
  let times ← s.windowStarts level
  let groups ← grouper (s.groupLength grouping) offset times
  groups.zipIdx.mapM (s.plotGroup mag d maxPts level lm.freqs)

/-- A map of a section: the row of the figure, the values for every frequency and group, the middles of the groups, the
frequencies, the ends of the colour scale and its ticks. -/
structure SectionMap where
  row : ℕ
  z : List (List ℝ)
  times : List DateTime
  freqs : List ℚ
  zMin : ℤ
  zMax : ℤ
  ticks : List ℤ

/-- `np.arange(z_min, z_max + 1)`. -/
def decades (zMin zMax : ℤ) : List ℤ := (List.range (zMax + 1 - zMin).toNat).map fun (i : ℕ) => zMin + (i : ℤ)

/-- `z.min()` and `z.max()` of numbers; no numbers are a `ValueError`. -/
noncomputable def leastOf : List ℝ → Except Err ℝ
  | [] => .error .value
  | x :: xs => .ok (xs.foldl min x)

/-- See `leastOf`. -/
noncomputable def greatestOf : List ℝ → Except Err ℝ
  | [] => .error .value
  | x :: xs => .ok (xs.foldl max x)

/-- The logarithm of a mean magnitude.  `np.arange` fails (a `ValueError`) when the least or the greatest logarithm is not a number
or infinite, hence for a mean of no windows or a magnitude of zero (/repo/resistics/spectra.py:347-350). -/
noncomputable def logMag : Option ℚ → Except Err ℝ
  | none => .error .value
  | some v => if v ≤ 0 then .error .value else .ok (Real.logb 10 (v : ℝ))

/-- The values of a channel in every group, for every frequency (/repo/resistics/spectra.py:344-347). -/
noncomputable def sectionValues (means : List (List (List (Option ℚ)))) (chan freqs : ℕ) : Except Err (List (List ℝ)) :=
  (List.range freqs).mapM fun k => means.mapM fun stack => logMag ((stack.getD chan []).getD k none)

/-- The body of the loop at /repo/resistics/spectra.py:343-366. -/
noncomputable def sectionMap (step : TimeDelta) (freqs : List ℚ) (starts : List DateTime) (means : List (List (List (Option ℚ))))
    (chan : ℕ) : Except Err SectionMap := do
  let z ← sectionValues means chan freqs.length
  let lo ← leastOf z.flatten
  let hi ← greatestOf z.flatten
  return { row := chan + 1, z := z, times := starts.map (· + step / 2), freqs := freqs, zMin := ⌈lo⌉, zMax := ⌊hi⌋,
           ticks := decades ⌈lo⌉ ⌊hi⌋ }

/-- /repo/resistics/spectra.py:311-367 `plot_level_section`: a map for each channel.  The increment of the colour bars divides by the
number of channels less one (338).  Simplification: a level whose array and metadata have matching shapes. -/
noncomputable def SpecData.plotLevelSection {V : Type} [Zero V] (s : SpecData V) (mag : V → ℚ) (level : ℤ) (grouping : TimeDelta) :
    Except Err (List SectionMap) := do
  let lm ← pyIndex s.md.levels level
  let times ← s.windowStarts level
  if s.md.chans.length ≤ 1 then .error .zeroDiv
  else
    let groups ← grouper grouping 0 times
    let means ← groups.mapM fun g => s.groupStack mag level g.2
    (List.range s.md.chans.length).mapM (sectionMap grouping lm.freqs (groups.map (·.1)) means)

end Resistics
