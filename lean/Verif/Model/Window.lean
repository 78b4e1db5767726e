import Verif.Model.Decimate

/-!
# Model of /repo/resistics/window.py
-/

namespace Resistics

/-! ## Window arithmetic -/

/-- /repo/resistics/window.py:112-148 `win_duration`. -/
def winDuration (winSize : ℤ) (fs : ℚ) : Except Err TimeDelta := do
  let r ← pyRecip fs
  return toTimedelta r * ((winSize - 1 : ℤ) : ℚ)

/-- /repo/resistics/window.py:151-185 `inc_duration`. -/
def incDuration (winSize olapSize : ℤ) (fs : ℚ) : Except Err TimeDelta := do
  let r ← pyRecip fs
  return toTimedelta r * ((winSize - olapSize : ℤ) : ℚ)

/-- /repo/resistics/window.py:188-235 `win_to_datetime`. -/
def winToDatetime (refTime : DateTime) (globalWin : ℤ) (increment : TimeDelta) : DateTime :=
  refTime + (globalWin : ℚ) * increment

/-- /repo/resistics/window.py:238-367 `datetime_to_win`. -/
def datetimeToWin (refTime time : DateTime) (increment : TimeDelta) (method : RoundMethod := .round) :
    Except Err ℤ :=
  if time < refTime then .error .value
  else
    let (incDays, incRemaining) := toSeconds increment
    let incrementSeconds := incDays + incRemaining
    let (deltaDays, deltaRemaining) := toSeconds (time - refTime)
    let deltaTotal := deltaDays + deltaRemaining
    if incrementSeconds = 0 then .error .zeroDiv
    else .ok (applyRound (deltaTotal / incrementSeconds) method)

/-- The adjustment loop at /repo/resistics/window.py:481-490: while the last window does not fit, go back one
window, at most `attempts` times; then `ValueError` if it still does not fit. -/
def adjustLastWin (refTime lastTime : DateTime) (duration increment : TimeDelta) : ℕ → ℤ → Except Err ℤ
  | 0, lastWin =>
      if lastTime < winToDatetime refTime lastWin increment + duration then .error .value else .ok lastWin
  | attempts + 1, lastWin =>
      if winToDatetime refTime lastWin increment + duration ≤ lastTime then .ok lastWin
      else adjustLastWin refTime lastTime duration increment attempts (lastWin - 1)

/-- /repo/resistics/window.py:370-490 `get_first_and_last_win`. -/
def getFirstAndLastWin (refTime : DateTime) (md : LevelMeta) (winSize olapSize : ℤ) :
    Except Err (ℤ × ℤ) := do
  let duration ← winDuration winSize md.fs
  let increment ← incDuration winSize olapSize md.fs
  let firstWin ← datetimeToWin refTime md.firstTime increment .ceil
  let lastWin ← datetimeToWin refTime md.lastTime increment .floor
  let lastWin ← adjustLastWin refTime md.lastTime duration increment 2 lastWin
  return (firstWin, lastWin)

/-- One row of the window table (/repo/resistics/window.py:691-698). -/
structure WinRow where
  globalWin : ℤ
  localWin : ℕ
  fromSample : ℤ
  toSample : ℤ
  winStart : DateTime
  winEnd : DateTime
  deriving DecidableEq, Repr

/-- /repo/resistics/window.py:601-699 `get_win_table`.  `datetime_array_estimate` refuses a negative number of
periods (pandas `date_range`).  Simplification: the nanosecond resolution of the pandas timestamps `win_start`
and `win_end` is not modelled. -/
def getWinTable (refTime : DateTime) (md : LevelMeta) (winSize olapSize : ℤ) : Except Err (List WinRow) := do
  let incrementSize := winSize - olapSize
  let increment ← incDuration winSize olapSize md.fs
  let fs := md.fs
  let (firstWin, lastWin) ← getFirstAndLastWin refTime md winSize olapSize
  let firstWinTime := winToDatetime refTime firstWin increment
  let nWins := lastWin - firstWin + 1
  let firstSample := toNSamples (firstWinTime - md.firstTime) fs .floor - 1
  if nWins < 0 then throw .value
  return (List.range nWins.toNat).map fun (k : ℕ) =>
    let start := firstWinTime + (k : ℚ) * (1 / (fs / (incrementSize : ℚ)))
    { globalWin := firstWin + k, localWin := k,
      fromSample := firstSample + k * incrementSize,
      toSample := firstSample + winSize - 1 + k * incrementSize,
      winStart := start, winEnd := start + (((winSize - 1 : ℤ) : ℚ)) * (1 / fs) }

/-- /repo/resistics/window.py:493-549 `get_win_starts` (exact times, see `getWinTable`). -/
def getWinStarts (refTime : DateTime) (winSize olapSize : ℤ) (fs : ℚ) (nWins : ℕ) (indexOffset : ℤ) :
    Except Err (List DateTime) := do
  let increment ← incDuration winSize olapSize fs
  let firstWinTime := winToDatetime refTime indexOffset increment
  let incrementSize := winSize - olapSize
  return (List.range nWins).map fun (k : ℕ) => firstWinTime + (k : ℚ) * (1 / (fs / (incrementSize : ℚ)))

/-! ## Window parameters -/

/-- /repo/resistics/window.py:702-787 `WindowParameters`. -/
structure WinParams where
  nLevels : ℕ
  minNWins : ℤ
  winSizes : List ℤ
  olapSizes : List ℤ
  deriving DecidableEq, Repr

/-- /repo/resistics/window.py:774-777 `check_level`. -/
def WinParams.checkLevel (p : WinParams) (level : ℤ) : Except Err Unit :=
  if level < 0 ∨ (p.nLevels : ℤ) ≤ level then .error .value else .ok ()

/-- /repo/resistics/window.py:779-782 `get_win_size`. -/
def WinParams.getWinSize (p : WinParams) (level : ℤ) : Except Err ℤ := do
  p.checkLevel level
  pyIndex p.winSizes level

/-- /repo/resistics/window.py:784-787 `get_olap_size`. -/
def WinParams.getOlapSize (p : WinParams) (level : ℤ) : Except Err ℤ := do
  p.checkLevel level
  pyIndex p.olapSizes level

/-- /repo/resistics/window.py:790-886 `WindowSetup`. -/
structure WindowSetup where
  minSize : ℤ := 128
  minOlap : ℤ := 32
  winFactor : ℤ := 4
  olapProportion : ℚ := 1 / 4
  minNWins : ℤ := 5
  winSizes : Option (List ℤ) := none
  olapSizes : Option (List ℤ) := none

/-- Body of the loop at /repo/resistics/window.py:974-978. -/
def WindowSetup.levelWinSize (s : WindowSetup) (decFs : List ℚ) (ilevel : ℕ) : Except Err ℤ := do
  let fs ← pyIndex decFs (ilevel : ℤ)
  if s.winFactor = 0 then throw .zeroDiv
  return max ⌊fs / (s.winFactor : ℚ)⌋ s.minSize

/-- /repo/resistics/window.py:957-979 `_get_win_sizes`. -/
def WindowSetup.getWinSizes (s : WindowSetup) (nLevels : ℕ) (decFs : List ℚ) : Except Err (List ℤ) :=
  (List.range nLevels).mapM (s.levelWinSize decFs)

/-- /repo/resistics/window.py:981-1001 `_get_olap_sizes`. -/
def WindowSetup.getOlapSizes (s : WindowSetup) (winSizes : List ℤ) : List ℤ :=
  winSizes.map fun (w : ℤ) => max (pyInt ((w : ℚ) * s.olapProportion)) s.minOlap

/-- /repo/resistics/window.py:931-936 and 943-948: too few entries are refused, extra ones dropped. -/
def fitLevels (nLevels : ℕ) (l : List ℤ) : Except Err (List ℤ) :=
  if l.length < nLevels then .error .value else .ok (l.take nLevels)

/-- /repo/resistics/window.py:888-955 `WindowSetup.run`. -/
def WindowSetup.run (s : WindowSetup) (nLevels : ℕ) (decFs : List ℚ) : Except Err WinParams := do
  let winSizes ← match s.winSizes with
    | none => s.getWinSizes nLevels decFs
    | some w => pure w
  let winSizes ← fitLevels nLevels winSizes
  let olapSizes ← fitLevels nLevels (s.olapSizes.getD (s.getOlapSizes winSizes))
  return { nLevels := nLevels, minNWins := s.minNWins, winSizes := winSizes, olapSizes := olapSizes }

/-! ## Windowed data -/

/-- The array of one level after `np.squeeze` (/repo/resistics/window.py:1387-1389): axes of size one are
removed, so a level is not always a windows × channels × samples array. -/
inductive WinArr (V : Type) where
  | d3 (w : List (List (List V)))
  | d2 (w : List (List V))
  | d1 (w : List V)
  | d0 (x : Option V)
  deriving DecidableEq, Repr

/-- `sliding_window_view(data, window_shape=(n_chans, win_size))` for data with exactly `n_chans` rows, without
the leading axis of size one: all windows in order of their first sample. -/
def slidingWindows {V : Type} (data : List (List V)) (winSize : ℕ) : List (List (List V)) :=
  (List.range (shape1 data + 1 - winSize)).map fun j => data.map fun row => (row.drop j).take winSize

/-- `np.squeeze` of the view (its leading axis has size one). -/
def squeezeView {V : Type} (w : List (List (List V))) (nChans winSize : ℕ) : WinArr V :=
  if w.length = 1 then
    if nChans = 1 then
      if winSize = 1 then .d0 w.flatten.flatten.head? else .d1 w.flatten.flatten
    else
      if winSize = 1 then .d1 w.flatten.flatten else .d2 w.flatten
  else
    if nChans = 1 then
      if winSize = 1 then .d1 w.flatten.flatten else .d2 w.flatten
    else
      if winSize = 1 then .d2 (w.map List.flatten) else .d3 w

/-- The Python slice `l[a:b:step]` for a positive step. -/
def pySliceStep {α : Type _} (l : List α) (a b : ℤ) (step : ℕ) : List α :=
  let s := pySlice l a b
  (List.range ((s.length + step - 1) / step)).filterMap fun k => s[k * step]?

/-- Slicing the first axis of an array; a 0-d array has no axis (`IndexError`). -/
def WinArr.slice {V : Type} (a b : ℤ) (step : ℕ) : WinArr V → Except Err (WinArr V)
  | .d3 w => .ok (.d3 (pySliceStep w a b step))
  | .d2 w => .ok (.d2 (pySliceStep w a b step))
  | .d1 w => .ok (.d1 (pySliceStep w a b step))
  | .d0 _ => .error .index

/-- `shape[0]`. -/
def WinArr.shape0 {V : Type} : WinArr V → ℕ
  | .d3 w => w.length
  | .d2 w => w.length
  | .d1 w => w.length
  | .d0 _ => 0

/-- Indexing the first axis with a number. -/
def WinArr.get {V : Type} (i : ℤ) : WinArr V → Except Err (WinArr V)
  | .d3 w => (pyIndex w i).map .d2
  | .d2 w => (pyIndex w i).map .d1
  | .d1 w => (pyIndex w i).map fun x => .d0 (some x)
  | .d0 _ => .error .index

/-- `arr[..., idx, :]`. -/
def WinArr.chan {V : Type} (idx : ℤ) : WinArr V → Except Err (WinArr V)
  | .d3 w => (w.mapM fun win => pyIndex win idx).map .d2
  | .d2 w => (pyIndex w idx).map .d1
  | .d1 _ => .error .index
  | .d0 _ => .error .index

/-- /repo/resistics/window.py:1004-1020 `WindowedLevelMetadata`. -/
structure WinLevelMeta where
  fs : ℚ
  nWins : ℤ
  winSize : ℤ
  olapSize : ℤ
  indexOffset : ℤ
  deriving DecidableEq, Repr

/-- The part of `WindowedMetadata` that processing depends on (/repo/resistics/window.py:1023-1046). -/
structure WinMeta where
  fs : List ℚ
  chans : List String
  nLevels : ℕ
  firstTime : DateTime
  lastTime : DateTime
  levels : List WinLevelMeta
  refTime : DateTime
  history : List String
  deriving DecidableEq, Repr

/-- /repo/resistics/window.py:1049-1077 `WindowedData`. -/
structure WinData (V : Type) where
  md : WinMeta
  data : List (ℕ × WinArr V)
  deriving DecidableEq, Repr

/-- /repo/resistics/window.py:1079-1100 `get_level`. -/
def WinData.getLevel {V : Type} (d : WinData V) (level : ℤ) : Except Err (WinArr V) :=
  if (d.md.nLevels : ℤ) ≤ level then .error .value
  else if level < 0 then .error .key
  else dictGet d.data level.toNat

/-- /repo/resistics/window.py:1102-1126 `get_local`. -/
def WinData.getLocal {V : Type} (d : WinData V) (level localWin : ℤ) : Except Err (WinArr V) := do
  let lm ← pyIndex d.md.levels level
  if localWin < 0 ∨ lm.nWins ≤ localWin then throw .value
  let arr ← d.getLevel level
  arr.get localWin

/-- /repo/resistics/window.py:1128-1145 `get_global`. -/
def WinData.getGlobal {V : Type} (d : WinData V) (level globalWin : ℤ) : Except Err (WinArr V) := do
  let lm ← pyIndex d.md.levels level
  d.getLocal level (globalWin + lm.indexOffset)

/-- `list.index`: the first position of an item. -/
def listIndex (l : List String) (x : String) : Except Err ℤ :=
  match l.findIdx? (· == x) with
  | some i => .ok i
  | none => .error .value

/-- /repo/resistics/window.py:1147-1173 `get_chan`. -/
def WinData.getChan {V : Type} (d : WinData V) (level : ℤ) (chan : String) : Except Err (WinArr V) := do
  if chan ∉ d.md.chans then throw .chanNotFound
  let idx ← listIndex d.md.chans chan
  let arr ← d.getLevel level
  arr.chan idx

/-! ## Windowers -/

/-- /repo/resistics/window.py:1353-1390 `_get_level_data`.  An empty table is a `KeyError` (`loc[0]`);
`sliding_window_view` refuses data shorter than a window or with fewer rows than channels.
Simplifications: the data have exactly `n_chans` rows; the increment is positive (`step = 0` is a
`ValueError`, a negative step is not modelled). -/
def getLevelData {V : Type} (data : List (List V)) (table : List WinRow) (nChans : ℕ) (winSize olapSize : ℤ) :
    Except Err (WinArr V) :=
  match table.head?, table.getLast? with
  | some first, some last =>
      let incrementSize := winSize - olapSize
      if data.length < nChans ∨ (shape1 data : ℤ) < winSize ∨ winSize < 0 then .error .value
      else if incrementSize ≤ 0 then .error .value
      else
        let view := squeezeView (slidingWindows data winSize.toNat) nChans winSize.toNat
        view.slice first.fromSample (last.fromSample + 1) incrementSize.toNat
  | _, _ => .error .key

/-- `Series.unique()` of the differences global − local. -/
def uniqueOffsets (table : List WinRow) : List ℤ := (table.map fun r => r.globalWin - (r.localWin : ℤ)).dedup

/-- /repo/resistics/window.py:1392-1409 `_get_level_metadata`; window and overlap sizes must be positive
(`PositiveInt`, a validation error otherwise). -/
def getLevelMetadata (md : LevelMeta) (table : List WinRow) (winSize olapSize : ℤ) :
    Except Err WinLevelMeta :=
  match uniqueOffsets table with
  | [offset] =>
      if winSize ≤ 0 ∨ olapSize ≤ 0 then .error .value
      else .ok { fs := md.fs, nWins := table.length, winSize := winSize, olapSize := olapSize,
                 indexOffset := offset }
  | _ => .error .value

/-- State of the windowing loops. -/
structure WinAcc (V : Type) where
  data : List (ℕ × WinArr V) := []
  levels : List WinLevelMeta := []

/-- Check at /repo/resistics/window.py:1334-1338, which only `Windower` makes. -/
def checkShape {V : Type} (checked : Bool) (arr : WinArr V) (table : List WinRow) : Except Err Unit :=
  if checked ∧ arr.shape0 ≠ table.length then .error .procRun else .ok ()

/-- The loop of `Windower.run` (/repo/resistics/window.py:1310-1346) and of `WindowerTarget.run` (1463-1494)
over the given levels; `sizes` gives the window and overlap size of a level. -/
def windowLoop {V : Type} (checked : Bool) (sizes : ℕ → LevelMeta → Except Err (ℤ × ℤ)) (refTime : DateTime)
    (minNWins : ℤ) (dec : DecData V) : List ℕ → WinAcc V → Except Err (WinAcc V)
  | [], acc => .ok acc
  | ilevel :: rest, acc => do
      let lm ← pyIndex dec.md.levels (ilevel : ℤ)
      let wo ← sizes ilevel lm
      let table ← getWinTable refTime lm wo.1 wo.2
      if (table.length : ℤ) < minNWins then .ok acc
      else do
        let raw ← dec.getLevel ilevel
        let arr ← getLevelData raw table dec.md.chans.length wo.1 wo.2
        checkShape checked arr table
        let wlm ← getLevelMetadata lm table wo.1 wo.2
        windowLoop checked sizes refTime minNWins dec rest
          { data := acc.data ++ [(ilevel, arr)], levels := acc.levels ++ [wlm] }

/-- The metadata and data returned by the windowers (/repo/resistics/window.py:1347-1351, 1411-1420,
1495-1499); `WindowedData.__init__` reads `data[0]`. -/
def windowedResult {V : Type} (name : String) (dec : DecData V) (storedRef : DateTime) (acc : WinAcc V) :
    Except Err (WinData V) := do
  let md : WinMeta :=
    { fs := dec.md.fs, chans := dec.md.chans, nLevels := acc.levels.length,
      firstTime := dec.md.firstTime, lastTime := dec.md.lastTime, levels := acc.levels,
      refTime := storedRef, history := dec.md.history ++ [name] }
  let _ ← dictGet acc.data 0
  return { md := md, data := acc.data }

/-- Sizes used by `Windower` (/repo/resistics/window.py:1312-1313). -/
def windowerSizes (p : WinParams) (ilevel : ℕ) (_ : LevelMeta) : Except Err (ℤ × ℤ) := do
  let w ← p.getWinSize ilevel
  let o ← p.getOlapSize ilevel
  return (w, o)

/-- /repo/resistics/window.py:1277-1351 `Windower.run`. -/
def windowerRun {V : Type} (refTime : DateTime) (p : WinParams) (dec : DecData V) : Except Err (WinData V) := do
  let acc ← windowLoop true (windowerSizes p) refTime p.minNWins dec (List.range dec.md.nLevels) {}
  windowedResult "Windower" dec refTime acc

/-- `WindowerTarget` (/repo/resistics/window.py:1449-1451). -/
structure WindowerTarget where
  target : ℤ := 1000
  minSize : ℤ := 64
  olapProportion : ℚ := 1 / 4

/-- /repo/resistics/window.py:1501-1532 `_get_win_size`. -/
def WindowerTarget.getWinSize (t : WindowerTarget) (lm : LevelMeta) : Except Err ℤ :=
  let d := (1 - t.olapProportion) * (t.target : ℚ)
  if d = 0 then .error .zeroDiv
  else
    let winSize := ⌊(lm.nSamples : ℚ) / d⌋
    if winSize < t.minSize then .ok t.minSize else .ok winSize

/-- Sizes used by `WindowerTarget` (/repo/resistics/window.py:1466-1467). -/
def WindowerTarget.sizes (t : WindowerTarget) (_ : ℕ) (lm : LevelMeta) : Except Err (ℤ × ℤ) := do
  let w ← t.getWinSize lm
  return (w, ⌊t.olapProportion * (w : ℚ)⌋)

/-- /repo/resistics/window.py:1453-1499 `WindowerTarget.run`; the stored reference time is the first time of the
data, not the reference time used for the windows (1495). -/
def WindowerTarget.run {V : Type} (t : WindowerTarget) (refTime : DateTime) (p : WinParams) (dec : DecData V) :
    Except Err (WinData V) := do
  let acc ← windowLoop false t.sizes refTime p.minNWins dec (List.range dec.md.nLevels) {}
  windowedResult "WindowerTarget" dec dec.md.firstTime acc

end Resistics
