import Mathlib.Data.List.Sort
import Mathlib.Data.String.Basic
import Verif.Model.Spectra

/-!
# Model of /repo/resistics/gather.py

pandas objects are lists: a `Series` indexed by global window is a list of pairs, a `DataFrame` a list of rows.
The evaluation frequency data on disk are given by two functions of site and measurement name: what
`SpectraDataReader().run(path, metadata_only=True)` and `SpectraDataReader().run(path)` do for the path of that
measurement (their own behaviour is modelled in `Verif.Model.Files`).
-/

namespace Resistics

/-- The part of a project that gathering uses (/repo/resistics/project.py:116-171, 225-240): sites by name, each
with its measurements (name and sampling frequency) in the order of the dictionary. -/
structure GProject where
  sites : List (String × List (String × ℚ))
  deriving DecidableEq, Repr

/-- `proj[site_name]` (/repo/resistics/project.py:245-247, 262-268). -/
def GProject.getSite (proj : GProject) (site : String) : Except Err (List (String × ℚ)) :=
  match proj.sites.lookup site with
  | some x => .ok x
  | none => .error .siteNotFound

/-- The evaluation frequency data on disk for one configuration. -/
structure EvalStore (V : Type) where
  readMeta : String → String → Except Err SpecMeta
  readData : String → String → Except Err (SpecData V)

/-- One step of the loop at /repo/resistics/gather.py:75-86: any exception skips the measurement. -/
def evalsMetaOf (read : String → Except Err SpecMeta) (meas : String) : Option (String × SpecMeta) :=
  match read meas with
  | .ok md => some (meas, md)
  | .error _ => none

/-- /repo/resistics/gather.py:48-87 `get_site_evals_metadata` with `Site.get_measurements(fs)`
(/repo/resistics/project.py:152-171): metadata by measurement name, in dictionary order. -/
def getSiteEvalsMetadata {V : Type} (store : EvalStore V) (proj : GProject) (site : String) (fs : ℚ) :
    Except Err (List (String × SpecMeta)) := do
  let meas ← proj.getSite site
  return (meas.filter fun m => m.2 = fs).filterMap fun m => evalsMetaOf (store.readMeta site) m.1

/-- The windows of one measurement at a level (/repo/resistics/gather.py:155-161). -/
def measLevelWins (level : ℕ) (m : String × SpecMeta) : Except Err (List (ℤ × String)) := do
  if m.2.nLevels ≤ level then return []
  let lm ← pyIndex m.2.levels (level : ℤ)
  let firstGlobal := lm.indexOffset
  let lastGlobal := lm.indexOffset + lm.nWins - 1
  return (npArange firstGlobal (lastGlobal + 1)).map fun g => (g, m.1)

/-- `s[~s.index.duplicated(keep="first")]`. -/
def dropDup {α β : Type} [DecidableEq α] : List (α × β) → List (α × β)
  | [] => []
  | a :: l => a :: (dropDup l).filter fun b => b.1 ≠ a.1

/-- `sort_index()` of a series with unique integer index. -/
def sortIndex {β : Type} (l : List (ℤ × β)) : List (ℤ × β) := l.insertionSort fun a b => a.1 ≤ b.1

/-- /repo/resistics/gather.py:90-163 `get_site_level_wins`. -/
def getSiteLevelWins (mm : List (String × SpecMeta)) (level : ℕ) : Except Err (List (ℤ × String)) := do
  let parts ← mm.mapM (measLevelWins level)
  return sortIndex (dropDup parts.flatten)

/-- `max([...])` of a list, `ValueError` when empty. -/
def pyMax (l : List ℕ) : Except Err ℕ :=
  match l with
  | [] => .error .value
  | a :: l => .ok (l.foldl max a)

/-- `min([...])` of a list, `ValueError` when empty. -/
def pyMin (l : List ℕ) : Except Err ℕ :=
  match l with
  | [] => .error .value
  | a :: l => .ok (l.foldl min a)

/-- /repo/resistics/gather.py:166-203 `get_site_wins`; the dictionary with keys `0 .. n_levels-1` is a list. -/
def getSiteWins {V : Type} (store : EvalStore V) (proj : GProject) (fs : ℚ) (site : String) :
    Except Err (List (List (ℤ × String))) := do
  let mm ← getSiteEvalsMetadata store proj site fs
  if mm.length = 0 then throw .value
  let nLevels ← pyMax (mm.map fun m => m.2.nLevels)
  (List.range nLevels).mapM (getSiteLevelWins mm)

/-! ## Selection -/

/-- A row of a selection table: the global window, the measurement per site and one flag per evaluation
frequency of the level. -/
structure SelRow where
  win : ℤ
  meas : List String
  evals : List Bool
  deriving DecidableEq, Repr

/-- /repo/resistics/gather.py:206-233 `Selection`: site names (the site columns of all tables), decimation
parameters and one table per level. -/
structure Selection where
  sites : List String
  decParams : DecParams ℚ
  tables : List (List SelRow)
  deriving DecidableEq, Repr

/-- `self.n_levels`. -/
def Selection.nLevels (s : Selection) : ℕ := s.tables.length

/-- `sorted(list(set(names)))`. -/
def sortedSet (names : List String) : List String := names.dedup.insertionSort (· ≤ ·)

/-- `pd.DataFrame(data={site: series}).dropna()`: the sorted union of the indices, rows with a missing value
dropped (/repo/resistics/gather.py:387-388). -/
def joinTables (cols : List (List (ℤ × String))) : List (ℤ × List String) :=
  let index := ((cols.flatten.map Prod.fst).dedup).insertionSort (· ≤ ·)
  index.filterMap fun g => (cols.mapM fun (c : List (ℤ × String)) => c.lookup g).map fun ms => (g, ms)

/-- /repo/resistics/gather.py:396-418 `_get_evals`: every evaluation frequency flag is set. -/
def getEvals (p : DecParams ℚ) (table : List (ℤ × List String)) : List SelRow :=
  table.map fun r => { win := r.1, meas := r.2, evals := List.replicate p.perLevel true }

/-- One pass of the loop at /repo/resistics/gather.py:385-392 (`_apply_masks` returns its table). -/
def selectLevel (p : DecParams ℚ) (sitesWins : List (List (List (ℤ × String)))) (ilevel : ℕ) :
    Except Err (List SelRow) := do
  let cols ← sitesWins.mapM fun (w : List (List (ℤ × String))) => pyIndex w (ilevel : ℤ)
  return getEvals p (joinTables cols)

/-- /repo/resistics/gather.py:340-394 `Selector.run`. -/
def selectorRun {V : Type} (store : EvalStore V) (proj : GProject) (siteNames : List String) (p : DecParams ℚ) :
    Except Err Selection := do
  let names := sortedSet siteNames
  let sitesWins ← names.mapM (getSiteWins store proj p.fs)
  let nLevels ← pyMin (sitesWins.map List.length)
  let tables ← (List.range nLevels).mapM (selectLevel p sitesWins)
  return { sites := names, decParams := p, tables := tables }

/-- /repo/resistics/gather.py:235-244 `get_n_evals`. -/
def Selection.getNEvals (s : Selection) : ℕ := s.nLevels * s.decParams.perLevel

/-- `self.tables[level]`. -/
def Selection.table (s : Selection) (level : ℤ) : Except Err (List SelRow) :=
  if level < 0 then .error .key
  else match s.tables[level.toNat]? with
    | some t => .ok t
    | none => .error .key

/-- `table[eval_idx]`, a column of flags: `KeyError` when it is not a column. -/
def evalFlag (row : SelRow) (idx : ℤ) : Except Err Bool :=
  if idx < 0 then .error .key
  else match row.evals[idx.toNat]? with
    | some b => .ok b
    | none => .error .key

/-- The rows of a table whose flag is set. -/
def flaggedRows (t : List SelRow) (idx : ℤ) : Except Err (List SelRow) := do
  let flags ← t.mapM fun row => evalFlag row idx
  return ((t.zip flags).filter fun q => q.2).map Prod.fst

/-- /repo/resistics/gather.py:246-271 `get_n_wins`.  Simplification: an evaluation index outside the columns is a
`KeyError` only when the table has rows. -/
def Selection.getNWins (s : Selection) (level idx : ℤ) : Except Err ℕ := do
  if (s.nLevels : ℤ) ≤ level then throw .value
  let t ← s.table level
  let rows ← flaggedRows t idx
  return rows.length

/-- `row[site]` for a site column. -/
def SelRow.measOf (row : SelRow) (idx : ℕ) : String := (row.meas[idx]?).getD ""

/-- The position of a site column, `KeyError` when the site is not in the selection. -/
def Selection.siteCol (s : Selection) (site : String) : Except Err ℕ :=
  match s.sites.findIdx? (· == site) with
  | some i => .ok i
  | none => .error .key

/-- /repo/resistics/gather.py:273-291 `get_measurements`.  Simplification: a site that is not selected is a
`KeyError` also when there are no levels. -/
def Selection.getMeasurements (s : Selection) (site : String) : Except Err (List String) := do
  let c ← s.siteCol site
  return sortedSet (s.tables.flatten.map fun row => row.measOf c)

/-- /repo/resistics/gather.py:293-305 `get_eval_freqs`. -/
def Selection.getEvalFreqs (s : Selection) : Except Err (List ℚ) := do
  let parts ← (List.range s.nLevels).mapM fun (i : ℕ) => s.decParams.getEvalFreqs (i : ℤ)
  return parts.flatten

/-- /repo/resistics/gather.py:307-327 `get_eval_wins`. -/
def Selection.getEvalWins (s : Selection) (level idx : ℤ) : Except Err (List SelRow) := do
  let t ← s.table level
  flaggedRows t idx

/-! ## Gathering -/

/-- /repo/resistics/gather.py:425-495: combined data of a site.  A row that has not been assigned (memory from
`np.empty`) is `none`. -/
structure SiteCombined (V : Type) where
  siteName : String
  fs : ℚ
  measurements : List String
  chans : List String
  nEvals : ℕ
  evalFreqs : List ℚ
  histories : List (String × List String)
  data : List (ℕ × List (Option (List V)))
  deriving DecidableEq, Repr

/-- /repo/resistics/gather.py:497-513 `GatheredData`. -/
structure Gathered (V : Type) where
  outData : SiteCombined V
  inData : SiteCombined V
  crossData : SiteCombined V
  deriving DecidableEq, Repr

/-- The channels of a transfer function that gathering uses (/repo/resistics/transfunc.py:66-100). -/
structure TfChans where
  outChans : List String
  inChans : List String
  crossChans : List String
  deriving DecidableEq, Repr

/-- Assignment `d[k] = v` to a dictionary: replaces in place, or appends. -/
def dictSet {α β : Type} [DecidableEq α] (d : List (α × β)) (k : α) (v : β) : List (α × β) :=
  if d.any fun q => q.1 = k then d.map fun q => if q.1 = k then (k, v) else q
  else d ++ [(k, v)]

/-- One array of /repo/resistics/gather.py:668-673. -/
def emptyRows {V : Type} (s : Selection) (ij : ℕ × ℕ) : Except Err (ℕ × List (Option (List V))) := do
  let n ← s.getNWins (ij.1 : ℤ) (ij.2 : ℤ)
  return (s.decParams.perLevel * ij.1 + ij.2, List.replicate n none)

/-- The pairs (level, frequency) in the order of the nested loops. -/
def levelFreqs (nLevels perLevel : ℕ) : List (ℕ × ℕ) :=
  (List.range nLevels).flatMap fun i => (List.range perLevel).map fun j => (i, j)

/-- /repo/resistics/gather.py:641-674 `_get_empty_data`. -/
def getEmptyData {V : Type} (s : Selection) : Except Err (List (ℕ × List (Option (List V)))) := do
  let parts ← (levelFreqs s.nLevels s.decParams.perLevel).mapM (emptyRows s)
  return parts.foldl (fun d q => dictSet d q.1 q.2) []

/-- /repo/resistics/gather.py:726-787 `_get_indices`, the pairs (index into the measurement's data, row in the
combined data).  A site named like the helper column is compared with row numbers, never equal to a name. -/
def getIndices (evalWins : List SelRow) (site : String) (col : ℕ) (meas : String) (lm : SpecLevelMeta) :
    List (ℤ × ℕ) :=
  if site = "combined_index" then []
  else (evalWins.zipIdx.filter fun q => q.1.measOf col = meas).map fun q => (q.1.win - lm.indexOffset, q.2)

/-- `level_data[idx, ..., ifreq]` for one window: one value per channel.  Simplification: a frequency index out of
range is an `IndexError` only when some window is read. -/
def windowValues {V : Type} (levelData : SpecArr V) (ifreq : ℕ) (idx : ℤ) : Except Err (List V) := do
  let win ← pyIndex levelData idx
  win.mapM fun row => pyIndex row (ifreq : ℤ)

/-- `data[key][combined_indices] = level_data[eval_data_indices, ..., ifreq]`. -/
def assignRows {V : Type} (rows : List (Option (List V))) (new : List (ℕ × List V)) : List (Option (List V)) :=
  new.foldl (fun rs q => rs.set q.1 (some q.2)) rows

/-- Body of the inner loop at /repo/resistics/gather.py:717-723. -/
def populateFreq {V : Type} (s : Selection) (site : String) (meas : String) (ilevel : ℕ) (lm : SpecLevelMeta)
    (levelData : SpecArr V) (data : List (ℕ × List (Option (List V)))) (ifreq : ℕ) :
    Except Err (List (ℕ × List (Option (List V)))) := do
  let key := s.decParams.perLevel * ilevel + ifreq
  let evalWins ← s.getEvalWins (ilevel : ℤ) (ifreq : ℤ)
  let col ← s.siteCol site
  let indices := getIndices evalWins site col meas lm
  let values ← indices.mapM fun q => windowValues levelData ifreq q.1
  let rows ← dictGet data key
  return dictSet data key (assignRows rows ((indices.map Prod.snd).zip values))

/-- Body of the outer loop at /repo/resistics/gather.py:712-723.  Simplification: the level metadata are looked up
once per level instead of once per frequency. -/
def populateLevel {V : Type} (s : Selection) (site : String) (meas : String) (evalData : SpecData V)
    (chans : List String) (data : List (ℕ × List (Option (List V)))) (ilevel : ℕ) :
    Except Err (List (ℕ × List (Option (List V)))) := do
  let levelData ← evalData.getChans ilevel chans
  let lm ← pyIndex evalData.md.levels (ilevel : ℤ)
  (List.range s.decParams.perLevel).foldlM (populateFreq s site meas ilevel lm levelData) data

/-- /repo/resistics/gather.py:676-724 `_populate_data`: the loop ends at the first level the measurement lacks. -/
def populateData {V : Type} (s : Selection) (site : String) (meas : String) (evalData : SpecData V)
    (chans : List String) (data : List (ℕ × List (Option (List V)))) :
    Except Err (List (ℕ × List (Option (List V)))) :=
  ((List.range s.nLevels).takeWhile fun i => i < evalData.md.nLevels).foldlM
    (populateLevel s site meas evalData chans) data

/-- Loop state of /repo/resistics/gather.py:611-622: data, histories and whether a measurement has been read. -/
structure GatherAcc (V : Type) where
  data : List (ℕ × List (Option (List V)))
  histories : List (String × List String)
  found : Bool

/-- Body of the loop at /repo/resistics/gather.py:614-622. -/
def gatherMeas {V : Type} (store : EvalStore V) (s : Selection) (site : String) (chans : List String)
    (acc : GatherAcc V) (meas : String) : Except Err (GatherAcc V) := do
  let evalData ← store.readData site meas
  let data ← populateData s site meas evalData chans acc.data
  return { data := data, histories := dictSet acc.histories meas evalData.md.history, found := true }

/-- /repo/resistics/gather.py:578-639 `_get_site_data`: without measurements `metadata.system` is an
`AttributeError`.  Simplification: of the combined metadata the location and system fields are not modelled. -/
def getSiteData {V : Type} (store : EvalStore V) (proj : GProject) (s : Selection) (site : String)
    (chans : List String) : Except Err (SiteCombined V) := do
  let _ ← proj.getSite site
  let measurements ← s.getMeasurements site
  let empty ← getEmptyData s
  let acc ← measurements.foldlM (gatherMeas store s site chans) { data := empty, histories := [], found := false }
  if acc.found = false then throw .attribute
  let evalFreqs ← s.getEvalFreqs
  return { siteName := site, fs := s.decParams.fs, measurements := measurements, chans := chans,
           nEvals := acc.data.length, evalFreqs := evalFreqs, histories := acc.histories, data := acc.data }

/-- /repo/resistics/gather.py:526-576 `ProjectGather.run`. -/
def projectGather {V : Type} (store : EvalStore V) (proj : GProject) (s : Selection) (tf : TfChans)
    (outName : String) (inName crossName : Option String) : Except Err (Gathered V) := do
  let inName := inName.getD outName
  let crossName := crossName.getD inName
  let outData ← getSiteData store proj s outName tf.outChans
  let inData ← getSiteData store proj s inName tf.inChans
  let crossData ← getSiteData store proj s crossName tf.crossChans
  return { outData := outData, inData := inData, crossData := crossData }

/-- `level[..., ifreq]` for all windows of a level. -/
def freqRows {V : Type} (level : SpecArr V) (ifreq : ℕ) : Except Err (List (Option (List V))) :=
  level.mapM fun win => (win.mapM fun row => pyIndex row (ifreq : ℤ)).map some

/-- Body of the inner loop at /repo/resistics/gather.py:846-850, for one of the three data sets. -/
def quickFreq {V : Type} (perLevel ilevel : ℕ) (level : SpecArr V) (data : List (ℕ × List (Option (List V))))
    (ifreq : ℕ) : Except Err (List (ℕ × List (Option (List V)))) := do
  let rows ← freqRows level ifreq
  return dictSet data (perLevel * ilevel + ifreq) rows

/-- Body of the outer loop at /repo/resistics/gather.py:840-850, for one of the three data sets. -/
def quickLevel {V : Type} (p : DecParams ℚ) (evalData : SpecData V) (chans : List String)
    (data : List (ℕ × List (Option (List V)))) (ilevel : ℕ) : Except Err (List (ℕ × List (Option (List V)))) := do
  let lm ← pyIndex evalData.md.levels (ilevel : ℤ)
  let level ← evalData.getChans ilevel chans
  (List.range lm.nFreqs).foldlM (quickFreq p.perLevel ilevel level) data

/-- `eval_freqs` of /repo/resistics/gather.py:838-842. -/
def quickEvalFreqs {V : Type} (evalData : SpecData V) : Except Err (List ℚ) := do
  let parts ← (List.range evalData.md.nLevels).mapM fun (i : ℕ) =>
    (pyIndex evalData.md.levels (i : ℤ)).map fun lm => lm.freqs
  return parts.flatten

/-- One of the three results of `QuickGather.run`, with `_get_combined_data`
(/repo/resistics/gather.py:840-850, 866-892). -/
def quickSite {V : Type} (name : String) (p : DecParams ℚ) (evalData : SpecData V) (chans : List String) :
    Except Err (SiteCombined V) := do
  let evalFreqs ← quickEvalFreqs evalData
  let data ← (List.range evalData.md.nLevels).foldlM (quickLevel p evalData chans) []
  return { siteName := name, fs := p.fs, measurements := [name], chans := chans, nEvals := evalFreqs.length,
           evalFreqs := evalFreqs, histories := [(name, evalData.md.history)], data := data }

/-- /repo/resistics/gather.py:805-864 `QuickGather.run`; `name` is `dir_path.name`.  Simplification: the three data
sets are filled one after the other instead of side by side. -/
def quickGather {V : Type} (name : String) (p : DecParams ℚ) (tf : TfChans) (evalData : SpecData V) :
    Except Err (Gathered V) := do
  let outData ← quickSite name p evalData tf.outChans
  let inData ← quickSite name p evalData tf.inChans
  let crossData ← quickSite name p evalData tf.crossChans
  return { outData := outData, inData := inData, crossData := crossData }

end Resistics
