import Verif.Model.Files

/-!
# Model of /repo/resistics/project.py and of project creation and loading in /repo/resistics/letsgo.py

The file system is that of `Verif.Model.Files`.  The order in which the operating system lists a directory is a
parameter `ls`, and so are the readings of the clock for sites and projects without measurements.
-/

namespace Resistics

/-! ## Paths -/

/-- The components of a path string: split at slashes; `cur` is the current component, reversed. -/
def splitSlash (cur : List Char) : List Char → List String
  | [] => [String.ofList cur.reverse]
  | c :: cs => if c = '/' then String.ofList cur.reverse :: splitSlash [] cs else splitSlash (c :: cur) cs

/-- The parts `pathlib` keeps of a path string: those which are neither empty nor a single dot. -/
def pathParts (s : String) : List String := (splitSlash [] s.toList).filter fun x => x ≠ "" ∧ x ≠ "."

/-- `path / name` of `pathlib`: an absolute name replaces the path.  Simplification: a root of two slashes is not told
from one. -/
def pathJoin (p : Path) (s : String) : Path := if s.toList.head? = some '/' then pathParts s else p ++ pathParts s

/-- `path.name`. -/
def pathName (p : Path) : String := p.getLast?.getD ""

/-- /repo/resistics/project.py:21 `PROJ_FILE`. -/
def projFile : String := "resistics.json"

/-- /repo/resistics/project.py:22-31 `PROJ_DIRS`. -/
def projDirs : List (String × String) :=
  [("time", "time"), ("calibration", "calibrate"), ("spectra", "spectra"), ("evals", "evals"), ("features", "features"),
   ("masks", "masks"), ("results", "results"), ("images", "images")]

/-- /repo/resistics/project.py:34-36 `get_calibration_path`. -/
def getCalibrationPath (proj : Path) : Path := pathJoin proj "calibrate"

/-- /repo/resistics/project.py:39-41 `get_meas_time_path`. -/
def getMeasTimePath (proj : Path) (site meas : String) : Path := pathJoin (pathJoin (pathJoin proj "time") site) meas

/-- /repo/resistics/project.py:44-48 `get_meas_spectra_path`. -/
def getMeasSpectraPath (proj : Path) (site meas config : String) : Path :=
  pathJoin (pathJoin (pathJoin (pathJoin proj "spectra") site) config) meas

/-- /repo/resistics/project.py:51-55 `get_meas_evals_path`. -/
def getMeasEvalsPath (proj : Path) (site meas config : String) : Path :=
  pathJoin (pathJoin (pathJoin (pathJoin proj "evals") site) config) meas

/-- /repo/resistics/project.py:58-62 `get_meas_features_path`. -/
def getMeasFeaturesPath (proj : Path) (site meas config : String) : Path :=
  pathJoin (pathJoin (pathJoin (pathJoin proj "features") site) config) meas

/-- /repo/resistics/project.py:65-67 `get_mask_path`. -/
def getMaskPath (proj : Path) (site config : String) : Path :=
  pathJoin (pathJoin (pathJoin proj "masks") site) config

/-- /repo/resistics/project.py:77-79 `get_results_path`. -/
def getResultsPath (proj : Path) (site config : String) : Path :=
  pathJoin (pathJoin (pathJoin proj "results") site) config

/-- Six decimal digits of a number below a million, most significant first. -/
def sixDigits (n : ℕ) : String :=
  String.ofList [Nat.digitChar (n / 100000 % 10), Nat.digitChar (n / 10000 % 10), Nat.digitChar (n / 1000 % 10),
    Nat.digitChar (n / 100 % 10), Nat.digitChar (n / 10 % 10), Nat.digitChar (n % 10)]

/-- `f"{fs:.6f}"` with the point replaced by an underscore (/repo/resistics/common.py:322-342 `fs_to_string`), which is
the exact value rounded to a millionth, ties to even. -/
def fsToString (fs : ℚ) : String :=
  let n := (pyRound (|fs| * 1000000)).toNat
  (if fs < 0 then "-" else "") ++ ((n / 1000000).repr ++ "_" ++ sixDigits n)

/-- /repo/resistics/project.py:70-74 `get_mask_name`. -/
def getMaskName (fs : ℚ) (mask : String) : String := fsToString fs ++ ("_" ++ (mask ++ ".dat"))

/-- `tf_var.replace(" ", "_")`. -/
def spacesToUnderscores (s : String) : String := String.ofList (s.toList.map fun c => if c = ' ' then '_' else c)

/-- `tf_name.lower()`.  Simplification: only the capital letters of ASCII have small ones. -/
def lowerName (s : String) : String := String.ofList (s.toList.map Char.toLower)

/-- /repo/resistics/project.py:82-94 `get_solution_name`. -/
def getSolutionName (fs : ℚ) (tfName tfVar : String) (postfix? : Option String := none) : String :=
  let name := fsToString fs ++ ("_" ++ lowerName tfName)
  let name := if tfVar ≠ "" then name ++ ("_" ++ spacesToUnderscores tfVar) else name
  match postfix? with
  | none => name ++ ".json"
  | some p => name ++ ("_" ++ (p ++ ".json"))

/-! ## Projects -/

/-- A time data reader of a configuration: what it does when asked for metadata only, and when asked for data with
metadata that were read before (/repo/resistics/time.py:708-831). -/
structure TReader (W : Type) where
  name : String
  readMeta : FS W → Path → Except Err TimeMeta
  readData : FS W → Path → TimeMeta → ReadReq → Except Err (TimeData ℚ)
  /-- The file in which the samples stay after reading, for a reader that maps the file instead of loading it. -/
  mapped : FS W → Path → Option Path := fun _ _ => none

/-- /repo/resistics/project.py:97-113 `Measurement`. -/
structure Meas (W : Type) where
  siteName : String
  dirPath : Path
  md : TimeMeta
  reader : TReader W

/-- `Measurement.name`. -/
def Meas.name {W : Type} (m : Meas W) : String := pathName m.dirPath

/-- /repo/resistics/project.py:116-130 `Site`. -/
structure Site (W : Type) where
  dirPath : Path
  measurements : List (String × Meas W)
  beginTime : DateTime
  endTime : DateTime

/-- `Site.name` (/repo/resistics/project.py:140-143). -/
def Site.name {W : Type} (s : Site W) : String := pathName s.dirPath

/-- /repo/resistics/project.py:225-239 `Project`. -/
structure Project (W : Type) where
  dirPath : Path
  beginTime : DateTime
  endTime : DateTime
  md : ProjMeta
  sites : List (String × Site W)

/-- `sorted(list(set(...)))` of numbers. -/
def sortedNumbers (l : List ℚ) : List ℚ := l.dedup.insertionSort (· ≤ ·)

/-- /repo/resistics/project.py:150-153 `Site.fs`. -/
def Site.fs {W : Type} (s : Site W) : List ℚ := sortedNumbers (s.measurements.map fun m => m.2.md.fs)

/-- /repo/resistics/project.py:155-161 `Site.get_measurement`. -/
def Site.getMeasurement {W : Type} (s : Site W) (name : String) : Except Err (Meas W) :=
  match s.measurements.lookup name with
  | some m => .ok m
  | none => .error .measNotFound

/-- /repo/resistics/project.py:163-171 `Site.get_measurements`. -/
def Site.getMeasurements {W : Type} (s : Site W) : Option ℚ → List (String × Meas W)
  | none => s.measurements
  | some fs => s.measurements.filter fun m => m.2.md.fs = fs

/-- /repo/resistics/project.py:255-260 `Project.fs`. -/
def Project.fs {W : Type} (p : Project W) : List ℚ := sortedNumbers (p.sites.flatMap fun s => s.2.fs)

/-- /repo/resistics/project.py:262-268 `Project.get_site`. -/
def Project.getSite {W : Type} (p : Project W) (name : String) : Except Err (Site W) :=
  match p.sites.lookup name with
  | some s => .ok s
  | none => .error .siteNotFound

/-- /repo/resistics/project.py:270-287 `Project.get_sites`. -/
def Project.getSites {W : Type} (p : Project W) : Option ℚ → List (String × Site W)
  | none => p.sites
  | some fs => p.sites.filter fun s => fs ∈ s.2.fs

/-- The tests of the loop at /repo/resistics/project.py:305-313. -/
def isConcurrent {W : Type} (siteName : String) (start stop : DateTime) (s : Site W) : Bool :=
  if s.name = siteName then false
  else if s.endTime < start then false
  else if stop < s.beginTime then false
  else true

/-- /repo/resistics/project.py:289-314 `Project.get_concurrent`: an unknown site is a `KeyError`. -/
def Project.getConcurrent {W : Type} (p : Project W) (siteName : String) : Except Err (List (Site W)) := do
  let s ← dictGet p.sites siteName
  return (p.sites.map Prod.snd).filter (isConcurrent siteName s.beginTime s.endTime)

/-! ## Creation -/

/-- The tests at /repo/resistics/letsgo.py:45-53 of the project directory: may the project be made, and is the directory
already there?  `assert_dir` of a file raises `NotDirectoryError`. -/
def createCheck {W : Type} (fs : FS W) (dir : Path) : Except Err Bool :=
  if (fs dir).isSome && fs.isDir dir && (fs (dir ++ [projFile])).isSome then .error .projCreate
  else if (fs dir).isSome then (if fs.isDir dir then .ok true else .error .notDir)
  else .ok false

/-- /repo/resistics/letsgo.py:54-55: the directory is made when it is not there. -/
def makeProjDir {W : Type} (there : Bool) (dir : Path) : FsM W Unit := if there then pure () else mkdirParents dir

/-- /repo/resistics/letsgo.py:33-58 `ProjectCreator.run`. -/
def createProject {W : Type} (dir : Path) (md : ProjMeta) : FsM W Unit := do
  let there ← fsRead fun fs => createCheck fs dir
  makeProjDir there dir
  mkdirEach (projDirs.map fun q => dir ++ [q.2])
  writeFile dir projFile (.projJson md)

/-! ## Loading -/

/-- /repo/resistics/common.py:95-116 `assert_dir`. -/
def assertDir {W : Type} (fs : FS W) (p : Path) : Except Err Unit :=
  if (fs p).isNone then .error .os
  else if fs.isDir p then .ok () else .error .notDir

/-- /repo/resistics/common.py:119-158, 181-196 `dir_contents` and `dir_subdirs`. -/
def dirSubdirs {W : Type} (ls : Path → List String) (fs : FS W) (p : Path) : Except Err (List Path) :=
  if (fs p).isNone then .error .pathNotFound
  else if fs.isDir p then .ok (((ls p).map fun n => p ++ [n]).filter fun q => fs.isDir q) else .error .notDir

/-- One turn of the loop at /repo/resistics/letsgo.py:204-217: any exception of the reader is swallowed. -/
def tryReader {W : Type} (fs : FS W) (site : String) (dir : Path) (r : TReader W) : Option (Meas W) :=
  match r.readMeta fs dir with
  | .ok md => some ⟨site, dir, md, r⟩
  | .error _ => none

/-- /repo/resistics/letsgo.py:180-219 `_load_measurement`. -/
def loadMeasurement {W : Type} (readers : List (TReader W)) (fs : FS W) (site : String) (dir : Path) :
    Option (Meas W) := readers.findSome? (tryReader fs site dir)

/-- `min` of a list, or the given value for an empty one. -/
def minOr (d : ℚ) : List ℚ → ℚ
  | [] => d
  | x :: l => l.foldl min x

/-- `max` of a list, or the given value for an empty one. -/
def maxOr (d : ℚ) : List ℚ → ℚ
  | [] => d
  | x :: l => l.foldl max x

/-- One turn of the loop at /repo/resistics/letsgo.py:163-166. -/
def loadEntry {W : Type} (readers : List (TReader W)) (fs : FS W) (site : String) (dir : Path) :
    Option (String × Meas W) := (loadMeasurement readers fs site dir).map fun m => (pathName dir, m)

/-- /repo/resistics/letsgo.py:157-178 `_load_site`; `now` gives the two readings of the clock for a site without
measurements.  Simplification: the dictionary is a list, since the entries of a directory have different names. -/
def loadSite {W : Type} (ls : Path → List String) (now : Path → DateTime × DateTime) (readers : List (TReader W))
    (fs : FS W) (dir : Path) : Except Err (Site W) := do
  let subs ← dirSubdirs ls fs dir
  let ms := subs.filterMap (loadEntry readers fs (pathName dir))
  return { dirPath := dir, measurements := ms,
           beginTime := minOr (now dir).1 (ms.map fun m => m.2.md.firstTime),
           endTime := maxOr (now dir).2 (ms.map fun m => m.2.md.lastTime) }

/-- /repo/resistics/letsgo.py:147-155 `_check_subdirs`: it returns after the first directory. -/
def checkSubdirs {W : Type} (fs : FS W) (dir : Path) : List (String × String) → Except Err Unit
  | [] => .ok ()
  | q :: _ => assertDir fs (dir ++ [q.2])

/-- `ProjectMetadata.parse_file`. -/
def parseProj {W : Type} : Content W → Except Err ProjMeta
  | .projJson m => .ok m
  | _ => .error .value

/-- One turn of the loop at /repo/resistics/letsgo.py:130-132. -/
def loadNamedSite {W : Type} (ls : Path → List String) (now : Path → DateTime × DateTime)
    (readers : List (TReader W)) (fs : FS W) (dir : Path) : Except Err (String × Site W) := do
  let s ← loadSite ls now readers fs dir
  return (pathName dir, s)

/-- The test for the project file (/repo/resistics/letsgo.py:120-124). -/
def checkProjFile {W : Type} (fs : FS W) (dir : Path) : Except Err Unit :=
  if (fs (dir ++ [projFile])).isNone then .error .projLoad else .ok ()

/-- /repo/resistics/letsgo.py:97-145 `ProjectLoader.run`. -/
def loadProject {W : Type} (ls : Path → List String) (now : Path → DateTime × DateTime) (readers : List (TReader W))
    (fs : FS W) (dir : Path) : Except Err (Project W) := do
  assertDir fs dir
  checkProjFile fs dir
  checkSubdirs fs dir projDirs
  let c ← fs.content (dir ++ [projFile])
  let md ← parseProj c
  let subs ← dirSubdirs ls fs (dir ++ ["time"])
  let sites ← subs.mapM (loadNamedSite ls now readers fs)
  return { dirPath := dir, md := md, sites := sites,
           beginTime := minOr (now dir).1 (sites.map fun s => s.2.beginTime),
           endTime := maxOr (now dir).2 (sites.map fun s => s.2.endTime) }

/-- The file that `TimeReaderNumpy` maps (`np.load(data_path, mmap_mode="r")`, /repo/resistics/time.py:1101-1102): the first
data file of the first channel. -/
def numpyDataFile {W : Type} (fs : FS W) (dir : Path) : Except Err Path := do
  let mf ← fs.timeMetadata ".npy" dir
  let chan ← pyIndex mf.1.chans 0
  let fileList ← dictGet mf.2 chan
  let name ← pyIndex fileList 0
  return dir ++ [name]

/-- The numpy reader of the default configuration (/repo/resistics/config.py:127).  Simplification: asked for data, it
reads the metadata from the same file again instead of taking those given. -/
def numpyReader (W : Type) : TReader W where
  name := "TimeReaderNumpy"
  readMeta := fun fs dir => do
    let q ← fs.timeMetadata ".npy" dir
    return q.1
  readData := fun fs dir _ r => readTimeNumpyFiles fs dir r
  mapped := fun fs dir => (numpyDataFile fs dir).toOption

/-- The ascii reader of the default configuration; its data are not modelled. -/
def asciiReader (W : Type) (data : FS W → Path → TimeMeta → ReadReq → Except Err (TimeData ℚ)) : TReader W where
  name := "TimeReaderAscii"
  readMeta := fun fs dir => do
    let q ← readTimeAsciiMetadata fs dir
    return q.1
  readData := data

end Resistics
