import Verif.Model.Project
import Verif.Model.Calibrate
import Verif.Model.Regression

/-!
# Model of the processing functions of /repo/resistics/letsgo.py

A configuration is the tuple of its processes.  The functions that touch the disk run on the file system of
`Verif.Model.Files`.
-/

namespace Resistics

/-- /repo/resistics/config.py:28-151 `Configuration`: the parameters of the processes modelled elsewhere.  The windower and
the spectra processors are functions (those of `Verif.Model.Window` and `Verif.Model.Spectra`, or custom ones), and so are
the calibrator, which reads files in a directory, and the estimation of the coefficients by the solver.  `lost` is no part of a
configuration but of the platform: what a mapped array with so many rows and columns holds after its file has been truncated;
`none` when the process does not survive the access (a bus error) or the write fails. -/
structure Config where
  name : String
  readers : List (TReader ℂ)
  sp : SciPy
  timeProcs : List Proc
  decSetup : DecSetup ℚ
  defaultFreqs : ℚ → ℕ → List ℚ
  useResample : Bool
  maxSingle : ℕ
  winSetup : WindowSetup
  windower : DateTime → WinParams → DecData ℚ → Except Err (WinData ℚ)
  nfl : ℕ → ℕ
  ft : ℕ → List ℚ → List ℂ
  specProcs : List (SpecData ℂ → Except Err (SpecData ℂ))
  calibrate : FS ℂ → Path → SpecData ℂ → Except Err (SpecData ℂ)
  tf : TransFunc
  getCoef : List (List ℝ) → List ℝ → Except Err (List ℝ)
  lost : ℕ → ℕ → Option (List (List ℚ)) := fun _ _ => none

/-- The channels of a transfer function. -/
def TransFunc.gatherChans (tf : TransFunc) : TfChans where
  outChans := tf.outChans
  inChans := tf.inChans
  crossChans := tf.crossChans

/-- /repo/resistics/letsgo.py:303-328 `run_decimation` with the parameters. -/
def Config.decimate (c : Config) (p : DecParams ℚ) (td : TimeData ℚ) : Except Err (DecData ℚ) :=
  Decimator.run c.sp c.useResample c.maxSingle p td

/-- /repo/resistics/letsgo.py:331-353 `run_windowing`. -/
def Config.window (c : Config) (refTime : DateTime) (dec : DecData ℚ) : Except Err (WinData ℚ) := do
  let wp ← c.winSetup.run dec.md.nLevels dec.md.fs
  c.windower refTime wp dec

/-- /repo/resistics/letsgo.py:376-397 `run_spectra_processors`. -/
def Config.processSpectra (c : Config) (spec : SpecData ℂ) : Except Err (SpecData ℂ) :=
  c.specProcs.foldlM (fun s f => f s) spec

/-- The steps from time data to spectra (/repo/resistics/letsgo.py:604-608 and 641-646): time processors, decimation,
windowing and Fourier transform. -/
noncomputable def Config.toSpectra (c : Config) (refTime : DateTime) (td : TimeData ℚ) :
    Except Err (DecParams ℚ × SpecData ℂ) := do
  let td ← runTimeProcessors c.sp c.timeProcs td
  let p ← c.decSetup.run c.defaultFreqs td.md.fs
  let dec ← c.decimate p td
  let win ← c.window refTime dec
  let spec ← fourierRun c.nfl c.ft win
  return (p, spec)

/-- The steps from time data to data at the evaluation frequencies (/repo/resistics/letsgo.py:641-647 and 722-729), without
calibration. -/
noncomputable def Config.toEvals (c : Config) (refTime : DateTime) (td : TimeData ℚ) :
    Except Err (DecParams ℚ × SpecData ℂ) := do
  let ps ← c.toSpectra refTime td
  let spec ← c.processSpectra ps.2
  let evals ← evalFreqsRun ps.1 spec
  return (ps.1, evals)

/-- /repo/resistics/letsgo.py:448-487: regression preparer and solver. -/
noncomputable def Config.solve (c : Config) (g : Gathered ℂ) : Except Err Solution := do
  let r ← prepareGathered c.tf g
  solveWith c.getCoef r

/-! ## One directory -/

/-- One reader of `quick_read`: metadata, then all data; any exception is swallowed. -/
def tryRead (fs : FS ℂ) (dir : Path) (r : TReader ℂ) : Option (TimeData ℚ) :=
  match (do let md ← r.readMeta fs dir; r.readData fs dir md {} : Except Err (TimeData ℚ)) with
  | .ok td => some td
  | .error _ => none

/-- /repo/resistics/letsgo.py:490-528 `quick_read`. -/
def Config.quickRead (c : Config) (fs : FS ℂ) (dir : Path) : Except Err (TimeData ℚ) :=
  match c.readers.findSome? (tryRead fs dir) with
  | some td => .ok td
  | none => .error .timeRead

/-- /repo/resistics/letsgo.py:574-608 `quick_spectra`. -/
noncomputable def Config.quickSpectra (c : Config) (fs : FS ℂ) (dir : Path) : Except Err (SpecData ℂ) := do
  let td ← c.quickRead fs dir
  let ps ← c.toSpectra td.md.firstTime td
  return ps.2

/-- The optional calibration of /repo/resistics/letsgo.py:648-649. -/
def Config.calibrateOpt (c : Config) (fs : FS ℂ) (cal? : Option Path) (evals : SpecData ℂ) : Except Err (SpecData ℂ) :=
  match cal? with
  | none => .ok evals
  | some cal => c.calibrate fs cal evals

/-- /repo/resistics/letsgo.py:611-652 `quick_tf`. -/
noncomputable def Config.quickTf (c : Config) (fs : FS ℂ) (dir : Path) (cal? : Option Path) : Except Err Solution := do
  let td ← c.quickRead fs dir
  let ps ← c.toEvals td.md.firstTime td
  let evals ← c.calibrateOpt fs cal? ps.2
  let g ← quickGather (pathName dir) ps.1 c.tf.gatherChans evals
  c.solve g

/-! ## Projects -/

/-- `proj[site_name][meas_name]`. -/
def Project.getMeas {W : Type} (p : Project W) (site meas : String) : Except Err (Meas W) := do
  let s ← p.getSite site
  s.getMeasurement meas

/-- /repo/resistics/letsgo.py:690-694: the processed time data of `process_time`. -/
def Config.timeOf (c : Config) (p : Project ℂ) (fs : FS ℂ) (site meas : String) (r : ReadReq) :
    Except Err (TimeData ℚ) := do
  let m ← p.getMeas site meas
  let td ← m.reader.readData fs m.dirPath m.md r
  runTimeProcessors c.sp c.timeProcs td

/-- Are the samples that `process_time` writes still in the file it writes?  Without processors the recording is written as the
reader returned it (/repo/resistics/letsgo.py:693-697, `run_time_processors` 283-300), and every processor makes a new array
(/repo/resistics/time.py:1305, 1347, 1422, 1489, 1566, 1647, 1717, 1799, 1879, 1970, 2063, 2258, 2348). -/
def Config.overItself (c : Config) (p : Project ℂ) (site meas : String) (out : Path) (fs : FS ℂ) : Bool :=
  match c.timeProcs, p.getMeas site meas with
  | [], .ok m => m.reader.mapped fs m.dirPath == some (out ++ ["data.npy"])
  | _, _ => false

/-- `TimeWriterNumpy.run` (/repo/resistics/time.py:1133-1146) of samples that are still in the file it writes: `np.save` truncates
the file before it takes the samples from it. -/
def Config.writeOverItself (c : Config) (out : Path) (files : List (String × List String)) (td : TimeData ℚ) : FsM ℂ Unit :=
  match c.lost td.data.length (td.data.headD []).length with
  | some data => writeTimeNumpy true out files { td with data := data }
  | none => do
      checkDir true out
      writeFile out "data.npy" .torn
      throw .other

/-- /repo/resistics/letsgo.py:655-697 `process_time`; `files` are the data files that the channel metadata name before the
write. -/
def processTime (c : Config) (p : Project ℂ) (site meas outSite outMeas : String) (r : ReadReq)
    (files : TimeData ℚ → List (String × List String)) : FsM ℂ Unit := do
  let td ← fsRead fun fs => c.timeOf p fs site meas r
  let over ← fsRead fun fs => .ok (c.overItself p site meas (getMeasTimePath p.dirPath outSite outMeas) fs)
  if over then c.writeOverItself (getMeasTimePath p.dirPath outSite outMeas) (files td) td
  else writeTimeNumpy true (getMeasTimePath p.dirPath outSite outMeas) (files td) td

/-- /repo/resistics/letsgo.py:718-730: the data at the evaluation frequencies that `process_time_to_evals` writes, and the
measurement. -/
noncomputable def Config.evalsOf (c : Config) (p : Project ℂ) (fs : FS ℂ) (site meas : String) :
    Except Err (Meas ℂ × SpecData ℂ) := do
  let m ← p.getMeas site meas
  let td ← m.reader.readData fs m.dirPath m.md {}
  let ps ← c.toEvals p.md.refTime td
  let evals ← c.calibrate fs (getCalibrationPath p.dirPath) ps.2
  return (m, evals)

/-- /repo/resistics/letsgo.py:700-737 `process_time_to_evals`. -/
noncomputable def processTimeToEvals (c : Config) (p : Project ℂ) (site meas : String) (files : List (String × List String)) :
    FsM ℂ Unit := do
  let me ← fsRead fun fs => c.evalsOf p fs site meas
  writeSpec true (getMeasEvalsPath p.dirPath me.1.siteName me.1.name c.name) files me.2

/-- `SpectraDataReader().run(path, metadata_only=True)` (/repo/resistics/spectra.py:821-830). -/
def readSpecMetaFile {W : Type} (fs : FS W) (dir : Path) : Except Err SpecMeta := do
  if (fs dir).isNone then throw .read
  let q ← fs.metadata dir
  specPayload q.1

/-- The data on disk at the evaluation frequencies, as gathering reads them (/repo/resistics/gather.py:71-86, 614-617). -/
def evalStoreOf {W : Type} (fs : FS W) (proj : Path) (config : String) : EvalStore W where
  readMeta := fun site meas => readSpecMetaFile fs (getMeasEvalsPath proj site meas config)
  readData := fun site meas => readSpecFiles fs (getMeasEvalsPath proj site meas config)

/-- What gathering uses of a project. -/
def Project.forGather {W : Type} (p : Project W) : GProject where
  sites := p.sites.map fun s => (s.1, s.2.measurements.map fun m => (m.1, m.2.md.fs))

/-- The sites of /repo/resistics/letsgo.py:782-786. -/
def sitesOf (outSite : String) (inSite crossSite : Option String) : List String :=
  outSite :: (inSite.toList ++ crossSite.toList)

/-- The solution of `process_evals_to_tf` (/repo/resistics/letsgo.py:788-800). -/
noncomputable def Config.tfOf (c : Config) (p : Project ℂ) (disk : FS ℂ) (fs : ℚ) (outSite : String)
    (inSite crossSite : Option String) : Except Err Solution := do
  let dp ← c.decSetup.run c.defaultFreqs fs
  let sel ← selectorRun (evalStoreOf disk p.dirPath c.name) p.forGather (sitesOf outSite inSite crossSite) dp
  let g ← projectGather (evalStoreOf disk p.dirPath c.name) p.forGather sel c.tf.gatherChans outSite inSite crossSite
  c.solve g

/-- /repo/resistics/letsgo.py:801-803: the directory of the results is made when it is missing. -/
def ensureDir {W : Type} (dir : Path) : FsM W Unit := do
  let there ← fsRead fun fs => .ok (fs dir).isSome
  if there then pure () else mkdirParents dir

/-- `solution.write(path)` (/repo/resistics/common.py:441-452). -/
def writeSolution {W : Type} (path : Path) (s : Solution) : FsM W Unit :=
  writeFile path.dropLast (pathName path) (.solJson s)

/-- /repo/resistics/letsgo.py:740-808 `process_evals_to_tf`; masks are not used by the code. -/
noncomputable def processEvalsToTf (c : Config) (p : Project ℂ) (fs : ℚ) (outSite : String)
    (inSite crossSite postfix? : Option String) : FsM ℂ Solution := do
  let s ← fsRead fun disk => c.tfOf p disk fs outSite inSite crossSite
  ensureDir (getResultsPath p.dirPath outSite c.name)
  writeSolution (pathJoin (getResultsPath p.dirPath outSite c.name) (getSolutionName fs s.tf.name s.tf.variation postfix?)) s
  return s

/-- `Solution.parse_file`: the transfer function is validated again, from the dictionary saved in the file, with the classes
registered at that time. -/
def parseSolution {W : Type} (types : List (String × TfClass)) : Content W → Except Err Solution
  | .solJson s => do
      let tf ← tfValidate tfBase types s.tf.toDict
      return { s with tf := tf }
  | _ => .error .value

/-- /repo/resistics/letsgo.py:811-850 `get_solution`. -/
def getSolution {W : Type} (types : List (String × TfClass)) (fs : FS W) (proj : Path) (site config : String) (rate : ℚ)
    (tfName tfVar : String) (postfix? : Option String) : Except Err Solution := do
  let c ← fs.content (pathJoin (getResultsPath proj site config) (getSolutionName rate tfName tfVar postfix?))
  parseSolution types c

end Resistics
