import Verif.Model.Process

/-!
# Model of the resistics environment (/repo/resistics/letsgo.py:69-89, 219-278)
-/

namespace Resistics

/-- /repo/resistics/letsgo.py:219-230 `ResisticsEnvironment`. -/
structure Env where
  proj : Project ℂ
  config : Config

/-- /repo/resistics/letsgo.py:69-89 `new`: the metadata are validated before (`ProjectMetadata(**proj_info)`). -/
def newProject (dir : Path) (md : ProjMeta) : FsM ℂ Bool := do
  createProject dir md
  return true

/-- /repo/resistics/letsgo.py:233-261 `load`; `dflt` is `get_default_configuration()`. -/
def loadEnv (ls : Path → List String) (now : Path → DateTime × DateTime) (dflt : Config) (fs : FS ℂ) (dir : Path)
    (config : Option Config) : Except Err Env := do
  let p ← loadProject ls now (config.getD dflt).readers fs dir
  return { proj := p, config := config.getD dflt }

/-- /repo/resistics/letsgo.py:264-278 `reload`. -/
def reloadEnv (ls : Path → List String) (now : Path → DateTime × DateTime) (dflt : Config) (fs : FS ℂ) (e : Env) : Except Err Env :=
  loadEnv ls now dflt fs e.proj.dirPath (some e.config)

/-- The calls that process the data of a project. -/
inductive EnvCall where
  | time (site meas outSite outMeas : String) (req : ReadReq) (files : TimeData ℚ → List (String × List String))
  | evals (site meas : String) (files : List (String × List String))
  | tf (fs : ℚ) (outSite : String) (inSite crossSite postfix? : Option String)

/-- /repo/resistics/letsgo.py:650-808: `process_time`, `process_time_to_evals` and `process_evals_to_tf` of an environment (what they
return is left out). -/
noncomputable def EnvCall.run (e : Env) : EnvCall → FsM ℂ Unit
  | .time site meas outSite outMeas req files => processTime e.config e.proj site meas outSite outMeas req files
  | .evals site meas files => processTimeToEvals e.config e.proj site meas files
  | .tf fs outSite inSite crossSite postfix? => discard (processEvalsToTf e.config e.proj fs outSite inSite crossSite postfix?)

end Resistics
