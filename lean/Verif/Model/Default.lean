import Verif.Model.Process
import Verif.Model.Solvers

/-!
# Model of the default configuration of /repo/resistics/config.py
-/

namespace Resistics

/-- `ImpedanceTensor()` (/repo/resistics/transfunc.py:351-376), see `C37_builtin`. -/
def impedanceTensor : TransFunc where
  name := "ImpedanceTensor"
  variation := "default"
  outChans := ["Ex", "Ey"]
  inChans := ["Hx", "Hy"]
  crossChans := ["Hx", "Hy"]
  nOut := 2
  nIn := 2
  nCross := 2

/-- /repo/resistics/config.py:155-157 `get_default_configuration` with the defaults of 123-152 and of the classes named there:
`DecimationSetup` (/repo/resistics/decimate.py:363-367), `Decimator` (728-731), `WindowSetup` (/repo/resistics/window.py:880-886),
`FourierTransform` (/repo/resistics/spectra.py:459-461) and `SolverScikitTheilSen` (/repo/resistics/regression.py:756-759, 934-939).
Parameters: the two readers, scipy, the evaluation frequencies as computed by `get_eval_freqs`, `next_fast_len`, the window function
(Kaiser), the calibration and scikit-learn. -/
noncomputable def defaultConfig (readers : List (TReader ℂ)) (sp : SciPy) (ladder : ℚ → ℕ → List ℚ) (nextFastLen : ℕ → ℕ)
    (kaiser : ℕ → List ℝ) (calibrate : FS ℂ → Path → SpecData ℂ → Except Err (SpecData ℂ)) (sk : Sklearn) : Config where
  name := "default"
  readers := readers
  sp := sp
  timeProcs := [.interpolateNans, .removeMean]
  decSetup := {}
  defaultFreqs := ladder
  useResample := true
  maxSingle := 3
  winSetup := {}
  windower := windowerRun
  nfl := nextFastLen
  ft := fun n row => fourierRow .linear kaiser n (row.map fun (q : ℚ) => (q : ℝ))
  specProcs := []
  calibrate := calibrate
  tf := impedanceTensor
  getCoef := (SolverConfig.theilSen false false 2000 none).getCoef sk

end Resistics
