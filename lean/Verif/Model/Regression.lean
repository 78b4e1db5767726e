import Mathlib.Analysis.SpecialFunctions.Complex.Arg
import Verif.Model.TransFunc

/-!
# Model of /repo/resistics/regression.py

Arrays are nested lists, in exact arithmetic over `ℝ` and `ℂ`.  The regression library (scikit-learn) is a parameter
`fit` which maps predictors and observations (and weights) to coefficients.  Shapes must match exactly: where numpy would
broadcast an axis of size one, the model raises the `ValueError` that numpy raises for other mismatches.
-/

namespace Resistics

open scoped ComplexConjugate

/-- The channels of a transfer function that gathering uses. -/
def TransFunc.chans (tf : TransFunc) : TfChans := ⟨tf.outChans, tf.inChans, tf.crossChans⟩

/-! ## Regression input -/

/-- /repo/resistics/regression.py:39-138 `RegressionInputData`, without its metadata. -/
structure RegInput where
  tf : TransFunc
  freqs : List ℚ
  obs : List (List (String × List ℝ))
  preds : List (List (List ℝ))

/-- /repo/resistics/regression.py:140-143 `n_freqs`. -/
def RegInput.nFreqs (r : RegInput) : ℕ := r.freqs.length

/-- /repo/resistics/regression.py:145-161 `get_inputs`. -/
def RegInput.getInputs (r : RegInput) (freqIdx : ℤ) (outChan : String) :
    Except Err (List ℝ × List (List ℝ)) := do
  let obs ← pyIndex r.obs freqIdx
  let o ← dictGet obs outChan
  let p ← pyIndex r.preds freqIdx
  return (o, p)

/-- One window of the cross powers: channels × cross channels. -/
noncomputable def winPowers (data cross : List ℂ) : List (List ℂ) := data.map fun a => cross.map fun b => a * conj b

/-- /repo/resistics/regression.py:480-489 (one of the two products): windows × channels × cross channels. -/
noncomputable def crossPowers (data cross : List (List ℂ)) : Except Err (List (List (List ℂ))) :=
  if data.length ≠ cross.length then .error .value else .ok (List.zipWith winPowers data cross)

/-- Real and imaginary parts interleaved (`obs[0::2] = real; obs[1::2] = imag`). -/
def interleave (l : List ℂ) : List ℝ := l.flatMap fun z => [z.re, z.im]

/-- /repo/resistics/regression.py:511-514 (and 262-265): the observations of one output channel. -/
def obsChan (outPowers : List (List (List ℂ))) (idx : ℕ) : Except Err (List ℝ) := do
  let rows ← outPowers.mapM fun win => pyIndex win idx
  return interleave rows.flatten

/-- One output channel of the loop /repo/resistics/regression.py:510-515. -/
def obsStep (outPowers : List (List (List ℂ))) (obs : List (String × List ℝ)) (c : String × ℕ) :
    Except Err (List (String × List ℝ)) := do
  let o ← obsChan outPowers c.2
  return dictSet obs c.1 o

/-- /repo/resistics/regression.py:491-516 (and 242-267) `_get_obs`. -/
def getObs (tf : TransFunc) (outPowers : List (List (List ℂ))) : Except Err (List (String × List ℝ)) :=
  tf.outChans.zipIdx.foldlM (obsStep outPowers) []

/-- The two rows that one cross channel gives, from the column of its cross powers. -/
def predsRows (col : List ℂ) : List (List ℝ) :=
  [col.flatMap fun z => [z.re, -z.im], col.flatMap fun z => [z.im, z.re]]

/-- /repo/resistics/regression.py:598-608 (and 349-359) `_get_preds_win`: the rows of one window. -/
def predsWin (tf : TransFunc) (inPowers : List (List ℂ)) : Except Err (List (List ℝ)) :=
  if (inPowers.length : ℤ) ≠ tf.nIn ∨ ∃ row ∈ inPowers, (row.length : ℤ) ≠ tf.nCross then .error .value
  else .ok ((List.range tf.nCross.toNat).flatMap fun c => predsRows (inPowers.map fun row => row.getD c 0))

/-- /repo/resistics/regression.py:564-596 (and 315-347) `_get_preds`. -/
def getPreds (tf : TransFunc) (inPowers : List (List (List ℂ))) : Except Err (List (List ℝ)) := do
  if tf.nCross < 0 ∨ tf.nIn < 0 then throw .value
  let rows ← inPowers.mapM (predsWin tf)
  return rows.flatten

/-- An array all of whose rows have been assigned; reading memory left by `np.empty` has no defined result. -/
def filledRows {V : Type} (rows : List (Option (List V))) : Except Err (List (List V)) :=
  rows.mapM fun r => match r with
    | some row => .ok row
    | none => .error .other

/-- `site.data[eval_idx]`. -/
def siteRows {V : Type} (s : SiteCombined V) (idx : ℕ) : Except Err (List (List V)) := do
  let rows ← dictGet s.data idx
  filledRows rows

/-- One frequency of the loop /repo/resistics/regression.py:420-426. -/
noncomputable def prepareEval (tf : TransFunc) (g : Gathered ℂ) (idx : ℕ) :
    Except Err (List (String × List ℝ) × List (List ℝ)) := do
  let out ← siteRows g.outData idx
  let inp ← siteRows g.inData idx
  let cross ← siteRows g.crossData idx
  let outPowers ← crossPowers out cross
  let inPowers ← crossPowers inp cross
  let obs ← getObs tf outPowers
  let preds ← getPreds tf inPowers
  return (obs, preds)

/-- /repo/resistics/regression.py:370-395 `RegressionPreparerGathered.run`. -/
noncomputable def prepareGathered (tf : TransFunc) (g : Gathered ℂ) : Except Err RegInput := do
  let rows ← (List.range g.outData.evalFreqs.length).mapM (prepareEval tf g)
  return { tf := tf, freqs := g.outData.evalFreqs, obs := rows.map (·.1), preds := rows.map (·.2) }

/-- One product of /repo/resistics/regression.py:237-239: windows × channels × cross channels × frequencies. -/
noncomputable def specPowers (data cross : SpecArr ℂ) : Except Err (List (List (List (List ℂ)))) :=
  if data.length ≠ cross.length then .error .value
  else .ok (List.zipWith (fun d c => d.map fun a => c.map fun b => List.zipWith (fun x y => x * conj y) a b) data cross)

/-- `powers[..., idx]`. -/
def powersAt (powers : List (List (List (List ℂ)))) (idx : ℕ) : Except Err (List (List (List ℂ))) :=
  powers.mapM fun win => win.mapM fun chan => chan.mapM fun row => pyIndex row idx

/-- One frequency of the inner loop /repo/resistics/regression.py:179-185. -/
def prepareSpecFreq (tf : TransFunc) (outPowers inPowers : List (List (List (List ℂ)))) (f : ℚ × ℕ) :
    Except Err (ℚ × List (String × List ℝ) × List (List ℝ)) := do
  let o ← powersAt outPowers f.2
  let obs ← getObs tf o
  let i ← powersAt inPowers f.2
  let preds ← getPreds tf i
  return (f.1, obs, preds)

/-- One level of the loop /repo/resistics/regression.py:176-185 and `_get_cross_powers` (191-240). -/
noncomputable def prepareSpecLevel (tf : TransFunc) (d : SpecData ℂ) (ilevel : ℕ) :
    Except Err (List (ℚ × List (String × List ℝ) × List (List ℝ))) := do
  let lm ← pyIndex d.md.levels ilevel
  let out ← d.getChans ilevel tf.outChans
  let inp ← d.getChans ilevel tf.inChans
  let cross ← d.getChans ilevel tf.crossChans
  let outPowers ← specPowers out cross
  let inPowers ← specPowers inp cross
  lm.freqs.zipIdx.mapM (prepareSpecFreq tf outPowers inPowers)

/-- /repo/resistics/regression.py:171-189 `RegressionPreparerSpectra.run`. -/
noncomputable def prepareSpectra (tf : TransFunc) (d : SpecData ℂ) : Except Err RegInput := do
  let levels ← (List.range d.md.nLevels).mapM (prepareSpecLevel tf d)
  let all := levels.flatten
  return { tf := tf, freqs := all.map (·.1), obs := all.map (·.2.1), preds := all.map (·.2.2) }

/-! ## Solution -/

/-- /repo/resistics/regression.py:611-660 `Solution`, without history and contributors. -/
structure Solution where
  tf : TransFunc
  freqs : List ℚ
  components : List (String × Component)

/-- /repo/resistics/regression.py:697-721 `get_component`. -/
noncomputable def Solution.getComponent (s : Solution) (key : String) : Except Err (List ℂ) :=
  match s.components.lookup key with
  | none => .error .value
  | some c => c.toNumpy

/-- /repo/resistics/regression.py:692-695 `periods`.  Simplification: a frequency of zero, for which numpy returns
infinity, gives zero. -/
def Solution.periods (s : Solution) : List ℚ := s.freqs.map fun f => 1 / f

/-- One entry of /repo/resistics/regression.py:740-741; assigning outside the array is an `IndexError`. -/
noncomputable def tensorEntry (s : Solution) (evalIdx : ℤ) (out : String × ℕ) (inp : String × ℕ) : Except Err ℂ := do
  let c ← dictGet s.components (getComponentKey out.1 inp.1)
  let v ← c.getValue evalIdx
  if s.tf.nOut ≤ out.2 ∨ s.tf.nIn ≤ inp.2 then throw .index
  return v

/-- One row of the tensor: entries beyond the input channels stay zero. -/
noncomputable def tensorRow (s : Solution) (evalIdx : ℤ) (out : String × ℕ) : Except Err (List ℂ) := do
  let row ← s.tf.inChans.zipIdx.mapM (tensorEntry s evalIdx out)
  return row ++ List.replicate (s.tf.nIn.toNat - row.length) 0

/-- /repo/resistics/regression.py:723-742 `get_tensor`. -/
noncomputable def Solution.getTensor (s : Solution) (evalIdx : ℤ) : Except Err (List (List ℂ)) := do
  if s.tf.nOut < 0 ∨ s.tf.nIn < 0 then throw .value
  let rows ← s.tf.outChans.zipIdx.mapM (tensorRow s evalIdx)
  return rows ++ List.replicate (s.tf.nOut.toNat - rows.length) (List.replicate s.tf.nIn.toNat 0)

/-! ## Solvers -/

/-- One value of /repo/resistics/regression.py:834-836. -/
noncomputable def coefValue (coef : List ℝ) (inIdx : ℕ) : Except Err ℂ := do
  let re ← pyIndex coef ((inIdx * 2 : ℕ) : ℤ)
  let im ← pyIndex coef ((inIdx * 2 + 1 : ℕ) : ℤ)
  return (re : ℂ) + Complex.I * (im : ℂ)

/-- /repo/resistics/regression.py:813-837 `_get_tensor`. -/
noncomputable def coefTensor (tf : TransFunc) (coef : List ℝ) : Except Err (List ℂ) :=
  if tf.nIn < 0 then .error .value else (List.range tf.nIn.toNat).mapM (coefValue coef)

/-- The regression of one output channel, /repo/resistics/regression.py:785-787.  `getCoef preds obs` is `_get_coef`. -/
noncomputable def solveChan (getCoef : List (List ℝ) → List ℝ → Except Err (List ℝ)) (r : RegInput) (evalIdx : ℕ)
    (out : String × ℕ) : Except Err (List ℂ) := do
  let inputs ← r.getInputs evalIdx out.1
  let coef ← getCoef inputs.2 inputs.1
  let t ← coefTensor r.tf coef
  if r.tf.nOut ≤ out.2 then throw .index
  return t

/-- One evaluation frequency of the loop /repo/resistics/regression.py:783-787. -/
noncomputable def solveEval (getCoef : List (List ℝ) → List ℝ → Except Err (List ℝ)) (r : RegInput) (evalIdx : ℕ) :
    Except Err (List (List ℂ)) :=
  r.tf.outChans.zipIdx.mapM (solveChan getCoef r evalIdx)

/-- `tensors[:, out_idx, in_idx]` as a component (/repo/resistics/regression.py:866-869). -/
noncomputable def tensorComponent (tensors : List (List (List ℂ))) (o i : ℕ) : Except Err Component := do
  let values ← tensors.mapM fun t => do pyIndex (← pyIndex t o) i
  return { real := values.map Complex.re, imag := values.map Complex.im }

/-- One pair of channels of /repo/resistics/regression.py:863-869. -/
noncomputable def solutionStep (tensors : List (List (List ℂ))) (comps : List (String × Component))
    (p : (String × ℕ) × (String × ℕ)) : Except Err (List (String × Component)) := do
  let c ← tensorComponent tensors p.1.2 p.2.2
  return dictSet comps (getComponentKey p.1.1 p.2.1) c

/-- All pairs of an output and an input channel with their indices, in the order of the nested loops. -/
def chanPairs (tf : TransFunc) : List ((String × ℕ) × (String × ℕ)) :=
  tf.outChans.zipIdx.flatMap fun o => tf.inChans.zipIdx.map fun i => (o, i)

/-- /repo/resistics/regression.py:839-879 `_get_solution`. -/
noncomputable def getSolutionOf (tf : TransFunc) (freqs : List ℚ) (tensors : List (List (List ℂ))) :
    Except Err Solution := do
  let comps ← (chanPairs tf).foldlM (solutionStep tensors) []
  return { tf := tf, freqs := freqs, components := comps }

/-- /repo/resistics/regression.py:761-788 `_solve`.  Simplification: with no frequencies, inconsistent counts are not
noticed. -/
noncomputable def solveWith (getCoef : List (List ℝ) → List ℝ → Except Err (List ℝ)) (r : RegInput) :
    Except Err Solution := do
  if r.tf.nOut < 0 ∨ r.tf.nIn < 0 then throw .value
  let tensors ← (List.range r.nFreqs).mapM (solveEval getCoef r)
  getSolutionOf r.tf r.freqs tensors

/-! ## Weighted least squares -/

/-- `preds @ coef` (`model.predict` without an intercept). -/
def predict (preds : List (List ℝ)) (coef : List ℝ) : List ℝ := preds.map fun row => (List.zipWith (· * ·) row coef).sum

/-- /repo/resistics/regression.py:1076-1095 `bisquare`, one residual. -/
noncomputable def bisquare (k r : ℝ) : ℝ := (1 - (min 1 (r / k)) ^ 2) ^ 2

/-- /repo/resistics/regression.py:1097-1116 `huber`, one residual. -/
noncomputable def huber (k r : ℝ) : ℝ := open Classical in if k < r then k / r else 1

/-- /repo/resistics/regression.py:1118-1138 `trimmed_mean`, one residual. -/
noncomputable def trimmedMean (k r : ℝ) : ℝ := open Classical in if r ≤ k then 1 else 0

/-- `np.sort`. -/
noncomputable def npSort (l : List ℝ) : List ℝ := open Classical in l.insertionSort (· ≤ ·)

/-- `np.percentile(l, 100 q)` with linear interpolation, `0 ≤ q ≤ 1`; used on non-empty arrays. -/
noncomputable def npQuantile (l : List ℝ) (q : ℝ) : ℝ :=
  let s := npSort l
  let pos := q * ((s.length - 1 : ℕ) : ℝ)
  let lo := ⌊pos⌋₊
  let a := s.getD lo 0
  let b := s.getD (lo + 1) a
  a + (b - a) * (pos - lo)

/-- The scale of scikit-learn's `RobustScaler`: the interquartile range, or one when that is zero. -/
noncomputable def robustScale (l : List ℝ) : ℝ :=
  let iqr := npQuantile l (3 / 4) - npQuantile l (1 / 4)
  open Classical in if iqr = 0 then 1 else iqr

/-- `RobustScaler().fit_transform` (scikit-learn 0.24.2): centred by the median, scaled by the interquartile range. -/
noncomputable def robustScaled (l : List ℝ) : List ℝ := l.map fun x => (x - npQuantile l (1 / 2)) / robustScale l

/-- `np.absolute(obs - obs_pred)`. -/
def absResiduals (preds : List (List ℝ)) (obs coef : List ℝ) : List ℝ :=
  List.zipWith (fun o p => |o - p|) obs (predict preds coef)

/-- The weights after a fit, /repo/resistics/regression.py:1069-1072. -/
noncomputable def wlsWeights (preds : List (List ℝ)) (obs coef : List ℝ) : List ℝ :=
  (robustScaled (absResiduals preds obs coef)).map (trimmedMean 2)

/-- The loop /repo/resistics/regression.py:1067-1073 with `n` iterations left: the last coefficients.
`fit preds obs weights` is `model.fit`; a model that was never fitted has no coefficients (`AttributeError`). -/
noncomputable def wlsLoop (fit : List (List ℝ) → List ℝ → List ℝ → Except Err (List ℝ)) (preds : List (List ℝ))
    (obs : List ℝ) : ℕ → List ℝ → Option (List ℝ) → Except Err (List ℝ)
  | 0, _, none => .error .attribute
  | 0, _, some coef => .ok coef
  | n + 1, weights, _ => do
      let coef ← fit preds obs weights
      wlsLoop fit preds obs n (wlsWeights preds obs coef) (some coef)

/-- /repo/resistics/regression.py:1042-1074 `SolverScikitWLS._get_coef`.  Simplification: the model is a fresh one
for every regression (the code reuses one model; every fit replaces its coefficients). -/
noncomputable def wlsCoef (fit : List (List ℝ) → List ℝ → List ℝ → Except Err (List ℝ)) (nIter : ℤ)
    (preds : List (List ℝ)) (obs : List ℝ) : Except Err (List ℝ) :=
  wlsLoop fit preds obs nIter.toNat (List.replicate obs.length 1) none

end Resistics
