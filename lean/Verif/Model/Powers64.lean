import Verif.Model.Regression
import Verif.Model.NumTypes

/-!
# Model of the cross powers in floating point numbers

/repo/resistics/regression.py:165-608 for spectra and for gathered data of single or double precision (`complex64`, `complex128`): a complex number is the pair of its
parts, and products and sums of the complex multiplication are rounded (NumPy 1.21).  `ProjectGather` stores all data in double precision
(/repo/resistics/gather.py:671-673); `QuickGather` keeps the number type of the spectra.  Observations and predictors are stored in double
precision, which changes no number.  Simplification: no overflow.
-/

namespace Resistics

/-- The number with these parts. -/
def asComplex (z : ℚ × ℚ) : ℂ := ⟨z.1, z.2⟩

/-- `np.conjugate(b)`. -/
def conjF (b : ℚ × ℚ) : ℚ × ℚ := (b.1, -b.2)

/-- The product of two complex numbers of a number type: four products, one difference, one sum. -/
def mulF (t : NumType) (a b : ℚ × ℚ) : ℚ × ℚ :=
  (t.calc (t.calc (a.1 * b.1) - t.calc (a.2 * b.2)), t.calc (t.calc (a.1 * b.2) + t.calc (a.2 * b.1)))

/-- One window of the cross powers: channels × cross channels (/repo/resistics/regression.py:484-488). -/
noncomputable def winPowersF (t : NumType) (data cross : List (ℚ × ℚ)) : List (List ℂ) :=
  data.map fun a => cross.map fun b => asComplex (mulF t a (conjF b))

/-- /repo/resistics/regression.py:480-489 (one of the two products): windows × channels × cross channels. -/
noncomputable def crossPowersF (t : NumType) (data cross : List (List (ℚ × ℚ))) : Except Err (List (List (List ℂ))) :=
  if data.length ≠ cross.length then .error .value else .ok (List.zipWith (winPowersF t) data cross)

/-- One frequency of the loop /repo/resistics/regression.py:420-426; the number type may differ from frequency to frequency. -/
noncomputable def prepareEvalF (t : ℕ → NumType) (tf : TransFunc) (g : Gathered (ℚ × ℚ)) (idx : ℕ) :
    Except Err (List (String × List ℝ) × List (List ℝ)) := do
  let out ← siteRows g.outData idx
  let inp ← siteRows g.inData idx
  let cross ← siteRows g.crossData idx
  let outPowers ← crossPowersF (t idx) out cross
  let inPowers ← crossPowersF (t idx) inp cross
  let obs ← getObs tf outPowers
  let preds ← getPreds tf inPowers
  return (obs, preds)

/-- /repo/resistics/regression.py:370-395 `RegressionPreparerGathered.run`. -/
noncomputable def prepareGatheredF (t : ℕ → NumType) (tf : TransFunc) (g : Gathered (ℚ × ℚ)) : Except Err RegInput := do
  let rows ← (List.range g.outData.evalFreqs.length).mapM (prepareEvalF t tf g)
  return { tf := tf, freqs := g.outData.evalFreqs, obs := rows.map (·.1), preds := rows.map (·.2) }

/-- /repo/resistics/regression.py:229-240 (one of the two products): windows × channels × cross channels × frequencies. -/
noncomputable def specPowersF (t : NumType) (data cross : SpecArr (ℚ × ℚ)) : Except Err (List (List (List (List ℂ)))) :=
  if data.length ≠ cross.length then .error .value
  else .ok (List.zipWith (fun d c => d.map fun a => c.map fun b => List.zipWith (fun x y => asComplex (mulF t x (conjF y))) a b) data cross)

/-- One level of the loop /repo/resistics/regression.py:176-185 and `_get_cross_powers` (191-240) for spectra of a number type. -/
noncomputable def prepareSpecLevelF (t : ℕ → NumType) (tf : TransFunc) (d : SpecData (ℚ × ℚ)) (ilevel : ℕ) :
    Except Err (List (ℚ × List (String × List ℝ) × List (List ℝ))) := do
  let lm ← pyIndex d.md.levels ilevel
  let out ← d.getChans ilevel tf.outChans
  let inp ← d.getChans ilevel tf.inChans
  let cross ← d.getChans ilevel tf.crossChans
  let outPowers ← specPowersF (t ilevel) out cross
  let inPowers ← specPowersF (t ilevel) inp cross
  lm.freqs.zipIdx.mapM (prepareSpecFreq tf outPowers inPowers)

/-- /repo/resistics/regression.py:171-189 `RegressionPreparerSpectra.run`; `t` is the number type of each level. -/
noncomputable def prepareSpectraF (t : ℕ → NumType) (tf : TransFunc) (d : SpecData (ℚ × ℚ)) : Except Err RegInput := do
  let levels ← (List.range d.md.nLevels).mapM (prepareSpecLevelF t tf d)
  let all := levels.flatten
  return { tf := tf, freqs := all.map (·.1), obs := all.map (·.2.1), preds := all.map (·.2.2) }

end Resistics
