import Verif.Model.NumTypes
import Verif.Model.Spectra
import Verif.Model.Calibrate
import Verif.Model.Float64

/-!
# Model of the evaluation frequencies, of the calibration and of the robust weights in floating point numbers

/repo/resistics/spectra.py:656-753, /repo/resistics/calibrate.py:472-498, /repo/resistics/regression.py:1076-1138 with every
floating point operation rounded: frequencies and positions are double precision numbers, the spectra are of single or
double precision (`complex64`, `complex128`), a complex number is the pair of its parts.
Simplification: no overflow; no subnormal numbers among frequencies and positions.
-/

namespace Resistics

/-- The inner loop of `np.interp` (NumPy 1.21, `compiled_base.c`): the value on a point is the one given, between two points it is slope times
distance plus the value on the left, every operation rounded.  Simplification: no fused multiplication and addition. -/
def npInterpFromF : ℚ × ℚ → List (ℚ × ℚ) → ℚ → ℚ
  | (_, y0), [], _ => y0
  | (x0, y0), (x1, y1) :: rest, x =>
      if x < x1 then
        if x ≤ x0 then y0 else fl (fl (fl (fl (y1 - y0) / fl (x1 - x0)) * fl (x - x0)) + y0)
      else npInterpFromF (x1, y1) rest x

/-- `np.interp(x, xp, fp)` for increasing `xp`, points given as pairs; `ValueError` when there are no points. -/
def npInterpF (pts : List (ℚ × ℚ)) (x : ℚ) : Except Err ℚ :=
  match pts with
  | [] => .error .value
  | p :: rest => .ok (npInterpFromF p rest x)

/-- /repo/resistics/spectra.py:735-736: position of an evaluation frequency in the frequency array. -/
def evalIndexF (freqs : List ℚ) (f : ℚ) : Except Err ℚ :=
  npInterpF (freqs.zipIdx.map fun (p : ℚ × ℕ) => (p.1, (p.2 : ℚ))) f

/-- /repo/resistics/spectra.py:742-744, the real or the imaginary part: difference, product and sum in the number type of the spectra.  The
imaginary part of the portion is zero, so the complex product is the product of the parts. -/
def evalPart (t : NumType) (portion lo hi : ℚ) : ℚ := t.calc (lo + t.calc (t.calc (hi - lo) * portion))

/-- /repo/resistics/spectra.py:737-744, one value: the portion is a double, then stored in the number type of the spectra. -/
def evalAtF (t : NumType) (row : List (ℚ × ℚ)) (idx : ℚ) : Except Err (ℚ × ℚ) := do
  let lo ← pyIndex row ⌊idx⌋
  let hi ← pyIndex row ⌈idx⌉
  let portion := t.calc (fl (idx - (⌊idx⌋ : ℚ)))
  return (evalPart t portion lo.1 hi.1, evalPart t portion lo.2 hi.2)

/-- /repo/resistics/spectra.py:698-744 `_get_level_data`. -/
def evalLevelDataF (t : NumType) (freqs : List ℚ) (arr : SpecArr (ℚ × ℚ)) (evalFreqs : List ℚ) : Except Err (SpecArr (ℚ × ℚ)) := do
  let idxs ← evalFreqs.mapM (evalIndexF freqs)
  arr.mapM fun win => win.mapM fun row => idxs.mapM (evalAtF t row)

/-- Body of the loop at /repo/resistics/spectra.py:681-691; the number type may differ from level to level. -/
def evalLevelF (t : ℕ → NumType) (p : DecParams ℚ) (spec : SpecData (ℚ × ℚ)) (ilevel : ℕ) :
    Except Err (SpecArr (ℚ × ℚ) × SpecLevelMeta) := do
  let lm ← pyIndex spec.md.levels (ilevel : ℤ)
  let evalFreqs ← p.getEvalFreqs ilevel
  let arr ← spec.getLevel ilevel
  let out ← evalLevelDataF (t ilevel) lm.freqs arr evalFreqs
  return (out, evalLevelMeta lm evalFreqs)

/-- /repo/resistics/spectra.py:656-696 `EvaluationFreqs.run`. -/
def evalFreqsRunF (t : ℕ → NumType) (p : DecParams ℚ) (spec : SpecData (ℚ × ℚ)) : Except Err (SpecData (ℚ × ℚ)) := do
  let out ← (List.range spec.md.nLevels).mapM (evalLevelF t p spec)
  mkSpecData { spec.md with levels := out.map Prod.snd, history := spec.md.history ++ ["EvaluationFreqs"] }
    ((out.map Prod.fst).zipIdx.map fun q => (q.2, q.1))

/-- `np.interp` of one column of the calibration data (/repo/resistics/calibrate.py:496-497); columns of different lengths are a
`ValueError`. -/
def calInterpF (xs ys : List ℚ) (f : ℚ) : Except Err ℚ :=
  if xs.length ≠ ys.length then .error .value else npInterpF (xs.zip ys) f

end Resistics
