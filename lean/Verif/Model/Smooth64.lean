import Verif.Model.Eval64

/-!
# Model of the smoothing of spectra in floating point numbers

/repo/resistics/spectra.py:847-975 with every floating point operation rounded; the filters are those of `scipy.ndimage`
(SciPy 1.6 and 1.7, `ni_filters.c`), which work on a row of double precision numbers and store the result in the number type of
the spectra; the real and the imaginary parts are filtered on their own.  Simplification: no overflow and no subnormal numbers.
-/

namespace Resistics

/-- /repo/resistics/spectra.py:907-914 `_get_smooth_length`, the product rounded. -/
def getSmoothLengthF (lengthProportion : ℚ) (dataSize : ℕ) : ℤ :=
  let length := pyInt (fl (lengthProportion * dataSize))
  let length := if length % 2 = 0 then length + 1 else length
  if length < 1 then 1 else length

/-- The row continued at both ends by its mirror image, as `scipy.ndimage` hands it to a filter that looks back `back` points
(`NI_ExtendLine`, mode "reflect"): the number at position `j` of the line. -/
def mirrorAt (row : List ℚ) (back : ℤ) (j : ℕ) : ℚ := (row[reflectIndex row.length ((j : ℤ) - back)]?).getD 0

/-- `tmp += iline[ll]` for the first numbers of the line (`NI_UniformFilter1D`). -/
def firstSumF (xs : List ℚ) : ℚ := xs.foldl (fun tmp x => fl (tmp + x)) 0

/-- `tmp += (*l2++ - *l1++) / (double)filter_size; oline[ll] = tmp;` (`NI_UniformFilter1D`); the pairs are the numbers that leave
and enter. -/
def runningF (size : ℕ) : ℚ → List (ℚ × ℚ) → List ℚ
  | tmp, [] => [tmp]
  | tmp, p :: rest => tmp :: runningF size (fl (tmp + fl (fl (p.2 - p.1) / size))) rest

/-- `scipy.ndimage.uniform_filter1d(row, size)` (`NI_UniformFilter1D`; called at /repo/resistics/spectra.py:898-900): the sum over the first
points divided by their number, then a running mean. -/
def uniformFilterF (row : List ℚ) (size : ℕ) : List ℚ :=
  if row.length = 0 then []
  else
    let line := mirrorAt row ((size / 2 : ℕ) : ℤ)
    runningF size (fl (firstSumF ((List.range size).map line) / size))
      ((List.range (row.length - 1)).map fun j => (line j, line (j + size)))

/-- The inner loop of `NI_Correlate1D` for a symmetric filter: `oline[ll] += (iline[jj] + iline[-jj]) * fw[jj]`, from the farthest
neighbours to the nearest; `far` lists their weights in this order. -/
def correlateAtF (x : ℤ → ℚ) (i : ℤ) : List ℚ → ℚ → ℚ
  | [], acc => acc
  | w :: rest, acc =>
      correlateAtF x i rest (fl (acc + fl (fl (x (i - (rest.length + 1 : ℕ)) + x (i + (rest.length + 1 : ℕ))) * w)))

/-- `scipy.ndimage.gaussian_filter1d(row, 1)` (called at /repo/resistics/spectra.py:968-970): a symmetric filter with the weight `centre` for the
point itself and `far` for the neighbours on both sides, the farthest first.  The weights are parameters: they are values of `exp`. -/
def gaussFilterF (centre : ℚ) (far : List ℚ) (row : List ℚ) : List ℚ :=
  (List.range row.length).map fun (i : ℕ) =>
    correlateAtF (fun j => (row[reflectIndex row.length j]?).getD 0) i far
      (fl ((row[reflectIndex row.length i]?).getD 0 * centre))

/-- A filter of doubles on the parts of a row of spectra of a number type. -/
def onParts (t : NumType) (filt : List ℚ → List ℚ) (row : List (ℚ × ℚ)) : List (ℚ × ℚ) :=
  ((filt (row.map Prod.fst)).map t.calc).zip ((filt (row.map Prod.snd)).map t.calc)

/-- Body of the loops at /repo/resistics/spectra.py:894-901 and 967-971; the number type may differ from level to level. -/
def smoothLevelF (t : ℕ → NumType) (filt : ℕ → List ℚ → List ℚ) (spec : SpecData (ℚ × ℚ)) (ilevel : ℕ) :
    Except Err (SpecArr (ℚ × ℚ)) := do
  let lm ← pyIndex spec.md.levels (ilevel : ℤ)
  let arr ← spec.getLevel ilevel
  return arr.map fun win => win.map fun row => onParts (t ilevel) (filt lm.nFreqs) row

/-- The metadata are copied and the data replaced (/repo/resistics/spectra.py:902-905, 972-975). -/
def smoothRunF (name : String) (t : ℕ → NumType) (filt : ℕ → List ℚ → List ℚ) (spec : SpecData (ℚ × ℚ)) :
    Except Err (SpecData (ℚ × ℚ)) := do
  let out ← (List.range spec.md.nLevels).mapM (smoothLevelF t filt spec)
  mkSpecData { spec.md with history := spec.md.history ++ [name] } (out.zipIdx.map fun q => (q.2, q.1))

/-- /repo/resistics/spectra.py:875-905 `SpectraSmootherUniform.run`. -/
def smoothUniformRunF (t : ℕ → NumType) (lengthProportion : ℚ) (spec : SpecData (ℚ × ℚ)) : Except Err (SpecData (ℚ × ℚ)) :=
  smoothRunF "SpectraSmootherUniform" t (fun n row => uniformFilterF row (getSmoothLengthF lengthProportion n).toNat) spec

/-- /repo/resistics/spectra.py:948-975 `SpectraSmootherGaussian.run`; `weights s` are those of `scipy.ndimage` for the width `s`.  The
code passes 1, not its `sigma`.  Simplification: the shared loop also looks up the level metadata, which the code does not need here. -/
def smoothGaussianRunF (t : ℕ → NumType) (weights : ℚ → ℚ × List ℚ) (_sigma : ℚ) (spec : SpecData (ℚ × ℚ)) :
    Except Err (SpecData (ℚ × ℚ)) :=
  smoothRunF "SpectraSmootherGaussian" t (fun _ row => gaussFilterF (weights 1).1 (weights 1).2 row) spec

end Resistics
