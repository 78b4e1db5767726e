import Verif.Model.TextData
import Mathlib.Data.List.Sort

/-!
# Number types of the samples

The processors of /repo/resistics/time.py and the windowing of /repo/resistics/spectra.py with the number type (`dtype`) of
the array: which type the result has, and what storing a number in it does to the number (NumPy 1.21, SciPy 1.7).
Simplifications: no infinities and no NaN except in `InterpolateNans`, so overflow of floating point numbers is not followed; unsigned integers, booleans and
complex numbers are left out; the numbers computed inside SciPy and `np.interp` are exact, only what the code does with them is rounded.
-/

namespace Resistics

/-- The number type of an array: signed integers of so many bits, `np.float32`, `np.float64`. -/
inductive NumType where
  | integer (bits : ℕ)
  | single
  | double
  deriving DecidableEq, Repr

/-- The integers that fit. -/
def fits (bits : ℕ) (k : ℤ) : Bool := decide (-2 ^ (bits - 1) ≤ k ∧ k < 2 ^ (bits - 1))

/-- Storing a number in an array of the type (`astype`, assignment to an element): integers are cut towards zero; what a
number outside the range of the integers becomes is left open by C (`outside`); the others take the nearest number. -/
def NumType.cast (outside : ℕ → ℚ → ℤ) : NumType → ℚ → ℚ
  | .integer b, x => if fits b (pyInt x) then (pyInt x : ℚ) else (outside b x : ℚ)
  | .single, x => nearestSingle x
  | .double, x => nearestDouble x

/-- The result of an arithmetic operation on two numbers of the type whose exact result is `x`: integers wrap around. -/
def NumType.calc : NumType → ℚ → ℚ
  | .integer b, x => (Int.bmod ⌊x⌋ (2 ^ b) : ℚ)
  | .single, x => nearestSingle x
  | .double, x => nearestDouble x

/-- The type of an array of type `t` combined with a Python float, and of a mean. -/
def NumType.withFloat : NumType → NumType
  | .integer _ => .double
  | .single => .single
  | .double => .double

/-- Time data with the number type of the array. -/
structure TypedData where
  type : NumType
  td : TimeData ℚ

/-- The samples as double precision numbers (`astype(np.float64)`). -/
def inDouble (td : TimeData ℚ) : TimeData ℚ := { td with data := td.data.map (List.map nearestDouble) }

/-- The samples stored in an array of the type. -/
def storeIn (outside : ℕ → ℚ → ℤ) (t : NumType) (td : TimeData ℚ) : TypedData :=
  ⟨t, { td with data := td.data.map (List.map (t.cast outside)) }⟩

/-- /repo/resistics/time.py:550-577 `TimeData.set_chan` with the check of the number type: the row is an array of type `t`. -/
def setChanTyped (d : TypedData) (chan : String) (t : NumType) (row : List ℚ) : Except Err TypedData := do
  let _ ← checkChan chan d.td.md.chans
  if (row.length : ℤ) ≠ d.td.md.nSamples then throw .value
  if t ≠ d.type then throw .value
  let td ← d.td.setChan chan row
  return ⟨d.type, td⟩

/-- The amounts of a dictionary stored in an array of the type. -/
def castDict (outside : ℕ → ℚ → ℤ) (t : NumType) (d : List (String × ℚ)) : List (String × ℚ) :=
  d.map fun p => (p.1, t.cast outside p.2)

/-- /repo/resistics/time.py:1494-1503 `_get_add` and 1571-1580 `_get_mult`: the type and the values of the vector.  It is made with the type of
the data; a float then widens it, the values of a dictionary are stored in it. -/
def typedVector (outside : ℕ → ℚ → ℤ) (neutral : ℚ) (op : ℚ → ℚ → ℚ) (t : NumType) (chans : List String) : PerChan → NumType × List ℚ
  | .scalar x => (t.withFloat, chans.map fun _ => t.withFloat.calc (op neutral (t.withFloat.cast outside x)))
  | .dict d => (t, perChanVector (.dict (castDict outside t d)) neutral op chans)

/-- `data + add[:, None]`, `data * mult[:, None]` (/repo/resistics/time.py:1489, 1566): computed in the wider type of the two, which
is the type of the vector. -/
def typedRows (outside : ℕ → ℚ → ℤ) (op : ℚ → ℚ → ℚ) (v : NumType × List ℚ) (data : List (List ℚ)) : List (List ℚ) :=
  List.zipWith (fun row x => row.map fun y => v.1.calc (op (v.1.cast outside y) x)) data v.2

/-- /repo/resistics/time.py:1473-1503 `Add`. -/
def addTyped (outside : ℕ → ℚ → ℤ) (p : PerChan) (d : TypedData) : TypedData :=
  let v := typedVector outside 0 (· + ·) d.type d.td.md.chans p
  ⟨v.1, newTimeData d.td "Add" none (some (typedRows outside (· + ·) v d.td.data))⟩

/-- /repo/resistics/time.py:1550-1580 `Multiply`. -/
def multiplyTyped (outside : ℕ → ℚ → ℤ) (p : PerChan) (d : TypedData) : TypedData :=
  let v := typedVector outside 1 (· * ·) d.type d.td.md.chans p
  ⟨v.1, newTimeData d.td "Multiply" none (some (typedRows outside (· * ·) v d.td.data))⟩

/-- An order in which numbers are added: pairs of partial sums. -/
inductive SumTree where
  | one (i : ℕ)
  | add (l r : SumTree)
  deriving DecidableEq, Repr

/-- The positions of the numbers that are added. -/
def SumTree.leaves : SumTree → List ℕ
  | .one i => [i]
  | .add l r => l.leaves ++ r.leaves

/-- The largest number of additions a number goes through. -/
def SumTree.height : SumTree → ℕ
  | .one _ => 0
  | .add l r => max l.height r.height + 1

/-- The sum in the arithmetic of the type, in that order. -/
def SumTree.sum (t : NumType) (row : List ℚ) : SumTree → ℚ
  | .one i => row.getD i 0
  | .add l r => t.calc (l.sum t row + r.sum t row)

/-- `np.mean` of a row of numbers of type `t` (/repo/resistics/time.py:1421): a sum divided by the number of samples.  The order of the additions, which is up to
NumPy, is the parameter `order`. -/
def typedMean (outside : ℕ → ℚ → ℤ) (order : ℕ → SumTree) (t : NumType) (row : List ℚ) : ℚ :=
  t.calc ((order row.length).sum t row / t.cast outside row.length)

/-- /repo/resistics/time.py:1421-1422 on one row. -/
def removeMeanRow (outside : ℕ → ℚ → ℤ) (order : ℕ → SumTree) (t : NumType) (row : List ℚ) : List ℚ :=
  let wide := row.map (t.withFloat.cast outside)
  wide.map fun x => t.withFloat.calc (x - typedMean outside order t.withFloat wide)

/-- /repo/resistics/time.py:1404-1426 `RemoveMean`. -/
def removeMeanTyped (outside : ℕ → ℚ → ℤ) (order : ℕ → SumTree) (d : TypedData) : TypedData :=
  ⟨d.type.withFloat, newTimeData d.td "RemoveMean" none (some (d.td.data.map (removeMeanRow outside order d.type)))⟩

/-- `InterpolateNans` (/repo/resistics/time.py:1331-1376): the values from `np.interp` are assigned to elements of the array. -/
def interpolateNansTyped (outside : ℕ → ℚ → ℤ) (t : NumType) (row : List (Option ℚ)) : Except Err (List (Option ℚ)) := do
  let out ← interpolateNansRow row
  return List.zipWith (fun x y => if x.isSome then x else y.map (t.cast outside)) row out

/-- The filters, `Resample` and `Decimate`: computed in double precision, then `astype(time_data.data.dtype)` (/repo/resistics/time.py:1647,
1717, 1799, 1879, 1963-1970, 2057-2063). -/
def throughDouble (outside : ℕ → ℚ → ℤ) (run : TimeData ℚ → Except Err (TimeData ℚ)) (d : TypedData) : Except Err TypedData := do
  let out ← run (inDouble d.td)
  return storeIn outside d.type out

/-- Element `i` of `np.arange(0, n, dtype=...)`: integers wrap around, the others are rounded (/repo/resistics/time.py:2255-2256). -/
def NumType.position (t : NumType) (i : ℕ) : ℚ := t.calc (i : ℚ)

/-- `norm_shift` (/repo/resistics/time.py:2231, 2237). -/
def normShift (shift fs : ℚ) : ℚ := nearestDouble (shift / nearestDouble (1 / fs))

/-- The points given to `interp1d`, which sorts them by position (/repo/resistics/time.py:2255, 2257). -/
def shiftPoints (t : NumType) (row : List ℚ) : List (ℚ × ℚ) :=
  (row.zipIdx.map fun (p : ℚ × ℕ) => (t.position p.2, p.1)).insertionSort fun a b => a.1 ≤ b.1

/-- Where sample `i` of the result is read: `np.arange(...)[i] + norm_shift` (/repo/resistics/time.py:2256). -/
def shiftPlace (outside : ℕ → ℚ → ℤ) (t : NumType) (s : ℚ) (i : ℕ) : ℚ :=
  t.withFloat.calc (t.withFloat.cast outside (t.position i) + t.withFloat.cast outside s)

/-- `interp1d` on one line between two points, in the arithmetic of the type (scipy `_call_linear`). -/
def lineAt (t : NumType) (lo hi : ℚ × ℚ) (x : ℚ) : ℚ :=
  let slope := t.calc (t.calc (hi.2 - lo.2) / t.calc (hi.1 - lo.1))
  t.calc (t.calc (slope * t.calc (x - lo.1)) + lo.2)

/-- `interp1d(x, y)(x_new)` at one place (/repo/resistics/time.py:2257-2258): `ValueError` outside of the points; the segment is found
with `searchsorted` and clipped to the existing ones. -/
def interpPoints (t : NumType) (pts : List (ℚ × ℚ)) (x : ℚ) : Except Err ℚ :=
  if x < (pts.headD (0, 0)).1 ∨ (pts.getLastD (0, 0)).1 < x then .error .value
  else
    let hi := min (max (pts.countP fun p => p.1 < x) 1) (pts.length - 1)
    .ok (lineAt t (pts.getD (hi - 1) (0, 0)) (pts.getD hi (0, 0)) x)

/-- One row of `ShiftTimestamps` (/repo/resistics/time.py:2254-2258) with `n` samples according to the metadata. -/
def shiftRow (outside : ℕ → ℚ → ℤ) (t : NumType) (s : ℚ) (n : ℤ) (row : List ℚ) : Except Err (List ℚ) :=
  if (row.length : ℤ) = n then
    (List.range (n - 1).toNat).mapM fun i =>
      interpPoints t.withFloat ((shiftPoints t row).map fun p => (t.withFloat.cast outside p.1, t.withFloat.cast outside p.2)) (shiftPlace outside t s i)
  else .error .value

/-- /repo/resistics/time.py:2231-2264 `ShiftTimestamps`; the sample period and the shift in samples are double precision numbers. -/
def shiftTyped (outside : ℕ → ℚ → ℤ) (shift : ℚ) (d : TypedData) : Except Err TypedData := do
  let md := d.td.md
  if md.fs = 0 then throw .zeroDiv
  if nearestDouble (1 / md.fs) ≤ shift then throw .procRun
  if md.nSamples < 1 then throw .value
  let data ← d.td.data.mapM (shiftRow outside d.type (normShift shift md.fs) md.nSamples)
  let md ← adjustTimeMetadata md md.fs (md.firstTime + toTimedelta shift) (md.nSamples - 1)
  return ⟨d.type.withFloat, newTimeData d.td "ShiftTimestamps" (some md) (some data)⟩

/-- /repo/resistics/time.py:2348-2353 `ApplyFunction`: the results are stored in a new array of double precision numbers. -/
def applyTyped (junk : ℕ → ℕ → ℚ) (fncs : List (String × (List ℚ → List ℚ))) (d : TypedData) : Except Err TypedData := do
  let out ← applyFunction junk (fncs.map fun p => (p.1, fun row => (p.2 row).map nearestDouble)) d.td
  return ⟨.double, out⟩

/-- `process.run(time_data)` with the number types. -/
def Proc.runTyped (outside : ℕ → ℚ → ℤ) (order : ℕ → SumTree) (sp : SciPy) : Proc → TypedData → Except Err TypedData
  | .subsection f t, d => do
    let out ← Resistics.subsection f t d.td
    return ⟨d.type, out⟩
  | .interpolateNans, d => .ok ⟨d.type, newTimeData d.td "InterpolateNans" none (some d.td.data)⟩
  | .removeMean, d => .ok (removeMeanTyped outside order d)
  | .add p, d => .ok (addTyped outside p d)
  | .multiply p, d => .ok (multiplyTyped outside p d)
  | .lowPass c o, d => throughDouble outside (fun td => filterProc sp "LowPass" o (passBand c td.md) td) d
  | .highPass c o, d => throughDouble outside (fun td => filterProc sp "HighPass" o (passBand c td.md) td) d
  | .bandPass l h o, d => throughDouble outside (fun td => filterProc sp "BandPass" o (bandPassBand l h td.md) td) d
  | .notch f b o, d => throughDouble outside (fun td => filterProc sp "Notch" o (notchBand f b td.md) td) d
  | .resample f, d => throughDouble outside (Resistics.resample sp f) d
  | .decimate m f, d => throughDouble outside (decimateProc sp m f) d
  | .shift s, d => shiftTyped outside s d
  | .apply j f, d => applyTyped j f d

/-- /repo/resistics/letsgo.py:281-300 `run_time_processors` with the number types. -/
def runTyped (outside : ℕ → ℚ → ℤ) (order : ℕ → SumTree) (sp : SciPy) (procs : List Proc) (d : TypedData) : Except Err TypedData :=
  procs.foldlM (fun d p => p.runTyped outside order sp d) d

/-- The type of a window after `signal.detrend`, which keeps floating point types and gives double precision for the others; without
detrending the type stays (/repo/resistics/spectra.py:539-540). -/
def detrendType (t : NumType) : Detrend → NumType
  | .none => t
  | .constant => t.withFloat
  | .linear => t.withFloat

/-- /repo/resistics/spectra.py:541-542: the window function stored in the type of the (detrended) data, times the data. -/
def windowTyped (outside : ℕ → ℚ → ℤ) (t : NumType) (coeffs row : List ℚ) : List ℚ :=
  List.zipWith (fun x c => t.calc (x * t.cast outside c)) row coeffs

end Resistics
