import Verif.Model.Sampling
import Verif.Model.NumPy
import Mathlib.Data.Int.Log

/-!
# Model of the downsampling for plots in /repo/resistics/plot.py

The arrays hold numbers without NaN.  `lttbc` is an external package; its algorithm (largest triangle, three buckets) is
modelled in exact arithmetic.
-/

namespace Resistics

/-- The number format of an array, as far as the conversions of /repo/resistics/plot.py:46-53 are concerned. -/
inductive DType where
  | int | float32 | float64
  deriving DecidableEq, Repr

/-- Rounding to IEEE single precision: 24 significant bits, ties to even.  Simplification: no overflow and no subnormal
numbers. -/
def toFloat32 (x : ℚ) : ℚ :=
  if x = 0 then 0
  else (pyRound (x / (2 : ℚ) ^ (Int.log 2 |x| - 23)) : ℚ) * (2 : ℚ) ^ (Int.log 2 |x| - 23)

/-- `astype` of a single precision number: integers are truncated, the other formats hold every such number. -/
def DType.fromFloat32 : DType → ℚ → ℚ
  | .int, x => (pyInt x : ℚ)
  | .float32, x => x
  | .float64, x => x

/-- lttbc: start of bucket `i`: `floor(i * every) + 1`, where `every = (n - 2) / (m - 2)`. -/
def bucketStart (n m i : ℕ) : ℕ := i * (n - 2) / (m - 2) + 1

/-- lttbc: the mean of the values in a range of indices, the end of which is limited to the size of the array. -/
def rangeMean (v : List ℚ) (a b : ℕ) : ℚ :=
  let b := min b v.length
  (((v.take b).drop a).sum) / ((b - a : ℕ) : ℚ)

/-- lttbc: twice the area of the triangle of the point `a`, the point `k` and the mean point of the next bucket. -/
def triangleArea (x y : List ℚ) (avgX avgY : ℚ) (a k : ℕ) : ℚ :=
  |(x.getD a 0 - avgX) * (y.getD k 0 - y.getD a 0) - (x.getD a 0 - x.getD k 0) * (avgY - y.getD a 0)|

/-- lttbc: one step of the search for the largest area: a later index must have a larger area. -/
def betterIndex (area : ℕ → ℚ) (best k : ℕ) : ℕ := if area best < area k then k else best

/-- lttbc: the index with the largest area in a bucket; the first one wins. -/
def bestIndex (area : ℕ → ℚ) (a b : ℕ) : ℕ := ((List.range (b - a)).map (a + ·)).foldl (betterIndex area) a

/-- lttbc: the indices chosen in the buckets `i`, `i + 1`, ..., starting from the point `a`. -/
def chooseBuckets (x y : List ℚ) (n m : ℕ) : ℕ → ℕ → ℕ → List ℕ
  | 0, _, _ => []
  | count + 1, i, a =>
      let avgX := rangeMean x (bucketStart n m (i + 1)) (bucketStart n m (i + 2))
      let avgY := rangeMean y (bucketStart n m (i + 1)) (bucketStart n m (i + 2))
      let k := bestIndex (triangleArea x y avgX avgY a) (bucketStart n m i) (bucketStart n m (i + 1))
      k :: chooseBuckets x y n m count (i + 1) k

/-- lttbc: the chosen indices: the first point, one of each bucket, the last point. -/
def lttbcIndices (x y : List ℚ) (m : ℕ) : List ℕ :=
  0 :: (chooseBuckets x y x.length m (m - 2) 0 0 ++ [x.length - 1])

/-- `lttbc.downsample(x, y, max_pts)` for fewer points than there are values.  Simplification: fewer than two points, for
which the package writes outside its arrays, are an error. -/
def lttbcDownsample (x y : List ℚ) (m : ℤ) : Except Err (List ℚ × List ℚ) :=
  if m < 2 then .error .other
  else .ok ((lttbcIndices x y m.toNat).map (x.getD · 0), (lttbcIndices x y m.toNat).map (y.getD · 0))

/-- /repo/resistics/plot.py:16-53 `lttb_downsample`; `dx` and `dy` are the formats of the arrays. -/
def lttbDownsample (dx dy : DType) (x y : List ℚ) (maxPts : ℤ) : Except Err (List ℚ × List ℚ) :=
  if x.length ≠ y.length then .error .value
  else if (x.length : ℤ) ≤ maxPts then .ok (x, y)
  else do
    let r ← lttbcDownsample (x.map toFloat32) (y.map toFloat32) maxPts
    return (r.1.map dx.fromFloat32, r.2.map dy.fromFloat32)

/-- /repo/resistics/plot.py:56-82 `apply_lttb`. -/
def applyLttb (d : DType) (data : List ℚ) (maxPts : Option ℤ) : Except Err (List ℚ × List ℚ) :=
  let indices : List ℚ := (List.range data.length).map fun (i : ℕ) => (i : ℚ)
  match maxPts with
  | none => .ok (indices, data)
  | some m => lttbDownsample .int d indices data m

end Resistics
