import Verif.Model.Float64
import Mathlib.Data.List.Sort

/-!
# Model of the robust weights in double precision arithmetic

/repo/resistics/regression.py:1042-1138 with every floating point operation rounded to double precision, including those of
scikit-learn's `RobustScaler` (0.24.2) and of `np.nanmedian` and `np.nanpercentile` (NumPy 1.21).  The predictions of the fitted model are a parameter.
-/

namespace Resistics

/-- `np.absolute(obs - obs_pred)`, /repo/resistics/regression.py:1070. -/
def absResidualsF (obs pred : List ℚ) : List ℚ := List.zipWith (fun o p => |fl (o - p)|) obs pred

/-- `np.sort`. -/
def sortF (l : List ℚ) : List ℚ := l.insertionSort (· ≤ ·)

/-- `np.nanmedian`, used on non-empty arrays: the number in the middle, or half the sum of the two. -/
def medianF (l : List ℚ) : ℚ :=
  let s := sortF l
  if s.length % 2 = 1 then s.getD (s.length / 2) 0
  else fl (fl (s.getD (s.length / 2 - 1) 0 + s.getD (s.length / 2) 0) / 2)

/-- `_lerp` of `np.percentile`: from the left below one half, from the right otherwise. -/
def lerpF (a b t : ℚ) : ℚ :=
  if 1 / 2 ≤ t then fl (b - fl (fl (b - a) * fl (1 - t))) else fl (a + fl (fl (b - a) * t))

/-- `np.nanpercentile` with linear interpolation, used on non-empty arrays; the position in the array is rounded as well. -/
def quantileF (l : List ℚ) (q : ℚ) : ℚ :=
  let s := sortF l
  let pos := fl (q * ((s.length - 1 : ℕ) : ℚ))
  let lo := ⌊pos⌋₊
  let a := s.getD lo 0
  lerpF a (s.getD (lo + 1) a) (fl (pos - (lo : ℚ)))

/-- The scale of `RobustScaler`: the interquartile range, or one when that is zero. -/
def scaleF (l : List ℚ) : ℚ :=
  let iqr := fl (quantileF l (3 / 4) - quantileF l (1 / 4))
  if iqr = 0 then 1 else iqr

/-- `RobustScaler().fit_transform`. -/
def robustScaledF (l : List ℚ) : List ℚ := l.map fun x => fl (fl (x - medianF l) / scaleF l)

/-- /repo/resistics/regression.py:1118-1138 `trimmed_mean`, one residual. -/
def trimmedMeanF (k r : ℚ) : ℚ := if r ≤ k then 1 else 0

/-- /repo/resistics/regression.py:1097-1116 `huber`, one residual. -/
def huberF (k r : ℚ) : ℚ := if k < r then fl (k / r) else 1

/-- /repo/resistics/regression.py:1076-1095 `bisquare`, one residual; `np.power` with exponent two is a product. -/
def bisquareF (k r : ℚ) : ℚ :=
  let t := min 1 (fl (r / k))
  let w := fl (1 - fl (t * t))
  fl (w * w)

/-- The weights after a fit with these predictions, /repo/resistics/regression.py:1070-1072. -/
def wlsWeightsF (obs pred : List ℚ) : List ℚ := (robustScaledF (absResidualsF obs pred)).map (trimmedMeanF 2)

/-- The loop /repo/resistics/regression.py:1067-1073 with `n` iterations left.  `fit` gives the fitted model for the weights, `predict` its predictions;
a model that was never fitted has no coefficients (`AttributeError`). -/
def wlsLoopF {M : Type} (fit : List ℚ → Except Err M) (predict : M → List ℚ) (obs : List ℚ) : ℕ → List ℚ → Option M → Except Err M
  | 0, _, none => .error .attribute
  | 0, _, some m => .ok m
  | n + 1, weights, _ => do
      let m ← fit weights
      wlsLoopF fit predict obs n (wlsWeightsF obs (predict m)) (some m)

/-- /repo/resistics/regression.py:1042-1074 `SolverScikitWLS._get_coef`. -/
def wlsF {M : Type} (fit : List ℚ → Except Err M) (predict : M → List ℚ) (nIter : ℤ) (obs : List ℚ) : Except Err M :=
  wlsLoopF fit predict obs nIter.toNat (List.replicate obs.length 1) none

end Resistics
