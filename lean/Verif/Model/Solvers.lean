import Verif.Model.Regression

/-!
# Model of the solvers of /repo/resistics/regression.py

scikit-learn is a parameter: a function from an estimator with its parameters, predictors, observations and weights to a fitted
linear model.
-/

namespace Resistics

/-- A fitted linear model: `coef_` and `intercept_`. -/
structure Fitted where
  coef : List ℝ
  intercept : ℝ

/-- `model.predict`. -/
def Fitted.predict (m : Fitted) (preds : List (List ℝ)) : List ℝ := (Resistics.predict preds m.coef).map (· + m.intercept)

/-- The estimators of scikit-learn 0.24.2 that are used, with the parameters that matter: `LinearRegression`, `HuberRegressor`,
`TheilSenRegressor` and `RANSACRegressor` of a `LinearRegression`. -/
inductive Estimator where
  | linear (fitIntercept normalize : Bool)
  | huber (epsilon alpha : ℝ) (fitIntercept : Bool)
  | theilSen (fitIntercept : Bool) (maxSubpopulation : ℤ) (nSubsamples : Option ℤ)
  | ransac (fitIntercept normalize : Bool) (minSamples : ℚ) (maxTrials : ℤ)

/-- scikit-learn: `fit` with predictors, observations and, for `LinearRegression`, sample weights. -/
structure Sklearn where
  fit : Estimator → List (List ℝ) → List ℝ → Option (List ℝ) → Except Err Fitted

/-- The solver classes of /repo/resistics/regression.py:753-760, 882-1040 with their fields (`n_jobs` has no effect on the
result). -/
inductive SolverConfig where
  | ols (fitIntercept normalize : Bool)
  | huber (fitIntercept normalize : Bool) (epsilon : ℝ)
  | theilSen (fitIntercept normalize : Bool) (maxSubpopulation : ℤ) (nSubsamples : Option ℚ)
  | ransac (fitIntercept normalize : Bool) (minSamples : ℚ) (maxTrials : ℤ)
  | wls (fitIntercept normalize : Bool) (nIter : ℤ)

/-- The weights after a fit, /repo/resistics/regression.py:1069-1072; the prediction includes the intercept. -/
noncomputable def fittedWeights (preds : List (List ℝ)) (obs : List ℝ) (m : Fitted) : List ℝ :=
  (robustScaled (List.zipWith (fun o p => |o - p|) obs (m.predict preds))).map (trimmedMean 2)

/-- The loop /repo/resistics/regression.py:1067-1073 with `n` iterations left. -/
noncomputable def fittedLoop (fit : List (List ℝ) → List ℝ → List ℝ → Except Err Fitted) (preds : List (List ℝ))
    (obs : List ℝ) : ℕ → List ℝ → Option Fitted → Except Err (List ℝ)
  | 0, _, none => .error .attribute
  | 0, _, some m => .ok m.coef
  | n + 1, weights, _ => do
      let m ← fit preds obs weights
      fittedLoop fit preds obs n (fittedWeights preds obs m) (some m)

/-- `int(x)` of a product. -/
def truncate (x : ℚ) : ℤ := if 0 ≤ x then ⌊x⌋ else ⌈x⌉

/-- `_get_coef` of the solvers: /repo/resistics/regression.py:790-811 with the models of 896-903 (ordinary least squares) and 921-926
(Huber: only `epsilon` is passed, so scikit-learn's defaults `alpha = 0.0001` and `fit_intercept = True` apply), 960-996 (Theil-Sen:
the number of subsamples is a proportion of the number of rows), 1009-1029 (RANSAC) and 1042-1074 (weighted least squares). -/
noncomputable def SolverConfig.getCoef (sk : Sklearn) : SolverConfig → List (List ℝ) → List ℝ → Except Err (List ℝ)
  | .ols f n, preds, obs => (sk.fit (.linear f n) preds obs none).map Fitted.coef
  | .huber _ _ epsilon, preds, obs => (sk.fit (.huber epsilon (1 / 10000) true) preds obs none).map Fitted.coef
  | .theilSen f _ maxSub nSub, preds, obs =>
      (sk.fit (.theilSen f maxSub (nSub.map fun x => truncate (x * obs.length))) preds obs none).map Fitted.coef
  | .ransac f n minSamples maxTrials, preds, obs => (sk.fit (.ransac f n minSamples maxTrials) preds obs none).map Fitted.coef
  | .wls f n nIter, preds, obs =>
      fittedLoop (fun p o w => sk.fit (.linear f n) p o (some w)) preds obs nIter.toNat (List.replicate obs.length 1) none

/-- `run` of the solvers. -/
noncomputable def SolverConfig.run (sk : Sklearn) (s : SolverConfig) (r : RegInput) : Except Err Solution :=
  solveWith (s.getCoef sk) r

end Resistics
