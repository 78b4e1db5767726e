import Mathlib.Analysis.SpecialFunctions.Complex.Arg
import Verif.Model.Gather

/-!
# Model of /repo/resistics/transfunc.py

Complex arrays are lists of complex numbers in exact arithmetic.  Plotting and `to_string` are in `Verif.Model.Show`.
-/

namespace Resistics

/-- /repo/resistics/transfunc.py:13-38 `Component`. -/
structure Component where
  real : List ℝ
  imag : List ℝ

/-- /repo/resistics/transfunc.py:32-34 `get_value`. -/
noncomputable def Component.getValue (c : Component) (evalIdx : ℤ) : Except Err ℂ := do
  let re ← pyIndex c.real evalIdx
  let im ← pyIndex c.imag evalIdx
  return (re : ℂ) + Complex.I * (im : ℂ)

/-- /repo/resistics/transfunc.py:36-38 `to_numpy`.  Simplification: arrays of different lengths are a `ValueError`
also when one has length one. -/
noncomputable def Component.toNumpy (c : Component) : Except Err (List ℂ) :=
  if c.real.length ≠ c.imag.length then .error .value
  else .ok (List.zipWith (fun (re im : ℝ) => (re : ℂ) + Complex.I * (im : ℂ)) c.real c.imag)

/-- /repo/resistics/transfunc.py:41-63 `get_component_key`. -/
def getComponentKey (outChan inChan : String) : String := outChan ++ inChan

/-- /repo/resistics/transfunc.py:66-129 `TransferFunction` (fields after validation). -/
structure TransFunc where
  name : String
  variation : String
  outChans : List String
  inChans : List String
  crossChans : List String
  nOut : ℤ
  nIn : ℤ
  nCross : ℤ
  deriving DecidableEq, Repr

/-- The arguments with which a transfer function is constructed; `none` is an omitted argument. -/
structure TfArgs where
  name : Option String := none
  variation : Option String := none
  outChans : Option (List String) := none
  inChans : Option (List String) := none
  crossChans : Option (List String) := none
  nOut : Option ℤ := none
  nIn : Option ℤ := none
  nCross : Option ℤ := none
  deriving DecidableEq, Repr

/-- A transfer function class: its name and its defaults (`None` when the field is required). -/
structure TfClass where
  className : String
  variation : String
  outChans : Option (List String)
  inChans : Option (List String)
  deriving DecidableEq, Repr

/-- /repo/resistics/transfunc.py:66-129: the base class. -/
def tfBase : TfClass := ⟨"TransferFunction", "generic", none, none⟩
/-- /repo/resistics/transfunc.py:351-376 `ImpedanceTensor`. -/
def tfImpedance : TfClass := ⟨"ImpedanceTensor", "default", some ["Ex", "Ey"], some ["Hx", "Hy"]⟩
/-- /repo/resistics/transfunc.py:561-588 `Tipper`. -/
def tfTipper : TfClass := ⟨"Tipper", "default", some ["Hz"], some ["Hx", "Hy"]⟩

/-- A field which another field's validator reads (`values[...]`), when that validator needs it: the lookup fails
with a `KeyError` when the field was not given. -/
def neededBy {α β : Type} (field : Option α) (dependent : Option β) : Except Err Unit :=
  match field, dependent with
  | none, none => .error .key
  | _, _ => .ok ()

/-- The completed fields of a transfer function whose channel lists are known (/repo/resistics/transfunc.py:265-300):
the name defaults to the class name, cross channels to the input channels, the counts to the lengths of the lists. -/
def completeTf (cls : TfClass) (a : TfArgs) (outChans inChans : List String) : TransFunc :=
  let crossChans := a.crossChans.getD inChans
  { name := a.name.getD cls.className, variation := a.variation.getD cls.variation, outChans := outChans,
    inChans := inChans, crossChans := crossChans, nOut := a.nOut.getD outChans.length,
    nIn := a.nIn.getD inChans.length, nCross := a.nCross.getD crossChans.length }

/-- The end of a construction: the collected validation errors are raised (variations are at most 16 characters). -/
def finishTf (cls : TfClass) (a : TfArgs) : Option (List String) → Option (List String) → Except Err TransFunc
  | some outChans, some inChans =>
      if 16 < (a.variation.getD cls.variation).length then .error .value
      else .ok (completeTf cls a outChans inChans)
  | _, _ => .error .value

/-- Construction of a transfer function with its validators (/repo/resistics/transfunc.py:114-129, 265-300), which run
in field order: `cross_chans` and `n_in` read the input channels, `n_out` the output channels; a `KeyError` in a
validator is not collected by pydantic and escapes at once. -/
def mkTransFunc (cls : TfClass) (a : TfArgs) : Except Err TransFunc := do
  let outChans := a.outChans.or cls.outChans
  let inChans := a.inChans.or cls.inChans
  neededBy inChans a.crossChans
  neededBy outChans a.nOut
  neededBy inChans a.nIn
  finishTf cls a outChans inChans

/-- The types a dictionary entry may have, as far as validation distinguishes them. -/
inductive TfValue where
  | obj (tf : TransFunc)
  | dict (hasName : Option String) (args : TfArgs)
  | other

/-- /repo/resistics/transfunc.py:153-263 `TransferFunction.validate`; `types` is the registry `_types`.  The
constructor receives the dictionary without its name. -/
def tfValidate (cls : TfClass) (types : List (String × TfClass)) : TfValue → Except Err TransFunc
  | .obj tf => .ok tf
  | .other => .error .value
  | .dict none _ => .error .key
  | .dict (some name) args =>
      if name = "TransferFunction" then mkTransFunc cls { args with name := none }
      else match types.lookup name with
        | none => .error .value
        | some c => match mkTransFunc c { args with name := none } with
          | .ok tf => .ok tf
          | .error _ => .error .value

/-- /repo/resistics/transfunc.py:131-146 `__init_subclass__`: registration of a class under its name. -/
def tfRegister (types : List (String × TfClass)) (c : TfClass) : List (String × TfClass) := dictSet types c.className c

/-- All fields of a transfer function as arguments. -/
def TransFunc.toArgs (tf : TransFunc) : TfArgs where
  name := some tf.name
  variation := some tf.variation
  outChans := some tf.outChans
  inChans := some tf.inChans
  crossChans := some tf.crossChans
  nOut := some tf.nOut
  nIn := some tf.nIn
  nCross := some tf.nCross

/-- `model.dict()` of a transfer function: all fields are given. -/
def TransFunc.toDict (tf : TransFunc) : TfValue := .dict (some tf.name) tf.toArgs

/-- /repo/resistics/transfunc.py:302-304 `n_eqns_per_output`. -/
def TransFunc.nEqnsPerOutput (tf : TransFunc) : ℕ := tf.crossChans.length
/-- /repo/resistics/transfunc.py:306-308 `n_regressors`. -/
def TransFunc.nRegressors (tf : TransFunc) : ℤ := tf.nIn

/-- /repo/resistics/transfunc.py:378-396 `get_resistivity`.  Simplification: periods and components of different
lengths are a `ValueError` also when one has length one. -/
noncomputable def getResistivity (periods : List ℝ) (c : Component) : Except Err (List ℝ) := do
  let z ← c.toNumpy
  if periods.length ≠ z.length then throw .value
  return List.zipWith (fun T (w : ℂ) => 0.2 * T * ‖w‖ ^ 2) periods z

/-- One correction of `np.unwrap` with its default discontinuity `π`: how much to add to the phase that follows a
jump `dd`. -/
noncomputable def unwrapCorrect (dd : ℝ) : ℝ :=
  let ddmod := toIcoMod Real.two_pi_pos (-Real.pi) dd
  let ddmod := open Classical in if ddmod = -Real.pi ∧ 0 < dd then Real.pi else ddmod
  open Classical in if |dd| < Real.pi then 0 else ddmod - dd

/-- `np.unwrap` (numpy 1.21.2): the corrections of the jumps are accumulated. -/
noncomputable def npUnwrapFrom : ℝ → ℝ → List ℝ → List ℝ
  | _, _, [] => []
  | prev, acc, x :: xs =>
      let acc := acc + unwrapCorrect (x - prev)
      (x + acc) :: npUnwrapFrom x acc xs

/-- `np.unwrap(p)`: the first phase is kept. -/
noncomputable def npUnwrap : List ℝ → List ℝ
  | [] => []
  | x :: xs => x :: npUnwrapFrom x 0 xs

/-- /repo/resistics/transfunc.py:398-424 `get_phase`; `np.mod(phase, 360)` is in `[0, 360)`. -/
noncomputable def getPhase (key : String) (c : Component) : Except Err (List ℝ) := do
  let z ← c.toNumpy
  let phase := (npUnwrap (z.map Complex.arg)).map fun x => x * 180 / Real.pi
  if key = "ExHx" ∨ key = "ExHy" then
    return phase.map fun x => toIcoMod (by norm_num : (0 : ℝ) < 360) 0 x - 180
  return phase

/-- /repo/resistics/transfunc.py:590-594 `Tipper.get_length`. -/
noncomputable def tipperLength (comps : List (String × Component)) : Except Err (List ℝ) := do
  let tx ← dictGet comps "HzHx"
  let ty ← dictGet comps "HzHy"
  if tx.real.length ≠ ty.real.length then throw .value
  return List.zipWith (fun x y => Real.sqrt (x ^ 2 + y ^ 2)) tx.real ty.real

end Resistics
