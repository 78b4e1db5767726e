import Mathlib.Analysis.SpecialFunctions.Trigonometric.Arctan
import Verif.Model.TransFunc

/-!
# Model of how transfer functions are displayed: text, impedance tensor plots and tipper plots of /repo/resistics/transfunc.py

A figure is the list of its lines in the order in which they were added; axes, markers and layout are not modelled.
-/

namespace Resistics

/-! ## Text -/

/-- The Python format `f"{s:{width}s}"`: blanks up to the width.  Simplification: a width of zero is a `ValueError` in older Python
versions. -/
def padTo (s : String) (width : ℕ) : String := s ++ String.ofList (List.replicate (width - s.length) ' ')

/-- /repo/resistics/transfunc.py:325-330 `_out_chan_string`. -/
def TransFunc.outChanString (tf : TransFunc) (il maxLen : ℕ) : Except Err String :=
  if tf.nOut ≤ il then .ok (padTo "" (maxLen + 4))
  else (pyIndex tf.outChans (il : ℤ)).map fun c => "| " ++ padTo c maxLen ++ " |"

/-- /repo/resistics/transfunc.py:332-336 `_in_chan_string`. -/
def TransFunc.inChanString (tf : TransFunc) (il maxLen : ℕ) : Except Err String :=
  if tf.nIn ≤ il then .ok ""
  else (pyIndex tf.inChans (il : ℤ)).map fun c => "| " ++ padTo c maxLen ++ " |"

/-- The elements of a row of the tensor (/repo/resistics/transfunc.py:344-347). -/
def tensorElements (inChans : List String) (maxLen : ℕ) (out : String) : String :=
  inChans.foldl (fun s c => s ++ (padTo (out ++ "_" ++ c) (2 * maxLen + 1) ++ " ")) "| "

/-- /repo/resistics/transfunc.py:338-348 `_tensor_string`.  Simplification: a negative number of input channels gives no
blanks. -/
def TransFunc.tensorString (tf : TransFunc) (il maxLen : ℕ) : Except Err String :=
  if tf.nOut ≤ il then .ok (padTo "" (((maxLen * 2 + 1) + 1) * tf.nIn.toNat + 3))
  else (pyIndex tf.outChans (il : ℤ)).map fun c => tensorElements tf.inChans maxLen c ++ "|"

/-- A line of /repo/resistics/transfunc.py:318-323. -/
def TransFunc.textLine (tf : TransFunc) (maxLen lineEquals il : ℕ) : Except Err String := do
  let outChan ← tf.outChanString il maxLen
  let inChan ← tf.inChanString il maxLen
  let tensor ← tf.tensorString il maxLen
  return outChan ++ " " ++ (if il = lineEquals then "=" else " ") ++ " " ++ tensor ++ " " ++ inChan ++ "\n"

/-- `s.rstrip("\n")`. -/
def rstripNewlines (s : String) : String := String.ofList (s.toList.reverse.dropWhile (· = '\n')).reverse

/-- /repo/resistics/transfunc.py:310-323 `to_string`; without channels `max` of an empty list is a `ValueError`. -/
def TransFunc.toText (tf : TransFunc) : Except Err String := do
  let nLines := max tf.inChans.length tf.outChans.length
  let maxLen ← pyMax (tf.inChans.map String.length ++ tf.outChans.map String.length)
  let lines ← (List.range nLines).mapM (tf.textLine maxLen ((nLines - 1) / 2))
  return rstripNewlines (lines.foldl (· ++ ·) "")

/-! ## Impedance tensor plots -/

/-- A line of a figure: the row of the figure (from 1), its name and colour, whether it is in the legend, and its points; a value
that is not a number is `none`. -/
structure TfLine where
  row : ℕ
  name : String
  color : String
  inLegend : Bool
  x : List ℝ
  y : List (Option ℝ)

/-- `np.reciprocal(freqs)`.  Simplification: frequencies are floating point numbers that are not zero (`np.reciprocal` of integers is
an integer division). -/
noncomputable def periodsOf (freqs : List ℝ) : List ℝ := freqs.map fun f => 1 / f

/-- The colours of /repo/resistics/transfunc.py:532. -/
def componentColors : List (String × String) := [("ExHx", "orange"), ("EyHy", "green"), ("ExHy", "red"), ("EyHx", "blue")]

/-- The two lines of the body of the loop at /repo/resistics/transfunc.py:533-557. -/
noncomputable def componentLines (freqs : List ℝ) (components : List (String × Component)) (legend comp : String) :
    Except Err (List TfLine) := do
  let c ← dictGet components comp
  let res ← getResistivity (periodsOf freqs) c
  let phs ← getPhase comp c
  let color ← dictGet componentColors comp
  return [{ row := 1, name := legend ++ " - " ++ comp, color := color, inLegend := true, x := periodsOf freqs, y := res.map some },
          { row := 2, name := legend ++ " - " ++ comp, color := color, inLegend := false, x := periodsOf freqs, y := phs.map some }]

/-- The loop at /repo/resistics/transfunc.py:533-557.  It draws in the figure given: the second result is what that figure holds
afterwards, also when an exception is raised. -/
noncomputable def plotComponents (freqs : List ℝ) (components : List (String × Component)) (legend : String) :
    List String → List TfLine → Except Err Unit × List TfLine
  | [], fig => (.ok (), fig)
  | comp :: rest, fig =>
      match componentLines freqs components legend comp with
      | .ok lines => plotComponents freqs components legend rest (fig ++ lines)
      | .error e => (.error e, fig)

/-- /repo/resistics/transfunc.py:479-558 `ImpedanceTensor.plot`; without a figure a new one is made, without components all four are
drawn. -/
noncomputable def plotImpedance (freqs : List ℝ) (components : List (String × Component)) (fig : Option (List TfLine))
    (toPlot : Option (List String)) (legend : String) : Except Err Unit × List TfLine :=
  plotComponents freqs components legend (toPlot.getD ["ExHy", "EyHx", "ExHx", "EyHy"]) (fig.getD [])

/-! ## Tippers -/

/-- `np.arctan(ty / tx) * 180 / np.pi` for one pair: division by zero gives an infinity or `nan`.  Simplification: zeros are not
negative. -/
noncomputable def arctanDegrees (tx ty : ℝ) : Option ℝ :=
  open Classical in
  if tx = 0 then (if ty = 0 then none else if 0 < ty then some 90 else some (-90))
  else some (Real.arctan (ty / tx) * 180 / Real.pi)

/-- The element-wise operation on two arrays.  Simplification: arrays of different lengths are a `ValueError` also when one has
length one. -/
noncomputable def anglesOf (tx ty : List ℝ) : Except Err (List (Option ℝ)) :=
  if tx.length ≠ ty.length then .error .value else .ok (List.zipWith arctanDegrees tx ty)

/-- /repo/resistics/transfunc.py:596-600 `get_real_angle`. -/
noncomputable def tipperRealAngle (comps : List (String × Component)) : Except Err (List (Option ℝ)) := do
  let tx ← dictGet comps "HzHx"
  let ty ← dictGet comps "HzHy"
  anglesOf tx.real ty.real

/-- /repo/resistics/transfunc.py:602-606 `get_imag_angle`. -/
noncomputable def tipperImagAngle (comps : List (String × Component)) : Except Err (List (Option ℝ)) := do
  let tx ← dictGet comps "HzHx"
  let ty ← dictGet comps "HzHy"
  anglesOf tx.imag ty.imag

/-- /repo/resistics/transfunc.py:608-704 `Tipper.plot`. -/
noncomputable def plotTipper (freqs : List ℝ) (comps : List (String × Component)) : Except Err (List TfLine) := do
  let len ← tipperLength comps
  let re ← tipperRealAngle comps
  let im ← tipperImagAngle comps
  return [{ row := 1, name := "Tipper length", color := "red", inLegend := true, x := periodsOf freqs, y := len.map some },
          { row := 2, name := "Real angle", color := "green", inLegend := true, x := periodsOf freqs, y := re },
          { row := 2, name := "Imag angle", color := "blue", inLegend := true, x := periodsOf freqs, y := im }]

end Resistics
