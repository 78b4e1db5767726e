import Verif.Model.Calibrate
import Verif.Model.TextData
import Verif.Model.MetaText

/-!
# Calibration files, character by character

The two readers of /repo/resistics/calibrate.py on the text of a file.  The lines about sensor, serial number, chopper and units and the place of the
table are found as in Model/Calibrate; numbers are doubles, infinities and `nan`.  Simplifications: white space and letter case are those of
ASCII; underscores between digits and digits of other scripts, which `float` and `int` take, are not followed.
-/

namespace Resistics

/-- A word of the table, for `np.array(..., dtype=float)` (/repo/resistics/calibrate.py:405), and the text of the static gain (377): `float`. -/
def calNumber (w : String) : Except Err PyNum := (readWord w.toList).elim (.error .value) .ok

/-- A row of the table (/repo/resistics/calibrate.py:405-406): three numbers, else a `ValueError`. -/
def charRow (line : String) : Except Err (PyNum × PyNum × PyNum) :=
  match pySplit line with
  | [a, b, c] => do
      let x ← calNumber a
      let y ← calNumber b
      let z ← calNumber c
      return (x, y, z)
  | _ => .error .value

/-- `np.pi`. -/
def piDouble : ℚ := 884279719003555 / 2 ^ 48

/-- `np.pi / 180`. -/
def degDouble : ℚ := nearestDouble (piDouble / 180)

/-- `phase * (np.pi / 180)` (/repo/resistics/calibrate.py:409). -/
def inRadians : PyNum → PyNum
  | .int n => toDouble (n * degDouble)
  | .float q => toDouble (q * degDouble)
  | .inf neg => .inf neg
  | .nan => .nan

/-- The order of the index in pandas: `nan` comes last. -/
def numLe : PyNum → PyNum → Bool
  | _, .nan => true
  | .nan, _ => false
  | .inf true, _ => true
  | _, .inf false => true
  | .inf false, _ => false
  | _, .inf true => false
  | .int a, .int b => a ≤ b
  | .int a, .float b => decide ((a : ℚ) ≤ b)
  | .float a, .int b => decide (a ≤ (b : ℚ))
  | .float a, .float b => decide (a ≤ b)

/-- /repo/resistics/calibrate.py:407-410: phases in radians when the unit is "degrees", then `sort_index`.  Simplification: rows of equal
frequency keep their order (pandas does not promise any). -/
def calTable (phaseUnit : String) (rows : List (PyNum × PyNum × PyNum)) : List (PyNum × PyNum × PyNum) :=
  (rows.map fun r => (r.1, r.2.1, if phaseUnit = "degrees" then inRadians r.2.2 else r.2.2)).insertionSort fun a b => numLe a.1 b.1

/-- /repo/resistics/calibrate.py:400-411 `_read_data`; without rows the array has the wrong shape for the columns, a `ValueError`. -/
def charTable (lines : List String) (phaseUnit : String) : Except Err (List (PyNum × PyNum × PyNum)) := do
  let idx ← getReadFrom lines
  let rows ← (getDataLines lines idx).mapM charRow
  if rows = [] then .error .value else .ok (calTable phaseUnit rows)

/-- /repo/resistics/calibrate.py:372-379 `_get_static_gain`. -/
def staticGainOf (lines : List String) : Except Err PyNum :=
  match lines.find? fun l => pyContains "static gain" (pyLower l) with
  | none => .ok (.float 1)
  | some l => do
      let v ← afterEquals l
      calNumber v

/-- `int(text)` for texts without white space at the ends. -/
def intOfText (cs : List Char) : Option ℤ :=
  if (readSign cs).2 ≠ [] ∧ (readSign cs).2.all isDecDigit then
    some (if (readSign cs).1 then -(digitsValue (readSign cs).2 : ℤ) else digitsValue (readSign cs).2)
  else none

/-- pydantic's `Union[int, str]` (/repo/resistics/calibrate.py:46): a text that is a number becomes a number. -/
def serialOf (s : String) : Doc.Serial := (intOfText s.toList).elim (.text s) .number

/-- /repo/resistics/calibrate.py:337-343: what is read, as calibration data; the number of samples is counted by the validator (60-65). -/
def calDocOf (path sensor serial unit : String) (gain : PyNum) (rows : List (PyNum × PyNum × PyNum)) : Doc.CalDoc where
  fileInfo := none
  filePath := some path
  sensor := sensor
  serial := serialOf serial
  staticGain := gain
  magnitudeUnit := unit
  frequency := rows.map (·.1)
  magnitude := rows.map (·.2.1)
  phase := rows.map (·.2.2)
  nSamples := rows.length

/-- /repo/resistics/calibrate.py:333-358 `read_calibration_data` and `_read_metadata`, from the stripped lines. -/
def readCalLines (path : String) (lines : List String) : Except Err Doc.CalDoc := do
  let ss ← getSensorDetails lines
  let gain ← staticGainOf lines
  let _ ← getChopper lines
  let units ← getUnits lines
  let rows ← charTable lines units.2
  return calDocOf path ss.2 ss.1 units.1 gain rows

/-- /repo/resistics/calibrate.py:315-343 `SensorCalibrationTXT.read_calibration_data` for the text of the file. -/
def readCalChars (path : String) (text : List Char) : Except Err Doc.CalDoc :=
  readCalLines path ((textLines text).map fun l => pyStrip (String.ofList l))

/-- /repo/resistics/calibrate.py:259-280 `SensorCalibrationJSON.read_calibration_data` for the text of the file. -/
def readCalJson (env : Doc.Reading) (path : String) (text : List Char) : Except Err Doc.CalDoc := do
  let d ← Doc.parseFile env (Doc.CalDoc.read env) text
  return { d with filePath := some path }

/-- The reader by its kind. -/
def readCalKind (env : Doc.Reading) (path : String) (text : List Char) : CalKind → Except Err Doc.CalDoc
  | .json => readCalJson env path text
  | .txt => readCalChars path text

/-- /repo/resistics/calibrate.py:189-219 `SensorCalibrationReader.run` in a directory of files with text, for a sensor and serial number. -/
def runCalReader (env : Doc.Reading) (dir : String) (files : String → Option (List Char)) (sensor serial : String) (r : CalReader) : Except Err Doc.CalDoc :=
  match files (r.fileName sensor serial) with
  | none => .error .calFileNotFound
  | some text => readCalKind env (dir ++ "/" ++ r.fileName sensor serial) text r.kind

/-- /repo/resistics/calibrate.py:537-550 `_get_cal_data`: the first reader that raises nothing. -/
def findCalDoc (env : Doc.Reading) (dir : String) (files : String → Option (List Char)) (sensor serial : String) (readers : List CalReader) :
    Option Doc.CalDoc :=
  readers.findSome? fun r => (runCalReader env dir files sensor serial r).toOption

end Resistics
