import Verif.Model.Spectra
import Mathlib.Data.List.Sort

/-!
# Model of /repo/resistics/calibrate.py

Numbers are rationals; the value `np.exp(1j * phase)` is a parameter `expj`, and so are the parsing of a number and the
constant `np.pi / 180`.
-/

namespace Resistics

/-- /repo/resistics/calibrate.py:29-65 `CalibrationData`.  Simplification: the path of the file is left out and the
serial number is a string. -/
structure CalData where
  sensor : String := ""
  serial : String
  staticGain : ℚ := 1
  magnitudeUnit : String := "mV/nT"
  frequency : List ℚ
  magnitude : List ℚ
  phase : List ℚ
  deriving DecidableEq, Repr

/-! ## Strings -/

/-- `sub in s`. -/
def pyContains (sub s : String) : Bool := decide (sub.toList <:+: s.toList)

/-- The characters Python takes as white space.  Simplification: only those of ASCII. -/
def isSpace (c : Char) : Bool := c = ' ' || c = '\t' || c = '\n' || c = '\r' || c = '\x0b' || c = '\x0c'

/-- `s.strip()`. -/
def pyStrip (s : String) : String :=
  String.ofList ((s.toList.dropWhile isSpace).reverse.dropWhile isSpace).reverse

/-- `s.lower()`.  Simplification: only the capital letters of ASCII have small ones. -/
def pyLower (s : String) : String := String.ofList (s.toList.map Char.toLower)

/-- `s.split()`: the maximal runs of other characters; `cur` is the current run, reversed. -/
def splitWords (cur : List Char) : List Char → List String
  | [] => if cur = [] then [] else [String.ofList cur.reverse]
  | c :: cs =>
      if isSpace c then (if cur = [] then splitWords [] cs else String.ofList cur.reverse :: splitWords [] cs)
      else splitWords (c :: cur) cs

/-- `s.split()`. -/
def pySplit (s : String) : List String := splitWords [] s.toList

/-- `s.split("=")[1].strip()`: an `IndexError` without an equals sign. -/
def afterEquals (s : String) : Except Err String :=
  match s.toList.dropWhile (· ≠ '=') with
  | [] => .error .index
  | _ :: rest => .ok (pyStrip (String.ofList (rest.takeWhile (· ≠ '='))))

/-- `s.replace(pat, rep)` on characters, for a non-empty pattern: leftmost occurrences, not overlapping; `skip` is the
number of characters of an occurrence still to pass over. -/
def replaceChars (pat rep : List Char) : List Char → ℕ → List Char
  | [], _ => []
  | _ :: cs, skip + 1 => replaceChars pat rep cs skip
  | c :: cs, 0 =>
      if pat.isPrefixOf (c :: cs) then rep ++ replaceChars pat rep cs (pat.length - 1)
      else c :: replaceChars pat rep cs 0

/-- `s.replace(pat, rep)`. -/
def pyReplace (s pat rep : String) : String := String.ofList (replaceChars pat.toList rep.toList s.toList 0)

/-! ## The text reader -/

/-- One step of /repo/resistics/calibrate.py:360-370 `_get_sensor_details`. -/
def sensorStep (st : String × String) (line : String) : Except Err (String × String) := do
  let l := pyLower line
  let serial ← if pyContains "serial" l then afterEquals l else .ok st.1
  let sensor ← if pyContains "sensor" l then afterEquals l else .ok st.2
  return (serial, sensor)

/-- /repo/resistics/calibrate.py:360-370 `_get_sensor_details`: serial number and sensor. -/
def getSensorDetails (lines : List String) : Except Err (String × String) := lines.foldlM sensorStep ("1", "")

/-- /repo/resistics/calibrate.py:372-379 `_get_static_gain`: the first line wins. -/
def getStaticGain (toNum : String → Except Err ℚ) (lines : List String) : Except Err ℚ :=
  match lines.find? fun l => pyContains "static gain" (pyLower l) with
  | none => .ok 1
  | some l => do
      let v ← afterEquals l
      toNum v

/-- /repo/resistics/calibrate.py:381-387 `_get_chopper`. -/
def getChopper (lines : List String) : Except Err Bool :=
  match lines.find? fun l => pyContains "chopper" (pyLower l) with
  | none => .ok false
  | some l => do
      let v ← afterEquals l
      return v = "True"

/-- One step of /repo/resistics/calibrate.py:389-398 `_get_units`. -/
def unitsStep (st : String × String) (line : String) : Except Err (String × String) := do
  let mag ← if pyContains "magnitude unit" (pyLower line) then afterEquals line else .ok st.1
  let phs ← if pyContains "phase unit" (pyLower line) then afterEquals line else .ok st.2
  return (mag, phs)

/-- /repo/resistics/calibrate.py:389-398 `_get_units`: magnitude and phase unit; the last lines win. -/
def getUnits (lines : List String) : Except Err (String × String) := lines.foldlM unitsStep ("mV/nT", "radians")

/-- /repo/resistics/calibrate.py:413-418 `_get_read_from`. -/
def getReadFrom (lines : List String) : Except Err ℕ :=
  match lines.findIdx? fun l => pyContains "CALIBRATION DATA" l with
  | some i => .ok (i + 1)
  | none => .error .value

/-- /repo/resistics/calibrate.py:420-426 `_get_data_lines`. -/
def getDataLines (lines : List String) (idx : ℕ) : List String := (lines.drop idx).takeWhile (· ≠ "")

/-- A line of three numbers (/repo/resistics/calibrate.py:404-405); any other is a `ValueError`. -/
def parseRow (toNum : String → Except Err ℚ) (line : String) : Except Err (ℚ × ℚ × ℚ) :=
  match pySplit line with
  | [a, b, c] => do
      let x ← toNum a
      let y ← toNum b
      let z ← toNum c
      return (x, y, z)
  | _ => .error .value

/-- The conversion at /repo/resistics/calibrate.py:408-409. -/
def toRadians (deg : ℚ) (phaseUnit : String) (rows : List (ℚ × ℚ × ℚ)) : List (ℚ × ℚ × ℚ) :=
  if phaseUnit = "degrees" then rows.map fun r => (r.1, r.2.1, r.2.2 * deg) else rows

/-- /repo/resistics/calibrate.py:400-411 `_read_data`: the rows (frequency, magnitude, phase) in order of frequency;
`deg` is `np.pi / 180`.  No rows at all are a `ValueError`.  Simplification: rows of equal frequency keep their order (pandas
does not promise any). -/
def readCalRows (toNum : String → Except Err ℚ) (deg : ℚ) (lines : List String) (phaseUnit : String) :
    Except Err (List (ℚ × ℚ × ℚ)) := do
  let idx ← getReadFrom lines
  let rows ← (getDataLines lines idx).mapM (parseRow toNum)
  if rows = [] then .error .value
  else .ok ((toRadians deg phaseUnit rows).insertionSort fun a b => a.1 ≤ b.1)

/-- /repo/resistics/calibrate.py:315-343 `read_calibration_data` of the text reader, for the lines of the file. -/
def readCalText (toNum : String → Except Err ℚ) (deg : ℚ) (raw : List String) : Except Err CalData := do
  let lines := raw.map pyStrip
  let ss ← getSensorDetails lines
  let gain ← getStaticGain toNum lines
  let _ ← getChopper lines
  let units ← getUnits lines
  let rows ← readCalRows toNum deg lines units.2
  return { sensor := ss.2, serial := ss.1, staticGain := gain, magnitudeUnit := units.1,
           frequency := rows.map (·.1), magnitude := rows.map (·.2.1), phase := rows.map (·.2.2) }

/-! ## Readers and files -/

/-- A calibration file: lines of text, or the JSON of calibration data. -/
inductive CalFile where
  | text (lines : List String)
  | json (d : CalData)

/-- The two readers. -/
inductive CalKind where
  | json
  | txt
  deriving DecidableEq, Repr

/-- A sensor calibration reader (/repo/resistics/calibrate.py:154-187): its kind, `file_str` and `extension`. -/
structure CalReader where
  kind : CalKind
  fileStr : String := "IC_$sensor$extension"
  extension : Option String
  deriving DecidableEq, Repr

/-- /repo/resistics/calibrate.py:244-251 `_get_path`: the name of the file for a sensor and serial number. -/
def CalReader.fileName (r : CalReader) (sensor serial : String) : String :=
  let name := pyReplace r.fileStr "$sensor" sensor
  let name := pyReplace name "$serial" serial
  match r.extension with
  | some e => pyReplace name "$extension" e
  | none => name

/-- The data of a file by kind of reader.  A JSON file is never taken for a text file with a table: Props/CalJson `C81_json_is_no_text`.  Simplification: nor the other way round. -/
def readCalFile (toNum : String → Except Err ℚ) (deg : ℚ) : CalKind → CalFile → Except Err CalData
  | .json, .json d => .ok d
  | .json, .text _ => .error .value
  | .txt, .text lines => readCalText toNum deg lines
  | .txt, .json _ => .error .value

/-- The files of a calibration directory by name, and the sensor and serial number of each channel. -/
structure CalEnv where
  files : String → Option CalFile
  sensors : String → Option (String × String)

/-- /repo/resistics/calibrate.py:189-219 `run`. -/
def CalReader.run (toNum : String → Except Err ℚ) (deg : ℚ) (env : CalEnv) (r : CalReader) (chan : String) :
    Except Err CalData :=
  match env.sensors chan with
  | none => .error .key
  | some s =>
      match env.files (r.fileName s.1 s.2) with
      | none => .error .calFileNotFound
      | some f => readCalFile toNum deg r.kind f

/-- /repo/resistics/calibrate.py:537-550 `_get_cal_data`: the result of the first reader that raises nothing. -/
def getCalData (read : CalReader → String → Except Err CalData) (readers : List CalReader) (chan : String) :
    Option CalData :=
  readers.findSome? fun r => (read r chan).toOption

/-! ## The calibrator -/

/-- /repo/resistics/calibrate.py:439-443 `_get_chans`. -/
def calChans (sel : Option (List String)) (chans : List String) : List String :=
  match sel with
  | none => chans
  | some s => s.filter fun c => decide (c ∈ chans)

/-- `np.interp` of one column of the calibration data; columns of different lengths are a `ValueError`. -/
def calInterp (xs ys : List ℚ) (f : ℚ) : Except Err ℚ :=
  if xs.length ≠ ys.length then .error .value else npInterp (xs.zip ys) f

/-- One value of /repo/resistics/calibrate.py:472-498 `_interpolate`. -/
def calResponseAt {W : Type} [Field W] (expj : ℚ → W) (c : CalData) (f : ℚ) : Except Err W := do
  let mag ← calInterp c.frequency c.magnitude f
  let phs ← calInterp c.frequency c.phase f
  return (mag : W) * expj phs

/-- /repo/resistics/calibrate.py:472-498 `_interpolate`. -/
def calResponse {W : Type} [Field W] (expj : ℚ → W) (c : CalData) (freqs : List ℚ) : Except Err (List W) :=
  freqs.mapM (calResponseAt expj c)

/-- One window of /repo/resistics/calibrate.py:445-470 `_calibrate` and of the assignment at 529-531: the channel is
divided by the response.  The response has as many values as the channel or one; because of `np.squeeze`, a channel of one
value can be assigned only when there is just one window (`nWins`). -/
def calibrateWin {W : Type} [Field W] (tf : List W) (idx : ℤ) (nWins : ℕ) (win : List (List W)) :
    Except Err (List (List W)) := do
  let row ← pyIndex win idx
  if tf.length ≠ row.length ∧ tf.length ≠ 1 then throw .value
  if row.length = 1 ∧ nWins ≠ 1 then throw .value
  return win.set idx.toNat
    (if tf.length = row.length then List.zipWith (· / ·) row tf else row.map fun x => x / tf.headD 1)

/-- One level (/repo/resistics/calibrate.py:527-531).  Simplification: the shape of a level without windows is not
checked. -/
def calibrateLevel {W : Type} [Field W] (expj : ℚ → W) (c : CalData) (levels : List SpecLevelMeta) (idx : ℤ)
    (data : List (ℕ × SpecArr W)) (ilevel : ℕ) : Except Err (List (ℕ × SpecArr W)) := do
  let lm ← pyIndex levels (ilevel : ℤ)
  let arr ← dictGet data ilevel
  let tf ← calResponse expj c lm.freqs
  let arr' ← arr.mapM (calibrateWin tf idx arr.length)
  return data.map fun q => if q.1 = ilevel then (q.1, arr') else q

/-- One channel (/repo/resistics/calibrate.py:519-532). -/
def calibrateChan {W : Type} [Field W] (expj : ℚ → W) (md : SpecMeta) (get : String → Option CalData)
    (data : List (ℕ × SpecArr W)) (chan : String) : Except Err (List (ℕ × SpecArr W)) :=
  match get chan with
  | none => .ok data
  | some c => do
      let idx ← listIndex md.chans chan
      (List.range md.nLevels).foldlM (calibrateLevel expj c md.levels idx) data

/-- /repo/resistics/calibrate.py:512-535 `SensorCalibrator.run`. -/
def sensorCalibrate {W : Type} [Field W] (expj : ℚ → W) (sel : Option (List String))
    (get : String → Option CalData) (d : SpecData W) : Except Err (SpecData W) := do
  let data ← (calChans sel d.md.chans).foldlM (calibrateChan expj d.md get) d.data
  mkSpecData { d.md with history := d.md.history ++ ["SensorCalibrator"] } data

end Resistics
