import Verif.Model.Registry
import Verif.Model.DateText
import Verif.Model.Time

/-!
# Model of process records and of the time processors as objects that can be rebuilt from them

/repo/resistics/common.py:455-700 (records and histories), 825-863 (names, parameters, records of processes), and the fields
of the time processors of /repo/resistics/time.py.  In the other modules a history is the list of the names of its records;
here a record has all its fields.
-/

namespace Resistics

/-- /repo/resistics/common.py:455-493 `Record`.  Times are native date times. -/
structure Record where
  timeLocal : Timestamp
  timeUtc : Timestamp
  creator : List (String × PVal)
  messages : List String
  recordType : String

/-- What the two clocks show (`datetime.now()` and `datetime.utcnow()`). -/
structure Clock where
  localNow : Timestamp
  utcNow : Timestamp

/-- The argument `messages: Union[str, List[str]]` of `get_record`. -/
inductive Messages where
  | one (s : String)
  | many (l : List String)

/-- /repo/resistics/common.py:603-604 -/
def Messages.toList : Messages → List String
  | .one s => [s]
  | .many l => l

/-- /repo/resistics/common.py:555-615 `get_record`. -/
def getRecord (now : Clock) (creator : List (String × PVal)) (messages : Messages) (recordType : String := "process")
    (timeUtc : Option Timestamp := none) (timeLocal : Option Timestamp := none) : Record where
  timeLocal := timeLocal.getD now.localNow
  timeUtc := timeUtc.getD now.utcNow
  creator := creator
  messages := messages.toList
  recordType := recordType

/-- /repo/resistics/common.py:618-700 `get_history`: a new history, or a copy of the given one with the record added. -/
def getHistory (record : Record) : Option (List Record) → List Record
  | none => [record]
  | some h => h ++ [record]

/-! ## Time processors as objects -/

/-- The fields of the time processors besides their names: /repo/resistics/time.py:1266-1267, 1471, 1548, 1614-1615, 1684-1685,
1756-1758, 1838-1840, 1922, 2029-2030, 2208, 2322.  Simplification: orders are natural numbers, and numbers are exact. -/
inductive TimeParams where
  | subsection (fromTime toTime : TimeLike)
  | interpolateNans
  | removeMean
  | add (p : PerChan)
  | multiply (p : PerChan)
  | lowPass (cutoff : ℚ) (order : ℕ)
  | highPass (cutoff : ℚ) (order : ℕ)
  | bandPass (low high : ℚ) (order : ℕ)
  | notch (freq : ℚ) (band : Option ℚ) (order : ℕ)
  | resample (newFs : ℚ)
  | decimate (factor maxSingle : ℕ)
  | shift (shift : ℚ)
  | apply (fncs : List (String × (List ℚ → List ℚ)))

/-- The class of a processor with these fields. -/
def TimeParams.className : TimeParams → String
  | .subsection _ _ => "Subsection"
  | .interpolateNans => "InterpolateNans"
  | .removeMean => "RemoveMean"
  | .add _ => "Add"
  | .multiply _ => "Multiply"
  | .lowPass _ _ => "LowPass"
  | .highPass _ _ => "HighPass"
  | .bandPass _ _ _ => "BandPass"
  | .notch _ _ _ => "Notch"
  | .resample _ => "Resample"
  | .decimate _ _ => "Decimate"
  | .shift _ => "ShiftTimestamps"
  | .apply _ => "ApplyFunction"

/-- A time processor: its name and its fields. -/
structure TimeObj where
  name : String
  params : TimeParams

/-- /repo/resistics/common.py:825-830 `validate_name`: a processor that is given no name is named after its class. -/
def mkTimeObj (name : Option String) (p : TimeParams) : TimeObj := ⟨name.getD p.className, p⟩

/-- The code this model takes as given: the parser of `pd.Timestamp`, the position of a date time on the time axis, scipy, the
content of `np.empty`, the text of a custom function (/repo/resistics/time.py:2268-2289 `serialize_custom_fnc`, which raises
when the function cannot be written or fails on its test input), and the messages a processor adds to its record. -/
structure RecEnv where
  pandas : String → Except Err Timestamp
  instant : CalTime → DateTime
  sp : SciPy
  junk : ℕ → ℕ → ℚ
  describe : (List ℚ → List ℚ) → Except Err String
  messages : Proc → TimeData ℚ → List String

/-- The time processors read their fields when they run (/repo/resistics/time.py:1284-1287 for the times of a subsection). -/
def TimeParams.toProc (env : RecEnv) : TimeParams → Except Err Proc
  | .subsection f t => do
      let f ← toDatetime env.pandas f
      let t ← toDatetime env.pandas t
      return .subsection (env.instant f) (env.instant t)
  | .interpolateNans => .ok .interpolateNans
  | .removeMean => .ok .removeMean
  | .add p => .ok (.add p)
  | .multiply p => .ok (.multiply p)
  | .lowPass c o => .ok (.lowPass c o)
  | .highPass c o => .ok (.highPass c o)
  | .bandPass l h o => .ok (.bandPass l h o)
  | .notch f b o => .ok (.notch f b o)
  | .resample f => .ok (.resample f)
  | .decimate f m => .ok (.decimate m f)
  | .shift s => .ok (.shift s)
  | .apply f => .ok (.apply env.junk f)

/-! ## Parameters -/

/-- `isoformat()` of a timestamp: microseconds and nanoseconds only where they are not zero (pydantic's encoder of dates). -/
def isoChars (t : Timestamp) : List Char :=
  padDigits 4 t.year ++ '-' :: (padDigits 2 t.month ++ '-' :: (padDigits 2 t.day ++ 'T' :: (padDigits 2 t.hour ++
    ':' :: (padDigits 2 t.minute ++ ':' :: (padDigits 2 t.second ++
    (if t.microsecond = 0 ∧ t.nanosecond = 0 then [] else '.' :: padDigits 6 t.microsecond) ++
    (if t.nanosecond = 0 then [] else padDigits 3 t.nanosecond))))))

/-- See `isoChars`. -/
def isoText (t : Timestamp) : String := String.ofList (isoChars t)

/-- A field of type `DateTimeLike` (/repo/resistics/sampling.py:17) in JSON. -/
def TimeLike.toJson : TimeLike → PVal
  | .text s => .str s
  | .native t => .str (isoText t)
  | .timestamp t => .str (isoText t)

/-- A field of type `Union[float, Dict[str, float]]` in JSON. -/
def PerChan.toJson : PerChan → PVal
  | .scalar x => .num x
  | .dict d => .dict (d.map fun q => (q.1, .num q.2))

/-- A field of type `Optional[float]` in JSON. -/
def optJson : Option ℚ → PVal
  | none => .null
  | some q => .num q

/-- The functions of `ApplyFunction` in JSON (/repo/resistics/time.py:2324-2330). -/
def describeStep (describe : (List ℚ → List ℚ) → Except Err String) (q : String × (List ℚ → List ℚ)) :
    Except Err (String × PVal) :=
  match describe q.2 with
  | .ok s => .ok (q.1, .str s)
  | .error e => .error e

/-- The fields of a processor in JSON. -/
def TimeParams.toJson (env : RecEnv) : TimeParams → Except Err (List (String × PVal))
  | .subsection f t => .ok [("from_time", f.toJson), ("to_time", t.toJson)]
  | .interpolateNans => .ok []
  | .removeMean => .ok []
  | .add p => .ok [("add", p.toJson)]
  | .multiply p => .ok [("multiplier", p.toJson)]
  | .lowPass c o => .ok [("cutoff", .num c), ("order", .num o)]
  | .highPass c o => .ok [("cutoff", .num c), ("order", .num o)]
  | .bandPass l h o => .ok [("cutoff_low", .num l), ("cutoff_high", .num h), ("order", .num o)]
  | .notch f b o => .ok [("notch", .num f), ("band", optJson b), ("order", .num o)]
  | .resample f => .ok [("new_fs", .num f)]
  | .decimate f m => .ok [("factor", .num f), ("max_single_factor", .num m)]
  | .shift s => .ok [("shift", .num s)]
  | .apply fncs => do
      let d ← fncs.mapM (describeStep env.describe)
      return [("fncs", .dict d)]

/-- /repo/resistics/common.py:832-847 `parameters`: the name and the fields, read again from JSON. -/
def TimeObj.parameters (env : RecEnv) (o : TimeObj) : Except Err (List (String × PVal)) := do
  let fs ← o.params.toJson env
  return ("name", .str o.name) :: fs

/-! ## Running with records -/

/-- Time data with the records of its history. -/
structure Recorded where
  data : TimeData ℚ
  records : List Record

/-- `process.run(time_data)`: the data are computed first, then the record is made (/repo/resistics/common.py:849-863) and
added (/repo/resistics/time.py:1218-1219). -/
def TimeObj.run (env : RecEnv) (now : Clock) (o : TimeObj) (r : Recorded) : Except Err Recorded := do
  let p ← o.params.toProc env
  let out ← p.run env.sp r.data
  let creator ← o.parameters env
  return ⟨out, getHistory (getRecord now creator (.many (env.messages p r.data))) (some r.records)⟩

/-- One processor after another, each with what the clocks show when it runs. -/
def runObjs (env : RecEnv) (os : List (Clock × TimeObj)) (r : Recorded) : Except Err Recorded :=
  os.foldlM (fun r o => o.2.run env o.1 r) r

/-! ## Rebuilding processors -/

/-- pydantic's check of a `float`.  Simplification: texts that are numbers are refused. -/
def checkFloat : PVal → Except Err PVal
  | .num q => .ok (.num q)
  | .bool b => .ok (.num (if b then 1 else 0))
  | _ => .error .value

/-- pydantic's check of an `Optional[float]`. -/
def checkOptFloat : PVal → Except Err PVal
  | .null => .ok .null
  | v => checkFloat v

/-- The whole part of a number, as `int` cuts it. -/
def wholePart (q : ℚ) : ℤ := if 0 ≤ q then ⌊q⌋ else ⌈q⌉

/-- pydantic's check of an `int`: fractions are cut off.  Simplification as in `checkFloat`. -/
def checkInt : PVal → Except Err PVal
  | .num q => .ok (.num (wholePart q))
  | .bool b => .ok (.num (if b then 1 else 0))
  | _ => .error .value

/-- A number that must be at least `k` (`conint(ge=k)`, /repo/resistics/time.py:2029-2030). -/
def atLeast (k : ℚ) : PVal → Except Err PVal
  | .num q => if k ≤ q then .ok (.num q) else .error .value
  | _ => .error .value

/-- `conint(ge=k)`. -/
def checkIntGe (k : ℚ) (v : PVal) : Except Err PVal := checkInt v >>= atLeast k

/-- A number that must be positive (`PositiveFloat`, /repo/resistics/time.py:2208). -/
def positive : PVal → Except Err PVal
  | .num q => if 0 < q then .ok (.num q) else .error .value
  | _ => .error .value

/-- `PositiveFloat`. -/
def checkPositive (v : PVal) : Except Err PVal := checkFloat v >>= positive

/-- pydantic's check of a `DateTimeLike` read from JSON, where it is a text.  Simplification: numbers, which pydantic would turn
into texts, are refused. -/
def checkTimeText : PVal → Except Err PVal
  | .str s => .ok (.str s)
  | _ => .error .value

/-- An entry of a `Dict[str, float]`. -/
def checkFloatEntry (q : String × PVal) : Except Err (String × PVal) :=
  match checkFloat q.2 with
  | .ok v => .ok (q.1, v)
  | .error e => .error e

/-- pydantic's check of a `Union[float, Dict[str, float]]`. -/
def checkPerChan : PVal → Except Err PVal
  | .dict d => (d.mapM checkFloatEntry).map .dict
  | v => checkFloat v

/-- pydantic's check of a `Dict[str, Callable]` read from JSON: no JSON value is callable. -/
def checkCallables : PVal → Except Err PVal
  | .dict [] => .ok (.dict [])
  | _ => .error .value

/-- The time processors as registered classes: their fields with types and defaults, in the order of
/repo/resistics/time.py:1231-2330. -/
def timeClasses : List ProcClass :=
  [⟨"Subsection", [⟨"from_time", .plain checkTimeText, none⟩, ⟨"to_time", .plain checkTimeText, none⟩]⟩,
   ⟨"InterpolateNans", []⟩,
   ⟨"RemoveMean", []⟩,
   ⟨"Add", [⟨"add", .plain checkPerChan, none⟩]⟩,
   ⟨"Multiply", [⟨"multiplier", .plain checkPerChan, none⟩]⟩,
   ⟨"LowPass", [⟨"cutoff", .plain checkFloat, none⟩, ⟨"order", .plain checkInt, some (.num 10)⟩]⟩,
   ⟨"HighPass", [⟨"cutoff", .plain checkFloat, none⟩, ⟨"order", .plain checkInt, some (.num 10)⟩]⟩,
   ⟨"BandPass", [⟨"cutoff_low", .plain checkFloat, none⟩, ⟨"cutoff_high", .plain checkFloat, none⟩,
      ⟨"order", .plain checkInt, some (.num 10)⟩]⟩,
   ⟨"Notch", [⟨"notch", .plain checkFloat, none⟩, ⟨"band", .plain checkOptFloat, some .null⟩,
      ⟨"order", .plain checkInt, some (.num 10)⟩]⟩,
   ⟨"Resample", [⟨"new_fs", .plain checkFloat, none⟩]⟩,
   ⟨"Decimate", [⟨"factor", .plain (checkIntGe 1), none⟩, ⟨"max_single_factor", .plain (checkIntGe 2), some (.num 3)⟩]⟩,
   ⟨"ShiftTimestamps", [⟨"shift", .plain checkPositive, none⟩]⟩,
   ⟨"ApplyFunction", [⟨"fncs", .plain checkCallables, none⟩]⟩]

/-- The value of a field that is a number. -/
def numField (fs : List (String × PVal)) (k : String) : Option ℚ :=
  match fs.lookup k with
  | some (.num q) => some q
  | _ => none

/-- The value of a field that is a whole number. -/
def natField (fs : List (String × PVal)) (k : String) : Option ℕ := (numField fs k).map fun q => ⌊q⌋.toNat

/-- The value of a field that is a number or missing. -/
def optField (fs : List (String × PVal)) (k : String) : Option (Option ℚ) :=
  match fs.lookup k with
  | some (.num q) => some (some q)
  | some .null => some none
  | _ => none

/-- The value of a field that is a text. -/
def textField (fs : List (String × PVal)) (k : String) : Option String :=
  match fs.lookup k with
  | some (.str s) => some s
  | _ => none

/-- An entry of a dictionary of numbers. -/
def numEntry (q : String × PVal) : Option (String × ℚ) :=
  match q.2 with
  | .num x => some (q.1, x)
  | _ => none

/-- The value of a field that is a number or a dictionary of numbers. -/
def perChanField (fs : List (String × PVal)) (k : String) : Option PerChan :=
  match fs.lookup k with
  | some (.num q) => some (.scalar q)
  | some (.dict d) => (d.mapM numEntry).map .dict
  | _ => none

/-- The object with the given class and fields. -/
def timeParamsOf (className : String) (fs : List (String × PVal)) : Option TimeParams :=
  match className with
  | "Subsection" => do return .subsection (.text (← textField fs "from_time")) (.text (← textField fs "to_time"))
  | "InterpolateNans" => some .interpolateNans
  | "RemoveMean" => some .removeMean
  | "Add" => (perChanField fs "add").map .add
  | "Multiply" => (perChanField fs "multiplier").map .multiply
  | "LowPass" => do return .lowPass (← numField fs "cutoff") (← natField fs "order")
  | "HighPass" => do return .highPass (← numField fs "cutoff") (← natField fs "order")
  | "BandPass" => do
      return .bandPass (← numField fs "cutoff_low") (← numField fs "cutoff_high") (← natField fs "order")
  | "Notch" => do return .notch (← numField fs "notch") (← optField fs "band") (← natField fs "order")
  | "Resample" => (numField fs "new_fs").map .resample
  | "Decimate" => do return .decimate (← natField fs "factor") (← natField fs "max_single_factor")
  | "ShiftTimestamps" => (numField fs "shift").map .shift
  | "ApplyFunction" => some (.apply [])
  | _ => none

/-- The time processor that a validated object is. -/
def asTimeObj (classes : List ProcClass) : PVal → Except Err TimeObj
  | .proc cls fs => match classes[cls]? with
    | none => .error .other
    | some c => match timeParamsOf c.className fs with
      | none => .error .other
      | some p => .ok ⟨c.className, p⟩
  | _ => .error .other

/-- `ResisticsProcess.validate(creator)` (/repo/resistics/common.py:810-823) for the creator of a record of a time processor. -/
def rebuild (classes : List ProcClass) (types : List (String × ℕ)) (creator : List (String × PVal)) : Except Err TimeObj :=
  validateProcess classes types (.dict creator) >>= asTimeObj classes

/-- What is left of a record whose creator was validated: the name is removed from the dictionary itself
(/repo/resistics/common.py:819). -/
def Record.used (r : Record) : Record := { r with creator := r.creator.filter fun q => q.1 ≠ "name" }

/-- Run again what a record says. -/
def replayStep (env : RecEnv) (classes : List ProcClass) (types : List (String × ℕ)) (r : Recorded) (s : Clock × Record) :
    Except Err Recorded := do
  let o ← rebuild classes types s.2.creator
  o.run env s.1 r

/-- Run again what a history says: each process is rebuilt from its record and run on the result of the one before. -/
def replay (env : RecEnv) (classes : List ProcClass) (types : List (String × ℕ)) (h : List (Clock × Record)) (r : Recorded) :
    Except Err Recorded := h.foldlM (replayStep env classes types) r

/-! ## Records in files -/

/-- A record in JSON (/repo/resistics/common.py:455-493). -/
def Record.toJson (r : Record) : PVal :=
  .dict [("time_local", .str (isoText r.timeLocal)), ("time_utc", .str (isoText r.timeUtc)), ("creator", .dict r.creator),
    ("messages", .list (r.messages.map .str)), ("record_type", .str r.recordType)]

/-- A text of a JSON list.  Simplification as in `checkTimeText`. -/
def jsonText : PVal → Except Err String
  | .str s => .ok s
  | _ => .error .value

/-- A list of texts. -/
def jsonTexts : PVal → Except Err (List String)
  | .list l => l.mapM jsonText
  | _ => .error .value

/-- A dictionary. -/
def jsonDict : PVal → Except Err (List (String × PVal))
  | .dict d => .ok d
  | _ => .error .value

/-- A required field. -/
def jsonField (d : List (String × PVal)) (k : String) : Except Err PVal :=
  match d.lookup k with
  | some v => .ok v
  | none => .error .value

/-- A time that may be missing: then it is that of the clock (/repo/resistics/common.py:484-487). -/
def jsonTime (readIso : String → Except Err Timestamp) (d : List (String × PVal)) (k : String) (now : Timestamp) :
    Except Err Timestamp :=
  match d.lookup k with
  | some (.str s) => readIso s
  | some _ => .error .value
  | none => .ok now

/-- `Record(**record)` for a record read from a file; `readIso` is pydantic's parser of date times. -/
def recordOfJson (readIso : String → Except Err Timestamp) (now : Clock) (v : PVal) : Except Err Record := do
  let d ← jsonDict v
  let tl ← jsonTime readIso d "time_local" now.localNow
  let tu ← jsonTime readIso d "time_utc" now.utcNow
  let c ← jsonField d "creator"
  let c ← jsonDict c
  let m ← jsonField d "messages"
  let m ← jsonTexts m
  let t ← jsonField d "record_type"
  let t ← jsonText t
  return ⟨tl, tu, c, m, t⟩

end Resistics
