import Verif.Model.Json
import Verif.Model.Records
import Verif.Model.Channels
import Verif.Model.TransFunc

/-!
# Model of the metadata files: the classes with all their fields, their JSON and their validation

`write` (/repo/resistics/common.py:441-452) writes `self.json()`: the fields in the order of their declaration, those of parent classes
first.  `parse_file` reads JSON and validates it with pydantic 1: fields are validated in the same order; validation errors are collected
and raised together as a `ValidationError`, which is a `ValueError`; an exception of another kind (a `KeyError` in a validator) is
raised at once.  Missing fields get their defaults, unknown ones are ignored.

A file that was written has the declared types.  What pydantic does with values of other types (numbers in texts, texts in numbers, …)
is left to a parameter.
-/

namespace Resistics.Doc

/-- What is not modelled: how pydantic makes a value of the declared type from one of another type (`str`, `bool`, `int`, `float`,
`native` for date times from numbers and other texts, `pairs` for `dict(v)` of lists and texts), the parser of `pd.Timestamp`, `str(Path(s))`; and what is outside the file: the clocks,
the version of the package and the transfer functions that are registered. -/
structure Reading where
  str : Json → Except Err String
  bool : Json → Except Err Bool
  int : Json → Except Err ℤ
  float : Json → Except Err PyNum
  native : Json → Except Err Timestamp
  pairs : Json → Except Err (List (String × Json))
  pandas : String → Except Err Timestamp
  path : String → String
  now : Clock
  version : String
  tfTypes : List (String × TfClass)

/-! ## Validation -/

/-- Collects errors: an exception that is no validation error is raised at once. -/
def alsoCheck {α β : Type} : Except Err (α → β) → Except Err α → Except Err β
  | .ok f, .ok a => .ok (f a)
  | .ok _, .error e => .error e
  | .error e, x =>
      if e = .value then
        match x with
        | .ok _ => .error .value
        | .error e' => .error e'
      else .error e

@[inherit_doc] infixl:60 " ⊛ " => alsoCheck

/-- A field without a default. -/
def required {α : Type} (d : List (String × Json)) (key : String) (read : Json → Except Err α) : Except Err α :=
  match d.lookup key with
  | none => .error .value
  | some v => read v

/-- A field with a default, which is not validated. -/
def withDefault {α : Type} (d : List (String × Json)) (key : String) (default : α) (read : Json → Except Err α) : Except Err α :=
  match d.lookup key with
  | none => .ok default
  | some v => read v

/-- `Optional[...]`. -/
def orNull {α : Type} (read : Json → Except Err α) : Json → Except Err (Option α)
  | .null => .ok none
  | v => (read v).map some

/-- `str` -/
def readStr (env : Reading) : Json → Except Err String
  | .str s => .ok s
  | .num n => env.str (.num n)
  | .bool b => env.str (.bool b)
  | _ => .error .value

/-- `bool` -/
def readBool (env : Reading) : Json → Except Err Bool
  | .bool b => .ok b
  | .num n => env.bool (.num n)
  | .str s => env.bool (.str s)
  | _ => .error .value

/-- `int`: floats are cut (`int(v)`); infinity is an `OverflowError`. -/
def readInt (env : Reading) : Json → Except Err ℤ
  | .num (.int n) => .ok n
  | .num (.float q) => .ok (q.num.tdiv q.den)
  | .num (.inf _) => .error .other
  | .num .nan => .error .value
  | .str s => env.int (.str s)
  | .bool b => env.int (.bool b)
  | _ => .error .value

/-- `float(n)` of a whole number: too large ones are an `OverflowError`. -/
def floatOfInt (n : ℤ) : Except Err PyNum :=
  match toDouble n with
  | .float q => .ok (.float q)
  | _ => .error .other

/-- `float` -/
def readFloat (env : Reading) : Json → Except Err PyNum
  | .num (.int n) => floatOfInt n
  | .num x => .ok x
  | .str s => env.float (.str s)
  | .bool b => env.float (.bool b)
  | _ => .error .value

/-- `PositiveInt` -/
def positive (n : ℤ) : Except Err ℤ := if 0 < n then .ok n else .error .value

/-- `PositiveInt` -/
def readPositive (env : Reading) (v : Json) : Except Err ℤ := readInt env v >>= positive

/-- All items of a list. -/
def readAll {α : Type} (read : Json → Except Err α) : List Json → Except Err (List α)
  | [] => .ok []
  | v :: l => .ok List.cons ⊛ read v ⊛ readAll read l

/-- `List[...]` -/
def readList {α : Type} (read : Json → Except Err α) : Json → Except Err (List α)
  | .list l => readAll read l
  | _ => .error .value

/-- One entry of a dictionary. -/
def entry {α : Type} (k : String) (a : α) (d : List (String × α)) : List (String × α) := (k, a) :: d

/-- All entries of a dictionary. -/
def readEntries {α : Type} (read : Json → Except Err α) : List (String × Json) → Except Err (List (String × α))
  | [] => .ok []
  | (k, v) :: d => .ok (entry k) ⊛ read v ⊛ readEntries read d

/-- `dict` -/
def readPairs (env : Reading) : Json → Except Err (List (String × Json))
  | .dict d => .ok d
  | .list l => env.pairs (.list l)
  | .str s => env.pairs (.str s)
  | _ => .error .value

/-- `Dict[str, ...]` -/
def readDict {α : Type} (env : Reading) (read : Json → Except Err α) (v : Json) : Except Err (List (String × α)) :=
  readPairs env v >>= readEntries read

/-- A field whose type is a pydantic class, and `parse_obj`. -/
def readModel {α : Type} (env : Reading) (fields : List (String × Json) → Except Err α) (v : Json) : Except Err α :=
  readPairs env v >>= fields

/-- `HighResDateTime` (/repo/resistics/sampling.py:39-46): everything but text is a `TypeError`, which pydantic collects. -/
def readTime (env : Reading) : Json → Except Err CalTime
  | .str s => toDatetime env.pandas (.text s)
  | _ => .error .value

/-- `HighResDateTime` in JSON (/repo/resistics/common.py:410-413). -/
def timeJson (t : CalTime) : Json := .str (datetimeToString t)

/-- The microseconds of an ISO text. -/
def readMicros : List Char → Option ℕ
  | [] => some 0
  | c :: cs => if c = '.' then (readNumber 6 0 cs).bind fun p => if p.2 = [] then some p.1 else none else none

/-- The text `datetime.isoformat()` writes, read by `pydantic.datetime_parse.parse_datetime`. -/
def readIsoNative (cs : List Char) : Option Timestamp := do
  let (year, cs) ← readNumber 4 0 cs
  let (month, cs) ← readField '-' 2 cs
  let (day, cs) ← readField '-' 2 cs
  let (hour, cs) ← readField 'T' 2 cs
  let (minute, cs) ← readField ':' 2 cs
  let (second, cs) ← readField ':' 2 cs
  let micro ← readMicros cs
  return { year, month, day, hour, minute, second, microsecond := micro, nanosecond := 0 }

/-- `datetime(...)`: there must be such a day and time. -/
def checkedNative (t : Timestamp) : Except Err Timestamp := (ofTimestamp t).map fun _ => t

/-- `datetime` -/
def readNative (env : Reading) : Json → Except Err Timestamp
  | .str s =>
      match readIsoNative s.toList with
      | some t => checkedNative t
      | none => env.native (.str s)
  | .num n => env.native (.num n)
  | .bool b => env.native (.bool b)
  | _ => .error .value

/-- `datetime` in JSON. -/
def nativeJson (t : Timestamp) : Json := .str (isoText t)

/-- `Optional[str]` in JSON. -/
def optStr : Option String → Json
  | none => .null
  | some s => .str s

/-- `List[str]` in JSON. -/
def strList (l : List String) : Json := .list (l.map .str)

/-- `Optional[List[str]]` in JSON. -/
def optStrList : Option (List String) → Json
  | none => .null
  | some l => strList l

/-- `List[float]` in JSON. -/
def numList (l : List PyNum) : Json := .list (l.map .num)

/-! ## Information about the file -/

/-- /repo/resistics/common.py:416-421 `ResisticsFile`. -/
structure FileInfo where
  createdLocal : Timestamp
  createdUtc : Timestamp
  version : Option String

/-- `ResisticsFile()` -/
def newFileInfo (env : Reading) : FileInfo := ⟨env.now.localNow, env.now.utcNow, some env.version⟩

/-- The fields of `ResisticsFile` in JSON. -/
def FileInfo.toJson (f : FileInfo) : Json :=
  .dict [("created_on_local", nativeJson f.createdLocal), ("created_on_utc", nativeJson f.createdUtc), ("version", optStr f.version)]

/-- Validation of `ResisticsFile`. -/
def FileInfo.read (env : Reading) (d : List (String × Json)) : Except Err FileInfo :=
  .ok FileInfo.mk
    ⊛ withDefault d "created_on_local" env.now.localNow (readNative env)
    ⊛ withDefault d "created_on_utc" env.now.utcNow (readNative env)
    ⊛ withDefault d "version" (some env.version) (orNull (readStr env))

/-- The field `file_info` (/repo/resistics/common.py:438) in JSON. -/
def fileInfoJson : Option FileInfo → Json
  | none => .null
  | some f => f.toJson

/-- The field `file_info`. -/
def readFileInfo (env : Reading) (d : List (String × Json)) : Except Err (Option FileInfo) :=
  withDefault d "file_info" none (orNull (readModel env (FileInfo.read env)))

/-! ## History -/

/-- /repo/resistics/common.py:455-493 `Record`; the creator is any JSON (`Dict[str, Any]`). -/
structure RecordDoc where
  timeLocal : Timestamp
  timeUtc : Timestamp
  creator : List (String × Json)
  messages : List String
  recordType : String

/-- The fields of `Record` in JSON. -/
def RecordDoc.toJson (r : RecordDoc) : Json :=
  .dict [("time_local", nativeJson r.timeLocal), ("time_utc", nativeJson r.timeUtc), ("creator", .dict r.creator),
    ("messages", strList r.messages), ("record_type", .str r.recordType)]

/-- Validation of `Record`. -/
def RecordDoc.read (env : Reading) (d : List (String × Json)) : Except Err RecordDoc :=
  .ok RecordDoc.mk
    ⊛ withDefault d "time_local" env.now.localNow (readNative env)
    ⊛ withDefault d "time_utc" env.now.utcNow (readNative env)
    ⊛ required d "creator" (readPairs env)
    ⊛ required d "messages" (readList (readStr env))
    ⊛ required d "record_type" (readStr env)

/-- /repo/resistics/common.py:496-540 `History`: its records. -/
abbrev HistoryDoc := List RecordDoc

/-- `History` in JSON. -/
def historyJson (h : HistoryDoc) : Json := .dict [("records", .list (h.map RecordDoc.toJson))]

/-- Validation of `History`. -/
def readHistory (env : Reading) (d : List (String × Json)) : Except Err HistoryDoc :=
  withDefault d "records" [] (readList (readModel env (RecordDoc.read env)))

/-! ## Channels -/

/-- /repo/resistics/time.py:27-60 `ChanMetadata`. -/
structure ChanDoc where
  name : String
  dataFiles : Option (List String)
  chanType : String
  chanSource : Option String
  sensor : String
  serial : String
  gain1 : PyNum
  gain2 : PyNum
  scaling : PyNum
  chopper : Bool
  dipoleDist : PyNum
  sensorCalibrationFile : String
  instrumentCalibrationFile : String

/-- The fields of `ChanMetadata` in JSON. -/
def ChanDoc.toJson (c : ChanDoc) : Json :=
  .dict [("name", .str c.name), ("data_files", optStrList c.dataFiles), ("chan_type", .str c.chanType),
    ("chan_source", optStr c.chanSource), ("sensor", .str c.sensor), ("serial", .str c.serial), ("gain1", .num c.gain1),
    ("gain2", .num c.gain2), ("scaling", .num c.scaling), ("chopper", .bool c.chopper), ("dipole_dist", .num c.dipoleDist),
    ("sensor_calibration_file", .str c.sensorCalibrationFile), ("instrument_calibration_file", .str c.instrumentCalibrationFile)]

/-- /repo/resistics/time.py:62-67 `validate_data_files`, before validation: one text is a list of one. -/
def readDataFiles (env : Reading) : Json → Except Err (Option (List String))
  | .str s => .ok (some [s])
  | v => orNull (readList (readStr env)) v

/-- /repo/resistics/time.py:69-77 `validate_chan_type`; a name that is not valid is missing from `values`. -/
def chanTypeOf (name : Except Err String) : Option String → Except Err String
  | some t => .ok t
  | none =>
      match name with
      | .ok n => getChanType n
      | .error _ => .error .key

/-- Validation of `ChanMetadata`. -/
def ChanDoc.read (env : Reading) (d : List (String × Json)) : Except Err ChanDoc :=
  let name := required d "name" (readStr env)
  .ok ChanDoc.mk
    ⊛ name
    ⊛ withDefault d "data_files" none (readDataFiles env)
    ⊛ (withDefault d "chan_type" none (orNull (readStr env)) >>= chanTypeOf name)
    ⊛ withDefault d "chan_source" none (orNull (readStr env))
    ⊛ withDefault d "sensor" "" (readStr env)
    ⊛ withDefault d "serial" "" (readStr env)
    ⊛ withDefault d "gain1" (.int 1) (readFloat env)
    ⊛ withDefault d "gain2" (.int 1) (readFloat env)
    ⊛ withDefault d "scaling" (.int 1) (readFloat env)
    ⊛ withDefault d "chopper" false (readBool env)
    ⊛ withDefault d "dipole_dist" (.int 1) (readFloat env)
    ⊛ withDefault d "sensor_calibration_file" "" (readStr env)
    ⊛ withDefault d "instrument_calibration_file" "" (readStr env)

/-- `Dict[str, ChanMetadata]` in JSON. -/
def chansJson (cs : List (String × ChanDoc)) : Json := .dict (cs.map fun q => (q.1, q.2.toJson))

/-- `Dict[str, ChanMetadata]` -/
def readChans (env : Reading) : Json → Except Err (List (String × ChanDoc)) := readDict env (readModel env (ChanDoc.read env))

/-- /repo/resistics/common.py:427-432 `validate_n_chans`; channels that are not valid are missing from `values`. -/
def nChansOf (chans : Except Err (List String)) : Option ℤ → Except Err ℤ
  | some n => .ok n
  | none =>
      match chans with
      | .ok l => .ok l.length
      | .error _ => .error .key

/-- The field `n_chans`. -/
def readNChans (env : Reading) (d : List (String × Json)) (chans : Except Err (List String)) : Except Err ℤ :=
  withDefault d "n_chans" none (orNull (readInt env)) >>= nChansOf chans

/-! ## Where it was recorded -/

/-- The fields `system` to `elevation`, which the metadata of all data have. -/
structure SiteDoc where
  system : String
  serial : String
  latitude : PyNum
  longitude : PyNum
  easting : PyNum
  northing : PyNum
  elevation : PyNum

/-- /repo/resistics/time.py:103-116, decimate.py:525-531, window.py:1032-1038, spectra.py:58-64, gather.py:437-450. -/
def SiteDoc.pairs (s : SiteDoc) : List (String × Json) :=
  [("system", .str s.system), ("serial", .str s.serial), ("wgs84_latitude", .num s.latitude), ("wgs84_longitude", .num s.longitude),
    ("easting", .num s.easting), ("northing", .num s.northing), ("elevation", .num s.elevation)]

/-- Validation of these fields; unknown places are -999. -/
def SiteDoc.read (env : Reading) (d : List (String × Json)) : Except Err SiteDoc :=
  .ok SiteDoc.mk
    ⊛ withDefault d "system" "" (readStr env)
    ⊛ withDefault d "serial" "" (readStr env)
    ⊛ withDefault d "wgs84_latitude" (.float (-999)) (readFloat env)
    ⊛ withDefault d "wgs84_longitude" (.float (-999)) (readFloat env)
    ⊛ withDefault d "easting" (.float (-999)) (readFloat env)
    ⊛ withDefault d "northing" (.float (-999)) (readFloat env)
    ⊛ withDefault d "elevation" (.float (-999)) (readFloat env)

/-! ## Recordings -/

/-- /repo/resistics/time.py:88-126 `TimeMetadata`. -/
structure TimeDoc where
  fileInfo : Option FileInfo
  fs : PyNum
  chans : List String
  nChans : ℤ
  nSamples : ℤ
  firstTime : CalTime
  lastTime : CalTime
  site : SiteDoc
  chansMeta : List (String × ChanDoc)
  history : HistoryDoc

/-- The fields of `TimeMetadata` in JSON. -/
def TimeDoc.toJson (m : TimeDoc) : Json :=
  .dict ([("file_info", fileInfoJson m.fileInfo), ("fs", .num m.fs), ("chans", strList m.chans), ("n_chans", .num (.int m.nChans)),
    ("n_samples", .num (.int m.nSamples)), ("first_time", timeJson m.firstTime), ("last_time", timeJson m.lastTime)] ++
    (m.site.pairs ++ [("chans_metadata", chansJson m.chansMeta), ("history", historyJson m.history)]))

/-- Validation of `TimeMetadata`. -/
def TimeDoc.read (env : Reading) (d : List (String × Json)) : Except Err TimeDoc :=
  let chans := required d "chans" (readList (readStr env))
  .ok TimeDoc.mk
    ⊛ readFileInfo env d
    ⊛ required d "fs" (readFloat env)
    ⊛ chans
    ⊛ readNChans env d chans
    ⊛ required d "n_samples" (readInt env)
    ⊛ required d "first_time" (readTime env)
    ⊛ required d "last_time" (readTime env)
    ⊛ SiteDoc.read env d
    ⊛ required d "chans_metadata" (readChans env)
    ⊛ withDefault d "history" [] (readModel env (readHistory env))

/-! ## Data in levels -/

/-- /repo/resistics/decimate.py:498-512 `DecimatedLevelMetadata`. -/
structure DecLevelDoc where
  fs : PyNum
  nSamples : ℤ
  firstTime : CalTime
  lastTime : CalTime

/-- The fields of `DecimatedLevelMetadata` in JSON. -/
def DecLevelDoc.toJson (l : DecLevelDoc) : Json :=
  .dict [("fs", .num l.fs), ("n_samples", .num (.int l.nSamples)), ("first_time", timeJson l.firstTime),
    ("last_time", timeJson l.lastTime)]

/-- Validation of `DecimatedLevelMetadata`. -/
def DecLevelDoc.read (env : Reading) (d : List (String × Json)) : Except Err DecLevelDoc :=
  .ok DecLevelDoc.mk
    ⊛ required d "fs" (readFloat env)
    ⊛ required d "n_samples" (readInt env)
    ⊛ required d "first_time" (readTime env)
    ⊛ required d "last_time" (readTime env)

/-- /repo/resistics/window.py:1004-1020 `WindowedLevelMetadata`. -/
structure WinLevelDoc where
  fs : PyNum
  nWins : ℤ
  winSize : ℤ
  olapSize : ℤ
  indexOffset : ℤ

/-- The fields of `WindowedLevelMetadata` in JSON. -/
def WinLevelDoc.pairs (l : WinLevelDoc) : List (String × Json) :=
  [("fs", .num l.fs), ("n_wins", .num (.int l.nWins)), ("win_size", .num (.int l.winSize)), ("olap_size", .num (.int l.olapSize)),
    ("index_offset", .num (.int l.indexOffset))]

/-- See `WinLevelDoc.pairs`. -/
def WinLevelDoc.toJson (l : WinLevelDoc) : Json := .dict l.pairs

/-- Validation of `WindowedLevelMetadata`. -/
def WinLevelDoc.read (env : Reading) (d : List (String × Json)) : Except Err WinLevelDoc :=
  .ok WinLevelDoc.mk
    ⊛ required d "fs" (readFloat env)
    ⊛ required d "n_wins" (readInt env)
    ⊛ required d "win_size" (readPositive env)
    ⊛ required d "olap_size" (readPositive env)
    ⊛ required d "index_offset" (readInt env)

/-- /repo/resistics/spectra.py:26-47 `SpectraLevelMetadata`: the fields of a windowed level and two more. -/
structure SpecLevelDoc where
  win : WinLevelDoc
  nFreqs : ℤ
  freqs : List PyNum

/-- The fields of `SpectraLevelMetadata` in JSON. -/
def SpecLevelDoc.toJson (l : SpecLevelDoc) : Json :=
  .dict (l.win.pairs ++ [("n_freqs", .num (.int l.nFreqs)), ("freqs", numList l.freqs)])

/-- Validation of `SpectraLevelMetadata`. -/
def SpecLevelDoc.read (env : Reading) (d : List (String × Json)) : Except Err SpecLevelDoc :=
  .ok SpecLevelDoc.mk
    ⊛ WinLevelDoc.read env d
    ⊛ required d "n_freqs" (readInt env)
    ⊛ required d "freqs" (readList (readFloat env))

/-- The fields that `DecimatedMetadata`, `WindowedMetadata` and `SpectraMetadata` share, with levels of type `L`:
/repo/resistics/decimate.py:515-540, window.py:1023-1050, spectra.py:50-76. -/
structure LevelsDoc (L : Type) where
  fileInfo : Option FileInfo
  fs : List PyNum
  chans : List String
  nChans : ℤ
  nLevels : ℤ
  firstTime : CalTime
  lastTime : CalTime
  site : SiteDoc
  chansMeta : List (String × ChanDoc)
  levels : List L

/-- These fields in JSON. -/
def LevelsDoc.pairs {L : Type} (level : L → Json) (m : LevelsDoc L) : List (String × Json) :=
  [("file_info", fileInfoJson m.fileInfo), ("fs", numList m.fs), ("chans", strList m.chans), ("n_chans", .num (.int m.nChans)),
    ("n_levels", .num (.int m.nLevels)), ("first_time", timeJson m.firstTime), ("last_time", timeJson m.lastTime)] ++
    (m.site.pairs ++ [("chans_metadata", chansJson m.chansMeta), ("levels_metadata", .list (m.levels.map level))])

/-- Validation of these fields. -/
def LevelsDoc.read {L : Type} (env : Reading) (level : List (String × Json) → Except Err L) (d : List (String × Json)) :
    Except Err (LevelsDoc L) :=
  let chans := required d "chans" (readList (readStr env))
  .ok LevelsDoc.mk
    ⊛ readFileInfo env d
    ⊛ required d "fs" (readList (readFloat env))
    ⊛ chans
    ⊛ readNChans env d chans
    ⊛ required d "n_levels" (readInt env)
    ⊛ required d "first_time" (readTime env)
    ⊛ required d "last_time" (readTime env)
    ⊛ SiteDoc.read env d
    ⊛ required d "chans_metadata" (readChans env)
    ⊛ required d "levels_metadata" (readList (readModel env level))

/-- /repo/resistics/decimate.py:515-540 `DecimatedMetadata`. -/
structure DecDoc where
  main : LevelsDoc DecLevelDoc
  history : HistoryDoc

/-- The fields of `DecimatedMetadata` in JSON. -/
def DecDoc.toJson (m : DecDoc) : Json := .dict (m.main.pairs DecLevelDoc.toJson ++ [("history", historyJson m.history)])

/-- Validation of `DecimatedMetadata`. -/
def DecDoc.read (env : Reading) (d : List (String × Json)) : Except Err DecDoc :=
  .ok DecDoc.mk
    ⊛ LevelsDoc.read env (DecLevelDoc.read env) d
    ⊛ withDefault d "history" [] (readModel env (readHistory env))

/-- /repo/resistics/window.py:1023-1050 `WindowedMetadata`. -/
structure WinDoc where
  main : LevelsDoc WinLevelDoc
  refTime : CalTime
  history : HistoryDoc

/-- The fields of `WindowedMetadata` in JSON. -/
def WinDoc.toJson (m : WinDoc) : Json :=
  .dict (m.main.pairs WinLevelDoc.toJson ++ [("ref_time", timeJson m.refTime), ("history", historyJson m.history)])

/-- Validation of `WindowedMetadata`. -/
def WinDoc.read (env : Reading) (d : List (String × Json)) : Except Err WinDoc :=
  .ok WinDoc.mk
    ⊛ LevelsDoc.read env (WinLevelDoc.read env) d
    ⊛ required d "ref_time" (readTime env)
    ⊛ withDefault d "history" [] (readModel env (readHistory env))

/-- /repo/resistics/spectra.py:50-76 `SpectraMetadata`. -/
structure SpecDoc where
  main : LevelsDoc SpecLevelDoc
  refTime : CalTime
  history : HistoryDoc

/-- The fields of `SpectraMetadata` in JSON. -/
def SpecDoc.toJson (m : SpecDoc) : Json :=
  .dict (m.main.pairs SpecLevelDoc.toJson ++ [("ref_time", timeJson m.refTime), ("history", historyJson m.history)])

/-- Validation of `SpectraMetadata`. -/
def SpecDoc.read (env : Reading) (d : List (String × Json)) : Except Err SpecDoc :=
  .ok SpecDoc.mk
    ⊛ LevelsDoc.read env (SpecLevelDoc.read env) d
    ⊛ required d "ref_time" (readTime env)
    ⊛ withDefault d "history" [] (readModel env (readHistory env))

/-! ## Calibration data and projects -/

/-- `Union[int, str]` -/
inductive Serial where
  | number (n : ℤ)
  | text (s : String)

/-- `Union[int, str]` in JSON. -/
def Serial.toJson : Serial → Json
  | .number n => .num (.int n)
  | .text s => .str s

/-- The second type of a union, tried after a validation error of the first one. -/
def orElse {α : Type} (first : Except Err α) (second : Except Err α) : Except Err α :=
  match first with
  | .ok a => .ok a
  | .error e => if e = .value then second else .error e

/-- `Union[int, str]`: a text that is a number becomes a number. -/
def readSerial (env : Reading) (v : Json) : Except Err Serial :=
  orElse ((readInt env v).map .number) ((readStr env v).map .text)

/-- /repo/resistics/calibrate.py:29-65 `CalibrationData`. -/
structure CalDoc where
  fileInfo : Option FileInfo
  filePath : Option String
  sensor : String
  serial : Serial
  staticGain : PyNum
  magnitudeUnit : String
  frequency : List PyNum
  magnitude : List PyNum
  phase : List PyNum
  nSamples : ℤ

/-- The fields of `CalibrationData` in JSON. -/
def CalDoc.toJson (m : CalDoc) : Json :=
  .dict [("file_info", fileInfoJson m.fileInfo), ("file_path", optStr m.filePath), ("sensor", .str m.sensor),
    ("serial", m.serial.toJson), ("static_gain", .num m.staticGain), ("magnitude_unit", .str m.magnitudeUnit),
    ("frequency", numList m.frequency), ("magnitude", numList m.magnitude), ("phase", numList m.phase),
    ("n_samples", .num (.int m.nSamples))]

/-- `Path`: text only (pydantic refuses numbers). -/
def readPath (env : Reading) : Json → Except Err String
  | .str s => .ok (env.path s)
  | _ => .error .value

/-- /repo/resistics/calibrate.py:60-65 `validate_n_samples`; frequencies that are not valid are missing from `values`. -/
def nSamplesOf (frequency : Except Err (List PyNum)) : Option ℤ → Except Err ℤ
  | some n => .ok n
  | none =>
      match frequency with
      | .ok l => .ok l.length
      | .error _ => .error .key

/-- Validation of `CalibrationData`. -/
def CalDoc.read (env : Reading) (d : List (String × Json)) : Except Err CalDoc :=
  let frequency := required d "frequency" (readList (readFloat env))
  .ok CalDoc.mk
    ⊛ readFileInfo env d
    ⊛ withDefault d "file_path" none (orNull (readPath env))
    ⊛ withDefault d "sensor" "" (readStr env)
    ⊛ required d "serial" (readSerial env)
    ⊛ withDefault d "static_gain" (.int 1) (readFloat env)
    ⊛ withDefault d "magnitude_unit" "mV/nT" (readStr env)
    ⊛ frequency
    ⊛ required d "magnitude" (readList (readFloat env))
    ⊛ required d "phase" (readList (readFloat env))
    ⊛ (withDefault d "n_samples" none (orNull (readInt env)) >>= nSamplesOf frequency)

/-- /repo/resistics/project.py:214-222 `ProjectMetadata`. -/
structure ProjectDoc where
  fileInfo : Option FileInfo
  refTime : CalTime
  location : String
  country : String
  year : ℤ
  description : String
  contributors : List String

/-- The fields of `ProjectMetadata` in JSON. -/
def ProjectDoc.toJson (m : ProjectDoc) : Json :=
  .dict [("file_info", fileInfoJson m.fileInfo), ("ref_time", timeJson m.refTime), ("location", .str m.location),
    ("country", .str m.country), ("year", .num (.int m.year)), ("description", .str m.description),
    ("contributors", strList m.contributors)]

/-- Validation of `ProjectMetadata`. -/
def ProjectDoc.read (env : Reading) (d : List (String × Json)) : Except Err ProjectDoc :=
  .ok ProjectDoc.mk
    ⊛ readFileInfo env d
    ⊛ required d "ref_time" (readTime env)
    ⊛ withDefault d "location" "" (readStr env)
    ⊛ withDefault d "country" "" (readStr env)
    ⊛ withDefault d "year" (-999) (readInt env)
    ⊛ withDefault d "description" "" (readStr env)
    ⊛ withDefault d "contributors" [] (readList (readStr env))

/-! ## Solutions -/

/-- /repo/resistics/gather.py:425-461 `SiteCombinedMetadata`. -/
structure CombinedDoc where
  fileInfo : Option FileInfo
  siteName : String
  fs : PyNum
  site : SiteDoc
  measurements : Option (List String)
  chans : List String
  nEvals : ℤ
  evalFreqs : List PyNum
  histories : List (String × HistoryDoc)

/-- The fields of `SiteCombinedMetadata` in JSON. -/
def CombinedDoc.toJson (m : CombinedDoc) : Json :=
  .dict ([("file_info", fileInfoJson m.fileInfo), ("site_name", .str m.siteName), ("fs", .num m.fs)] ++
    (m.site.pairs ++ [("measurements", optStrList m.measurements), ("chans", strList m.chans), ("n_evals", .num (.int m.nEvals)),
      ("eval_freqs", numList m.evalFreqs), ("histories", .dict (m.histories.map fun q => (q.1, historyJson q.2)))]))

/-- Validation of `SiteCombinedMetadata`. -/
def CombinedDoc.read (env : Reading) (d : List (String × Json)) : Except Err CombinedDoc :=
  .ok CombinedDoc.mk
    ⊛ readFileInfo env d
    ⊛ required d "site_name" (readStr env)
    ⊛ required d "fs" (readFloat env)
    ⊛ SiteDoc.read env d
    ⊛ withDefault d "measurements" none (orNull (readList (readStr env)))
    ⊛ required d "chans" (readList (readStr env))
    ⊛ required d "n_evals" (readInt env)
    ⊛ required d "eval_freqs" (readList (readFloat env))
    ⊛ required d "histories" (readDict env (readModel env (readHistory env)))

/-- `Union[SiteCombinedMetadata, SpectraMetadata]` (/repo/resistics/regression.py:657). -/
inductive Contributor where
  | combined (m : CombinedDoc)
  | spectra (m : SpecDoc)

/-- A contributor in JSON. -/
def Contributor.toJson : Contributor → Json
  | .combined m => m.toJson
  | .spectra m => m.toJson

/-- The types of the union are tried in their order. -/
def readContributor (env : Reading) (v : Json) : Except Err Contributor :=
  orElse ((readModel env (CombinedDoc.read env) v).map .combined) ((readModel env (SpecDoc.read env) v).map .spectra)

/-- /repo/resistics/transfunc.py:13-32 `Component`. -/
structure ComponentDoc where
  real : List PyNum
  imag : List PyNum

/-- The fields of `Component` in JSON. -/
def ComponentDoc.toJson (c : ComponentDoc) : Json := .dict [("real", numList c.real), ("imag", numList c.imag)]

/-- Validation of `Component`. -/
def ComponentDoc.read (env : Reading) (d : List (String × Json)) : Except Err ComponentDoc :=
  .ok ComponentDoc.mk ⊛ required d "real" (readList (readFloat env)) ⊛ required d "imag" (readList (readFloat env))

/-- The fields of `TransferFunction` (/repo/resistics/transfunc.py:114-129) in JSON. -/
def tfJson (tf : TransFunc) : Json :=
  .dict [("name", .str tf.name), ("variation", .str tf.variation), ("out_chans", strList tf.outChans), ("in_chans", strList tf.inChans),
    ("cross_chans", strList tf.crossChans), ("n_out", .num (.int tf.nOut)), ("n_in", .num (.int tf.nIn)),
    ("n_cross", .num (.int tf.nCross))]

/-- The arguments of the constructor of a transfer function, which are validated in `mkTransFunc`.  Simplification: for an argument of
another type the exception is a `ValueError`, also where a validator of another field raises a `KeyError` first. -/
def readTfArgs (env : Reading) (d : List (String × Json)) : Except Err TfArgs :=
  .ok (TfArgs.mk none)
    ⊛ withDefault d "variation" none (fun v => (readStr env v).map some)
    ⊛ withDefault d "out_chans" none (fun v => (readList (readStr env) v).map some)
    ⊛ withDefault d "in_chans" none (fun v => (readList (readStr env) v).map some)
    ⊛ withDefault d "cross_chans" none (orNull (readList (readStr env)))
    ⊛ withDefault d "n_out" none (orNull (readInt env))
    ⊛ withDefault d "n_in" none (orNull (readInt env))
    ⊛ withDefault d "n_cross" none (orNull (readInt env))

/-- The name of a transfer function: no class is registered under anything but a text. -/
def nameText : Option Json → Except Err (Option String)
  | none => .ok none
  | some (.str s) => .ok (some s)
  | some _ => .error .value

/-- /repo/resistics/transfunc.py:153-263 `TransferFunction.validate` of what was read from a file. -/
def readTf (env : Reading) : Json → Except Err TransFunc
  | .dict d => do
      let name ← nameText (d.lookup "name")
      let args ← readTfArgs env d
      tfValidate tfBase env.tfTypes (.dict name args)
  | _ => .error .value

/-- /repo/resistics/regression.py:611-658 `Solution`. -/
structure SolutionDoc where
  fileInfo : Option FileInfo
  tf : TransFunc
  freqs : List PyNum
  components : List (String × ComponentDoc)
  history : HistoryDoc
  contributors : List (String × Contributor)

/-- The fields of `Solution` in JSON. -/
def SolutionDoc.toJson (m : SolutionDoc) : Json :=
  .dict [("file_info", fileInfoJson m.fileInfo), ("tf", tfJson m.tf), ("freqs", numList m.freqs),
    ("components", .dict (m.components.map fun q => (q.1, q.2.toJson))), ("history", historyJson m.history),
    ("contributors", .dict (m.contributors.map fun q => (q.1, q.2.toJson)))]

/-- Validation of `Solution`. -/
def SolutionDoc.read (env : Reading) (d : List (String × Json)) : Except Err SolutionDoc :=
  .ok SolutionDoc.mk
    ⊛ readFileInfo env d
    ⊛ required d "tf" (readTf env)
    ⊛ required d "freqs" (readList (readFloat env))
    ⊛ required d "components" (readDict env (readModel env (ComponentDoc.read env)))
    ⊛ required d "history" (readModel env (readHistory env))
    ⊛ required d "contributors" (readDict env (readContributor env))

/-! ## Files -/

/-- The lines /repo/resistics/time.py:985-988 of `TimeReader.read_metadata`. -/
def orMetaRead {α : Type} : Except Err α → Except Err α
  | .error .key => .error .metaRead
  | x => x

/-- `parse_file`: JSON, then validation. -/
def parseFile {α : Type} (env : Reading) (fields : List (String × Json) → Except Err α) (text : List Char) : Except Err α :=
  loads text >>= readModel env fields

/-- /repo/resistics/common.py:441-452 `write`: the information about the file is new; then all fields are written. -/
def TimeDoc.write (env : Reading) (m : TimeDoc) : List Char := { m with fileInfo := some (newFileInfo env) }.toJson.text

/-- /repo/resistics/time.py:984-988: the metadata in a directory with time data. -/
def readTimeMetadata (env : Reading) (text : List Char) : Except Err TimeDoc := orMetaRead (parseFile env (TimeDoc.read env) text)

/-- See `TimeDoc.write`. -/
def LevelsDoc.stamped {L : Type} (env : Reading) (m : LevelsDoc L) : LevelsDoc L := { m with fileInfo := some (newFileInfo env) }

/-- See `TimeDoc.write`. -/
def DecDoc.write (env : Reading) (m : DecDoc) : List Char := { m with main := m.main.stamped env }.toJson.text

/-- See `TimeDoc.write`. -/
def WinDoc.write (env : Reading) (m : WinDoc) : List Char := { m with main := m.main.stamped env }.toJson.text

/-- See `TimeDoc.write`. -/
def SpecDoc.write (env : Reading) (m : SpecDoc) : List Char := { m with main := m.main.stamped env }.toJson.text

/-- See `TimeDoc.write`. -/
def CalDoc.write (env : Reading) (m : CalDoc) : List Char := { m with fileInfo := some (newFileInfo env) }.toJson.text

/-- See `TimeDoc.write`. -/
def ProjectDoc.write (env : Reading) (m : ProjectDoc) : List Char := { m with fileInfo := some (newFileInfo env) }.toJson.text

/-- See `TimeDoc.write`. -/
def SolutionDoc.write (env : Reading) (m : SolutionDoc) : List Char := { m with fileInfo := some (newFileInfo env) }.toJson.text

end Resistics.Doc
