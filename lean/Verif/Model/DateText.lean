import Verif.Model.Basic
import Mathlib.Data.Rat.Floor

/-!
# Model of the text form of date times in /repo/resistics/sampling.py

`RSDateTime` is the external class `attotime.attodatetime`: a calendar date, a time of day in microseconds and a decimal
number of nanoseconds.  `strftime` and `strptime` of that class are modelled for the one format the package uses.
-/

namespace Resistics

/-- An `RSDateTime` (/repo/resistics/sampling.py:16-49): the fields of `attodatetime`. -/
structure CalTime where
  year : ℕ
  month : ℕ
  day : ℕ
  hour : ℕ := 0
  minute : ℕ := 0
  second : ℕ := 0
  microsecond : ℕ := 0
  nanosecond : ℚ := 0
  deriving DecidableEq, Repr

/-- leap years of the Gregorian calendar (Python's `datetime`) -/
def isLeap (year : ℕ) : Bool := year % 4 = 0 ∧ (year % 100 ≠ 0 ∨ year % 400 = 0)

/-- days of a month (Python's `datetime`) -/
def daysInMonth (year month : ℕ) : ℕ :=
  if month = 2 then (if isLeap year then 29 else 28)
  else if month = 4 ∨ month = 6 ∨ month = 9 ∨ month = 11 then 30 else 31

/-- What the constructor of `attodatetime` accepts, as used at /repo/resistics/sampling.py:145-154 (nanoseconds of 1000 and
more would be carried over; the package never passes them). -/
def CalTime.valid (t : CalTime) : Bool :=
  1 ≤ t.year ∧ t.year ≤ 9999 ∧ 1 ≤ t.month ∧ t.month ≤ 12 ∧ 1 ≤ t.day ∧ t.day ≤ daysInMonth t.year t.month ∧
    t.hour < 24 ∧ t.minute < 60 ∧ t.second < 60 ∧ t.microsecond < 1000000 ∧ 0 ≤ t.nanosecond ∧ t.nanosecond < 1000

/-- the last `w` decimal digits of a number, with leading zeros -/
def padDigits : ℕ → ℕ → List Char
  | 0, _ => []
  | w + 1, n => padDigits w (n / 10) ++ [Nat.digitChar (n % 10)]

/-- `%o`, `%q` and `%v` of `attodatetime.strftime`: the digits 7 to 12, 13 to 18 and 19 to 24 of the second, each as a number
of six digits. -/
def CalTime.fraction (t : CalTime) (scale : ℕ) : ℕ := (⌊t.nanosecond * scale⌋).toNat % 1000000

/-- /repo/resistics/sampling.py:52-72, `datetime_to_string`: `time.strftime("%Y-%m-%d %H:%M:%S.%f_%o_%q_%v")`.  `%Y` writes
no leading zeros (glibc). -/
def datetimeToChars (t : CalTime) : List Char :=
  Nat.toDigits 10 t.year ++ '-' :: (padDigits 2 t.month ++ '-' :: (padDigits 2 t.day ++ ' ' :: (padDigits 2 t.hour ++
    ':' :: (padDigits 2 t.minute ++ ':' :: (padDigits 2 t.second ++ '.' :: (padDigits 6 t.microsecond ++
    '_' :: (padDigits 6 (t.fraction 1000) ++ '_' :: (padDigits 6 (t.fraction 1000000000) ++
    '_' :: padDigits 6 (t.fraction 1000000000000000)))))))))

def datetimeToString (t : CalTime) : String := String.ofList (datetimeToChars t)

/-- the value of a decimal digit -/
def digitValue (c : Char) : Option ℕ := if '0' ≤ c ∧ c ≤ '9' then some (c.toNat - '0'.toNat) else none

/-- read `w` decimal digits -/
def readNumber : ℕ → ℕ → List Char → Option (ℕ × List Char)
  | 0, acc, cs => some (acc, cs)
  | _ + 1, _, [] => none
  | w + 1, acc, c :: cs => (digitValue c).bind fun d => readNumber w (10 * acc + d) cs

/-- read one given character -/
def readChar (c : Char) : List Char → Option (List Char)
  | [] => none
  | d :: cs => if d = c then some cs else none

/-- read `w` digits after a given character -/
def readField (c : Char) (w : ℕ) (cs : List Char) : Option (ℕ × List Char) := (readChar c cs).bind (readNumber w 0)

/-- the fields of the fixed format.  Simplification: `strptime` also takes fewer digits in the fields other than the year;
`datetime_to_string` never writes such text. -/
def readFields (cs : List Char) : Option CalTime := do
  let (year, cs) ← readNumber 4 0 cs
  let (month, cs) ← readField '-' 2 cs
  let (day, cs) ← readField '-' 2 cs
  let (hour, cs) ← readField ' ' 2 cs
  let (minute, cs) ← readField ':' 2 cs
  let (second, cs) ← readField ':' 2 cs
  let (micro, cs) ← readField '.' 6 cs
  let (pico, cs) ← readField '_' 6 cs
  let (atto, cs) ← readField '_' 6 cs
  let (yocto, cs) ← readField '_' 6 cs
  if cs = [] then
    some { year, month, day, hour, minute, second, microsecond := micro
           nanosecond := pico / 1000 + atto / 1000000000 + yocto / 1000000000000000 }
  else none

/-- the field values must make a date time, else `strptime` raises ValueError -/
def checkedTime : Option CalTime → Except Err CalTime
  | none => .error .value
  | some t => if t.valid then .ok t else .error .value

/-- /repo/resistics/sampling.py:75-101, `datetime_from_string`. -/
def datetimeFromString (text : String) : Except Err CalTime := checkedTime (readFields text.toList)

/-- A `pd.Timestamp`, which holds whole nanoseconds (0 to 999). -/
structure Timestamp where
  year : ℕ
  month : ℕ
  day : ℕ
  hour : ℕ := 0
  minute : ℕ := 0
  second : ℕ := 0
  microsecond : ℕ := 0
  nanosecond : ℕ := 0
  deriving DecidableEq, Repr

/-- /repo/resistics/sampling.py:145-154: the fields of a timestamp passed to `RSDateTime`. -/
def ofTimestamp (s : Timestamp) : Except Err CalTime :=
  checkedTime (some { year := s.year, month := s.month, day := s.day, hour := s.hour, minute := s.minute, second := s.second
                      microsecond := s.microsecond, nanosecond := s.nanosecond })

/-- the argument of `to_datetime`: a text, a native datetime (microseconds) or a pandas timestamp -/
inductive TimeLike where
  | text (s : String)
  | native (t : Timestamp)
  | timestamp (t : Timestamp)

/-- the fallback of /repo/resistics/sampling.py:137-140 -/
def orPandas (pandas : String → Except Err Timestamp) (text : String) : Except Err CalTime → Except Err CalTime
  | .ok t => .ok t
  | .error .value => pandas text >>= ofTimestamp
  | .error e => .error e

/-- /repo/resistics/sampling.py:104-154, `to_datetime`.  `pandas` is the parser of `pd.Timestamp`, a parameter. -/
def toDatetime (pandas : String → Except Err Timestamp) : TimeLike → Except Err CalTime
  | .text s => orPandas pandas s (datetimeFromString s)
  | .native t => ofTimestamp t
  | .timestamp t => ofTimestamp t

end Resistics
