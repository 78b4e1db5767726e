import Verif.Model.Time
import Verif.Model.Gather

/-!
# Model of the channel metadata of /repo/resistics/time.py and of the channel types of /repo/resistics/common.py

A pydantic model is the record of its validated fields.  Arguments of the declared types are modelled; the coercion of others (a number
given for a text) is not.
-/

namespace Resistics

/-- /repo/resistics/common.py:14 `ELECTRIC_CHANS`. -/
def electricChans : List String := ["Ex", "Ey", "E1", "E2", "E3", "E4"]

/-- /repo/resistics/common.py:15 `MAGNETIC_CHANS`. -/
def magneticChans : List String := ["Hx", "Hy", "Hz", "Bx", "By", "Bz"]

/-- /repo/resistics/common.py:201-225 `is_electric`. -/
def isElectric (chan : String) : Bool := if chan ∈ electricChans then true else false

/-- /repo/resistics/common.py:228-252 `is_magnetic`. -/
def isMagnetic (chan : String) : Bool := if chan ∈ magneticChans then true else false

/-- /repo/resistics/common.py:255-290 `get_chan_type`. -/
def getChanType (chan : String) : Except Err String :=
  if isElectric chan then .ok "electric"
  else if isMagnetic chan then .ok "magnetic"
  else .error .value

/-- /repo/resistics/time.py:27-85 `ChanMetadata`: the fields whose validation is not only a check of their type. -/
structure ChanInfo where
  name : String
  dataFiles : Option (List String)
  chanType : String
  deriving DecidableEq, Repr

/-- What is given for the data files: nothing, a text or a list. -/
inductive FilesArg where
  | none
  | one (s : String)
  | many (l : List String)
  deriving DecidableEq, Repr

/-- /repo/resistics/time.py:62-67 `validate_data_files`. -/
def FilesArg.validate : FilesArg → Option (List String)
  | .none => Option.none
  | .one s => some [s]
  | .many l => some l

/-- The arguments of `ChanMetadata(...)`. -/
structure ChanArgs where
  name : Option String := none
  dataFiles : FilesArg := .none
  chanType : Option String := none
  deriving DecidableEq, Repr

/-- /repo/resistics/time.py:69-77 `validate_chan_type`.  The name is missing from `values` when it was not given: a `KeyError`, which
pydantic does not turn into a validation error. -/
def validateChanType (name : Option String) : Option String → Except Err String
  | some t => .ok t
  | none =>
      match name with
      | some n => getChanType n
      | none => .error .key

/-- `ChanMetadata(...)`: the fields are validated in order; a missing name is a validation error. -/
def makeChan (a : ChanArgs) : Except Err ChanInfo := do
  let t ← validateChanType a.name a.chanType
  match a.name with
  | none => .error .value
  | some n => .ok { name := n, dataFiles := a.dataFiles.validate, chanType := t }

/-- `chan_metadata.chan_type = value` (`validate_assignment`, /repo/resistics/time.py:57-60): the exception or none, and the object
afterwards. -/
def ChanInfo.setType (c : ChanInfo) (value : Option String) : Except Err Unit × ChanInfo :=
  match validateChanType (some c.name) value with
  | .ok t => (.ok (), { c with chanType := t })
  | .error e => (.error e, c)

/-- `chan_metadata.name = value`: no other field is validated again. -/
def ChanInfo.setName (c : ChanInfo) (value : String) : ChanInfo := { c with name := value }

/-- `chan_metadata.data_files = value`. -/
def ChanInfo.setFiles (c : ChanInfo) (value : FilesArg) : ChanInfo := { c with dataFiles := value.validate }

/-- /repo/resistics/time.py:79-81 `electric`. -/
def ChanInfo.electric (c : ChanInfo) : Bool := c.chanType = "electric"

/-- /repo/resistics/time.py:83-85 `magnetic`. -/
def ChanInfo.magnetic (c : ChanInfo) : Bool := c.chanType = "magnetic"

/-- /repo/resistics/time.py:88-119 `TimeMetadata`: the fields about channels. -/
structure TimeInfo where
  chans : List String
  nChans : ℤ
  chansMeta : List (String × ChanInfo)
  deriving DecidableEq, Repr

/-- /repo/resistics/common.py:427-432 `validate_n_chans`: a missing list of channels is a `KeyError`. -/
def validateNChans (chans : Option (List String)) : Option ℤ → Except Err ℤ
  | some n => .ok n
  | none =>
      match chans with
      | some l => .ok l.length
      | none => .error .key

/-- `TimeMetadata(...)` as far as channels are concerned. -/
def makeTimeInfo (chans : Option (List String)) (nChans : Option ℤ) (chansMeta : List (String × ChanInfo)) : Except Err TimeInfo := do
  let n ← validateNChans chans nChans
  match chans with
  | none => .error .value
  | some l => .ok { chans := l, nChans := n, chansMeta := chansMeta }

/-- /repo/resistics/time.py:127-167 `TimeMetadata.__getitem__`. -/
def TimeInfo.getChanInfo (t : TimeInfo) (chan : String) : Except Err ChanInfo :=
  if chan ∈ t.chans then dictGet t.chansMeta chan else .error .chanNotFound

/-- /repo/resistics/time.py:184-201 `get_chan_types`. -/
def TimeInfo.getChanTypes (t : TimeInfo) : List String := sortedSet (t.chansMeta.map fun q => q.2.chanType)

/-- A channel with its metadata: `self.chans_metadata[x]`. -/
def TimeInfo.withInfo (t : TimeInfo) (chan : String) : Except Err (String × ChanInfo) :=
  (dictGet t.chansMeta chan).map fun c => (chan, c)

/-- `[x for x in self.chans if p(self.chans_metadata[x])]`. -/
def TimeInfo.chansWhere (t : TimeInfo) (p : ChanInfo → Bool) : Except Err (List String) := do
  let l ← t.chans.mapM t.withInfo
  return (l.filter fun q => p q.2).map Prod.fst

/-- /repo/resistics/time.py:203-224 `get_chans_with_type`. -/
def TimeInfo.getChansWithType (t : TimeInfo) (type : String) : Except Err (List String) := t.chansWhere fun c => c.chanType = type

/-- /repo/resistics/time.py:226-242 `get_electric_chans`. -/
def TimeInfo.getElectricChans (t : TimeInfo) : Except Err (List String) := t.chansWhere ChanInfo.electric

/-- /repo/resistics/time.py:244-260 `get_magnetic_chans`. -/
def TimeInfo.getMagneticChans (t : TimeInfo) : Except Err (List String) := t.chansWhere ChanInfo.magnetic

/-- /repo/resistics/time.py:262-266 `any_electric`. -/
def TimeInfo.anyElectric (t : TimeInfo) : Except Err Bool := do
  let l ← t.getElectricChans
  return if l.length = 0 then false else true

/-- /repo/resistics/time.py:268-272 `any_magnetic`. -/
def TimeInfo.anyMagnetic (t : TimeInfo) : Except Err Bool := do
  let l ← t.getMagneticChans
  return if l.length = 0 then false else true

/-- One entry of the dictionary at /repo/resistics/time.py:369. -/
def chanEntry (chansDict : List (String × ChanArgs)) (chan : String) : Except Err (String × ChanInfo) := do
  let a ← dictGet chansDict chan
  let c ← makeChan a
  return (chan, c)

/-- `time_dict["chans"]`. -/
def requiredChans : Option (List String) → Except Err (List String)
  | some l => .ok l
  | none => .error .key

/-- /repo/resistics/time.py:275-371 `get_time_metadata`: of the time dictionary, the channels and their number.  A channel listed twice
has one entry. -/
def getTimeInfo (chans : Option (List String)) (nChans : Option ℤ) (chansDict : List (String × ChanArgs)) : Except Err TimeInfo := do
  let l ← requiredChans chans
  let entries ← l.eraseDups.mapM (chanEntry chansDict)
  makeTimeInfo chans nChans entries

end Resistics
