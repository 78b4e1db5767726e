import Verif.Model.Spectra

/-!
# Model of sharing between data objects

Python objects share parts: `metadata.copy()` of pydantic 1.8.2 is shallow, so the copy refers to the same history
and the same channel metadata objects, whereas `Model(**model.dict())` builds new ones.  Here the mutable parts live in
a heap and objects hold references.  A computation keeps the heap it has reached also when it raises.
`W` is the type of spectral values.
-/

namespace Resistics

/-- The metadata of the four kinds of data objects.  The `history` field inside is not used (it lives in the heap). -/
inductive Payload where
  | time (m : TimeMeta)
  | dec (m : DecMeta)
  | win (m : WinMeta)
  | spec (m : SpecMeta)
  deriving DecidableEq, Repr

/-- The history inside a payload. -/
def Payload.history : Payload → List String
  | .time m => m.history
  | .dec m => m.history
  | .win m => m.history
  | .spec m => m.history

/-- The payload with another history. -/
def Payload.withHistory : Payload → List String → Payload
  | .time m, r => .time { m with history := r }
  | .dec m, r => .dec { m with history := r }
  | .win m, r => .win { m with history := r }
  | .spec m, r => .spec { m with history := r }

/-- A metadata object: its plain fields and references to its history and its channel metadata (of which only the
data files matter here). -/
structure MdCell where
  payload : Payload
  hist : ℕ
  files : ℕ
  deriving DecidableEq, Repr

/-- The heap: metadata objects, histories (lists of record names, /repo/resistics/common.py:455-552), the data files
of each channel (/repo/resistics/time.py:27-85), and arrays of samples. -/
structure Heap where
  mds : List MdCell := []
  hists : List (List String) := []
  files : List (List (String × List String)) := []
  arrs : List (List (List ℚ)) := []

/-- A view of an array, as numpy makes: the array it looks at and how. -/
structure ArrView where
  base : ℕ
  look : List (List ℚ) → Except Err (WinArr ℚ)

/-- A data object: a reference to its metadata, and its data.  Decimated levels are references to arrays, windowed
levels are views (`sliding_window_view`, `squeeze` and slicing never copy, /repo/resistics/window.py:1383-1390);
spectra are new arrays. -/
inductive Obj (W : Type) where
  | time (md arr : ℕ)
  | dec (md : ℕ) (levels : List (ℕ × ℕ))
  | win (md : ℕ) (levels : List (ℕ × ArrView))
  | spec (md : ℕ) (levels : List (ℕ × SpecArr W))

/-- The metadata object of a data object. -/
def Obj.md {W : Type} : Obj W → ℕ
  | .time m _ => m
  | .dec m _ => m
  | .win m _ => m
  | .spec m _ => m

/-- The contents of a data object, as a user sees them. -/
inductive Value (W : Type) where
  | time (d : TimeData ℚ)
  | dec (d : DecData ℚ)
  | win (d : WinData ℚ)
  | spec (d : SpecData W)

/-- The history of the contents. -/
def Value.history {W : Type} : Value W → List String
  | .time d => d.md.history
  | .dec d => d.md.history
  | .win d => d.md.history
  | .spec d => d.md.history

/-- A computation on the heap: the heap reached is kept when an exception is raised. -/
abbrev HeapM := ExceptT Err (StateM Heap)

/-- Dereferencing; dangling references do not occur (`other`). -/
def deref {α : Type} (l : List α) (i : ℕ) : Except Err α :=
  match l[i]? with
  | some a => .ok a
  | none => .error .other

/-- The metadata of an object with its history. -/
def Heap.payload (h : Heap) (i : ℕ) : Except Err Payload := do
  let c ← deref h.mds i
  let r ← deref h.hists c.hist
  return c.payload.withHistory r

/-- The contents of time data. -/
def Heap.readTime (h : Heap) (md arr : ℕ) : Except Err (TimeData ℚ) := do
  let p ← h.payload md
  let a ← deref h.arrs arr
  match p with
  | .time m => return { md := m, data := a }
  | _ => throw .other

/-- The contents of decimated data. -/
def Heap.readDec (h : Heap) (md : ℕ) (levels : List (ℕ × ℕ)) : Except Err (DecData ℚ) := do
  let p ← h.payload md
  let ls ← levels.mapM fun q => (deref h.arrs q.2).map fun a => (q.1, a)
  match p with
  | .dec m => return { md := m, data := ls }
  | _ => throw .other

/-- What a view shows. -/
def Heap.look (h : Heap) (v : ArrView) : Except Err (WinArr ℚ) := do
  let a ← deref h.arrs v.base
  v.look a

/-- The contents of windowed data. -/
def Heap.readWin (h : Heap) (md : ℕ) (levels : List (ℕ × ArrView)) : Except Err (WinData ℚ) := do
  let p ← h.payload md
  let ls ← levels.mapM fun q => (h.look q.2).map fun a => (q.1, a)
  match p with
  | .win m => return { md := m, data := ls }
  | _ => throw .other

/-- The contents of spectra data. -/
def Heap.readSpec {W : Type} (h : Heap) (md : ℕ) (levels : List (ℕ × SpecArr W)) : Except Err (SpecData W) := do
  let p ← h.payload md
  match p with
  | .spec m => return { md := m, data := levels }
  | _ => throw .other

/-- The contents of a data object in a heap. -/
def Heap.read {W : Type} (h : Heap) : Obj W → Except Err (Value W)
  | .time m a => (h.readTime m a).map .time
  | .dec m ls => (h.readDec m ls).map .dec
  | .win m ls => (h.readWin m ls).map .win
  | .spec m ls => (h.readSpec m ls).map .spec

/-- The data files recorded in the channel metadata of an object. -/
def Heap.filesOf (h : Heap) (i : ℕ) : Except Err (List (String × List String)) := do
  let c ← deref h.mds i
  deref h.files c.files

/-! ## Primitive operations -/

/-- Reading the heap. -/
def reading {α : Type} (f : Heap → Except Err α) : HeapM α := fun h => (f h, h)

/-- `metadata.copy()`: a new metadata object that shares history and channel metadata. -/
def shallowCopy (i : ℕ) : HeapM ℕ := fun h =>
  match deref h.mds i with
  | .ok c => (.ok h.mds.length, { h with mds := h.mds ++ [c] })
  | .error e => (.error e, h)

/-- The heap with a metadata object whose parts are all new. -/
def Heap.alloc (h : Heap) (p : Payload) (r : List String) (f : List (String × List String)) : Heap :=
  { h with mds := h.mds ++ [⟨p, h.hists.length, h.files.length⟩], hists := h.hists ++ [r], files := h.files ++ [f] }

/-- `Metadata(**fields)`: a new metadata object with a new history and new channel metadata. -/
def newMd (p : Payload) (r : List String) (f : List (String × List String)) : HeapM ℕ := fun h =>
  (.ok h.mds.length, h.alloc p r f)

/-- `Metadata(**metadata.dict())`. -/
def deepCopy (i : ℕ) : HeapM ℕ := do
  let c ← reading fun h => deref h.mds i
  let r ← reading fun h => deref h.hists c.hist
  let f ← reading fun h => h.filesOf i
  newMd c.payload r f

/-- Assignment to the plain fields of a metadata object (`adjust_time_metadata`, /repo/resistics/time.py:434-438). -/
def setPayload (i : ℕ) (p : Payload) : HeapM Unit := fun h =>
  (.ok (), { h with mds := h.mds.modify i fun c => { c with payload := p } })

/-- `metadata.history.add_record(record)` (/repo/resistics/common.py:543-552): the record is appended to the list. -/
def addRecord (i : ℕ) (name : String) : HeapM Unit := fun h =>
  match deref h.mds i with
  | .ok c => (.ok (), { h with hists := h.hists.modify c.hist fun r => r ++ [name] })
  | .error e => (.error e, h)

/-- A new array. -/
def newArr (a : List (List ℚ)) : HeapM ℕ := fun h => (.ok h.arrs.length, { h with arrs := h.arrs ++ [a] })

/-- Assignment into an array, in place. -/
def setArr (i : ℕ) (a : List (List ℚ)) : HeapM Unit := fun h => (.ok (), { h with arrs := h.arrs.set i a })

/-- Assignment of the data files of all channels, in the shared channel metadata. -/
def setFiles (i : ℕ) (f : List (String × List String)) : HeapM Unit := fun h =>
  match deref h.mds i with
  | .ok c => (.ok (), { h with files := h.files.set c.files f })
  | .error e => (.error e, h)

/-! ## Time data -/

/-- The processes whose `run` passes `metadata.copy()` to `new_time_data` (/repo/resistics/time.py:1303, 1973, 2069,
2259); all others let it build the metadata from `metadata.dict()` (1215). -/
def Proc.shallow : Proc → Bool
  | .subsection _ _ => true
  | .resample _ => true
  | .decimate _ _ => true
  | .shift _ => true
  | _ => false

/-- `process.run(time_data)` with the sharing of /repo/resistics/time.py:1214-1220 and the `run` methods: the values
are those of `Proc.run`. -/
def heapProc (sp : SciPy) (p : Proc) (md arr : ℕ) : HeapM (ℕ × ℕ) := do
  let td ← reading fun h => h.readTime md arr
  let out ← reading fun _ => p.run sp td
  let i ← if p.shallow then shallowCopy md else deepCopy md
  if p.shallow then setPayload i (.time out.md)
  addRecord i p.name
  let a ← newArr out.data
  return (i, a)

/-- /repo/resistics/time.py:632-634 `TimeData.copy`. -/
def heapCopy (md arr : ℕ) : HeapM (ℕ × ℕ) := do
  let td ← reading fun h => h.readTime md arr
  let i ← deepCopy md
  let a ← newArr td.data
  return (i, a)

/-- /repo/resistics/time.py:550-577 `set_chan`, which assigns in place. -/
def heapSetChan (chan : String) (row : List ℚ) (md arr : ℕ) : HeapM Unit := do
  let td ← reading fun h => h.readTime md arr
  let out ← reading fun _ => td.setChan chan row
  setArr arr out.data

/-- `metadata[chan].data_files = files` for each channel; an unknown channel is a `KeyError`.
Simplification: the assignments made before a `KeyError` are not kept. -/
def setDataFiles (chans : List String) (name : String → String) (f : List (String × List String)) :
    Except Err (List (String × List String)) :=
  chans.foldlM (fun f c => if f.any fun q => q.1 = c then
    .ok (f.map fun q => if q.1 = c then (c, [name c]) else q) else .error .key) f

/-- The metadata part of the time data writers (/repo/resistics/time.py:1142-1146, 1176-1182): a shallow copy, new data
files, a new record; `fileName` is the file of a channel.  The result is the metadata object that is written. -/
def heapWriteTime (writer : String) (fileName : String → String) (md : ℕ) : HeapM ℕ := do
  let p ← reading fun h => h.payload md
  let i ← shallowCopy md
  match p with
  | .time m => do
      let f ← reading fun h => h.filesOf i
      let f ← reading fun _ => setDataFiles m.chans fileName f
      setFiles i f
  | _ => pure ()
  addRecord i writer
  return i

/-- The metadata part of the writers of decimated, windowed and spectra data (/repo/resistics/decimate.py:832-833,
window.py:1562-1563, spectra.py:791-792). -/
def heapWrite (writer : String) (md : ℕ) : HeapM ℕ := do
  let i ← shallowCopy md
  addRecord i writer
  return i

/-! ## Decimation -/

/-- The process used for a level (/repo/resistics/decimate.py:776-791). -/
def levelProc (useResample : Bool) (maxSingle : ℕ) (fs : ℚ) (factor : ℕ) : Proc :=
  if useResample then .resample (fs / factor) else .decimate maxSingle factor

/-- /repo/resistics/decimate.py:776-791 `_decimate` and `_resample`: with a factor of one the object itself. -/
def heapLevel (sp : SciPy) (useResample : Bool) (maxSingle : ℕ) (o : ℕ × ℕ) (factor : ℕ) : HeapM (ℕ × ℕ) := do
  if factor = 1 then return o
  if factor = 0 then throw (if useResample then .zeroDiv else .value)
  let td ← reading fun h => h.readTime o.1 o.2
  heapProc sp (levelProc useResample maxSingle td.md.fs factor) o.1 o.2

/-- State of the loop at /repo/resistics/decimate.py:757-768. -/
structure HeapDecAcc where
  data : List (ℕ × ℕ) := []
  levels : List LevelMeta := []

/-- The loop at /repo/resistics/decimate.py:757-768: a level keeps the array of its time data. -/
def heapDecLoop (sp : SciPy) (useResample : Bool) (maxSingle : ℕ) (p : DecParams ℚ) :
    List ℕ → ℕ × ℕ → HeapDecAcc → HeapM HeapDecAcc
  | [], _, acc => pure acc
  | ilevel :: rest, o, acc => do
      let factor ← reading fun _ => pyIndex p.decIncrements (ilevel : ℤ)
      let new ← heapLevel sp useResample maxSingle o factor
      let td ← reading fun h => h.readTime new.1 new.2
      if td.md.nSamples < p.minSamples then pure acc
      else do
        let _ ← reading fun _ => pyIndex p.decFs (ilevel : ℤ)
        heapDecLoop sp useResample maxSingle p rest new
          { data := acc.data ++ [(ilevel, new.2)], levels := acc.levels ++ [levelMetaOf td.md] }

/-- /repo/resistics/decimate.py:734-774 `Decimator.run`: the dictionary of the metadata is made before the loop. -/
def heapDecimator (sp : SciPy) (useResample : Bool) (maxSingle : ℕ) (p : DecParams ℚ) (o : ℕ × ℕ) :
    HeapM (ℕ × List (ℕ × ℕ)) := do
  let td ← reading fun h => h.readTime o.1 o.2
  let files ← reading fun h => h.filesOf o.1
  let acc ← heapDecLoop sp useResample maxSingle p (List.range p.nLevels) o {}
  let md : DecMeta :=
    { fs := acc.levels.map (·.fs), chans := td.md.chans, nLevels := acc.levels.length,
      firstTime := td.md.firstTime, lastTime := td.md.lastTime, levels := acc.levels, history := [] }
  let i ← newMd (.dec md) td.md.history files
  addRecord i "Decimator"
  let _ ← reading fun _ => dictGet acc.data 0
  return (i, acc.data)

/-! ## Windowing and spectra -/

/-- The view of a level's array that windowing takes (/repo/resistics/window.py:1353-1390). -/
def levelView (sizes : ℕ → LevelMeta → Except Err (ℤ × ℤ)) (refTime : DateTime) (md : DecMeta) (ilevel : ℕ)
    (arr : List (List ℚ)) : Except Err (WinArr ℚ) := do
  let lm ← pyIndex md.levels (ilevel : ℤ)
  let wo ← sizes ilevel lm
  let table ← getWinTable refTime lm wo.1 wo.2
  getLevelData arr table md.chans.length wo.1 wo.2

/-- `run` of a windower (/repo/resistics/window.py:1277-1351, 1453-1499): `result` gives the values, `sizes` and the
reference time the views; the metadata are built from `metadata.dict()`. -/
def heapWindower (name : String) (sizes : ℕ → LevelMeta → Except Err (ℤ × ℤ)) (refTime : DateTime)
    (result : DecData ℚ → Except Err (WinData ℚ)) (md : ℕ) (levels : List (ℕ × ℕ)) :
    HeapM (ℕ × List (ℕ × ArrView)) := do
  let dec ← reading fun h => h.readDec md levels
  let files ← reading fun h => h.filesOf md
  let out ← reading fun _ => result dec
  let i ← newMd (.win out.md) dec.md.history files
  addRecord i name
  return (i, out.data.map fun q => (q.1, ⟨(levels.lookup q.1).getD 0, levelView sizes refTime dec.md q.1⟩))

/-- `FourierTransform.run` (/repo/resistics/spectra.py:463-505): new arrays, metadata from `metadata.dict()`. -/
def heapFourier {W : Type} (nfl : ℕ → ℕ) (ft : ℕ → List ℚ → List W) (md : ℕ) (levels : List (ℕ × ArrView)) :
    HeapM (ℕ × List (ℕ × SpecArr W)) := do
  let win ← reading fun h => h.readWin md levels
  let files ← reading fun h => h.filesOf md
  let out ← reading fun _ => fourierRun nfl ft win
  let i ← newMd (.spec out.md) win.md.history files
  addRecord i "FourierTransform"
  return (i, out.data)

/-- A process from spectra data to spectra data (/repo/resistics/spectra.py:656-696, 875-975, calibrate.py:512-535):
new arrays, metadata from `metadata.dict()`. -/
def heapSpec {W : Type} (name : String) (f : SpecData W → Except Err (SpecData W)) (md : ℕ)
    (levels : List (ℕ × SpecArr W)) : HeapM (ℕ × List (ℕ × SpecArr W)) := do
  let spec ← reading fun h => h.readSpec md levels
  let files ← reading fun h => h.filesOf md
  let out ← reading fun _ => f spec
  let i ← newMd (.spec out.md) spec.md.history files
  addRecord i name
  return (i, out.data)

/-! ## Programs -/

/-- The calls a user can make on data objects. -/
inductive Call (W : Type) where
  | proc (p : Proc)
  | copy
  | setChan (chan : String) (row : List ℚ)
  | writeTime (writer : String) (fileName : String → String)
  | write (writer : String)
  | decimate (useResample : Bool) (maxSingle : ℕ) (p : DecParams ℚ)
  | window (refTime : DateTime) (p : WinParams)
  | windowTarget (t : WindowerTarget) (refTime : DateTime) (p : WinParams)
  | fourier (nfl : ℕ → ℕ) (ft : ℕ → List ℚ → List W)
  | spec (name : String) (f : SpecData W → Except Err (SpecData W))

/-- One call on an object: the new object, if there is one.  A call on data of the wrong kind raises. -/
def Call.run {W : Type} (sp : SciPy) : Call W → Obj W → HeapM (Option (Obj W))
  | .proc p, .time m a => do let r ← heapProc sp p m a; return some (.time r.1 r.2)
  | .copy, .time m a => do let r ← heapCopy m a; return some (.time r.1 r.2)
  | .setChan c row, .time m a => do heapSetChan c row m a; return none
  | .writeTime w n, .time m _ => do let _ ← heapWriteTime w n m; return none
  | .write w, o => do let _ ← heapWrite w o.md; return none
  | .decimate u k p, .time m a => do let r ← heapDecimator sp u k p (m, a); return some (.dec r.1 r.2)
  | .window ref p, .dec m ls => do
      let r ← heapWindower "Windower" (windowerSizes p) ref (windowerRun ref p) m ls
      return some (.win r.1 r.2)
  | .windowTarget t ref p, .dec m ls => do
      let r ← heapWindower "WindowerTarget" t.sizes ref (t.run ref p) m ls
      return some (.win r.1 r.2)
  | .fourier nfl ft, .win m ls => do let r ← heapFourier nfl ft m ls; return some (.spec r.1 r.2)
  | .spec name f, .spec m ls => do let r ← heapSpec name f m ls; return some (.spec r.1 r.2)
  | _, _ => throw .attribute

/-- The state of a session: the heap and the objects made so far. -/
structure Session (W : Type) where
  heap : Heap
  objs : List (Obj W)

/-- A call on the object with the given number; a call that raises still leaves its changes of the heap. -/
def Session.step {W : Type} (sp : SciPy) (s : Session W) (c : Call W × ℕ) : Session W :=
  match s.objs[c.2]? with
  | none => s
  | some o =>
      match (c.1.run sp o).run s.heap with
      | (.ok (some new), h) => { heap := h, objs := s.objs ++ [new] }
      | (.ok none, h) => { s with heap := h }
      | (.error _, h) => { s with heap := h }

/-- Any sequence of calls. -/
def Session.exec {W : Type} (sp : SciPy) (s : Session W) (calls : List (Call W × ℕ)) : Session W :=
  calls.foldl (Session.step sp) s

end Resistics
