import Verif.Model.Files
import Verif.Model.Window

/-!
# Model of arrays that share memory

Everywhere else arrays are lists of values.  Here they are lists of cells of a memory, so that it can be said which objects share their
samples: the numpy reader maps its file (/repo/resistics/time.py:1102), level 0 of decimated data is the array of the recording
(/repo/resistics/decimate.py:776-791), windows are writeable views of the decimated data (/repo/resistics/window.py:1387-1390), and
`set_chan` writes in place (/repo/resistics/time.py:577).  Objects are the ones of the other modules with cells for values; functions which
only look at shapes and make views are those of the other modules.
-/

namespace Resistics

/-- A cell: the n-th number allocated in memory, or the n-th number of a mapped file.  Simplification: numbers of a file are stored row by
row and have the same size (`np.save` stores a transposed array column by column). -/
inductive MCell where
  | ram (n : ℕ)
  | file (p : Path) (n : ℕ)
  deriving DecidableEq, Repr

/-- The memory of the process, and the arrays in the `.npy` files of the disk (`none`: no such file, or a truncated one). -/
structure Mem where
  ram : List ℚ
  disk : Path → Option (List (List ℚ))

/-- What a cell holds.  A cell of a mapped file that has become too short cannot be read. -/
def Mem.get (m : Mem) : MCell → Option ℚ
  | .ram n => m.ram[n]?
  | .file p n => (m.disk p).bind fun rows => rows.flatten[n]?

/-- Reading a cell.  Simplification: a cell that is no longer there ends the process (a bus error); on Linux the cells in the first page of
a truncated file read as zeros instead (`Config.lost`). -/
def Mem.read (m : Mem) (c : MCell) : Except Err ℚ :=
  match m.get c with
  | some x => .ok x
  | none => .error .other

/-- Reading an array. -/
def Mem.load (m : Mem) (rows : List (List MCell)) : Except Err (List (List ℚ)) := rows.mapM fun row => row.mapM m.read

/-- Reading the samples of time data. -/
def Mem.loadTime (m : Mem) (td : TimeData MCell) : Except Err (TimeData ℚ) := do
  let rows ← m.load td.data
  return { md := td.md, data := rows }

/-- Cells in order for the numbers of an array. -/
def numberRows {β : Type} (mk : ℕ → MCell) : ℕ → List (List β) → List (List MCell)
  | _, [] => []
  | n, row :: rest => (List.range' n row.length).map mk :: numberRows mk (n + row.length) rest

/-- A new array. -/
def Mem.alloc (m : Mem) (rows : List (List ℚ)) : List (List MCell) × Mem :=
  (numberRows MCell.ram m.ram.length rows, { m with ram := m.ram ++ rows.flatten })

/-- New time data. -/
def Mem.allocTime (m : Mem) (td : TimeData ℚ) : TimeData MCell × Mem :=
  ({ md := td.md, data := (m.alloc td.data).1 }, (m.alloc td.data).2)

/-- `np.load(data_path, mmap_mode="r")` (/repo/resistics/time.py:1102). -/
def Mem.map (m : Mem) (p : Path) : Except Err (List (List MCell)) :=
  match m.disk p with
  | some rows => .ok (numberRows (MCell.file p) 0 rows)
  | none => .error .os

/-- `TimeReaderNumpy` for a data file (/repo/resistics/time.py:748-766, 1101-1108): slicing a mapped array makes a view. -/
def Mem.readNumpy (m : Mem) (p : Path) (md : TimeMeta) (r : ReadReq) : Except Err (TimeData MCell) := do
  let arr ← m.map p
  Resistics.readNumpy arr md r

/-- A time data processor: all of them make new arrays (/repo/resistics/time.py:1305, 1347, 1422, 1489, 1566, 1647, 1717, 1799, 1879, 1970,
2063, 2258, 2348). -/
def Mem.process (m : Mem) (sp : SciPy) (q : Proc) (td : TimeData MCell) : Except Err (TimeData MCell × Mem) := do
  let v ← m.loadTime td
  let out ← q.run sp v
  return m.allocTime out

/-- `run_time_processors` (/repo/resistics/letsgo.py:297-300). -/
def Mem.processAll (sp : SciPy) : List Proc → TimeData MCell → Mem → Except Err (TimeData MCell × Mem)
  | [], td, m => .ok (td, m)
  | q :: rest, td, m => do
      let out ← m.process sp q td
      Mem.processAll sp rest out.1 out.2

/-- `TimeData.copy` (/repo/resistics/time.py:632-634). -/
def Mem.copy (m : Mem) (td : TimeData MCell) : Except Err (TimeData MCell × Mem) := do
  let v ← m.loadTime td
  return m.allocTime v

/-- Assigning to one element of an array; mapped files are read-only (`ValueError`). -/
def Mem.poke (m : Mem) (c : MCell) (x : ℚ) : Except Err Mem :=
  match c with
  | .ram n => .ok { m with ram := m.ram.set n x }
  | .file _ _ => .error .value

/-- Assigning to the elements of a row, one after the other. -/
def Mem.store (m : Mem) : List MCell → List ℚ → Except Err Mem
  | c :: cs, x :: xs => do
      let m ← m.poke c x
      m.store cs xs
  | _, _ => .ok m

/-- `TimeData.set_chan` (/repo/resistics/time.py:550-577).  Simplifications: the dtype check is not modelled; assigning to a read-only row
without samples does not raise. -/
def Mem.setChan (m : Mem) (td : TimeData MCell) (chan : String) (row : List ℚ) : Except Err Mem := do
  let _ ← checkChan chan td.md.chans
  if (row.length : ℤ) ≠ td.md.nSamples then throw .value
  let cells ← td.getChan chan
  m.store cells row

/-- One step of the decimator (/repo/resistics/decimate.py:776-791): for the factor one the same object is returned. -/
def Mem.decimateStep (step : TimeData ℚ → ℕ → Except Err (TimeData ℚ)) (factor : ℕ) (td : TimeData MCell) (m : Mem) :
    Except Err (TimeData MCell × Mem) :=
  if factor = 1 then .ok (td, m)
  else do
    let v ← m.loadTime td
    let out ← step v factor
    return m.allocTime out

/-- The state of the loop of the decimator. -/
structure MemAcc where
  data : List (ℕ × List (List MCell)) := []
  levels : List LevelMeta := []

/-- The loop at /repo/resistics/decimate.py:757-768. -/
def Mem.decimateLoop (step : TimeData ℚ → ℕ → Except Err (TimeData ℚ)) (p : DecParams ℚ) :
    List ℕ → TimeData MCell → MemAcc → Mem → Except Err (MemAcc × Mem)
  | [], _, acc, m => .ok (acc, m)
  | ilevel :: rest, td, acc, m => do
      let factor ← pyIndex p.decIncrements (ilevel : ℤ)
      let new ← Mem.decimateStep step factor td m
      if new.1.md.nSamples < p.minSamples then .ok (acc, new.2)
      else do
        let _ ← pyIndex p.decFs (ilevel : ℤ)
        Mem.decimateLoop step p rest new.1
          { data := acc.data ++ [(ilevel, new.1.data)], levels := acc.levels ++ [levelMetaOf new.1.md] } new.2

/-- `Decimator.run` (/repo/resistics/decimate.py:734-774) for a decimation function. -/
def Mem.decimateWith (step : TimeData ℚ → ℕ → Except Err (TimeData ℚ)) (p : DecParams ℚ) (td : TimeData MCell) (m : Mem) :
    Except Err (DecData MCell × Mem) := do
  let acc ← Mem.decimateLoop step p (List.range p.nLevels) td {} m
  let _ ← dictGet acc.1.data 0
  return ({ md := { fs := acc.1.levels.map (·.fs), chans := td.md.chans, nLevels := acc.1.levels.length,
                    firstTime := td.md.firstTime, lastTime := td.md.lastTime, levels := acc.1.levels,
                    history := td.md.history ++ ["Decimator"] }
            data := acc.1.data }, acc.2)

/-- `Decimator(resample=..., max_single_factor=...).run` (/repo/resistics/decimate.py:752). -/
def Mem.decimate (sp : SciPy) (useResample : Bool) (maxSingle : ℕ) (p : DecParams ℚ) (td : TimeData MCell) (m : Mem) :
    Except Err (DecData MCell × Mem) :=
  Mem.decimateWith (if useResample then decimatorResample sp else decimatorDecimate sp maxSingle) p td m

/-- `TimeWriterNumpy` (/repo/resistics/time.py:1140): `np.save` opens the file, which truncates it, and then takes the samples.  The second
component is the memory and disk afterwards, also when an exception is raised. -/
def Mem.saveNumpy (m : Mem) (p : Path) (td : TimeData MCell) : Except Err Unit × Mem :=
  let cut : Mem := { m with disk := fun q => if q = p then none else m.disk q }
  match cut.load td.data with
  | .ok rows => (.ok (), { m with disk := fun q => if q = p then some rows else m.disk q })
  | .error e => (.error e, cut)

/-! ## A caller with several objects -/

/-- The objects a caller has. -/
structure MemState where
  mem : Mem
  times : List (TimeData MCell)
  decs : List (DecData MCell)

/-- Calls on the objects; `i` is the number of the time data. -/
inductive MemCall where
  | process (q : Proc) (i : ℕ)
  | copy (i : ℕ)
  | decimate (useResample : Bool) (maxSingle : ℕ) (p : DecParams ℚ) (i : ℕ)
  | setChan (i : ℕ) (chan : String) (row : List ℚ)

/-- One call (/repo/resistics/time.py:550-577, 632-634, /repo/resistics/letsgo.py:297-300, /repo/resistics/decimate.py:734-774): what is made
is added to the objects, `set_chan` writes in place. -/
def MemState.attempt (sp : SciPy) (s : MemState) : MemCall → Except Err MemState
  | .process q i => do
      let td ← pyIndex s.times (i : ℤ)
      let out ← s.mem.process sp q td
      return { mem := out.2, times := s.times ++ [out.1], decs := s.decs }
  | .copy i => do
      let td ← pyIndex s.times (i : ℤ)
      let out ← s.mem.copy td
      return { mem := out.2, times := s.times ++ [out.1], decs := s.decs }
  | .decimate useResample maxSingle p i => do
      let td ← pyIndex s.times (i : ℤ)
      let out ← Mem.decimate sp useResample maxSingle p td s.mem
      return { mem := out.2, times := s.times, decs := s.decs ++ [out.1] }
  | .setChan i chan row => do
      let td ← pyIndex s.times (i : ℤ)
      let m ← s.mem.setChan td chan row
      return { mem := m, times := s.times, decs := s.decs }

/-- A caller who goes on after exceptions: the exceptions, and the objects at the end. -/
def MemState.calls (sp : SciPy) : List MemCall → MemState → List (Option Err) × MemState
  | [], s => ([], s)
  | c :: rest, s =>
      match s.attempt sp c with
      | .ok s' => let out := MemState.calls sp rest s'; (none :: out.1, out.2)
      | .error e => let out := MemState.calls sp rest s; (some e :: out.1, out.2)

end Resistics
