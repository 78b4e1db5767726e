import Verif.Model.Basic
import Mathlib.Logic.Function.Basic
import Mathlib.Data.Nat.Notation

/-!
# Several processes that write at the same time

Programs as sequences of system calls, each of them atomic, and systems of processes that take turns in any order.  A process that crashes gets no more turns.
Nothing here removes files or directories, as nothing in the code does.
-/

namespace Resistics
namespace Par

/-- A place: its components, the last one first. -/
abbrev Place := List String

/-- What there is at a place; the bytes of a file. -/
inductive DNode where
  | dir
  | file (bytes : List Char)
  deriving DecidableEq

/-- The disk. -/
abbrev Disk := Place → Option DNode

/-- Assignment at one place. -/
def Disk.set (d : Disk) (p : Place) (n : DNode) : Disk := fun q => if q = p then some n else d q

/-- A program: it has returned, has raised, or makes a system call, whose effect and result depend on the disk at that moment. -/
inductive Prog where
  | done
  | fail (e : Err)
  | act (eff : Disk → Disk) (next : Disk → Prog)

/-! ## System calls -/

/-- `path.exists()`, `path.is_dir()` and `path.is_file()`: what there is. -/
def look (p : Place) (k : Option DNode → Prog) : Prog := .act id fun d => k (d p)

/-- Can the directory be made? -/
def canMake (d : Disk) (name : String) (parent : Place) : Bool := d (name :: parent) = none && d parent = some .dir

/-- `os.mkdir`: it is made, the parent is missing (`FileNotFoundError`), or another `OSError`: it is there already, or the parent is a file. -/
def mkdirOnce (name : String) (parent : Place) (made missing other : Prog) : Prog :=
  .act (fun d => if canMake d name parent then d.set (name :: parent) .dir else d) fun d =>
    if (d (name :: parent)).isSome then other
    else if d parent = some .dir then made
    else if d parent = none then missing
    else other

/-- `except OSError: if not exist_ok or not self.is_dir(): raise` of `Path.mkdir`. -/
def whenThere (p : Place) (existOk : Bool) (k : Prog) : Prog :=
  if existOk then look p fun n => if n = some .dir then k else .fail .os else .fail .os

/-- `Path.mkdir(parents=True, exist_ok=existOk)`: try; if the parent is missing, make it and its parents, whoever makes them, and try again. -/
def mkParents : Place → Bool → Prog → Prog
  | [], existOk, k => whenThere [] existOk k
  | n :: par, existOk, k =>
      mkdirOnce n par k (mkParents par true (mkdirOnce n par k (.fail .os) (whenThere (n :: par) existOk k))) (whenThere (n :: par) existOk k)

/-- May the file be opened for writing? -/
def canOpen (d : Disk) (name : String) (parent : Place) : Bool := d parent = some .dir && d (name :: parent) ≠ some .dir

/-- `open(path, "w")`: the file is empty then. -/
def openW (name : String) (parent : Place) (k : Prog) : Prog :=
  .act (fun d => if canOpen d name parent then d.set (name :: parent) (.file []) else d) fun d => if canOpen d name parent then k else .fail .os

/-- The bytes after `text` was written at `off`. -/
def put (old : List Char) (w : ℕ × List Char) : List Char :=
  old.take w.1 ++ List.replicate (w.1 - old.length) '\x00' ++ w.2 ++ old.drop (w.1 + w.2.length)

/-- One write to an open file. -/
def putFile (d : Disk) (p : Place) (w : ℕ × List Char) : Disk :=
  match d p with
  | some (.file old) => d.set p (.file (put old w))
  | _ => d

/-- The writes to an open file. -/
def writes (p : Place) : List (ℕ × List Char) → Prog → Prog
  | [], k => k
  | w :: ws, k => .act (fun d => putFile d p w) fun _ => writes p ws k

/-- Opening a file, writing and closing it: `np.save`, `np.savez_compressed`, `np.savetxt` and `metadata.write` (/repo/resistics/common.py:441-452). -/
def saveFile (name : String) (parent : Place) (ws : List (ℕ × List Char)) (k : Prog) : Prog := openW name parent (writes (name :: parent) ws k)

/-- Files one after the other. -/
def saveFiles (dir : Place) : List (String × List (ℕ × List Char)) → Prog
  | [] => .done
  | f :: fs => saveFile f.1 dir f.2 (saveFiles dir fs)

/-! ## Writers and creators -/

/-- /repo/resistics/common.py:920-930 `_check_dir` and the test of its result in the writers (/repo/resistics/decimate.py:825-826, window.py:1555-1556,
spectra.py:784-785, time.py:1135-1136, 1170-1171): three looks at the directory. -/
def checkPlace (overwrite : Bool) (dir : Place) (k : Prog) : Prog :=
  look dir fun a =>
    if a.isSome && !overwrite then .fail .write
    else look dir fun _ => look dir fun c => if c.isNone then mkParents dir false k else k

/-- The data writers (/repo/resistics/decimate.py:823-834, window.py:1553-1564, spectra.py:782-793, time.py:1133-1146, 1168-1181): the data files, then the
metadata. -/
def writer (overwrite : Bool) (dir : Place) (files : List (String × List (ℕ × List Char))) : Prog := checkPlace overwrite dir (saveFiles dir files)

/-- /repo/resistics/letsgo.py:60-66 `_make_subdirs`. -/
def makeSubs (dir : Place) (k : Prog) : List String → Prog
  | [] => k
  | s :: ss => look (s :: dir) fun n => if n.isNone then mkdirOnce s dir (makeSubs dir k ss) (.fail .os) (.fail .os) else makeSubs dir k ss

/-- /repo/resistics/project.py:22-31 `PROJ_DIRS`. -/
def subNames : List String := ["time", "calibrate", "spectra", "evals", "features", "masks", "results", "images"]

/-- /repo/resistics/project.py:21 `PROJ_FILE`. -/
def projName : String := "resistics.json"

/-- /repo/resistics/letsgo.py:56-57: the directories, then the project file. -/
def fillProject (dir : Place) (ws : List (ℕ × List Char)) : Prog := makeSubs dir (saveFile projName dir ws .done) subNames

/-- /repo/resistics/letsgo.py:50-55: the directory is there, and has to be one, or is made. -/
def enterProject (dir : Place) (ws : List (ℕ × List Char)) : Prog :=
  look dir fun a =>
    if a.isSome then
      look dir fun b => if b.isNone then .fail .os else look dir fun c => if c = some .dir then fillProject dir ws else .fail .notDir
    else mkParents dir false (fillProject dir ws)

/-- /repo/resistics/letsgo.py:33-58 `ProjectCreator.run`; `is_dir` looks twice (/repo/resistics/common.py:72-92). -/
def creator (dir : Place) (ws : List (ℕ × List Char)) : Prog :=
  look dir fun a =>
    if a.isNone then enterProject dir ws
    else look dir fun b =>
      if b.isNone then enterProject dir ws
      else look dir fun c =>
        if c ≠ some .dir then enterProject dir ws
        else look (projName :: dir) fun e => if e.isSome then .fail .projCreate else enterProject dir ws

/-- /repo/resistics/letsgo.py:802-808: saving a solution. -/
def solver (dir : Place) (name : String) (ws : List (ℕ × List Char)) : Prog :=
  look dir fun a => if a.isNone then mkParents dir false (saveFile name dir ws .done) else saveFile name dir ws .done

/-- What a process has to do: write data to a directory, create a project in a directory or save a solution to a directory. -/
inductive Job where
  | write (overwrite : Bool) (dir : Place) (files : List (String × List (ℕ × List Char)))
  | create (dir : Place) (ws : List (ℕ × List Char))
  | solve (dir : Place) (name : String) (ws : List (ℕ × List Char))

/-- Its program. -/
def Job.prog : Job → Prog
  | .write overwrite dir files => writer overwrite dir files
  | .create dir ws => creator dir ws
  | .solve dir name ws => solver dir name ws

/-! ## Processes -/

/-- The disk, and what each process has yet to do. -/
structure Sys (ι : Type) where
  disk : Disk
  procs : ι → Prog

/-- Process `i` takes a turn. -/
def Sys.tick {ι : Type} [DecidableEq ι] (s : Sys ι) (i : ι) : Sys ι :=
  match s.procs i with
  | .act eff next => ⟨eff s.disk, Function.update s.procs i (next s.disk)⟩
  | _ => s

/-- The processes at the start. -/
def start {ι : Type} (d : Disk) (jobs : ι → Job) : Sys ι := ⟨d, fun i => (jobs i).prog⟩

/-- The processes take turns. -/
def Sys.run {ι : Type} [DecidableEq ι] (s : Sys ι) (schedule : List ι) : Sys ι := schedule.foldl Sys.tick s

end Par
end Resistics
