import Std.Data.String.ToNat
import Verif.Model.History
import Verif.Model.Regression

/-!
# Model of the files written and read by the data writers and readers

The file system maps paths to directories and files.  Every operation that changes it is a sequence of elementary steps
and all states passed through are recorded, so that an interruption (crash) can be placed between any two steps: a file
that is being written is first `torn`.
-/

namespace Resistics

/-- A path: its components from the root. -/
abbrev Path := List String

/-- A numpy array in an archive: a level of decimated, windowed or spectra data. -/
inductive NpArr (W : Type) where
  | mat (a : List (List ℚ))
  | win (a : WinArr ℚ)
  | spec (a : SpecArr W)

/-- /repo/resistics/project.py:214-222 `ProjectMetadata`.  Simplification: without the version information of the file. -/
structure ProjMeta where
  refTime : DateTime
  location : String := ""
  country : String := ""
  year : ℤ := -999
  description : String := ""
  contributors : List String := []
  deriving DecidableEq

/-- File contents.  Simplification: the JSON text of metadata is represented by the metadata (that they can be
read from their text is C74 to C76); `torn` is a file whose writing was interrupted, which no reader accepts (C75, C76). -/
inductive Content (W : Type) where
  | npy (a : List (List ℚ))
  | npz (entries : List (String × NpArr W))
  | metaJson (p : Payload) (files : List (String × List String))
  | text (lines : List String)
  | json (tag : String)
  | projJson (m : ProjMeta)
  | solJson (s : Solution)
  | torn

/-- What there is at a path. -/
inductive Node (W : Type) where
  | dir
  | file (c : Content W)

/-- The file system. -/
abbrev FS (W : Type) := Path → Option (Node W)

/-- Assignment at one path. -/
def FS.set {W : Type} (fs : FS W) (p : Path) (n : Node W) : FS W := fun q => if q = p then some n else fs q

/-- The file system now, and all states passed through so far (newest last). -/
structure FsState (W : Type) where
  fs : FS W
  trace : List (FS W) := []

/-- Computations on the file system; the state is kept when an exception is raised. -/
abbrev FsM (W : Type) := ExceptT Err (StateM (FsState W))

/-- One elementary step. -/
def fsStep {W : Type} (f : FS W → FS W) : FsM W Unit := fun s =>
  (.ok (), { fs := f s.fs, trace := s.trace ++ [f s.fs] })

/-- Reading the file system. -/
def fsRead {W α : Type} (f : FS W → Except Err α) : FsM W α := fun s => (f s.fs, s)

/-- Is there a directory? -/
def FS.isDir {W : Type} (fs : FS W) (p : Path) : Bool :=
  match fs p with
  | some .dir => true
  | _ => false

/-- Is there a file? -/
def FS.isFile {W : Type} (fs : FS W) (p : Path) : Bool :=
  match fs p with
  | some (.file _) => true
  | _ => false

/-- Making the missing ones of the given directories, in order. -/
def mkdirEach {W : Type} : List Path → FsM W Unit
  | [] => pure ()
  | q :: rest => do
      let there ← fsRead fun fs => .ok (fs q).isSome
      if there then mkdirEach rest
      else do
        fsStep fun fs => fs.set q .dir
        mkdirEach rest

/-- `path.mkdir(parents=True)` for a path that does not exist: the missing directories are made from the top; a file on
the way is an `OSError`, raised before anything is made. -/
def mkdirParents {W : Type} (p : Path) : FsM W Unit := do
  let bad ← fsRead fun fs => .ok (p.inits.any fun q => fs.isFile q)
  if bad then throw .os else mkdirEach p.inits

/-- Writing a file: the directory has to be there and there must not be a directory of that name.  The file is
first truncated. -/
def writeFile {W : Type} (dir : Path) (name : String) (c : Content W) : FsM W Unit := do
  let good ← fsRead fun fs => .ok (fs.isDir dir && !fs.isDir (dir ++ [name]))
  if good then do
    fsStep fun fs => fs.set (dir ++ [name]) (.file .torn)
    fsStep fun fs => fs.set (dir ++ [name]) (.file c)
  else throw .os

/-- Reading a file: a missing file is an `OSError`. -/
def FS.content {W : Type} (fs : FS W) (p : Path) : Except Err (Content W) :=
  match fs p with
  | some (.file c) => .ok c
  | _ => .error .os

/-- /repo/resistics/common.py:920-930 `_check_dir` followed by the test every writer makes of its result
(/repo/resistics/decimate.py:825-826, window.py:1555-1556, spectra.py:784-785, time.py:1135-1136, 1170-1171). -/
def checkDir {W : Type} (overwrite : Bool) (dir : Path) : FsM W Unit := do
  let there ← fsRead fun fs => .ok (fs dir).isSome
  if there then (if overwrite then pure () else throw .write) else mkdirParents dir

/-- The writers of decimated, windowed and spectra data (/repo/resistics/decimate.py:823-834, window.py:1553-1564,
spectra.py:782-793): an archive keyed by `str(level)`, then the metadata with a record more. -/
def writeLevels {W : Type} (overwrite : Bool) (writer : String) (dir : Path) (p : Payload)
    (files : List (String × List String)) (data : List (ℕ × NpArr W)) : FsM W Unit := do
  checkDir overwrite dir
  writeFile dir "data.npz" (.npz (data.map fun q => (q.1.repr, q.2)))
  writeFile dir "metadata.json" (.metaJson (p.withHistory (p.history ++ [writer])) files)

/-- `DecimatedDataWriter.run`. -/
def writeDec {W : Type} (overwrite : Bool) (dir : Path) (files : List (String × List String)) (d : DecData ℚ) :
    FsM W Unit :=
  writeLevels overwrite "DecimatedDataWriter" dir (.dec d.md) files (d.data.map fun q => (q.1, .mat q.2))

/-- `WindowedDataWriter.run`. -/
def writeWin {W : Type} (overwrite : Bool) (dir : Path) (files : List (String × List String)) (d : WinData ℚ) :
    FsM W Unit :=
  writeLevels overwrite "WindowedDataWriter" dir (.win d.md) files (d.data.map fun q => (q.1, .win q.2))

/-- `SpectraDataWriter.run`. -/
def writeSpec {W : Type} (overwrite : Bool) (dir : Path) (files : List (String × List String)) (d : SpecData W) :
    FsM W Unit :=
  writeLevels overwrite "SpectraDataWriter" dir (.spec d.md) files (d.data.map fun q => (q.1, .spec q.2))

/-- Parsing a file as metadata. -/
def parseMeta {W : Type} : Content W → Except Err (Payload × List (String × List String))
  | .metaJson p f => .ok (p, f)
  | _ => .error .value

/-- Opening a file as an archive of numpy arrays. -/
def parseNpz {W : Type} : Content W → Except Err (List (String × NpArr W))
  | .npz es => .ok es
  | _ => .error .value

/-- `int(level)` of an archive key, with its array.  Simplification: only plain digits are accepted. -/
def levelKey {W : Type} (q : String × NpArr W) : Except Err (ℕ × NpArr W) :=
  match q.1.toNat? with
  | some n => .ok (n, q.2)
  | none => .error .value

/-- `Metadata.parse_file(metadata_path)`: a file that is not the JSON of metadata is a `ValueError`. -/
def FS.metadata {W : Type} (fs : FS W) (dir : Path) : Except Err (Payload × List (String × List String)) := do
  let c ← fs.content (dir ++ ["metadata.json"])
  parseMeta c

/-- `np.load(data_path)` and `{int(level): npz_file[level] for level in npz_file.files}`. -/
def FS.archive {W : Type} (fs : FS W) (dir : Path) : Except Err (List (ℕ × NpArr W)) := do
  let c ← fs.content (dir ++ ["data.npz"])
  let es ← parseNpz c
  es.mapM levelKey

/-- Arrays and metadata of decimated data; others are refused. -/
def decArray {W : Type} : ℕ × NpArr W → Except Err (ℕ × List (List ℚ))
  | (n, .mat a) => .ok (n, a)
  | _ => .error .value

/-- See `decArray`. -/
def decPayload : Payload → Except Err DecMeta
  | .dec m => .ok m
  | _ => .error .value

/-- Arrays and metadata of windowed data. -/
def winArray {W : Type} : ℕ × NpArr W → Except Err (ℕ × WinArr ℚ)
  | (n, .win a) => .ok (n, a)
  | _ => .error .value

/-- See `winArray`. -/
def winPayload : Payload → Except Err WinMeta
  | .win m => .ok m
  | _ => .error .value

/-- Arrays and metadata of spectra data. -/
def specArray {W : Type} : ℕ × NpArr W → Except Err (ℕ × SpecArr W)
  | (n, .spec a) => .ok (n, a)
  | _ => .error .value

/-- See `specArray`. -/
def specPayload : Payload → Except Err SpecMeta
  | .spec m => .ok m
  | _ => .error .value

/-- `DecimatedDataReader.run` (/repo/resistics/decimate.py:862-877).  Simplification: metadata of another kind are
refused, and so are arrays of another dimension, which the code would accept. -/
def readDecFiles {W : Type} (fs : FS W) (dir : Path) : Except Err (DecData ℚ) := do
  if (fs dir).isNone then throw .read
  let p ← fs.metadata dir
  let m ← decPayload p.1
  let data ← fs.archive dir
  let data ← data.mapM decArray
  let _ ← dictGet data 0
  return { md := { m with history := m.history ++ ["DecimatedDataReader"] }, data := data }

/-- `WindowedDataReader.run` (/repo/resistics/window.py:1592-1607). -/
def readWinFiles {W : Type} (fs : FS W) (dir : Path) : Except Err (WinData ℚ) := do
  if (fs dir).isNone then throw .read
  let p ← fs.metadata dir
  let m ← winPayload p.1
  let data ← fs.archive dir
  let data ← data.mapM winArray
  let _ ← dictGet data 0
  return { md := { m with history := m.history ++ ["WindowedDataReader"] }, data := data }

/-- `SpectraDataReader.run` (/repo/resistics/spectra.py:821-836). -/
def readSpecFiles {W : Type} (fs : FS W) (dir : Path) : Except Err (SpecData W) := do
  if (fs dir).isNone then throw .read
  let p ← fs.metadata dir
  let m ← specPayload p.1
  let data ← fs.archive dir
  let data ← data.mapM specArray
  let _ ← dictGet data 0
  return { md := { m with history := m.history ++ ["SpectraDataReader"] }, data := data }

/-! ## Time data -/

/-- `TimeWriterNumpy.run` (/repo/resistics/time.py:1133-1146). -/
def writeTimeNumpy {W : Type} (overwrite : Bool) (dir : Path) (files : List (String × List String))
    (d : TimeData ℚ) : FsM W Unit := do
  checkDir overwrite dir
  writeFile dir "data.npy" (.npy d.data)
  let f ← fsRead fun _ => setDataFiles d.md.chans (fun _ => "data.npy") files
  writeFile dir "metadata.json"
    (.metaJson (.time { d.md with history := d.md.history ++ ["TimeWriterNumpy"] }) f)

/-- The loop at /repo/resistics/time.py:1177-1180: one file for each channel. -/
def writeAsciiChans {W : Type} (fmt : List ℚ → List String) (dir : Path) (d : TimeData ℚ) : List String → FsM W Unit
  | [] => pure ()
  | c :: rest => do
      let row ← fsRead fun _ => d.getChan c
      writeFile dir (c.toLower ++ ".ascii") (.text (fmt row))
      writeAsciiChans fmt dir d rest

/-- `TimeWriterAscii.run` (/repo/resistics/time.py:1168-1182); `fmt` renders a channel's samples as lines. -/
def writeTimeAscii {W : Type} (overwrite : Bool) (fmt : List ℚ → List String) (dir : Path)
    (files : List (String × List String)) (d : TimeData ℚ) : FsM W Unit := do
  checkDir overwrite dir
  writeAsciiChans fmt dir d d.md.chans
  let f ← fsRead fun _ => setDataFiles d.md.chans (fun c => c.toLower ++ ".ascii") files
  writeFile dir "metadata.json"
    (.metaJson (.time { d.md with history := d.md.history ++ ["TimeWriterAscii"] }) f)

/-- `Path.suffix` of a file name is the given extension (such as ".npy"): the name ends with it and has something
before it. -/
def hasSuffix (ext name : String) : Bool :=
  ext.toList.isSuffixOf name.toList && decide (ext.toList.length < name.toList.length)

/-- Metadata of time data; other metadata are refused. -/
def timePayload : Payload → Except Err TimeMeta
  | .time m => .ok m
  | _ => .error .value

/-- `TimeReaderJSON.read_metadata` (/repo/resistics/time.py:979-994, 833-857): all data files must exist and have the
extension of the reader. -/
def FS.timeMetadata {W : Type} (fs : FS W) (ext : String) (dir : Path) :
    Except Err (TimeMeta × List (String × List String)) := do
  let q ← fs.metadata dir
  let m ← timePayload q.1
  if !(q.2.all fun c => c.2.all fun x => fs.isFile (dir ++ [x])) then throw .timeRead
  if !(q.2.all fun c => c.2.all fun x => hasSuffix ext x) then throw .timeRead
  return (m, q.2)

/-- `np.load` of a ".npy" file. -/
def npyArray {W : Type} : Content W → Except Err (List (List ℚ))
  | .npy a => .ok a
  | _ => .error .value

/-- `TimeReaderNumpy` (/repo/resistics/time.py:748-766, 1096-1108): the array comes from the first data file of the first
channel. -/
def readTimeNumpyFiles {W : Type} (fs : FS W) (dir : Path) (r : ReadReq) : Except Err (TimeData ℚ) := do
  let mf ← fs.timeMetadata ".npy" dir
  let ab ← getReadSamples mf.1 r
  let chan ← pyIndex mf.1.chans 0
  let fileList ← dictGet mf.2 chan
  let name ← pyIndex fileList 0
  let c ← fs.content (dir ++ [name])
  let arr ← npyArray c
  readDataNumpy arr mf.1 ab.1 ab.2

/-- The metadata part of `TimeReaderAscii` (/repo/resistics/time.py:997-1008): its extension is ".txt". -/
def readTimeAsciiMetadata {W : Type} (fs : FS W) (dir : Path) : Except Err (TimeMeta × List (String × List String)) :=
  fs.timeMetadata ".txt" dir

end Resistics
