import Verif.Lemmas.Files
import Verif.Props.TimeRead

/-!
# Properties C39 and C40: writing data to directories and reading them back

`FsState.trace` records every state of the file system passed through, so a theorem about all its members is a theorem
about every point at which the process may be interrupted.
-/

namespace Resistics

variable {W : Type}

/-- Specification: a proper file tree: the root is a directory and everything else lies in a directory. -/
structure FS.Tree (fs : FS W) : Prop where
  root : fs [] = some .dir
  parent : ∀ (p : Path) (n : String), (fs (p ++ [n])).isSome = true → fs p = some .dir

/-- Specification: going from `fs` to `t` only missing parents of `dir` or `dir` itself were made, as directories, and
only the files `names` in `dir` were changed. -/
def OnlyOutput (dir : Path) (names : List String) (fs t : FS W) : Prop :=
  ∀ q, t q ≠ fs q → (q <+: dir ∧ fs q = none ∧ t q = some .dir) ∨ ∃ n ∈ names, q = dir ++ [n]

theorem Frame.onlyOutput {dir : Path} {names : List String} {fs t : FS W} (h : Frame dir names fs t) :
    OnlyOutput dir names fs t := fun q hq => (h q).resolve_left hq

/-- In a tree, all prefixes of an existing directory are directories. -/
theorem FS.Tree.prefix_dir {fs : FS W} (h : fs.Tree) {p q : Path} (hq : fs q = some .dir) (hp : p <+: q) :
    fs p = some .dir := by
  obtain ⟨r, rfl⟩ := hp
  induction r using List.reverseRecOn with
  | nil => simpa using hq
  | append_singleton r x ih =>
    rw [← List.append_assoc] at hq
    exact ih (h.parent _ x (by rw [hq]; rfl))

/-- The checked output directory. -/
def readyFs (fs : FS W) (dir : Path) : FS W := if (fs dir).isSome then fs else fs.withDirs dir.inits

/-- The output directory can be used by a writer: it is a directory, or it does not exist and no file is in the way. -/
def Usable (overwrite : Bool) (fs : FS W) (dir : Path) : Prop :=
  (overwrite = true ∧ fs dir = some .dir) ∨ (fs dir = none ∧ ∀ q, q <+: dir → fs.isFile q = false)

theorem withDirs_self (fs : FS W) (dir : Path) (h : fs dir = none) : fs.withDirs dir.inits dir = some .dir := by
  simp [FS.withDirs, h]

theorem readyFs_dir {ov : Bool} {fs : FS W} {dir : Path} (h : Usable ov fs dir) :
    readyFs fs dir dir = some .dir := by
  rcases h with ⟨_, h⟩ | ⟨h, _⟩
  · simp [readyFs, h]
  · simp [readyFs, h, withDirs_self]

theorem readyFs_file (fs : FS W) (dir : Path) (n : String) : readyFs fs dir (dir ++ [n]) = fs (dir ++ [n]) := by
  unfold readyFs
  split
  · rfl
  · unfold FS.withDirs
    rw [if_neg]
    rintro ⟨h, _⟩
    have := (List.mem_inits _ _ |>.1 h).length_le
    simp at this

theorem checkDir_usable {ov : Bool} {dir : Path} {s : FsState W} (h : Usable ov s.fs dir) :
    ∃ steps, checkDir ov dir s = (.ok (), s.after steps) ∧ (s.after steps).fs = readyFs s.fs dir ∧
      (∀ t ∈ steps, Frame dir [] s.fs t) ∧ ((s.fs dir).isSome = true → steps = []) := by
  rcases checkDir_run ov dir s with ⟨h1, h2, _⟩ | ⟨h1, h2, h3⟩ | ⟨h1, ⟨q, hq, hf⟩, _⟩ | ⟨h1, _, steps, h3, h4, h5⟩
  · exfalso
    rcases h with ⟨h, _⟩ | ⟨h, _⟩
    · rw [h] at h2; cases h2
    · rw [h] at h1; cases h1
  · exact ⟨[], by rw [after_nil]; exact h3, by rw [after_nil]; simp [readyFs, h1], by simp, fun _ => rfl⟩
  · exfalso
    rcases h with ⟨_, h⟩ | ⟨_, h⟩
    · rw [h] at h1; cases h1
    · rw [h q hq] at hf; cases hf
  · refine ⟨steps, h3, ?_, h5, ?_⟩
    · rw [h4]; simp [readyFs, h1]
    · intro h; rw [h1] at h; cases h

/-- The file system with the two files of the output. -/
def FS.with2 (fs : FS W) (dir : Path) (n1 : String) (c1 : Content W) (n2 : String) (c2 : Content W) : FS W :=
  (fs.set (dir ++ [n1]) (.file c1)).set (dir ++ [n2]) (.file c2)

theorem isDir_false_of_ne {fs : FS W} {p : Path} (h : fs p ≠ some .dir) : fs.isDir p = false := by
  unfold FS.isDir
  split
  · rename_i h'; exact absurd h' h
  · rfl

theorem isDir_true {fs : FS W} {p : Path} (h : fs p = some .dir) : fs.isDir p = true := by
  unfold FS.isDir; rw [h]

theorem isDir_iff {fs : FS W} {p : Path} : fs.isDir p = true ↔ fs p = some .dir := by
  constructor
  · intro h
    by_contra hne
    rw [isDir_false_of_ne hne] at h; cases h
  · exact isDir_true

/-- Writing one file where it can be written. -/
theorem writeFile_ok {dir : Path} {name : String} {c : Content W} {s : FsState W} (hd : s.fs dir = some .dir)
    (hn : s.fs (dir ++ [name]) ≠ some .dir) :
    writeFile dir name c s =
      (.ok (), s.after [s.fs.set (dir ++ [name]) (.file .torn), s.fs.set (dir ++ [name]) (.file c)]) := by
  rcases writeFile_run dir name c s with ⟨_, h⟩ | ⟨h, _⟩
  · exact h
  · rw [isDir_true hd, isDir_false_of_ne hn] at h; cases h

theorem set_ne {fs : FS W} {p q : Path} {x : Node W} (h : q ≠ p) : fs.set p x q = fs q := by
  simp [FS.set, h]

theorem set_eq {fs : FS W} {p : Path} {x : Node W} : fs.set p x p = some x := by
  simp [FS.set]

theorem dir_ne (dir : Path) (n : String) : dir ≠ dir ++ [n] := by
  intro h
  have := congrArg List.length h
  simp at this

/-- The four states passed through when two files are written. -/
def twoFileSteps (fs : FS W) (dir : Path) (n1 : String) (c1 : Content W) (n2 : String) (c2 : Content W) :
    List (FS W) :=
  [fs.set (dir ++ [n1]) (.file .torn), fs.set (dir ++ [n1]) (.file c1), fs.with2 dir n1 c1 n2 .torn,
    fs.with2 dir n1 c1 n2 c2]

theorem writeTwo_ok {dir : Path} {n1 n2 : String} (hne : n1 ≠ n2) {c1 c2 : Content W} {s : FsState W}
    (hd : s.fs dir = some .dir) (h1 : s.fs (dir ++ [n1]) ≠ some .dir) (h2 : s.fs (dir ++ [n2]) ≠ some .dir) :
    (do writeFile dir n1 c1; writeFile dir n2 c2 : FsM W Unit) s =
      (.ok (), s.after (twoFileSteps s.fs dir n1 c1 n2 c2)) := by
  have hne' : dir ++ [n2] ≠ dir ++ [n1] := by simpa using fun h => hne h.symm
  rw [fs_bind, writeFile_ok hd h1]
  simp only
  have hfs : (s.after [s.fs.set (dir ++ [n1]) (.file .torn), s.fs.set (dir ++ [n1]) (.file c1)]).fs =
      s.fs.set (dir ++ [n1]) (.file c1) := rfl
  rw [writeFile_ok (by rw [hfs, set_ne (dir_ne dir n1)]; exact hd) (by rw [hfs, set_ne hne']; exact h2), after_after,
    hfs]
  rfl

theorem writeLevels_ok {ov : Bool} {writer : String} {dir : Path} {p : Payload} {files : List (String × List String)}
    {data : List (ℕ × NpArr W)} {s : FsState W} (hu : Usable ov s.fs dir)
    (h1 : s.fs (dir ++ ["data.npz"]) ≠ some .dir) (h2 : s.fs (dir ++ ["metadata.json"]) ≠ some .dir) :
    ∃ mk, writeLevels ov writer dir p files data s = (.ok (), s.after (mk ++ twoFileSteps (readyFs s.fs dir) dir
        "data.npz" (.npz (data.map fun q => (q.1.repr, q.2)))
        "metadata.json" (.metaJson (p.withHistory (p.history ++ [writer])) files))) ∧
      (∀ t ∈ mk, Frame dir [] s.fs t) ∧ ((s.fs dir).isSome = true → mk = []) ∧
      (s.after mk).fs = readyFs s.fs dir := by
  obtain ⟨mk, hc, hfs, hfr, hnil⟩ := checkDir_usable hu
  refine ⟨mk, ?_, hfr, hnil, hfs⟩
  unfold writeLevels
  rw [fs_bind, hc]
  simp only
  rw [writeTwo_ok (by decide) (by rw [hfs]; exact readyFs_dir hu) (by rw [hfs, readyFs_file]; exact h1)
    (by rw [hfs, readyFs_file]; exact h2), after_after, hfs]

/-! ## The writers as one family -/

/-- A call of one of the five writers with its data. -/
inductive WriteCall (W : Type) where
  | dec (d : DecData ℚ)
  | win (d : WinData ℚ)
  | spec (d : SpecData W)
  | timeNumpy (d : TimeData ℚ)
  | timeAscii (fmt : List ℚ → List String) (d : TimeData ℚ)

/-- What the call does. -/
def WriteCall.run (overwrite : Bool) (dir : Path) (files : List (String × List String)) : WriteCall W → FsM W Unit
  | .dec d => writeDec overwrite dir files d
  | .win d => writeWin overwrite dir files d
  | .spec d => writeSpec overwrite dir files d
  | .timeNumpy d => writeTimeNumpy overwrite dir files d
  | .timeAscii fmt d => writeTimeAscii overwrite fmt dir files d

/-- Specification: the names of the files a writer may write. -/
def WriteCall.names : WriteCall W → List String
  | .dec _ | .win _ | .spec _ => ["data.npz", "metadata.json"]
  | .timeNumpy _ => ["data.npy", "metadata.json"]
  | .timeAscii _ d => d.md.chans.map (fun c => c.toLower ++ ".ascii") ++ ["metadata.json"]

/-- Specification: the metadata given to a writer. -/
def WriteCall.payload : WriteCall W → Payload
  | .dec d => .dec d.md
  | .win d => .win d.md
  | .spec d => .spec d.md
  | .timeNumpy d => .time d.md
  | .timeAscii _ d => .time d.md

/-- Specification: the name a writer leaves in the history. -/
def WriteCall.record : WriteCall W → String
  | .dec _ => "DecimatedDataWriter"
  | .win _ => "WindowedDataWriter"
  | .spec _ => "SpectraDataWriter"
  | .timeNumpy _ => "TimeWriterNumpy"
  | .timeAscii _ _ => "TimeWriterAscii"

/-- A writer begins with the check of the directory. -/
theorem WriteCall.run_checked (call : WriteCall W) (ov : Bool) (dir : Path) (files : List (String × List String)) :
    ∃ rest : FsM W Unit, call.run ov dir files = (checkDir ov dir >>= fun _ => rest) := by
  cases call <;> exact ⟨_, rfl⟩

/-- **C39 (nothing is replaced)**: with overwrite off, every writer pointed at a path that exists (directory or file)
raises `WriteError`, and the file system has not been touched at all. -/
theorem C39_refuses_existing (call : WriteCall W) (dir : Path) (files : List (String × List String)) (s : FsState W)
    (h : (s.fs dir).isSome = true) : call.run false dir files s = (.error .write, s) := by
  obtain ⟨rest, hr⟩ := call.run_checked false dir files
  rw [hr, fs_bind]
  rcases checkDir_run false dir s with ⟨_, _, h3⟩ | ⟨_, h2, _⟩ | ⟨h1, _⟩ | ⟨h1, _⟩
  · rw [h3]
  · cases h2
  · rw [h1] at h; cases h
  · rw [h1] at h; cases h

/-- **C39 (a file in the way)**: when the directory does not exist and one of its parents is a file, every writer raises
an `OSError` and the file system has not been touched. -/
theorem C39_file_in_the_way (call : WriteCall W) (ov : Bool) (dir : Path) (files : List (String × List String))
    (s : FsState W) (h : s.fs dir = none) (hf : ∃ q, q <+: dir ∧ s.fs.isFile q = true) :
    call.run ov dir files s = (.error .os, s) := by
  obtain ⟨rest, hr⟩ := call.run_checked ov dir files
  rw [hr, fs_bind]
  rcases checkDir_run ov dir s with ⟨h1, _⟩ | ⟨h1, _⟩ | ⟨_, _, h3⟩ | ⟨_, h2, _⟩
  · rw [h] at h1; cases h1
  · rw [h] at h1; cases h1
  · rw [h3]
  · obtain ⟨q, hq, hq'⟩ := hf
    rw [h2 q hq] at hq'; cases hq'

/-- All states passed through differ from the first one only in the output. -/
def Framed {α : Type} (dir : Path) (names : List String) (x : FsM W α) : Prop :=
  ∀ s, ∃ steps, (x s).2 = s.after steps ∧ ∀ t ∈ steps, Frame dir names s.fs t

theorem after_fs_frame {dir : Path} {names : List String} {s : FsState W} {steps : List (FS W)}
    (h : ∀ t ∈ steps, Frame dir names s.fs t) : Frame dir names s.fs (s.after steps).fs := by
  unfold FsState.after
  cases hl : steps.getLast? with
  | none => exact Frame.refl _ _ _
  | some t => exact h t (List.mem_of_getLast? hl)

theorem Framed.bind {α β : Type} {dir : Path} {names : List String} {x : FsM W α} {f : α → FsM W β}
    (hx : Framed dir names x) (hf : ∀ a, Framed dir names (f a)) : Framed dir names (x >>= f) := by
  intro s
  obtain ⟨st, h1, h2⟩ := hx s
  rw [fs_bind]
  rcases hxs : x s with ⟨r, s'⟩
  rw [hxs] at h1
  simp only at h1
  subst h1
  cases r with
  | error e => exact ⟨st, rfl, h2⟩
  | ok a =>
    obtain ⟨st', h3, h4⟩ := hf a (s.after st)
    refine ⟨st ++ st', ?_, ?_⟩
    · simp only; rw [h3, after_after]
    · intro t ht
      rcases List.mem_append.1 ht with ht | ht
      · exact h2 t ht
      · exact (after_fs_frame h2).trans (h4 t ht)

theorem Framed.read {α : Type} {dir : Path} {names : List String} (f : FS W → Except Err α) :
    Framed dir names (fsRead f) := fun s => ⟨[], by rw [after_nil]; rfl, by simp⟩

theorem Framed.pure {α : Type} {dir : Path} {names : List String} (a : α) :
    Framed dir names (pure a : FsM W α) := fun s => ⟨[], by rw [after_nil]; rfl, by simp⟩

theorem Framed.check {dir : Path} {names : List String} (ov : Bool) :
    Framed dir names (checkDir ov dir : FsM W Unit) := by
  intro s
  rcases checkDir_run ov dir s with ⟨_, _, h⟩ | ⟨_, _, h⟩ | ⟨_, _, h⟩ | ⟨_, _, st, h, _, h'⟩
  · exact ⟨[], by rw [after_nil, h], by simp⟩
  · exact ⟨[], by rw [after_nil, h], by simp⟩
  · exact ⟨[], by rw [after_nil, h], by simp⟩
  · exact ⟨st, by rw [h], fun t ht => (h' t ht).mono (by simp)⟩

theorem Framed.file {dir : Path} {names : List String} {n : String} (hn : n ∈ names) (c : Content W) :
    Framed dir names (writeFile dir n c) := by
  intro s
  rcases writeFile_run dir n c s with ⟨_, h⟩ | ⟨_, h⟩
  · refine ⟨_, by rw [h], ?_⟩
    intro t ht
    simp only [List.mem_cons, List.not_mem_nil, or_false] at ht
    rcases ht with rfl | rfl <;> exact Frame.set_file hn _
  · exact ⟨[], by rw [after_nil, h], by simp⟩

theorem Framed.asciiChans {dir : Path} {names : List String} (fmt : List ℚ → List String) (d : TimeData ℚ)
    (cs : List String) (hn : ∀ c ∈ cs, c.toLower ++ ".ascii" ∈ names) :
    Framed dir names (writeAsciiChans fmt dir d cs : FsM W Unit) := by
  induction cs with
  | nil => exact Framed.pure ()
  | cons c cs ih =>
    unfold writeAsciiChans
    exact (Framed.read _).bind fun row => (Framed.file (hn c (by simp)) _).bind fun _ =>
      ih fun x hx => hn x (by simp [hx])

theorem WriteCall.framed (call : WriteCall W) (ov : Bool) (dir : Path) (files : List (String × List String)) :
    Framed dir call.names (call.run ov dir files) := by
  cases call with
  | dec d => exact (Framed.check ov).bind fun _ => (Framed.file (by simp [WriteCall.names]) _).bind fun _ =>
      Framed.file (by simp [WriteCall.names]) _
  | win d => exact (Framed.check ov).bind fun _ => (Framed.file (by simp [WriteCall.names]) _).bind fun _ =>
      Framed.file (by simp [WriteCall.names]) _
  | spec d => exact (Framed.check ov).bind fun _ => (Framed.file (by simp [WriteCall.names]) _).bind fun _ =>
      Framed.file (by simp [WriteCall.names]) _
  | timeNumpy d => exact (Framed.check ov).bind fun _ => (Framed.file (by simp [WriteCall.names]) _).bind fun _ =>
      (Framed.read _).bind fun _ => Framed.file (by simp [WriteCall.names]) _
  | timeAscii fmt d =>
    refine (Framed.check ov).bind fun _ => (Framed.asciiChans fmt d d.md.chans ?_).bind fun _ =>
      (Framed.read _).bind fun _ => Framed.file (by simp [WriteCall.names]) _
    intro c hc
    simp only [WriteCall.names, List.mem_append, List.mem_map]
    exact Or.inl ⟨c, hc, rfl⟩

/-- **C39 (nothing else is touched, at any time)**: whatever the outcome of a writer, overwriting or not, in every state
of the file system it passes through, and in the last one, nothing outside the output directory has changed except that
missing parents were made as directories, and inside it only the writer's own files have. -/
theorem C39_touches_only_its_output (call : WriteCall W) (ov : Bool) (dir : Path) (files : List (String × List String))
    (s : FsState W) :
    ∃ steps, (call.run ov dir files s).2.trace = s.trace ++ steps ∧
      (∀ t ∈ steps, OnlyOutput dir call.names s.fs t) ∧
      OnlyOutput dir call.names s.fs (call.run ov dir files s).2.fs := by
  obtain ⟨steps, h1, h2⟩ := call.framed ov dir files s
  refine ⟨steps, by rw [h1]; rfl, fun t ht => (h2 t ht).onlyOutput, ?_⟩
  rw [h1]
  exact (after_fs_frame h2).onlyOutput

/-! ## What is there afterwards -/

theorem setDataFiles_ok (name : String → String) (chans : List String) (f : List (String × List String))
    (h : ∀ c ∈ chans, ∃ q ∈ f, q.1 = c) :
    setDataFiles chans name f = .ok (f.map fun q => if q.1 ∈ chans then (q.1, [name q.1]) else q) := by
  unfold setDataFiles
  induction chans generalizing f with
  | nil => simp only [List.foldlM_nil, List.not_mem_nil, if_false, List.map_id']; rfl
  | cons c cs ih =>
    rw [List.foldlM_cons]
    have hc : (f.any fun q => q.1 = c) = true := by
      obtain ⟨q, hq, hqc⟩ := h c (by simp)
      exact List.any_eq_true.2 ⟨q, hq, by simpa using hqc⟩
    rw [if_pos hc]
    show List.foldlM _ _ cs = _
    rw [ih]
    · rw [List.map_map]
      congr 1
      apply List.map_congr_left
      intro q _
      simp only [Function.comp, List.mem_cons]
      by_cases hq : q.1 = c
      · subst hq; simp
      · simp [hq]
    · intro x hx
      obtain ⟨q, hq, rfl⟩ := h x (by simp [hx])
      by_cases hqc : q.1 = c
      · exact ⟨(c, [name c]), List.mem_map.2 ⟨q, hq, by simp [hqc]⟩, hqc.symm⟩
      · exact ⟨q, List.mem_map.2 ⟨q, hq, by simp [hqc]⟩, rfl⟩

/-- What the time data writers need: an entry of the channel metadata for every channel, and the samples of every
channel. -/
def WriteCall.Complete (files : List (String × List String)) : WriteCall W → Prop
  | .dec _ | .win _ | .spec _ => True
  | .timeNumpy d => ∀ c ∈ d.md.chans, ∃ q ∈ files, q.1 = c
  | .timeAscii _ d => ∀ c ∈ d.md.chans, (∃ q ∈ files, q.1 = c) ∧ ∃ row, d.getChan c = .ok row

theorem writeTimeNumpy_ok {ov : Bool} {dir : Path} {files : List (String × List String)} {d : TimeData ℚ}
    {s : FsState W} (hu : Usable ov s.fs dir) (h1 : s.fs (dir ++ ["data.npy"]) ≠ some .dir)
    (h2 : s.fs (dir ++ ["metadata.json"]) ≠ some .dir) (hc : ∀ c ∈ d.md.chans, ∃ q ∈ files, q.1 = c) :
    ∃ mk, writeTimeNumpy ov dir files d s = (.ok (), s.after (mk ++ twoFileSteps (readyFs s.fs dir) dir
        "data.npy" (.npy d.data) "metadata.json"
        (.metaJson (.time { d.md with history := d.md.history ++ ["TimeWriterNumpy"] })
          (files.map fun q => if q.1 ∈ d.md.chans then (q.1, ["data.npy"]) else q)))) ∧
      (∀ t ∈ mk, Frame dir [] s.fs t) ∧ ((s.fs dir).isSome = true → mk = []) ∧
      (s.after mk).fs = readyFs s.fs dir := by
  obtain ⟨mk, hck, hfs, hfr, hnil⟩ := checkDir_usable hu
  refine ⟨mk, ?_, hfr, hnil, hfs⟩
  unfold writeTimeNumpy
  rw [fs_bind, hck]
  simp only
  have hd : (s.after mk).fs dir = some .dir := by rw [hfs]; exact readyFs_dir hu
  have h1' : (s.after mk).fs (dir ++ ["data.npy"]) ≠ some .dir := by rw [hfs, readyFs_file]; exact h1
  have h2' : (s.after mk).fs (dir ++ ["metadata.json"]) ≠ some .dir := by rw [hfs, readyFs_file]; exact h2
  rw [fs_bind, writeFile_ok hd h1']
  simp only
  rw [fs_read_bind, setDataFiles_ok _ _ _ hc]
  simp only
  have := writeTwo_ok (n1 := "data.npy") (n2 := "metadata.json") (by decide) (c1 := .npy d.data)
    (c2 := .metaJson (.time { d.md with history := d.md.history ++ ["TimeWriterNumpy"] })
          (files.map fun q => if q.1 ∈ d.md.chans then (q.1, ["data.npy"]) else q)) hd h1' h2'
  rw [fs_bind, writeFile_ok hd h1'] at this
  simp only at this
  rw [this, after_after, hfs]

theorem writeAsciiChans_ok {dir : Path} (fmt : List ℚ → List String) (d : TimeData ℚ) (cs : List String)
    (s : FsState W) (hd : s.fs dir = some .dir) (hn : ∀ c ∈ cs, s.fs (dir ++ [c.toLower ++ ".ascii"]) ≠ some .dir)
    (hc : ∀ c ∈ cs, ∃ row, d.getChan c = .ok row) :
    ∃ steps, writeAsciiChans fmt dir d cs s = (.ok (), s.after steps) ∧
      (∀ p, (s.after steps).fs p = some .dir ↔ s.fs p = some .dir) ∧
      (∀ p, (∀ c ∈ cs, p ≠ dir ++ [c.toLower ++ ".ascii"]) → (s.after steps).fs p = s.fs p) ∧
      ((cs.map String.toLower).Nodup → ∀ c ∈ cs, ∀ row, d.getChan c = .ok row →
        (s.after steps).fs (dir ++ [c.toLower ++ ".ascii"]) = some (.file (.text (fmt row)))) ∧
      ∀ c ∈ cs, ∃ x, (s.after steps).fs (dir ++ [c.toLower ++ ".ascii"]) = some (.file x) := by
  induction cs generalizing s with
  | nil =>
    exact ⟨[], by rw [after_nil]; rfl, fun p => by rw [after_nil], fun p _ => by rw [after_nil], by simp, by simp⟩
  | cons c cs ih =>
    obtain ⟨row, hrow⟩ := hc c (by simp)
    have hwf := writeFile_ok (c := .text (fmt row)) hd (hn c (by simp))
    set s1 := s.after [s.fs.set (dir ++ [c.toLower ++ ".ascii"]) (.file .torn),
      s.fs.set (dir ++ [c.toLower ++ ".ascii"]) (.file (.text (fmt row)))] with hs1
    have hfs1 : s1.fs = s.fs.set (dir ++ [c.toLower ++ ".ascii"]) (.file (.text (fmt row))) := rfl
    have hdir : ∀ p, s1.fs p = some .dir ↔ s.fs p = some .dir := by
      intro p
      rw [hfs1]
      by_cases hp : p = dir ++ [c.toLower ++ ".ascii"]
      · subst hp
        rw [set_eq]
        exact ⟨fun h => (by cases h), fun h => absurd h (hn c (by simp))⟩
      · rw [set_ne hp]
    obtain ⟨st, h1, h2, h3, h4, h5⟩ := ih s1 ((hdir dir).2 hd)
      (fun x hx h => hn x (by simp [hx]) ((hdir _).1 h)) (fun x hx => hc x (by simp [hx]))
    refine ⟨[s.fs.set (dir ++ [c.toLower ++ ".ascii"]) (.file .torn),
      s.fs.set (dir ++ [c.toLower ++ ".ascii"]) (.file (.text (fmt row)))] ++ st, ?_, ?_, ?_, ?_, ?_⟩
    · unfold writeAsciiChans
      rw [fs_read_bind, hrow]
      simp only
      rw [fs_bind, hwf]
      simp only
      rw [h1, hs1, after_after]
    · intro p
      rw [← after_after, ← hs1, h2, hdir]
    · intro p hp
      rw [← after_after, ← hs1, h3 p fun x hx => hp x (by simp [hx]), hfs1, set_ne (hp c (by simp))]
    · intro hnd x hx r hr
      rw [List.map_cons, List.nodup_cons] at hnd
      rw [← after_after, ← hs1]
      rcases List.mem_cons.1 hx with rfl | hx
      · rw [h3]
        · rw [hrow] at hr
          cases hr
          rw [hfs1, set_eq]
        · intro y hy he
          have he' : x.toLower ++ ".ascii" = y.toLower ++ ".ascii" := by simpa using he
          have : x.toLower = y.toLower := by simpa using he'
          exact hnd.1 (this ▸ List.mem_map_of_mem hy)
      · exact h4 hnd.2 x hx r hr
    · intro x hx
      rw [← after_after, ← hs1]
      by_cases hin : ∃ y ∈ cs, dir ++ [x.toLower ++ ".ascii"] = dir ++ [y.toLower ++ ".ascii"]
      · obtain ⟨y, hy, he⟩ := hin
        rw [he]
        exact h5 y hy
      · rcases List.mem_cons.1 hx with rfl | hx
        · rw [h3 _ fun y hy he => hin ⟨y, hy, he⟩, hfs1, set_eq]
          exact ⟨_, rfl⟩
        · exact absurd ⟨x, hx, rfl⟩ hin

/-- Directories after making the missing ones. -/
theorem readyFs_prefix {ov : Bool} {fs : FS W} {dir : Path} (ht : fs.Tree) (hu : Usable ov fs dir) {q : Path}
    (hq : q <+: dir) : readyFs fs dir q = some .dir := by
  rcases hu with ⟨_, h⟩ | ⟨h, hf⟩
  · simp [readyFs, h, ht.prefix_dir h hq]
  · have hmem : q ∈ dir.inits := (List.mem_inits _ _).2 hq
    simp only [readyFs, h, Option.isSome_none, Bool.false_eq_true, if_false, FS.withDirs, hmem, true_and]
    cases hn : fs q with
    | none => simp
    | some n =>
      have := hf q hq
      unfold FS.isFile at this
      rw [hn] at this
      cases n with
      | dir => simp
      | file c => simp at this

theorem prefix_ne_file {dir q : Path} (hq : q <+: dir) (n : String) : q ≠ dir ++ [n] := by
  rintro rfl
  have := hq.length_le
  simp at this

theorem twoFileSteps_fs (s : FsState W) (mk : List (FS W)) (fs : FS W) (dir : Path) (n1 n2 : String)
    (c1 c2 : Content W) : (s.after (mk ++ twoFileSteps fs dir n1 c1 n2 c2)).fs = fs.with2 dir n1 c1 n2 c2 := by
  simp [FsState.after, twoFileSteps, List.getLast?_append]

theorem with2_prefix {fs : FS W} {dir q : Path} (hq : q <+: dir) (n1 n2 : String) (c1 c2 : Content W) :
    fs.with2 dir n1 c1 n2 c2 q = fs q := by
  unfold FS.with2
  rw [set_ne (prefix_ne_file hq n2), set_ne (prefix_ne_file hq n1)]

theorem with2_second (fs : FS W) (dir : Path) (n1 n2 : String) (c1 c2 : Content W) :
    fs.with2 dir n1 c1 n2 c2 (dir ++ [n2]) = some (.file c2) := set_eq

theorem with2_first (fs : FS W) (dir : Path) {n1 n2 : String} (h : n1 ≠ n2) (c1 c2 : Content W) :
    fs.with2 dir n1 c1 n2 c2 (dir ++ [n1]) = some (.file c1) := by
  unfold FS.with2
  rw [set_ne (by simpa using h), set_eq]

/-- **C39 (otherwise it writes)**: in a proper file tree, if overwriting is allowed and the directory is there, or the
directory does not exist and no parent is a file, then (no directory having the name of an output file, and the time
data having metadata for all their channels) every writer succeeds, whatever was in the directory; afterwards
the directory and all its parents are there, all the writer's files are, and the metadata file holds the metadata given
with one history record more. -/
theorem C39_writes (call : WriteCall W) (ov : Bool) (dir : Path) (files : List (String × List String))
    (s : FsState W) (ht : s.fs.Tree)
    (hu : (ov = true ∧ s.fs dir = some .dir) ∨ (s.fs dir = none ∧ ∀ q, q <+: dir → s.fs.isFile q = false))
    (hn : ∀ n ∈ call.names, s.fs (dir ++ [n]) ≠ some .dir) (hc : call.Complete files) :
    ∃ s', call.run ov dir files s = (.ok (), s') ∧ (∀ q, q <+: dir → s'.fs q = some .dir) ∧
      (∀ n ∈ call.names, s'.fs.isFile (dir ++ [n]) = true) ∧
      ∃ f, s'.fs (dir ++ ["metadata.json"]) =
        some (.file (.metaJson (call.payload.withHistory (call.payload.history ++ [call.record])) f)) := by
  have hu' : Usable ov s.fs dir := hu
  have levels : ∀ (writer : String) (p : Payload) (data : List (ℕ × NpArr W)),
      (∀ n ∈ ["data.npz", "metadata.json"], s.fs (dir ++ [n]) ≠ some .dir) →
      ∃ s', writeLevels ov writer dir p files data s = (.ok (), s') ∧ (∀ q, q <+: dir → s'.fs q = some .dir) ∧
      (∀ n ∈ ["data.npz", "metadata.json"], s'.fs.isFile (dir ++ [n]) = true) ∧
      ∃ f, s'.fs (dir ++ ["metadata.json"]) = some (.file (.metaJson (p.withHistory (p.history ++ [writer])) f)) := by
    intro writer p data hn
    obtain ⟨mk, h1, -⟩ := writeLevels_ok (writer := writer) (p := p) (files := files) (data := data) hu'
      (hn _ (by simp)) (hn _ (by simp))
    refine ⟨_, h1, ?_, ?_, ?_⟩
    · intro q hq
      rw [twoFileSteps_fs, with2_prefix hq, readyFs_prefix ht hu' hq]
    · intro n hn'
      simp only [List.mem_cons, List.not_mem_nil, or_false] at hn'
      rw [twoFileSteps_fs]
      unfold FS.isFile
      rcases hn' with rfl | rfl
      · rw [with2_first _ _ (by decide)]
      · rw [with2_second]
    · rw [twoFileSteps_fs, with2_second]
      exact ⟨_, rfl⟩
  cases call with
  | dec d => exact levels _ _ _ hn
  | win d => exact levels _ _ _ hn
  | spec d => exact levels _ _ _ hn
  | timeNumpy d =>
    obtain ⟨mk, h1, -⟩ := writeTimeNumpy_ok (files := files) (d := d) hu'
      (hn _ (by simp [WriteCall.names])) (hn _ (by simp [WriteCall.names])) hc
    refine ⟨_, h1, ?_, ?_, ?_⟩
    · intro q hq
      rw [twoFileSteps_fs, with2_prefix hq, readyFs_prefix ht hu' hq]
    · intro n hn'
      simp only [WriteCall.names, List.mem_cons, List.not_mem_nil, or_false] at hn'
      rw [twoFileSteps_fs]
      unfold FS.isFile
      rcases hn' with rfl | rfl
      · rw [with2_first _ _ (by decide)]
      · rw [with2_second]
    · rw [twoFileSteps_fs, with2_second]
      exact ⟨_, rfl⟩
  | timeAscii fmt d =>
    obtain ⟨mk, hck, hfs, -, -⟩ := checkDir_usable hu'
    have hd : (s.after mk).fs dir = some .dir := by rw [hfs]; exact readyFs_dir hu'
    have hn' : ∀ n ∈ (WriteCall.timeAscii (W := W) fmt d).names, (s.after mk).fs (dir ++ [n]) ≠ some .dir := by
      intro n hm
      rw [hfs, readyFs_file]
      exact hn n hm
    obtain ⟨st, h1, h2, h3, -, h5⟩ := writeAsciiChans_ok fmt d d.md.chans (s.after mk) hd
      (fun c hc' => hn' _ (by
        simp only [WriteCall.names, List.mem_append, List.mem_map]
        exact Or.inl ⟨c, hc', rfl⟩)) (fun c hc' => (hc c hc').2)
    have hmeta : ((s.after mk).after st).fs (dir ++ ["metadata.json"]) ≠ some .dir := by
      rw [Ne, h2]; exact hn' _ (by simp [WriteCall.names])
    have hwf := writeFile_ok (c := .metaJson (.time { d.md with history := d.md.history ++ ["TimeWriterAscii"] })
      (files.map fun q => if q.1 ∈ d.md.chans then (q.1, [q.1.toLower ++ ".ascii"]) else q)) ((h2 dir).2 hd) hmeta
    have hrun : (WriteCall.timeAscii fmt d).run ov dir files s = (.ok (), ((s.after mk).after st).after
        [((s.after mk).after st).fs.set (dir ++ ["metadata.json"]) (.file .torn),
          ((s.after mk).after st).fs.set (dir ++ ["metadata.json"]) (.file (.metaJson (.time
            { d.md with history := d.md.history ++ ["TimeWriterAscii"] }) (files.map fun q =>
              if q.1 ∈ d.md.chans then (q.1, [q.1.toLower ++ ".ascii"]) else q)))]) := by
      show writeTimeAscii ov fmt dir files d s = _
      unfold writeTimeAscii
      rw [fs_bind, hck]
      simp only
      rw [fs_bind, h1]
      simp only
      rw [fs_read_bind, setDataFiles_ok _ _ _ fun c hc' => (hc c hc').1]
      simp only
      exact hwf
    refine ⟨_, hrun, ?_, ?_, ?_⟩
    · intro q hq
      show (((s.after mk).after st).fs.set (dir ++ ["metadata.json"]) _) q = some .dir
      rw [set_ne (prefix_ne_file hq _), h2, hfs]
      exact readyFs_prefix ht hu' hq
    · intro n hm
      show FS.isFile (((s.after mk).after st).fs.set (dir ++ ["metadata.json"]) _) (dir ++ [n]) = true
      unfold FS.isFile
      by_cases hnm : n = "metadata.json"
      · subst hnm; rw [set_eq]
      · rw [set_ne (by simpa using hnm)]
        simp only [WriteCall.names, List.mem_append, List.mem_map, List.mem_singleton] at hm
        obtain ⟨c, hc', rfl⟩ := hm.resolve_right hnm
        obtain ⟨x, hx⟩ := h5 c hc'
        rw [hx]
    · refine ⟨_, set_eq⟩

end Resistics
