import Verif.Props.FilesRead

/-!
# Property C40, continued: interrupted writes, later writes, and time data
-/

namespace Resistics

variable {W : Type}

/-! ## Later writes elsewhere -/

/-- A call of a writer with all its arguments. -/
structure WriteOp (W : Type) where
  call : WriteCall W
  overwrite : Bool
  dir : Path
  files : List (String × List String)

/-- A sequence of calls of writers; exceptions of one do not stop the next. -/
def runOps : List (WriteOp W) → FsState W → FsState W
  | [], s => s
  | o :: os, s => runOps os (o.call.run o.overwrite o.dir o.files s).2

/-- Specification: an operation writes to another place: not to this directory, and not to a file of this name. -/
def WriteOp.Elsewhere (o : WriteOp W) (dir : Path) : Prop := o.dir ≠ dir ∧ ∀ n ∈ o.call.names, dir ≠ o.dir ++ [n]

theorem append_singleton_inj {a b : Path} {x y : String} (h : a ++ [x] = b ++ [y]) : a = b ∧ x = y := by
  have := List.append_inj' h rfl
  exact ⟨this.1, by simpa using this.2⟩

theorem runOps_keeps {dir : Path} {ops : List (WriteOp W)} (hops : ∀ o ∈ ops, o.Elsewhere dir) {s : FsState W}
    (hd : s.fs dir = some .dir) : (runOps ops s).fs dir = some .dir ∧
      ∀ n x, s.fs (dir ++ [n]) = some (.file x) → (runOps ops s).fs (dir ++ [n]) = some (.file x) := by
  induction ops generalizing s with
  | nil => exact ⟨hd, fun n x h => h⟩
  | cons o ops ih =>
    obtain ⟨ho1, ho2⟩ := hops o (by simp)
    obtain ⟨steps, -, -, hf⟩ := C39_touches_only_its_output o.call o.overwrite o.dir o.files s
    set s1 := (o.call.run o.overwrite o.dir o.files s).2 with hs1
    have hd1 : s1.fs dir = some .dir := by
      by_contra hne
      rcases hf dir (by rw [hd]; exact hne) with ⟨_, h, _⟩ | ⟨n, hn, h⟩
      · rw [hd] at h; cases h
      · exact ho2 n hn h
    obtain ⟨h1, h2⟩ := ih (fun x hx => hops x (by simp [hx])) hd1
    refine ⟨h1, fun n x hx => h2 n x ?_⟩
    by_contra hne
    rcases hf (dir ++ [n]) (by rw [hx]; exact hne) with ⟨_, h, _⟩ | ⟨m, _, h⟩
    · rw [hx] at h; cases h
    · exact ho1 (append_singleton_inj h).1.symm

/-- **C40 (for good)**: after any number of later calls of any writers with any outcome to other places, the data
written can still be read unchanged. -/
theorem C40_survives_other_writes (ov : Bool) (dir : Path) (files : List (String × List String)) (s s' : FsState W)
    (ops : List (WriteOp W)) (hops : ∀ o ∈ ops, o.Elsewhere dir) :
    (∀ d : DecData ℚ, writeDec ov dir files d s = (.ok (), s') → (d.data.lookup 0).isSome = true →
      readDecFiles (runOps ops s').fs dir = .ok { md := { d.md with
        history := d.md.history ++ ["DecimatedDataWriter", "DecimatedDataReader"] }, data := d.data }) ∧
    (∀ d : WinData ℚ, writeWin ov dir files d s = (.ok (), s') → (d.data.lookup 0).isSome = true →
      readWinFiles (runOps ops s').fs dir = .ok { md := { d.md with
        history := d.md.history ++ ["WindowedDataWriter", "WindowedDataReader"] }, data := d.data }) ∧
    (∀ d : SpecData W, writeSpec ov dir files d s = (.ok (), s') → (d.data.lookup 0).isSome = true →
      readSpecFiles (runOps ops s').fs dir = .ok { md := { d.md with
        history := d.md.history ++ ["SpectraDataWriter", "SpectraDataReader"] }, data := d.data }) := by
  refine ⟨?_, ?_, ?_⟩
  · intro d h h0
    obtain ⟨hd, ha, hm⟩ := writeLevels_inv h
    obtain ⟨hk, hkeep⟩ := runOps_keeps hops hd
    rw [← C40_decimated_round_trip ov dir files d s s' h h0, readDec_gen, readDec_gen,
      readGen_congr (fs := s'.fs) _ _ (by rw [hk, hd]) (by rw [hkeep _ _ hm, hm]) (by rw [hkeep _ _ ha, ha])]
  · intro d h h0
    obtain ⟨hd, ha, hm⟩ := writeLevels_inv h
    obtain ⟨hk, hkeep⟩ := runOps_keeps hops hd
    rw [← C40_windowed_round_trip ov dir files d s s' h h0, readWin_gen, readWin_gen,
      readGen_congr (fs := s'.fs) _ _ (by rw [hk, hd]) (by rw [hkeep _ _ hm, hm]) (by rw [hkeep _ _ ha, ha])]
  · intro d h h0
    obtain ⟨hd, ha, hm⟩ := writeLevels_inv h
    obtain ⟨hk, hkeep⟩ := runOps_keeps hops hd
    rw [← C40_spectra_round_trip ov dir files d s s' h h0, readSpec_gen, readSpec_gen,
      readGen_congr (fs := s'.fs) _ _ (by rw [hk, hd]) (by rw [hkeep _ _ hm, hm]) (by rw [hkeep _ _ ha, ha])]

/-! ## Interrupted writes -/

/-- Readings of metadata that fail. -/
theorem metadata_missing {fs : FS W} {dir : Path} (h : fs (dir ++ ["metadata.json"]) = none) :
    ∃ e, fs.metadata dir = .error e := by
  refine ⟨.os, ?_⟩
  unfold FS.metadata
  rw [content_error (by simp [h])]
  rfl

theorem metadata_torn {fs : FS W} {dir : Path} (h : fs (dir ++ ["metadata.json"]) = some (.file .torn)) :
    ∃ e, fs.metadata dir = .error e := by
  refine ⟨.value, ?_⟩
  unfold FS.metadata
  rw [content_of h]
  rfl

theorem archive_torn {fs : FS W} {dir : Path} (h : fs (dir ++ ["data.npz"]) = some (.file .torn)) :
    ∃ e, fs.archive dir = .error e := by
  refine ⟨.value, ?_⟩
  unfold FS.archive
  rw [content_of h]
  rfl

theorem dropLast_two (mk : List (FS W)) (fs : FS W) (dir : Path) (n1 n2 : String) (c1 c2 : Content W) :
    (mk ++ twoFileSteps fs dir n1 c1 n2 c2).dropLast =
      mk ++ [fs.set (dir ++ [n1]) (.file .torn), fs.set (dir ++ [n1]) (.file c1), fs.with2 dir n1 c1 n2 .torn] := by
  rw [List.dropLast_append_of_ne_nil (by simp [twoFileSteps])]
  rfl

theorem getLast_two (mk : List (FS W)) (fs : FS W) (dir : Path) (n1 n2 : String) (c1 c2 : Content W) :
    (mk ++ twoFileSteps fs dir n1 c1 n2 c2).getLast? = some (fs.with2 dir n1 c1 n2 c2) := by
  rw [List.getLast?_append]
  rfl

/-- In all states before the last one of a writer of two files into a new directory, there are no metadata. -/
theorem fresh_no_metadata {fs : FS W} {dir : Path} (hd : fs dir = none) (ht : fs.Tree) {mk : List (FS W)}
    (hmk : ∀ t ∈ mk, Frame dir [] fs t) {n1 : String} (hn : n1 ≠ "metadata.json") {c1 c2 : Content W} {t : FS W}
    (hmem : t ∈ (mk ++ twoFileSteps (readyFs fs dir) dir n1 c1 "metadata.json" c2).dropLast) :
    ∃ e, t.metadata dir = .error e := by
  have hm : fs (dir ++ ["metadata.json"]) = none := by
    by_contra hne
    have := ht.parent dir "metadata.json" (by
      cases h : fs (dir ++ ["metadata.json"]) with
      | none => exact absurd h hne
      | some x => rfl)
    rw [hd] at this; cases this
  have hne : dir ++ ["metadata.json"] ≠ dir ++ [n1] := by simpa using fun h => hn h.symm
  rw [dropLast_two, List.mem_append] at hmem
  rcases hmem with hmem | hmem
  · apply metadata_missing
    rcases hmk t hmem (dir ++ ["metadata.json"]) with h | ⟨h, _⟩ | ⟨n, hn, _⟩
    · rw [h, hm]
    · exact absurd rfl (prefix_ne_file h _)
    · simp at hn
  · simp only [List.mem_cons, List.not_mem_nil, or_false] at hmem
    rcases hmem with rfl | rfl | rfl
    · apply metadata_missing
      rw [set_ne hne, readyFs_file, hm]
    · apply metadata_missing
      rw [set_ne hne, readyFs_file, hm]
    · exact metadata_torn (with2_second _ _ _ _ _ _)

/-- The general form of the next theorem. -/
theorem fresh_levels {ov : Bool} {writer : String} {dir : Path} {p : Payload} {files : List (String × List String)}
    {data : List (ℕ × NpArr W)} {s : FsState W} (ht : s.fs.Tree) (hd : s.fs dir = none) :
    ∃ r s' steps, writeLevels ov writer dir p files data s = (r, s') ∧ s' = s.after steps ∧
      (∀ t ∈ steps.dropLast, ∃ e, t.metadata dir = .error e) ∧
      (r = .ok () ∧ steps.getLast? = some s'.fs ∨ r = .error .os ∧ steps = []) := by
  by_cases hf : ∃ q, q <+: dir ∧ s.fs.isFile q = true
  · refine ⟨.error .os, s, [], ?_, (after_nil s).symm, by simp, Or.inr ⟨rfl, rfl⟩⟩
    unfold writeLevels
    rw [fs_bind]
    rcases checkDir_run ov dir s with ⟨h1, _⟩ | ⟨h1, _⟩ | ⟨_, _, h3⟩ | ⟨_, h2, _⟩
    · rw [hd] at h1; cases h1
    · rw [hd] at h1; cases h1
    · rw [h3]
    · obtain ⟨q, hq, hq'⟩ := hf
      rw [h2 q hq] at hq'; cases hq'
  · push Not at hf
    have hu : Usable ov s.fs dir := Or.inr ⟨hd, fun q hq => by simpa using hf q hq⟩
    have hchild : ∀ n, s.fs (dir ++ [n]) ≠ some .dir := by
      intro n h
      have := ht.parent dir n (by rw [h]; rfl)
      rw [hd] at this; cases this
    obtain ⟨mk, h1, h2, -, -⟩ := writeLevels_ok (writer := writer) (p := p) (files := files) (data := data) hu
      (hchild _) (hchild _)
    refine ⟨_, _, _, h1, rfl, fun t hmem => fresh_no_metadata hd ht h2 (by decide) hmem, Or.inl ⟨rfl, ?_⟩⟩
    rw [getLast_two, twoFileSteps_fs]

/-- **C40 (interruption of a first write)**: writing decimated data to a directory that does not exist yet either fails
before anything is done, or goes through states of which only the last one can be read: wherever the process is
interrupted, the reader raises an exception, it never returns incomplete data. -/
theorem C40_interrupted_first_write_decimated (ov : Bool) (dir : Path) (files : List (String × List String))
    (d : DecData ℚ) (s : FsState W) (ht : s.fs.Tree) (hd : s.fs dir = none) (h0 : (d.data.lookup 0).isSome = true) :
    ∃ r s' steps, writeDec ov dir files d s = (r, s') ∧ s'.trace = s.trace ++ steps ∧
      (∀ t ∈ steps.dropLast, ∃ e, readDecFiles t dir = .error e) ∧
      (r = .ok () ∧ steps.getLast? = some s'.fs ∧ readDecFiles s'.fs dir = .ok { md := { d.md with
          history := d.md.history ++ ["DecimatedDataWriter", "DecimatedDataReader"] }, data := d.data } ∨
        r = .error .os ∧ steps = [] ∧ s' = s) := by
  obtain ⟨r, s', steps, h1, h2, h3, h4⟩ := fresh_levels (ov := ov) (writer := "DecimatedDataWriter") (p := .dec d.md)
    (files := files) (data := d.data.map fun q => (q.1, NpArr.mat (W := W) q.2)) ht hd
  refine ⟨r, s', steps, h1, by rw [h2]; rfl, ?_, ?_⟩
  · intro t hmem
    obtain ⟨e, he⟩ := readGen_error decPayload decArray (Or.inl (h3 t hmem))
    rw [readDec_gen, he]
    exact ⟨e, rfl⟩
  · rcases h4 with ⟨rfl, h⟩ | ⟨rfl, rfl⟩
    · exact Or.inl ⟨rfl, h, C40_decimated_round_trip ov dir files d s s' h1 h0⟩
    · exact Or.inr ⟨rfl, rfl, by rw [h2, after_nil]⟩

/-- **C40 (interruption of a first write)** for windowed data. -/
theorem C40_interrupted_first_write_windowed (ov : Bool) (dir : Path) (files : List (String × List String))
    (d : WinData ℚ) (s : FsState W) (ht : s.fs.Tree) (hd : s.fs dir = none) (h0 : (d.data.lookup 0).isSome = true) :
    ∃ r s' steps, writeWin ov dir files d s = (r, s') ∧ s'.trace = s.trace ++ steps ∧
      (∀ t ∈ steps.dropLast, ∃ e, readWinFiles t dir = .error e) ∧
      (r = .ok () ∧ steps.getLast? = some s'.fs ∧ readWinFiles s'.fs dir = .ok { md := { d.md with
          history := d.md.history ++ ["WindowedDataWriter", "WindowedDataReader"] }, data := d.data } ∨
        r = .error .os ∧ steps = [] ∧ s' = s) := by
  obtain ⟨r, s', steps, h1, h2, h3, h4⟩ := fresh_levels (ov := ov) (writer := "WindowedDataWriter") (p := .win d.md)
    (files := files) (data := d.data.map fun q => (q.1, NpArr.win (W := W) q.2)) ht hd
  refine ⟨r, s', steps, h1, by rw [h2]; rfl, ?_, ?_⟩
  · intro t hmem
    obtain ⟨e, he⟩ := readGen_error winPayload winArray (Or.inl (h3 t hmem))
    rw [readWin_gen, he]
    exact ⟨e, rfl⟩
  · rcases h4 with ⟨rfl, h⟩ | ⟨rfl, rfl⟩
    · exact Or.inl ⟨rfl, h, C40_windowed_round_trip ov dir files d s s' h1 h0⟩
    · exact Or.inr ⟨rfl, rfl, by rw [h2, after_nil]⟩

/-- **C40 (interruption of a first write)** for spectra data. -/
theorem C40_interrupted_first_write_spectra (ov : Bool) (dir : Path) (files : List (String × List String))
    (d : SpecData W) (s : FsState W) (ht : s.fs.Tree) (hd : s.fs dir = none) (h0 : (d.data.lookup 0).isSome = true) :
    ∃ r s' steps, writeSpec ov dir files d s = (r, s') ∧ s'.trace = s.trace ++ steps ∧
      (∀ t ∈ steps.dropLast, ∃ e, readSpecFiles t dir = .error e) ∧
      (r = .ok () ∧ steps.getLast? = some s'.fs ∧ readSpecFiles s'.fs dir = .ok { md := { d.md with
          history := d.md.history ++ ["SpectraDataWriter", "SpectraDataReader"] }, data := d.data } ∨
        r = .error .os ∧ steps = [] ∧ s' = s) := by
  obtain ⟨r, s', steps, h1, h2, h3, h4⟩ := fresh_levels (ov := ov) (writer := "SpectraDataWriter") (p := .spec d.md)
    (files := files) (data := d.data.map fun q => (q.1, NpArr.spec q.2)) ht hd
  refine ⟨r, s', steps, h1, by rw [h2]; rfl, ?_, ?_⟩
  · intro t hmem
    obtain ⟨e, he⟩ := readGen_error specPayload specArray (Or.inl (h3 t hmem))
    rw [readSpec_gen, he]
    exact ⟨e, rfl⟩
  · rcases h4 with ⟨rfl, h⟩ | ⟨rfl, rfl⟩
    · exact Or.inl ⟨rfl, h, C40_spectra_round_trip ov dir files d s s' h1 h0⟩
    · exact Or.inr ⟨rfl, rfl, by rw [h2, after_nil]⟩

/-- The general form of the next theorems. -/
theorem overwrite_levels {μ β : Type} {pl : Payload → Except Err μ} {arr : ℕ × NpArr W → Except Err (ℕ × β)}
    {writer : String} {dir : Path} {p' : Payload} {files : List (String × List String)} {data : List (ℕ × NpArr W)}
    {s : FsState W} {q : μ × List (ℕ × β)} {ls : List (ℕ × β)} (hd : s.fs dir = some .dir)
    (hg : readGen pl arr s.fs dir = .ok q) (hn : s.fs (dir ++ ["data.npz"]) ≠ some .dir)
    (hls : data.mapM arr = .ok ls) (h0 : (ls.lookup 0).isSome = true) :
    ∃ s' a b c, writeLevels true writer dir p' files data s = (.ok (), s') ∧
      s'.trace = s.trace ++ [a, b, c, s'.fs] ∧ (∃ e, readGen pl arr a dir = .error e) ∧
      readGen pl arr b dir = .ok (q.1, ls) ∧ (∃ e, readGen pl arr c dir = .error e) := by
  obtain ⟨_, p, f, hm, hp⟩ := readGen_inv (m := q.1) (ls := q.2) hg
  have hu : Usable true s.fs dir := Or.inl ⟨rfl, hd⟩
  obtain ⟨mk, h1, -, h3, -⟩ := writeLevels_ok (writer := writer) (p := p') (files := files)
    (data := data) hu hn (by rw [hm]; simp)
  have hr : readyFs s.fs dir = s.fs := by simp [readyFs, hd]
  rw [h3 (by rw [hd]; rfl), List.nil_append, hr] at h1
  refine ⟨_, _, _, _, h1, rfl, ?_, ?_, ?_⟩
  · exact readGen_error (fs := s.fs.set (dir ++ ["data.npz"]) (.file .torn)) pl arr
      (Or.inr (archive_torn (W := W) (dir := dir) set_eq))
  · exact readGen_ok (p := p) (f := f) (m := q.1) (ls := ls)
      (data := data) (by rw [set_ne (dir_ne dir _)]; exact hd)
      (by rw [set_ne (by simp)]; exact hm) set_eq hp hls h0
  · exact readGen_error (fs := s.fs.with2 dir "data.npz" (.npz (data.map fun q => (q.1.repr, q.2)))
      "metadata.json" .torn) pl arr (Or.inl (metadata_torn (dir := dir) (with2_second _ _ _ _ _ _)))

/-- **C40 (interruption of an overwrite)**: overwriting readable decimated data goes through exactly four states.  In the
first and the third one nothing can be read, the fourth one holds the new data; in the second one the reader returns the
*old metadata with the new arrays* without complaint, so an interrupted overwrite can leave data that were never
written. -/
theorem C40_interrupted_overwrite_decimated (dir : Path) (files : List (String × List String))
    (d old : DecData ℚ) (s : FsState W) (hd : s.fs dir = some .dir) (hold : readDecFiles s.fs dir = .ok old)
    (hn : s.fs (dir ++ ["data.npz"]) ≠ some .dir) (h0 : (d.data.lookup 0).isSome = true) :
    ∃ s' a b c, writeDec true dir files d s = (.ok (), s') ∧ s'.trace = s.trace ++ [a, b, c, s'.fs] ∧
      (∃ e, readDecFiles a dir = .error e) ∧
      readDecFiles b dir = .ok { md := old.md, data := d.data } ∧
      (∃ e, readDecFiles c dir = .error e) ∧
      readDecFiles s'.fs dir = .ok { md := { d.md with
          history := d.md.history ++ ["DecimatedDataWriter", "DecimatedDataReader"] }, data := d.data } := by
  rw [readDec_gen] at hold
  cases hg : readGen decPayload decArray s.fs dir with
  | error e => rw [hg] at hold; cases hold
  | ok q =>
    rw [hg] at hold
    cases hold
    obtain ⟨s', a, b, c, h1, h2, ⟨e, h3⟩, h4, ⟨e', h5⟩⟩ := overwrite_levels (writer := "DecimatedDataWriter")
      (p' := .dec d.md) (files := files) hd hg hn (mapM_decArray d.data) h0
    refine ⟨s', a, b, c, h1, h2, ⟨e, ?_⟩, ?_, ⟨e', ?_⟩, C40_decimated_round_trip true dir files d s s' h1 h0⟩
    · rw [readDec_gen, h3]; rfl
    · rw [readDec_gen, h4]; rfl
    · rw [readDec_gen, h5]; rfl

/-- **C40 (interruption of an overwrite)** for windowed data. -/
theorem C40_interrupted_overwrite_windowed (dir : Path) (files : List (String × List String))
    (d old : WinData ℚ) (s : FsState W) (hd : s.fs dir = some .dir) (hold : readWinFiles s.fs dir = .ok old)
    (hn : s.fs (dir ++ ["data.npz"]) ≠ some .dir) (h0 : (d.data.lookup 0).isSome = true) :
    ∃ s' a b c, writeWin true dir files d s = (.ok (), s') ∧ s'.trace = s.trace ++ [a, b, c, s'.fs] ∧
      (∃ e, readWinFiles a dir = .error e) ∧
      readWinFiles b dir = .ok { md := old.md, data := d.data } ∧
      (∃ e, readWinFiles c dir = .error e) ∧
      readWinFiles s'.fs dir = .ok { md := { d.md with
          history := d.md.history ++ ["WindowedDataWriter", "WindowedDataReader"] }, data := d.data } := by
  rw [readWin_gen] at hold
  cases hg : readGen winPayload winArray s.fs dir with
  | error e => rw [hg] at hold; cases hold
  | ok q =>
    rw [hg] at hold
    cases hold
    obtain ⟨s', a, b, c, h1, h2, ⟨e, h3⟩, h4, ⟨e', h5⟩⟩ := overwrite_levels (writer := "WindowedDataWriter")
      (p' := .win d.md) (files := files) hd hg hn (mapM_winArray d.data) h0
    refine ⟨s', a, b, c, h1, h2, ⟨e, ?_⟩, ?_, ⟨e', ?_⟩, C40_windowed_round_trip true dir files d s s' h1 h0⟩
    · rw [readWin_gen, h3]; rfl
    · rw [readWin_gen, h4]; rfl
    · rw [readWin_gen, h5]; rfl

/-- **C40 (interruption of an overwrite)** for spectra data. -/
theorem C40_interrupted_overwrite_spectra (dir : Path) (files : List (String × List String))
    (d old : SpecData W) (s : FsState W) (hd : s.fs dir = some .dir) (hold : readSpecFiles s.fs dir = .ok old)
    (hn : s.fs (dir ++ ["data.npz"]) ≠ some .dir) (h0 : (d.data.lookup 0).isSome = true) :
    ∃ s' a b c, writeSpec true dir files d s = (.ok (), s') ∧ s'.trace = s.trace ++ [a, b, c, s'.fs] ∧
      (∃ e, readSpecFiles a dir = .error e) ∧
      readSpecFiles b dir = .ok { md := old.md, data := d.data } ∧
      (∃ e, readSpecFiles c dir = .error e) ∧
      readSpecFiles s'.fs dir = .ok { md := { d.md with
          history := d.md.history ++ ["SpectraDataWriter", "SpectraDataReader"] }, data := d.data } := by
  rw [readSpec_gen] at hold
  cases hg : readGen specPayload specArray s.fs dir with
  | error e => rw [hg] at hold; cases hold
  | ok q =>
    rw [hg] at hold
    cases hold
    obtain ⟨s', a, b, c, h1, h2, ⟨e, h3⟩, h4, ⟨e', h5⟩⟩ := overwrite_levels (writer := "SpectraDataWriter")
      (p' := .spec d.md) (files := files) hd hg hn (mapM_specArray d.data) h0
    refine ⟨s', a, b, c, h1, h2, ⟨e, ?_⟩, ?_, ⟨e', ?_⟩, C40_spectra_round_trip true dir files d s s' h1 h0⟩
    · rw [readSpec_gen, h3]; rfl
    · rw [readSpec_gen, h4]; rfl
    · rw [readSpec_gen, h5]; rfl

/-! ## Time data -/

/-- The metadata of a recording written by the numpy writer, as they are on disk. -/
def numpyWritten (d : TimeData ℚ) : TimeMeta := { d.md with history := d.md.history ++ ["TimeWriterNumpy"] }

/-- What a successful numpy writer leaves. -/
theorem writeTimeNumpy_inv {ov : Bool} {dir : Path} {files : List (String × List String)} {d : TimeData ℚ}
    {s s' : FsState W} (h : writeTimeNumpy ov dir files d s = (.ok (), s')) :
    s'.fs dir = some .dir ∧ s'.fs (dir ++ ["data.npy"]) = some (.file (.npy d.data)) ∧
      ∃ f, setDataFiles d.md.chans (fun _ => "data.npy") files = .ok f ∧
        s'.fs (dir ++ ["metadata.json"]) = some (.file (.metaJson (.time (numpyWritten d)) f)) := by
  unfold writeTimeNumpy at h
  rw [fs_bind] at h
  rcases hc : checkDir ov dir s with ⟨r, s1⟩
  rw [hc] at h
  cases r with
  | error e => simp only at h; cases h
  | ok u =>
    simp only at h
    rw [fs_bind] at h
    rcases writeFile_run dir "data.npy" (.npy d.data) s1 with ⟨hg, hw⟩ | ⟨_, hw⟩
    · rw [hw] at h
      simp only at h
      set s2 := s1.after [s1.fs.set (dir ++ ["data.npy"]) (.file .torn),
        s1.fs.set (dir ++ ["data.npy"]) (.file (.npy d.data))] with hs2
      have hfs2 : s2.fs = s1.fs.set (dir ++ ["data.npy"]) (.file (.npy d.data)) := rfl
      rw [fs_read_bind] at h
      cases hset : setDataFiles d.md.chans (fun _ => "data.npy") files with
      | error e => rw [hset] at h; simp only at h; cases h
      | ok f =>
        rw [hset] at h
        simp only at h
        rcases writeFile_run dir "metadata.json" (.metaJson (.time (numpyWritten d)) f) s2 with ⟨hg2, hw2⟩ | ⟨_, hw2⟩
        · have h' : writeFile dir "metadata.json" (.metaJson (.time (numpyWritten d)) f) s2 = (.ok (), s') := h
          rw [hw2] at h'
          cases h'
          simp only [Bool.and_eq_true] at hg
          have hd := isDir_iff.1 hg.1
          refine ⟨?_, ?_, f, rfl, set_eq⟩
          · show (s2.fs.set (dir ++ ["metadata.json"]) _) dir = _
            rw [set_ne (dir_ne dir _), hfs2, set_ne (dir_ne dir _), hd]
          · show (s2.fs.set (dir ++ ["metadata.json"]) _) (dir ++ ["data.npy"]) = _
            rw [set_ne (by simp), hfs2, set_eq]
        · have h' : writeFile dir "metadata.json" (.metaJson (.time (numpyWritten d)) f) s2 = (.ok (), s') := h
          rw [hw2] at h'; cases h'
    · rw [hw] at h; simp only at h; cases h

theorem setDataFiles_inv {chans : List String} {name : String → String} {f f' : List (String × List String)}
    (h : setDataFiles chans name f = .ok f') : ∀ c ∈ chans, ∃ q ∈ f, q.1 = c := by
  by_contra hne
  push Not at hne
  obtain ⟨c, hc, hcf⟩ := hne
  unfold setDataFiles at h
  induction chans generalizing f with
  | nil => simp at hc
  | cons x xs ih =>
    rw [List.foldlM_cons] at h
    by_cases hx : (f.any fun q => q.1 = x) = true
    · rw [if_pos hx] at h
      rcases List.mem_cons.1 hc with rfl | hc
      · obtain ⟨q, hq, hqx⟩ := List.any_eq_true.1 hx
        exact hcf q hq (by simpa using hqx)
      · refine ih h hc ?_
        intro q hq
        obtain ⟨q', hq', rfl⟩ := List.mem_map.1 hq
        by_cases hqx : q'.1 = x
        · simp only [hqx, if_true]
          rintro rfl
          exact hcf q' hq' hqx
        · simp only [hqx, if_false]
          exact hcf q' hq'
    · rw [if_neg hx] at h; cases h

/-- **C40 (numpy time data, any request)**: after the numpy writer has succeeded on a recording with at least one channel
and with no other channel metadata than those of its channels, the numpy reader returns for every request of times or
samples exactly what it would return from the recording in memory: the theorems of C05 apply. -/
theorem C40_time_numpy_reads_the_recording (ov : Bool) (dir : Path) (files : List (String × List String))
    (d : TimeData ℚ) (s s' : FsState W) (h : writeTimeNumpy ov dir files d s = (.ok (), s')) (hne : d.md.chans ≠ [])
    (hf : ∀ q ∈ files, q.1 ∈ d.md.chans) (r : ReadReq) :
    readTimeNumpyFiles s'.fs dir r =
      readNumpy d.data { d.md with history := d.md.history ++ ["TimeWriterNumpy"] } r := by
  show _ = readNumpy d.data (numpyWritten d) r
  obtain ⟨hd, ha, f, hset, hm⟩ := writeTimeNumpy_inv h
  have hfile : s'.fs.isFile (dir ++ ["data.npy"]) = true := by unfold FS.isFile; rw [ha]
  have hin := setDataFiles_inv hset
  rw [setDataFiles_ok _ _ _ hin] at hset
  cases hset
  have hmap : (files.map fun q => if q.1 ∈ d.md.chans then (q.1, ["data.npy"]) else q) =
      files.map fun q => (q.1, ["data.npy"]) := by
    apply List.map_congr_left
    intro q hq
    rw [if_pos (hf q hq)]
  rw [hmap] at hm
  have hmd : s'.fs.timeMetadata ".npy" dir = .ok (numpyWritten d, files.map fun q => (q.1, ["data.npy"])) := by
    unfold FS.timeMetadata
    rw [metadata_of hm]
    simp only [bind, Except.bind, timePayload, List.all_map, Function.comp_def, List.all_cons, List.all_nil, hfile,
      Bool.and_true]
    have hsuf : hasSuffix ".npy" "data.npy" = true := by decide +kernel
    rw [hsuf]
    have htrue : (files.all fun _ => true) = true := by simp
    rw [htrue]
    rfl
  obtain ⟨c, cs, hcs⟩ := List.exists_cons_of_ne_nil hne
  have hidx : pyIndex (numpyWritten d).chans 0 = .ok c := by
    show pyIndex d.md.chans 0 = _
    rw [hcs]; rfl
  have hget : dictGet (files.map fun q => (q.1, ["data.npy"])) c = .ok ["data.npy"] := by
    have : ∀ l : List (String × List String), (∃ q ∈ l, q.1 = c) →
        dictGet (l.map fun q => (q.1, ["data.npy"])) c = .ok ["data.npy"] := by
      intro l hl
      unfold dictGet
      induction l with
      | nil => obtain ⟨q, hq, _⟩ := hl; simp at hq
      | cons x l ih =>
        rw [List.map_cons, List.lookup_cons]
        by_cases hx : c = x.1
        · have hb : (c == x.1) = true := by simpa using hx
          rw [hb]
        · have hb : (c == x.1) = false := by simpa using hx
          rw [hb]
          obtain ⟨q, hq, hqc⟩ := hl
          rcases List.mem_cons.1 hq with rfl | hq
          · exact absurd hqc.symm hx
          · exact ih ⟨q, hq, hqc⟩
    exact this files (hin c (by rw [hcs]; simp))
  unfold readTimeNumpyFiles readNumpy
  rw [hmd]
  simp only [bind, Except.bind]
  cases getReadSamples (numpyWritten d) r with
  | error e => rfl
  | ok ab =>
    simp only [hidx, hget]
    have : pyIndex ["data.npy"] 0 = .ok "data.npy" := rfl
    rw [this]
    simp only
    rw [content_of ha]
    rfl

/-- **C40 (numpy time data)**: a consistent recording of at least two samples and one channel, written by the numpy
writer, is read back whole: the same array, sampling frequency, channels, times and number of samples, with the two
records appended. -/
theorem C40_time_numpy_round_trip (ov : Bool) (dir : Path) (files : List (String × List String))
    (d : TimeData ℚ) (s s' : FsState W) (h : writeTimeNumpy ov dir files d s = (.ok (), s')) (hne : d.md.chans ≠ [])
    (hf : ∀ q ∈ files, q.1 ∈ d.md.chans) (hc : d.Consistent) (hn : 2 ≤ d.md.nSamples) :
    readTimeNumpyFiles s'.fs dir {} = .ok { md := { d.md with
      history := d.md.history ++ ["TimeWriterNumpy", "TimeReaderNumpy"] }, data := d.data } := by
  rw [C40_time_numpy_reads_the_recording ov dir files d s s' h hne hf]
  have hg : getReadSamples { d.md with history := d.md.history ++ ["TimeWriterNumpy"] } {} =
      .ok (0, d.md.nSamples - 1) := by
    unfold getReadSamples readFromBound readToBound
    simp only [bind, Except.bind, pure, Except.pure]
    rw [if_neg (by omega)]
  unfold readNumpy
  rw [hg]
  simp only [bind, Except.bind]
  unfold readDataNumpy
  have hfs := hc.fs_pos.ne'
  rw [getReturnMetadata_ok (md := { d.md with history := d.md.history ++ ["TimeWriterNumpy"] }) hfs]
  simp only [bind, Except.bind, pure, Except.pure]
  have hdata : (d.data.map fun row => pySlice row 0 (d.md.nSamples - 1 + 1)) = d.data := by
    conv_rhs => rw [← List.map_id d.data]
    apply List.map_congr_left
    intro row hrow
    have := hc.cols row hrow
    rw [pySlice_eq row (by omega) (by omega) (by omega)]
    have : (d.md.nSamples - 1 + 1).toNat = row.length := by omega
    rw [this]
    simp
  rw [hdata]
  have hlast := hc.last
  rcases d with ⟨⟨fs, chans, n, ft, lt, hist⟩, data⟩
  simp only at hlast ⊢
  simp [hlast, mul_comm]

/-- **C40 (limit)**: a recording of a single sample can be written, but the reader refuses it. -/
theorem C40_single_sample_not_readable (ov : Bool) (dir : Path) (files : List (String × List String))
    (d : TimeData ℚ) (s s' : FsState W) (h : writeTimeNumpy ov dir files d s = (.ok (), s')) (hne : d.md.chans ≠ [])
    (hf : ∀ q ∈ files, q.1 ∈ d.md.chans) (hn : d.md.nSamples = 1) :
    readTimeNumpyFiles s'.fs dir {} = .error .value := by
  rw [C40_time_numpy_reads_the_recording ov dir files d s s' h hne hf]
  unfold readNumpy getReadSamples readFromBound readToBound
  simp only [hn, bind, Except.bind, pure, Except.pure]
  rfl

/-- **C40 (interruption, time data)**: writing a recording to a directory that does not exist yet passes through states of
which only the last one can be read. -/
theorem C40_interrupted_first_write_time (ov : Bool) (dir : Path) (files : List (String × List String))
    (d : TimeData ℚ) (s s' : FsState W) (ht : s.fs.Tree) (hd : s.fs dir = none)
    (h : writeTimeNumpy ov dir files d s = (.ok (), s')) :
    ∃ steps, s'.trace = s.trace ++ steps ∧ steps.getLast? = some s'.fs ∧
      ∀ t ∈ steps.dropLast, ∀ r, ∃ e, readTimeNumpyFiles t dir r = .error e := by
  obtain ⟨-, -, f, hset, -⟩ := writeTimeNumpy_inv h
  have hf : ∀ q, q <+: dir → s.fs.isFile q = false := by
    by_contra hne
    push Not at hne
    obtain ⟨q, hq, hq'⟩ := hne
    have := C39_file_in_the_way (.timeNumpy d) ov dir files s hd ⟨q, hq, by simpa using hq'⟩
    have h' : (WriteCall.timeNumpy d).run ov dir files s = (.ok (), s') := h
    rw [h'] at this; cases this
  have hchild : ∀ n, s.fs (dir ++ [n]) ≠ some .dir := by
    intro n h
    have := ht.parent dir n (by rw [h]; rfl)
    rw [hd] at this; cases this
  obtain ⟨mk, h1, h2, -, -⟩ := writeTimeNumpy_ok (d := d) (files := files) (ov := ov) (Or.inr ⟨hd, hf⟩)
    (hchild _) (hchild _) (setDataFiles_inv hset)
  rw [h1] at h
  cases h
  refine ⟨_, rfl, ?_, ?_⟩
  · rw [getLast_two, twoFileSteps_fs]
  · intro t hmem r
    obtain ⟨e, he⟩ := fresh_no_metadata hd ht h2 (by decide) hmem
    refine ⟨e, ?_⟩
    unfold readTimeNumpyFiles FS.timeMetadata
    rw [he]
    rfl

theorem not_txt (c : String) : hasSuffix ".txt" (c.toLower ++ ".ascii") = false := by
  unfold hasSuffix
  rw [Bool.and_eq_false_iff]
  left
  rw [Bool.eq_false_iff]
  intro h
  have h' : ".txt".toList <:+ (c.toLower ++ ".ascii").toList := by simpa using h
  rw [String.toList_append] at h'
  have h2 : ".ascii".toList <:+ c.toLower.toList ++ ".ascii".toList := List.suffix_append _ _
  have h3 := List.suffix_of_suffix_length_le h' h2 (by decide)
  revert h3
  decide

/-- **C40 (limit)**: what the ASCII writer writes cannot be read by the ASCII reader, because the writer names the files
`<channel>.ascii` and the reader accepts only files named `*.txt`: it raises `TimeDataReadError` for every recording with
a channel. -/
theorem C40_ascii_not_readable (ov : Bool) (fmt : List ℚ → List String) (dir : Path)
    (files : List (String × List String)) (d : TimeData ℚ) (s s' : FsState W)
    (h : writeTimeAscii ov fmt dir files d s = (.ok (), s')) (hne : d.md.chans ≠ []) :
    readTimeAsciiMetadata s'.fs dir = .error .timeRead := by
  unfold writeTimeAscii at h
  rw [fs_bind] at h
  rcases hc : checkDir ov dir s with ⟨r, s1⟩
  rw [hc] at h
  cases r with
  | error e => simp only at h; cases h
  | ok u =>
    simp only at h
    rw [fs_bind] at h
    rcases hc2 : writeAsciiChans fmt dir d d.md.chans s1 with ⟨r, s2⟩
    rw [hc2] at h
    cases r with
    | error e => simp only at h; cases h
    | ok u =>
      simp only at h
      rw [fs_read_bind] at h
      cases hset : setDataFiles d.md.chans (fun c => c.toLower ++ ".ascii") files with
      | error e => rw [hset] at h; simp only at h; cases h
      | ok f =>
        rw [hset] at h
        simp only at h
        rcases writeFile_run dir "metadata.json" (.metaJson (.time
          { d.md with history := d.md.history ++ ["TimeWriterAscii"] }) f) s2 with ⟨hg2, hw2⟩ | ⟨_, hw2⟩
        · rw [hw2] at h
          cases h
          have hin := setDataFiles_inv hset
          rw [setDataFiles_ok _ _ _ hin] at hset
          cases hset
          unfold readTimeAsciiMetadata FS.timeMetadata
          have hmd := metadata_of (fs := (s2.after [s2.fs.set (dir ++ ["metadata.json"]) (.file .torn),
              s2.fs.set (dir ++ ["metadata.json"]) (.file (.metaJson (.time
                { d.md with history := d.md.history ++ ["TimeWriterAscii"] }) (files.map fun q =>
                  if q.1 ∈ d.md.chans then (q.1, [q.1.toLower ++ ".ascii"]) else q)))]).fs) (dir := dir) set_eq
          rw [hmd]
          simp only [bind, Except.bind, timePayload]
          split
          · rfl
          · obtain ⟨c, cs, hcs⟩ := List.exists_cons_of_ne_nil hne
            obtain ⟨q, hq, hqc⟩ := hin c (by rw [hcs]; simp)
            have hbad : ((files.map fun q => if q.1 ∈ d.md.chans then (q.1, [q.1.toLower ++ ".ascii"]) else q).all
                fun c => c.2.all fun x => hasSuffix ".txt" x) = false := by
              rw [Bool.eq_false_iff]
              intro hall
              have := List.all_eq_true.1 hall (q.1, [q.1.toLower ++ ".ascii"])
                (List.mem_map.2 ⟨q, hq, by rw [if_pos (by rw [hqc, hcs]; simp)]⟩)
              simp [not_txt] at this
            rw [hbad]
            rfl
        · rw [hw2] at h; cases h

/-! ## Concrete cases -/

/-- A disk with the directory `/data` in it. -/
def demoFs : FS ℚ := fun p => if p = [] ∨ p = ["data"] then some .dir else none

theorem demoFs_tree : demoFs.Tree := by
  refine ⟨by simp [demoFs], ?_⟩
  intro p n h
  unfold demoFs at h ⊢
  split at h
  · rename_i hp
    rcases hp with hp | hp
    · simp at hp
    · have : p = [] := by
        cases p with
        | nil => rfl
        | cons x xs => simp at hp
      simp [this]
  · cases h

/-- Decimated data of two levels. -/
def demoDecW : DecData ℚ where
  md := { fs := [4, 2], chans := ["Ex"], nLevels := 2, firstTime := 0, lastTime := 1, levels := [], history := ["Decimator"] }
  data := [(0, [[1, 2, 3]]), (1, [[1]])]

/-- Other decimated data. -/
def demoDecOld : DecData ℚ where
  md := { fs := [8], chans := ["Hx"], nLevels := 1, firstTime := 0, lastTime := 1, levels := [], history := [] }
  data := [(0, [[7]])]

/-- The state after writing the old data. -/
def demoDecState : FsState ℚ := (writeDec (W := ℚ) false ["data", "site", "meas"] [] demoDecOld { fs := demoFs }).2

example : demoFs.Tree ∧ demoFs ["data", "site", "meas"] = none ∧ (∀ q, q <+: ["data", "site", "meas"] →
    demoFs.isFile q = false) := by
  refine ⟨demoFs_tree, by decide, ?_⟩
  intro q hq
  have hq' := (List.mem_inits _ _).2 hq
  have : ∀ q ∈ ["data", "site", "meas"].inits, demoFs.isFile q = false := by decide
  exact this q hq'

/-- the write succeeds, two directories are made and four file states passed through; the data are read back -/
example : (writeDec (W := ℚ) false ["data", "site", "meas"] [] demoDecOld { fs := demoFs }).1 = .ok () ∧
    demoDecState.trace.length = 6 ∧
    readDecFiles demoDecState.fs ["data", "site", "meas"] = .ok { md := { demoDecOld.md with
      history := ["DecimatedDataWriter", "DecimatedDataReader"] }, data := demoDecOld.data } := by
  refine ⟨rfl, by decide +kernel, ?_⟩
  exact C40_decimated_round_trip (W := ℚ) false _ [] demoDecOld { fs := demoFs } demoDecState rfl rfl

/-- with overwrite off a second write is refused; with it on, one of the states passed through is read as the old
metadata with the new arrays, which is neither the old nor the new data -/
example : (writeDec (W := ℚ) false ["data", "site", "meas"] [] demoDecW demoDecState).1 = .error .write ∧
    ∃ t ∈ (writeDec (W := ℚ) true ["data", "site", "meas"] [] demoDecW demoDecState).2.trace, ∃ d,
      readDecFiles t ["data", "site", "meas"] = .ok d ∧ d.md.fs = [8] ∧
        d.data = [(0, [[1, 2, 3]]), (1, [[1]])] := by
  refine ⟨rfl, ?_⟩
  obtain ⟨s', a, b, c, h1, h2, -, h4, -⟩ := C40_interrupted_overwrite_decimated (W := ℚ) ["data", "site", "meas"] []
    demoDecW _ demoDecState (by rfl)
    (C40_decimated_round_trip (W := ℚ) false _ [] demoDecOld { fs := demoFs } demoDecState rfl rfl) (by
      obtain ⟨-, ha, -⟩ := writeLevels_inv (s' := demoDecState) (show writeLevels (W := ℚ) false "DecimatedDataWriter"
        ["data", "site", "meas"] (.dec demoDecOld.md) [] (demoDecOld.data.map fun q => (q.1, .mat q.2))
        { fs := demoFs } = (.ok (), demoDecState) from rfl)
      rw [ha]; simp) rfl
  rw [h1]
  exact ⟨b, by rw [h2]; simp, _, h4, rfl, rfl⟩

/-- a file in the way: `/data/site` is a file -/
example : (writeDec (W := ℚ) true ["data", "site", "meas"] [] demoDecOld
    { fs := demoFs.set ["data", "site"] (.file .torn) }).1 = .error .os := by
  rw [show writeDec (W := ℚ) true ["data", "site", "meas"] [] demoDecOld
    { fs := demoFs.set ["data", "site"] (.file .torn) } = _ from C39_file_in_the_way (.dec demoDecOld) true
      ["data", "site", "meas"] [] _ (by decide) ⟨["data", "site"], by decide, by decide⟩]

/-- a recording is written and read back -/
example : (writeTimeNumpy (W := ℚ) true ["data", "rec"] [("Ex", []), ("Hy", ["old.npy"])] demoRec
      { fs := demoFs }).1 = .ok () ∧
    readTimeNumpyFiles (writeTimeNumpy (W := ℚ) true ["data", "rec"] [("Ex", []), ("Hy", ["old.npy"])] demoRec
      { fs := demoFs }).2.fs ["data", "rec"] {} = .ok { md := { demoRec.md with
        history := ["TimeWriterNumpy", "TimeReaderNumpy"] }, data := demoRec.data } := by
  refine ⟨rfl, ?_⟩
  exact C40_time_numpy_round_trip (W := ℚ) true ["data", "rec"] [("Ex", []), ("Hy", ["old.npy"])] demoRec
    { fs := demoFs } _ rfl (by decide) (by decide) demoRec_consistent (by decide)

end Resistics
