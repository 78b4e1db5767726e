import Verif.Props.Files

/-!
# Property C40: what was written is what is read

Reading after a completed write, after an interrupted one, and after later writes elsewhere.
-/

namespace Resistics

variable {W : Type}

/-! ## The three readers of level data have one form -/

/-- Metadata and arrays of a directory. -/
def readGen {μ β : Type} (pl : Payload → Except Err μ) (arr : ℕ × NpArr W → Except Err (ℕ × β)) (fs : FS W)
    (dir : Path) : Except Err (μ × List (ℕ × β)) := do
  if (fs dir).isNone then throw .read
  let p ← fs.metadata dir
  let m ← pl p.1
  let data ← fs.archive dir
  let data ← data.mapM arr
  let _ ← dictGet data 0
  return (m, data)

theorem readDec_gen (fs : FS W) (dir : Path) : readDecFiles fs dir = (readGen decPayload decArray fs dir).map
    fun q => { md := { q.1 with history := q.1.history ++ ["DecimatedDataReader"] }, data := q.2 } := by
  unfold readDecFiles readGen
  split
  · rfl
  · cases fs.metadata dir with
    | error e => rfl
    | ok p =>
      simp only [bind, Except.bind]
      cases decPayload p.1 with
      | error e => rfl
      | ok m =>
        simp only
        cases fs.archive dir with
        | error e => rfl
        | ok a =>
          simp only
          cases a.mapM decArray with
          | error e => rfl
          | ok b =>
            simp only
            cases dictGet b 0 <;> rfl

theorem readWin_gen (fs : FS W) (dir : Path) : readWinFiles fs dir = (readGen winPayload winArray fs dir).map
    fun q => { md := { q.1 with history := q.1.history ++ ["WindowedDataReader"] }, data := q.2 } := by
  unfold readWinFiles readGen
  split
  · rfl
  · cases fs.metadata dir with
    | error e => rfl
    | ok p =>
      simp only [bind, Except.bind]
      cases winPayload p.1 with
      | error e => rfl
      | ok m =>
        simp only
        cases fs.archive dir with
        | error e => rfl
        | ok a =>
          simp only
          cases a.mapM winArray with
          | error e => rfl
          | ok b =>
            simp only
            cases dictGet b 0 <;> rfl

theorem readSpec_gen (fs : FS W) (dir : Path) : readSpecFiles fs dir = (readGen specPayload specArray fs dir).map
    fun q => { md := { q.1 with history := q.1.history ++ ["SpectraDataReader"] }, data := q.2 } := by
  unfold readSpecFiles readGen
  split
  · rfl
  · cases fs.metadata dir with
    | error e => rfl
    | ok p =>
      simp only [bind, Except.bind]
      cases specPayload p.1 with
      | error e => rfl
      | ok m =>
        simp only
        cases fs.archive dir with
        | error e => rfl
        | ok a =>
          simp only
          cases a.mapM specArray with
          | error e => rfl
          | ok b =>
            simp only
            cases dictGet b 0 <;> rfl

/-- The keys of an archive are the decimal numerals of the levels. -/
theorem mapM_levelKey (data : List (ℕ × NpArr W)) :
    (data.map fun q => (q.1.repr, q.2)).mapM levelKey = (.ok data : Except Err _) := by
  rw [List.mapM_map]
  induction data with
  | nil => rfl
  | cons q data ih =>
    rw [List.mapM_cons]
    have : levelKey (q.1.repr, q.2) = .ok q := by
      unfold levelKey
      simp only [Nat.toNat?_repr]
    simp only [Function.comp] at ih ⊢
    rw [this]
    simp only [bind, Except.bind]
    rw [ih]
    rfl

theorem content_of {fs : FS W} {p : Path} {c : Content W} (h : fs p = some (.file c)) : fs.content p = .ok c := by
  unfold FS.content; rw [h]

theorem content_error {fs : FS W} {p : Path} (h : ∀ c, fs p ≠ some (.file c)) : fs.content p = .error .os := by
  unfold FS.content
  split
  · rename_i c hc; exact absurd hc (h c)
  · rfl

theorem metadata_of {fs : FS W} {dir : Path} {p : Payload} {f : List (String × List String)}
    (h : fs (dir ++ ["metadata.json"]) = some (.file (.metaJson p f))) : fs.metadata dir = .ok (p, f) := by
  unfold FS.metadata; rw [content_of h]; rfl

theorem archive_of {fs : FS W} {dir : Path} {data : List (ℕ × NpArr W)}
    (h : fs (dir ++ ["data.npz"]) = some (.file (.npz (data.map fun q => (q.1.repr, q.2))))) :
    fs.archive dir = .ok data := by
  unfold FS.archive
  rw [content_of h]
  simp only [bind, Except.bind, parseNpz]
  exact mapM_levelKey data

/-- Reading depends on three places only. -/
theorem readGen_congr {μ β : Type} (pl : Payload → Except Err μ) (arr : ℕ × NpArr W → Except Err (ℕ × β))
    {fs t : FS W} {dir : Path} (h0 : (t dir).isNone = (fs dir).isNone)
    (h1 : t (dir ++ ["metadata.json"]) = fs (dir ++ ["metadata.json"]))
    (h2 : t (dir ++ ["data.npz"]) = fs (dir ++ ["data.npz"])) : readGen pl arr t dir = readGen pl arr fs dir := by
  unfold readGen FS.metadata FS.archive FS.content
  rw [h0, h1, h2]

theorem readGen_ok {μ β : Type} {pl : Payload → Except Err μ} {arr : ℕ × NpArr W → Except Err (ℕ × β)}
    {fs : FS W} {dir : Path} {p : Payload} {f : List (String × List String)} {data : List (ℕ × NpArr W)} {m : μ}
    {ls : List (ℕ × β)} (hd : fs dir = some .dir)
    (hm : fs (dir ++ ["metadata.json"]) = some (.file (.metaJson p f)))
    (ha : fs (dir ++ ["data.npz"]) = some (.file (.npz (data.map fun q => (q.1.repr, q.2)))))
    (hp : pl p = .ok m) (hl : data.mapM arr = .ok ls) (h0 : (ls.lookup 0).isSome = true) :
    readGen pl arr fs dir = .ok (m, ls) := by
  unfold readGen
  rw [hd, metadata_of hm, archive_of ha]
  simp only [Option.isNone_some, Bool.false_eq_true, if_false, bind, Except.bind, hp, hl]
  unfold dictGet
  cases hl0 : ls.lookup 0 with
  | none => rw [hl0] at h0; cases h0
  | some x => rfl

theorem readGen_error {μ β : Type} (pl : Payload → Except Err μ) (arr : ℕ × NpArr W → Except Err (ℕ × β))
    {fs : FS W} {dir : Path} (h : (∃ e, fs.metadata dir = .error e) ∨ ∃ e, fs.archive dir = .error e) :
    ∃ e, readGen pl arr fs dir = .error e := by
  unfold readGen
  split
  · exact ⟨.read, rfl⟩
  · rcases h with ⟨e, h⟩ | ⟨e, h⟩
    · rw [h]; exact ⟨e, rfl⟩
    · cases fs.metadata dir with
      | error e => exact ⟨e, rfl⟩
      | ok p =>
        simp only [bind, Except.bind]
        cases pl p.1 with
        | error e => exact ⟨e, rfl⟩
        | ok m => rw [h]; exact ⟨e, rfl⟩

/-- The metadata of what was read, and the arrays. -/
theorem readGen_inv {μ β : Type} {pl : Payload → Except Err μ} {arr : ℕ × NpArr W → Except Err (ℕ × β)}
    {fs : FS W} {dir : Path} {m : μ} {ls : List (ℕ × β)} (h : readGen pl arr fs dir = .ok (m, ls)) :
    (fs dir).isSome = true ∧ ∃ p f, fs (dir ++ ["metadata.json"]) = some (.file (.metaJson p f)) ∧ pl p = .ok m := by
  unfold readGen at h
  split at h
  · cases h
  · rename_i hd
    refine ⟨by cases hx : fs dir <;> simp_all, ?_⟩
    cases hm : fs.metadata dir with
    | error e => rw [hm] at h; cases h
    | ok p =>
      rw [hm] at h
      simp only [bind, Except.bind] at h
      have hmm : fs (dir ++ ["metadata.json"]) = some (.file (.metaJson p.1 p.2)) := by
        unfold FS.metadata FS.content at hm
        cases hf : fs (dir ++ ["metadata.json"]) with
        | none => rw [hf] at hm; cases hm
        | some n =>
          rw [hf] at hm
          cases n with
          | dir => cases hm
          | file c =>
            cases c <;> simp only [bind, Except.bind, parseMeta] at hm <;> cases hm
            rfl
      refine ⟨p.1, p.2, hmm, ?_⟩
      cases hp : pl p.1 with
      | error e => rw [hp] at h; cases h
      | ok m' =>
        rw [hp] at h
        simp only at h
        cases ha : fs.archive dir with
        | error e => rw [ha] at h; cases h
        | ok a =>
          rw [ha] at h
          simp only at h
          cases hb : a.mapM arr with
          | error e => rw [hb] at h; cases h
          | ok b =>
            rw [hb] at h
            simp only at h
            cases hc : dictGet b 0 with
            | error e => rw [hc] at h; cases h
            | ok x => rw [hc] at h; cases h; rfl

/-! ## After a completed write -/

/-- What a successful level writer leaves. -/
theorem writeLevels_inv {ov : Bool} {writer : String} {dir : Path} {p : Payload} {files : List (String × List String)}
    {data : List (ℕ × NpArr W)} {s s' : FsState W} (h : writeLevels ov writer dir p files data s = (.ok (), s')) :
    s'.fs dir = some .dir ∧
      s'.fs (dir ++ ["data.npz"]) = some (.file (.npz (data.map fun q => (q.1.repr, q.2)))) ∧
      s'.fs (dir ++ ["metadata.json"]) = some (.file (.metaJson (p.withHistory (p.history ++ [writer])) files)) := by
  unfold writeLevels at h
  rw [fs_bind] at h
  rcases hc : checkDir ov dir s with ⟨r, s1⟩
  rw [hc] at h
  cases r with
  | error e => simp only at h; cases h
  | ok u =>
    simp only at h
    rw [fs_bind] at h
    rcases writeFile_run dir "data.npz" (.npz (data.map fun q => (q.1.repr, q.2))) s1 with ⟨hg, hw⟩ | ⟨_, hw⟩
    · rw [hw] at h
      simp only at h
      set s2 := s1.after [s1.fs.set (dir ++ ["data.npz"]) (.file .torn),
        s1.fs.set (dir ++ ["data.npz"]) (.file (.npz (data.map fun q => (q.1.repr, q.2))))] with hs2
      have hfs2 : s2.fs = s1.fs.set (dir ++ ["data.npz"])
        (.file (.npz (data.map fun q => (q.1.repr, q.2)))) := rfl
      rcases writeFile_run dir "metadata.json"
        (.metaJson (p.withHistory (p.history ++ [writer])) files) s2 with ⟨hg2, hw2⟩ | ⟨_, hw2⟩
      · rw [hw2] at h
        cases h
        simp only [Bool.and_eq_true] at hg
        have hd := isDir_iff.1 hg.1
        refine ⟨?_, ?_, ?_⟩
        · show (s2.fs.set (dir ++ ["metadata.json"]) _) dir = _
          rw [set_ne (dir_ne dir _), hfs2, set_ne (dir_ne dir _), hd]
        · show (s2.fs.set (dir ++ ["metadata.json"]) _) (dir ++ ["data.npz"]) = _
          rw [set_ne (by simp), hfs2, set_eq]
        · exact set_eq
      · rw [hw2] at h; cases h
    · rw [hw] at h; simp only at h; cases h

theorem mapM_decArray (data : List (ℕ × List (List ℚ))) :
    (data.map fun q => (q.1, NpArr.mat (W := W) q.2)).mapM decArray = .ok data := by
  rw [List.mapM_map]
  induction data with
  | nil => rfl
  | cons q data ih =>
    rw [List.mapM_cons]
    simp only [Function.comp, decArray, bind, Except.bind] at ih ⊢
    rw [ih]; rfl

theorem mapM_winArray (data : List (ℕ × WinArr ℚ)) :
    (data.map fun q => (q.1, NpArr.win (W := W) q.2)).mapM winArray = .ok data := by
  rw [List.mapM_map]
  induction data with
  | nil => rfl
  | cons q data ih =>
    rw [List.mapM_cons]
    simp only [Function.comp, winArray, bind, Except.bind] at ih ⊢
    rw [ih]; rfl

theorem mapM_specArray (data : List (ℕ × SpecArr W)) :
    (data.map fun q => (q.1, NpArr.spec q.2)).mapM specArray = .ok data := by
  rw [List.mapM_map]
  induction data with
  | nil => rfl
  | cons q data ih =>
    rw [List.mapM_cons]
    simp only [Function.comp, specArray, bind, Except.bind] at ih ⊢
    rw [ih]; rfl

/-- **C40 (decimated data)**: whenever the writer has succeeded (whatever was in the directory before), the reader
returns the same levels in the same order with the same arrays and the same metadata, with the two records appended.
(Data without level 0 cannot be constructed.) -/
theorem C40_decimated_round_trip (ov : Bool) (dir : Path) (files : List (String × List String)) (d : DecData ℚ)
    (s s' : FsState W) (h : writeDec ov dir files d s = (.ok (), s')) (h0 : (d.data.lookup 0).isSome = true) :
    readDecFiles s'.fs dir = .ok { md := { d.md with
      history := d.md.history ++ ["DecimatedDataWriter", "DecimatedDataReader"] }, data := d.data } := by
  obtain ⟨hd, ha, hm⟩ := writeLevels_inv h
  rw [readDec_gen, readGen_ok hd hm ha (m := { d.md with history := d.md.history ++ ["DecimatedDataWriter"] }) rfl
    (mapM_decArray d.data) h0]
  simp [Except.map]

/-- **C40 (windowed data)**. -/
theorem C40_windowed_round_trip (ov : Bool) (dir : Path) (files : List (String × List String)) (d : WinData ℚ)
    (s s' : FsState W) (h : writeWin ov dir files d s = (.ok (), s')) (h0 : (d.data.lookup 0).isSome = true) :
    readWinFiles s'.fs dir = .ok { md := { d.md with
      history := d.md.history ++ ["WindowedDataWriter", "WindowedDataReader"] }, data := d.data } := by
  obtain ⟨hd, ha, hm⟩ := writeLevels_inv h
  rw [readWin_gen, readGen_ok hd hm ha (m := { d.md with history := d.md.history ++ ["WindowedDataWriter"] }) rfl
    (mapM_winArray d.data) h0]
  simp [Except.map]

/-- **C40 (spectra data)**. -/
theorem C40_spectra_round_trip (ov : Bool) (dir : Path) (files : List (String × List String)) (d : SpecData W)
    (s s' : FsState W) (h : writeSpec ov dir files d s = (.ok (), s')) (h0 : (d.data.lookup 0).isSome = true) :
    readSpecFiles s'.fs dir = .ok { md := { d.md with
      history := d.md.history ++ ["SpectraDataWriter", "SpectraDataReader"] }, data := d.data } := by
  obtain ⟨hd, ha, hm⟩ := writeLevels_inv h
  rw [readSpec_gen, readGen_ok hd hm ha (m := { d.md with history := d.md.history ++ ["SpectraDataWriter"] }) rfl
    (mapM_specArray d.data) h0]
  simp [Except.map]

/-- Specification: a file name with a given extension, as `pathlib` sees it: something comes before the extension. -/
def HasExtension (ext name : String) : Prop := ∃ stem : String, stem ≠ "" ∧ name = stem ++ ext

theorem hasSuffix_iff (ext name : String) : hasSuffix ext name = true ↔ HasExtension ext name := by
  unfold hasSuffix HasExtension
  rw [Bool.and_eq_true, decide_eq_true_iff, List.isSuffixOf_iff_suffix]
  constructor
  · rintro ⟨⟨l, hl⟩, hlen⟩
    refine ⟨String.ofList l, ?_, ?_⟩
    · intro e
      have : l = [] := by rw [← String.toList_ofList (l := l), e]; rfl
      subst this
      rw [← hl] at hlen
      simp at hlen
    · apply String.toList_injective
      rw [String.toList_append, String.toList_ofList, hl]
  · rintro ⟨stem, hne, rfl⟩
    rw [String.toList_append]
    refine ⟨⟨_, rfl⟩, ?_⟩
    have : stem.toList ≠ [] := fun e => hne (String.toList_injective (by rw [e]; rfl))
    have := List.length_pos_iff.2 this
    rw [List.length_append]
    omega

theorem metadata_iff (fs : FS W) (dir : Path) (p : Payload) (f : List (String × List String)) :
    fs.metadata dir = .ok (p, f) ↔ fs (dir ++ ["metadata.json"]) = some (.file (.metaJson p f)) := by
  refine ⟨fun h => ?_, metadata_of⟩
  unfold FS.metadata FS.content at h
  obtain ⟨c, hc, h⟩ := except_bind_ok.1 h
  cases hx : fs (dir ++ ["metadata.json"]) with
  | none => rw [hx] at hc; cases hc
  | some x =>
    rw [hx] at hc
    cases x with
    | dir => cases hc
    | file c' =>
      cases hc
      cases c <;> simp only [parseMeta, Except.ok.injEq, reduceCtorEq, Prod.mk.injEq] at h
      obtain ⟨rfl, rfl⟩ := h
      rfl

/-- **C40**. The readers of time data take a directory exactly when its metadata file holds time metadata, and every data file named in
it is a file in the directory with the extension of the reader; otherwise they raise, without reading data. -/
theorem C40_time_metadata_iff (fs : FS W) (ext : String) (dir : Path) (md : TimeMeta) (files : List (String × List String)) :
    fs.timeMetadata ext dir = .ok (md, files) ↔
      fs (dir ++ ["metadata.json"]) = some (.file (.metaJson (.time md) files)) ∧
      ∀ ch ∈ files, ∀ name ∈ ch.2, (∃ c, fs (dir ++ [name]) = some (.file c)) ∧ HasExtension ext name := by
  have hfile : ∀ q, fs.isFile q = true ↔ ∃ c, fs q = some (.file c) := by
    intro q
    unfold FS.isFile
    cases h : fs q with
    | none => simp
    | some x => cases x <;> simp
  have hall : ((files.all fun c => c.2.all fun x => fs.isFile (dir ++ [x])) = true ∧
      (files.all fun c => c.2.all fun x => hasSuffix ext x) = true) ↔
      ∀ ch ∈ files, ∀ name ∈ ch.2, (∃ c, fs (dir ++ [name]) = some (.file c)) ∧ HasExtension ext name := by
    simp only [List.all_eq_true, hfile, hasSuffix_iff]
    constructor
    · rintro ⟨h1, h2⟩ ch hch name hname
      exact ⟨h1 ch hch name hname, h2 ch hch name hname⟩
    · intro h
      exact ⟨fun ch hch name hname => (h ch hch name hname).1, fun ch hch name hname => (h ch hch name hname).2⟩
  rw [← hall]
  unfold FS.timeMetadata
  constructor
  · intro h
    obtain ⟨q, hq, h⟩ := except_bind_ok.1 h
    obtain ⟨m, hm, h⟩ := except_bind_ok.1 h
    simp only [bind, Except.bind, pure, Except.pure, throw, throwThe, MonadExceptOf.throw] at h
    split at h
    · cases h
    · rename_i h1
      split at h
      · cases h
      · rename_i h2
        simp only [Except.ok.injEq, Prod.mk.injEq] at h
        obtain ⟨rfl, rfl⟩ := h
        refine ⟨?_, by simpa using h1, by simpa using h2⟩
        obtain ⟨pl, f⟩ := q
        cases pl <;> simp only [timePayload, Except.ok.injEq, reduceCtorEq] at hm
        subst hm
        exact (metadata_iff fs dir _ _).1 hq
  · rintro ⟨h0, h1, h2⟩
    simp only [metadata_of h0, timePayload, bind, Except.bind, h1, h2, Bool.not_true, Bool.false_eq_true, if_false]
    rfl

end Resistics
