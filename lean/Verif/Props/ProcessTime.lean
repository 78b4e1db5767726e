import Verif.Props.Quick

/-!
# Processing time data into a measurement (C59)

`process_time` and what a project loaded afterwards contains.
-/

namespace Resistics

/-! ## Specification -/

/-- Specification: what `process_time` computes: the recording read, and that after the processors of the configuration. -/
def Config.Processed (c : Config) (p : Project ℂ) (fs : FS ℂ) (site meas : String) (r : ReadReq) (td0 td : TimeData ℚ) : Prop :=
  ∃ m, p.getMeas site meas = .ok m ∧ m.reader.readData fs m.dirPath m.md r = .ok td0 ∧
    runTimeProcessors c.sp c.timeProcs td0 = .ok td

/-- Specification: the metadata of a recording with the record of the writer. -/
def TimeMeta.written (md : TimeMeta) : TimeMeta := { md with history := md.history ++ ["TimeWriterNumpy"] }

/-- Specification: the measurement with the metadata of a written recording. -/
def IsWritten (proj : Path) (site meas : String) (td : TimeData ℚ) (m : Meas ℂ) : Prop :=
  m.siteName = site ∧ m.dirPath = proj ++ ["time", site, meas] ∧ m.md = td.md.written ∧ m.reader.name = "TimeReaderNumpy"

/-- Specification: `process_time` without time processors, onto the very file in which the recording stays after reading. -/
def Config.OverItself (c : Config) (p : Project ℂ) (fs : FS ℂ) (site meas outSite outMeas : String) : Prop :=
  c.timeProcs = [] ∧ ∃ m, p.getMeas site meas = .ok m ∧
    m.reader.mapped fs m.dirPath = some (getMeasTimePath p.dirPath outSite outMeas ++ ["data.npy"])

/-- Specification: the readers of the default configuration, the first for ASCII data, the second for numpy data. -/
def DefaultReaders (readers : List (TReader ℂ)) : Prop :=
  ∃ data, readers = [asciiReader ℂ data, numpyReader ℂ] ∧
    ∀ (fs t : FS ℂ) (dir : Path), (∀ q, dir <+: q → fs q = t q) → ∀ m req, data fs dir m req = data t dir m req

/-! ## Loaded projects -/

/-- The measurements of a loaded project are the directories in the directories of the sites in which a reader reads metadata. -/
theorem getMeas_loaded {W : Type} {ls : Path → List String} {now : Path → DateTime × DateTime} {readers : List (TReader W)}
    {fs : FS W} {dir : Path} (hls : IsListing ls fs) {p : Project W} (h : loadProject ls now readers fs dir = .ok p)
    (site meas : String) (m : Meas W) :
    p.getMeas site meas = .ok m ↔ fs (dir ++ ["time", site]) = some .dir ∧ fs (dir ++ ["time", site, meas]) = some .dir ∧
      m.siteName = site ∧ m.dirPath = dir ++ ["time", site, meas] ∧
      FirstReading readers fs (dir ++ ["time", site, meas]) m.reader m.md := by
  obtain ⟨h1, _, h3, h4, h5, _⟩ := C44_lists_exactly ls now readers fs dir hls p h
  have happ : ∀ n : String, dir ++ ["time", n] ++ [meas] = dir ++ ["time", n, meas] := by simp
  constructor
  · intro hm
    unfold Project.getMeas at hm
    obtain ⟨s, hs, hm⟩ := except_bind_ok.1 hm
    unfold Project.getSite at hs
    unfold Site.getMeasurement at hm
    split at hs
    · rename_i s' hs'
      cases hs
      split at hm
      · rename_i m' hm'
        rw [Except.ok.injEq] at hm
        subst hm
        obtain ⟨e1, e2, e3, _⟩ := h5 site _ (lookup_some_mem hs')
        obtain ⟨f1, f2, f3, f4⟩ := (e3.2 meas m').1 (lookup_some_mem hm')
        rw [e1, happ] at f1 f3 f4
        exact ⟨(h4 site).1 ⟨_, lookup_some_mem hs'⟩, f1, by rw [f2, e2], f3, f4⟩
      · cases hm
    · cases hs
  · rintro ⟨a1, a2, a3, a4, a5⟩
    obtain ⟨s, hs⟩ := (h4 site).2 a1
    obtain ⟨e1, e2, e3, _⟩ := h5 site s hs
    have hm := (e3.2 meas m).2 ⟨by rw [e1, happ]; exact a2, by rw [a3, e2], by rw [a4, e1, happ], by rw [e1, happ]; exact a5⟩
    unfold Project.getMeas Project.getSite Site.getMeasurement
    rw [(lookup_of_mem h3).2 hs]
    show (match s.measurements.lookup meas with | some m => Except.ok m | none => Except.error Err.measNotFound) = _
    rw [(lookup_of_mem e3.1).2 hm]

theorem timePath (proj : Path) {site meas : String} (hs : IsName site) (hm : IsName meas) :
    getMeasTimePath proj site meas = proj ++ ["time", site, meas] :=
  DataId.path_eq proj (d := .time site meas) ⟨hs, hm⟩

/-- What changes when a measurement is written leaves the project and its other measurements as they were. -/
theorem frame_others {proj : Path} {site meas : String} {fs t : FS ℂ}
    (h : OnlyOutput (proj ++ ["time", site, meas]) ["data.npy", "metadata.json"] fs t) (md : ProjMeta)
    (hp : HoldsProject fs proj md) :
    HoldsProject t proj md ∧
      (∀ n, fs (proj ++ ["time", n]) = some .dir → t (proj ++ ["time", n]) = some .dir) ∧
      (∀ n n', (n, n') ≠ (site, meas) → ∀ q, proj ++ ["time", n, n'] <+: q → fs q = t q) := by
  have hkeep : ∀ q, fs q ≠ none → ¬ (∃ n ∈ ["data.npy", "metadata.json"], q = proj ++ ["time", site, meas] ++ [n]) → t q = fs q := by
    intro q hq hn
    by_contra hne
    rcases h q hne with ⟨-, e, -⟩ | e
    · exact hq e
    · exact hn e
  have hlen : ∀ q : Path, q.length < proj.length + 4 →
      ¬ (∃ n ∈ ["data.npy", "metadata.json"], q = proj ++ ["time", site, meas] ++ [n]) := by
    rintro q hq ⟨n, -, rfl⟩
    simp at hq
  refine ⟨⟨?_, ?_, ?_⟩, ?_, ?_⟩
  · rw [hkeep _ (by rw [hp.1]; simp) (hlen _ (by omega))]; exact hp.1
  · rw [hkeep _ (by rw [hp.2.1]; simp) (hlen _ (by simp))]; exact hp.2.1
  · rw [hkeep _ (by rw [hp.2.2]; simp) (hlen _ (by simp))]; exact hp.2.2
  · intro n hn
    rw [hkeep _ (by rw [hn]; simp) (hlen _ (by simp))]; exact hn
  · rintro n n' hne q ⟨rest, rfl⟩
    by_contra hq
    apply hne
    rcases h _ (Ne.symm hq) with ⟨e, -, -⟩ | ⟨x, -, e⟩
    · have e' := e.length_le
      have : rest = [] := by
        cases rest with
        | nil => rfl
        | cons a l => simp at e'; omega
      subst this
      rw [List.append_nil] at e
      have := e.eq_of_length (by simp)
      simpa using this
    · rw [List.append_assoc, List.append_assoc, List.append_cancel_left_eq] at e
      cases e
      rfl

theorem FirstReading.congr {readers : List (TReader ℂ)} (hr : ∀ r ∈ readers, r.Local) {fs t : FS ℂ} {dir : Path}
    (h : ∀ q, dir <+: q → fs q = t q) {r : TReader ℂ} {md : TimeMeta} (hf : FirstReading readers fs dir r md) :
    FirstReading readers t dir r md := by
  obtain ⟨b, a, e, h1, h2⟩ := hf
  refine ⟨b, a, e, ?_, ?_⟩
  · rw [← ((hr r (by rw [e]; simp)) fs t dir h).1]; exact h1
  · intro r' hr'
    rw [← ((hr r' (by rw [e]; simp [hr'])) fs t dir h).1]
    exact h2 r' hr'

/-! ## The theorems -/

theorem overItself_iff (c : Config) (p : Project ℂ) (fs : FS ℂ) (site meas outSite outMeas : String) :
    c.overItself p site meas (getMeasTimePath p.dirPath outSite outMeas) fs = true ↔
      c.OverItself p fs site meas outSite outMeas := by
  unfold Config.overItself Config.OverItself
  cases c.timeProcs with
  | cons a l => simp
  | nil =>
    cases p.getMeas site meas with
    | error e => simp
    | ok m => simp

theorem processTime_cases (c : Config) (p : Project ℂ) (site meas outSite outMeas : String) (r : ReadReq)
    (files : TimeData ℚ → List (String × List String)) (s : FsState ℂ) :
    (∃ e, c.timeOf p s.fs site meas r = .error e ∧ processTime c p site meas outSite outMeas r files s = (.error e, s)) ∨
    ∃ td0 td, c.Processed p s.fs site meas r td0 td ∧
      (¬ c.OverItself p s.fs site meas outSite outMeas ∧ processTime c p site meas outSite outMeas r files s =
        writeTimeNumpy true (getMeasTimePath p.dirPath outSite outMeas) (files td) td s ∨
      c.OverItself p s.fs site meas outSite outMeas ∧ processTime c p site meas outSite outMeas r files s =
        c.writeOverItself (getMeasTimePath p.dirPath outSite outMeas) (files td) td s) := by
  unfold processTime
  rw [fs_read_bind]
  cases h : c.timeOf p s.fs site meas r with
  | error e => exact Or.inl ⟨e, rfl, rfl⟩
  | ok td =>
    right
    unfold Config.timeOf at h
    obtain ⟨m, h1, h⟩ := except_bind_ok.1 h
    obtain ⟨td0, h2, h3⟩ := except_bind_ok.1 h
    refine ⟨td0, td, ⟨m, h1, h2, h3⟩, ?_⟩
    simp only
    rw [fs_read_bind]
    simp only
    by_cases ho : c.OverItself p s.fs site meas outSite outMeas
    · right
      refine ⟨ho, ?_⟩
      rw [if_pos ((overItself_iff c p s.fs site meas outSite outMeas).2 ho)]
    · left
      refine ⟨ho, ?_⟩
      rw [if_neg fun hh => ho ((overItself_iff c p s.fs site meas outSite outMeas).1 hh)]

theorem processTime_plain {c : Config} {p : Project ℂ} {site meas outSite outMeas : String} {r : ReadReq}
    {files : TimeData ℚ → List (String × List String)} {s : FsState ℂ} (hov : ¬ c.OverItself p s.fs site meas outSite outMeas) :
    (∃ e, c.timeOf p s.fs site meas r = .error e ∧ processTime c p site meas outSite outMeas r files s = (.error e, s)) ∨
    ∃ td0 td, c.Processed p s.fs site meas r td0 td ∧ processTime c p site meas outSite outMeas r files s =
        writeTimeNumpy true (getMeasTimePath p.dirPath outSite outMeas) (files td) td s := by
  rcases processTime_cases c p site meas outSite outMeas r files s with h | ⟨td0, td, hp, ⟨-, he⟩ | ⟨ho, -⟩⟩
  · exact .inl h
  · exact .inr ⟨td0, td, hp, he⟩
  · exact absurd ho hov

/-- **C59**. A measurement of a loaded project is only written over itself when it is the target, and the configuration has no time
processors; this is so with the readers of the default configuration and all readers that load the samples. -/
theorem C59_over_itself_only (c : Config) (p : Project ℂ) (fs0 fs : FS ℂ) (site meas outSite outMeas : String)
    (ls : Path → List String) (now : Path → DateTime × DateTime) (readers : List (TReader ℂ)) (hls : IsListing ls fs0)
    (hr : ∀ r ∈ readers, ∀ t dir f, r.mapped t dir = some f → ∃ n, f = dir ++ [n])
    (hp : loadProject ls now readers fs0 p.dirPath = .ok p) (h1 : IsName outSite) (h2 : IsName outMeas)
    (ho : c.OverItself p fs site meas outSite outMeas) : c.timeProcs = [] ∧ (site, meas) = (outSite, outMeas) := by
  obtain ⟨h0, m, hm, hmap⟩ := ho
  refine ⟨h0, ?_⟩
  obtain ⟨-, -, -, hd, b, a, e, -⟩ := (getMeas_loaded hls hp site meas m).1 hm
  obtain ⟨n, hn⟩ := hr m.reader (by rw [e]; simp) fs m.dirPath _ hmap
  rw [hd, timePath _ h1 h2] at hn
  have := congrArg List.dropLast hn
  simp only [List.dropLast_concat] at this
  simpa using this.symm

/-- The readers of the default configuration map files of the measurement's directory or none. -/
theorem DefaultReaders.maps {readers : List (TReader ℂ)} (h : DefaultReaders readers) :
    ∀ r ∈ readers, ∀ t dir f, r.mapped t dir = some f → ∃ n, f = dir ++ [n] := by
  obtain ⟨data, rfl, -⟩ := h
  intro r hr t dir f hf
  simp only [List.mem_cons, List.not_mem_nil, or_false] at hr
  rcases hr with rfl | rfl
  · cases hf
  · have hf' : (numpyDataFile t dir).toOption = some f := hf
    cases hn : numpyDataFile t dir with
    | error e => rw [hn] at hf'; cases hf'
    | ok g =>
      rw [hn] at hf'
      cases hf'
      unfold numpyDataFile at hn
      obtain ⟨_, -, hn⟩ := except_bind_ok.1 hn
      obtain ⟨_, -, hn⟩ := except_bind_ok.1 hn
      obtain ⟨_, -, hn⟩ := except_bind_ok.1 hn
      obtain ⟨n, -, hn⟩ := except_bind_ok.1 hn
      exact ⟨n, (Except.ok.inj hn).symm⟩

/-- **C59 (the recording is lost)**. Written over itself, a recording is gone: what is stored afterwards is `lost`, which depends only on
the number of channels and samples, or the call does not end and the data file is damaged. -/
theorem C59_over_itself (c : Config) (p : Project ℂ) (site meas outSite outMeas : String) (r : ReadReq)
    (files : TimeData ℚ → List (String × List String)) (s s' : FsState ℂ) (x : Except Err Unit)
    (ho : c.OverItself p s.fs site meas outSite outMeas) (hd : s.fs (getMeasTimePath p.dirPath outSite outMeas) = some .dir)
    (hfile : s.fs (getMeasTimePath p.dirPath outSite outMeas ++ ["data.npy"]) ≠ some .dir)
    (td : TimeData ℚ) (hp : c.Processed p s.fs site meas r td td)
    (h : processTime c p site meas outSite outMeas r files s = (x, s')) :
    s'.fs (getMeasTimePath p.dirPath outSite outMeas ++ ["data.npy"]) =
      some (.file ((c.lost td.data.length (td.data.headD []).length).elim .torn .npy)) ∧
    (c.lost td.data.length (td.data.headD []).length = none → ∃ e, x = .error e) := by
  rcases processTime_cases c p site meas outSite outMeas r files s with ⟨e, he, -⟩ | ⟨td0, td', hp', ⟨hn, -⟩ | ⟨-, he⟩⟩
  · obtain ⟨m, a1, a2, a3⟩ := hp
    unfold Config.timeOf at he
    simp only [a1, a2, a3, bind, Except.bind] at he
    cases he
  · exact absurd ho hn
  · have htd : td' = td := by
      obtain ⟨m, a1, a2, a3⟩ := hp
      obtain ⟨m', b1, b2, b3⟩ := hp'
      rw [a1] at b1; cases b1
      rw [a2] at b2; cases b2
      rw [a3] at b3; cases b3
      rfl
    subst htd
    rw [he] at h
    unfold Config.writeOverItself at h
    have hck : checkDir true (getMeasTimePath p.dirPath outSite outMeas) s = (.ok (), s) := by
      unfold checkDir
      rw [fs_read_bind, hd]
      rfl
    have hwr : ∀ cc : Content ℂ, writeFile (getMeasTimePath p.dirPath outSite outMeas) "data.npy" cc s = (.ok (), s.after
        [s.fs.set (getMeasTimePath p.dirPath outSite outMeas ++ ["data.npy"]) (.file .torn),
          s.fs.set (getMeasTimePath p.dirPath outSite outMeas ++ ["data.npy"]) (.file cc)]) := by
      intro cc
      exact writeFile_ok hd hfile
    cases hl : c.lost td'.data.length (td'.data.headD []).length with
    | none =>
      rw [hl] at h
      simp only at h
      rw [fs_bind, hck] at h
      simp only at h
      rw [fs_bind, hwr] at h
      simp only at h
      cases h
      exact ⟨set_eq, fun _ => ⟨_, rfl⟩⟩
    | some data =>
      rw [hl] at h
      simp only at h
      refine ⟨?_, by simp⟩
      unfold writeTimeNumpy at h
      rw [fs_bind, hck] at h
      simp only at h
      rw [fs_bind, hwr] at h
      simp only at h
      rw [fs_read_bind] at h
      cases hset : setDataFiles td'.md.chans (fun _ => "data.npy") (files td') with
      | error e =>
        rw [hset] at h
        cases h
        exact set_eq
      | ok f =>
        rw [hset] at h
        simp only at h
        rcases writeFile_run (getMeasTimePath p.dirPath outSite outMeas) "metadata.json"
          (Content.metaJson (W := ℂ) (.time { td'.md with history := td'.md.history ++ ["TimeWriterNumpy"] }) f) (s.after
          [s.fs.set (getMeasTimePath p.dirPath outSite outMeas ++ ["data.npy"]) (.file .torn),
            s.fs.set (getMeasTimePath p.dirPath outSite outMeas ++ ["data.npy"]) (.file (.npy data))]) with ⟨-, hw⟩ | ⟨-, hw⟩
        · rw [hw] at h
          cases h
          show (FS.set _ _ _) _ = _
          rw [set_ne (by simp)]
          exact set_eq
        · rw [hw] at h
          cases h
          exact set_eq

/-- **C59**. When `process_time` succeeds, what is stored is the recording of the measurement, as it was before, after the processors:
for every request, the numpy reader returns from the new directory what it would return from the processed recording in memory. -/
theorem C59_stored (c : Config) (p : Project ℂ) (site meas outSite outMeas : String) (r : ReadReq)
    (files : TimeData ℚ → List (String × List String)) (s s' : FsState ℂ)
    (hov : ¬ c.OverItself p s.fs site meas outSite outMeas)
    (h : processTime c p site meas outSite outMeas r files s = (.ok (), s')) :
    ∃ td0 td, c.Processed p s.fs site meas r td0 td ∧
      (td.md.chans ≠ [] → (∀ q ∈ files td, q.1 ∈ td.md.chans) → ∀ r' md,
        (numpyReader ℂ).readData s'.fs (getMeasTimePath p.dirPath outSite outMeas) md r' =
          readNumpy td.data td.md.written r') ∧
      (c.sp.Lawful → (∀ q ∈ c.timeProcs, q.Valid) → td0.Consistent → td0.md.chans ≠ [] → 2 ≤ td.md.nSamples →
        (∀ q ∈ files td, q.1 ∈ td.md.chans) → ∀ md,
        (numpyReader ℂ).readData s'.fs (getMeasTimePath p.dirPath outSite outMeas) md {} =
          .ok { md := { td.md with history := td.md.history ++ ["TimeWriterNumpy", "TimeReaderNumpy"] }, data := td.data }) := by
  rcases processTime_plain (r := r) (files := files) hov with ⟨e, -, he⟩ | ⟨td0, td, hp, he⟩
  · rw [he] at h; cases h
  · rw [he] at h
    refine ⟨td0, td, hp, ?_, ?_⟩
    · intro hne hf r' md
      exact C40_time_numpy_reads_the_recording true _ _ td s s' h hne hf r'
    · intro hl hv hc hne hn hf md
      obtain ⟨m, -, -, hrun⟩ := hp
      obtain ⟨a1, a2, -⟩ := C23_chain_consistent c.sp hl c.timeProcs hv td0 td hc hrun
      exact C40_time_numpy_round_trip true _ _ td s s' h (by rw [a2]; exact hne) hf a1 hn

/-- **C59**. When the data cannot be read or processed, the exception is passed on and no file is touched. -/
theorem C59_failed (c : Config) (p : Project ℂ) (site meas outSite outMeas : String) (r : ReadReq)
    (files : TimeData ℚ → List (String × List String)) (s : FsState ℂ) (h : ∀ td0 td, ¬ c.Processed p s.fs site meas r td0 td) :
    ∃ e, processTime c p site meas outSite outMeas r files s = (.error e, s) := by
  rcases processTime_cases c p site meas outSite outMeas r files s with ⟨e, -, he⟩ | ⟨td0, td, hp, -⟩
  · exact ⟨e, he⟩
  · exact absurd hp (h td0 td)

theorem Framed.raise {W α : Type} {dir : Path} {names : List String} (e : Err) :
    Framed dir names (throw e : FsM W α) := fun s => ⟨[], by rw [after_nil]; rfl, by simp⟩

theorem processTime_framed (c : Config) (p : Project ℂ) (site meas outSite outMeas : String) (r : ReadReq)
    (files : TimeData ℚ → List (String × List String)) (s : FsState ℂ) (h1 : IsName outSite) (h2 : IsName outMeas) :
    ∃ steps, (processTime c p site meas outSite outMeas r files s).2.trace = s.trace ++ steps ∧
      ∀ t, t ∈ steps ∨ t = (processTime c p site meas outSite outMeas r files s).2.fs →
        OnlyOutput (p.dirPath ++ ["time", outSite, outMeas]) ["data.npy", "metadata.json"] s.fs t := by
  rcases processTime_cases c p site meas outSite outMeas r files s with ⟨e, -, he⟩ | ⟨td0, td, -, ⟨-, he⟩ | ⟨-, he⟩⟩
  · rw [he]
    refine ⟨[], by simp, ?_⟩
    rintro t (ht | rfl)
    · simp at ht
    · intro q hq; exact absurd rfl hq
  · obtain ⟨steps, a1, a2, a3⟩ := C39_touches_only_its_output (.timeNumpy td) true (getMeasTimePath p.dirPath outSite outMeas)
      (files td) s
    rw [timePath _ h1 h2] at a1 a2 a3 he
    rw [he]
    refine ⟨steps, a1, ?_⟩
    rintro t (ht | rfl)
    · exact a2 t ht
    · exact a3
  · have hfr : Framed (getMeasTimePath p.dirPath outSite outMeas) ["data.npy", "metadata.json"]
        (c.writeOverItself (getMeasTimePath p.dirPath outSite outMeas) (files td) td) := by
      unfold Config.writeOverItself
      cases c.lost td.data.length (td.data.headD []).length with
      | some data => exact WriteCall.framed (.timeNumpy { td with data := data }) true _ (files td)
      | none =>
        exact (Framed.check true).bind fun _ => (Framed.file (by simp) _).bind fun _ => Framed.raise .other
    obtain ⟨steps, a1, a2⟩ := hfr s
    rw [timePath _ h1 h2] at a1 a2 he
    rw [he]
    refine ⟨steps, by rw [a1]; rfl, ?_⟩
    rintro t (ht | rfl)
    · exact (a2 t ht).onlyOutput
    · rw [a1]
      exact (after_fs_frame a2).onlyOutput

/-- **C59**. At every moment during and after `process_time`, whether it succeeds, raises or is interrupted, the project can be loaded
with the same metadata, and it has every other measurement exactly as before. -/
theorem C59_others (c : Config) (p : Project ℂ) (site meas outSite outMeas : String) (r : ReadReq)
    (files : TimeData ℚ → List (String × List String)) (s : FsState ℂ) (h1 : IsName outSite) (h2 : IsName outMeas)
    (ht : s.fs.Tree) (ls : Path → List String) (now : Path → DateTime × DateTime) (readers : List (TReader ℂ))
    (hr : ∀ r ∈ readers, r.Local) (hls : IsListing ls s.fs) (p0 : Project ℂ)
    (hp0 : loadProject ls now readers s.fs p.dirPath = .ok p0) :
    ∃ steps, (processTime c p site meas outSite outMeas r files s).2.trace = s.trace ++ steps ∧
      ∀ t, t ∈ steps ∨ t = (processTime c p site meas outSite outMeas r files s).2.fs → ∀ ls' now', IsListing ls' t →
        ∃ p', loadProject ls' now' readers t p.dirPath = .ok p' ∧ p'.md = p0.md ∧
          ∀ n n', (n, n') ≠ (outSite, outMeas) → ∀ m, p'.getMeas n n' = .ok m ↔ p0.getMeas n n' = .ok m := by
  obtain ⟨steps, a1, a2⟩ := processTime_framed c p site meas outSite outMeas r files s h1 h2
  refine ⟨steps, a1, fun t hmem ls' now' hls' => ?_⟩
  obtain ⟨md, hold⟩ := (C44_loads_iff ls now readers s.fs p.dirPath).1 ⟨p0, hp0⟩
  obtain ⟨b1, b2, b3⟩ := frame_others (a2 t hmem) md hold
  obtain ⟨p', hp'⟩ := (C44_loads_iff ls' now' readers t p.dirPath).2 ⟨md, b1⟩
  refine ⟨p', hp', ?_, ?_⟩
  · have e1 := (C44_lists_exactly ls now readers s.fs p.dirPath hls p0 hp0).2.1
    have e2 := (C44_lists_exactly ls' now' readers t p.dirPath hls' p' hp').2.1
    rw [hold.2.1] at e1
    rw [b1.2.1] at e2
    simp only [Option.some.injEq, Node.file.injEq, Content.projJson.injEq] at e1 e2
    rw [← e1, ← e2]
  · intro n n' hne m
    have hsame := b3 n n' hne
    rw [getMeas_loaded hls' hp', getMeas_loaded hls hp0]
    constructor
    · rintro ⟨c1, c2, c3, c4, c5⟩
      rw [← hsame _ List.prefix_rfl] at c2
      refine ⟨?_, c2, c3, c4, c5.congr hr fun q hq => (hsame q hq).symm⟩
      have := ht.parent (p.dirPath ++ ["time", n]) n' (by
        rw [show p.dirPath ++ ["time", n] ++ [n'] = p.dirPath ++ ["time", n, n'] by simp, c2]; rfl)
      exact this
    · rintro ⟨c1, c2, c3, c4, c5⟩
      exact ⟨b2 n c1, by rw [← hsame _ List.prefix_rfl]; exact c2, c3, c4, c5.congr hr hsame⟩

/-- A project with the files of a written recording, loaded with the readers of the default configuration, has it as a measurement. -/
theorem listed_files {proj : Path} {site meas : String} {td : TimeData ℚ} {files f : List (String × List String)} {fs : FS ℂ} (ht : fs.Tree)
    (hd : fs (proj ++ ["time", site, meas]) = some .dir)
    (ha : fs (proj ++ ["time", site, meas] ++ ["data.npy"]) = some (.file (.npy td.data)))
    (hset : setDataFiles td.md.chans (fun _ => "data.npy") files = .ok f)
    (hm : fs (proj ++ ["time", site, meas] ++ ["metadata.json"]) = some (.file (.metaJson (.time (numpyWritten td)) f)))
    (hch : td.md.chans ≠ []) (hf : ∀ q ∈ files, q.1 ∈ td.md.chans)
    (ls : Path → List String) (now : Path → DateTime × DateTime) (readers : List (TReader ℂ)) (hr : DefaultReaders readers)
    (hls : IsListing ls fs) (p' : Project ℂ) (hp' : loadProject ls now readers fs proj = .ok p') :
    p'.getMeas site meas = .ok ⟨site, proj ++ ["time", site, meas], numpyWritten td, numpyReader ℂ⟩ := by
  obtain ⟨data, rfl, -⟩ := hr
  have hin := setDataFiles_inv hset
  rw [setDataFiles_ok _ _ _ hin] at hset
  cases hset
  have hmap : (files.map fun q => if q.1 ∈ td.md.chans then (q.1, ["data.npy"]) else q) =
      files.map fun q => (q.1, ["data.npy"]) := by
    apply List.map_congr_left
    intro q hq
    rw [if_pos (hf q hq)]
  rw [hmap] at hm
  have hfile : fs.isFile (proj ++ ["time", site, meas] ++ ["data.npy"]) = true := by unfold FS.isFile; rw [ha]
  have hmd : ∀ ext, fs.timeMetadata ext (proj ++ ["time", site, meas]) =
      if hasSuffix ext "data.npy" = true then .ok (numpyWritten td, files.map fun q => (q.1, ["data.npy"]))
      else .error .timeRead := by
    intro ext
    unfold FS.timeMetadata
    rw [metadata_of hm]
    simp only [bind, Except.bind, timePayload, List.all_map, Function.comp_def, List.all_cons, List.all_nil, hfile,
      Bool.and_true]
    have htrue : (files.all fun _ => true) = true := by simp
    rw [htrue]
    cases hs : hasSuffix ext "data.npy" with
    | true => rw [htrue]; rfl
    | false =>
      obtain ⟨ch, hch'⟩ := List.exists_mem_of_ne_nil _ hch
      obtain ⟨q, hq, -⟩ := hin ch hch'
      have : (files.all fun _ => false) = false := by
        rw [List.all_eq_false]; exact ⟨q, hq, by simp⟩
      rw [this]; rfl
  have hnpy : hasSuffix ".npy" "data.npy" = true := by decide +kernel
  have htxt : hasSuffix ".txt" "data.npy" = false := by decide +kernel
  rw [getMeas_loaded hls hp']
  refine ⟨?_, hd, rfl, rfl, [asciiReader ℂ data], [], rfl, ?_, ?_⟩
  · refine ht.parent (proj ++ ["time", site]) meas ?_
    rw [show proj ++ ["time", site] ++ [meas] = proj ++ ["time", site, meas] by simp, hd]
    rfl
  · unfold numpyReader
    simp only [hmd, hnpy, if_true, bind, Except.bind]
    rfl
  · intro r' hr'
    rw [List.mem_singleton] at hr'
    subst hr'
    refine ⟨.timeRead, ?_⟩
    unfold asciiReader readTimeAsciiMetadata
    simp only [hmd, htxt, bind, Except.bind]
    rfl

/-- **C59**. A project loaded after `process_time` has succeeded, with the readers of the default configuration, has the new
measurement: with the metadata of the processed recording, and read by the numpy reader. -/
theorem C59_listed (c : Config) (p : Project ℂ) (site meas outSite outMeas : String) (r : ReadReq)
    (files : TimeData ℚ → List (String × List String)) (s s' : FsState ℂ) (h1 : IsName outSite) (h2 : IsName outMeas)
    (hne : ∀ td0 td, c.Processed p s.fs site meas r td0 td → td.md.chans ≠ [] ∧ ∀ q ∈ files td, q.1 ∈ td.md.chans)
    (hov : ¬ c.OverItself p s.fs site meas outSite outMeas)
    (h : processTime c p site meas outSite outMeas r files s = (.ok (), s')) (ht : s'.fs.Tree)
    (ls : Path → List String) (now : Path → DateTime × DateTime) (readers : List (TReader ℂ)) (hr : DefaultReaders readers)
    (hls : IsListing ls s'.fs) (p' : Project ℂ) (hp' : loadProject ls now readers s'.fs p.dirPath = .ok p') :
    ∃ td0 td m, c.Processed p s.fs site meas r td0 td ∧ p'.getMeas outSite outMeas = .ok m ∧
      IsWritten p.dirPath outSite outMeas td m := by
  rcases processTime_plain (r := r) (files := files) hov with ⟨e, -, he⟩ | ⟨td0, td, hp, he⟩
  · rw [he] at h; cases h
  · rw [he, timePath _ h1 h2] at h
    obtain ⟨hd, ha, f, hset, hm⟩ := writeTimeNumpy_inv h
    obtain ⟨hch, hf⟩ := hne td0 td hp
    exact ⟨td0, td, _, hp, listed_files ht hd ha hset hm hch hf ls now readers hr hls p' hp', rfl, rfl, rfl, rfl⟩

/-- **C59**. When the data can be read and processed, and the target is a directory or can be made (no file in the way), and all
channels name data files, `process_time` succeeds: also when there is a measurement already. -/
theorem C59_succeeds (c : Config) (p : Project ℂ) (site meas outSite outMeas : String) (r : ReadReq)
    (files : TimeData ℚ → List (String × List String)) (s : FsState ℂ) (h1 : IsName outSite) (h2 : IsName outMeas)
    (hov : ¬ c.OverItself p s.fs site meas outSite outMeas)
    (td0 td : TimeData ℚ) (hp : c.Processed p s.fs site meas r td0 td)
    (hdir : s.fs (p.dirPath ++ ["time", outSite, outMeas]) = some .dir ∨
      s.fs (p.dirPath ++ ["time", outSite, outMeas]) = none ∧
        ∀ q, q <+: p.dirPath ++ ["time", outSite, outMeas] → s.fs.isFile q = false)
    (hfile : ∀ n ∈ ["data.npy", "metadata.json"], s.fs (p.dirPath ++ ["time", outSite, outMeas] ++ [n]) ≠ some .dir)
    (hf : ∀ ch ∈ td.md.chans, ∃ q ∈ files td, q.1 = ch) :
    ∃ s', processTime c p site meas outSite outMeas r files s = (.ok (), s') := by
  obtain ⟨m, a1, a2, a3⟩ := hp
  have ht : c.timeOf p s.fs site meas r = .ok td := by
    unfold Config.timeOf
    simp only [a1, a2, a3, bind, Except.bind]
  have hu : Usable true s.fs (p.dirPath ++ ["time", outSite, outMeas]) := by
    rcases hdir with h | h
    · exact Or.inl ⟨rfl, h⟩
    · exact Or.inr h
  obtain ⟨mk, hw, -⟩ := writeTimeNumpy_ok (d := td) (files := files td) hu (hfile _ (by simp)) (hfile _ (by simp)) hf
  have key : processTime c p site meas outSite outMeas r files s =
      writeTimeNumpy true (p.dirPath ++ ["time", outSite, outMeas]) (files td) td s := by
    rcases processTime_plain (r := r) (files := files) hov with ⟨e, he, -⟩ | ⟨td0', td', ⟨m', b1, b2, b3⟩, he⟩
    · rw [ht] at he; cases he
    · rw [a1] at b1; cases b1
      rw [a2] at b2; cases b2
      rw [a3] at b3; cases b3
      rw [he, timePath _ h1 h2]
  exact ⟨_, key.trans hw⟩

/-- **C59**. When the target is new, an interrupted `process_time` leaves no measurement: in every state before the last one, a project
loaded with the readers of the default configuration does not have it. -/
theorem C59_interrupted (c : Config) (p : Project ℂ) (site meas outSite outMeas : String) (r : ReadReq)
    (files : TimeData ℚ → List (String × List String)) (s s' : FsState ℂ) (h1 : IsName outSite) (h2 : IsName outMeas)
    (ht : s.fs.Tree) (hd : s.fs (p.dirPath ++ ["time", outSite, outMeas]) = none)
    (hov : ¬ c.OverItself p s.fs site meas outSite outMeas)
    (h : processTime c p site meas outSite outMeas r files s = (.ok (), s')) :
    ∃ steps, s'.trace = s.trace ++ steps ∧ steps.getLast? = some s'.fs ∧
      ∀ t ∈ steps.dropLast, ∀ ls now readers, DefaultReaders readers → IsListing ls t → ∀ p',
        loadProject ls now readers t p.dirPath = .ok p' → ∀ m, p'.getMeas outSite outMeas ≠ .ok m := by
  rcases processTime_plain (r := r) (files := files) hov with ⟨e, -, he⟩ | ⟨td0, td, hp, he⟩
  · rw [he] at h; cases h
  · rw [he, timePath _ h1 h2] at h
    obtain ⟨-, -, f, hset, -⟩ := writeTimeNumpy_inv h
    have hf : ∀ q, q <+: p.dirPath ++ ["time", outSite, outMeas] → s.fs.isFile q = false := by
      by_contra hne
      push Not at hne
      obtain ⟨q, hq, hq'⟩ := hne
      have := C39_file_in_the_way (.timeNumpy td) true _ (files td) s hd ⟨q, hq, by simpa using hq'⟩
      have h' : (WriteCall.timeNumpy td).run true (p.dirPath ++ ["time", outSite, outMeas]) (files td) s = (.ok (), s') := h
      rw [h'] at this; cases this
    have hchild : ∀ n, s.fs (p.dirPath ++ ["time", outSite, outMeas] ++ [n]) ≠ some .dir := by
      intro n h
      have := ht.parent _ n (by rw [h]; rfl)
      rw [hd] at this; cases this
    obtain ⟨mk, b1, b2, -, -⟩ := writeTimeNumpy_ok (d := td) (files := files td) (ov := true) (Or.inr ⟨hd, hf⟩)
      (hchild _) (hchild _) (setDataFiles_inv hset)
    rw [b1] at h
    cases h
    refine ⟨_, rfl, ?_, ?_⟩
    · rw [getLast_two, twoFileSteps_fs]
    · intro t hmem ls now readers hr hls p' hp' m hm
      obtain ⟨e, he⟩ := fresh_no_metadata hd ht b2 (by decide) hmem
      obtain ⟨-, -, -, -, pre, post, hsplit, hread, -⟩ := (getMeas_loaded hls hp' outSite outMeas m).1 hm
      obtain ⟨data, rfl, -⟩ := hr
      have hbad : ∀ ext, t.timeMetadata ext (p.dirPath ++ ["time", outSite, outMeas]) = .error e := by
        intro ext
        unfold FS.timeMetadata
        rw [he]
        rfl
      have hmr : m.reader ∈ [asciiReader ℂ data, numpyReader ℂ] := by rw [hsplit]; simp
      simp only [List.mem_cons, List.not_mem_nil, or_false] at hmr
      rcases hmr with hmr | hmr
      · rw [hmr] at hread
        unfold asciiReader readTimeAsciiMetadata at hread
        simp only [hbad, bind, Except.bind] at hread
        cases hread
      · rw [hmr] at hread
        unfold numpyReader at hread
        simp only [hbad, bind, Except.bind] at hread
        cases hread

/-! ## A concrete run -/

/-- `process_time` on the demonstration: the recording of measurement `m` of site `A` is stored, with its mean removed, as the new
measurement `m2` of the new site `B`, and can be read. -/
example : ∃ s' : FsState ℂ, ∃ td,
    processTime demoConfig (demoQuickProject demoLin) "A" "m" "B" "m2" {} (fun td => td.md.chans.map fun ch => (ch, [""]))
      { fs := demoEmptyFs } = (.ok (), s') ∧
    runTimeProcessors demoConfig.sp [.removeMean] demoLin = .ok td ∧
    ∀ md, (numpyReader ℂ).readData s'.fs ["proj", "time", "B", "m2"] md {} =
      .ok { md := { td.md with history := td.md.history ++ ["TimeWriterNumpy", "TimeReaderNumpy"] }, data := td.data } := by
  have hnB : IsName "B" := by unfold IsName; decide
  have hnm : IsName "m2" := by unfold IsName; decide
  obtain ⟨td, htd⟩ : ∃ td, runTimeProcessors demoConfig.sp demoConfig.timeProcs demoLin = .ok td := by
    simp [demoConfig, runTimeProcessors, Proc.run, bind, Except.bind, pure, Except.pure]
  have hproc : demoConfig.Processed (demoQuickProject demoLin) demoEmptyFs "A" "m" {} demoLin td :=
    ⟨demoQuickMeas demoLin, rfl, rfl, htd⟩
  have hover : ¬ demoConfig.OverItself (demoQuickProject demoLin) demoEmptyFs "A" "m" "B" "m2" := fun h => by cases h.1
  have hdir : ∀ q : Path, q ≠ [] → demoEmptyFs q = none := fun q hq => if_neg hq
  have hnofile : ∀ q, demoEmptyFs.isFile q = false := by
    intro q
    unfold FS.isFile demoEmptyFs
    by_cases hq : q = []
    · simp [hq]
    · simp [hq]
  have hnodir : ∀ n, demoEmptyFs (["proj", "time", "B", "m2"] ++ [n]) ≠ some .dir := by
    intro n
    rw [hdir _ (by simp)]
    simp
  obtain ⟨s', hs⟩ := C59_succeeds demoConfig (demoQuickProject demoLin) "A" "m" "B" "m2" {}
    (fun td => td.md.chans.map fun ch => (ch, [""])) { fs := demoEmptyFs } hnB hnm hover demoLin td hproc
    (Or.inr ⟨hdir ["proj", "time", "B", "m2"] (by simp), fun q _ => hnofile q⟩) (fun n _ => hnodir n)
    (fun ch hch => ⟨(ch, [""]), List.mem_map.2 ⟨ch, hch, rfl⟩, rfl⟩)
  refine ⟨s', td, hs, htd, fun md => ?_⟩
  obtain ⟨td0, td', ⟨m, e1, e2, e3⟩, -, hst⟩ := C59_stored _ _ _ _ _ _ _ _ _ _ hover hs
  have hm : m = demoQuickMeas demoLin := by
    have : (demoQuickProject demoLin).getMeas "A" "m" = .ok (demoQuickMeas demoLin) := rfl
    rw [this] at e1
    exact (Except.ok.inj e1).symm
  subst hm
  have h0 : td0 = demoLin := (Except.ok.inj e2).symm
  subst h0
  rw [htd] at e3
  have := Except.ok.inj e3
  subst this
  have hpath : getMeasTimePath (demoQuickProject demoLin).dirPath "B" "m2" = ["proj", "time", "B", "m2"] := timePath _ hnB hnm
  rw [hpath] at hst
  refine hst demoConfig_linear.lawful ?_ demoConfig_suits.consistent (by decide) ?_ ?_ md
  · intro q hq
    exact (demoConfig_linear.procs q hq).1
  · have : td.md.nSamples = demoLin.md.nSamples := by
      simp only [demoConfig, runTimeProcessors, List.foldlM_cons, List.foldlM_nil, Proc.run, bind, Except.bind,
        except_pure_ok] at htd
      subst htd
      rfl
    rw [this]
    decide
  · intro q hq
    obtain ⟨ch, hch, rfl⟩ := List.mem_map.1 hq
    exact hch

end Resistics
