import Verif.Model.Process
import Verif.Lemmas.Outs
import Verif.Props.ProjectPaths
import Verif.Props.FilesCrash

/-!
# Evaluation data of a project (C55)
-/

namespace Resistics

/-! ## Specification -/

/-- Specification: reading in a directory depends only on what is below the directory. -/
def TReader.Local {W : Type} (r : TReader W) : Prop :=
  ∀ (fs t : FS W) (dir : Path), (∀ q, dir <+: q → fs q = t q) →
    r.readMeta fs dir = r.readMeta t dir ∧ ∀ m req, r.readData fs dir m req = r.readData t dir m req

/-- Specification: calibration depends only on what is below the calibration directory. -/
def Config.LocalCal (c : Config) : Prop :=
  ∀ (fs t : FS ℂ) (dir : Path) (d : SpecData ℂ), (∀ q, dir <+: q → fs q = t q) → c.calibrate fs dir d = c.calibrate t dir d

/-- Specification: every measurement of the project is named by the directory it is in, and has a reader that reads only
there. -/
def Project.WellPlaced {W : Type} (p : Project W) : Prop :=
  ∀ site meas m, p.getMeas site meas = .ok m →
    m.siteName = site ∧ m.dirPath = p.dirPath ++ ["time", site, meas] ∧ m.reader.Local

/-- Specification: processing some measurements of a project one after another, with the data files named in their
metadata; it stops at the first exception. -/
noncomputable def processMeasurements (c : Config) (p : Project ℂ) (files : String × String → List (String × List String)) :
    List (String × String) → FsM ℂ Unit
  | [] => pure ()
  | x :: l => do
      processTimeToEvals c p x.1 x.2 (files x)
      processMeasurements c p files l

/-- Specification: the stored data of a measurement are the given ones, with the records of writer and reader in their
history. -/
def StoredAs (fs : FS ℂ) (proj : Path) (config : String) (x : String × String) (d : SpecData ℂ) : Prop :=
  (evalStoreOf fs proj config).readData x.1 x.2 =
      .ok { md := { d.md with history := d.md.history ++ ["SpectraDataWriter", "SpectraDataReader"] }, data := d.data } ∧
    (evalStoreOf fs proj config).readMeta x.1 x.2 = .ok { d.md with history := d.md.history ++ ["SpectraDataWriter"] }

/-! ## Locality -/

theorem numpyReader_local (W : Type) : (numpyReader W).Local := by
  intro fs t dir h
  have hc : ∀ n, fs.content (dir ++ [n]) = t.content (dir ++ [n]) := by
    intro n
    unfold FS.content
    rw [h _ (List.prefix_append _ _)]
  have hf : ∀ n, fs.isFile (dir ++ [n]) = t.isFile (dir ++ [n]) := by
    intro n
    unfold FS.isFile
    rw [h _ (List.prefix_append _ _)]
  have hm : fs.timeMetadata ".npy" dir = t.timeMetadata ".npy" dir := by
    unfold FS.timeMetadata FS.metadata
    simp only [hc, hf]
  constructor
  · simp only [numpyReader, hm]
  · intro m req
    simp only [numpyReader, readTimeNumpyFiles, hm, hc]

theorem asciiReader_local (W : Type) (data : FS W → Path → TimeMeta → ReadReq → Except Err (TimeData ℚ))
    (hd : ∀ fs t dir, (∀ q, dir <+: q → fs q = t q) → ∀ m req, data fs dir m req = data t dir m req) :
    (asciiReader W data).Local := by
  intro fs t dir h
  have hc : ∀ n, fs.content (dir ++ [n]) = t.content (dir ++ [n]) := by
    intro n
    unfold FS.content
    rw [h _ (List.prefix_append _ _)]
  have hf : ∀ n, fs.isFile (dir ++ [n]) = t.isFile (dir ++ [n]) := by
    intro n
    unfold FS.isFile
    rw [h _ (List.prefix_append _ _)]
  have hm : fs.timeMetadata ".txt" dir = t.timeMetadata ".txt" dir := by
    unfold FS.timeMetadata FS.metadata
    simp only [hc, hf]
  constructor
  · simp only [asciiReader, readTimeAsciiMetadata, hm]
  · intro m req
    exact hd fs t dir h m req

/-- The measurements of a loaded project are well placed. -/
theorem C55_loaded_well_placed {W : Type} (ls : Path → List String) (now : Path → DateTime × DateTime)
    (readers : List (TReader W)) (fs : FS W) (dir : Path) (hls : IsListing ls fs) (p : Project W)
    (h : loadProject ls now readers fs dir = .ok p) (hr : ∀ r ∈ readers, r.Local) : p.WellPlaced := by
  obtain ⟨h1, _, _, _, h5, _⟩ := C44_lists_exactly ls now readers fs dir hls p h
  intro site meas m hm
  unfold Project.getMeas at hm
  obtain ⟨s, hs, hm⟩ := except_bind_ok.1 hm
  unfold Project.getSite at hs
  unfold Site.getMeasurement at hm
  split at hs
  · rename_i s' hs'
    cases hs
    split at hm
    · rename_i m' hm'
      rw [Except.ok.injEq] at hm
      subst hm
      obtain ⟨e1, e2, e3, _⟩ := h5 site _ (lookup_some_mem hs')
      obtain ⟨_, e4, e5, b, a, e6, _⟩ := (e3.2 meas m').1 (lookup_some_mem hm')
      refine ⟨by rw [e4, e2], by rw [e5, e1, h1]; simp, ?_⟩
      exact hr _ (by rw [e6]; simp)
    · cases hm
  · cases hs

/-! ## Data computed from the time data -/

/-- The file systems agree on the time data and the calibration files of the project. -/
def SameInputs (proj : Path) (fs t : FS ℂ) : Prop :=
  ∀ q, (proj ++ ["time"] <+: q ∨ proj ++ ["calibrate"] <+: q) → fs q = t q

theorem calPath (proj : Path) : getCalibrationPath proj = proj ++ ["calibrate"] :=
  DataId.path_eq proj (d := .calibration) trivial

theorem evalsOf_congr {c : Config} {p : Project ℂ} (hp : p.WellPlaced) (hc : c.LocalCal) {fs t : FS ℂ}
    (h : SameInputs p.dirPath fs t) (site meas : String) : c.evalsOf p fs site meas = c.evalsOf p t site meas := by
  unfold Config.evalsOf
  cases hm : p.getMeas site meas with
  | error e => rfl
  | ok m =>
    obtain ⟨_, h2, h3⟩ := hp site meas m hm
    have hr : m.reader.readData fs m.dirPath m.md {} = m.reader.readData t m.dirPath m.md {} := by
      refine (h3 fs t m.dirPath fun q hq => h q (Or.inl ?_)).2 _ _
      rw [h2] at hq
      exact List.IsPrefix.trans ⟨[site, meas], by simp⟩ hq
    have hcal : ∀ d, c.calibrate fs (getCalibrationPath p.dirPath) d = c.calibrate t (getCalibrationPath p.dirPath) d := by
      intro d
      refine hc fs t _ d fun q hq => h q (Or.inr ?_)
      rw [calPath] at hq
      exact hq
    simp only [bind, Except.bind, hr, hcal]

/-- The measurement that comes with the data. -/
theorem evalsOf_meas {c : Config} {p : Project ℂ} (hp : p.WellPlaced) {fs : FS ℂ} {site meas : String} {m : Meas ℂ}
    {d : SpecData ℂ} (h : c.evalsOf p fs site meas = .ok (m, d)) : m.siteName = site ∧ m.name = meas := by
  unfold Config.evalsOf at h
  obtain ⟨m', h1, h⟩ := except_bind_ok.1 h
  obtain ⟨_, _, h⟩ := except_bind_ok.1 h
  obtain ⟨_, _, h⟩ := except_bind_ok.1 h
  obtain ⟨_, _, h⟩ := except_bind_ok.1 h
  simp only [pure, Except.pure, Except.ok.injEq, Prod.mk.injEq] at h
  obtain ⟨rfl, _⟩ := h
  obtain ⟨h2, h3, _⟩ := hp site meas m' h1
  refine ⟨h2, ?_⟩
  unfold Meas.name pathName
  rw [h3]
  simp

/-- What is written for a measurement. -/
def evalOut (c : Config) (p : Project ℂ) (files : String × String → List (String × List String))
    (d : String × String → SpecData ℂ) (x : String × String) : Out ℂ where
  dir := getMeasEvalsPath p.dirPath x.1 x.2 c.name
  arr := .npz (((d x).data.map fun q => (q.1, NpArr.spec q.2)).map fun q => (q.1.repr, q.2))
  mdata := .metaJson (.spec { (d x).md with history := (d x).md.history ++ ["SpectraDataWriter"] }) (files x)

theorem processTimeToEvals_eq {c : Config} {p : Project ℂ} (hp : p.WellPlaced)
    {files : String × String → List (String × List String)} {d : String × String → SpecData ℂ} {x : String × String}
    {s : FsState ℂ} {m : Meas ℂ} (h : c.evalsOf p s.fs x.1 x.2 = .ok (m, d x)) :
    processTimeToEvals c p x.1 x.2 (files x) s = writeOut (evalOut c p files d x) s := by
  obtain ⟨h1, h2⟩ := evalsOf_meas hp h
  unfold processTimeToEvals
  rw [fs_read_bind, h]
  simp only [h1, h2]
  rfl

theorem evalsPath (proj : Path) {site meas config : String} (hs : IsName site) (hm : IsName meas) (hc : IsName config) :
    getMeasEvalsPath proj site meas config = proj ++ ["evals", site, config, meas] :=
  DataId.path_eq proj (d := .evals site meas config) ⟨hs, hm, hc⟩

/-- Other directories than that of the evaluation data are not changed by writing those. -/
theorem between_outside {proj : Path} {l : List (Out ℂ)} {fs t : FS ℂ} (hb : Between l fs t)
    (hl : ∀ x ∈ l, proj ++ ["evals"] <+: x.dir) {q : Path} (hq : proj <+: q) (hne : q ≠ proj) (hev : ¬ proj ++ ["evals"] <+: q) :
    t q = fs q := by
  obtain ⟨r, rfl⟩ := hq
  cases r with
  | nil => simp at hne
  | cons n r =>
    have hn : n ≠ "evals" := by
      rintro rfl
      exact hev ⟨r, by simp⟩
    have hno : ∀ z : Path, proj ++ ["evals"] <+: z → ¬ (proj ++ n :: r) <+: z ∧ proj ++ n :: r ≠ z := by
      intro z hz
      obtain ⟨w, rfl⟩ := hz
      constructor
      · rw [List.append_assoc, List.prefix_append_right_inj]
        intro h
        simp only [List.singleton_append, List.cons_prefix_cons] at h
        exact hn h.1
      · rw [List.append_assoc]
        intro h
        have := List.append_cancel_left h
        simp only [List.singleton_append, List.cons.injEq] at this
        exact hn this.1
    rcases hb (proj ++ n :: r) with h | ⟨x, hx, h, _⟩ | ⟨x, hx, h, _⟩
    · exact h
    · exact absurd h (hno _ (hl x hx)).1
    · exfalso
      rcases h with h | h
      · exact (hno _ ((hl x hx).trans (List.prefix_append _ _))).2 h
      · exact (hno _ ((hl x hx).trans (List.prefix_append _ _))).2 h

theorem between_inputs {proj : Path} {l : List (Out ℂ)} {fs t : FS ℂ} (hb : Between l fs t)
    (hl : ∀ x ∈ l, proj ++ ["evals"] <+: x.dir) : SameInputs proj t fs := by
  have key : ∀ n : String, n ≠ "evals" → ∀ q, proj ++ [n] <+: q → t q = fs q := by
    intro n hn q hq
    obtain ⟨w, rfl⟩ := hq
    refine between_outside hb hl ⟨n :: w, by simp⟩ ?_ ?_
    · intro h
      have := congrArg List.length h
      simp at this
    · rw [List.append_assoc, List.prefix_append_right_inj]
      intro h
      simp only [List.singleton_append, List.cons_prefix_cons] at h
      exact hn h.1.symm
  intro q hq
  rcases hq with hq | hq
  · exact key "time" (by decide) q hq
  · exact key "calibrate" (by decide) q hq

/-- Processing measurements is writing what was computed from the time data as they are at the beginning. -/
theorem processMeasurements_eq {c : Config} {p : Project ℂ} (hp : p.WellPlaced) (hc : c.LocalCal)
    {files : String × String → List (String × List String)} {d : String × String → SpecData ℂ}
    {l : List (String × String)} (hdir : ∀ x ∈ l, p.dirPath ++ ["evals"] <+: getMeasEvalsPath p.dirPath x.1 x.2 c.name)
    {s0 : FS ℂ} (hd : ∀ x ∈ l, ∃ m, c.evalsOf p s0 x.1 x.2 = .ok (m, d x)) {s : FsState ℂ} (ht : s.fs.Tree)
    (hs : SameInputs p.dirPath s.fs s0) :
    processMeasurements c p files l s = writeOuts (l.map (evalOut c p files d)) s := by
  induction l generalizing s with
  | nil => rfl
  | cons x l ih =>
    obtain ⟨m, hm⟩ := hd x (by simp)
    have hm' : c.evalsOf p s.fs x.1 x.2 = .ok (m, d x) := by rw [evalsOf_congr hp hc hs]; exact hm
    rw [List.map_cons]
    unfold processMeasurements writeOuts
    rw [fs_bind, fs_bind, processTimeToEvals_eq (files := files) hp hm']
    rcases hw : writeOut (evalOut c p files d x) s with ⟨r, s1⟩
    cases r with
    | error e => rfl
    | ok u =>
      simp only
      obtain ⟨st, w1, w2, w3, _⟩ := writeOut_ok ht (writeOut_inv hw)
      have hs1 : s1 = s.after st := by
        rw [hw] at w1
        exact (Prod.mk.inj w1).2
      refine ih (fun y hy => hdir y (by simp [hy])) (fun y hy => hd y (by simp [hy])) ?_ ?_
      · rw [hs1, w2]; exact w3
      · have hb := between_inputs (proj := p.dirPath) (between_put (writeOut_inv hw)) (by
          intro y hy
          rw [List.mem_singleton] at hy
          rw [hy]
          exact hdir x (by simp))
        intro q hq
        rw [hs1, w2, hb q hq, hs q hq]

/-- When processing ends without an exception, all the data could be computed. -/
theorem processMeasurements_inv {c : Config} {p : Project ℂ} (hp : p.WellPlaced) (hc : c.LocalCal)
    {files : String × String → List (String × List String)}
    {l : List (String × String)} (hdir : ∀ x ∈ l, p.dirPath ++ ["evals"] <+: getMeasEvalsPath p.dirPath x.1 x.2 c.name)
    {s s' : FsState ℂ} (ht : s.fs.Tree) (h : processMeasurements c p files l s = (.ok (), s')) :
    ∀ x ∈ l, ∃ m d, c.evalsOf p s.fs x.1 x.2 = .ok (m, d) := by
  induction l generalizing s with
  | nil => simp
  | cons x l ih =>
    unfold processMeasurements at h
    rw [fs_bind] at h
    cases he : c.evalsOf p s.fs x.1 x.2 with
    | error e =>
      have : processTimeToEvals c p x.1 x.2 (files x) s = (.error e, s) := by
        unfold processTimeToEvals
        rw [fs_read_bind, he]
      rw [this] at h
      cases h
    | ok md =>
      obtain ⟨m, d⟩ := md
      rw [processTimeToEvals_eq (files := files) (d := fun _ => d) hp he] at h
      rcases hw : writeOut (evalOut c p files (fun _ => d) x) s with ⟨r, s1⟩
      rw [hw] at h
      cases r with
      | error e => cases h
      | ok u =>
        simp only at h
        obtain ⟨st, w1, w2, w3, _⟩ := writeOut_ok ht (writeOut_inv hw)
        have hs1 : s1 = s.after st := by
          rw [hw] at w1
          exact (Prod.mk.inj w1).2
        have hb := between_inputs (proj := p.dirPath) (between_put (writeOut_inv hw)) (by
          intro y hy
          rw [List.mem_singleton] at hy
          rw [hy]
          exact hdir x (by simp))
        intro y hy
        rcases List.mem_cons.1 hy with rfl | hy
        · exact ⟨m, d, he⟩
        · obtain ⟨m', d', h'⟩ := ih (fun y hy => hdir y (by simp [hy])) (by rw [hs1, w2]; exact w3) h y hy
          refine ⟨m', d', ?_⟩
          rw [← h']
          apply evalsOf_congr hp hc
          intro q hq
          rw [hs1, w2, hb q hq]

theorem evals_apart (c : Config) (p : Project ℂ) (files : String × String → List (String × List String))
    (d : String × String → SpecData ℂ) {l : List (String × String)} (hn : IsName c.name)
    (hl : ∀ x ∈ l, IsName x.1 ∧ IsName x.2) : Apart (l.map (evalOut c p files d)) := by
  intro a ha b hb h
  obtain ⟨x, hx, rfl⟩ := List.mem_map.1 ha
  obtain ⟨y, hy, rfl⟩ := List.mem_map.1 hb
  have := (C45_paths_distinct p.dirPath (.evals x.1 x.2 c.name) (.evals y.1 y.2 c.name) ⟨(hl x hx).1, (hl x hx).2, hn⟩
    ⟨(hl y hy).1, (hl y hy).2, hn⟩).2.1 h
  simp only [DataId.evals.injEq] at this
  have : x = y := Prod.ext this.1 this.2.1
  rw [this]

/-- The general form of the theorems below. -/
theorem processed {c : Config} {p : Project ℂ} (hp : p.WellPlaced) (hc : c.LocalCal) (hn : IsName c.name)
    {files : String × String → List (String × List String)} {l : List (String × String)}
    (hl : ∀ x ∈ l, IsName x.1 ∧ IsName x.2) {s s' : FsState ℂ} (ht : s.fs.Tree)
    (h : processMeasurements c p files l s = (.ok (), s')) :
    ∃ d : String × String → SpecData ℂ, (∀ x ∈ l, ∃ m, c.evalsOf p s.fs x.1 x.2 = .ok (m, d x)) ∧
      (∀ x ∈ l, CanWrite s.fs (evalOut c p files d x)) ∧ IsResult (l.map (evalOut c p files d)) s.fs s'.fs ∧
      ∃ steps, s'.trace = s.trace ++ steps ∧ ∀ t ∈ steps, Between (l.map (evalOut c p files d)) s.fs t ∧ t.Tree := by
  have hdir : ∀ x ∈ l, p.dirPath ++ ["evals"] <+: getMeasEvalsPath p.dirPath x.1 x.2 c.name := by
    intro x hx
    rw [evalsPath _ (hl x hx).1 (hl x hx).2 hn]
    exact ⟨[x.1, c.name, x.2], by simp⟩
  have hinv := processMeasurements_inv hp hc hdir ht h
  classical
  let d : String × String → SpecData ℂ := fun x => if hx : x ∈ l then (hinv x hx).choose_spec.choose
    else ⟨⟨[], [], 0, 0, 0, [], 0, []⟩, []⟩
  have hd : ∀ x ∈ l, ∃ m, c.evalsOf p s.fs x.1 x.2 = .ok (m, d x) := by
    intro x hx
    refine ⟨(hinv x hx).choose, ?_⟩
    simp only [d, dif_pos hx]
    exact (hinv x hx).choose_spec.choose_spec
  have hap := evals_apart c p files d hn hl
  rw [processMeasurements_eq hp hc hdir hd ht (fun q _ => rfl)] at h
  have hrun := writeOuts_run hap ht
  have hcan := hrun.2 s' h
  obtain ⟨steps, r1, r2, _, r4⟩ := hrun.1 hcan
  have hs' : s' = s.after steps := by
    rw [r1] at h
    exact (Prod.mk.inj h).2.symm
  refine ⟨d, hd, fun x hx => hcan _ (List.mem_map_of_mem hx), by rw [hs']; exact r2, steps, by rw [hs']; rfl, r4⟩

/-! ## The theorems -/

theorem storedAs_of {fs : FS ℂ} {proj : Path} {config : String} {x : String × String} {d : SpecData ℂ}
    {f : List (String × List String)} (hd : fs (getMeasEvalsPath proj x.1 x.2 config) = some .dir)
    (ha : fs (getMeasEvalsPath proj x.1 x.2 config ++ ["data.npz"]) =
      some (.file (.npz ((d.data.map fun q => (q.1, NpArr.spec q.2)).map fun q => (q.1.repr, q.2)))))
    (hm : fs (getMeasEvalsPath proj x.1 x.2 config ++ ["metadata.json"]) =
      some (.file (.metaJson (.spec { d.md with history := d.md.history ++ ["SpectraDataWriter"] }) f)))
    (h0 : (d.data.lookup 0).isSome = true) : StoredAs fs proj config x d := by
  constructor
  · show readSpecFiles fs _ = _
    rw [readSpec_gen, readGen_ok hd hm ha (m := { d.md with history := d.md.history ++ ["SpectraDataWriter"] }) rfl
      (mapM_specArray d.data) h0]
    simp [Except.map]
  · show readSpecMetaFile fs _ = _
    unfold readSpecMetaFile FS.metadata
    rw [hd, content_of hm]
    rfl

/-- **C55 (what is stored)**: when some measurements of a project have been processed without an exception, then for each
of them the data on disk at the evaluation frequencies are those computed from its time data as they were at the beginning,
and gathering reads exactly them; what was stored for other measurements, or with other configurations, is read as before;
and no path of the project outside the directory of evaluation data has changed: time data, calibration files, spectra,
masks, results and the project file are as before. -/
theorem C55_stored (c : Config) (p : Project ℂ) (hp : p.WellPlaced) (hc : c.LocalCal) (hn : IsName c.name)
    (files : String × String → List (String × List String)) (l : List (String × String))
    (hl : ∀ x ∈ l, IsName x.1 ∧ IsName x.2) (s s' : FsState ℂ) (ht : s.fs.Tree)
    (h : processMeasurements c p files l s = (.ok (), s')) :
    (∀ x ∈ l, ∃ m d, c.evalsOf p s.fs x.1 x.2 = .ok (m, d) ∧
      ((d.data.lookup 0).isSome = true → StoredAs s'.fs p.dirPath c.name x d)) ∧
    (∀ site meas config, IsName site → IsName meas → IsName config → (config ≠ c.name ∨ (site, meas) ∉ l) →
      (evalStoreOf s'.fs p.dirPath config).readData site meas = (evalStoreOf s.fs p.dirPath config).readData site meas ∧
      (evalStoreOf s'.fs p.dirPath config).readMeta site meas = (evalStoreOf s.fs p.dirPath config).readMeta site meas) ∧
    ∀ q, p.dirPath <+: q → q ≠ p.dirPath → ¬ (p.dirPath ++ ["evals"] <+: q) → s'.fs q = s.fs q := by
  obtain ⟨d, hd, hcan, hres, -, -⟩ := processed hp hc hn hl ht h
  have hpath : ∀ x ∈ l, (evalOut c p files d x).dir = p.dirPath ++ ["evals", x.1, c.name, x.2] := fun x hx =>
    evalsPath _ (hl x hx).1 (hl x hx).2 hn
  refine ⟨?_, ?_, ?_⟩
  · intro x hx
    obtain ⟨m, hm⟩ := hd x hx
    refine ⟨m, d x, hm, fun h0 => ?_⟩
    obtain ⟨e1, e2⟩ := hres.1 _ (List.mem_map_of_mem hx)
    refine storedAs_of (d := d x) (f := files x) ?_ e1 e2 h0
    have hap := evals_apart c p files d hn hl
    obtain ⟨r1, r2⟩ := hres.2 (evalOut c p files d x).dir (by
      intro y hy
      exact hap.not_file hy (List.mem_map_of_mem hx) (List.prefix_refl _))
    show s'.fs (evalOut c p files d x).dir = some .dir
    rcases (hcan x hx).1 with ⟨_, hu⟩ | ⟨hu, _⟩
    · rw [r2 (Or.inr (by rw [hu]; simp)), hu]
    · exact r1 ⟨_, List.mem_map_of_mem hx, List.prefix_refl _⟩ hu
  · intro site meas config h1 h2 h3 hne
    have hdist : ∀ x ∈ l, ¬ (getMeasEvalsPath p.dirPath site meas config <+: (evalOut c p files d x).dir) ∧
        ¬ ((evalOut c p files d x).dir <+: getMeasEvalsPath p.dirPath site meas config) := by
      intro x hx
      have key : DataId.evals site meas config ≠ .evals x.1 x.2 c.name := by
        intro he
        simp only [DataId.evals.injEq] at he
        rcases hne with hne | hne
        · exact hne he.2.2
        · exact hne (by rw [he.1, he.2.1]; exact hx)
      have n1 : (DataId.evals site meas config).Named := ⟨h1, h2, h3⟩
      have n2 : (DataId.evals x.1 x.2 c.name).Named := ⟨(hl x hx).1, (hl x hx).2, hn⟩
      exact ⟨fun hpre => key ((C45_paths_distinct p.dirPath _ _ n1 n2).2.1 hpre),
        fun hpre => key ((C45_paths_distinct p.dirPath _ _ n2 n1).2.1 hpre).symm⟩
    have hkeep : ∀ q, getMeasEvalsPath p.dirPath site meas config <+: q →
        (q = getMeasEvalsPath p.dirPath site meas config ∨ ∃ n, q = getMeasEvalsPath p.dirPath site meas config ++ [n]) →
        s'.fs q = s.fs q := by
      intro q hq hcase
      obtain ⟨_, r2⟩ := hres.2 q (by
        intro y hy hf
        obtain ⟨x, hx, rfl⟩ := List.mem_map.1 hy
        have hdl : (evalOut c p files d x).dir = q.dropLast := by rcases hf with rfl | rfl <;> simp
        rcases hcase with rfl | ⟨n, rfl⟩
        · exact (hdist x hx).2 (hdl ▸ List.dropLast_prefix _)
        · rw [List.dropLast_concat] at hdl
          exact (hdist x hx).2 (hdl ▸ List.prefix_refl _))
      refine r2 (Or.inl ?_)
      rintro ⟨y, hy, hpre⟩
      obtain ⟨x, hx, rfl⟩ := List.mem_map.1 hy
      exact (hdist x hx).1 (hq.trans hpre)
    have k0 := hkeep _ (List.prefix_refl _) (Or.inl rfl)
    have k1 := hkeep _ (List.prefix_append _ _) (Or.inr ⟨"metadata.json", rfl⟩)
    have k2 := hkeep _ (List.prefix_append _ _) (Or.inr ⟨"data.npz", rfl⟩)
    constructor
    · show readSpecFiles s'.fs _ = readSpecFiles s.fs _
      rw [readSpec_gen, readSpec_gen, readGen_congr _ _ (by rw [k0]) k1 k2]
    · show readSpecMetaFile s'.fs _ = readSpecMetaFile s.fs _
      unfold readSpecMetaFile FS.metadata FS.content
      rw [k0, k1]
  · intro q hq hne hev
    obtain ⟨_, r2⟩ := hres.2 q (by
      intro y hy hf
      obtain ⟨x, hx, rfl⟩ := List.mem_map.1 hy
      apply hev
      have hp2 : p.dirPath ++ ["evals"] <+: (evalOut c p files d x).dir := by rw [hpath x hx]; exact ⟨[x.1, c.name, x.2], by simp⟩
      rcases hf with rfl | rfl
      · exact hp2.trans (List.prefix_append _ _)
      · exact hp2.trans (List.prefix_append _ _))
    refine r2 (Or.inl ?_)
    rintro ⟨y, hy, hpre⟩
    obtain ⟨x, hx, rfl⟩ := List.mem_map.1 hy
    rw [hpath x hx] at hpre
    obtain ⟨r, rfl⟩ := hq
    rw [List.prefix_append_right_inj] at hpre
    cases r with
    | nil => simp at hne
    | cons n r =>
      rw [List.cons_prefix_cons] at hpre
      exact hev ⟨r, by rw [hpre.1]; simp⟩

/-- **C55 (order and repetition do not matter)**: processing the same measurements in another order, or some of them more
than once, ends without an exception as well and leaves exactly the same files. -/
theorem C55_order (c : Config) (p : Project ℂ) (hp : p.WellPlaced) (hc : c.LocalCal) (hn : IsName c.name)
    (files : String × String → List (String × List String)) (l l' : List (String × String))
    (hl : ∀ x ∈ l, IsName x.1 ∧ IsName x.2) (hll : ∀ x, x ∈ l ↔ x ∈ l') (s s' : FsState ℂ) (ht : s.fs.Tree)
    (h : processMeasurements c p files l s = (.ok (), s')) :
    ∃ s'', processMeasurements c p files l' s = (.ok (), s'') ∧ s''.fs = s'.fs := by
  obtain ⟨d, hd, hcan, hres, -, -⟩ := processed hp hc hn hl ht h
  have hl' : ∀ x ∈ l', IsName x.1 ∧ IsName x.2 := fun x hx => hl x ((hll x).2 hx)
  have hdir : ∀ x ∈ l', p.dirPath ++ ["evals"] <+: getMeasEvalsPath p.dirPath x.1 x.2 c.name := by
    intro x hx
    rw [evalsPath _ (hl' x hx).1 (hl' x hx).2 hn]
    exact ⟨[x.1, c.name, x.2], by simp⟩
  rw [processMeasurements_eq hp hc hdir (fun x hx => hd x ((hll x).2 hx)) ht (fun q _ => rfl)]
  obtain ⟨steps, r1, r2, _⟩ := (writeOuts_run (evals_apart c p files d hn hl') ht).1 (by
    intro y hy
    obtain ⟨x, hx, rfl⟩ := List.mem_map.1 hy
    exact hcan x ((hll x).2 hx))
  refine ⟨_, r1, r2.unique (fun y => ?_) hres⟩
  simp only [List.mem_map, hll]

/-- **C55 (interruption)**: when processing some measurements is interrupted at any point and repeated from the beginning, it
ends without an exception and leaves exactly the files that it would have left without the interruption. -/
theorem C55_interrupted (c : Config) (p : Project ℂ) (hp : p.WellPlaced) (hc : c.LocalCal) (hn : IsName c.name)
    (files : String × String → List (String × List String)) (l : List (String × String))
    (hl : ∀ x ∈ l, IsName x.1 ∧ IsName x.2) (s s' : FsState ℂ) (ht : s.fs.Tree)
    (h : processMeasurements c p files l s = (.ok (), s')) :
    ∃ steps, s'.trace = s.trace ++ steps ∧ ∀ t ∈ steps, ∀ tr,
      ∃ s'', processMeasurements c p files l { fs := t, trace := tr } = (.ok (), s'') ∧ s''.fs = s'.fs := by
  obtain ⟨d, hd, hcan, hres, steps, hst, hbet⟩ := processed hp hc hn hl ht h
  refine ⟨steps, hst, fun t htm tr => ?_⟩
  obtain ⟨hb, htree⟩ := hbet t htm
  have hap := evals_apart c p files d hn hl
  have hdir : ∀ x ∈ l, p.dirPath ++ ["evals"] <+: getMeasEvalsPath p.dirPath x.1 x.2 c.name := by
    intro x hx
    rw [evalsPath _ (hl x hx).1 (hl x hx).2 hn]
    exact ⟨[x.1, c.name, x.2], by simp⟩
  have hin := between_inputs (proj := p.dirPath) hb (by
    intro y hy
    obtain ⟨x, hx, rfl⟩ := List.mem_map.1 hy
    exact hdir x hx)
  rw [processMeasurements_eq (s := { fs := t, trace := tr }) hp hc hdir hd htree hin]
  obtain ⟨st, r1, r2, _⟩ := (writeOuts_run (s := { fs := t, trace := tr }) hap htree).1 (by
    intro y hy
    obtain ⟨x, hx, rfl⟩ := List.mem_map.1 hy
    exact (hb.canWrite hap ht htree (List.mem_map_of_mem hx)).2 (hcan x hx))
  exact ⟨_, r1, (r2.between hap hb).unique (fun _ => Iff.rfl) hres⟩

/-- **C55 (nothing without data)**: when the data of a measurement cannot be computed, the exception is passed on and the
file system is not touched. -/
theorem C55_failed (c : Config) (p : Project ℂ) (site meas : String) (files : List (String × List String)) (s : FsState ℂ)
    (e : Err) (h : c.evalsOf p s.fs site meas = .error e) :
    processTimeToEvals c p site meas files s = (.error e, s) := by
  unfold processTimeToEvals
  rw [fs_read_bind, h]

end Resistics
