import Verif.Model.Environment
import Verif.Props.ProcessTime

/-!
# C67: sessions with a project

A session is any sequence of processing calls that end normally, raise or are interrupted at any point, and of loading the project
again with any configuration.
-/

namespace Resistics

/-! ## Specification -/

/-- What happens in a session; the configuration is the one in use. -/
inductive EnvEvent where
  | call (config : Config) (c : EnvCall) (r : Except Err Unit)
  | cut (config : Config) (c : EnvCall)
  | load (config : Config)

/-- What may happen with an environment and a disk: a call ends, normally or with an exception; a call is interrupted after one of its
changes of the disk; the project is loaded again. -/
inductive Happens : Env × FS ℂ → EnvEvent → Env × FS ℂ → Prop
  | call (e : Env) (fs : FS ℂ) (c : EnvCall) :
      Happens (e, fs) (.call e.config c (c.run e { fs := fs }).1) (e, (c.run e { fs := fs }).2.fs)
  | cut (e : Env) (fs : FS ℂ) (c : EnvCall) (t : FS ℂ) (h : t ∈ (c.run e { fs := fs }).2.trace) :
      Happens (e, fs) (.cut e.config c) (e, t)
  | load (e : Env) (fs : FS ℂ) (ls : Path → List String) (now : Path → DateTime × DateTime) (dflt config : Config) (e' : Env)
      (hls : IsListing ls fs) (h : loadEnv ls now dflt fs e.proj.dirPath (some config) = .ok e') :
      Happens (e, fs) (.load config) (e', fs)

/-- A session. -/
inductive EnvSession : Env × FS ℂ → List EnvEvent → Env × FS ℂ → Prop
  | nil (x) : EnvSession x [] x
  | cons {x y z ev evs} (h : Happens x ev y) (hs : EnvSession y evs z) : EnvSession x (ev :: evs) z

/-- The data that a call writes, with the configuration. -/
def EnvCall.output (config : Config) : EnvCall → DataId
  | .time _ _ outSite outMeas _ _ => .time outSite outMeas
  | .evals site meas _ => .evals site meas config.name
  | .tf _ outSite _ _ _ => .results outSite config.name

/-- The files that a call may write. -/
def EnvCall.files (config : Config) : EnvCall → List String
  | .time .. => ["data.npy", "metadata.json"]
  | .evals .. => ["data.npz", "metadata.json"]
  | .tf fs _ _ _ postfix? => [getSolutionName fs config.tf.name config.tf.variation postfix?]

/-- The event is a call, ended or not, that writes the file of the data. -/
def EnvEvent.Writes : EnvEvent → DataId → String → Prop
  | .call config c _, d, n => d = c.output config ∧ n ∈ c.files config
  | .cut config c, d, n => d = c.output config ∧ n ∈ c.files config
  | .load _, _, _ => False

/-- The configuration has a name, and readers and calibration that look only where they are told to. -/
def Config.Fine (c : Config) : Prop := IsName c.name ∧ (∀ r ∈ c.readers, r.Local) ∧ c.LocalCal

/-- The names used are single components of paths. -/
def EnvEvent.Fine : EnvEvent → Prop
  | .call config c _ => (c.output config).Named ∧ ∀ n ∈ c.files config, IsName n
  | .cut config c => (c.output config).Named ∧ ∀ n ∈ c.files config, IsName n
  | .load config => config.Fine

/-- The environment has a fine configuration and a well placed project. -/
def Env.Fine (e : Env) : Prop := e.config.Fine ∧ e.proj.WellPlaced

/-! ## What a call changes -/

/-- The disk differs at most by files written and directories made for the listed outputs. -/
def Touched (proj : Path) (evs : List EnvEvent) (fs t : FS ℂ) : Prop :=
  ∀ q, t q = fs q ∨ ∃ ev ∈ evs, ∃ d n, ev.Writes d n ∧ d.Named ∧
    ((q <+: d.path proj ∧ fs q = none ∧ t q = some .dir) ∨ q = d.path proj ++ [n])

theorem Touched.trans {proj : Path} {a b : List EnvEvent} {x y z : FS ℂ} (h : Touched proj a x y) (h' : Touched proj b y z) :
    Touched proj (a ++ b) x z := by
  intro q
  rcases h' q with e | ⟨ev, hev, d, n, hw, hn, hq | hq⟩
  · rcases h q with e' | ⟨ev, hev, d, n, hw, hn, hq | hq⟩
    · exact .inl (e.trans e')
    · exact .inr ⟨ev, by simp [hev], d, n, hw, hn, .inl ⟨hq.1, hq.2.1, e.trans hq.2.2⟩⟩
    · exact .inr ⟨ev, by simp [hev], d, n, hw, hn, .inr hq⟩
  · rcases h q with e' | ⟨ev', hev', d', n', hw', hn', hq' | hq'⟩
    · exact .inr ⟨ev, by simp [hev], d, n, hw, hn, .inl ⟨hq.1, by rw [← e']; exact hq.2.1, hq.2.2⟩⟩
    · exact .inr ⟨ev', by simp [hev'], d', n', hw', hn', .inl ⟨hq'.1, hq'.2.1, hq.2.2⟩⟩
    · exact .inr ⟨ev', by simp [hev'], d', n', hw', hn', .inr hq'⟩
  · exact .inr ⟨ev, by simp [hev], d, n, hw, hn, .inr hq⟩

/-- A call only changes its output, at any time. -/
theorem call_framed (e : Env) (he : e.Fine) (c : EnvCall) (fs : FS ℂ) (hc : (c.output e.config).Named)
    (hf : ∀ n ∈ c.files e.config, IsName n) (t : FS ℂ)
    (ht : t ∈ (c.run e { fs := fs }).2.trace ∨ t = (c.run e { fs := fs }).2.fs) :
    OnlyOutput ((c.output e.config).path e.proj.dirPath) (c.files e.config) fs t := by
  cases c with
  | time site meas outSite outMeas req files =>
    obtain ⟨steps, h1, h2⟩ := processTime_framed e.config e.proj site meas outSite outMeas req files { fs := fs } hc.1 hc.2
    have : (EnvCall.output e.config (.time site meas outSite outMeas req files)).path e.proj.dirPath =
        e.proj.dirPath ++ ["time", outSite, outMeas] := timePath _ hc.1 hc.2
    rw [this]
    refine h2 t ?_
    rcases ht with ht | ht
    · left
      have h1' : (EnvCall.run e (.time site meas outSite outMeas req files) { fs := fs }).2.trace = steps := by
        show (processTime e.config e.proj site meas outSite outMeas req files { fs := fs }).2.trace = steps
        simpa using h1
      rwa [h1'] at ht
    · exact .inr ht
  | evals site meas files =>
    have hrun : EnvCall.run e (.evals site meas files) { fs := fs } = processTimeToEvals e.config e.proj site meas files { fs := fs } := rfl
    rw [hrun] at ht
    unfold processTimeToEvals at ht
    rw [fs_read_bind] at ht
    cases hev : e.config.evalsOf e.proj fs site meas with
    | error er =>
      rw [hev] at ht
      simp only [List.not_mem_nil, false_or] at ht
      intro q hq; exact absurd (by rw [ht]) hq
    | ok md =>
      obtain ⟨m, d⟩ := md
      rw [hev] at ht
      obtain ⟨m1, m2⟩ := evalsOf_meas he.2 hev
      simp only [m1, m2] at ht
      obtain ⟨steps, a1, a2, a3⟩ := C39_touches_only_its_output (.spec d) true
        (getMeasEvalsPath e.proj.dirPath site meas e.config.name) files { fs := fs }
      rcases ht with ht | ht
      · refine a2 t ?_
        have a1' : ((WriteCall.spec d).run true (getMeasEvalsPath e.proj.dirPath site meas e.config.name) files
          { fs := fs }).2.trace = steps := by simpa using a1
        rw [← a1']
        exact ht
      · rw [ht]; exact a3
  | tf rate outSite inSite crossSite postfix? =>
    have hrun : ∀ s, (EnvCall.run e (.tf rate outSite inSite crossSite postfix?) s).2 =
        (processEvalsToTf e.config e.proj rate outSite inSite crossSite postfix? s).2 := by
      intro s
      show (discard (processEvalsToTf e.config e.proj rate outSite inSite crossSite postfix?) s).2 = _
      rw [show (discard (processEvalsToTf e.config e.proj rate outSite inSite crossSite postfix?) : FsM ℂ Unit) =
        processEvalsToTf e.config e.proj rate outSite inSite crossSite postfix? >>= fun _ => pure () from rfl, fs_bind]
      cases hx : processEvalsToTf e.config e.proj rate outSite inSite crossSite postfix? s with
      | mk r s' => cases r <;> rfl
    rw [hrun] at ht
    have hname := hf (getSolutionName rate e.config.tf.name e.config.tf.variation postfix?) (by simp [EnvCall.files])
    show OnlyOutput (getResultsPath e.proj.dirPath outSite e.config.name) _ fs t
    rcases processEvalsToTf_run e.config e.proj rate outSite inSite crossSite postfix? { fs := fs } with
      ⟨er, h, -⟩ | ⟨sol, steps, -, hfr, h | ⟨path, hp, h⟩⟩
    · rw [h] at ht
      simp only [List.not_mem_nil, false_or] at ht
      intro q hq; exact absurd (by rw [ht]) hq
    · rw [h] at ht
      have h1 : Frame (getResultsPath e.proj.dirPath outSite e.config.name) [] fs t := by
        rcases ht with ht | ht
        · exact hfr t (by simpa [FsState.after] using ht)
        · rw [ht]; exact after_fs_frame hfr
      exact (h1.mono (by simp)).onlyOutput
    · rw [h] at ht
      rw [hname.join] at hp
      have h1 : Frame (getResultsPath e.proj.dirPath outSite e.config.name)
          (EnvCall.files e.config (.tf rate outSite inSite crossSite postfix?)) fs t := by
        have hbase := (after_fs_frame hfr).mono (b := EnvCall.files e.config (.tf rate outSite inSite crossSite postfix?)) (by simp)
        have hset : ∀ x, Frame (getResultsPath e.proj.dirPath outSite e.config.name)
            (EnvCall.files e.config (.tf rate outSite inSite crossSite postfix?)) fs
            ((FsState.after { fs := fs } steps).fs.set path x) := by
          intro x
          rw [hp]
          exact hbase.trans (Frame.set_file (by simp [EnvCall.files]) x)
        rcases ht with ht | ht
        · simp only [FsState.after, List.nil_append, List.mem_append, List.mem_cons, List.not_mem_nil, or_false] at ht
          rcases ht with ht | rfl | rfl
          · exact (hfr t ht).mono (by simp)
          · exact hset _
          · exact hset _
        · rw [ht, mem_trace_append]; exact hset _
      exact h1.onlyOutput

theorem loadEnv_ok {ls : Path → List String} {now : Path → DateTime × DateTime} {dflt : Config} {fs : FS ℂ} {dir : Path}
    {config : Option Config} {e : Env} :
    loadEnv ls now dflt fs dir config = .ok e ↔
      loadProject ls now (config.getD dflt).readers fs dir = .ok e.proj ∧ e.config = config.getD dflt := by
  unfold loadEnv
  constructor
  · intro h
    obtain ⟨p, hp, h⟩ := except_bind_ok.1 h
    cases h
    exact ⟨hp, rfl⟩
  · rintro ⟨h1, h2⟩
    refine except_bind_ok.2 ⟨e.proj, h1, ?_⟩
    rw [← h2]; rfl

/-- One event keeps the environment fine, keeps the directory of the project and touches only its output. -/
theorem happens_frame {e e' : Env} {fs t : FS ℂ} {ev : EnvEvent} (h : Happens (e, fs) ev (e', t)) (he : e.Fine) (hev : ev.Fine) :
    e'.Fine ∧ e'.proj.dirPath = e.proj.dirPath ∧ Touched e.proj.dirPath [ev] fs t := by
  have key : ∀ (c : EnvCall), (c.output e.config).Named → (∀ n ∈ c.files e.config, IsName n) → ∀ t ev,
      (∀ d n, d = c.output e.config ∧ n ∈ c.files e.config → ev.Writes d n) →
      (t ∈ (c.run e { fs := fs }).2.trace ∨ t = (c.run e { fs := fs }).2.fs) → Touched e.proj.dirPath [ev] fs t := by
    intro c hc hf t ev hw ht q
    by_cases hq : t q = fs q
    · exact .inl hq
    · right
      have hfne : ∃ n, n ∈ c.files e.config := by cases c <;> simp [EnvCall.files]
      obtain ⟨n0, hn0⟩ := hfne
      rcases call_framed e he c fs hc hf t ht q hq with h1 | ⟨n, hn, h1⟩
      · exact ⟨ev, by simp, _, n0, hw _ _ ⟨rfl, hn0⟩, hc, .inl h1⟩
      · exact ⟨ev, by simp, _, n, hw _ _ ⟨rfl, hn⟩, hc, .inr h1⟩
  cases h with
  | call _ _ c => exact ⟨he, rfl, key c hev.1 hev.2 _ _ (fun d n h => h) (.inr rfl)⟩
  | cut _ _ c t h => exact ⟨he, rfl, key c hev.1 hev.2 _ _ (fun d n h => h) (.inl h)⟩
  | load _ _ ls now dflt config _ hls h =>
    obtain ⟨h1, h2⟩ := loadEnv_ok.1 h
    have hd := (C44_lists_exactly ls now _ fs e.proj.dirPath hls e'.proj h1).1
    refine ⟨⟨?_, C55_loaded_well_placed ls now _ fs e.proj.dirPath hls e'.proj h1 ?_⟩, hd, fun q => .inl rfl⟩
    · rw [h2]; exact hev
    · exact hev.2.1

theorem session_frame {e e' : Env} {fs t : FS ℂ} {evs : List EnvEvent} (h : EnvSession (e, fs) evs (e', t)) (he : e.Fine)
    (hev : ∀ ev ∈ evs, ev.Fine) : e'.Fine ∧ e'.proj.dirPath = e.proj.dirPath ∧ Touched e.proj.dirPath evs fs t := by
  induction evs generalizing e fs with
  | nil => cases h; exact ⟨he, rfl, fun q => .inl rfl⟩
  | cons ev evs ih =>
    cases h with
    | cons h1 h2 =>
      rename_i y
      obtain ⟨e1, fs1⟩ := y
      obtain ⟨a1, a2, a3⟩ := happens_frame h1 he (hev ev (by simp))
      obtain ⟨b1, b2, b3⟩ := ih h2 a1 (fun x hx => hev x (by simp [hx]))
      rw [a2] at b2 b3
      exact ⟨b1, b2, a3.trans b3⟩

theorem session_split {x z : Env × FS ℂ} {a b : List EnvEvent} (h : EnvSession x (a ++ b) z) :
    ∃ y, EnvSession x a y ∧ EnvSession y b z := by
  induction a generalizing x with
  | nil => exact ⟨x, .nil x, h⟩
  | cons ev a ih =>
    cases h with
    | cons h1 h2 =>
      obtain ⟨y, h3, h4⟩ := ih h2
      exact ⟨y, .cons h1 h3, h4⟩

/-! ## The theorems -/

/-- **C67 (nothing else changes)**: after any session, everything that differs on the disk is below the project: a directory made on the
way to the output of one of the calls, or a file that one of the calls writes there; no directory that was there is anything else. -/
theorem C67_only_outputs (e e' : Env) (fs t : FS ℂ) (evs : List EnvEvent) (h : EnvSession (e, fs) evs (e', t)) (he : e.Fine)
    (hev : ∀ ev ∈ evs, ev.Fine) (q : Path) (hq : t q ≠ fs q) :
    ∃ ev ∈ evs, ∃ d n, ev.Writes d n ∧
      ((q <+: d.path e.proj.dirPath ∧ fs q = none ∧ t q = some .dir) ∨ q = d.path e.proj.dirPath ++ [n]) := by
  rcases (session_frame h he hev).2.2 q with h1 | ⟨ev, h1, d, n, h2, -, h3⟩
  · exact absurd h1 hq
  · exact ⟨ev, h1, d, n, h2, h3⟩

theorem writes_kind {ev : EnvEvent} {d : DataId} {n : String} (h : ev.Writes d n) :
    (∃ s m, d = .time s m) ∨ (∃ s m c, d = .evals s m c) ∨ ∃ s c, d = .results s c := by
  have key : ∀ (config : Config) (c : EnvCall), d = c.output config →
      (∃ s m, d = .time s m) ∨ (∃ s m c, d = .evals s m c) ∨ ∃ s c, d = .results s c := by
    rintro config c rfl
    cases c
    · exact .inl ⟨_, _, rfl⟩
    · exact .inr (.inl ⟨_, _, _, rfl⟩)
    · exact .inr (.inr ⟨_, _, rfl⟩)
  cases ev with
  | call config c r => exact key config c h.1
  | cut config c => exact key config c h.1
  | load => exact h.elim

/-- The paths below data that no event writes are not changed. -/
theorem untouched {proj : Path} {evs : List EnvEvent} {fs t : FS ℂ} (h : Touched proj evs fs t) {d : DataId} (hd : d.Named)
    (hno : ∀ ev ∈ evs, ∀ n, ¬ ev.Writes d n) (q : Path) (hq : d.path proj <+: q) : t q = fs q := by
  rcases h q with h1 | ⟨ev, hev, d', n, hw, hn, h1 | h1⟩
  · exact h1
  · exfalso
    have := (C45_paths_distinct proj d d' hd hn).2.1 (hq.trans h1.1)
    subst this
    exact hno ev hev n hw
  · exfalso
    rw [h1] at hq
    have hne : d.path proj ≠ d'.path proj ++ [n] := by
      intro heq
      have hp := (C45_paths_distinct proj d' d hn hd).2.1 (heq ▸ List.prefix_append _ _)
      subst hp
      have := congrArg List.length heq
      simp at this
    have hpre : d.path proj <+: d'.path proj := by
      obtain ⟨w, hw'⟩ := hq
      rcases List.eq_nil_or_concat w with rfl | ⟨w', x, rfl⟩
      · exact absurd (by simpa using hw') hne
      · rw [List.concat_eq_append, ← List.append_assoc] at hw'
        exact ⟨w', (List.append_inj' hw' rfl).1⟩
    have := (C45_paths_distinct proj d d' hd hn).2.1 hpre
    subst this
    exact hno ev hev n hw

/-- **C67 (what was there is kept)**: after any session the project has the same metadata and directory of time data; the calibration
files, and every measurement, evaluation data and directory of results that no call of the session writes, are exactly as before. -/
theorem C67_kept (e e' : Env) (fs t : FS ℂ) (evs : List EnvEvent) (h : EnvSession (e, fs) evs (e', t)) (he : e.Fine)
    (hev : ∀ ev ∈ evs, ev.Fine) (md : ProjMeta) (hp : HoldsProject fs e.proj.dirPath md) :
    HoldsProject t e.proj.dirPath md ∧
    (∀ q, e.proj.dirPath ++ ["calibrate"] <+: q → t q = fs q) ∧
    ∀ d : DataId, d.Named → (∀ ev ∈ evs, ∀ n, ¬ ev.Writes d n) → ∀ q, d.path e.proj.dirPath <+: q → t q = fs q := by
  have hf := (session_frame h he hev).2.2
  have hkeep : ∀ q, fs q ≠ none → q.length ≤ e.proj.dirPath.length + 1 → t q = fs q := by
    intro q hq hl
    rcases hf q with h1 | ⟨ev, _, d, n, hw, hn, h1 | h1⟩
    · exact h1
    · exact absurd h1.2.1 hq
    · exfalso
      rw [DataId.path_eq _ hn] at h1
      have := congrArg List.length h1
      rcases writes_kind hw with ⟨s, m, rfl⟩ | ⟨s, m, c, rfl⟩ | ⟨s, c, rfl⟩ <;> simp [DataId.rel] at this <;> omega
  refine ⟨⟨?_, ?_, ?_⟩, ?_, fun d hd hno => untouched hf hd hno⟩
  · rw [hkeep _ (by rw [hp.1]; simp) (by simp), hp.1]
  · rw [hkeep _ (by rw [hp.2.1]; simp) (by simp), hp.2.1]
  · rw [hkeep _ (by rw [hp.2.2]; simp) (by simp), hp.2.2]
  · intro q hq
    refine untouched hf (d := .calibration) trivial ?_ q (by rw [DataId.path_eq _ (d := .calibration) trivial]; exact hq)
    intro ev _ n hw
    rcases writes_kind hw with ⟨s, m, hd⟩ | ⟨s, m, c, hd⟩ | ⟨s, c, hd⟩ <;> cases hd

/-- **C67 (loading again)**: after any session the project can be loaded, with any configuration, and reloaded with the same one; it has
the same metadata and exactly the same measurements as one loaded before the session, but for those that calls of the session write. -/
theorem C67_loads (e e' : Env) (fs t : FS ℂ) (evs : List EnvEvent) (h : EnvSession (e, fs) evs (e', t)) (he : e.Fine)
    (hev : ∀ ev ∈ evs, ev.Fine) (ht : fs.Tree) (ls ls' : Path → List String) (now now' : Path → DateTime × DateTime)
    (hls : IsListing ls fs) (hls' : IsListing ls' t) (dflt : Config) (config : Option Config)
    (hr : ∀ r ∈ (config.getD dflt).readers, r.Local) (e0 : Env) (h0 : loadEnv ls now dflt fs e.proj.dirPath config = .ok e0) :
    ∃ e1, loadEnv ls' now' dflt t e.proj.dirPath config = .ok e1 ∧ e1.config = config.getD dflt ∧ e1.proj.md = e0.proj.md ∧
      (∀ site meas, IsName site → IsName meas → (∀ ev ∈ evs, ∀ n, ¬ ev.Writes (.time site meas) n) →
        ∀ m, e1.proj.getMeas site meas = .ok m ↔ e0.proj.getMeas site meas = .ok m) := by
  obtain ⟨h1, h2⟩ := loadEnv_ok.1 h0
  obtain ⟨md, hold⟩ := (C44_loads_iff ls now _ fs e.proj.dirPath).1 ⟨_, h1⟩
  obtain ⟨k1, k2, k3⟩ := C67_kept e e' fs t evs h he hev md hold
  have hf := (session_frame h he hev).2.2
  obtain ⟨p', hp'⟩ := (C44_loads_iff ls' now' (config.getD dflt).readers t e.proj.dirPath).2 ⟨md, k1⟩
  refine ⟨⟨p', config.getD dflt⟩, loadEnv_ok.2 ⟨hp', rfl⟩, rfl, ?_, ?_⟩
  · have e1 := (C44_lists_exactly ls now _ fs e.proj.dirPath hls _ h1).2.1
    have e2 := (C44_lists_exactly ls' now' _ t e.proj.dirPath hls' p' hp').2.1
    rw [hold.2.1] at e1
    rw [k1.2.1] at e2
    simp only [Option.some.injEq, Node.file.injEq, Content.projJson.injEq] at e1 e2
    rw [← e1, ← e2]
  · intro site meas hn1 hn2 hno m
    have hsame : ∀ q, e.proj.dirPath ++ ["time", site, meas] <+: q → t q = fs q := by
      intro q hq
      exact k3 (.time site meas) ⟨hn1, hn2⟩ hno q (by rw [DataId.path_eq _ (d := .time site meas) ⟨hn1, hn2⟩]; exact hq)
    rw [getMeas_loaded hls' hp', getMeas_loaded hls h1]
    constructor
    · rintro ⟨c1, c2, c3, c4, c5⟩
      rw [hsame _ List.prefix_rfl] at c2
      refine ⟨?_, c2, c3, c4, c5.congr hr hsame⟩
      refine ht.parent (e.proj.dirPath ++ ["time", site]) meas ?_
      rw [show e.proj.dirPath ++ ["time", site] ++ [meas] = e.proj.dirPath ++ ["time", site, meas] by simp, c2]; rfl
    · rintro ⟨c1, c2, c3, c4, c5⟩
      refine ⟨?_, by rw [hsame _ List.prefix_rfl]; exact c2, c3, c4, c5.congr hr fun q hq => (hsame q hq).symm⟩
      rcases hf (e.proj.dirPath ++ ["time", site]) with h1 | ⟨ev, _, d, n, hw, hn, h1 | h1⟩
      · rw [h1]; exact c1
      · exact h1.2.2
      · exfalso
        rw [DataId.path_eq _ hn] at h1
        have := congrArg List.length h1
        rcases writes_kind hw with ⟨s, m, rfl⟩ | ⟨s, m, c, rfl⟩ | ⟨s, c, rfl⟩ <;> simp [DataId.rel] at this

/-- **C67 (load and reload)**: without a configuration `load` uses the default one; `reload` keeps the configuration and loads what is on
the disk; it fails exactly when the project cannot be loaded. -/
theorem C67_reload (ls : Path → List String) (now : Path → DateTime × DateTime) (dflt : Config) (fs : FS ℂ) (dir : Path) (e : Env) :
    loadEnv ls now dflt fs dir none = loadEnv ls now dflt fs dir (some dflt) ∧
    (∀ e', reloadEnv ls now dflt fs e = .ok e' ↔
      e'.config = e.config ∧ loadProject ls now e.config.readers fs e.proj.dirPath = .ok e'.proj) ∧
    (∀ er, reloadEnv ls now dflt fs e = .error er ↔ loadProject ls now e.config.readers fs e.proj.dirPath = .error er) := by
  refine ⟨rfl, fun e' => ?_, fun er => ?_⟩
  · unfold reloadEnv
    rw [loadEnv_ok]
    exact and_comm
  · unfold reloadEnv loadEnv
    rw [Option.getD_some]
    cases loadProject ls now e.config.readers fs e.proj.dirPath with
    | error x => simp [bind, Except.bind]
    | ok x => simp [bind, Except.bind, pure, Except.pure]

/-- **C67 (the last evaluation data stay)**: after a session in which `process_time_to_evals` ended normally for a measurement, and no
later call, ended or interrupted, processed it with a configuration of that name, the data it computed are what gathering reads. -/
theorem C67_evals (e e' : Env) (fs t : FS ℂ) (evs evs' : List EnvEvent) (config : Config) (site meas : String)
    (files : List (String × List String))
    (h : EnvSession (e, fs) (evs ++ .call config (.evals site meas files) (.ok ()) :: evs') (e', t)) (he : e.Fine)
    (hev : ∀ ev ∈ evs ++ .call config (.evals site meas files) (.ok ()) :: evs', ev.Fine)
    (hno : ∀ ev ∈ evs', ∀ n, ¬ ev.Writes (.evals site meas config.name) n) :
    ∃ e1 fs1 m d, EnvSession (e, fs) evs (e1, fs1) ∧ e1.config = config ∧ config.evalsOf e1.proj fs1 site meas = .ok (m, d) ∧
      ((d.data.lookup 0).isSome = true → StoredAs t e.proj.dirPath config.name (site, meas) d) := by
  obtain ⟨⟨e1, fs1⟩, h1, h2⟩ := session_split h
  obtain ⟨f1, f2, f3⟩ := session_frame h1 he fun x hx => hev x (by simp [hx])
  have hfine : (EnvEvent.call config (.evals site meas files) (.ok ())).Fine := hev _ (by simp)
  cases h2 with
  | cons h3 h4 =>
    rename_i y
    obtain ⟨e2, fs2⟩ := y
    generalize hce : EnvEvent.call config (.evals site meas files) (.ok ()) = ev at h3
    cases h3 with
    | cut => cases hce
    | load => cases hce
    | call _ _ c =>
      simp only [EnvEvent.call.injEq] at hce
      obtain ⟨rfl, rfl, hok⟩ := hce
      have hrun : EnvCall.run e1 (.evals site meas files) { fs := fs1 } =
          processTimeToEvals e1.config e1.proj site meas files { fs := fs1 } := rfl
      rw [hrun] at hok h4
      obtain ⟨-, b2, b3⟩ := session_frame h4 f1 fun x hx => hev x (by simp [hx])
      cases hevs : e1.config.evalsOf e1.proj fs1 site meas with
      | error er =>
        rw [C55_failed _ _ _ _ _ _ er hevs] at hok
        cases hok
      | ok md =>
        obtain ⟨m, d⟩ := md
        refine ⟨e1, fs1, m, d, h1, rfl, hevs, fun h0 => ?_⟩
        obtain ⟨m1, m2⟩ := evalsOf_meas f1.2 hevs
        have hw : processTimeToEvals e1.config e1.proj site meas files { fs := fs1 } =
            writeSpec true (getMeasEvalsPath e1.proj.dirPath site meas e1.config.name) files d { fs := fs1 } := by
          unfold processTimeToEvals
          rw [fs_read_bind, hevs]
          simp only [m1, m2]
        rw [hw] at hok h4 b3
        generalize hres : writeSpec true (getMeasEvalsPath e1.proj.dirPath site meas e1.config.name) files d { fs := fs1 } = res at hok h4 b3
        obtain ⟨r, s'⟩ := res
        simp only at hok h4 b3
        subst hok
        obtain ⟨w1, w2, w3⟩ := writeLevels_inv hres
        rw [f2] at w1 w2 w3 b3
        have hsame : ∀ q, getMeasEvalsPath e.proj.dirPath site meas e1.config.name <+: q → t q = s'.fs q :=
          fun q hq => untouched b3 (d := .evals site meas e1.config.name) hfine.1 hno q hq
        refine storedAs_of (x := (site, meas)) (d := d) (f := files) ?_ ?_ ?_ h0
        · rw [hsame _ List.prefix_rfl]; exact w1
        · rw [hsame _ (List.prefix_append _ _)]; exact w2
        · rw [hsame _ (List.prefix_append _ _)]; exact w3

end Resistics
