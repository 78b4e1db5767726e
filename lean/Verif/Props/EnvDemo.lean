import Verif.Props.EnvSession
import Verif.Props.ProjectDemo
import Verif.Props.RemoteDemo

/-!
# A concrete session with a project (C67)

A project with one measurement is loaded; the recording is stored as a new measurement, the project is loaded again, the recording is
processed to evaluation data, a second run is interrupted.
-/

namespace Resistics

/-- A disk with a project with one measurement. -/
def demoEnvEntries : List (Path × Node ℂ) :=
  [([], .dir), (["proj"], .dir), (["proj", "resistics.json"], .file (.projJson { refTime := 10 })), (["proj", "time"], .dir),
   (["proj", "time", "A"], .dir), (["proj", "time", "A", "m"], .dir)]

/-- The measurement as the reader of the demonstration finds it. -/
def demoEnvMeas (site meas : String) : Meas ℂ where
  siteName := site
  dirPath := ["proj", "time", site, meas]
  md := demoLin.md
  reader := demoLinReader

/-- The project as it is loaded. -/
def demoEnvProject : Project ℂ where
  dirPath := ["proj"]
  beginTime := 10
  endTime := 27 / 2
  md := { refTime := 10 }
  sites := [("A", {
    dirPath := ["proj", "time", "A"]
    measurements := [("m", demoEnvMeas "A" "m")]
    beginTime := 10
    endTime := 27 / 2 })]

/-- The environment. -/
noncomputable def demoEnv : Env := ⟨demoEnvProject, demoConfig⟩

theorem demoEnv_load : loadEnv (entriesLs demoEnvEntries) (fun _ => (0, 1)) demoConfig (entriesFs demoEnvEntries) ["proj"]
    (some demoConfig) = .ok demoEnv := by
  rw [loadEnv_ok]
  exact ⟨rfl, rfl⟩

theorem demoEnv_listing : IsListing (entriesLs demoEnvEntries) (entriesFs demoEnvEntries) := entries_listing _ (by decide)

theorem demoEnv_tree : (entriesFs demoEnvEntries).Tree := by
  refine ⟨rfl, ?_⟩
  intro p n h
  have hall : ∀ x ∈ demoEnvEntries, x.1 ≠ [] → entriesFs demoEnvEntries x.1.dropLast = some .dir := by
    intro x hx
    simp only [demoEnvEntries, List.mem_cons, List.not_mem_nil, or_false] at hx
    rcases hx with rfl | rfl | rfl | rfl | rfl | rfl <;> intro h
    · exact absurd rfl h
    all_goals rfl
  obtain ⟨v, hv⟩ := Option.isSome_iff_exists.1 h
  have := hall _ (entriesFs_mem hv) (by simp)
  rwa [List.dropLast_concat] at this

theorem demoConfig_fine : demoConfig.Fine := by
  refine ⟨?_, ?_, ?_⟩
  · show IsName "demo"
    unfold IsName
    decide
  · intro r hr
    simp only [demoConfig, List.mem_singleton] at hr
    subst hr
    exact fun _ _ _ _ => ⟨rfl, fun _ _ => rfl⟩
  · intro _ _ _ _ _
    rfl

theorem demoEnv_fine : demoEnv.Fine :=
  ⟨demoConfig_fine, C55_loaded_well_placed _ _ _ _ _ demoEnv_listing _ (loadEnv_ok.1 demoEnv_load).1 demoConfig_fine.2.1⟩

/-- Storing the recording as a new measurement of a new site. -/
def demoTimeCall : EnvCall := .time "A" "m" "B" "m2" {} fun td => td.md.chans.map fun ch => (ch, [""])

theorem demo_names : IsName "A" ∧ IsName "B" ∧ IsName "m" ∧ IsName "m2" ∧ IsName "demo" ∧ IsName "data.npy" ∧ IsName "data.npz" ∧
    IsName "metadata.json" := by
  unfold IsName
  decide

theorem demoTime_fine (r : Except Err Unit) : (EnvEvent.call demoConfig demoTimeCall r).Fine := by
  obtain ⟨hA, hB, hm, hm2, hd, h1, h2, h3⟩ := demo_names
  refine ⟨⟨hB, hm2⟩, fun n hn => ?_⟩
  simp only [EnvCall.files, demoTimeCall, List.mem_cons, List.not_mem_nil, or_false] at hn
  rcases hn with rfl | rfl
  · exact h1
  · exact h3

theorem demoEvals_fine (site : String) (hs : IsName site) (files : List (String × List String)) (r : Except Err Unit) :
    (EnvEvent.call demoConfig (.evals site "m" files) r).Fine := by
  obtain ⟨hA, hB, hm, hm2, hd, h1, h2, h3⟩ := demo_names
  refine ⟨⟨hs, hm, hd⟩, fun n hn => ?_⟩
  simp only [EnvCall.files, List.mem_cons, List.not_mem_nil, or_false] at hn
  rcases hn with rfl | rfl
  · exact h2
  · exact h3

/-- the new measurement is stored -/
theorem demoTime_runs : ∃ s', demoTimeCall.run demoEnv { fs := entriesFs demoEnvEntries } = (.ok (), s') := by
  obtain ⟨hA, hB, hm, hm2, -⟩ := demo_names
  obtain ⟨td, htd⟩ : ∃ td, runTimeProcessors demoConfig.sp demoConfig.timeProcs demoLin = .ok td := by
    simp [demoConfig, runTimeProcessors, Proc.run, bind, Except.bind, pure, Except.pure]
  refine C59_succeeds demoConfig demoEnvProject "A" "m" "B" "m2" {} (fun td => td.md.chans.map fun ch => (ch, [""]))
    { fs := entriesFs demoEnvEntries } hB hm2 (fun h => by cases h.1) demoLin td ⟨demoEnvMeas "A" "m", rfl, rfl, htd⟩ (Or.inr ⟨rfl, fun q hq => ?_⟩)
    (fun n hn => ?_) (fun ch hch => ⟨(ch, [""]), List.mem_map.2 ⟨ch, hch, rfl⟩, rfl⟩)
  · have : ∀ q ∈ (["proj", "time", "B", "m2"] : Path).inits, (entriesFs demoEnvEntries).isFile q = false := by
      intro q hq
      simp only [List.inits, List.map_cons, List.map_nil, List.mem_cons, List.not_mem_nil, or_false] at hq
      rcases hq with rfl | rfl | rfl | rfl | rfl <;> rfl
    exact this q ((List.mem_inits _ _).2 hq)
  · simp only [List.mem_cons, List.not_mem_nil, or_false] at hn
    rcases hn with rfl | rfl
    · show entriesFs demoEnvEntries ["proj", "time", "B", "m2", "data.npy"] ≠ _
      rw [show entriesFs demoEnvEntries ["proj", "time", "B", "m2", "data.npy"] = none from rfl]
      simp
    · show entriesFs demoEnvEntries ["proj", "time", "B", "m2", "metadata.json"] ≠ _
      rw [show entriesFs demoEnvEntries ["proj", "time", "B", "m2", "metadata.json"] = none from rfl]
      simp

/-- evaluation data can be stored where nothing is in the way -/
theorem demoEvals_runs (e : Env) (hc : e.config = demoConfig) (hp : e.proj.WellPlaced) (hdir : e.proj.dirPath = ["proj"])
    (site : String) (hs : IsName site) (m : Meas ℂ) (hm : e.proj.getMeas site "m" = .ok m) (hr : ∀ fs, m.reader.readData fs m.dirPath m.md {} = .ok demoLin)
    (hmd : e.proj.md.refTime = 10) (fs : FS ℂ) (ht : fs.Tree)
    (hno : ∀ q, q <+: ["proj", "evals", site, "demo", "m"] → fs.isFile q = false)
    (hno' : fs ["proj", "evals", site, "demo", "m"] = none) (hno2 : ∀ n, fs ["proj", "evals", site, "demo", "m", n] = none) :
    ∃ s', (EnvCall.evals site "m" []).run e { fs := fs } = (.ok (), s') := by
  obtain ⟨evals, lm, h, -⟩ := demo_evals
  obtain ⟨hA, hB, hnm, hm2, hd, -⟩ := demo_names
  have hev : demoConfig.evalsOf e.proj fs site "m" = .ok (m, evals) := by
    unfold Config.evalsOf
    rw [hm]
    simp only [bind, Except.bind]
    rw [hr, hmd]
    simp only
    rw [h]
    rfl
  have heq := processTimeToEvals_eq (c := demoConfig) (x := (site, "m")) (files := fun _ => []) (d := fun _ => evals)
    (s := { fs := fs }) hp hev
  have hpath : getMeasEvalsPath e.proj.dirPath site "m" "demo" = ["proj", "evals", site, "demo", "m"] := by
    rw [hdir]
    exact evalsPath _ hs hnm hd
  obtain ⟨steps, hw, -⟩ := writeOut_ok (x := evalOut demoConfig e.proj (fun _ => []) (fun _ => evals) (site, "m"))
    (s := { fs := fs }) ht (by
      have hx : (evalOut demoConfig e.proj (fun _ => []) (fun _ => evals) (site, "m")).dir = ["proj", "evals", site, "demo", "m"] := by
        unfold evalOut
        rw [show demoConfig.name = "demo" from rfl, hpath]
      unfold CanWrite
      rw [hx]
      show Usable true fs _ ∧ fs _ ≠ _ ∧ fs _ ≠ _
      refine ⟨Or.inr ⟨hno', hno⟩, ?_, ?_⟩
      · rw [show (["proj", "evals", site, "demo", "m"] ++ ["data.npz"] : Path) = ["proj", "evals", site, "demo", "m", "data.npz"] from rfl,
          hno2]; simp
      · rw [show (["proj", "evals", site, "demo", "m"] ++ ["metadata.json"] : Path) =
          ["proj", "evals", site, "demo", "m", "metadata.json"] from rfl, hno2]; simp)
  refine ⟨_, Eq.trans ?_ (heq.trans hw)⟩
  show processTimeToEvals e.config e.proj site "m" [] { fs := fs } = _
  rw [hc]

/-- The session: the new measurement is stored, the project is loaded again, the old measurement is processed, and a transfer function is
asked for (which fails or not). -/
theorem demo_session : ∃ e' t r, EnvSession (demoEnv, entriesFs demoEnvEntries)
    ([.call demoConfig demoTimeCall (.ok ()), .load demoConfig] ++ .call demoConfig (.evals "A" "m" []) (.ok ()) ::
      [.call demoConfig (.tf 2 "A" none none none) r]) (e', t) := by
  obtain ⟨hA, hB, hm, hm2, hd, -⟩ := demo_names
  obtain ⟨s1, h1⟩ := demoTime_runs
  have step1 : Happens (demoEnv, entriesFs demoEnvEntries) (.call demoConfig demoTimeCall (.ok ())) (demoEnv, s1.fs) := by
    have := Happens.call demoEnv (entriesFs demoEnvEntries) demoTimeCall
    rw [h1] at this
    exact this
  have ses1 : EnvSession (demoEnv, entriesFs demoEnvEntries) [.call demoConfig demoTimeCall (.ok ())] (demoEnv, s1.fs) :=
    .cons step1 (.nil _)
  have fine1 : ∀ ev ∈ [EnvEvent.call demoConfig demoTimeCall (.ok ())], ev.Fine := by
    intro ev hev
    rw [List.mem_singleton] at hev
    subst hev
    exact demoTime_fine _
  obtain ⟨ls', hls'⟩ := C67_listable _ _ _ _ _ ses1 demoEnv_fine fine1 _ demoEnv_listing
  obtain ⟨e1, l1, l2, l3, l4⟩ := C67_loads _ _ _ _ _ ses1 demoEnv_fine fine1 demoEnv_tree _ ls' _ (fun _ => (0, 1)) demoEnv_listing hls'
    demoConfig (some demoConfig) demoConfig_fine.2.1 demoEnv demoEnv_load
  have step2 : Happens (demoEnv, s1.fs) (.load demoConfig) (e1, s1.fs) := .load _ _ _ _ _ _ _ hls' l1
  have tree1 : s1.fs.Tree := C67_tree _ _ _ ses1 demoEnv_tree
  have hmeas : e1.proj.getMeas "A" "m" = .ok (demoEnvMeas "A" "m") := by
    refine (l4 "A" "m" hA hm ?_ _).2 rfl
    intro ev hev n hw
    rw [List.mem_singleton] at hev
    subst hev
    have := hw.1
    simp [EnvCall.output, demoTimeCall] at this
  obtain ⟨f1, f2, -⟩ := happens_frame step2 demoEnv_fine demoConfig_fine
  have hchange : ∀ q, q.length ≤ 6 → (∃ r, q = "proj" :: "evals" :: r) → s1.fs q = none := by
    intro q hl hq
    have h0 : entriesFs demoEnvEntries q = none := by
      cases hx : entriesFs demoEnvEntries q with
      | none => rfl
      | some v =>
        exfalso
        have := entriesFs_mem hx
        obtain ⟨r, rfl⟩ := hq
        simp [demoEnvEntries] at this
    by_contra hne
    obtain ⟨ev, hev, d, n, hw, h3⟩ := C67_only_outputs _ _ _ _ _ ses1 demoEnv_fine fine1 q (by rw [h0]; exact hne)
    rw [List.mem_singleton] at hev
    subst hev
    have hdn : d = .time "B" "m2" := hw.1
    subst hdn
    have hp : (DataId.time "B" "m2").path demoEnv.proj.dirPath = ["proj", "time", "B", "m2"] := timePath _ hB hm2
    rw [hp] at h3
    obtain ⟨r, rfl⟩ := hq
    rcases h3 with h3 | h3
    · have := h3.1
      simp at this
    · simp at h3
  have hpre : ∀ q, q <+: (["proj", "evals", "A", "demo", "m"] : Path) → s1.fs.isFile q = false := by
    intro q hq
    have hq' := (List.mem_inits _ _).2 hq
    simp only [List.inits, List.map_cons, List.map_nil, List.mem_cons, List.not_mem_nil, or_false] at hq'
    have hdirs : ∀ q, entriesFs demoEnvEntries q = some .dir → s1.fs q = some .dir → s1.fs.isFile q = false := by
      intro q _ h
      rw [isFile_false]
      intro c
      rw [h]
      simp
    have hproj : s1.fs ["proj"] = some .dir :=
      (C67_kept _ _ _ _ _ ses1 demoEnv_fine fine1 { refTime := 10 } ⟨rfl, rfl, rfl⟩).1.1
    have hnone : ∀ q, s1.fs q = none → s1.fs.isFile q = false := by
      intro q h
      rw [isFile_false]
      intro c
      rw [h]
      simp
    rcases hq' with rfl | rfl | rfl | rfl | rfl | rfl
    · exact hdirs _ rfl tree1.1
    · exact hdirs _ rfl hproj
    all_goals exact hnone _ (hchange _ (by decide) ⟨_, rfl⟩)
  obtain ⟨s2, h2⟩ := demoEvals_runs e1 l2 f1.2 f2 "A" hA _ hmeas (fun _ => rfl) (by rw [l3]; rfl) s1.fs tree1 hpre
    (hchange _ (by decide) ⟨_, rfl⟩) (fun n => hchange _ (by simp) ⟨_, rfl⟩)
  have step3 : Happens (e1, s1.fs) (.call demoConfig (.evals "A" "m" []) (.ok ())) (e1, s2.fs) := by
    have := Happens.call e1 s1.fs (.evals "A" "m" [])
    rw [h2, l2] at this
    exact this
  have step4 := Happens.call e1 s2.fs (.tf 2 "A" none none none)
  rw [l2] at step4
  exact ⟨_, _, _, .cons step1 (.cons step2 (.cons step3 (.cons step4 (.nil _))))⟩

theorem demo_session_fine (r : Except Err Unit) : ∀ ev ∈ [.call demoConfig demoTimeCall (.ok ()), .load demoConfig] ++
    .call demoConfig (.evals "A" "m" []) (.ok ()) :: [EnvEvent.call demoConfig (.tf 2 "A" none none none) r], ev.Fine := by
  intro ev hev
  simp only [List.cons_append, List.nil_append, List.mem_cons, List.not_mem_nil, or_false] at hev
  rcases hev with rfl | rfl | rfl | rfl
  · exact demoTime_fine _
  · exact demoConfig_fine
  · exact demoEvals_fine "A" demo_names.1 _ _
  · refine ⟨⟨demo_names.1, demo_names.2.2.2.2.1⟩, fun n hn => ?_⟩
    simp only [EnvCall.files, List.mem_singleton] at hn
    subst hn
    have : getSolutionName 2 demoConfig.tf.name demoConfig.tf.variation none = "2_000000_demo_default.json" := by
      show getSolutionName 2 "Demo" "default" none = _
      decide +kernel
    rw [this]
    unfold IsName
    decide

/-- the hypotheses of `C67_same_project` and `C67_determined` are met by the session -/
example : ∃ (e' : Env) (t : FS ℂ) (m : Meas ℂ) (d : SpecData ℂ), e'.proj.md = { refTime := 10 } ∧
    e'.proj.getMeas "A" "m" = .ok (demoEnvMeas "A" "m") ∧
    demoConfig.evalsOf demoEnvProject (entriesFs demoEnvEntries) "A" "m" = .ok (m, d) ∧
    ((d.data.lookup 0).isSome = true → StoredAs t ["proj"] "demo" ("A", "m") d) := by
  obtain ⟨e', t, r, h⟩ := demo_session
  have hload : ∀ config, .load config ∈ [.call demoConfig demoTimeCall (.ok ()), .load demoConfig] ++
      .call demoConfig (.evals "A" "m" []) (.ok ()) :: [EnvEvent.call demoConfig (.tf 2 "A" none none none) r] →
      config.readers = demoEnv.config.readers := by
    intro config hc
    simp at hc
    subst hc
    rfl
  have hw1 : ∀ n, ¬ (EnvEvent.call demoConfig demoTimeCall (.ok ())).Writes (.time "A" "m") n := by
    intro n hw
    have := hw.1
    simp [EnvCall.output, demoTimeCall] at this
  have hw2 : ∀ n r, ¬ (EnvEvent.call demoConfig (.tf 2 "A" none none none) r).Writes (.evals "A" "m" demoConfig.name) n := by
    intro n r hw
    cases hw.1
  obtain ⟨h1, h2⟩ := C67_same_project _ _ _ _ _ h demoEnv_fine (demo_session_fine r) demoEnv_tree _ _ demoConfig demoEnv_listing
    demoEnv_load hload
  obtain ⟨m, d, h3, h4⟩ := C67_determined _ _ _ _ _ _ demoConfig "A" "m" [] demo_names.1 demo_names.2.2.1 h demoEnv_fine
    (demo_session_fine r) demoEnv_tree _ _ demoConfig demoEnv_listing demoEnv_load (fun config hc => hload config (by
      rw [List.mem_append]; exact .inl hc))
    (by
      intro ev hev n
      rw [List.mem_singleton] at hev
      subst hev
      exact hw2 n r)
    (by
      intro ev hev n
      simp only [List.mem_cons, List.not_mem_nil, or_false] at hev
      rcases hev with rfl | rfl
      · exact hw1 n
      · exact id)
  refine ⟨e', t, m, d, h1, (h2 "A" "m" demo_names.1 demo_names.2.2.1 ?_ _).2 rfl, h3, h4⟩
  intro ev hev n
  simp only [List.cons_append, List.nil_append, List.mem_cons, List.not_mem_nil, or_false] at hev
  rcases hev with rfl | rfl | rfl | rfl
  · exact hw1 n
  · exact id
  · intro hw; cases hw.1
  · intro hw; cases hw.1

/-- the hypotheses of `C67_new_measurement` are met: the readers of the default configuration find the new measurement -/
example : ∃ (e2 : Env) (t : FS ℂ) (td0 td : TimeData ℚ) (m : Meas ℂ),
    demoConfig.Processed demoEnvProject (entriesFs demoEnvEntries) "A" "m" {} td0 td ∧ e2.proj.getMeas "B" "m2" = .ok m ∧
    ∀ r, m.reader.readData t m.dirPath m.md r = readNumpy td.data td.md.written r := by
  obtain ⟨s1, h1⟩ := demoTime_runs
  have step1 : Happens (demoEnv, entriesFs demoEnvEntries) (.call demoConfig demoTimeCall (.ok ())) (demoEnv, s1.fs) := by
    have := Happens.call demoEnv (entriesFs demoEnvEntries) demoTimeCall
    rw [h1] at this
    exact this
  have ses1 : EnvSession (demoEnv, entriesFs demoEnvEntries) ([] ++ .call demoConfig demoTimeCall (.ok ()) :: []) (demoEnv, s1.fs) :=
    .cons step1 (.nil _)
  have fine1 : ∀ ev ∈ [] ++ EnvEvent.call demoConfig demoTimeCall (.ok ()) :: [], ev.Fine := by
    intro ev hev
    have : ev = EnvEvent.call demoConfig demoTimeCall (.ok ()) := by simpa using hev
    subst this
    exact demoTime_fine _
  obtain ⟨ls', hls'⟩ := C67_listable _ _ _ _ _ ses1 demoEnv_fine fine1 _ demoEnv_listing
  have hr : DefaultReaders [asciiReader ℂ fun _ _ _ _ => .error .notImpl, numpyReader ℂ] := ⟨_, rfl, fun _ _ _ _ _ _ => rfl⟩
  have hold := (C67_kept _ _ _ _ _ ses1 demoEnv_fine fine1 { refTime := 10 } ⟨rfl, rfl, rfl⟩).1
  obtain ⟨p2, hp2⟩ := (C44_loads_iff ls' (fun _ => (0, 1)) [asciiReader ℂ fun _ _ _ _ => .error .notImpl, numpyReader ℂ] s1.fs ["proj"]).2
    ⟨_, hold⟩
  obtain ⟨e1, fs1, td0, td, m, a1, a2, a3, a4, -, a5⟩ := C67_new_measurement _ _ _ _ _ _ demoConfig "A" "m" "B" "m2" {} _ ses1 demoEnv_fine fine1
    demoEnv_tree (by simp) (by
      intro e1 fs1 td0 td h2 h3
      obtain ⟨m, b1, b2, b3⟩ := h3
      cases h2
      have hm : m = demoEnvMeas "A" "m" := by
        have : demoEnv.proj.getMeas "A" "m" = .ok (demoEnvMeas "A" "m") := rfl
        rw [this] at b1
        exact (Except.ok.inj b1).symm
      subst hm
      have h0 : td0 = demoLin := (Except.ok.inj b2).symm
      subst h0
      simp only [demoConfig, runTimeProcessors, List.foldlM_cons, List.foldlM_nil, Proc.run, bind, Except.bind, except_pure_ok] at b3
      subst b3
      refine ⟨by decide, ?_⟩
      intro q hq
      obtain ⟨ch, hch, rfl⟩ := List.mem_map.1 hq
      exact hch)
    (fun _ _ _ h => by cases h.1)
    ls' (fun _ => (0, 1)) demoConfig { demoConfig with readers := [asciiReader ℂ fun _ _ _ _ => .error .notImpl, numpyReader ℂ] } hr hls'
    ⟨p2, { demoConfig with readers := [asciiReader ℂ fun _ _ _ _ => .error .notImpl, numpyReader ℂ] }⟩ (loadEnv_ok.2 ⟨hp2, rfl⟩)
  cases a1
  exact ⟨_, _, td0, td, m, a3, a4, a5⟩

/-- What a computation does depends on the disk, not on the states recorded before. -/
def Forgets {W α : Type} (x : FsM W α) : Prop := ∀ s s' : FsState W, s.fs = s'.fs → (x s).1 = (x s').1 ∧ (x s).2.fs = (x s').2.fs

theorem Forgets.bind {W α β : Type} {x : FsM W α} {f : α → FsM W β} (hx : Forgets x) (hf : ∀ a, Forgets (f a)) :
    Forgets (x >>= f) := by
  intro s s' h
  obtain ⟨h1, h2⟩ := hx s s' h
  rw [fs_bind, fs_bind]
  rcases e : x s with ⟨r, t⟩
  rcases e' : x s' with ⟨r', t'⟩
  rw [e, e'] at h1 h2
  simp only at h1 h2
  subst h1
  cases r with
  | error e => exact ⟨rfl, h2⟩
  | ok a => exact hf a t t' h2

theorem Forgets.pure {W α : Type} (a : α) : Forgets (Pure.pure a : FsM W α) := fun _ _ h => ⟨rfl, h⟩

theorem Forgets.throw {W α : Type} (e : Err) : Forgets (throw e : FsM W α) := fun _ _ h => ⟨rfl, h⟩

theorem Forgets.read {W α : Type} (f : FS W → Except Err α) : Forgets (fsRead f) := fun s s' h =>
  ⟨congrArg f h, h⟩

theorem Forgets.step {W : Type} (f : FS W → FS W) : Forgets (fsStep f) := fun s s' h => by
  unfold fsStep
  rw [h]
  exact ⟨rfl, rfl⟩

theorem Forgets.ite {W α : Type} {c : Prop} [Decidable c] {x y : FsM W α} (hx : Forgets x) (hy : Forgets y) :
    Forgets (if c then x else y) := by
  split
  · exact hx
  · exact hy

theorem Forgets.file {W : Type} (dir : Path) (name : String) (c : Content W) : Forgets (writeFile dir name c) :=
  (Forgets.read _).bind fun _ => ((Forgets.step _).bind fun _ => Forgets.step _).ite (Forgets.throw _)

theorem Forgets.each {W : Type} (l : List Path) : Forgets (mkdirEach l : FsM W Unit) := by
  induction l with
  | nil => exact Forgets.pure _
  | cons p l ih =>
    refine (Forgets.read _).bind fun _ => Forgets.ite ?_ ?_
    · exact ih
    · exact (Forgets.step _).bind fun _ => ih

theorem Forgets.check {W : Type} (ov : Bool) (dir : Path) : Forgets (checkDir ov dir : FsM W Unit) := by
  refine (Forgets.read _).bind fun b => Forgets.ite (Forgets.ite (Forgets.pure _) (Forgets.throw _)) ?_
  exact (Forgets.read _).bind fun _ => (Forgets.throw _).ite (Forgets.each _)

theorem evals_forget (c : Config) (p : Project ℂ) (site meas : String) (files : List (String × List String)) :
    Forgets (processTimeToEvals c p site meas files) :=
  (Forgets.read _).bind fun _ => (Forgets.check _ _).bind fun _ => (Forgets.file _ _ _).bind fun _ => Forgets.file _ _ _

/-- the class of the transfer function of the demonstration -/
def demoTfClass : TfClass := ⟨"Demo", "default", some ["Ex"], some ["Hx"]⟩

/-- an environment with two sites -/
noncomputable def demoPairEnv : Env := ⟨demoPair, demoConfig⟩

/-- the hypotheses of `C67_solution` are met: both sites are processed, the transfer function is computed with a remote reference, stored
and read back -/
example : ∃ (e1 : Env) (fs1 t : FS ℂ) (sol : Solution), demoConfig.tfOf e1.proj fs1 2 "A" none (some "B") = .ok sol ∧
    getSolution [("Demo", demoTfClass)] t ["proj"] "A" "demo" 2 "Demo" "default" none = .ok sol := by
  obtain ⟨hA, hB, hm, -, hd, -⟩ := demo_names
  obtain ⟨s', sol, hs, hsol, -⟩ := demo_remote
  have hfine : demoPairEnv.Fine := ⟨demoConfig_fine, demoPair_placed⟩
  have hname : getSolutionName 2 demoConfig.tf.name demoConfig.tf.variation none = "2_000000_demo_default.json" := by
    show getSolutionName 2 "Demo" "default" none = _
    decide +kernel
  have hnn : IsName "2_000000_demo_default.json" := by
    unfold IsName
    decide
  -- the two calls
  obtain ⟨s1, h1, h2⟩ : ∃ s1 : FsState ℂ, processTimeToEvals demoConfig demoPair "A" "m" [] { fs := demoEmptyFs } = (.ok (), s1) ∧
      processTimeToEvals demoConfig demoPair "B" "m" [] s1 = (.ok (), s') := by
    have hs' : (processTimeToEvals demoConfig demoPair "A" "m" [] >>= fun _ =>
      processTimeToEvals demoConfig demoPair "B" "m" [] >>= fun _ => pure ()) { fs := demoEmptyFs } = (.ok (), s') := hs
    rw [fs_bind] at hs'
    rcases e1 : processTimeToEvals demoConfig demoPair "A" "m" [] { fs := demoEmptyFs } with ⟨r1, s1⟩
    rw [e1] at hs'
    cases r1 with
    | error e => cases hs'
    | ok _ =>
      simp only at hs'
      rw [fs_bind] at hs'
      rcases e2 : processTimeToEvals demoConfig demoPair "B" "m" [] s1 with ⟨r2, s2⟩
      rw [e2] at hs'
      cases r2 with
      | error e => cases hs'
      | ok _ =>
        simp only at hs'
        obtain ⟨-, hs'⟩ := Prod.mk.inj hs'
        have : s2 = s' := hs'
        subst this
        exact ⟨s1, rfl, e2⟩
  obtain ⟨g1, g2⟩ := evals_forget demoConfig demoPair "B" "m" [] s1 { fs := s1.fs } rfl
  rw [h2] at g1 g2
  have step1 : Happens (demoPairEnv, demoEmptyFs) (.call demoConfig (.evals "A" "m" []) (.ok ())) (demoPairEnv, s1.fs) := by
    have := Happens.call demoPairEnv demoEmptyFs (.evals "A" "m" [])
    rw [show (EnvCall.evals "A" "m" []).run demoPairEnv { fs := demoEmptyFs } = (.ok (), s1) from h1] at this
    exact this
  have step2 : Happens (demoPairEnv, s1.fs) (.call demoConfig (.evals "B" "m" []) (.ok ())) (demoPairEnv, s'.fs) := by
    have := Happens.call demoPairEnv s1.fs (.evals "B" "m" [])
    rw [show ((EnvCall.evals "B" "m" []).run demoPairEnv { fs := s1.fs }).1 = .ok () from g1.symm,
      show ((EnvCall.evals "B" "m" []).run demoPairEnv { fs := s1.fs }).2.fs = s'.fs from g2.symm] at this
    exact this
  have ses : EnvSession (demoPairEnv, demoEmptyFs) [.call demoConfig (.evals "A" "m" []) (.ok ()),
      .call demoConfig (.evals "B" "m" []) (.ok ())] (demoPairEnv, s'.fs) := .cons step1 (.cons step2 (.nil _))
  have fine : ∀ ev ∈ [EnvEvent.call demoConfig (.evals "A" "m" []) (.ok ()), .call demoConfig (.evals "B" "m" []) (.ok ())], ev.Fine := by
    intro ev hev
    simp only [List.mem_cons, List.not_mem_nil, or_false] at hev
    rcases hev with rfl | rfl
    · exact demoEvals_fine _ hA _ _
    · exact demoEvals_fine _ hB _ _
  -- nothing is in the way of the results
  have hpath : (DataId.results "A" demoConfig.name).path demoPair.dirPath = ["proj", "results", "A", "demo"] :=
    DataId.path_eq _ (d := .results "A" "demo") ⟨hA, hd⟩
  have hfree : ∀ q x, q <+: ["proj", "results", "A", "demo", "2_000000_demo_default.json"] → s'.fs q ≠ some (.file x) := by
    intro q x hq he
    have h0 : s'.fs q ≠ demoEmptyFs q := by
      rw [he]
      unfold demoEmptyFs
      split <;> simp
    obtain ⟨ev, hev, d, n, hw, h3 | h3⟩ := C67_only_outputs _ _ _ _ _ ses hfine fine q h0
    · rw [he] at h3
      have := h3.2.2
      simp at this
    · have hd' : ∃ site, IsName site ∧ d = .evals site "m" "demo" := by
        simp only [List.mem_cons, List.not_mem_nil, or_false] at hev
        rcases hev with rfl | rfl
        · exact ⟨"A", hA, hw.1⟩
        · exact ⟨"B", hB, hw.1⟩
      obtain ⟨site, hsn, rfl⟩ := hd'
      rw [DataId.path_eq _ (d := .evals site "m" "demo") ⟨hsn, hm, hd⟩] at h3
      subst h3
      simp [DataId.rel, demoPairEnv, demoPair] at hq
  have hnd : s'.fs ["proj", "results", "A", "demo", "2_000000_demo_default.json"] ≠ some .dir := by
    intro he
    have h0 : s'.fs ["proj", "results", "A", "demo", "2_000000_demo_default.json"] ≠
        demoEmptyFs ["proj", "results", "A", "demo", "2_000000_demo_default.json"] := by
      rw [he]
      simp [demoEmptyFs]
    obtain ⟨ev, hev, d, n, hw, h3⟩ := C67_only_outputs _ _ _ _ _ ses hfine fine _ h0
    have hd' : ∃ site, IsName site ∧ d = .evals site "m" "demo" := by
      simp only [List.mem_cons, List.not_mem_nil, or_false] at hev
      rcases hev with rfl | rfl
      · exact ⟨"A", hA, hw.1⟩
      · exact ⟨"B", hB, hw.1⟩
    obtain ⟨site, hsn, rfl⟩ := hd'
    rw [DataId.path_eq _ (d := .evals site "m" "demo") ⟨hsn, hm, hd⟩] at h3
    simp [DataId.rel, demoPairEnv, demoPair] at h3
  obtain ⟨s3, h3⟩ := C67_solution_written demoConfig demoPair 2 "A" none (some "B") none { fs := s'.fs } sol hsol ⟨hA, hd⟩
    (by rw [hname]; exact hnn)
    (by
      intro q hq x
      rw [hpath] at hq
      exact hfree q x (hq.trans ⟨["2_000000_demo_default.json"], rfl⟩))
    (by rw [hname, hpath]; exact hnd)
  have step3 : Happens (demoPairEnv, s'.fs) (.call demoConfig (.tf 2 "A" none (some "B") none) (.ok ())) (demoPairEnv, s3.fs) := by
    have := Happens.call demoPairEnv s'.fs (.tf 2 "A" none (some "B") none)
    have hrun : (EnvCall.tf 2 "A" none (some "B") none).run demoPairEnv { fs := s'.fs } = (.ok (), s3) := by
      show (discard (processEvalsToTf demoConfig demoPair 2 "A" none (some "B") none) : FsM ℂ Unit) { fs := s'.fs } = _
      rw [show (discard (processEvalsToTf demoConfig demoPair 2 "A" none (some "B") none) : FsM ℂ Unit) =
        processEvalsToTf demoConfig demoPair 2 "A" none (some "B") none >>= fun _ => pure () from rfl, fs_bind, h3]
      rfl
    rw [hrun] at this
    exact this
  have ses' : EnvSession (demoPairEnv, demoEmptyFs) ([.call demoConfig (.evals "A" "m" []) (.ok ()),
      .call demoConfig (.evals "B" "m" []) (.ok ())] ++ .call demoConfig (.tf 2 "A" none (some "B") none) (.ok ()) :: [])
      (demoPairEnv, s3.fs) := .cons step1 (.cons step2 (.cons step3 (.nil _)))
  obtain ⟨e1, fs1, sol', -, -, k3, k4⟩ := C67_solution _ _ _ _ _ _ demoConfig 2 "A" none (some "B") none ses' hfine (by
      intro ev hev
      rw [List.mem_append, List.mem_singleton] at hev
      rcases hev with hev | rfl
      · exact fine ev hev
      · refine ⟨⟨hA, hd⟩, fun n hn => ?_⟩
        simp only [EnvCall.files, List.mem_singleton] at hn
        rw [hn, hname]
        exact hnn) (by simp) [("Demo", demoTfClass)] demoTfClass {} rfl rfl (.inr ⟨by decide, rfl⟩)
  exact ⟨e1, fs1, s3.fs, sol', k3, k4⟩

/-- the hypotheses of `C67_new` are met by an empty disk -/
example : ∃ s', newProject ["data", "new"] { refTime := 5 } { fs := demoEmptyFs } = (.ok true, s') := by
  refine (C67_new _ _ { fs := demoEmptyFs } demoEmptyFs_tree).1.2 (Or.inr ⟨rfl, ?_⟩)
  intro q _ c
  show demoEmptyFs q ≠ _
  unfold demoEmptyFs
  split <;> simp

/-! ## A recording written over itself (C59) -/

/-- The metadata of a recording with one channel and three samples. -/
def demoOverMeta : TimeMeta := { fs := 1, chans := ["Ex"], nSamples := 3, firstTime := 0, lastTime := 2 }

/-- A disk with a project with that recording, stored by the numpy writer. -/
def demoOverEntries : List (Path × Node ℂ) :=
  [([], .dir), (["proj"], .dir), (["proj", "resistics.json"], .file (.projJson { refTime := 10 })), (["proj", "time"], .dir),
   (["proj", "time", "A"], .dir), (["proj", "time", "A", "m"], .dir),
   (["proj", "time", "A", "m", "metadata.json"], .file (.metaJson (.time demoOverMeta) [("Ex", ["data.npy"])])),
   (["proj", "time", "A", "m", "data.npy"], .file (.npy [[5, 6, 7]]))]

/-- The measurement. -/
def demoOverMeas : Meas ℂ where
  siteName := "A"
  dirPath := ["proj", "time", "A", "m"]
  md := demoOverMeta
  reader := numpyReader ℂ

/-- The project. -/
def demoOverProject : Project ℂ where
  dirPath := ["proj"]
  beginTime := 0
  endTime := 2
  md := { refTime := 10 }
  sites := [("A", { dirPath := ["proj", "time", "A"], measurements := [("m", demoOverMeas)], beginTime := 0, endTime := 2 })]

theorem demoOver_loads : loadProject (entriesLs demoOverEntries) (fun _ => (0, 1))
    [asciiReader ℂ fun _ _ _ _ => .error .notImpl, numpyReader ℂ] (entriesFs demoOverEntries) ["proj"] = .ok demoOverProject := by
  rfl

/-- A configuration without time processors, on a platform where the truncated file reads as zeros. -/
noncomputable def demoOverConfig : Config :=
  { demoConfig with timeProcs := [], lost := fun n k => some (List.replicate n (List.replicate k 0)) }

theorem demoOver_over : demoOverConfig.OverItself demoOverProject (entriesFs demoOverEntries) "A" "m" "A" "m" :=
  ⟨rfl, demoOverMeas, rfl, by
    rw [timePath _ (by unfold IsName; decide) (by unfold IsName; decide)]
    rfl⟩

/-- `process_time` of measurement `m` of site `A` onto itself, without processors: the samples 5, 6, 7 become zeros. -/
example (s' : FsState ℂ) (x : Except Err Unit) (files : TimeData ℚ → List (String × List String))
    (h : processTime demoOverConfig demoOverProject "A" "m" "A" "m" {} files { fs := entriesFs demoOverEntries } = (x, s')) :
    s'.fs ["proj", "time", "A", "m", "data.npy"] = some (.file (.npy [[0, 0, 0]])) := by
  have hA : IsName "A" := by unfold IsName; decide
  have hm : IsName "m" := by unfold IsName; decide
  have hpath : getMeasTimePath demoOverProject.dirPath "A" "m" = ["proj", "time", "A", "m"] := timePath _ hA hm
  obtain ⟨td, h1, h2⟩ : ∃ td, demoOverMeas.reader.readData (entriesFs demoOverEntries) demoOverMeas.dirPath demoOverMeas.md {} = .ok td ∧
      td.data = [[5, 6, 7]] := ⟨_, rfl, rfl⟩
  have hp : demoOverConfig.Processed demoOverProject (entriesFs demoOverEntries) "A" "m" {} td td := ⟨demoOverMeas, rfl, h1, rfl⟩
  have key := (C59_over_itself demoOverConfig demoOverProject "A" "m" "A" "m" {} files { fs := entriesFs demoOverEntries } s' x
    demoOver_over (by rw [hpath]; rfl) (by rw [hpath]; exact fun hh => by cases hh) td hp h).1
  rw [hpath, h2] at key
  exact key

/-- the hypotheses of `C59_over_itself_only` are met by this project -/
example (outSite outMeas : String) (h1 : IsName outSite) (h2 : IsName outMeas)
    (h : demoOverConfig.OverItself demoOverProject (entriesFs demoOverEntries) "A" "m" outSite outMeas) :
    ("A", "m") = (outSite, outMeas) :=
  (C59_over_itself_only demoOverConfig demoOverProject (entriesFs demoOverEntries) _ "A" "m" outSite outMeas _ _ _
    (entries_listing _ (by decide)) (DefaultReaders.maps ⟨_, rfl, fun _ _ _ _ _ _ => rfl⟩) demoOver_loads h1 h2 h).2

end Resistics
