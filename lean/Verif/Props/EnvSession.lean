import Verif.Props.Environment
import Verif.Lemmas.Outs

/-!
# C67: results of sessions
-/

namespace Resistics

/-! ## The disk stays a tree -/

/-- Every state the computation passes through is a tree of directories and files. -/
def KeepsTree {W α : Type} (x : FsM W α) : Prop :=
  ∀ s : FsState W, s.fs.Tree → ∃ steps, (x s).2 = s.after steps ∧ ∀ t ∈ steps, t.Tree

theorem after_tree {W : Type} {s : FsState W} {steps : List (FS W)} (hs : s.fs.Tree) (h : ∀ t ∈ steps, t.Tree) :
    (s.after steps).fs.Tree := by
  unfold FsState.after
  cases hl : steps.getLast? with
  | none => exact hs
  | some t => exact h t (List.mem_of_getLast? hl)

theorem KeepsTree.bind {W α β : Type} {x : FsM W α} {f : α → FsM W β} (hx : KeepsTree x) (hf : ∀ a, KeepsTree (f a)) :
    KeepsTree (x >>= f) := by
  intro s hs
  obtain ⟨a, h1, h2⟩ := hx s hs
  rw [fs_bind]
  rcases hr : x s with ⟨r, s'⟩
  rw [hr] at h1
  simp only at h1
  subst h1
  cases r with
  | error e => exact ⟨a, rfl, h2⟩
  | ok v =>
    obtain ⟨b, h3, h4⟩ := hf v _ (after_tree hs h2)
    refine ⟨a ++ b, by simp only; rw [h3, after_after], ?_⟩
    intro t ht
    rcases List.mem_append.1 ht with ht | ht
    · exact h2 t ht
    · exact h4 t ht

theorem KeepsTree.pure {W α : Type} (a : α) : KeepsTree (Pure.pure a : FsM W α) :=
  fun s _ => ⟨[], by rw [after_nil]; rfl, by simp⟩

theorem KeepsTree.throw {W α : Type} (e : Err) : KeepsTree (throw e : FsM W α) :=
  fun s _ => ⟨[], by rw [after_nil]; rfl, by simp⟩

theorem KeepsTree.read {W α : Type} (f : FS W → Except Err α) : KeepsTree (fsRead f) :=
  fun s _ => ⟨[], by rw [after_nil]; rfl, by simp⟩

theorem KeepsTree.file {W : Type} (dir : Path) (name : String) (c : Content W) : KeepsTree (writeFile dir name c) := by
  intro s hs
  rcases writeFile_run dir name c s with ⟨h1, h2⟩ | ⟨h1, h2⟩
  · rw [h2]
    refine ⟨_, rfl, ?_⟩
    rw [Bool.and_eq_true] at h1
    have hd : s.fs dir = some .dir := isDir_iff.1 h1.1
    have hn : s.fs (dir ++ [name]) ≠ some .dir := by
      intro h
      have := isDir_iff.2 h
      rw [this] at h1
      simp at h1
    intro t ht
    simp only [List.mem_cons, List.not_mem_nil, or_false] at ht
    rcases ht with rfl | rfl
    · exact tree_set hs hd hn _
    · exact tree_set hs hd hn _
  · rw [h2]
    exact ⟨[], by rw [after_nil], by simp⟩

theorem KeepsTree.parents {W : Type} (dir : Path) : KeepsTree (mkdirParents dir : FsM W Unit) := by
  intro s hs
  by_cases hf : ∀ q, q <+: dir → s.fs.isFile q = false
  · have hmk : ∀ q, q <+: dir → ∀ c, s.fs q ≠ some (.file c) := by
      intro q hq c he
      have := hf q hq
      unfold FS.isFile at this
      rw [he] at this
      cases this
    obtain ⟨steps, h3, h4, h5⟩ := mkdirParents_states dir s hmk
    rw [h3]
    refine ⟨steps, rfl, fun t ht => ?_⟩
    obtain ⟨l', h6, rfl⟩ := h5 t ht
    exact tree_withDirs hs h6 hf
  · push Not at hf
    obtain ⟨q, hq, hq'⟩ := hf
    have hany : (dir.inits.any fun q => s.fs.isFile q) = true :=
      List.any_eq_true.2 ⟨q, (List.mem_inits _ _).2 hq, by simpa using hq'⟩
    refine ⟨[], ?_, by simp⟩
    unfold mkdirParents
    rw [fs_read_bind, after_nil]
    simp only [hany, if_true]
    rfl

theorem KeepsTree.check {W : Type} (ov : Bool) (dir : Path) : KeepsTree (checkDir ov dir : FsM W Unit) := by
  unfold checkDir
  refine (KeepsTree.read _).bind fun b => ?_
  split
  · split
    · exact KeepsTree.pure _
    · exact KeepsTree.throw _
  · exact KeepsTree.parents dir

theorem call_tree (e : Env) (c : EnvCall) : KeepsTree (c.run e) := by
  cases c with
  | time site meas outSite outMeas req files =>
    have hw : ∀ (dir : Path) (f : List (String × List String)) (td : TimeData ℚ), KeepsTree (writeTimeNumpy true dir f td : FsM ℂ Unit) :=
      fun _ _ _ => (KeepsTree.check _ _).bind fun _ => (KeepsTree.file _ _ _).bind fun _ =>
        (KeepsTree.read _).bind fun _ => KeepsTree.file _ _ _
    refine (KeepsTree.read _).bind fun td => (KeepsTree.read _).bind fun over => ?_
    split
    · unfold Config.writeOverItself
      split
      · exact hw _ _ _
      · exact (KeepsTree.check _ _).bind fun _ => (KeepsTree.file _ _ _).bind fun _ => KeepsTree.throw _
    · exact hw _ _ _
  | evals site meas files =>
    exact (KeepsTree.read _).bind fun td => (KeepsTree.check _ _).bind fun _ => (KeepsTree.file _ _ _).bind fun _ =>
      KeepsTree.file _ _ _
  | tf fs outSite inSite crossSite postfix? =>
    refine KeepsTree.bind ?_ fun _ => KeepsTree.pure _
    refine (KeepsTree.read _).bind fun s => KeepsTree.bind ?_ fun _ => (KeepsTree.file _ _ _).bind fun _ => KeepsTree.pure _
    unfold ensureDir
    refine (KeepsTree.read _).bind fun b => ?_
    split
    · exact KeepsTree.pure _
    · exact KeepsTree.parents _

/-- **C67 (a tree)**: in every state of a session the disk is a tree: every file and directory lies in a directory. -/
theorem C67_tree (x y : Env × FS ℂ) (evs : List EnvEvent) (h : EnvSession x evs y) (ht : x.2.Tree) : y.2.Tree := by
  induction h with
  | nil => exact ht
  | cons h1 h2 ih =>
    apply ih
    cases h1 with
    | call e fs c =>
      obtain ⟨steps, h3, h4⟩ := call_tree e c { fs := fs } ht
      show (c.run e { fs := fs }).2.fs.Tree
      rw [h3]
      exact after_tree ht h4
    | cut e fs c t hm =>
      obtain ⟨steps, h3, h4⟩ := call_tree e c { fs := fs } ht
      rw [h3] at hm
      exact h4 t (by simpa [FsState.after] using hm)
    | load => exact ht

/-! ## Results depend on the recordings only -/

/-- The project in use is the one at the beginning or the one loaded last. -/
theorem last_load {x : Env × FS ℂ} {evs : List EnvEvent} {e1 : Env} {fs1 : FS ℂ} (h : EnvSession x evs (e1, fs1)) :
    (e1 = x.1 ∧ ∀ config, .load config ∉ evs) ∨ ∃ a config b ea fsa ls now dflt, evs = a ++ .load config :: b ∧ EnvSession x a (ea, fsa) ∧
      IsListing ls fsa ∧ loadEnv ls now dflt fsa ea.proj.dirPath (some config) = .ok e1 := by
  induction evs generalizing x with
  | nil => cases h; exact .inl ⟨rfl, by simp⟩
  | cons ev evs ih =>
    cases h with
    | cons h1 h2 =>
      rcases ih h2 with ⟨h3, hnl⟩ | ⟨a, config, b, ea, fsa, ls, now, dflt, h3, h4, h5, h6⟩
      · cases h1 with
        | call => exact .inl ⟨h3, by simpa using hnl⟩
        | cut => exact .inl ⟨h3, by simpa using hnl⟩
        | load e fs ls now dflt config e' hls hl =>
          right
          simp only at h3
          subst h3
          exact ⟨[], config, evs, e, fs, ls, now, dflt, rfl, .nil _, hls, hl⟩
      · right
        exact ⟨ev :: a, config, b, ea, fsa, ls, now, dflt, by rw [h3]; rfl, .cons h1 h4, h5, h6⟩

/-- **C67 (the project in use)**: an environment loaded before a session, in which the project is only loaded with the same readers, knows
at any time of the session the same metadata and exactly the same measurements as at the beginning, but for those that calls of the
session write. -/
theorem C67_same_project (e e1 : Env) (fs t : FS ℂ) (evs : List EnvEvent) (h : EnvSession (e, fs) evs (e1, t)) (he : e.Fine)
    (hev : ∀ ev ∈ evs, ev.Fine) (ht : fs.Tree) (ls : Path → List String) (now : Path → DateTime × DateTime) (dflt : Config)
    (hls : IsListing ls fs) (h0 : loadEnv ls now dflt fs e.proj.dirPath (some e.config) = .ok e)
    (hr : ∀ config, .load config ∈ evs → config.readers = e.config.readers) :
    e1.proj.md = e.proj.md ∧ ∀ site meas, IsName site → IsName meas → (∀ ev ∈ evs, ∀ n, ¬ ev.Writes (.time site meas) n) →
        ∀ m, e1.proj.getMeas site meas = .ok m ↔ e.proj.getMeas site meas = .ok m := by
  rcases last_load h with ⟨rfl, -⟩ | ⟨a, config, b, ea, fsa, ls', now', dflt', hsp, hs, hl', hld⟩
  · exact ⟨rfl, fun _ _ _ _ _ _ => Iff.rfl⟩
  · have hmem : ∀ ev ∈ a, ev ∈ evs := fun ev hx => by rw [hsp]; simp [hx]
    have hcfg : config.readers = e.config.readers := hr config (by rw [hsp]; simp)
    have hfa := session_frame hs he fun x hx => hev x (hmem x hx)
    have hfine : config.Fine := hev (.load config) (by rw [hsp]; simp)
    have h0' : loadEnv ls now dflt' fs e.proj.dirPath (some config) = .ok ⟨e.proj, config⟩ := by
      rw [loadEnv_ok] at h0 ⊢
      refine ⟨?_, rfl⟩
      have := h0.1
      simp only [Option.getD_some] at this ⊢
      rw [hcfg]
      exact this
    obtain ⟨e2, g1, -, g3, g4⟩ := C67_loads e ea fs fsa a hs he (fun x hx => hev x (hmem x hx)) ht ls ls' now now' hls hl' dflt'
      (some config) hfine.2.1 _ h0'
    rw [hfa.2.1] at hld
    rw [hld] at g1
    cases g1
    exact ⟨g3, fun site meas n1 n2 hno m => g4 site meas n1 n2 (fun ev hx => hno ev (hmem ev hx)) m⟩

/-- **C67 (evaluation data depend on the recordings only)**: with an environment as above, when `process_time_to_evals` ends normally for
a measurement that no call writes, and no later call processes it with a configuration of that name, then whatever happened before,
between and after, the data read at the end are those computed from the project and disk at the beginning. -/
theorem C67_determined (e e' : Env) (fs t : FS ℂ) (evs evs' : List EnvEvent) (config : Config) (site meas : String)
    (files : List (String × List String)) (hsite : IsName site) (hmeas : IsName meas)
    (h : EnvSession (e, fs) (evs ++ .call config (.evals site meas files) (.ok ()) :: evs') (e', t)) (he : e.Fine)
    (hev : ∀ ev ∈ evs ++ .call config (.evals site meas files) (.ok ()) :: evs', ev.Fine) (ht : fs.Tree)
    (ls : Path → List String) (now : Path → DateTime × DateTime) (dflt : Config) (hls : IsListing ls fs)
    (h0 : loadEnv ls now dflt fs e.proj.dirPath (some e.config) = .ok e)
    (hr : ∀ config, .load config ∈ evs → config.readers = e.config.readers)
    (hno : ∀ ev ∈ evs', ∀ n, ¬ ev.Writes (.evals site meas config.name) n)
    (hnt : ∀ ev ∈ evs, ∀ n, ¬ ev.Writes (.time site meas) n) :
    ∃ m d, config.evalsOf e.proj fs site meas = .ok (m, d) ∧
      ((d.data.lookup 0).isSome = true → StoredAs t e.proj.dirPath config.name (site, meas) d) := by
  obtain ⟨e1, fs1, m, d, h1, rfl, h2, h3⟩ := C67_evals e e' fs t evs evs' config site meas files h he hev hno
  refine ⟨m, d, ?_, h3⟩
  have hev1 : ∀ ev ∈ evs, ev.Fine := fun x hx => hev x (by simp [hx])
  obtain ⟨f1, f2, f3⟩ := session_frame h1 he hev1
  obtain ⟨g1, g2⟩ := C67_same_project e e1 fs fs1 evs h1 he hev1 ht ls now dflt hls h0 hr
  have hsame : ∀ q, e.proj.dirPath ++ ["time", site, meas] <+: q → fs1 q = fs q := fun q hq =>
    untouched f3 (d := .time site meas) ⟨hsite, hmeas⟩ hnt q
      (by rw [DataId.path_eq _ (d := .time site meas) ⟨hsite, hmeas⟩]; exact hq)
  have hcal : ∀ q, getCalibrationPath e.proj.dirPath <+: q → fs1 q = fs q := by
    intro q hq
    refine untouched f3 (d := .calibration) trivial ?_ q hq
    intro ev _ n hw
    rcases writes_kind hw with ⟨s, m, hd⟩ | ⟨s, m, c, hd⟩ | ⟨s, c, hd⟩ <;> cases hd
  unfold Config.evalsOf at h2 ⊢
  obtain ⟨m', a1, h2⟩ := except_bind_ok.1 h2
  obtain ⟨td, a2, h2⟩ := except_bind_ok.1 h2
  obtain ⟨ps, a3, h2⟩ := except_bind_ok.1 h2
  obtain ⟨ev, a4, h2⟩ := except_bind_ok.1 h2
  have hm' := (g2 site meas hsite hmeas hnt m').1 a1
  obtain ⟨w1, w2, w3⟩ := he.2 site meas m' hm'
  refine except_bind_ok.2 ⟨m', hm', except_bind_ok.2 ⟨td, ?_, except_bind_ok.2 ⟨ps, ?_, except_bind_ok.2 ⟨ev, ?_, h2⟩⟩⟩⟩
  · rw [← a2]
    exact ((w3 fs1 fs m'.dirPath fun q hq => hsame q (by rw [w2] at hq; exact hq)).2 m'.md {}).symm
  · rw [← g1]; exact a3
  · rw [← a4, f2]
    exact (f1.1.2.2 fs1 fs _ _ hcal).symm

/-! ## Solutions -/

/-- A file that no event writes is not changed. -/
theorem untouched_file {proj : Path} {evs : List EnvEvent} {fs t : FS ℂ} (h : Touched proj evs fs t) {d : DataId} (hd : d.Named)
    {n : String} (hno : ∀ ev ∈ evs, ¬ ev.Writes d n) : t (d.path proj ++ [n]) = fs (d.path proj ++ [n]) := by
  rcases h (d.path proj ++ [n]) with h1 | ⟨ev, hev, d', n', hw, hn, h1 | h1⟩
  · exact h1
  · exfalso
    have hp := (C45_paths_distinct proj d d' hd hn).2.1 ((List.prefix_append _ _).trans h1.1)
    subst hp
    exact not_prefix_child _ _ h1.1
  · exfalso
    obtain ⟨h2, h3⟩ := List.append_inj' h1 rfl
    have hp := ((C45_paths_distinct proj d d' hd hn).1).1 h2
    subst hp
    simp only [List.cons.injEq, and_true] at h3
    subst h3
    exact hno ev hev hw

/-- **C67 (the last solution stays)**: after a session in which `process_evals_to_tf` ended normally, and no later call, ended or
interrupted, wrote the same file of the same results, `get_solution` returns the solution it computed. -/
theorem C67_solution (e e' : Env) (fs t : FS ℂ) (evs evs' : List EnvEvent) (config : Config) (rate : ℚ) (outSite : String)
    (inSite crossSite postfix? : Option String)
    (h : EnvSession (e, fs) (evs ++ .call config (.tf rate outSite inSite crossSite postfix?) (.ok ()) :: evs') (e', t)) (he : e.Fine)
    (hev : ∀ ev ∈ evs ++ .call config (.tf rate outSite inSite crossSite postfix?) (.ok ()) :: evs', ev.Fine)
    (hno : ∀ ev ∈ evs', ¬ ev.Writes (.results outSite config.name) (getSolutionName rate config.tf.name config.tf.variation postfix?))
    (types : List (String × TfClass)) (cls : TfClass) (a : TfArgs) (ha : a.name = none) (htf : mkTransFunc cls a = .ok config.tf)
    (hreg : cls.className = "TransferFunction" ∧ cls = tfBase ∨
      cls.className ≠ "TransferFunction" ∧ types.lookup cls.className = some cls) :
    ∃ e1 fs1 sol, EnvSession (e, fs) evs (e1, fs1) ∧ e1.config = config ∧
      config.tfOf e1.proj fs1 rate outSite inSite crossSite = .ok sol ∧
      getSolution types t e.proj.dirPath outSite config.name rate config.tf.name config.tf.variation postfix? = .ok sol := by
  obtain ⟨⟨e1, fs1⟩, h1, h2⟩ := session_split h
  obtain ⟨f1, f2, f3⟩ := session_frame h1 he fun x hx => hev x (by simp [hx])
  have hfine : (EnvEvent.call config (.tf rate outSite inSite crossSite postfix?) (.ok ())).Fine := hev _ (by simp)
  cases h2 with
  | cons h3 h4 =>
    rename_i y
    obtain ⟨e2, fs2⟩ := y
    generalize hce : EnvEvent.call config (.tf rate outSite inSite crossSite postfix?) (.ok ()) = ev at h3
    cases h3 with
    | cut => cases hce
    | load => cases hce
    | call _ _ c =>
      simp only [EnvEvent.call.injEq] at hce
      obtain ⟨rfl, rfl, hok⟩ := hce
      obtain ⟨-, b2, b3⟩ := session_frame h4 f1 fun x hx => hev x (by simp [hx])
      have hrun : EnvCall.run e1 (.tf rate outSite inSite crossSite postfix?) { fs := fs1 } =
          ((processEvalsToTf e1.config e1.proj rate outSite inSite crossSite postfix? >>= fun _ => pure () : FsM ℂ Unit)
            { fs := fs1 }) := rfl
      rw [hrun, fs_bind] at hok b3
      rcases hx : processEvalsToTf e1.config e1.proj rate outSite inSite crossSite postfix? { fs := fs1 } with ⟨r, s'⟩
      rw [hx] at hok b3
      cases r with
      | error er => cases hok
      | ok sol =>
        simp only at hok b3
        obtain ⟨c1, c2⟩ := C45_solution_read_back e1.config e1.proj rate outSite inSite crossSite postfix? _ s' sol hx types cls a
          ha htf hreg
        have hsol : e1.config.tfOf e1.proj fs1 rate outSite inSite crossSite = .ok sol := by
          rcases processEvalsToTf_run e1.config e1.proj rate outSite inSite crossSite postfix? { fs := fs1 } with
            ⟨er, hh, -⟩ | ⟨sol', steps, hs', -, hh | ⟨path, -, hh⟩⟩
          · rw [hx] at hh; cases hh
          · rw [hx] at hh; cases hh
          · rw [hx] at hh
            obtain ⟨hh1, -⟩ := Prod.mk.inj hh
            cases hh1
            exact hs'
        refine ⟨e1, fs1, sol, h1, rfl, hsol, ?_⟩
        rw [f2] at c2 b3
        rw [← c2]
        apply getSolution_congr
        have hname : IsName (getSolutionName rate e1.config.tf.name e1.config.tf.variation postfix?) :=
          hfine.2 _ (by simp [EnvCall.files])
        rw [hname.join]
        have := untouched_file b3 (d := .results outSite e1.config.name) hfine.1 hno
        unfold FS.content
        change t (getResultsPath e.proj.dirPath outSite e1.config.name ++ _) = _ at this
        rw [this]
        rfl

/-! ## New measurements need a reload -/

/-- **C67 (limit)**: without loading the project again an environment does not know a new measurement: after any calls, whatever they
write, processing a measurement that it did not know at the beginning raises the same exception and changes nothing. -/
theorem C67_needs_reload (e e' : Env) (fs t : FS ℂ) (evs : List EnvEvent) (h : EnvSession (e, fs) evs (e', t))
    (hnl : ∀ config, .load config ∉ evs) (site meas : String) (er : Err) (hm : e.proj.getMeas site meas = .error er) :
    e' = e ∧ (∀ files, (EnvCall.evals site meas files).run e' { fs := t } = (.error er, { fs := t })) ∧
    ∀ o o' req files, (EnvCall.time site meas o o' req files).run e' { fs := t } = (.error er, { fs := t }) := by
  have he : e' = e := by
    rcases last_load h with ⟨h1, -⟩ | ⟨a, config, b, _, _, _, _, _, hsp, _⟩
    · exact h1
    · exact absurd (by rw [hsp]; simp) (hnl config)
  subst he
  refine ⟨rfl, ?_, ?_⟩
  · intro files
    apply C55_failed
    unfold Config.evalsOf
    rw [hm]; rfl
  · intro o o' req files
    show processTime e'.config e'.proj site meas o o' req files { fs := t } = _
    unfold processTime
    rw [fs_read_bind]
    have : e'.config.timeOf e'.proj t site meas req = .error er := by
      unfold Config.timeOf; rw [hm]; rfl
    rw [this]

/-- **C67 (a new measurement)**: when `process_time` has ended normally in a session, the recording is not written over itself
(`C59_over_itself_only`), nothing writes the new measurement afterwards, and the project is loaded again with the readers of the default configuration, then it has the new measurement with the metadata of the
processed recording, and what is read from it is the processed recording. -/
theorem C67_new_measurement (e e' : Env) (fs t : FS ℂ) (evs evs' : List EnvEvent) (config : Config)
    (site meas outSite outMeas : String) (req : ReadReq) (files : TimeData ℚ → List (String × List String))
    (h : EnvSession (e, fs) (evs ++ .call config (.time site meas outSite outMeas req files) (.ok ()) :: evs') (e', t)) (he : e.Fine)
    (hev : ∀ ev ∈ evs ++ .call config (.time site meas outSite outMeas req files) (.ok ()) :: evs', ev.Fine) (ht : fs.Tree)
    (hno : ∀ ev ∈ evs', ∀ n, ¬ ev.Writes (.time outSite outMeas) n)
    (hfiles : ∀ e1 fs1 td0 td, EnvSession (e, fs) evs (e1, fs1) → config.Processed e1.proj fs1 site meas req td0 td →
      td.md.chans ≠ [] ∧ ∀ q ∈ files td, q.1 ∈ td.md.chans)
    (hover : ∀ e1 fs1, EnvSession (e, fs) evs (e1, fs1) → ¬ config.OverItself e1.proj fs1 site meas outSite outMeas)
    (ls : Path → List String) (now : Path → DateTime × DateTime) (dflt config' : Config) (hr : DefaultReaders config'.readers)
    (hls : IsListing ls t) (e2 : Env) (h2 : loadEnv ls now dflt t e.proj.dirPath (some config') = .ok e2) :
    ∃ e1 fs1 td0 td m, EnvSession (e, fs) evs (e1, fs1) ∧ e1.config = config ∧ config.Processed e1.proj fs1 site meas req td0 td ∧
      e2.proj.getMeas outSite outMeas = .ok m ∧ IsWritten e.proj.dirPath outSite outMeas td m ∧
      ∀ r, m.reader.readData t m.dirPath m.md r = readNumpy td.data td.md.written r := by
  have hta : t.Tree := C67_tree _ _ _ h ht
  obtain ⟨⟨e1, fs1⟩, h1, h2'⟩ := session_split h
  obtain ⟨f1, f2, f3⟩ := session_frame h1 he fun x hx => hev x (by simp [hx])
  have hfine : (EnvEvent.call config (.time site meas outSite outMeas req files) (.ok ())).Fine := hev _ (by simp)
  cases h2' with
  | cons h3 h4 =>
    rename_i y
    obtain ⟨e3, fs2⟩ := y
    generalize hce : EnvEvent.call config (.time site meas outSite outMeas req files) (.ok ()) = ev at h3
    cases h3 with
    | cut => cases hce
    | load => cases hce
    | call _ _ c =>
      simp only [EnvEvent.call.injEq] at hce
      obtain ⟨rfl, rfl, hok⟩ := hce
      obtain ⟨-, b2, b3⟩ := session_frame h4 f1 fun x hx => hev x (by simp [hx])
      have hrun : EnvCall.run e1 (.time site meas outSite outMeas req files) { fs := fs1 } =
          processTime e1.config e1.proj site meas outSite outMeas req files { fs := fs1 } := rfl
      rw [hrun] at hok b3
      have hov := hover e1 fs1 h1
      rcases processTime_plain (r := req) (files := files) (s := { fs := fs1 }) hov with ⟨er, -, hx⟩ | ⟨td0, td, hp, hx⟩
      · rw [hx] at hok; cases hok
      · have hp' := hp
        obtain ⟨hch, hf⟩ := hfiles e1 fs1 td0 td h1 hp
        rw [f2] at b3
        have hsame := fun q => untouched b3 (d := .time outSite outMeas) hfine.1 hno q
        rw [DataId.path_eq _ (d := .time outSite outMeas) hfine.1] at hsame
        change ∀ q, e.proj.dirPath ++ ["time", outSite, outMeas] <+: q → _ at hsame
        rcases hy : processTime e1.config e1.proj site meas outSite outMeas req files { fs := fs1 } with ⟨r, s'⟩
        rw [hy] at hok hsame
        simp only at hok hsame
        subst hok
        have hstored := C59_stored e1.config e1.proj site meas outSite outMeas req files _ s' hov hy
        rw [hx, timePath _ hfine.1.1 hfine.1.2, f2] at hy
        obtain ⟨hd, ha, f, hset, hm⟩ := writeTimeNumpy_inv hy
        rw [← hsame _ List.prefix_rfl] at hd
        rw [← hsame _ (List.prefix_append _ _)] at ha hm
        obtain ⟨l1, l2⟩ := loadEnv_ok.1 h2
        have hget := listed_files hta hd ha hset hm hch hf ls now _ hr hls _ l1
        refine ⟨e1, fs1, td0, td, _, h1, rfl, hp, hget, ⟨rfl, rfl, rfl, rfl⟩, ?_⟩
        intro r
        obtain ⟨td0', td', hp2, hread, -⟩ := hstored
        obtain ⟨m1, x1, x2, x3⟩ := hp
        obtain ⟨m2, y1, y2, y3⟩ := hp2
        rw [x1] at y1; cases y1
        rw [x2] at y2; cases y2
        rw [x3] at y3; cases y3
        rw [timePath _ hfine.1.1 hfine.1.2, f2] at hread
        rw [← hread hch hf r (numpyWritten td)]
        exact (numpyReader_local ℂ t s'.fs _ hsame).2 _ _

/-! ## Progress -/

theorem isFile_false {W : Type} {fs : FS W} {q : Path} : fs.isFile q = false ↔ ∀ c, fs q ≠ some (.file c) := by
  unfold FS.isFile
  cases fs q with
  | none => simp
  | some n => cases n <;> simp

/-- **C67 (a transfer function that can be computed is stored)**: `process_evals_to_tf` ends normally and returns the solution as soon as
it can be computed, no file is in the way of the directory of the results, and no directory has the name of the file. -/
theorem C67_solution_written (c : Config) (p : Project ℂ) (rate : ℚ) (outSite : String) (inSite crossSite postfix? : Option String)
    (s : FsState ℂ) (sol : Solution) (hsol : c.tfOf p s.fs rate outSite inSite crossSite = .ok sol)
    (hd : (DataId.results outSite c.name).Named) (hn : IsName (getSolutionName rate c.tf.name c.tf.variation postfix?))
    (hdir : ∀ q, q <+: (DataId.results outSite c.name).path p.dirPath → ∀ x, s.fs q ≠ some (.file x))
    (hf : s.fs ((DataId.results outSite c.name).path p.dirPath ++ [getSolutionName rate c.tf.name c.tf.variation postfix?]) ≠ some .dir) :
    ∃ s', processEvalsToTf c p rate outSite inSite crossSite postfix? s = (.ok sol, s') := by
  have hpath : (DataId.results outSite c.name).path p.dirPath = getResultsPath p.dirPath outSite c.name := rfl
  rw [hpath] at hdir hf
  have hens : ∃ s1, ensureDir (getResultsPath p.dirPath outSite c.name) s = (.ok (), s1) ∧
      s1.fs (getResultsPath p.dirPath outSite c.name) = some .dir ∧
      s1.fs (getResultsPath p.dirPath outSite c.name ++ [getSolutionName rate c.tf.name c.tf.variation postfix?]) ≠ some .dir := by
    unfold ensureDir
    rw [fs_read_bind]
    cases hx : s.fs (getResultsPath p.dirPath outSite c.name) with
    | some n =>
      refine ⟨s, rfl, ?_, hf⟩
      cases n with
      | dir => exact hx
      | file x => exact absurd hx (hdir _ List.prefix_rfl x)
    | none =>
      obtain ⟨steps, h1, h2, -⟩ := mkdirParents_states (getResultsPath p.dirPath outSite c.name) s hdir
      refine ⟨_, h1, ?_, ?_⟩
      · rw [h2]
        simp [FS.withDirs, hx]
      · rw [h2]
        unfold FS.withDirs
        rw [if_neg]
        · exact hf
        · rintro ⟨h3, -⟩
          exact not_prefix_child _ _ ((List.mem_inits _ _).1 h3)
  obtain ⟨s1, h1, h2, h3⟩ := hens
  have key : processEvalsToTf c p rate outSite inSite crossSite postfix? s =
      (writeSolution (pathJoin (getResultsPath p.dirPath outSite c.name) (getSolutionName rate c.tf.name c.tf.variation postfix?)) sol >>=
        fun _ => pure sol) s1 := by
    unfold processEvalsToTf
    rw [fs_read_bind, hsol]
    simp only
    rw [fs_bind, h1]
    simp only
    rw [Config.tfOf_tf hsol]
  rw [key, hn.join, fs_bind]
  unfold writeSolution
  rw [List.dropLast_concat, show pathName (getResultsPath p.dirPath outSite c.name ++
    [getSolutionName rate c.tf.name c.tf.variation postfix?]) = getSolutionName rate c.tf.name c.tf.variation postfix? by
      simp [pathName]]
  rcases writeFile_run (getResultsPath p.dirPath outSite c.name) (getSolutionName rate c.tf.name c.tf.variation postfix?)
    (.solJson sol) s1 with ⟨-, h4⟩ | ⟨h4, -⟩
  · rw [h4]
    exact ⟨_, rfl⟩
  · exfalso
    rw [isDir_iff.2 h2] at h4
    have : s1.fs.isDir (getResultsPath p.dirPath outSite c.name ++ [getSolutionName rate c.tf.name c.tf.variation postfix?]) = true := by
      simpa using h4
    exact h3 (isDir_iff.1 this)

/-- A disk that differs in finitely many places can be listed. -/
theorem listing_of_changes {W : Type} {ls : Path → List String} {fs t : FS W} (h : IsListing ls fs) (L : List Path)
    (hL : ∀ q, t q ≠ fs q → q ∈ L) : ∃ ls', IsListing ls' t := by
  refine ⟨fun p => ((ls p ++ L.filterMap fun q => if q.dropLast = p then q.getLast? else none).dedup).filter
    fun n => (t (p ++ [n])).isSome, fun p => ⟨(List.nodup_dedup _).filter _, fun n => ?_⟩⟩
  rw [List.mem_filter, List.mem_dedup, List.mem_append, List.mem_filterMap]
  refine ⟨fun h => h.2, fun hn => ⟨?_, hn⟩⟩
  by_cases hq : t (p ++ [n]) = fs (p ++ [n])
  · left
    rw [((h p).2 n), ← hq]
    exact hn
  · right
    exact ⟨p ++ [n], hL _ hq, by simp⟩

/-- **C67 (directories stay finite)**: after any session the disk can still be listed. -/
theorem C67_listable (e e' : Env) (fs t : FS ℂ) (evs : List EnvEvent) (h : EnvSession (e, fs) evs (e', t)) (he : e.Fine)
    (hev : ∀ ev ∈ evs, ev.Fine) (ls : Path → List String) (hls : IsListing ls fs) : ∃ ls', IsListing ls' t := by
  have key : ∀ (config : Config) (c : EnvCall), ∃ L : List Path, ∀ d n, d = c.output config → n ∈ c.files config → ∀ q,
      (q <+: d.path e.proj.dirPath ∨ q = d.path e.proj.dirPath ++ [n]) → q ∈ L := by
    intro config c
    refine ⟨((c.output config).path e.proj.dirPath).inits ++ (c.files config).map fun n => (c.output config).path e.proj.dirPath ++ [n], ?_⟩
    rintro d n rfl hn q (hq | rfl)
    · exact List.mem_append_left _ ((List.mem_inits _ _).2 hq)
    · exact List.mem_append_right _ (List.mem_map.2 ⟨n, hn, rfl⟩)
  have key2 : ∀ ev : EnvEvent, ∃ L : List Path, ∀ d n, ev.Writes d n → ∀ q,
      (q <+: d.path e.proj.dirPath ∨ q = d.path e.proj.dirPath ++ [n]) → q ∈ L := by
    intro ev
    cases ev with
    | call config c r =>
      obtain ⟨L, hL⟩ := key config c
      exact ⟨L, fun d n hw => hL d n hw.1 hw.2⟩
    | cut config c =>
      obtain ⟨L, hL⟩ := key config c
      exact ⟨L, fun d n hw => hL d n hw.1 hw.2⟩
    | load => exact ⟨[], fun d n hw => hw.elim⟩
  have key3 : ∃ L : List Path, ∀ ev ∈ evs, ∀ d n, ev.Writes d n → ∀ q,
      (q <+: d.path e.proj.dirPath ∨ q = d.path e.proj.dirPath ++ [n]) → q ∈ L := by
    choose f hf using key2
    exact ⟨evs.flatMap f, fun ev hm d n hw q hq => List.mem_flatMap.2 ⟨ev, hm, hf ev d n hw q hq⟩⟩
  obtain ⟨L, hL⟩ := key3
  refine listing_of_changes hls L fun q hq => ?_
  obtain ⟨ev, hm, d, n, hw, h1 | h1⟩ := C67_only_outputs e e' fs t evs h he hev q hq
  · exact hL ev hm d n hw q (.inl h1.1)
  · exact hL ev hm d n hw q (.inr h1)

/-- **C67 (a new project)**: `new` returns `True` or raises; it succeeds exactly when the project can be created; a project made in a new
directory can be loaded with every configuration, and has the metadata given and no sites. -/
theorem C67_new (dir : Path) (md : ProjMeta) (s : FsState ℂ) (ht : s.fs.Tree) :
    ((∃ s', newProject dir md s = (.ok true, s')) ↔ CanCreate s.fs dir) ∧
    (∀ r s', newProject dir md s = (.ok r, s') → r = true) ∧
    ∀ s', newProject dir md s = (.ok true, s') → s.fs dir = none →
      ∀ ls now dflt config, IsListing ls s'.fs →
        ∃ e, loadEnv ls now dflt s'.fs dir config = .ok e ∧ e.proj.md = md ∧ e.proj.sites = [] ∧ e.config = config.getD dflt := by
  have hrun : ∀ r s', newProject dir md s = (.ok r, s') ↔ r = true ∧ createProject dir md s = (.ok (), s') := by
    intro r s'
    unfold newProject
    rw [fs_bind]
    rcases createProject dir md s with ⟨x, s1⟩
    cases x with
    | error e =>
      constructor
      · intro h
        cases h
      · rintro ⟨-, h⟩
        cases h
    | ok u =>
      constructor
      · intro h
        cases h
        exact ⟨rfl, rfl⟩
      · rintro ⟨rfl, h⟩
        cases h
        rfl
  refine ⟨?_, fun r s' h => ((hrun r s').1 h).1, ?_⟩
  · rw [← (C44_creates dir md s ht).1]
    constructor
    · rintro ⟨s', h⟩
      exact ⟨s', ((hrun _ _).1 h).2⟩
    · rintro ⟨s', h⟩
      exact ⟨s', (hrun _ _).2 ⟨rfl, h⟩⟩
  · intro s' h hd ls now dflt config hls
    obtain ⟨p, h1, h2, h3⟩ := (C44_created_loads dir md s s' ht ((hrun _ _).1 h).2 ls now (config.getD dflt).readers hls).2 hd
    exact ⟨⟨p, config.getD dflt⟩, loadEnv_ok.2 ⟨h1, rfl⟩, h2, h3, rfl⟩

end Resistics
