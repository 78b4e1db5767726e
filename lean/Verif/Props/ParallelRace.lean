import Verif.Props.ParallelRun
import Verif.Props.MetaFiles

/-!
# Property C82: existing data, races and readers
-/

namespace Resistics
namespace Par

/-! ## Specification -/

/-- The job is refused: the directory is there and must not be overwritten, or there is a project. -/
def Job.Refused (d : Disk) : Job → Prop
  | .write overwrite dir _ => overwrite = false ∧ d dir ≠ none
  | .create dir _ => d dir = some .dir ∧ d (projName :: dir) ≠ none
  | .solve _ _ _ => False

/-- The exception then. -/
def Job.refusal : Job → Err
  | .create _ _ => .projCreate
  | _ => .write

/-- Texts are written one after the other. -/
def InOrder (ws : List (ℕ × List Char)) : Prop := ∀ pre w post, ws = pre ++ w :: post → w.1 = (pre.flatMap (·.2)).length

/-! ## Existing data -/

theorem Valid.mono {R R' G G' : Disk → Disk → Prop} {I I' Q Q' : Disk → Prop} {F F' : Err → Disk → Prop} (hR : ∀ a b, R' a b → R a b) (hG : ∀ a b, G a b → G' a b)
    (hI : ∀ d, I d → I' d) (hQ : ∀ d, Q d → Q' d) (hF : ∀ e d, F e d → F' e d) (p : Prog) : ∀ d, Valid R G I Q F p d → Valid R' G' I' Q' F' p d := by
  induction p with
  | done => exact fun d h => hQ d h
  | fail e => exact fun d h => hF e d h
  | act eff next ih =>
    intro d h d' hd
    obtain ⟨h1, h2, h3⟩ := h d' (hR _ _ hd)
    exact ⟨hG _ _ h1, hI _ h2, ih d' _ h3⟩

theorem Grows.some {d d' : Disk} (h : Grows d d') {p : Place} (hp : d p ≠ none) : d' p ≠ none := by
  cases hx : d p with
  | none => exact absurd hx hp
  | some x =>
    cases x with
    | dir => rw [(h p).1 hx]; simp
    | file t =>
      obtain ⟨t', ht⟩ := (h p).2 t hx
      rw [ht]; simp

theorem refused_valid (j : Job) (d : Disk) (h : j.Refused d) :
    Valid Grows (fun a b => b = a) (fun _ => True) (fun _ => False) (fun e _ => e = j.refusal) j.prog d := by
  cases j with
  | write o dir files =>
    obtain ⟨ho, hd⟩ := h
    subst ho
    intro d' hg
    refine ⟨rfl, trivial, ?_⟩
    have := hg.some hd
    simp only [Option.isSome_iff_ne_none.2 this, Bool.not_false, Bool.and_self, if_true]
    rfl
  | create dir ws =>
    obtain ⟨hd, hp⟩ := h
    intro d1 g1
    have e1 := (g1 dir).1 hd
    refine ⟨rfl, trivial, ?_⟩
    simp only [e1, Option.isNone_some, Bool.false_eq_true, if_false, id]
    intro d2 g2
    have e2 := (g2 dir).1 e1
    refine ⟨rfl, trivial, ?_⟩
    simp only [e2, Option.isNone_some, Bool.false_eq_true, if_false, id]
    intro d3 g3
    have e3 := (g3 dir).1 e2
    refine ⟨rfl, trivial, ?_⟩
    simp only [e3, ne_eq, not_true_eq_false, if_false, id]
    intro d4 g4
    have e4 := g4.some (g3.some (g2.some (g1.some hp)))
    refine ⟨rfl, trivial, ?_⟩
    simp only [Option.isSome_iff_ne_none.2 e4, if_true]
    rfl
  | solve dir name ws => exact h.elim

section
variable {ι : Type} [DecidableEq ι]

open Classical in
/-- **C82 (existing data are safe)**. A process that is to write to a directory that was there, without overwriting, or to create a project where there was one, never returns, whatever
others do meanwhile: it raises the exception for that.  A place changes only through jobs that are not refused: what is below no other job's place stays as it
was, but for missing directories that are made on the way. -/
theorem C82_existing_safe (d0 : Disk) (jobs : ι → Job) (sched : List ι) :
    (∀ i, (jobs i).Refused d0 → ((start d0 jobs).run sched).procs i ≠ .done ∧ ∀ e, ((start d0 jobs).run sched).procs i = .fail e → e = (jobs i).refusal) ∧
    ∀ p, (∀ i, Below (jobs i).home p → (jobs i).Refused d0) → ((start d0 jobs).run sched).disk p = d0 p ∨
      (d0 p = none ∧ ((start d0 jobs).run sched).disk p = some .dir ∧ ∃ i, ¬(jobs i).Refused d0 ∧ p <:+ (jobs i).home) := by
  have key : (Grows d0 ((start d0 jobs).run sched).disk ∧ ∀ p, (∀ i, Below (jobs i).home p → (jobs i).Refused d0) → ((start d0 jobs).run sched).disk p = d0 p ∨
      (d0 p = none ∧ ((start d0 jobs).run sched).disk p = some .dir ∧ ∃ i, ¬(jobs i).Refused d0 ∧ p <:+ (jobs i).home)) ∧
      ∀ i, ((jobs i).Refused d0 → ∃ d, Grows d ((start d0 jobs).run sched).disk ∧
        Valid Grows (fun a b => b = a) (fun _ => True) (fun _ => False) (fun e _ => e = (jobs i).refusal) (((start d0 jobs).run sched).procs i) d) ∧
        ∃ d, Keeps (jobs i).home (((start d0 jobs).run sched).procs i) d := by
    induction sched using List.reverseRecOn with
    | nil => exact ⟨⟨.refl _, fun _ _ => Or.inl rfl⟩, fun i => ⟨fun hr => ⟨d0, .refl _, refused_valid (jobs i) d0 hr⟩, d0, job_keeps (jobs i) d0⟩⟩
    | append_singleton sched j ih =>
      rw [run_snoc]
      generalize (start d0 jobs).run sched = s' at ih
      unfold Sys.tick
      cases hp : s'.procs j with
      | done => exact ih
      | fail e => exact ih
      | act eff next =>
        obtain ⟨⟨hgrow, hplace⟩, hall⟩ := ih
        obtain ⟨hrj, dj, hkj⟩ := hall j
        rw [hp] at hkj
        obtain ⟨g1, -, g3⟩ := hkj s'.disk trivial
        refine ⟨⟨hgrow.trans g1.1, fun p hpl => ?_⟩, fun i => ?_⟩
        · simp only
          by_cases hr : (jobs j).Refused d0
          · obtain ⟨d, hd, hv⟩ := hrj hr
            rw [hp] at hv
            rw [(hv s'.disk hd).1]
            exact hplace p hpl
          · rcases g1.2 p (fun hb => hr (hpl j hb)) with h | ⟨h1, h2, h3⟩
            · rw [h]
              exact hplace p hpl
            · rw [h2]
              rcases hplace p hpl with h | ⟨h4, h5, -⟩
              · exact Or.inr ⟨by rw [← h]; exact h1, rfl, j, hr, h3⟩
              · rw [h5] at h1; cases h1
        · simp only
          by_cases hij : i = j
          · subst hij
            rw [Function.update_self]
            refine ⟨fun hr => ?_, _, g3⟩
            obtain ⟨d, hd, hv⟩ := hrj hr
            rw [hp] at hv
            exact ⟨_, .refl _, (hv s'.disk hd).2.2⟩
          · rw [Function.update_of_ne hij]
            refine ⟨fun hr => ?_, (hall i).2⟩
            obtain ⟨d, hd, hv⟩ := (hall i).1 hr
            exact ⟨d, hd.trans g1.1, hv⟩
  refine ⟨fun i hr => ?_, key.1.2⟩
  obtain ⟨d, -, hv⟩ := (key.2 i).1 hr
  refine ⟨fun h => ?_, fun e h => ?_⟩
  · rw [h] at hv
    exact hv
  · rw [h] at hv
    exact hv

end

/-! ## Turns of one process -/

/-- A process alone gets from one state to another. -/
inductive Reaches : Prog → Disk → Prog → Disk → Prop
  | here (p : Prog) (d : Disk) : Reaches p d p d
  | step (eff : Disk → Disk) (next : Disk → Prog) (d : Disk) (q : Prog) (d' : Disk) : Reaches (next d) (eff d) q d' → Reaches (.act eff next) d q d'

theorem Reaches.trans {p q r : Prog} {d d' d'' : Disk} (h : Reaches p d q d') (h' : Reaches q d' r d'') : Reaches p d r d'' := by
  induction h with
  | here => exact h'
  | step eff next d q d' _ ih => exact .step eff next d r d'' (ih h')

section
variable {ι : Type} [DecidableEq ι]

theorem reaches_run {p q : Prog} {d d' : Disk} (h : Reaches p d q d') : ∀ (procs : ι → Prog) (i : ι), procs i = p →
    ∃ n, (Sys.mk d procs).run (List.replicate n i) = ⟨d', Function.update procs i q⟩ := by
  induction h with
  | here p d =>
    intro procs i hp
    refine ⟨0, ?_⟩
    show Sys.mk d procs = _
    rw [← hp, Function.update_eq_self]
  | step eff next d q d' _ ih =>
    intro procs i hp
    obtain ⟨n, hn⟩ := ih (Function.update procs i (next d)) i (Function.update_self ..)
    refine ⟨n + 1, ?_⟩
    have ht : (Sys.mk d procs).tick i = ⟨eff d, Function.update procs i (next d)⟩ := by
      unfold Sys.tick
      simp only [hp]
    rw [List.replicate_succ]
    show ((Sys.mk d procs).tick i).run (List.replicate n i) = _
    rw [ht, hn, Function.update_idem]

/-- A process goes on in a system. -/
theorem reaches_from {p q : Prog} {d d' : Disk} {s : Sys ι} {sched : List ι} {procs : ι → Prog} (hs : s.run sched = ⟨d, procs⟩) {i : ι} (hp : procs i = p) (h : Reaches p d q d') :
    ∃ sched', s.run sched' = ⟨d', Function.update procs i q⟩ := by
  obtain ⟨n, hn⟩ := reaches_run h procs i hp
  exact ⟨sched ++ List.replicate n i, by rw [run_append, hs, hn]⟩

end

theorem reach_look {p : Place} {k : Option DNode → Prog} {d : Disk} {x : Option DNode} (hx : d p = x) : Reaches (look p k) d (k x) d := by
  subst hx
  exact .step _ _ _ _ _ (.here _ _)

theorem set_same {d : Disk} {p : Place} {x : DNode} (h : d p = some x) : d.set p x = d := by
  funext q
  unfold Disk.set
  split
  · rename_i hq
    rw [hq, h]
  · rfl

theorem reach_writes {p : Place} {k : Prog} (ws : List (ℕ × List Char)) : ∀ (d : Disk) (t : List Char), d p = some (.file t) →
    Reaches (writes p ws k) d k (d.set p (.file (ws.foldl put t))) := by
  induction ws with
  | nil =>
    intro d t h
    rw [show ([] : List (ℕ × List Char)).foldl put t = t from rfl, set_same h]
    exact .here _ _
  | cons w ws ih =>
    intro d t h
    refine .step _ _ _ _ _ ?_
    have hput : putFile d p w = d.set p (.file (put t w)) := by
      unfold putFile
      rw [h]
    rw [hput]
    have := ih (d.set p (.file (put t w))) (put t w) (set_self _ _ _)
    rwa [set_set] at this

theorem reach_open {name : String} {dir : Place} {d : Disk} (hd : d dir = some .dir) (hn : d (name :: dir) ≠ some .dir) (ws : List (ℕ × List Char)) (k : Prog) :
    Reaches (saveFile name dir ws k) d (writes (name :: dir) ws k) (d.set (name :: dir) (.file [])) := by
  have hc : canOpen d name dir = true := by simp [canOpen, hd, hn]
  refine .step _ _ _ _ _ ?_
  rw [if_pos hc, if_pos hc]
  exact .here _ _

theorem reach_save {name : String} {dir : Place} {d : Disk} (hd : d dir = some .dir) (hn : d (name :: dir) ≠ some .dir) (ws : List (ℕ × List Char)) (k : Prog) :
    Reaches (saveFile name dir ws k) d k (d.set (name :: dir) (.file (bytes ws))) := by
  have := reach_writes (k := k) ws (d.set (name :: dir) (.file [])) [] (set_self _ _ _)
  rw [set_set] at this
  exact (reach_open hd hn ws k).trans this

theorem reach_files {dir : Place} (files : List (String × List (ℕ × List Char))) : ∀ (d : Disk), d dir = some .dir → (∀ name, d (name :: dir) ≠ some .dir) →
    Reaches (saveFiles dir files) d .done (saved dir files d) := by
  induction files with
  | nil => exact fun d _ _ => .here _ _
  | cons f fs ih =>
    intro d hd hn
    refine (reach_save hd (hn f.1) f.2 _).trans ?_
    rw [saved_cons]
    refine ih _ (by rw [set_ne _ _ (below_cons_ne _ _).symm]; exact hd) fun name => ?_
    by_cases he : name = f.1
    · rw [he, set_self]; simp
    · rw [set_ne _ _ (by simpa using he)]
      exact hn name

theorem reach_subs {dir : Place} {k : Prog} (ss : List String) : ∀ (d : Disk), d dir = some .dir → Reaches (makeSubs dir k ss) d k (withDirs dir ss d) := by
  induction ss with
  | nil =>
    intro d _
    rw [withDirs_nil]
    exact .here _ _
  | cons s ss ih =>
    intro d hd
    rw [withDirs_cons]
    have hd2 : withDirs dir [s] d dir = some .dir := by
      rw [withDirs_other _ _ _ (fun s' _ => (below_cons_ne s' dir).symm)]
      exact hd
    refine Reaches.trans ?_ (ih _ hd2)
    refine (reach_look rfl).trans ?_
    cases hx : d (s :: dir) with
    | some x =>
      simp only [Option.isNone_some, Bool.false_eq_true, if_false]
      have hw : withDirs dir [s] d = d := by
        funext p
        unfold withDirs
        rw [if_neg]
        rintro ⟨h1, s', h2, h3⟩
        simp only [List.mem_singleton] at h2
        rw [h3, h2, hx] at h1
        cases h1
      rw [hw]
      exact .here _ _
    | none =>
      simp only [Option.isNone_none, if_true]
      have hw : withDirs dir [s] d = d.set (s :: dir) .dir := by
        funext p
        unfold withDirs Disk.set
        by_cases hp : p = s :: dir
        · simp [hp, hx]
        · simp [hp]
      have hc : canMake d s dir = true := by simp [canMake, hx, hd]
      refine .step _ _ _ _ _ ?_
      simp only [hc, if_true, hx, Option.isSome_none, Bool.false_eq_true, if_false, hd, hw]
      exact .here _ _

theorem withDirs_twice (dir : Place) (names : List String) (d : Disk) : withDirs dir names (withDirs dir names d) = withDirs dir names d := by
  funext p
  unfold withDirs
  by_cases h : d p = none ∧ ∃ s ∈ names, p = s :: dir
  · simp [h]
  · simp [h]

theorem reach_make {n : String} {par : Place} {d : Disk} (hp : d par = some .dir) (hn : d (n :: par) = none) (k : Prog) :
    Reaches (mkParents (n :: par) false k) d k (d.set (n :: par) .dir) := by
  have hc : canMake d n par = true := by simp [canMake, hn, hp]
  refine .step _ _ _ _ _ ?_
  simp only [hc, if_true, hn, Option.isSome_none, Bool.false_eq_true, if_false, hp]
  exact .here _ _

/-- The two processes. -/
def two (a b : Prog) : Bool → Prog := fun i => if i then a else b

theorem two_true {s : Sys Bool} {sched : List Bool} {a b q : Prog} {d d' : Disk} (hs : s.run sched = ⟨d, two a b⟩) (h : Reaches a d q d') : ∃ sched', s.run sched' = ⟨d', two q b⟩ := by
  obtain ⟨sched', h'⟩ := reaches_from hs (i := true) rfl h
  refine ⟨sched', h'.trans ?_⟩
  congr 1
  funext i
  cases i <;> rfl

theorem two_false {s : Sys Bool} {sched : List Bool} {a b q : Prog} {d d' : Disk} (hs : s.run sched = ⟨d, two a b⟩) (h : Reaches b d q d') : ∃ sched', s.run sched' = ⟨d', two a q⟩ := by
  obtain ⟨sched', h'⟩ := reaches_from hs (i := false) rfl h
  refine ⟨sched', h'.trans ?_⟩
  congr 1
  funext i
  cases i <;> rfl

theorem two_start (d : Disk) (jobs : Bool → Job) : (start d jobs).run [] = ⟨d, two (jobs true).prog (jobs false).prog⟩ := by
  show start d jobs = _
  unfold start
  congr 1
  funext i
  cases i <;> rfl

/-! ## Races -/

/-- **C82** (finding). `overwrite=False` protects data that were there when the process looked for the first time, and no others: two processes that write to the same new directory without
overwriting may both return normally, and the files of the one replace those of the other. -/
theorem C82_overwrite_race (d0 : Disk) (n : String) (par : Place) (hp : d0 par = some .dir) (hn : d0 (n :: par) = none) (hfree : ∀ name, d0 (name :: n :: par) ≠ some .dir)
    (a b : List (String × List (ℕ × List Char))) :
    ∃ sched : List Bool, ((start d0 fun i => .write false (n :: par) (if i then a else b)).run sched).procs true = .done ∧
      ((start d0 fun i => .write false (n :: par) (if i then a else b)).run sched).procs false = .done ∧
      ((start d0 fun i => .write false (n :: par) (if i then a else b)).run sched).disk = saved (n :: par) a (saved (n :: par) b (d0.set (n :: par) .dir)) := by
  have hfree' : ∀ name, (d0.set (n :: par) .dir) (name :: n :: par) ≠ some .dir := fun name => by
    rw [set_ne _ _ (below_cons_ne _ _)]
    exact hfree name
  have hdir : ∀ fs : List (String × List (ℕ × List Char)), ∀ d : Disk, d (n :: par) = some .dir → (∀ name, d (name :: n :: par) ≠ some .dir) →
      saved (n :: par) fs d (n :: par) = some .dir ∧ ∀ name, saved (n :: par) fs d (name :: n :: par) ≠ some .dir := by
    intro fs
    induction fs with
    | nil => exact fun d h h' => ⟨h, h'⟩
    | cons f fs ih =>
      intro d h h'
      rw [saved_cons]
      refine ih _ (by rw [set_ne _ _ (below_cons_ne _ _).symm]; exact h) fun name => ?_
      by_cases he : name = f.1
      · rw [he, set_self]; simp
      · rw [set_ne _ _ (by simpa using he)]
        exact h' name
  let rest (fs : List (String × List (ℕ × List Char))) : Prog := look (n :: par) fun _ => look (n :: par) fun c => if c.isNone then mkParents (n :: par) false (saveFiles (n :: par) fs) else saveFiles (n :: par) fs
  have first : ∀ fs, Reaches (writer false (n :: par) fs) d0 (rest fs) d0 := by
    intro fs
    exact reach_look (p := n :: par) (k := fun a => if a.isSome && !false then .fail .write else rest fs) hn
  have hb : Reaches (writer false (n :: par) b) d0 .done (saved (n :: par) b (d0.set (n :: par) .dir)) := by
    refine (first b).trans ((reach_look rfl).trans ((reach_look hn).trans ?_))
    simp only [Option.isNone_none, if_true]
    exact (reach_make hp hn _).trans (reach_files b _ (set_self _ _ _) hfree')
  have hb1 := hdir b _ (set_self d0 (n :: par) .dir) hfree'
  have ha : Reaches (rest a) (saved (n :: par) b (d0.set (n :: par) .dir)) .done (saved (n :: par) a (saved (n :: par) b (d0.set (n :: par) .dir))) := by
    refine (reach_look rfl).trans ((reach_look hb1.1).trans ?_)
    simp only [Option.isNone_some, Bool.false_eq_true, if_false]
    exact reach_files a _ hb1.1 hb1.2
  obtain ⟨s1, e1⟩ := two_true (two_start d0 fun i => .write false (n :: par) (if i then a else b)) (first a)
  obtain ⟨s2, e2⟩ := two_false e1 hb
  obtain ⟨s3, e3⟩ := two_true e2 ha
  exact ⟨s3, by rw [e3]; rfl, by rw [e3]; rfl, by rw [e3]⟩

theorem reach_enter {dir : Place} {d : Disk} (hd : d dir = some .dir) (ws : List (ℕ × List Char)) (hn : withDirs dir subNames d (projName :: dir) ≠ some .dir) :
    Reaches (enterProject dir ws) d (writes (projName :: dir) ws .done) ((withDirs dir subNames d).set (projName :: dir) (.file [])) := by
  have hd2 : withDirs dir subNames d dir = some .dir := by
    rw [withDirs_other _ _ _ (fun s' _ => (below_cons_ne s' dir).symm)]
    exact hd
  refine (reach_look hd).trans ?_
  simp only [Option.isSome_some, if_true]
  refine (reach_look hd).trans ?_
  simp only [Option.isNone_some, Bool.false_eq_true, if_false]
  refine (reach_look hd).trans ?_
  simp only [if_true]
  exact (reach_subs subNames d hd).trans (reach_open hd2 hn ws _)

theorem withDirs_set_file (dir : Place) (d : Disk) (t : List Char) : withDirs dir subNames ((withDirs dir subNames d).set (projName :: dir) (.file t)) =
    (withDirs dir subNames d).set (projName :: dir) (.file t) := by
  funext p
  by_cases hp : p = projName :: dir
  · subst hp
    unfold withDirs
    rw [set_self]
    simp
  · have h := congrFun (withDirs_twice dir subNames d) p
    rw [set_ne _ _ hp, ← h]
    unfold withDirs
    rw [set_ne _ _ hp]

/-- **C82** (finding). Two processes that create a project in the same directory may both return normally.  With both files open at once, the project file is the second text with the end of the first one behind
it, if that is longer. -/
theorem C82_project_race (d0 : Disk) (dir : Place) (hd : d0 dir = some .dir) (hn : d0 (projName :: dir) = none) (a b : List Char) :
    ∃ sched : List Bool, ((start d0 fun i => .create dir [(0, if i then a else b)]).run sched).procs true = .done ∧
      ((start d0 fun i => .create dir [(0, if i then a else b)]).run sched).procs false = .done ∧
      ((start d0 fun i => .create dir [(0, if i then a else b)]).run sched).disk (projName :: dir) = some (.file (b ++ a.drop b.length)) := by
  have hproj : ∀ d : Disk, withDirs dir subNames d (projName :: dir) = d (projName :: dir) := by
    intro d
    rw [withDirs_other]
    intro s hs he
    have hn : projName ∉ subNames := by decide
    exact hn (by rw [(List.cons.inj he).1]; exact hs)
  have looks : ∀ ws, Reaches (creator dir ws) d0 (enterProject dir ws) d0 := by
    intro ws
    refine (reach_look hd).trans ?_
    simp only [Option.isNone_some, Bool.false_eq_true, if_false]
    refine (reach_look hd).trans ?_
    simp only [Option.isNone_some, Bool.false_eq_true, if_false]
    refine (reach_look hd).trans ?_
    simp only [ne_eq, not_true_eq_false, if_false]
    refine (reach_look hn).trans ?_
    simp only [Option.isSome_none, Bool.false_eq_true, if_false]
    exact .here _ _
  let d1 := (withDirs dir subNames d0).set (projName :: dir) (.file [])
  have hd1 : d1 dir = some .dir := by
    show (withDirs dir subNames d0).set (projName :: dir) (.file []) dir = _
    rw [set_ne _ _ (below_cons_ne _ _).symm, withDirs_other _ _ _ (fun s' _ => (below_cons_ne s' dir).symm)]
    exact hd
  have openA : Reaches (enterProject dir [(0, a)]) d0 (writes (projName :: dir) [(0, a)] .done) d1 := reach_enter hd _ (by rw [hproj, hn]; simp)
  have openB : Reaches (enterProject dir [(0, b)]) d1 (writes (projName :: dir) [(0, b)] .done) d1 := by
    have := reach_enter hd1 [(0, b)] (by rw [hproj]; show (withDirs dir subNames d0).set (projName :: dir) (.file []) _ ≠ _; rw [set_self]; simp)
    rw [show withDirs dir subNames d1 = d1 from withDirs_set_file dir d0 []] at this
    rwa [show d1.set (projName :: dir) (.file []) = d1 from set_set _ _ _ _] at this
  have writeA := reach_writes (k := .done) [(0, a)] d1 [] (set_self _ _ _)
  have writeB := reach_writes (k := .done) [(0, b)] (d1.set (projName :: dir) (.file ([(0, a)].foldl put []))) _ (set_self _ _ _)
  obtain ⟨s1, e1⟩ := two_true (two_start d0 fun i => .create dir [(0, if i then a else b)]) (looks [(0, a)])
  obtain ⟨s2, e2⟩ := two_false e1 (looks [(0, b)])
  obtain ⟨s3, e3⟩ := two_true e2 openA
  obtain ⟨s4, e4⟩ := two_false e3 openB
  obtain ⟨s5, e5⟩ := two_true e4 writeA
  obtain ⟨s6, e6⟩ := two_false e5 writeB
  refine ⟨s6, by rw [e6]; rfl, by rw [e6]; rfl, ?_⟩
  rw [e6]
  show Disk.set _ _ _ _ = _
  rw [set_self]
  simp [put]

theorem pairs_end (d : List (String × Json)) : ∃ x, morePairsText d = x ++ ['}'] := by
  induction d with
  | nil => exact ⟨[], rfl⟩
  | cons p d ih =>
    obtain ⟨k, v⟩ := p
    obtain ⟨x, hx⟩ := ih
    unfold morePairsText
    rw [hx]
    exact ⟨',' :: ' ' :: (stringText k ++ ':' :: ' ' :: (v.text ++ x)), by simp⟩

theorem dict_end (d : List (String × Json)) : ∃ x, (Json.dict d).text = x ++ ['}'] := by
  cases d with
  | nil => exact ⟨['{'], rfl⟩
  | cons p d =>
    obtain ⟨k, v⟩ := p
    obtain ⟨x, hx⟩ := pairs_end d
    unfold Json.text
    rw [hx]
    exact ⟨'{' :: (stringText k ++ ':' :: ' ' :: (v.text ++ x)), by simp⟩

/-- **C82** (finding). With project metadata of different lengths the project that both processes have created cannot be loaded. -/
theorem C82_project_lost (d0 : Disk) (dir : Place) (hd : d0 dir = some .dir) (hn : d0 (projName :: dir) = none) (env envA envB : Doc.Reading) (a b : Document)
    (ha : a.Fits env) (hb : b.Fits env) (hcA : envA.ClocksRun) (hcB : envB.ClocksRun) (hlen : (b.write envB).length < (a.write envA).length) :
    ∃ sched : List Bool, ((start d0 fun i => .create dir [(0, if i then a.write envA else b.write envB)]).run sched).procs true = .done ∧
      ((start d0 fun i => .create dir [(0, if i then a.write envA else b.write envB)]).run sched).procs false = .done ∧
      ∃ text, ((start d0 fun i => .create dir [(0, if i then a.write envA else b.write envB)]).run sched).disk (projName :: dir) = some (.file text) ∧
        ∀ k, readAs env k text = .error .value := by
  obtain ⟨sched, h1, h2, h3⟩ := C82_project_race d0 dir hd hn (a.write envA) (b.write envB)
  refine ⟨sched, h1, h2, _, h3, fun k => C76_left_over env envB b hb hcB k _ ?_⟩
  intro hblank
  obtain ⟨d, hda⟩ := toJson_dict envA a
  obtain ⟨x, hx⟩ := dict_end d
  rw [write_eq envA a, hda, hx] at hlen
  rw [write_eq envA a, hda, hx] at hblank
  have hle : (b.write envB).length ≤ x.length := by simp at hlen; omega
  rw [List.drop_append_of_le_length hle] at hblank
  exact absurd (hblank '}' (by simp)) (by decide)

/-- **C82** (finding). Two processes that save solutions with different names to a directory that is not there yet: both look, the one makes the directory and saves its solution, the other one raises
because the directory is there now, and its solution is not saved. -/
theorem C82_solution_race (d0 : Disk) (n : String) (par : Place) (hp : d0 par = some .dir) (hn : d0 (n :: par) = none) (a b : String) (wa wb : List (ℕ × List Char))
    (ha : d0 (a :: n :: par) ≠ some .dir) :
    ∃ sched : List Bool, ((start d0 fun i => .solve (n :: par) (if i then a else b) (if i then wa else wb)).run sched).procs true = .done ∧
      ((start d0 fun i => .solve (n :: par) (if i then a else b) (if i then wa else wb)).run sched).procs false = .fail .os ∧
      ((start d0 fun i => .solve (n :: par) (if i then a else b) (if i then wa else wb)).run sched).disk = (d0.set (n :: par) .dir).set (a :: n :: par) (.file (bytes wa)) := by
  have looks : ∀ name ws, Reaches (solver (n :: par) name ws) d0 (mkParents (n :: par) false (saveFile name (n :: par) ws .done)) d0 := fun name ws => reach_look hn
  have hA : Reaches (mkParents (n :: par) false (saveFile a (n :: par) wa .done)) d0 .done ((d0.set (n :: par) .dir).set (a :: n :: par) (.file (bytes wa))) :=
    (reach_make hp hn _).trans (reach_save (set_self _ _ _) (by rw [set_ne _ _ (below_cons_ne _ _)]; exact ha) wa _)
  have hB : Reaches (mkParents (n :: par) false (saveFile b (n :: par) wb .done)) ((d0.set (n :: par) .dir).set (a :: n :: par) (.file (bytes wa))) (.fail .os)
      ((d0.set (n :: par) .dir).set (a :: n :: par) (.file (bytes wa))) := by
    have hthere : ((d0.set (n :: par) .dir).set (a :: n :: par) (.file (bytes wa))) (n :: par) = some .dir := by
      rw [set_ne _ _ (below_cons_ne _ _).symm, set_self]
    generalize (d0.set (n :: par) .dir).set (a :: n :: par) (.file (bytes wa)) = d at hthere
    have hc : canMake d n par = false := by simp [canMake, hthere]
    refine .step _ _ _ _ _ ?_
    simp only [hc, hthere, Option.isSome_some, if_true, Bool.false_eq_true, if_false, whenThere]
    exact .here _ _
  obtain ⟨s1, e1⟩ := two_true (two_start d0 fun i => .solve (n :: par) (if i then a else b) (if i then wa else wb)) (looks a wa)
  obtain ⟨s2, e2⟩ := two_false e1 (looks b wb)
  obtain ⟨s3, e3⟩ := two_true e2 hA
  obtain ⟨s4, e4⟩ := two_false e3 hB
  exact ⟨s4, by rw [e4]; rfl, by rw [e4]; rfl, by rw [e4]⟩

/-! ## Readers -/

theorem inOrder_bytes (ws : List (ℕ × List Char)) (h : InOrder ws) : bytes ws = ws.flatMap (·.2) := by
  induction ws using List.reverseRecOn with
  | nil => rfl
  | append_singleton ws w ih =>
    have hpre : InOrder ws := fun pre x post he => h pre x (post ++ [w]) (by rw [he]; simp)
    have hw := h ws w [] rfl
    have ih := ih hpre
    unfold bytes at ih ⊢
    rw [List.foldl_append, ih, List.flatMap_append]
    generalize ws.flatMap (·.2) = t at hw ⊢
    simp [put, hw]

theorem inOrder_prefix {ws ws' : List (ℕ × List Char)} (h : InOrder ws) (hp : ws' <+: ws) : InOrder ws' := by
  obtain ⟨r, hr⟩ := hp
  exact fun pre x post he => h pre x (post ++ r) (by rw [← hr, he]; simp)

theorem saved_other (dir : Place) (files : List (String × List (ℕ × List Char))) (p : Place) : ∀ (d : Disk), (∀ f ∈ files, p ≠ f.1 :: dir) → saved dir files d p = d p := by
  induction files with
  | nil => exact fun d _ => rfl
  | cons f fs ih =>
    intro d h
    rw [saved_cons, ih _ fun g hg => h g (List.mem_cons_of_mem _ hg), set_ne _ _ (h f List.mem_cons_self)]

theorem saved_append (dir : Place) (a b : List (String × List (ℕ × List Char))) (d : Disk) : saved dir (a ++ b) d = saved dir b (saved dir a d) := by
  unfold saved
  rw [List.foldl_append]

theorem saved_mem (dir : Place) (files : List (String × List (ℕ × List Char))) (hnd : (files.map (·.1)).Nodup) (f : String × List (ℕ × List Char)) (hf : f ∈ files) :
    ∀ d, saved dir files d (f.1 :: dir) = some (.file (bytes f.2)) := by
  induction files with
  | nil => cases hf
  | cons g fs ih =>
    intro d
    rw [List.map_cons, List.nodup_cons] at hnd
    rw [saved_cons]
    rcases List.mem_cons.1 hf with rfl | hf
    · rw [saved_other, set_self]
      intro x hx he
      exact hnd.1 (List.mem_map.2 ⟨x, hx, (List.cons.inj he).1.symm⟩)
    · exact ih hnd.2 hf _

section
variable {ι : Type} [DecidableEq ι]

/-- **C82 (readers)**. Data files and then a metadata file are written to a directory without one, while others work elsewhere.  At any moment the metadata file is missing, or it holds a beginning of its
final text and the data files are complete. -/
theorem C82_reader (d0 : Disk) (jobs : ι → Job) (hsep : ∀ i j, i ≠ j → Separate (jobs i).home (jobs j).home) (hfine : ∀ i, (jobs i).Fine d0) (sched : List ι) (i : ι)
    (overwrite : Bool) (dir : Place) (data : List (String × List (ℕ × List Char))) (m : String) (ws : List (ℕ × List Char))
    (hj : jobs i = .write overwrite dir (data ++ [(m, ws)])) (hnd : ((data ++ [(m, ws)]).map (·.1)).Nodup) (hnew : d0 (m :: dir) = none) (hord : InOrder ws) :
    ((start d0 jobs).run sched).disk (m :: dir) = none ∨
    ∃ text rest, ((start d0 jobs).run sched).disk (m :: dir) = some (.file text) ∧ bytes ws = text ++ rest ∧
      ∀ f ∈ data, ((start d0 jobs).run sched).disk (f.1 :: dir) = some (.file (bytes f.2)) := by
  obtain ⟨-, -, b, hb, hs⟩ := C82_separate d0 jobs hsep hfine sched i
  rw [hj] at hb hs
  have hs' : ∀ name, ((start d0 jobs).run sched).disk (name :: dir) = b (name :: dir) := fun name => hs _ (List.suffix_cons _ _)
  simp only [hs']
  rw [List.map_append, List.nodup_append] at hnd
  obtain ⟨hnd1, -, hnd2⟩ := hnd
  have hm : ∀ f ∈ data, m :: dir ≠ f.1 :: dir := fun f hf he =>
    hnd2 f.1 (List.mem_map.2 ⟨f, hf, rfl⟩) m (by simp) (List.cons.inj he).1.symm
  rcases hb with rfl | rfl | ⟨pre, name, ws', rest, post, he, rfl⟩
  · exact Or.inl hnew
  · exact Or.inl (by rw [set_ne _ _ (below_cons_ne _ _)]; exact hnew)
  · rcases List.eq_nil_or_concat post with hpost | ⟨post', last, hpost⟩
    · subst hpost
      obtain ⟨he1, he2⟩ := List.append_inj' he rfl
      subst he1
      simp only [List.cons.injEq, Prod.mk.injEq, and_true] at he2
      obtain ⟨rfl, hws⟩ := he2
      refine Or.inr ⟨bytes ws', rest.flatMap (·.2), ?_, ?_, ?_⟩
      · rw [saved_append, saved_cons, saved_other _ [] _ _ (by simp), set_self]
      · rw [inOrder_bytes ws hord, inOrder_bytes ws' (inOrder_prefix hord ⟨rest, hws.symm⟩), hws]
        simp
      · intro f hf
        rw [saved_append, saved_cons, saved_other _ [] _ _ (by simp), set_ne _ _ (hm f hf).symm]
        exact saved_mem dir data hnd1 f hf _
    · left
      subst hpost
      have he' : data ++ [(m, ws)] = (pre ++ (name, ws' ++ rest) :: post') ++ [last] := by rw [he]; simp
      obtain ⟨he1, -⟩ := List.append_inj' he' rfl
      rw [saved_other, set_ne _ _ (below_cons_ne _ _)]
      · exact hnew
      · intro f hf
        rcases List.mem_append.1 hf with hf | hf
        · exact hm f (by rw [he1]; exact List.mem_append_left _ hf)
        · rw [List.mem_singleton] at hf
          subst hf
          exact hm (name, ws' ++ rest) (by rw [he1]; simp)

/-- **C82 (readers, metadata)**. When the metadata file is that of time data, decimated data, windowed data or spectra and can be read at some moment, as whatever class, then it is complete, and so are the data files. -/
theorem C82_reader_whole (d0 : Disk) (jobs : ι → Job) (hsep : ∀ i j, i ≠ j → Separate (jobs i).home (jobs j).home) (hfine : ∀ i, (jobs i).Fine d0) (sched : List ι) (i : ι)
    (overwrite : Bool) (dir : Place) (data : List (String × List (ℕ × List Char))) (m : String) (ws : List (ℕ × List Char))
    (hj : jobs i = .write overwrite dir (data ++ [(m, ws)])) (hnd : ((data ++ [(m, ws)]).map (·.1)).Nodup) (hnew : d0 (m :: dir) = none) (hord : InOrder ws)
    (env env' : Doc.Reading) (doc : Document) (hfits : doc.Fits env) (hc : env'.ClocksRun) (hdoc : bytes ws = doc.write env') (text : List Char)
    (hd : ((start d0 jobs).run sched).disk (m :: dir) = some (.file text)) (k : DocKind) (r : Document) (hr : readAs env k text = .ok r) :
    text = doc.write env' ∧ ∀ f ∈ data, ((start d0 jobs).run sched).disk (f.1 :: dir) = some (.file (bytes f.2)) := by
  rcases C82_reader d0 jobs hsep hfine sched i overwrite dir data m ws hj hnd hnew hord with h | ⟨t, rest, h1, h2, h3⟩
  · rw [h] at hd; cases hd
  · rw [h1] at hd
    cases hd
    refine ⟨?_, h3⟩
    by_cases hrest : rest = []
    · rw [← hdoc, h2, hrest, List.append_nil]
    · rw [C76_interrupted env env' doc hfits hc k text rest (by rw [← hdoc, h2]) hrest] at hr
      cases hr

end

/-! ## A concrete case -/

/-- An empty disk. -/
def demoDisk : Disk := fun p => if p = [] then some .dir else none

/-- Two measurements of a site, a project and a solution; the first two make the same missing directories. -/
def demoJobs : Fin 4 → Job
  | 0 => .write false ["run1", "site", "data"] [("time.npy", [(0, "data".toList)]), ("metadata.json", [(0, "{}".toList)])]
  | 1 => .write true ["run2", "site", "data"] [("time.npy", [(0, "DATA".toList), (4, "!".toList)]), ("metadata.json", [(0, "{".toList), (1, "}".toList)])]
  | 2 => .create ["proj", "work"] [(0, "{\"a\": 1}".toList)]
  | 3 => .solve [] "solution.json" [(0, "{}".toList)]

theorem demo_clear (dir : Place) : Clear dir demoDisk := by
  refine ⟨rfl, fun p _ t h => ?_⟩
  unfold demoDisk at h
  split at h <;> cases h

theorem demo_fine (i : Fin 4) : (demoJobs i).Fine demoDisk := by
  match i with
  | 0 => exact ⟨by decide, demo_clear _, Or.inl rfl, by decide⟩
  | 1 => exact ⟨by decide, demo_clear _, Or.inl rfl, by decide⟩
  | 2 => exact ⟨by decide, demo_clear _, rfl⟩
  | 3 => exact ⟨rfl, by decide⟩

theorem demo_separate (i j : Fin 4) (h : i ≠ j) : Separate (demoJobs i).home (demoJobs j).home := by
  unfold Separate Below
  revert h
  fin_cases i <;> fin_cases j <;> decide

example (sched : List (Fin 4)) : ((start demoDisk demoJobs).run sched).procs 1 = .done →
    ((start demoDisk demoJobs).run sched).disk ["time.npy", "run2", "site", "data"] = some (.file "DATA!".toList) := fun h =>
  ((C82_separate demoDisk demoJobs demo_separate demo_fine sched 1).2.1 h _ (List.suffix_cons _ _)).trans (by decide +kernel)

example : ((start demoDisk demoJobs).run (List.replicate 20 1 ++ List.replicate 20 0)).procs 1 = .done := rfl

example : (Job.write false ["run1"] []).Refused (demoDisk.set ["run1"] .dir) := ⟨rfl, by decide⟩

example : InOrder [(0, "{".toList), (1, "}".toList)] := by
  intro pre w post h
  match pre with
  | [] => simp at h; rw [← h.1]; rfl
  | [x] => simp at h; rw [← h.1, ← h.2.1]; rfl
  | x :: y :: [] => simp at h
  | x :: y :: z :: t => simp at h

/-- C82: a project that was created, whatever the other processes did in the meantime, has its description and the eight directories, and nothing that was in
their place before was replaced. -/
theorem C82_project_directories {ι : Type} [DecidableEq ι] (d0 : Disk) (jobs : ι → Job) (hsep : ∀ i j, i ≠ j → Separate (jobs i).home (jobs j).home) (hfine : ∀ i, (jobs i).Fine d0)
    (sched : List ι) (i : ι) (dir : Place) (ws : List (ℕ × List Char)) (hj : jobs i = .create dir ws) (hdone : ((start d0 jobs).run sched).procs i = .done) :
    ((start d0 jobs).run sched).disk ("resistics.json" :: dir) = some (.file (bytes ws)) ∧
    ∀ name ∈ ["time", "calibrate", "spectra", "evals", "features", "masks", "results", "images"],
      ((start d0 jobs).run sched).disk (name :: dir) = (d0 (name :: dir)).getD .dir := by
  obtain ⟨-, h, -⟩ := C82_separate d0 jobs hsep hfine sched i
  have h2 := h hdone
  rw [hj] at h2
  refine ⟨(h2 _ (List.suffix_cons _ _)).trans (set_self _ _ _), fun name hname => (h2 _ (List.suffix_cons _ _)).trans ?_⟩
  have hne : name :: dir ≠ projName :: dir := by
    intro he
    have : name = projName := (List.cons.inj he).1
    subst this
    revert hname
    decide
  show (withDirs dir subNames (d0.set dir .dir)).set (projName :: dir) (.file (bytes ws)) (name :: dir) = _
  rw [set_ne _ _ hne]
  unfold withDirs
  rw [set_ne _ _ (below_cons_ne _ _)]
  cases hd : d0 (name :: dir) with
  | none => rw [if_pos ⟨rfl, name, hname, rfl⟩]; rfl
  | some x => rw [if_neg (by simp)]; rfl

example (sched : List (Fin 4)) (h : ((start demoDisk demoJobs).run sched).procs 2 = .done) : ∃ dir, ((start demoDisk demoJobs).run sched).disk ("images" :: dir) = some .dir := by
  have := C82_project_directories demoDisk demoJobs demo_separate demo_fine sched 2 _ _ rfl h
  exact ⟨_, (this.2 "images" (by decide)).trans (by decide +kernel)⟩

end Par
end Resistics
