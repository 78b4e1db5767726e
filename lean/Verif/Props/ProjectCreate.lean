import Verif.Props.ProjectFiles

/-!
# Creating projects (C44), with every interruption
-/

namespace Resistics

variable {W : Type}

/-! ## Specification -/

/-- Specification: the sub-directories of a project. -/
def projectDirectories : List String :=
  ["time", "calibrate", "spectra", "evals", "features", "masks", "results", "images"]

/-- Specification: a project can be made in `dir`: it is a directory without a project file, or it does not exist and no
file is in the way. -/
def CanCreate (fs : FS W) (dir : Path) : Prop :=
  (fs dir = some .dir ∧ fs (dir ++ ["resistics.json"]) = none) ∨
    (fs dir = none ∧ ∀ q, q <+: dir → ∀ c, fs q ≠ some (.file c))

/-- Specification: the file system with a project in `dir`: the project file, and whatever was missing of the directory,
its parents and its sub-directories. -/
def HasProject (fs : FS W) (dir : Path) (md : ProjMeta) (fs' : FS W) : Prop :=
  fs' (dir ++ ["resistics.json"]) = some (.file (.projJson md)) ∧
  (∀ q, q <+: dir ∨ (∃ n ∈ projectDirectories, q = dir ++ [n]) →
    fs' q = some ((fs q).getD .dir)) ∧
  (∀ q, q ≠ dir ++ ["resistics.json"] → ¬ q <+: dir → (∀ n ∈ projectDirectories, q ≠ dir ++ [n]) → fs' q = fs q)

/-! ## Making directories -/

theorem withDirs_nil (fs : FS W) : fs.withDirs [] = fs := by
  funext q
  simp [FS.withDirs]

theorem withDirs_append (fs : FS W) (a b : List Path) : (fs.withDirs a).withDirs b = fs.withDirs (a ++ b) := by
  funext q
  simp only [FS.withDirs, List.mem_append]
  by_cases ha : q ∈ a ∧ fs q = none
  · simp [ha]
  · simp only [if_neg ha]
    by_cases hb : q ∈ b ∧ fs q = none
    · rw [if_pos hb, if_pos ⟨Or.inr hb.1, hb.2⟩]
    · rw [if_neg hb, if_neg]
      rintro ⟨h1 | h1, h2⟩
      · exact ha ⟨h1, h2⟩
      · exact hb ⟨h1, h2⟩

theorem withDirs_cons_some {fs : FS W} {q : Path} {n : Node W} (h : fs q = some n) (l : List Path) :
    fs.withDirs (q :: l) = fs.withDirs l := by
  funext x
  simp only [FS.withDirs, List.mem_cons]
  by_cases hx : x = q
  · subst hx; simp [h]
  · simp [hx]

theorem withDirs_cons_none {fs : FS W} {q : Path} (h : fs q = none) (l : List Path) :
    (fs.set q .dir).withDirs l = fs.withDirs (q :: l) := by
  funext x
  simp only [FS.withDirs, List.mem_cons, FS.set]
  by_cases hx : x = q
  · subst hx; simp [h]
  · simp [hx]

/-- Making directories passes through the file systems with the first few of them. -/
theorem mkdirEach_states (l : List Path) (s : FsState W) :
    ∃ steps, mkdirEach l s = (.ok (), s.after steps) ∧ (s.after steps).fs = s.fs.withDirs l ∧
      ∀ t ∈ steps, ∃ l', l' <+: l ∧ t = s.fs.withDirs l' := by
  induction l generalizing s with
  | nil =>
    refine ⟨[], by rw [after_nil]; rfl, ?_, by simp⟩
    rw [after_nil, withDirs_nil]
  | cons q l ih =>
    unfold mkdirEach
    rw [fs_read_bind]
    simp only
    cases hq : s.fs q with
    | some n =>
      obtain ⟨steps, h1, h2, h3⟩ := ih s
      refine ⟨steps, by simpa using h1, ?_, ?_⟩
      · rw [h2, withDirs_cons_some hq]
      · intro t ht
        obtain ⟨l', h4, h5⟩ := h3 t ht
        exact ⟨q :: l', (List.prefix_cons_inj q).2 h4, by rw [h5, withDirs_cons_some hq]⟩
    | none =>
      simp only [Option.isSome_none, Bool.false_eq_true, if_false]
      rw [fs_bind, fsStep_run]
      simp only
      obtain ⟨steps, h1, h2, h3⟩ := ih (s.after [s.fs.set q .dir])
      have hfs : (s.after [s.fs.set q .dir]).fs = s.fs.set q .dir := rfl
      rw [hfs] at h2 h3
      refine ⟨s.fs.set q .dir :: steps, ?_, ?_, ?_⟩
      · rw [h1, after_after]; rfl
      · have := after_after s [s.fs.set q .dir] steps
        rw [List.singleton_append] at this
        rw [← this, h2, withDirs_cons_none hq]
      · intro t ht
        rcases List.mem_cons.1 ht with rfl | ht
        · refine ⟨[q], ⟨l, rfl⟩, ?_⟩
          rw [← withDirs_cons_none hq, withDirs_nil]
        · obtain ⟨l', h4, h5⟩ := h3 t ht
          exact ⟨q :: l', (List.prefix_cons_inj q).2 h4, by rw [h5, withDirs_cons_none hq]⟩

/-- Making a directory with its parents. -/
theorem mkdirParents_states (p : Path) (s : FsState W) (hf : ∀ q, q <+: p → ∀ c, s.fs q ≠ some (.file c)) :
    ∃ steps, mkdirParents p s = (.ok (), s.after steps) ∧ (s.after steps).fs = s.fs.withDirs p.inits ∧
      ∀ t ∈ steps, ∃ l', l' <+: p.inits ∧ t = s.fs.withDirs l' := by
  have hm : mkdirParents p s =
      (if (p.inits.any fun q => s.fs.isFile q) then throw .os else mkdirEach p.inits : FsM W Unit) s := by
    unfold mkdirParents
    rw [fs_read_bind]
  have hbad : ¬ (p.inits.any fun q => s.fs.isFile q) = true := by
    intro h
    obtain ⟨q, hq, hfile⟩ := List.any_eq_true.1 h
    unfold FS.isFile at hfile
    split at hfile
    · rename_i c hc
      exact hf q (List.mem_inits _ _ |>.1 hq) c hc
    · cases hfile
  rw [hm, if_neg hbad]
  exact mkdirEach_states _ s

/-- The directories made for a project. -/
def madeDirs (fs : FS W) (dir : Path) : List Path :=
  (if (fs dir).isSome then [] else dir.inits) ++ projectDirectories.map fun n => dir ++ [n]

theorem subdirs_eq (dir : Path) :
    (projDirs.map fun q => dir ++ [q.2]) = projectDirectories.map fun n => dir ++ [n] := rfl

theorem not_prefix_child (dir : Path) (n : String) : ¬ (dir ++ [n]) <+: dir := by
  intro h
  have := h.length_le
  simp at this

theorem projFile_not_made (fs : FS W) (dir : Path) {l : List Path} (hl : l <+: madeDirs fs dir) :
    dir ++ ["resistics.json"] ∉ l := by
  intro h
  have h := hl.subset h
  unfold madeDirs at h
  rcases List.mem_append.1 h with h | h
  · split at h
    · simp at h
    · exact not_prefix_child _ _ ((List.mem_inits _ _).1 h)
  · obtain ⟨n, hn, he⟩ := List.mem_map.1 h
    have := (append_singleton_inj he).2
    rw [this] at hn
    revert hn
    decide

/-- What creation does, step by step. -/
theorem createProject_run (dir : Path) (md : ProjMeta) (s : FsState W) (hc : CanCreate s.fs dir)
    (hno : s.fs dir = none → s.fs (dir ++ ["resistics.json"]) = none) :
    ∃ before, createProject dir md s = (.ok (), s.after (before ++
        [(s.fs.withDirs (madeDirs s.fs dir)).set (dir ++ ["resistics.json"]) (.file .torn),
         (s.fs.withDirs (madeDirs s.fs dir)).set (dir ++ ["resistics.json"]) (.file (.projJson md))])) ∧
      ∀ t ∈ before, ∃ l', l' <+: madeDirs s.fs dir ∧ t = s.fs.withDirs l' := by
  have hmk : ∃ there steps, createCheck s.fs dir = .ok there ∧
      makeProjDir there dir s = (.ok (), s.after steps) ∧
      (s.after steps).fs = s.fs.withDirs (if (s.fs dir).isSome then [] else dir.inits) ∧
      ∀ t ∈ steps, ∃ l', l' <+: (if (s.fs dir).isSome then [] else dir.inits) ∧ t = s.fs.withDirs l' := by
    rcases hc with ⟨h1, h2⟩ | ⟨h1, h2⟩
    · refine ⟨true, [], ?_, ?_, ?_, by simp⟩
      · unfold createCheck projFile FS.isDir
        simp [h1, h2]
      · rw [after_nil]; rfl
      · rw [after_nil, h1]
        simp [withDirs_nil]
    · obtain ⟨steps, h3, h4, h5⟩ := mkdirParents_states dir s h2
      refine ⟨false, steps, ?_, h3, ?_, ?_⟩
      · unfold createCheck
        simp [h1]
      · rw [h4, h1]; rfl
      · rw [h1]; exact h5
  obtain ⟨there, steps1, hcheck, hrun1, hfs1, hst1⟩ := hmk
  obtain ⟨steps2, hrun2, hfs2, hst2⟩ := mkdirEach_states (projectDirectories.map fun n => dir ++ [n]) (s.after steps1)
  have hfs : ((s.after steps1).after steps2).fs = s.fs.withDirs (madeDirs s.fs dir) := by
    rw [hfs2, hfs1, withDirs_append]; rfl
  have hdir : ((s.after steps1).after steps2).fs dir = some .dir := by
    rw [hfs]
    rcases hc with ⟨h1, -⟩ | ⟨h1, -⟩
    · simp [FS.withDirs, h1]
    · unfold FS.withDirs
      rw [if_pos]
      refine ⟨?_, h1⟩
      unfold madeDirs
      rw [h1]
      exact List.mem_append_left _ ((List.mem_inits _ _).2 (List.prefix_refl _))
  have hnone : s.fs (dir ++ ["resistics.json"]) = none := by
    rcases hc with ⟨-, h2⟩ | ⟨h1, -⟩
    · exact h2
    · exact hno h1
  have hnofile : ((s.after steps1).after steps2).fs (dir ++ ["resistics.json"]) = none := by
    rw [hfs]
    unfold FS.withDirs
    rw [if_neg fun h => projFile_not_made s.fs dir (List.prefix_refl _) h.1]
    exact hnone
  have hgood : (((s.after steps1).after steps2).fs.isDir dir &&
      !((s.after steps1).after steps2).fs.isDir (dir ++ ["resistics.json"])) = true := by
    rw [isDir_iff.2 hdir, isDir_false_of_ne (by rw [hnofile]; simp)]
    rfl
  refine ⟨steps1 ++ steps2, ?_, ?_⟩
  · unfold createProject
    rw [fs_read_bind, hcheck]
    simp only
    rw [fs_bind, hrun1]
    simp only
    rw [subdirs_eq, fs_bind, hrun2]
    simp only
    rcases writeFile_run dir projFile (.projJson md) ((s.after steps1).after steps2) with ⟨-, h⟩ | ⟨h, -⟩
    · rw [h, after_after, after_after, hfs]
      unfold projFile
      simp
    · unfold projFile at h
      rw [hgood] at h
      cases h
  · intro t ht
    rcases List.mem_append.1 ht with ht | ht
    · obtain ⟨l', h1, h2⟩ := hst1 t ht
      exact ⟨l', h1.trans (List.prefix_append _ _), h2⟩
    · obtain ⟨l', h1, h2⟩ := hst2 t ht
      refine ⟨_ ++ l', (List.prefix_append_right_inj _).2 h1, ?_⟩
      rw [h2, hfs1, withDirs_append]

/-- The states before the project file is written: a project can be made in them, with the same result. -/
theorem canCreate_again {fs : FS W} {dir : Path} (hc : CanCreate fs dir)
    (hno : fs dir = none → fs (dir ++ ["resistics.json"]) = none) {l : List Path} (hl : l <+: madeDirs fs dir) :
    CanCreate (fs.withDirs l) dir ∧ fs.withDirs l (dir ++ ["resistics.json"]) = none ∧
      (fs.withDirs l).withDirs (madeDirs (fs.withDirs l) dir) = fs.withDirs (madeDirs fs dir) := by
  have hnone : fs (dir ++ ["resistics.json"]) = none := by
    rcases hc with ⟨-, h2⟩ | ⟨h1, -⟩
    · exact h2
    · exact hno h1
  have hfile : fs.withDirs l (dir ++ ["resistics.json"]) = none := by
    unfold FS.withDirs
    rw [if_neg fun h => projFile_not_made fs dir hl h.1]
    exact hnone
  have hsub : ∀ q ∈ l, q ∈ madeDirs fs dir := fun q hq => hl.subset hq
  by_cases hdl : fs.withDirs l dir = none
  · -- the directory is still missing
    have hd : fs dir = none := by
      cases h : fs dir with
      | none => rfl
      | some n => simp [FS.withDirs, h] at hdl
    have hfiles : ∀ q, q <+: dir → ∀ c, fs q ≠ some (.file c) := by
      rcases hc with ⟨h1, -⟩ | ⟨-, h⟩
      · rw [h1] at hd; cases hd
      · exact h
    refine ⟨Or.inr ⟨hdl, ?_⟩, hfile, ?_⟩
    · intro q hq c h
      unfold FS.withDirs at h
      split at h
      · cases h
      · exact hfiles q hq c h
    · rw [withDirs_append]
      have hm : madeDirs (fs.withDirs l) dir = madeDirs fs dir := by
        unfold madeDirs
        rw [hdl, hd]
      rw [hm]
      funext q
      unfold FS.withDirs
      have : q ∈ l ++ madeDirs fs dir ↔ q ∈ madeDirs fs dir := by
        rw [List.mem_append]
        exact ⟨fun h => h.elim (hsub q) id, Or.inr⟩
      simp only [this]
  · have hd' : fs.withDirs l dir = some .dir := by
      unfold FS.withDirs at hdl ⊢
      split
      · rfl
      · rename_i h
        rw [if_neg h] at hdl
        rcases hc with ⟨h1, -⟩ | ⟨h1, -⟩
        · exact h1
        · exact absurd h1 hdl
    refine ⟨Or.inl ⟨hd', hfile⟩, hfile, ?_⟩
    rw [withDirs_append]
    have hm : madeDirs (fs.withDirs l) dir = projectDirectories.map fun n => dir ++ [n] := by
      unfold madeDirs
      rw [hd']
      rfl
    rw [hm]
    have hmem : ∀ q, fs q = none → ((q ∈ l ++ projectDirectories.map fun n => dir ++ [n]) ↔ q ∈ madeDirs fs dir) := by
      intro q hq
      rw [List.mem_append]
      constructor
      · rintro (h | h)
        · exact hsub q h
        · exact List.mem_append_right _ h
      · intro h
        unfold madeDirs at h
        rcases List.mem_append.1 h with h | h
        · left
          cases hfd : fs dir with
          | some n => rw [hfd] at h; simp at h
          | none =>
            rw [hfd] at h
            simp only [Option.isSome_none, Bool.false_eq_true, if_false] at h
            have hdl : dir ∈ l := by
              unfold FS.withDirs at hd'
              by_contra hcon
              rw [if_neg fun h => hcon h.1, hfd] at hd'
              cases hd'
            unfold madeDirs at hl
            rw [hfd] at hl
            simp only [Option.isSome_none, Bool.false_eq_true, if_false] at hl
            rcases List.prefix_or_prefix_of_prefix hl (List.prefix_append dir.inits _) with hp | hp
            · obtain ⟨r, hr⟩ := hp
              have hr0 : r = [] := by
                by_contra hne
                obtain ⟨i, hi, hget⟩ := List.getElem_of_mem hdl
                have hlen : l.length + r.length = dir.length + 1 := by
                  have := congrArg List.length hr
                  simpa using this
                have hrl : 0 < r.length := List.length_pos_iff.2 hne
                have hi' : i < dir.inits.length := by rw [List.length_inits]; omega
                have hgi : dir.inits[i] = dir := by
                  have : (l ++ r)[i]'(by rw [List.length_append]; omega) = dir := by
                    rw [List.getElem_append_left hi]; exact hget
                  simpa only [hr] using this
                rw [List.getElem_inits] at hgi
                have := congrArg List.length hgi
                rw [List.length_take] at this
                omega
              rw [hr0, List.append_nil] at hr
              rw [hr]; exact h
            · exact hp.subset h
        · exact Or.inr h
    funext q
    unfold FS.withDirs
    cases hq : fs q with
    | some n => simp
    | none => simp only [hmem q hq]

/-- What is there after creation. -/
theorem hasProject_made {fs : FS W} (ht : fs.Tree) {dir : Path} (hc : CanCreate fs dir) (md : ProjMeta) :
    HasProject fs dir md ((fs.withDirs (madeDirs fs dir)).set (dir ++ ["resistics.json"]) (.file (.projJson md))) := by
  refine ⟨by simp [FS.set], ?_, ?_⟩
  · intro q hq
    have hne : q ≠ dir ++ ["resistics.json"] := by
      rintro rfl
      rcases hq with hq | ⟨n, hn, hq⟩
      · exact not_prefix_child _ _ hq
      · have := (append_singleton_inj hq).2
        rw [← this] at hn
        revert hn
        decide
    unfold FS.set FS.withDirs
    rw [if_neg hne]
    cases hfq : fs q with
    | some n => simp
    | none =>
      rw [if_pos]
      · rfl
      refine ⟨?_, rfl⟩
      unfold madeDirs
      rcases hq with hq | ⟨n, hn, rfl⟩
      · apply List.mem_append_left
        rcases hc with ⟨h1, -⟩ | ⟨h1, -⟩
        · rw [ht.prefix_dir h1 hq] at hfq; cases hfq
        · rw [h1]
          exact (List.mem_inits _ _).2 hq
      · exact List.mem_append_right _ (List.mem_map.2 ⟨n, hn, rfl⟩)
  · intro q h1 h2 h3
    unfold FS.set FS.withDirs
    rw [if_neg h1, if_neg]
    rintro ⟨h4, -⟩
    unfold madeDirs at h4
    rcases List.mem_append.1 h4 with h4 | h4
    · split at h4
      · simp at h4
      · exact h2 ((List.mem_inits _ _).1 h4)
    · obtain ⟨n, hn, he⟩ := List.mem_map.1 h4
      exact h3 n hn he.symm

/-! ## C44 -/

/-- **C44 (existing projects are not touched)**: where there is a project file, creation raises `ProjectCreateError` and
changes nothing. -/
theorem C44_existing_project_untouched (dir : Path) (md : ProjMeta) (s : FsState W) (hd : s.fs dir = some .dir)
    (hf : s.fs (dir ++ ["resistics.json"]) ≠ none) : createProject dir md s = (.error .projCreate, s) := by
  unfold createProject
  rw [fs_read_bind]
  have : createCheck s.fs dir = .error .projCreate := by
    unfold createCheck projFile FS.isDir
    rw [if_pos]
    rw [hd]
    cases h : s.fs (dir ++ ["resistics.json"]) with
    | none => exact absurd h hf
    | some n => rfl
  rw [this]

/-- **C44 (other refusals)**: a file of that name raises `NotDirectoryError`, a file on the way to it an `OSError`; nothing
is changed. -/
theorem C44_create_refusals (dir : Path) (md : ProjMeta) (s : FsState W) :
    (∀ c, s.fs dir = some (.file c) → createProject dir md s = (.error .notDir, s)) ∧
    (s.fs dir = none → ∀ q c, q <+: dir → s.fs q = some (.file c) → createProject dir md s = (.error .os, s)) := by
  constructor
  · intro c h
    unfold createProject
    rw [fs_read_bind]
    have : createCheck s.fs dir = .error .notDir := by
      unfold createCheck FS.isDir
      simp [h]
    rw [this]
  · intro h q c hq hf
    unfold createProject
    rw [fs_read_bind]
    have : createCheck s.fs dir = .ok false := by
      unfold createCheck
      simp [h]
    rw [this]
    simp only
    rw [fs_bind]
    have hm : makeProjDir false dir s = (.error .os, s) := by
      show mkdirParents dir s = _
      unfold mkdirParents
      rw [fs_read_bind]
      simp only
      rw [if_pos]
      · rfl
      exact List.any_eq_true.2 ⟨q, (List.mem_inits _ _).2 hq, by unfold FS.isFile; rw [hf]⟩
    rw [hm]

/-- **C44 (creation)**: in a file tree creation succeeds exactly when the directory has no project and no file is in the
way, and then makes the project: its file, and whatever was missing of the directory, its parents and its eight
sub-directories; nothing else is changed. -/
theorem C44_creates (dir : Path) (md : ProjMeta) (s : FsState W) (ht : s.fs.Tree) :
    ((∃ s', createProject dir md s = (.ok (), s')) ↔ CanCreate s.fs dir) ∧
    ∀ s', createProject dir md s = (.ok (), s') → HasProject s.fs dir md s'.fs := by
  have hno : ∀ fs : FS W, fs.Tree → fs dir = none → fs (dir ++ ["resistics.json"]) = none := by
    intro fs ht h
    cases hx : fs (dir ++ ["resistics.json"]) with
    | none => rfl
    | some n =>
      have := ht.parent dir _ (by rw [hx]; rfl)
      rw [h] at this; cases this
  have hiff : (∃ s', createProject dir md s = (.ok (), s')) ↔ CanCreate s.fs dir := by
    constructor
    · rintro ⟨s', h⟩
      cases hd : s.fs dir with
      | none =>
        right
        refine ⟨hd, fun q hq c hf => ?_⟩
        rw [(C44_create_refusals dir md s).2 hd q c hq hf] at h
        cases h
      | some n =>
        cases n with
        | file c =>
          rw [(C44_create_refusals dir md s).1 c hd] at h
          cases h
        | dir =>
          left
          refine ⟨hd, ?_⟩
          by_contra hf
          rw [C44_existing_project_untouched dir md s hd hf] at h
          cases h
    · intro hc
      obtain ⟨before, h, -⟩ := createProject_run dir md s hc (hno _ ht)
      exact ⟨_, h⟩
  refine ⟨hiff, ?_⟩
  intro s' h
  have hc := hiff.1 ⟨s', h⟩
  obtain ⟨before, h', -⟩ := createProject_run dir md s hc (hno _ ht)
  rw [h'] at h
  cases h
  have hfs : (s.after (before ++ [(s.fs.withDirs (madeDirs s.fs dir)).set (dir ++ ["resistics.json"]) (.file .torn),
         (s.fs.withDirs (madeDirs s.fs dir)).set (dir ++ ["resistics.json"]) (.file (.projJson md))])).fs =
      (s.fs.withDirs (madeDirs s.fs dir)).set (dir ++ ["resistics.json"]) (.file (.projJson md)) := by
    simp [FsState.after, List.getLast?_append]
  rw [hfs]
  exact hasProject_made ht hc md

/-- **C44 (a new project can be loaded)**: after creation the project can be loaded, unless there was a file in the place of
its directory of time data; made in a directory that did not exist, it is loaded with its metadata and without sites. -/
theorem C44_created_loads (dir : Path) (md : ProjMeta) (s s' : FsState W) (ht : s.fs.Tree)
    (h : createProject dir md s = (.ok (), s')) (ls : Path → List String) (now : Path → DateTime × DateTime)
    (readers : List (TReader W)) (hls : IsListing ls s'.fs) :
    ((∀ c, s.fs (dir ++ ["time"]) ≠ some (.file c)) →
      ∃ p, loadProject ls now readers s'.fs dir = .ok p ∧ p.md = md) ∧
    (s.fs dir = none → ∃ p, loadProject ls now readers s'.fs dir = .ok p ∧ p.md = md ∧ p.sites = []) := by
  obtain ⟨h1, h2, h3⟩ := (C44_creates dir md s ht).2 s' h
  have hcan := (C44_creates dir md s ht).1.1 ⟨s', h⟩
  have hdir : s'.fs dir = some .dir := by
    rw [h2 dir (Or.inl (List.prefix_refl _))]
    rcases hcan with ⟨h, -⟩ | ⟨h, -⟩ <;> rw [h] <;> rfl
  have hload : (∀ c, s.fs (dir ++ ["time"]) ≠ some (.file c)) →
      ∃ p, loadProject ls now readers s'.fs dir = .ok p ∧ p.md = md := by
    intro hc
    have htime : s'.fs (dir ++ ["time"]) = some .dir := by
      rw [h2 _ (Or.inr ⟨"time", by decide, rfl⟩)]
      cases hx : s.fs (dir ++ ["time"]) with
      | none => rfl
      | some n =>
        cases n with
        | dir => rfl
        | file c => exact absurd hx (hc c)
    obtain ⟨p, hp⟩ := (C44_loads_iff ls now readers s'.fs dir).2 ⟨md, hdir, h1, htime⟩
    refine ⟨p, hp, ?_⟩
    have := (C44_lists_exactly ls now readers s'.fs dir hls p hp).2.1
    rw [h1] at this
    cases this
    rfl
  refine ⟨hload, ?_⟩
  intro hd
  have hchild : ∀ r : List String, r ≠ [] → s.fs (dir ++ r) = none := by
    intro r hr
    induction r using List.reverseRecOn with
    | nil => exact absurd rfl hr
    | append_singleton r x ih =>
      cases hx : s.fs (dir ++ (r ++ [x])) with
      | none => rfl
      | some n =>
        have hp := ht.parent (dir ++ r) x (by rw [List.append_assoc, hx]; rfl)
        cases r with
        | nil => rw [List.append_nil, hd] at hp; cases hp
        | cons y r => rw [ih (by simp)] at hp; cases hp
  obtain ⟨p, hp, hmd⟩ := hload (by intro c; rw [hchild ["time"] (by simp)]; simp)
  refine ⟨p, hp, hmd, ?_⟩
  obtain ⟨-, -, -, h4, -⟩ := C44_lists_exactly ls now readers s'.fs dir hls p hp
  cases hs : p.sites with
  | nil => rfl
  | cons x l =>
    have := (h4 x.1).1 ⟨x.2, by rw [hs]; simp⟩
    rw [h3 _ (by simp) (by
      intro hcon
      have := hcon.length_le
      simp at this) (by
      intro n hn hcon
      have := congrArg List.length hcon
      simp at this), hchild _ (by simp)] at this
    cases this

/-- **C44 (interruption)**: creation passes through states in which no project can be loaded and from which creation can be
started again, with the same result as without the interruption; then through one state, the project file being written, in
which the project can neither be loaded nor created again; and ends with the project. -/
theorem C44_interrupted (dir : Path) (md : ProjMeta) (s s' : FsState W) (ht : s.fs.Tree)
    (h : createProject dir md s = (.ok (), s')) :
    ∃ before torn, s'.trace = s.trace ++ before ++ [torn, s'.fs] ∧
      (∀ t ∈ before, (∀ ls now readers, ∃ e, loadProject (W := W) ls now readers t dir = .error e) ∧
        ∀ u : FsState W, u.fs = t → ∃ u', createProject dir md u = (.ok (), u') ∧ u'.fs = s'.fs) ∧
      (∀ ls now readers, ∃ e, loadProject (W := W) ls now readers torn dir = .error e) ∧
      (∀ u : FsState W, u.fs = torn → createProject dir md u = (.error .projCreate, u)) := by
  have hc := (C44_creates dir md s ht).1.1 ⟨s', h⟩
  have hno : s.fs dir = none → s.fs (dir ++ ["resistics.json"]) = none := by
    intro hd
    cases hx : s.fs (dir ++ ["resistics.json"]) with
    | none => rfl
    | some n =>
      have := ht.parent dir _ (by rw [hx]; rfl)
      rw [hd] at this; cases this
  obtain ⟨before, h', hst⟩ := createProject_run dir md s hc hno
  rw [h'] at h
  cases h
  have hfin : ∀ (s : FsState W) (b : List (FS W)) (x y : FS W), (s.after (b ++ [x, y])).fs = y := by
    intro s b x y
    simp [FsState.after, List.getLast?_append]
  have herr : ∀ (t : FS W), (∀ m, t (dir ++ ["resistics.json"]) ≠ some (.file (.projJson m))) →
      ∀ ls now readers, ∃ e, loadProject (W := W) ls now readers t dir = .error e := by
    intro t ht ls now readers
    cases hl : loadProject ls now readers t dir with
    | error e => exact ⟨e, rfl⟩
    | ok p =>
      obtain ⟨m, -, hm, -⟩ := (C44_loads_iff ls now readers t dir).1 ⟨p, hl⟩
      exact absurd hm (ht m)
  refine ⟨before, (s.fs.withDirs (madeDirs s.fs dir)).set (dir ++ ["resistics.json"]) (.file .torn), ?_, ?_, ?_, ?_⟩
  · rw [hfin]
    simp [FsState.after]
  · intro t htm
    obtain ⟨l, hl, rfl⟩ := hst t htm
    obtain ⟨h1, h2, h3⟩ := canCreate_again hc hno hl
    refine ⟨herr _ (by intro m; rw [h2]; simp), ?_⟩
    intro u hu
    rw [← hu] at h1 h2 h3
    obtain ⟨b', h4, -⟩ := createProject_run dir md u h1 (fun _ => h2)
    refine ⟨_, h4, ?_⟩
    rw [hfin, hfin, h3]
  · apply herr
    intro m
    simp [FS.set]
  · intro u hu
    apply C44_existing_project_untouched
    · rw [hu]
      unfold FS.set
      rw [if_neg (by
        intro hcon
        have := congrArg List.length hcon
        simp at this)]
      unfold FS.withDirs
      rcases hc with ⟨h1, -⟩ | ⟨h1, -⟩
      · rw [if_neg (by rw [h1]; simp), h1]
      · rw [if_pos]
        refine ⟨?_, h1⟩
        unfold madeDirs
        rw [h1]
        exact List.mem_append_left _ ((List.mem_inits _ _).2 (List.prefix_refl _))
    · rw [hu]
      simp [FS.set]

end Resistics
