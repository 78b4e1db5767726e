import Verif.Props.Project

/-!
# Creating and loading projects (C44)
-/

namespace Resistics

variable {W : Type}

/-! ## Specification -/

/-- Specification: `ls` lists the entries of every directory, each once, in some order. -/
def IsListing (ls : Path → List String) (fs : FS W) : Prop :=
  ∀ p, (ls p).Nodup ∧ ∀ n, n ∈ ls p ↔ (fs (p ++ [n])).isSome = true

/-- Specification: the directory holds a project that can be loaded: its file with the metadata and the directory of time
data. -/
def HoldsProject (fs : FS W) (dir : Path) (md : ProjMeta) : Prop :=
  fs dir = some .dir ∧ fs (dir ++ ["resistics.json"]) = some (.file (.projJson md)) ∧ fs (dir ++ ["time"]) = some .dir

/-- Specification: the reader is the first in the list that reads the metadata in a directory, and what it reads. -/
def FirstReading (readers : List (TReader W)) (fs : FS W) (dir : Path) (r : TReader W) (md : TimeMeta) : Prop :=
  ∃ before after, readers = before ++ r :: after ∧ r.readMeta fs dir = .ok md ∧
    ∀ r' ∈ before, ∃ e, r'.readMeta fs dir = .error e

/-- Specification: the measurements of a site are the sub-directories that some reader can read, with the metadata of the
first such reader. -/
def ListsMeasurements (readers : List (TReader W)) (fs : FS W) (s : Site W) : Prop :=
  (s.measurements.map Prod.fst).Nodup ∧ ∀ m (x : Meas W), (m, x) ∈ s.measurements ↔
    fs (s.dirPath ++ [m]) = some .dir ∧ x.siteName = s.name ∧ x.dirPath = s.dirPath ++ [m] ∧
      FirstReading readers fs (s.dirPath ++ [m]) x.reader x.md

/-- Specification: begin and end are the earliest and latest times, or the clock's when there are none. -/
def SpansTimes (begin_ end_ : DateTime) (clock : DateTime × DateTime) (firsts lasts : List DateTime) : Prop :=
  if firsts = [] ∧ lasts = [] then begin_ = clock.1 ∧ end_ = clock.2
  else IsLeast {t | t ∈ firsts} begin_ ∧ IsGreatest {t | t ∈ lasts} end_

/-! ## Loading -/

theorem minOr_least (d x : ℚ) (l : List ℚ) : IsLeast {t | t ∈ x :: l} (minOr d (x :: l)) := by
  show IsLeast {t | t ∈ x :: l} (l.foldl min x)
  induction l generalizing x with
  | nil => simp [IsLeast, lowerBounds]
  | cons y l ih =>
    rw [List.foldl_cons]
    have h := ih (min x y)
    constructor
    · have h1 := h.1
      rw [Set.mem_setOf_eq, List.mem_cons] at h1
      rw [Set.mem_setOf_eq]
      rcases h1 with h1 | h1
      · rw [h1]
        rcases min_choice x y with hm | hm <;> rw [hm] <;> simp
      · simp [h1]
    · intro t ht
      rw [Set.mem_setOf_eq] at ht
      have hmin : l.foldl min (min x y) ≤ min x y := h.2 (by simp)
      rcases List.mem_cons.1 ht with rfl | ht
      · exact hmin.trans (min_le_left _ _)
      · rcases List.mem_cons.1 ht with rfl | ht
        · exact hmin.trans (min_le_right _ _)
        · exact h.2 (by simp [ht])

theorem maxOr_greatest (d x : ℚ) (l : List ℚ) : IsGreatest {t | t ∈ x :: l} (maxOr d (x :: l)) := by
  show IsGreatest {t | t ∈ x :: l} (l.foldl max x)
  induction l generalizing x with
  | nil => simp [IsGreatest, upperBounds]
  | cons y l ih =>
    rw [List.foldl_cons]
    have h := ih (max x y)
    constructor
    · have h1 := h.1
      rw [Set.mem_setOf_eq, List.mem_cons] at h1
      rw [Set.mem_setOf_eq]
      rcases h1 with h1 | h1
      · rw [h1]
        rcases max_choice x y with hm | hm <;> rw [hm] <;> simp
      · simp [h1]
    · intro t ht
      rw [Set.mem_setOf_eq] at ht
      have hmax : max x y ≤ l.foldl max (max x y) := h.2 (by simp)
      rcases List.mem_cons.1 ht with rfl | ht
      · exact (le_max_left _ _).trans hmax
      · rcases List.mem_cons.1 ht with rfl | ht
        · exact (le_max_right _ _).trans hmax
        · exact h.2 (by simp [ht])

theorem spans_of {α : Type} (clock : DateTime × DateTime) (l : List α) (f g : α → DateTime) :
    SpansTimes (minOr clock.1 (l.map f)) (maxOr clock.2 (l.map g)) clock (l.map f) (l.map g) := by
  unfold SpansTimes
  cases l with
  | nil => simp [minOr, maxOr]
  | cons x l =>
    rw [if_neg (by simp)]
    exact ⟨minOr_least _ _ _, maxOr_greatest _ _ _⟩

theorem pathName_append (p : Path) (n : String) : pathName (p ++ [n]) = n := by simp [pathName]

theorem loadMeasurement_some {readers : List (TReader W)} {fs : FS W} {site : String} {dir : Path} {x : Meas W} :
    loadMeasurement readers fs site dir = some x ↔ x.siteName = site ∧ x.dirPath = dir ∧
      FirstReading readers fs dir x.reader x.md := by
  unfold loadMeasurement FirstReading
  induction readers with
  | nil => simp
  | cons r readers ih =>
    rw [List.findSome?_cons]
    have htry : tryReader fs site dir r = match r.readMeta fs dir with
      | .ok md => some ⟨site, dir, md, r⟩
      | .error _ => none := rfl
    cases hr : r.readMeta fs dir with
    | ok md =>
      rw [hr] at htry
      simp only at htry
      rw [htry]
      simp only [Option.some.injEq]
      constructor
      · rintro rfl
        exact ⟨rfl, rfl, [], readers, rfl, hr, by simp⟩
      · rintro ⟨h1, h2, before, after, h3, h4, h5⟩
        cases before with
        | nil =>
          simp only [List.nil_append, List.cons.injEq] at h3
          rw [← h3.1, hr] at h4
          cases h4
          rcases x with ⟨a, b, c, d⟩
          simp only at h1 h2 h3
          rw [h1, h2, h3.1]
        | cons b before =>
          simp only [List.cons_append, List.cons.injEq] at h3
          obtain ⟨e, he⟩ := h5 b (by simp)
          rw [← h3.1, hr] at he
          cases he
    | error e =>
      rw [hr] at htry
      simp only at htry
      rw [htry]
      simp only
      rw [ih]
      constructor
      · rintro ⟨h1, h2, before, after, h3, h4, h5⟩
        refine ⟨h1, h2, r :: before, after, by rw [h3]; rfl, h4, ?_⟩
        intro r' hr'
        rcases List.mem_cons.1 hr' with rfl | hr'
        · exact ⟨e, hr⟩
        · exact h5 r' hr'
      · rintro ⟨h1, h2, before, after, h3, h4, h5⟩
        cases before with
        | nil =>
          simp only [List.nil_append, List.cons.injEq] at h3
          rw [← h3.1, hr] at h4
          cases h4
        | cons b before =>
          simp only [List.cons_append, List.cons.injEq] at h3
          exact ⟨h1, h2, before, after, h3.2, h4, fun r' hr' => h5 r' (by simp [hr'])⟩

theorem mem_subdirs {ls : Path → List String} {fs : FS W} (hls : IsListing ls fs) (p q : Path) :
    q ∈ ((ls p).map fun n => p ++ [n]).filter (fun q => fs.isDir q) ↔ ∃ n, q = p ++ [n] ∧ fs q = some .dir := by
  rw [List.mem_filter, List.mem_map, isDir_iff]
  constructor
  · rintro ⟨⟨n, hn, rfl⟩, h⟩
    exact ⟨n, rfl, h⟩
  · rintro ⟨n, rfl, h⟩
    exact ⟨⟨n, ((hls p).2 n).2 (by rw [h]; rfl), rfl⟩, h⟩

/-- What a directory of time data is loaded as. -/
theorem loadSite_of_dir {ls : Path → List String} {now : Path → DateTime × DateTime} {readers : List (TReader W)}
    {fs : FS W} {dir : Path} (hd : fs dir = some .dir) :
    ∃ s, loadSite ls now readers fs dir = .ok s ∧ s.dirPath = dir ∧
      SpansTimes s.beginTime s.endTime (now dir) (s.measurements.map fun m => m.2.md.firstTime)
        (s.measurements.map fun m => m.2.md.lastTime) ∧
      (IsListing ls fs → ListsMeasurements readers fs s) := by
  unfold loadSite dirSubdirs
  rw [if_neg (by rw [hd]; simp), if_pos (isDir_iff.2 hd)]
  simp only [bind, Except.bind, pure, Except.pure]
  refine ⟨_, rfl, rfl, spans_of (now dir) _ _ _, ?_⟩
  intro hls
  have hmem : ∀ m (x : Meas W), (m, x) ∈ (((ls dir).map fun n => dir ++ [n]).filter fun q => fs.isDir q).filterMap
      (loadEntry readers fs (pathName dir)) ↔ fs (dir ++ [m]) = some .dir ∧ x.siteName = pathName dir ∧
        x.dirPath = dir ++ [m] ∧ FirstReading readers fs (dir ++ [m]) x.reader x.md := by
    intro m x
    rw [List.mem_filterMap]
    constructor
    · rintro ⟨q, hq, he⟩
      obtain ⟨n, rfl, hn⟩ := (mem_subdirs hls dir q).1 hq
      unfold loadEntry at he
      rw [Option.map_eq_some_iff] at he
      obtain ⟨y, hy, hxy⟩ := he
      rw [pathName_append] at hxy
      cases hxy
      exact ⟨hn, loadMeasurement_some.1 hy⟩
    · rintro ⟨h1, h2⟩
      refine ⟨dir ++ [m], (mem_subdirs hls dir _).2 ⟨m, rfl, h1⟩, ?_⟩
      unfold loadEntry
      rw [Option.map_eq_some_iff]
      exact ⟨x, loadMeasurement_some.2 h2, by rw [pathName_append]⟩
  refine ⟨?_, hmem⟩
  have hn := (hls dir).1
  have key : ∀ l : List String, l.Nodup → (((((l.map fun n => dir ++ [n]).filter fun q => fs.isDir q).filterMap
      (loadEntry readers fs (pathName dir))).map Prod.fst).Sublist l) := by
    intro l
    induction l with
    | nil => simp
    | cons n l ih =>
      intro hnd
      rw [List.nodup_cons] at hnd
      have ih := ih hnd.2
      rw [List.map_cons, List.filter_cons]
      split
      · rw [List.filterMap_cons]
        cases he : loadEntry readers fs (pathName dir) (dir ++ [n]) with
        | none => exact ih.cons _
        | some y =>
          simp only [List.map_cons]
          unfold loadEntry at he
          rw [Option.map_eq_some_iff] at he
          obtain ⟨z, -, hz⟩ := he
          rw [pathName_append] at hz
          subst hz
          exact ih.cons_cons _
      · exact ih.cons _
  exact (key _ hn).nodup hn

theorem projDirs_head (fs : FS W) (dir : Path) : checkSubdirs fs dir projDirs = assertDir fs (dir ++ ["time"]) := rfl

theorem assertDir_ok {fs : FS W} {p : Path} : assertDir fs p = .ok () ↔ fs p = some .dir := by
  unfold assertDir
  cases h : fs p with
  | none => simp
  | some n =>
    simp only [Option.isNone_some, Bool.false_eq_true, if_false]
    cases n with
    | dir => simp [FS.isDir, h]
    | file c => simp [FS.isDir, h]

theorem mapM_total {α β : Type} {f : α → Except Err β} {l : List α} (h : ∀ a ∈ l, ∃ b, f a = .ok b) :
    ∃ bs, l.mapM f = .ok bs := by
  induction l with
  | nil => exact ⟨[], rfl⟩
  | cons a l ih =>
    obtain ⟨b, hb⟩ := h a (by simp)
    obtain ⟨bs, hbs⟩ := ih fun x hx => h x (by simp [hx])
    exact ⟨b :: bs, by rw [List.mapM_cons, hb]; simp only [bind, Except.bind, hbs]; rfl⟩

/-- Loading, when the directory holds a project. -/
theorem loadProject_of {ls : Path → List String} {now : Path → DateTime × DateTime} {readers : List (TReader W)}
    {fs : FS W} {dir : Path} {md : ProjMeta} (h : HoldsProject fs dir md) :
    ∃ sites, ((((ls (dir ++ ["time"])).map fun n => dir ++ ["time"] ++ [n]).filter fun q => fs.isDir q).mapM
        (loadNamedSite ls now readers fs)) = .ok sites ∧ loadProject ls now readers fs dir = .ok
      { dirPath := dir, md := md, sites := sites,
        beginTime := minOr (now dir).1 (sites.map fun s => s.2.beginTime),
        endTime := maxOr (now dir).2 (sites.map fun s => s.2.endTime) } := by
  obtain ⟨h1, h2, h3⟩ := h
  have hsites : ∃ sites, ((((ls (dir ++ ["time"])).map fun n => dir ++ ["time"] ++ [n]).filter
      fun q => fs.isDir q).mapM (loadNamedSite ls now readers fs)) = .ok sites := by
    apply mapM_total
    intro q hq
    obtain ⟨s, hs, -⟩ := loadSite_of_dir (ls := ls) (now := now) (readers := readers)
      (isDir_iff.1 (List.mem_filter.1 hq).2)
    exact ⟨(pathName q, s), by unfold loadNamedSite; rw [hs]; rfl⟩
  obtain ⟨sites, hs⟩ := hsites
  refine ⟨sites, hs, ?_⟩
  unfold loadProject
  rw [assertDir_ok.2 h1]
  have hc : checkProjFile fs dir = .ok () := by
    unfold checkProjFile projFile
    rw [h2]; rfl
  rw [hc, projDirs_head, assertDir_ok.2 h3]
  have hcont : fs.content (dir ++ [projFile]) = .ok (.projJson md) := by
    unfold FS.content projFile
    rw [h2]
  rw [hcont]
  have hsub : dirSubdirs ls fs (dir ++ ["time"]) = .ok (((ls (dir ++ ["time"])).map fun n => dir ++ ["time"] ++ [n]).filter
      fun q => fs.isDir q) := by
    unfold dirSubdirs
    rw [if_neg (by rw [h3]; simp), if_pos (isDir_iff.2 h3)]
  simp only [bind, Except.bind, parseProj, hsub, hs]
  rfl

/-- **C44 (what can be loaded)**: a project is loaded exactly from a directory which holds the project file with metadata
and the directory of time data. -/
theorem C44_loads_iff (ls : Path → List String) (now : Path → DateTime × DateTime) (readers : List (TReader W))
    (fs : FS W) (dir : Path) :
    (∃ p, loadProject ls now readers fs dir = .ok p) ↔ ∃ md, HoldsProject fs dir md := by
  constructor
  · rintro ⟨p, h⟩
    unfold loadProject at h
    obtain ⟨_, h1, h⟩ := except_bind_ok.1 h
    obtain ⟨_, h2, h⟩ := except_bind_ok.1 h
    obtain ⟨_, h3, h⟩ := except_bind_ok.1 h
    obtain ⟨c, h4, h⟩ := except_bind_ok.1 h
    obtain ⟨md, h5, h⟩ := except_bind_ok.1 h
    refine ⟨md, assertDir_ok.1 h1, ?_, assertDir_ok.1 (projDirs_head fs dir ▸ h3)⟩
    unfold FS.content projFile at h4
    split at h4
    · rename_i c' hc
      cases h4
      rw [hc]
      cases c <;> simp_all [parseProj]
    · cases h4
  · rintro ⟨md, h⟩
    obtain ⟨sites, -, h⟩ := loadProject_of (ls := ls) (now := now) (readers := readers) h
    exact ⟨_, h⟩

/-- **C44 (refusals)**: the exception raised for each thing that is missing. -/
theorem C44_load_refusals (ls : Path → List String) (now : Path → DateTime × DateTime) (readers : List (TReader W))
    (fs : FS W) (dir : Path) :
    (fs dir = none → loadProject ls now readers fs dir = .error .os) ∧
    (∀ c, fs dir = some (.file c) → loadProject ls now readers fs dir = .error .notDir) ∧
    (fs dir = some .dir → fs (dir ++ ["resistics.json"]) = none →
      loadProject ls now readers fs dir = .error .projLoad) ∧
    (fs dir = some .dir → fs (dir ++ ["resistics.json"]) ≠ none → fs (dir ++ ["time"]) = none →
      loadProject ls now readers fs dir = .error .os) ∧
    (fs dir = some .dir → fs (dir ++ ["resistics.json"]) ≠ none → (∀ c, fs (dir ++ ["time"]) = some (.file c) →
      loadProject ls now readers fs dir = .error .notDir)) ∧
    (fs dir = some .dir → fs (dir ++ ["time"]) = some .dir → (∀ c, fs (dir ++ ["resistics.json"]) = some (.file c) →
      (∀ md, c ≠ .projJson md) → loadProject ls now readers fs dir = .error .value)) := by
  have hcheck : fs (dir ++ ["resistics.json"]) ≠ none → checkProjFile fs dir = .ok () := by
    intro h
    unfold checkProjFile projFile
    rw [if_neg (by simpa using h)]
  have hnone : ∀ p, fs p = none → assertDir fs p = .error .os := by
    intro p h
    unfold assertDir
    rw [h]; rfl
  have hfile : ∀ p c, fs p = some (.file c) → assertDir fs p = .error .notDir := by
    intro p c h
    unfold assertDir FS.isDir
    rw [h]; rfl
  refine ⟨?_, ?_, ?_, ?_, ?_, ?_⟩
  · intro h
    unfold loadProject
    rw [hnone _ h]; rfl
  · intro c h
    unfold loadProject
    rw [hfile _ c h]; rfl
  · intro h h'
    unfold loadProject
    rw [assertDir_ok.2 h]
    have : checkProjFile fs dir = .error .projLoad := by
      unfold checkProjFile projFile
      rw [h']; rfl
    rw [this]; rfl
  · intro h h' h''
    unfold loadProject
    rw [assertDir_ok.2 h, hcheck h', projDirs_head, hnone _ h'']; rfl
  · intro h h' c h''
    unfold loadProject
    rw [assertDir_ok.2 h, hcheck h', projDirs_head, hfile _ c h'']; rfl
  · intro h h' c h'' hc
    unfold loadProject
    rw [assertDir_ok.2 h, hcheck (by rw [h'']; simp), projDirs_head, assertDir_ok.2 h']
    have h4 : fs.content (dir ++ [projFile]) = .ok c := by
      unfold FS.content projFile
      rw [h'']
    rw [h4]
    have h5 : parseProj c = .error .value := by
      cases c <;> first | rfl | exact absurd rfl (hc _)
    simp only [bind, Except.bind, h5]

/-- **C44 (exactly the sites and measurements)**: a loaded project has its directory and metadata; its sites are exactly
the sub-directories of the directory of time data; the measurements of a site are exactly its sub-directories that some
reader of the configuration can read, with the metadata of the first such reader; and begin and end span the
measurements. -/
theorem C44_lists_exactly (ls : Path → List String) (now : Path → DateTime × DateTime) (readers : List (TReader W))
    (fs : FS W) (dir : Path) (hls : IsListing ls fs) (p : Project W)
    (h : loadProject ls now readers fs dir = .ok p) :
    p.dirPath = dir ∧ fs (dir ++ ["resistics.json"]) = some (.file (.projJson p.md)) ∧
    (p.sites.map Prod.fst).Nodup ∧
    (∀ name, (∃ s, (name, s) ∈ p.sites) ↔ fs (dir ++ ["time", name]) = some .dir) ∧
    (∀ name s, (name, s) ∈ p.sites → s.dirPath = dir ++ ["time", name] ∧ s.name = name ∧
      ListsMeasurements readers fs s ∧
      SpansTimes s.beginTime s.endTime (now s.dirPath) (s.measurements.map fun m => m.2.md.firstTime)
        (s.measurements.map fun m => m.2.md.lastTime)) ∧
    SpansTimes p.beginTime p.endTime (now dir) (p.sites.map fun s => s.2.beginTime)
      (p.sites.map fun s => s.2.endTime) := by
  obtain ⟨md, hmd⟩ := (C44_loads_iff ls now readers fs dir).1 ⟨p, h⟩
  obtain ⟨sites, hs, h'⟩ := loadProject_of (ls := ls) (now := now) (readers := readers) hmd
  rw [h'] at h
  cases h
  have hpath : ∀ n : String, dir ++ ["time"] ++ [n] = dir ++ ["time", n] := by simp
  have hone : ∀ q, q ∈ (((ls (dir ++ ["time"])).map fun n => dir ++ ["time"] ++ [n]).filter fun q => fs.isDir q) →
      ∃ n s, q = dir ++ ["time", n] ∧ loadNamedSite ls now readers fs q = .ok (n, s) ∧ s.dirPath = q ∧
        SpansTimes s.beginTime s.endTime (now q) (s.measurements.map fun m => m.2.md.firstTime)
        (s.measurements.map fun m => m.2.md.lastTime) ∧ ListsMeasurements readers fs s := by
    intro q hq
    obtain ⟨n, rfl, hd⟩ := (mem_subdirs hls _ q).1 hq
    obtain ⟨s, h1, h2, h3, h4⟩ := loadSite_of_dir (ls := ls) (now := now) (readers := readers) hd
    refine ⟨n, s, hpath n, ?_, h2, h3, h4 hls⟩
    unfold loadNamedSite
    rw [h1, pathName_append]; rfl
  have hkeys : sites.map Prod.fst = (((ls (dir ++ ["time"])).map fun n => dir ++ ["time"] ++ [n]).filter
      fun q => fs.isDir q).map pathName := by
    have hlen := mapM_ok_length hs
    apply List.ext_getElem (by simpa using hlen)
    intro i h1 h2
    simp only [List.length_map] at h1 h2
    have hi := mapM_ok_getElem hs i h2 h1
    rw [List.getElem_map, List.getElem_map]
    obtain ⟨n, s, hq, hn, -⟩ := hone _ (List.getElem_mem h2)
    rw [hn] at hi
    have hi := Except.ok.inj hi
    rw [← hi]
    rw [hq, ← hpath, pathName_append]
  have hmemk : ∀ n, n ∈ sites.map Prod.fst ↔ fs (dir ++ ["time", n]) = some .dir := by
    intro n
    rw [hkeys, List.mem_map]
    constructor
    · rintro ⟨q, hq, rfl⟩
      obtain ⟨m, rfl, hd⟩ := (mem_subdirs hls _ q).1 hq
      rw [pathName_append, ← hpath]
      exact hd
    · intro hd
      exact ⟨dir ++ ["time"] ++ [n], (mem_subdirs hls _ _).2 ⟨n, rfl, by rw [hpath]; exact hd⟩, pathName_append _ _⟩
  refine ⟨rfl, hmd.2.1, ?_, ?_, ?_, spans_of (now dir) sites _ _⟩
  · show (sites.map Prod.fst).Nodup
    rw [hkeys]
    have hn := (hls (dir ++ ["time"])).1
    have : ((((ls (dir ++ ["time"])).map fun n => dir ++ ["time"] ++ [n]).filter fun q => fs.isDir q).map
        pathName).Sublist (((ls (dir ++ ["time"])).map fun n => dir ++ ["time"] ++ [n]).map pathName) :=
      List.Sublist.map _ List.filter_sublist
    refine this.nodup ?_
    rw [List.map_map]
    have hid : (pathName ∘ fun n => dir ++ ["time"] ++ [n]) = id := by
      funext n
      exact pathName_append _ _
    rw [hid, List.map_id]
    exact hn
  · intro name
    rw [← hmemk, List.mem_map]
    constructor
    · rintro ⟨s, hs'⟩
      exact ⟨_, hs', rfl⟩
    · rintro ⟨⟨n, s⟩, hs', rfl⟩
      exact ⟨s, hs'⟩
  · intro name s hmem
    have hmem : (name, s) ∈ sites := hmem
    obtain ⟨i, hi, hget⟩ := List.getElem_of_mem hmem
    have hlen := mapM_ok_length hs
    have hil : i < (((ls (dir ++ ["time"])).map fun n => dir ++ ["time"] ++ [n]).filter
      fun q => fs.isDir q).length := by omega
    have hi' := mapM_ok_getElem hs i hil hi
    obtain ⟨n, s', hq, hn, h1, h2, h3⟩ := hone _ (List.getElem_mem hil)
    rw [hn] at hi'
    have := Except.ok.inj hi'
    have hget' : (name, s) = (n, s') := by rw [← hget, ← this]
    cases hget'
    refine ⟨h1.trans hq, ?_, h3, h1 ▸ h2⟩
    unfold Site.name
    rw [h1, hq, ← hpath, pathName_append]

/-- **C43 (loaded projects)**: when readers return metadata that do not end before they begin and the clock does not run
backwards, a loaded project is well-formed, so that the theorems on concurrent sites apply to it. -/
theorem C43_loaded_well_formed (ls : Path → List String) (now : Path → DateTime × DateTime) (readers : List (TReader W))
    (fs : FS W) (dir : Path) (hls : IsListing ls fs) (p : Project W)
    (h : loadProject ls now readers fs dir = .ok p)
    (hr : ∀ r ∈ readers, ∀ q md, r.readMeta fs q = .ok md → md.firstTime ≤ md.lastTime)
    (hnow : ∀ q, (now q).1 ≤ (now q).2) : p.WellFormed := by
  obtain ⟨-, -, h1, -, h2, -⟩ := C44_lists_exactly ls now readers fs dir hls p h
  refine ⟨h1, fun q hq => (h2 q.1 q.2 hq).2.1, fun q hq => ?_⟩
  obtain ⟨-, -, hm, hs⟩ := h2 q.1 q.2 hq
  unfold SpansTimes at hs
  split at hs
  · rw [hs.1, hs.2]; exact hnow _
  · rename_i hne
    obtain ⟨hl, hg⟩ := hs
    have hne' : q.2.measurements ≠ [] := by
      intro h0
      apply hne
      rw [h0]
      simp
    obtain ⟨x, l, hx⟩ := List.exists_cons_of_ne_nil hne'
    have hmem : x ∈ q.2.measurements := by rw [hx]; simp
    have hle1 := hl.2 (show x.2.md.firstTime ∈ {t | t ∈ q.2.measurements.map fun m => m.2.md.firstTime} from
      List.mem_map.2 ⟨x, hmem, rfl⟩)
    have hle2 := hg.2 (show x.2.md.lastTime ∈ {t | t ∈ q.2.measurements.map fun m => m.2.md.lastTime} from
      List.mem_map.2 ⟨x, hmem, rfl⟩)
    obtain ⟨-, -, -, before, after, hrd, hok, -⟩ := (hm.2 x.1 x.2).1 hmem
    have := hr x.2.reader (by rw [hrd]; simp) _ _ hok
    exact hle1.trans (this.trans hle2)

end Resistics
