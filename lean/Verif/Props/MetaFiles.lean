import Verif.Props.MetaText

/-!
# C76: metadata files
-/

namespace Resistics

open Doc

/-! ## Specification: the files that are written and read -/

/-- What is written to a metadata file. -/
inductive Document where
  | time (m : TimeDoc)
  | decimated (m : DecDoc)
  | windowed (m : WinDoc)
  | spectra (m : SpecDoc)
  | calibration (m : CalDoc)
  | project (m : ProjectDoc)
  | solution (m : SolutionDoc)

/-- The class a file is read as. -/
inductive DocKind where
  | time | decimated | windowed | spectra | calibration | project | solution
  deriving DecidableEq

/-- The class. -/
def Document.kind : Document → DocKind
  | .time _ => .time
  | .decimated _ => .decimated
  | .windowed _ => .windowed
  | .spectra _ => .spectra
  | .calibration _ => .calibration
  | .project _ => .project
  | .solution _ => .solution

/-- The objects that can exist, with times that have a text. -/
def Document.Fits (env : Reading) : Document → Prop
  | .time m => m.Fits
  | .decimated m => m.Fits
  | .windowed m => m.Fits
  | .spectra m => m.Fits
  | .calibration m => m.Fits env
  | .project m => m.Fits
  | .solution m => m.Fits env

/-- `write` -/
def Document.write (env : Reading) : Document → List Char
  | .time m => m.write env
  | .decimated m => m.write env
  | .windowed m => m.write env
  | .spectra m => m.write env
  | .calibration m => m.write env
  | .project m => m.write env
  | .solution m => m.write env

/-- The object after it was written (`write` sets the information about the file), with numbers as floats where floats are declared. -/
def Document.asWritten (env : Reading) : Document → Document
  | .time m => .time { m with fileInfo := some (newFileInfo env) }.asRead
  | .decimated m => .decimated { m with main := { m.main with fileInfo := some (newFileInfo env) } }.asRead
  | .windowed m => .windowed { m with main := { m.main with fileInfo := some (newFileInfo env) } }.asRead
  | .spectra m => .spectra { m with main := { m.main with fileInfo := some (newFileInfo env) } }.asRead
  | .calibration m => .calibration { m with fileInfo := some (newFileInfo env) }.asRead
  | .project m => .project { m with fileInfo := some (newFileInfo env) }
  | .solution m => .solution { m with fileInfo := some (newFileInfo env) }.asRead

/-- Validation as a class. -/
def validateAs (env : Reading) : DocKind → List (String × Json) → Except Err Document
  | .time, d => (TimeDoc.read env d).map .time
  | .decimated, d => (DecDoc.read env d).map .decimated
  | .windowed, d => (WinDoc.read env d).map .windowed
  | .spectra, d => (SpecDoc.read env d).map .spectra
  | .calibration, d => (CalDoc.read env d).map .calibration
  | .project, d => (ProjectDoc.read env d).map .project
  | .solution, d => (SolutionDoc.read env d).map .solution

/-- `parse_file` of a class. -/
def readAs (env : Reading) (k : DocKind) (text : List Char) : Except Err Document := parseFile env (validateAs env k) text

/-! ## Round trip -/

theorem newFileInfo_fits {env : Reading} (h : env.ClocksRun) : (newFileInfo env).Fits := h

/-- The JSON of what is written. -/
def Document.toJson (env : Reading) : Document → Json
  | .time m => { m with fileInfo := some (newFileInfo env) }.toJson
  | .decimated m => { m with main := m.main.stamped env }.toJson
  | .windowed m => { m with main := m.main.stamped env }.toJson
  | .spectra m => { m with main := m.main.stamped env }.toJson
  | .calibration m => { m with fileInfo := some (newFileInfo env) }.toJson
  | .project m => { m with fileInfo := some (newFileInfo env) }.toJson
  | .solution m => { m with fileInfo := some (newFileInfo env) }.toJson

theorem write_eq (env : Reading) (doc : Document) : doc.write env = (doc.toJson env).text := by cases doc <;> rfl

theorem info_some {env : Reading} (h : env.ClocksRun) : ∀ f ∈ some (newFileInfo env), f.Fits := by
  intro f hf
  rw [Option.mem_some_iff] at hf
  rw [← hf]
  exact newFileInfo_fits h

theorem toJson_good {env env' : Reading} {doc : Document} (h : doc.Fits env) (hc : env'.ClocksRun) : (doc.toJson env').Good := by
  cases doc with
  | time m => exact good_timeDoc ⟨info_some hc, h.2⟩
  | decimated m => exact good_decDoc ⟨⟨info_some hc, h.1.2⟩, h.2⟩
  | windowed m => exact good_winDoc ⟨⟨info_some hc, h.1.2⟩, h.2⟩
  | spectra m => exact good_specDoc ⟨⟨info_some hc, h.1.2⟩, h.2⟩
  | calibration m => exact good_calDoc (env := env) ⟨info_some hc, h.2⟩
  | project m => exact good_projectDoc _
  | solution m => exact good_solutionDoc (env := env) ⟨info_some hc, h.2⟩

theorem toJson_dict (env : Reading) (doc : Document) : ∃ d, doc.toJson env = .dict d := by
  cases doc <;> exact ⟨_, rfl⟩

theorem readModel_map {α β : Type} (env : Reading) (f : List (String × Json) → Except Err α) (g : α → β) (v : Json) :
    readModel env (fun d => (f d).map g) v = (readModel env f v).map g := by
  unfold readModel
  cases readPairs env v <;> rfl

theorem validate_toJson {env env' : Reading} {doc : Document} (h : doc.Fits env) (hc : env'.ClocksRun) :
    readModel env (validateAs env doc.kind) (doc.toJson env') = .ok (doc.asWritten env') := by
  cases doc with
  | time m =>
    exact (readModel_map env _ _ _).trans (congrArg (Except.map Document.time)
      (readTimeDoc env (m := { m with fileInfo := some (newFileInfo env') }) ⟨info_some hc, h.2⟩))
  | decimated m =>
    exact (readModel_map env _ _ _).trans (congrArg (Except.map Document.decimated)
      (readDecDoc env (m := { m with main := m.main.stamped env' }) ⟨⟨info_some hc, h.1.2⟩, h.2⟩))
  | windowed m =>
    exact (readModel_map env _ _ _).trans (congrArg (Except.map Document.windowed)
      (readWinDoc env (m := { m with main := m.main.stamped env' }) ⟨⟨info_some hc, h.1.2⟩, h.2⟩))
  | spectra m =>
    exact (readModel_map env _ _ _).trans (congrArg (Except.map Document.spectra)
      (readSpecDoc env (m := { m with main := m.main.stamped env' }) ⟨⟨info_some hc, h.1.2⟩, h.2⟩))
  | calibration m =>
    exact (readModel_map env _ _ _).trans (congrArg (Except.map Document.calibration)
      (readCalDoc env (m := { m with fileInfo := some (newFileInfo env') }) ⟨info_some hc, h.2⟩))
  | project m =>
    exact (readModel_map env _ _ _).trans (congrArg (Except.map Document.project)
      (readProjectDoc env (m := { m with fileInfo := some (newFileInfo env') }) ⟨info_some hc, h.2⟩))
  | solution m =>
    exact (readModel_map env _ _ _).trans (congrArg (Except.map Document.solution)
      (readSolutionDoc env (m := { m with fileInfo := some (newFileInfo env') }) ⟨info_some hc, h.2⟩))

theorem readAs_json {env : Reading} {v : Json} (h : v.Good) (k : DocKind) :
    readAs env k v.text = readModel env (validateAs env k) v := by
  unfold readAs parseFile
  rw [loads_text v h]
  rfl

/-- **C76 (round trip)**: what is written to a metadata file is what is read from it, at any later time: all fields, at any depth. -/
theorem C76_round_trip (env env' : Reading) (doc : Document) (h : doc.Fits env) (hc : env'.ClocksRun) :
    readAs env doc.kind (doc.write env') = .ok (doc.asWritten env') := by
  rw [write_eq, readAs_json (toJson_good h hc), validate_toJson h hc]

/-- **C76 (numbers)**: only whole numbers that were defaults of a float become floats, of the same value; metadata that were validated
are read back exactly, and so are those that were read once. -/
theorem C76_numbers (x : PyNum) :
    (x.asFloat = x ∨ ∃ n, x = .int n ∧ x.asFloat = .float n) ∧ x.asFloat.asFloat = x.asFloat := by
  cases x with
  | int n => exact ⟨.inr ⟨n, rfl, rfl⟩, rfl⟩
  | float q => exact ⟨.inl rfl, rfl⟩
  | inf b => exact ⟨.inl rfl, rfl⟩
  | nan => exact ⟨.inl rfl, rfl⟩

/-- **C76 (interrupted)**: a metadata file whose writing was interrupted is refused, as whatever class it is read. -/
theorem C76_interrupted (env env' : Reading) (doc : Document) (h : doc.Fits env) (hc : env'.ClocksRun) (k : DocKind) (part rest : List Char)
    (hp : doc.write env' = part ++ rest) (hr : rest ≠ []) : readAs env k part = .error .value := by
  rw [write_eq] at hp
  unfold readAs parseFile
  rw [C75_interrupted _ (toJson_good h hc) (.inl (toJson_dict env' doc)) part rest hp hr]
  rfl

/-- **C76 (left over)**: a metadata file with anything but white space after the object is refused, as whatever class it is read: what is left of a longer text, for example. -/
theorem C76_left_over (env env' : Reading) (doc : Document) (h : doc.Fits env) (hc : env'.ClocksRun) (k : DocKind) (rest : List Char) (hr : ¬JsonBlank rest) :
    readAs env k (doc.write env' ++ rest) = .error .value := by
  unfold readAs parseFile
  rw [write_eq, C75_trailing_text _ (toJson_good h hc) rest (fun x hx => ?_) hr]
  · rfl
  · obtain ⟨d, hd⟩ := toJson_dict env' doc
    rw [hd] at hx
    cases hx

/-- **C76 (distinct)**: objects with the same text are the same. -/
theorem C76_distinct (env env' : Reading) (doc doc' : Document) (h : doc.Fits env) (h' : doc'.Fits env') (hc : env.ClocksRun)
    (hc' : env'.ClocksRun) (hk : doc.kind = doc'.kind) (ht : doc.write env = doc'.write env') :
    doc.toJson env = doc'.toJson env' ∧ (doc'.Fits env → doc.asWritten env = doc'.asWritten env') := by
  rw [write_eq, write_eq] at ht
  have hj := C75_distinct _ _ (toJson_good h hc) (toJson_good h' hc') ht
  refine ⟨hj, fun h2 => ?_⟩
  have h1 := validate_toJson h hc
  rw [hj, hk] at h1
  have h3 := validate_toJson (env := env) h2 hc'
  rw [h3] at h1
  exact (Except.ok.inj h1).symm

/-! ## Fields -/

/-- The fields of `ResisticsModel`s that hold data: those of the place and of data in levels. -/
def siteFields : List String :=
  ["system", "serial", "wgs84_latitude", "wgs84_longitude", "easting", "northing", "elevation"]

/-- The declared fields of a class. -/
def fieldNames : DocKind → List String
  | .time => ["file_info", "fs", "chans", "n_chans", "n_samples", "first_time", "last_time"] ++ siteFields ++ ["chans_metadata", "history"]
  | .decimated => ["file_info", "fs", "chans", "n_chans", "n_levels", "first_time", "last_time"] ++ siteFields ++
      ["chans_metadata", "levels_metadata", "history"]
  | .windowed => ["file_info", "fs", "chans", "n_chans", "n_levels", "first_time", "last_time"] ++ siteFields ++
      ["chans_metadata", "levels_metadata", "ref_time", "history"]
  | .spectra => ["file_info", "fs", "chans", "n_chans", "n_levels", "first_time", "last_time"] ++ siteFields ++
      ["chans_metadata", "levels_metadata", "ref_time", "history"]
  | .calibration => ["file_info", "file_path", "sensor", "serial", "static_gain", "magnitude_unit", "frequency", "magnitude", "phase",
      "n_samples"]
  | .project => ["file_info", "ref_time", "location", "country", "year", "description", "contributors"]
  | .solution => ["file_info", "tf", "freqs", "components", "history", "contributors"]

/-- The fields without a default. -/
def requiredFields : DocKind → List String
  | .time => ["fs", "chans", "n_samples", "first_time", "last_time", "chans_metadata"]
  | .decimated => ["fs", "chans", "n_levels", "first_time", "last_time", "chans_metadata", "levels_metadata"]
  | .windowed => ["fs", "chans", "n_levels", "first_time", "last_time", "chans_metadata", "levels_metadata", "ref_time"]
  | .spectra => ["fs", "chans", "n_levels", "first_time", "last_time", "chans_metadata", "levels_metadata", "ref_time"]
  | .calibration => ["serial", "frequency", "magnitude", "phase"]
  | .project => ["ref_time"]
  | .solution => ["tf", "freqs", "components", "history", "contributors"]

/-- **C76 (other fields)**: what is read depends only on the declared fields: others are ignored (a newer version may write more), and so
is the order of the entries. -/
theorem C76_other_fields (env : Reading) (k : DocKind) (d d' : List (String × Json))
    (h : ∀ key ∈ fieldNames k, d.lookup key = d'.lookup key) : validateAs env k d = validateAs env k d' := by
  cases k <;> simp only [fieldNames, siteFields, List.cons_append, List.nil_append, List.forall_mem_cons] at h
  · obtain ⟨h1, h2, h3, h4, h5, h6, h7, h8, h9, h10, h11, h12, h13, h14, h15, h16, -⟩ := h
    simp only [validateAs, TimeDoc.read, readFileInfo, readNChans, SiteDoc.read, required, withDefault, h1, h2, h3, h4, h5, h6, h7, h8, h9,
      h10, h11, h12, h13, h14, h15, h16]
  · obtain ⟨h1, h2, h3, h4, h5, h6, h7, h8, h9, h10, h11, h12, h13, h14, h15, h16, h17, -⟩ := h
    simp only [validateAs, DecDoc.read, LevelsDoc.read, readFileInfo, readNChans, SiteDoc.read, required, withDefault, h1, h2, h3, h4, h5,
      h6, h7, h8, h9, h10, h11, h12, h13, h14, h15, h16, h17]
  · obtain ⟨h1, h2, h3, h4, h5, h6, h7, h8, h9, h10, h11, h12, h13, h14, h15, h16, h17, h18, -⟩ := h
    simp only [validateAs, WinDoc.read, LevelsDoc.read, readFileInfo, readNChans, SiteDoc.read, required, withDefault, h1, h2, h3, h4, h5,
      h6, h7, h8, h9, h10, h11, h12, h13, h14, h15, h16, h17, h18]
  · obtain ⟨h1, h2, h3, h4, h5, h6, h7, h8, h9, h10, h11, h12, h13, h14, h15, h16, h17, h18, -⟩ := h
    simp only [validateAs, SpecDoc.read, LevelsDoc.read, readFileInfo, readNChans, SiteDoc.read, required, withDefault, h1, h2, h3, h4, h5,
      h6, h7, h8, h9, h10, h11, h12, h13, h14, h15, h16, h17, h18]
  · obtain ⟨h1, h2, h3, h4, h5, h6, h7, h8, h9, h10, -⟩ := h
    simp only [validateAs, CalDoc.read, readFileInfo, required, withDefault, h1, h2, h3, h4, h5, h6, h7, h8, h9, h10]
  · obtain ⟨h1, h2, h3, h4, h5, h6, h7, -⟩ := h
    simp only [validateAs, ProjectDoc.read, readFileInfo, required, withDefault, h1, h2, h3, h4, h5, h6, h7]
  · obtain ⟨h1, h2, h3, h4, h5, h6, -⟩ := h
    simp only [validateAs, SolutionDoc.read, readFileInfo, required, withDefault, h1, h2, h3, h4, h5, h6]

theorem also_ok_inv {α β : Type} {f : Except Err (α → β)} {x : Except Err α} {b : β} (h : (f ⊛ x) = .ok b) :
    (∃ g, f = .ok g) ∧ ∃ a, x = .ok a := by
  cases f with
  | ok g =>
    cases x with
    | ok a => exact ⟨⟨g, rfl⟩, a, rfl⟩
    | error e => simp [alsoCheck] at h
  | error e =>
    simp only [alsoCheck] at h
    split at h
    · cases x <;> simp at h
    · simp at h

theorem required_ok {α : Type} {d : List (String × Json)} {k : String} {r : Json → Except Err α} {a : α} (h : required d k r = .ok a) :
    d.lookup k ≠ none := by
  intro h0
  rw [required, h0] at h
  cases h

theorem levels_needs {L : Type} {env : Reading} {level : List (String × Json) → Except Err L} {d : List (String × Json)} {m : LevelsDoc L}
    (h : LevelsDoc.read env level d = .ok m) :
    d.lookup "fs" ≠ none ∧ d.lookup "chans" ≠ none ∧ d.lookup "n_levels" ≠ none ∧ d.lookup "first_time" ≠ none ∧
      d.lookup "last_time" ≠ none ∧ d.lookup "chans_metadata" ≠ none ∧ d.lookup "levels_metadata" ≠ none ∧
      ∃ l, required d "levels_metadata" (readList (readModel env level)) = .ok l := by
  unfold LevelsDoc.read at h
  obtain ⟨⟨_, h⟩, _, h10⟩ := also_ok_inv h
  obtain ⟨⟨_, h⟩, _, h9⟩ := also_ok_inv h
  obtain ⟨⟨_, h⟩, _, h8⟩ := also_ok_inv h
  obtain ⟨⟨_, h⟩, _, h7⟩ := also_ok_inv h
  obtain ⟨⟨_, h⟩, _, h6⟩ := also_ok_inv h
  obtain ⟨⟨_, h⟩, _, h5⟩ := also_ok_inv h
  obtain ⟨⟨_, h⟩, _, h4⟩ := also_ok_inv h
  obtain ⟨⟨_, h⟩, _, h3⟩ := also_ok_inv h
  obtain ⟨⟨_, h⟩, _, h2⟩ := also_ok_inv h
  exact ⟨required_ok h2, required_ok h3, required_ok h5, required_ok h6, required_ok h7, required_ok h9, required_ok h10, _, h10⟩

theorem map_ok_inv {α β : Type} {x : Except Err α} {f : α → β} {b : β} (h : x.map f = .ok b) : ∃ a, x = .ok a := by
  cases x with
  | ok a => exact ⟨a, rfl⟩
  | error e => cases h

/-- **C76 (required)**: a file without one of the required fields is refused. -/
theorem C76_required (env : Reading) (k : DocKind) (d : List (String × Json)) (key : String) (hk : key ∈ requiredFields k)
    (hd : d.lookup key = none) : ∃ e, validateAs env k d = .error e := by
  cases hr : validateAs env k d with
  | error e => exact ⟨e, rfl⟩
  | ok doc =>
    exfalso
    suffices h : ∀ key ∈ requiredFields k, d.lookup key ≠ none from h key hk hd
    clear hk hd
    cases k <;> simp only [validateAs] at hr <;> obtain ⟨m, h⟩ := map_ok_inv hr <;> simp only [requiredFields, List.forall_mem_cons,
      List.not_mem_nil, false_imp_iff, implies_true, and_true]
    · unfold TimeDoc.read at h
      obtain ⟨⟨_, h⟩, _, h10⟩ := also_ok_inv h
      obtain ⟨⟨_, h⟩, _, h9⟩ := also_ok_inv h
      obtain ⟨⟨_, h⟩, _, h8⟩ := also_ok_inv h
      obtain ⟨⟨_, h⟩, _, h7⟩ := also_ok_inv h
      obtain ⟨⟨_, h⟩, _, h6⟩ := also_ok_inv h
      obtain ⟨⟨_, h⟩, _, h5⟩ := also_ok_inv h
      obtain ⟨⟨_, h⟩, _, h4⟩ := also_ok_inv h
      obtain ⟨⟨_, h⟩, _, h3⟩ := also_ok_inv h
      obtain ⟨⟨_, h⟩, _, h2⟩ := also_ok_inv h
      exact ⟨required_ok h2, required_ok h3, required_ok h5, required_ok h6, required_ok h7, required_ok h9⟩
    · unfold DecDoc.read at h
      obtain ⟨⟨_, h⟩, _, h3⟩ := also_ok_inv h
      obtain ⟨⟨_, h⟩, _, h2⟩ := also_ok_inv h
      obtain ⟨g1, g2, g3, g4, g5, g6, g7, _⟩ := levels_needs h2
      exact ⟨g1, g2, g3, g4, g5, g6, g7⟩
    · unfold WinDoc.read at h
      obtain ⟨⟨_, h⟩, _, h4⟩ := also_ok_inv h
      obtain ⟨⟨_, h⟩, _, h3⟩ := also_ok_inv h
      obtain ⟨⟨_, h⟩, _, h2⟩ := also_ok_inv h
      obtain ⟨g1, g2, g3, g4, g5, g6, g7, _⟩ := levels_needs h2
      exact ⟨g1, g2, g3, g4, g5, g6, g7, required_ok h3⟩
    · unfold SpecDoc.read at h
      obtain ⟨⟨_, h⟩, _, h4⟩ := also_ok_inv h
      obtain ⟨⟨_, h⟩, _, h3⟩ := also_ok_inv h
      obtain ⟨⟨_, h⟩, _, h2⟩ := also_ok_inv h
      obtain ⟨g1, g2, g3, g4, g5, g6, g7, _⟩ := levels_needs h2
      exact ⟨g1, g2, g3, g4, g5, g6, g7, required_ok h3⟩
    · unfold CalDoc.read at h
      obtain ⟨⟨_, h⟩, _, h10⟩ := also_ok_inv h
      obtain ⟨⟨_, h⟩, _, h9⟩ := also_ok_inv h
      obtain ⟨⟨_, h⟩, _, h8⟩ := also_ok_inv h
      obtain ⟨⟨_, h⟩, _, h7⟩ := also_ok_inv h
      obtain ⟨⟨_, h⟩, _, h6⟩ := also_ok_inv h
      obtain ⟨⟨_, h⟩, _, h5⟩ := also_ok_inv h
      obtain ⟨⟨_, h⟩, _, h4⟩ := also_ok_inv h
      exact ⟨required_ok h4, required_ok h7, required_ok h8, required_ok h9⟩
    · unfold ProjectDoc.read at h
      obtain ⟨⟨_, h⟩, _, h7⟩ := also_ok_inv h
      obtain ⟨⟨_, h⟩, _, h6⟩ := also_ok_inv h
      obtain ⟨⟨_, h⟩, _, h5⟩ := also_ok_inv h
      obtain ⟨⟨_, h⟩, _, h4⟩ := also_ok_inv h
      obtain ⟨⟨_, h⟩, _, h3⟩ := also_ok_inv h
      obtain ⟨⟨_, h⟩, _, h2⟩ := also_ok_inv h
      exact required_ok h2
    · unfold SolutionDoc.read at h
      obtain ⟨⟨_, h⟩, _, h6⟩ := also_ok_inv h
      obtain ⟨⟨_, h⟩, _, h5⟩ := also_ok_inv h
      obtain ⟨⟨_, h⟩, _, h4⟩ := also_ok_inv h
      obtain ⟨⟨_, h⟩, _, h3⟩ := also_ok_inv h
      obtain ⟨⟨_, h⟩, _, h2⟩ := also_ok_inv h
      exact ⟨required_ok h2, required_ok h3, required_ok h4, required_ok h5, required_ok h6⟩

/-! ## Files of another class -/

/-- The classes that accept a file of another one: all required fields are there. -/
def Document.AlsoReadAs : Document → DocKind → Prop
  | .windowed _, .project => True
  | .spectra _, .project => True
  | .spectra _, .windowed => True
  | .windowed m, .decimated => m.main.levels = []
  | .windowed m, .spectra => m.main.levels = []
  | .spectra m, .decimated => m.main.levels = []
  | _, _ => False

/-- The fields that are written. -/
def Document.keys (env : Reading) (doc : Document) : List (String × Json) :=
  match doc.toJson env with
  | .dict d => d
  | _ => []

theorem toJson_keys (env : Reading) (doc : Document) : doc.toJson env = .dict (doc.keys env) := by cases doc <;> rfl

theorem keys_fieldNames (env : Reading) (doc : Document) : (doc.keys env).map Prod.fst = fieldNames doc.kind := by
  cases doc <;> rfl

theorem readAs_keys {env env' : Reading} {doc : Document} (h : doc.Fits env) (hc : env'.ClocksRun) (k : DocKind) :
    readAs env k (doc.write env') = validateAs env k (doc.keys env') := by
  rw [write_eq, readAs_json (toJson_good h hc), toJson_keys, readModel_dict]

theorem refused_of_missing {env env' : Reading} {doc : Document} (k : DocKind) (key : String) (hk : key ∈ requiredFields k)
    (hm : key ∉ fieldNames doc.kind) : ¬∃ d, validateAs env k (doc.keys env') = .ok d := by
  rintro ⟨d, hd⟩
  obtain ⟨e, he⟩ := C76_required env k (doc.keys env') key hk (lookup_none_of_keys (by rw [keys_fieldNames]; exact hm))
  rw [he] at hd
  cases hd

theorem readAll_ok {α : Type} {read : Json → Except Err α} : ∀ {l : List Json} {r : List α}, readAll read l = .ok r →
    ∀ v ∈ l, ∃ a, read v = .ok a
  | [], _, _, v, hv => by simp at hv
  | w :: l, r, h, v, hv => by
      rw [readAll] at h
      obtain ⟨⟨_, h1⟩, _, h2⟩ := also_ok_inv h
      obtain ⟨_, a, h3⟩ := also_ok_inv h1
      rcases List.mem_cons.1 hv with rfl | hv
      · exact ⟨a, h3⟩
      · exact readAll_ok h2 v hv

theorem winLevel_not_dec (env : Reading) (l : WinLevelDoc) : ¬∃ a, readModel env (DecLevelDoc.read env) l.toJson = .ok a := by
  rintro ⟨a, h⟩
  rw [WinLevelDoc.toJson, readModel_dict] at h
  unfold DecLevelDoc.read at h
  obtain ⟨⟨_, h⟩, _, h4⟩ := also_ok_inv h
  exact required_ok h4 (by simp [WinLevelDoc.pairs, List.lookup])

theorem specLevel_not_dec (env : Reading) (l : SpecLevelDoc) : ¬∃ a, readModel env (DecLevelDoc.read env) l.toJson = .ok a := by
  rintro ⟨a, h⟩
  rw [SpecLevelDoc.toJson, readModel_dict] at h
  unfold DecLevelDoc.read at h
  obtain ⟨⟨_, h⟩, _, h4⟩ := also_ok_inv h
  exact required_ok h4 (by simp [WinLevelDoc.pairs, List.lookup])

theorem winLevel_not_spec (env : Reading) (l : WinLevelDoc) : ¬∃ a, readModel env (SpecLevelDoc.read env) l.toJson = .ok a := by
  rintro ⟨a, h⟩
  rw [WinLevelDoc.toJson, readModel_dict] at h
  unfold SpecLevelDoc.read at h
  obtain ⟨⟨_, h⟩, _, h4⟩ := also_ok_inv h
  exact required_ok h4 (by simp [WinLevelDoc.pairs, List.lookup])

theorem levels_refused {L L' : Type} {env : Reading} {enc : L → Json} {level : List (String × Json) → Except Err L'} {m : LevelsDoc L}
    {rest : List (String × Json)} {r : LevelsDoc L'} (hno : ∀ l, ¬∃ a, readModel env level (enc l) = .ok a)
    (h : LevelsDoc.read env level (m.pairs enc ++ rest) = .ok r) : m.levels = [] := by
  obtain ⟨-, -, -, -, -, -, -, l, hl⟩ := levels_needs h
  have hlook : (m.pairs enc ++ rest).lookup "levels_metadata" = some (.list (m.levels.map enc)) := by
    simp [LevelsDoc.pairs, SiteDoc.pairs, List.lookup]
  rw [required, hlook] at hl
  cases hm : m.levels with
  | nil => rfl
  | cons a t =>
    rw [hm] at hl
    obtain ⟨b, hb⟩ := readAll_ok (show readAll (readModel env level) (List.map enc (a :: t)) = .ok l from hl) (enc a) (by simp)
    exact absurd ⟨b, hb⟩ (hno a)

/-- The project that is read from metadata with a reference time. -/
def projectOf (info : FileInfo) (ref : CalTime) : ProjectDoc := ⟨some info, ref, "", "", -999, "", []⟩

theorem project_of_levels {L : Type} (env env' : Reading) (hc : env'.ClocksRun) (enc : L → Json) (m : LevelsDoc L) (ref : CalTime) (hr : ref.Fits)
    (h : HistoryDoc) :
    ProjectDoc.read env ((m.stamped env').pairs enc ++ [("ref_time", timeJson ref), ("history", historyJson h)]) =
      .ok (projectOf (newFileInfo env') ref) := by
  have hi := readFileInfo_json env (some (newFileInfo env')) (info_some hc)
  simp [ProjectDoc.read, LevelsDoc.pairs, LevelsDoc.stamped, SiteDoc.pairs, readFileInfo, withDefault, required, List.lookup, hi,
    readTime_json env hr, also_ok, projectOf]

/-- **C76 (project)**: metadata of windowed data and of spectra in the place of the project file are taken for those of a project without
description. -/
theorem C76_read_as_project (env env' : Reading) (hc : env'.ClocksRun) :
    (∀ m : WinDoc, m.Fits → readAs env .project (Document.write env' (.windowed m)) = .ok (.project (projectOf (newFileInfo env') m.refTime))) ∧
    (∀ m : SpecDoc, m.Fits → readAs env .project (Document.write env' (.spectra m)) = .ok (.project (projectOf (newFileInfo env') m.refTime))) := by
  refine ⟨fun m h => ?_, fun m h => ?_⟩
  · rw [readAs_keys (env := env) (doc := .windowed m) h hc]
    exact congrArg (Except.map Document.project) (project_of_levels env env' hc WinLevelDoc.toJson m.main m.refTime h.2.1 m.history)
  · rw [readAs_keys (env := env) (doc := .spectra m) h hc]
    exact congrArg (Except.map Document.project) (project_of_levels env env' hc SpecLevelDoc.toJson m.main m.refTime h.2.1 m.history)

/-- The windowed data whose spectra these are. -/
def windowsOf (m : SpecDoc) : WinDoc where
  main := ⟨m.main.fileInfo, m.main.fs, m.main.chans, m.main.nChans, m.main.nLevels, m.main.firstTime, m.main.lastTime, m.main.site,
    m.main.chansMeta, m.main.levels.map SpecLevelDoc.win⟩
  refTime := m.refTime
  history := m.history

/-- **C76 (windows)**: metadata of spectra are accepted as those of windowed data: all fields of these are there. -/
theorem C76_spectra_as_windowed (env env' : Reading) (hc : env'.ClocksRun) (m : SpecDoc) (h : m.Fits) :
    readAs env .windowed (Document.write env' (.spectra m)) = .ok (Document.asWritten env' (.windowed (windowsOf m))) := by
  rw [readAs_keys (env := env) (doc := .spectra m) h hc]
  suffices key : WinDoc.read env ((m.main.stamped env').pairs SpecLevelDoc.toJson ++
      [("ref_time", timeJson m.refTime), ("history", historyJson m.history)]) =
      .ok { windowsOf m with main := (windowsOf m).main.stamped env' }.asRead from congrArg (Except.map Document.windowed) key
  obtain ⟨⟨h1, h2, h3, h4, h5, h6, h7⟩, h8, h9⟩ := h
  unfold WinDoc.read
  rw [readLevels env SpecLevelDoc.toJson (WinLevelDoc.read env) (fun l => l.win.asRead) (m.main.stamped env') (info_some hc) h2 h3 h4 h5 h6
    fun l hl => readSpecLevel_win env (h7 l hl)]
  rw [withDefault, required, levels_rest _ _ _ _ (by decide), levels_rest _ _ _ _ (by decide)]
  simp [List.lookup, readHistory_json env h9, readTime_json env h8, also_ok, WinDoc.asRead, LevelsDoc.asRead, LevelsDoc.stamped, windowsOf]

/-- Metadata of windowed data or spectra without levels. -/
theorem levels_empty {L L' : Type} (env env' : Reading) (hc : env'.ClocksRun) (enc : L → Json) (read : List (String × Json) → Except Err L')
    (as : L → L') (level : L → Prop) (m : LevelsDoc L) (h : m.Fits level) (he : m.levels = []) (rest : List (String × Json)) :
    ∃ r, LevelsDoc.read env read ((m.stamped env').pairs enc ++ rest) = .ok r := by
  obtain ⟨h1, h2, h3, h4, h5, h6, h7⟩ := h
  have hno : ∀ l ∈ (m.stamped env').levels, False := by
    intro l hl
    rw [show (m.stamped env').levels = m.levels from rfl, he] at hl
    simp at hl
  exact ⟨_, readLevels env enc read as (m.stamped env') (info_some hc) h2 h3 h4 h5 h6 (fun l hl => (hno l hl).elim) rest⟩

/-- **C76 (other classes)**: a file of one class is accepted as one of another class only in the cases listed in `AlsoReadAs`: as a
project, when it has a reference time; spectra as windowed data; and data without any level. -/
theorem C76_other_classes (env env' : Reading) (hc : env'.ClocksRun) (doc : Document) (h : doc.Fits env) (k : DocKind) (hk : k ≠ doc.kind) :
    (∃ d, readAs env k (doc.write env') = .ok d) ↔ doc.AlsoReadAs k := by
  rw [readAs_keys h hc]
  have hex {α : Type} {x : Except Err α} {f : α → Document} (hx : ∃ a, x = .ok a) : ∃ d, x.map f = .ok d := by
    obtain ⟨a, rfl⟩ := hx
    exact ⟨f a, rfl⟩
  cases doc with
  | time m =>
    cases k
    · exact absurd rfl hk
    · exact iff_of_false (refused_of_missing _ "levels_metadata" (by decide) (by simp only [Document.kind]; decide)) id
    · exact iff_of_false (refused_of_missing _ "levels_metadata" (by decide) (by simp only [Document.kind]; decide)) id
    · exact iff_of_false (refused_of_missing _ "levels_metadata" (by decide) (by simp only [Document.kind]; decide)) id
    · exact iff_of_false (refused_of_missing _ "frequency" (by decide) (by simp only [Document.kind]; decide)) id
    · exact iff_of_false (refused_of_missing _ "ref_time" (by decide) (by simp only [Document.kind]; decide)) id
    · exact iff_of_false (refused_of_missing _ "tf" (by decide) (by simp only [Document.kind]; decide)) id
  | decimated m =>
    cases k
    · exact iff_of_false (refused_of_missing _ "n_samples" (by decide) (by simp only [Document.kind]; decide)) id
    · exact absurd rfl hk
    · exact iff_of_false (refused_of_missing _ "ref_time" (by decide) (by simp only [Document.kind]; decide)) id
    · exact iff_of_false (refused_of_missing _ "ref_time" (by decide) (by simp only [Document.kind]; decide)) id
    · exact iff_of_false (refused_of_missing _ "frequency" (by decide) (by simp only [Document.kind]; decide)) id
    · exact iff_of_false (refused_of_missing _ "ref_time" (by decide) (by simp only [Document.kind]; decide)) id
    · exact iff_of_false (refused_of_missing _ "tf" (by decide) (by simp only [Document.kind]; decide)) id
  | windowed m =>
    cases k
    · exact iff_of_false (refused_of_missing _ "n_samples" (by decide) (by simp only [Document.kind]; decide)) id
    · constructor
      · rintro ⟨d, hd⟩
        obtain ⟨a, ha⟩ := map_ok_inv hd
        unfold DecDoc.read at ha
        obtain ⟨⟨_, ha⟩, _, _⟩ := also_ok_inv ha
        obtain ⟨_, _, ha⟩ := also_ok_inv ha
        exact levels_refused (m := m.main.stamped env') (winLevel_not_dec env) ha
      · intro he
        obtain ⟨r, hr⟩ := levels_empty env env' hc WinLevelDoc.toJson (DecLevelDoc.read env) (fun l => ⟨l.fs, 0, m.refTime, m.refTime⟩)
          WinLevelDoc.Fits m.main h.1 he [("ref_time", timeJson m.refTime), ("history", historyJson m.history)]
        apply hex
        refine ⟨⟨r, m.history⟩, ?_⟩
        show DecDoc.read env ((m.main.stamped env').pairs WinLevelDoc.toJson ++
          [("ref_time", timeJson m.refTime), ("history", historyJson m.history)]) = _
        unfold DecDoc.read
        rw [hr, withDefault, levels_rest _ _ _ _ (by decide)]
        simp [List.lookup, readHistory_json env h.2.2, also_ok]
    · exact absurd rfl hk
    · constructor
      · rintro ⟨d, hd⟩
        obtain ⟨a, ha⟩ := map_ok_inv hd
        unfold SpecDoc.read at ha
        obtain ⟨⟨_, ha⟩, _, _⟩ := also_ok_inv ha
        obtain ⟨⟨_, ha⟩, _, _⟩ := also_ok_inv ha
        obtain ⟨_, _, ha⟩ := also_ok_inv ha
        exact levels_refused (m := m.main.stamped env') (winLevel_not_spec env) ha
      · intro he
        obtain ⟨r, hr⟩ := levels_empty env env' hc WinLevelDoc.toJson (SpecLevelDoc.read env) (fun l => ⟨l, 0, []⟩)
          WinLevelDoc.Fits m.main h.1 he [("ref_time", timeJson m.refTime), ("history", historyJson m.history)]
        apply hex
        refine ⟨⟨r, m.refTime, m.history⟩, ?_⟩
        show SpecDoc.read env ((m.main.stamped env').pairs WinLevelDoc.toJson ++
          [("ref_time", timeJson m.refTime), ("history", historyJson m.history)]) = _
        unfold SpecDoc.read
        rw [hr, withDefault, required, levels_rest _ _ _ _ (by decide), levels_rest _ _ _ _ (by decide)]
        simp [List.lookup, readHistory_json env h.2.2, readTime_json env h.2.1, also_ok]
    · exact iff_of_false (refused_of_missing _ "frequency" (by decide) (by simp only [Document.kind]; decide)) id
    · refine iff_of_true ?_ trivial
      rw [← readAs_keys (env := env) h hc]
      exact ⟨_, (C76_read_as_project env env' hc).1 m h⟩
    · exact iff_of_false (refused_of_missing _ "tf" (by decide) (by simp only [Document.kind]; decide)) id
  | spectra m =>
    cases k
    · exact iff_of_false (refused_of_missing _ "n_samples" (by decide) (by simp only [Document.kind]; decide)) id
    · constructor
      · rintro ⟨d, hd⟩
        obtain ⟨a, ha⟩ := map_ok_inv hd
        unfold DecDoc.read at ha
        obtain ⟨⟨_, ha⟩, _, _⟩ := also_ok_inv ha
        obtain ⟨_, _, ha⟩ := also_ok_inv ha
        exact levels_refused (m := m.main.stamped env') (specLevel_not_dec env) ha
      · intro he
        obtain ⟨r, hr⟩ := levels_empty env env' hc SpecLevelDoc.toJson (DecLevelDoc.read env) (fun l => ⟨l.win.fs, 0, m.refTime, m.refTime⟩)
          SpecLevelDoc.Fits m.main h.1 he [("ref_time", timeJson m.refTime), ("history", historyJson m.history)]
        apply hex
        refine ⟨⟨r, m.history⟩, ?_⟩
        show DecDoc.read env ((m.main.stamped env').pairs SpecLevelDoc.toJson ++
          [("ref_time", timeJson m.refTime), ("history", historyJson m.history)]) = _
        unfold DecDoc.read
        rw [hr, withDefault, levels_rest _ _ _ _ (by decide)]
        simp [List.lookup, readHistory_json env h.2.2, also_ok]
    · refine iff_of_true ?_ trivial
      rw [← readAs_keys (env := env) h hc]
      exact ⟨_, C76_spectra_as_windowed env env' hc m h⟩
    · exact absurd rfl hk
    · exact iff_of_false (refused_of_missing _ "frequency" (by decide) (by simp only [Document.kind]; decide)) id
    · refine iff_of_true ?_ trivial
      rw [← readAs_keys (env := env) h hc]
      exact ⟨_, (C76_read_as_project env env' hc).2 m h⟩
    · exact iff_of_false (refused_of_missing _ "tf" (by decide) (by simp only [Document.kind]; decide)) id
  | calibration m =>
    cases k
    · exact iff_of_false (refused_of_missing _ "chans" (by decide) (by simp only [Document.kind]; decide)) id
    · exact iff_of_false (refused_of_missing _ "chans" (by decide) (by simp only [Document.kind]; decide)) id
    · exact iff_of_false (refused_of_missing _ "chans" (by decide) (by simp only [Document.kind]; decide)) id
    · exact iff_of_false (refused_of_missing _ "chans" (by decide) (by simp only [Document.kind]; decide)) id
    · exact absurd rfl hk
    · exact iff_of_false (refused_of_missing _ "ref_time" (by decide) (by simp only [Document.kind]; decide)) id
    · exact iff_of_false (refused_of_missing _ "tf" (by decide) (by simp only [Document.kind]; decide)) id
  | project m =>
    cases k
    · exact iff_of_false (refused_of_missing _ "chans" (by decide) (by simp only [Document.kind]; decide)) id
    · exact iff_of_false (refused_of_missing _ "chans" (by decide) (by simp only [Document.kind]; decide)) id
    · exact iff_of_false (refused_of_missing _ "chans" (by decide) (by simp only [Document.kind]; decide)) id
    · exact iff_of_false (refused_of_missing _ "chans" (by decide) (by simp only [Document.kind]; decide)) id
    · exact iff_of_false (refused_of_missing _ "frequency" (by decide) (by simp only [Document.kind]; decide)) id
    · exact absurd rfl hk
    · exact iff_of_false (refused_of_missing _ "tf" (by decide) (by simp only [Document.kind]; decide)) id
  | solution m =>
    cases k
    · exact iff_of_false (refused_of_missing _ "chans" (by decide) (by simp only [Document.kind]; decide)) id
    · exact iff_of_false (refused_of_missing _ "chans" (by decide) (by simp only [Document.kind]; decide)) id
    · exact iff_of_false (refused_of_missing _ "chans" (by decide) (by simp only [Document.kind]; decide)) id
    · exact iff_of_false (refused_of_missing _ "chans" (by decide) (by simp only [Document.kind]; decide)) id
    · exact iff_of_false (refused_of_missing _ "frequency" (by decide) (by simp only [Document.kind]; decide)) id
    · exact iff_of_false (refused_of_missing _ "ref_time" (by decide) (by simp only [Document.kind]; decide)) id
    · exact absurd rfl hk

/-! ## Defaults and missing channels -/

/-- The entries without some of the fields. -/
def without (keys : List String) (d : List (String × Json)) : List (String × Json) := d.filter fun q => q.1 ∉ keys

theorem lookup_without (keys : List String) (d : List (String × Json)) (k : String) :
    (without keys d).lookup k = if k ∈ keys then none else d.lookup k := by
  induction d with
  | nil => simp [without]
  | cons q d ih =>
    obtain ⟨k', v⟩ := q
    unfold without at ih ⊢
    rw [List.filter_cons, List.lookup_cons]
    by_cases hk : k' ∈ keys
    · rw [if_neg (by simpa using hk), ih]
      by_cases h : k = k'
      · rw [if_pos (h ▸ hk), if_pos (h ▸ hk)]
      · rw [show (k == k') = false from by simpa using h]
    · rw [if_pos (by simpa using hk), List.lookup_cons]
      by_cases h : k = k'
      · subst h
        simp [hk]
      · rw [show (k == k') = false from by simpa using h, ih]

/-- **C76 (number of channels)**: a recording whose metadata have no number of channels has that of its list of channels. -/
theorem C76_count_channels (env : Reading) (m : TimeDoc) (h : m.Fits) (d : List (String × Json)) (hd : m.toJson = .dict d) :
    TimeDoc.read env (without ["n_chans"] d) = .ok { m.asRead with nChans := m.chans.length } := by
  obtain ⟨h1, h2, h3, h4, h5, h6, h7⟩ := h
  unfold TimeDoc.toJson at hd
  have hd := Json.dict.inj hd
  subst hd
  unfold TimeDoc.read
  rw [readSite env m.site h5 _ (by
    intro k v hk
    simp only [SiteDoc.pairs, List.mem_cons, List.not_mem_nil, or_false, Prod.mk.injEq] at hk
    rcases hk with ⟨rfl, rfl⟩ | ⟨rfl, rfl⟩ | ⟨rfl, rfl⟩ | ⟨rfl, rfl⟩ | ⟨rfl, rfl⟩ | ⟨rfl, rfl⟩ | ⟨rfl, rfl⟩ <;>
      rw [lookup_without] <;> simp [SiteDoc.pairs, List.lookup])]
  simp [lookup_without, readFileInfo, readNChans, SiteDoc.pairs, withDefault, required, List.lookup, readFileInfo_json env m.fileInfo h1,
    readFloat_num env h2, readTime_json env h3, readTime_json env h4, readChans_json env h6, readHistory_json env h7, also_ok,
    readList_strs, readInt_int, nChansOf, ok_then, TimeDoc.asRead]

/-- **C76 (no channels)**: metadata of a recording without its channels are refused: as a `ValueError`, but, when the number of channels is
missing too, the reader reports a `MetadataReadError`. -/
theorem C76_no_channels (env : Reading) (m : TimeDoc) (h : m.Fits) (d : List (String × Json)) (hd : m.toJson = .dict d) :
    orMetaRead (TimeDoc.read env (without ["chans"] d)) = .error .value ∧
    orMetaRead (TimeDoc.read env (without ["chans", "n_chans"] d)) = .error .metaRead := by
  obtain ⟨h1, h2, h3, h4, h5, h6, h7⟩ := h
  unfold TimeDoc.toJson at hd
  have hd := Json.dict.inj hd
  subst hd
  unfold TimeDoc.read
  constructor
  · rw [readSite env m.site h5 _ (by
      intro k v hk
      simp only [SiteDoc.pairs, List.mem_cons, List.not_mem_nil, or_false, Prod.mk.injEq] at hk
      rcases hk with ⟨rfl, rfl⟩ | ⟨rfl, rfl⟩ | ⟨rfl, rfl⟩ | ⟨rfl, rfl⟩ | ⟨rfl, rfl⟩ | ⟨rfl, rfl⟩ | ⟨rfl, rfl⟩ <;>
        rw [lookup_without] <;> simp [SiteDoc.pairs, List.lookup])]
    simp [lookup_without, readFileInfo, readNChans, SiteDoc.pairs, withDefault, required, List.lookup, readFileInfo_json env m.fileInfo h1,
      readFloat_num env h2, readTime_json env h3, readTime_json env h4, readChans_json env h6, readHistory_json env h7, alsoCheck,
      orNull_int, readInt_int, nChansOf, ok_then, orMetaRead]
  · rw [readSite env m.site h5 _ (by
      intro k v hk
      simp only [SiteDoc.pairs, List.mem_cons, List.not_mem_nil, or_false, Prod.mk.injEq] at hk
      rcases hk with ⟨rfl, rfl⟩ | ⟨rfl, rfl⟩ | ⟨rfl, rfl⟩ | ⟨rfl, rfl⟩ | ⟨rfl, rfl⟩ | ⟨rfl, rfl⟩ | ⟨rfl, rfl⟩ <;>
        rw [lookup_without] <;> simp [SiteDoc.pairs, List.lookup])]
    simp [lookup_without, readFileInfo, readNChans, SiteDoc.pairs, withDefault, required, List.lookup, readFileInfo_json env m.fileInfo h1,
      readFloat_num env h2, readTime_json env h3, readTime_json env h4, readChans_json env h6, readHistory_json env h7, alsoCheck,
      readInt_int, nChansOf, ok_then, orMetaRead]

/-- **C76 (defaults of a recording)**: the fields a file need not have. -/
theorem C76_time_defaults (env : Reading) (fs : PyNum) (chans : List String) (n : ℤ) (first last : CalTime) (cs : List (String × ChanDoc))
    (hfs : fs.Fits) (h1 : first.Fits) (h2 : last.Fits) (hcs : ChansFit cs) :
    TimeDoc.read env [("fs", .num fs), ("chans", strList chans), ("n_samples", .num (.int n)), ("first_time", timeJson first),
        ("last_time", timeJson last), ("chans_metadata", chansJson cs)] =
      .ok { fileInfo := none, fs := fs.asFloat, chans := chans, nChans := chans.length, nSamples := n, firstTime := first, lastTime := last
            site := { system := "", serial := "", latitude := .float (-999), longitude := .float (-999), easting := .float (-999)
                      northing := .float (-999), elevation := .float (-999) }
            chansMeta := chansAsRead cs, history := [] } := by
  simp [TimeDoc.read, readFileInfo, readNChans, SiteDoc.read, withDefault, required, List.lookup, readFloat_num env hfs,
    readTime_json env h1, readTime_json env h2, readChans_json env hcs, also_ok, readList_strs, readInt_int, nChansOf, ok_then]

/-- **C76 (defaults of calibration data)**: a calibration file needs only the serial number and the three columns; the number of samples
is then the length of the first one. -/
theorem C76_cal_defaults (env : Reading) (serial : ℤ) (freq mag ph : List PyNum) (hf : ∀ x ∈ freq, x.Fits) (hm : ∀ x ∈ mag, x.Fits)
    (hp : ∀ x ∈ ph, x.Fits) :
    CalDoc.read env [("serial", .num (.int serial)), ("frequency", numList freq), ("magnitude", numList mag), ("phase", numList ph)] =
      .ok { fileInfo := none, filePath := none, sensor := "", serial := .number serial, staticGain := .int 1, magnitudeUnit := "mV/nT"
            frequency := freq.map PyNum.asFloat, magnitude := mag.map PyNum.asFloat, phase := ph.map PyNum.asFloat
            nSamples := freq.length } := by
  simp [CalDoc.read, readFileInfo, withDefault, required, List.lookup, readList_nums env _ hf, readList_nums env _ hm,
    readList_nums env _ hp, readSerial, readInt_int, also_ok, ok_then, nSamplesOf, orElse, Except.map]

/-- **C76 (defaults of a contributor)**: the combined data of a site need not say from which measurements they come, nor where the site
is. -/
theorem C76_combined_defaults (env : Reading) (site : String) (fs : PyNum) (chans : List String) (n : ℤ) (freqs : List PyNum)
    (hfs : fs.Fits) (hf : ∀ x ∈ freqs, x.Fits) :
    CombinedDoc.read env [("site_name", .str site), ("fs", .num fs), ("chans", strList chans), ("n_evals", .num (.int n)),
        ("eval_freqs", numList freqs), ("histories", .dict [])] =
      .ok { fileInfo := none, siteName := site, fs := fs.asFloat
            site := { system := "", serial := "", latitude := .float (-999), longitude := .float (-999), easting := .float (-999)
                      northing := .float (-999), elevation := .float (-999) }
            measurements := none, chans := chans, nEvals := n, evalFreqs := freqs.map PyNum.asFloat, histories := [] } := by
  simp [CombinedDoc.read, readFileInfo, SiteDoc.read, withDefault, required, List.lookup, readList_nums env _ hf, readFloat_num env hfs,
    readList_strs, readInt_int, readStr_str, also_ok, readDict]
  rfl

/-- **C76 (defaults of a channel)**: a channel needs only its name, and a type when it has none of the usual names; one file need not be
in a list. -/
theorem C76_chan_defaults (env : Reading) (name file : String) :
    ChanDoc.read env [("name", .str name)] =
      (getChanType name).map (fun t => ⟨name, none, t, none, "", "", .int 1, .int 1, .int 1, false, .int 1, "", ""⟩) ∧
    ChanDoc.read env [("name", .str name), ("data_files", .str file)] =
      (getChanType name).map (fun t => ⟨name, some [file], t, none, "", "", .int 1, .int 1, .int 1, false, .int 1, "", ""⟩) ∧
    ChanDoc.read env [] = .error .key := by
  refine ⟨?_, ?_, ?_⟩
  · cases hg : getChanType name with
    | ok t =>
      simp [ChanDoc.read, withDefault, required, List.lookup, readStr_str, ok_then, also_ok, chanTypeOf, hg, Except.map]
    | error e =>
      have he : e = .value := by
        unfold getChanType at hg
        split at hg
        · cases hg
        · split at hg
          · cases hg
          · exact (Except.error.inj hg).symm
      subst he
      simp [ChanDoc.read, withDefault, required, List.lookup, readStr_str, ok_then, alsoCheck, chanTypeOf, hg, Except.map]
  · cases hg : getChanType name with
    | ok t =>
      simp [ChanDoc.read, withDefault, required, List.lookup, readStr_str, ok_then, also_ok, chanTypeOf, hg, Except.map, readDataFiles]
    | error e =>
      have he : e = .value := by
        unfold getChanType at hg
        split at hg
        · cases hg
        · split at hg
          · cases hg
          · exact (Except.error.inj hg).symm
      subst he
      simp [ChanDoc.read, withDefault, required, List.lookup, readStr_str, ok_then, alsoCheck, chanTypeOf, hg, Except.map, readDataFiles]
  · simp [ChanDoc.read, withDefault, required, List.lookup, ok_then, alsoCheck, chanTypeOf]

/-! ## A case -/

/-- An evening in May. -/
def demoEvening : Clock := ⟨{ year := 2021, month := 5, day := 1, hour := 20, microsecond := 250 }, { year := 2021, month := 5, day := 1, hour := 18, microsecond := 250 }⟩

/-- A reader without coercions. -/
def demoReading : Reading where
  str := fun _ => .error .value
  bool := fun _ => .error .value
  int := fun _ => .error .value
  float := fun _ => .error .value
  native := fun _ => .error .value
  pairs := fun _ => .error .value
  pandas := fun _ => .error .value
  path := id
  now := demoEvening
  version := "1.0.0a3"
  tfTypes := [("ImpedanceTensor", tfImpedance)]

theorem demoReading_clocks : demoReading.ClocksRun := by
  refine ⟨⟨⟨_, rfl⟩, rfl⟩, ⟨⟨_, rfl⟩, rfl⟩⟩

/-- A quarter as a double. -/
theorem demo_quarter : (PyNum.float (1 / 4)).Fits :=
  ⟨⟨1, -2, by norm_num, by norm_num, by norm_num, by norm_num [zpow_neg]⟩, fun _ h => by cases h⟩

/-- A number that was a default. -/
theorem demo_int (n : ℤ) (h : |n| ≤ 2 ^ 53) : (PyNum.int n).Fits := ⟨trivial, fun m hm => by cases hm; exact h⟩

/-- A negative double. -/
theorem demo_unknown : (PyNum.float (-999)).Fits :=
  ⟨⟨-999, 0, by norm_num, by norm_num, by norm_num, by norm_num⟩, fun _ h => by cases h⟩

/-- A time with parts of a nanosecond. -/
def demoInstant : CalTime := { year := 2021, month := 1, day := 2, hour := 3, nanosecond := 1 / 8 }

theorem demoInstant_fits : demoInstant.Fits := by
  refine ⟨by decide +kernel, by decide, ⟨(demoInstant.micros : ℤ) * 10 ^ 18 + 125000000000000, ?_⟩⟩
  unfold CalTime.instant
  rw [show demoInstant.nanosecond = 1 / 8 from rfl]
  push_cast
  ring

/-- A recording with a channel and a record in its history. -/
def demoTimeDoc : TimeDoc where
  fileInfo := none
  fs := .float (1 / 4)
  chans := ["Ex é"]
  nChans := 1
  nSamples := 12
  firstTime := demoInstant
  lastTime := { demoInstant with day := 3 }
  site := ⟨"", "x", .float (-999), .float (1 / 4), .float (-999), .float (-999), .float (-999)⟩
  chansMeta := [("Ex é", ⟨"Ex é", some ["a.ats", "b.ats"], "electric", none, "", "", .int 1, .float (1 / 4), .int 1, true, .int 80, "", ""⟩)]
  history := [⟨demoEvening.localNow, demoEvening.utcNow, [("name", .str "LowPass"), ("cutoff", .num (.float (1 / 4)))], ["filtered"], "process"⟩]

theorem demoTimeDoc_fits : demoTimeDoc.Fits := by
  refine ⟨fun f hf => by simp [demoTimeDoc] at hf, demo_quarter, demoInstant_fits, ?_,
    ⟨demo_unknown, demo_quarter, demo_unknown, demo_unknown, demo_unknown⟩, ⟨by simp [demoTimeDoc], ?_⟩, ?_⟩
  · refine ⟨by decide +kernel, by decide, ⟨(demoTimeDoc.lastTime.micros : ℤ) * 10 ^ 18 + 125000000000000, ?_⟩⟩
    unfold CalTime.instant
    rw [show demoTimeDoc.lastTime.nanosecond = 1 / 8 from rfl]
    push_cast
    ring
  · intro q hq
    simp only [demoTimeDoc, List.mem_singleton] at hq
    subst hq
    exact ⟨demo_int 1 (by norm_num), demo_quarter, demo_int 1 (by norm_num), demo_int 80 (by norm_num)⟩
  · intro r hr
    simp only [demoTimeDoc, List.mem_singleton] at hr
    subst hr
    refine ⟨demoReading_clocks.1, demoReading_clocks.2, ?_⟩
    simp only [Json.Good, GoodPairs, PyNum.Good, and_true, true_and]
    exact ⟨by decide, demo_quarter.1⟩

/-- What is read has the time of writing, and floats where integers were defaults. -/
example : readAs demoReading .time (Document.write demoReading (.time demoTimeDoc)) =
    .ok (.time { demoTimeDoc with
      fileInfo := some ⟨demoEvening.localNow, demoEvening.utcNow, some "1.0.0a3"⟩
      chansMeta := [("Ex é", ⟨"Ex é", some ["a.ats", "b.ats"], "electric", none, "", "", .float 1, .float (1 / 4), .float 1, true, .float 80,
        "", ""⟩)] }) := by
  rw [show DocKind.time = (Document.time demoTimeDoc).kind from rfl, C76_round_trip demoReading demoReading (.time demoTimeDoc) demoTimeDoc_fits demoReading_clocks]
  norm_num [Document.asWritten, TimeDoc.asRead, demoTimeDoc, PyNum.asFloat, SiteDoc.asRead, ChanDoc.asRead, chansAsRead, newFileInfo, demoReading]

example : ((Document.write demoReading (.time demoTimeDoc)).take 161) =
    "{\"file_info\": {\"created_on_local\": \"2021-05-01T20:00:00.000250\", \"created_on_utc\": \"2021-05-01T18:00:00.000250\", \"version\": \"1.0.0a3\"}, \"fs\": 0.25, \"chans\": [\"Ex".toList := by
  decide +kernel

/-- Interrupted after 161 characters. -/
example (k : DocKind) : readAs demoReading k ((Document.write demoReading (.time demoTimeDoc)).take 161) = .error .value :=
  C76_interrupted demoReading demoReading _ (show (Document.time demoTimeDoc).Fits demoReading from demoTimeDoc_fits) demoReading_clocks k _
    ((Document.write demoReading (.time demoTimeDoc)).drop 161) (List.take_append_drop _ _).symm (by decide +kernel)

/-- A solution of the impedance tensor. -/
def demoSolutionDoc : SolutionDoc where
  fileInfo := none
  tf := ⟨"ImpedanceTensor", "default", ["Ex", "Ey"], ["Hx", "Hy"], ["Hx", "Hy"], 2, 2, 2⟩
  freqs := [.float (1 / 4)]
  components := [("ExHx", ⟨[.float (1 / 4)], [.nan]⟩)]
  history := []
  contributors := [("site1", .combined ⟨none, "site1", .float (1 / 4), demoTimeDoc.site, some ["m1"], ["Ex"], 1, [.float (1 / 4)],
    [("m1", demoTimeDoc.history)]⟩)]

theorem demoSolutionDoc_fits : demoSolutionDoc.Fits demoReading := by
  refine ⟨fun f hf => by simp [demoSolutionDoc] at hf, ?_, ?_, ⟨by simp [demoSolutionDoc], ?_⟩, ?_, ⟨by simp [demoSolutionDoc], ?_⟩⟩
  · exact ⟨tfImpedance, {}, rfl, rfl, .inr ⟨by decide, rfl⟩⟩
  · intro f hf
    simp only [demoSolutionDoc, List.mem_singleton] at hf
    exact hf ▸ demo_quarter
  · intro q hq
    simp only [demoSolutionDoc, List.mem_singleton] at hq
    subst hq
    refine ⟨fun f hf => ?_, fun f hf => ?_⟩
    · rw [List.mem_singleton] at hf
      exact hf ▸ demo_quarter
    · rw [List.mem_singleton] at hf
      exact hf ▸ ⟨trivial, fun _ h => by cases h⟩
  · intro r hr
    simp [demoSolutionDoc] at hr
  · intro q hq
    simp only [demoSolutionDoc, List.mem_singleton] at hq
    subst hq
    refine ⟨fun f hf => by simp at hf, demo_quarter, demoTimeDoc_fits.2.2.2.2.1, fun f hf => ?_, by simp, fun h hh => ?_⟩
    · rw [List.mem_singleton] at hf
      exact hf ▸ demo_quarter
    · rw [List.mem_singleton] at hh
      subst hh
      exact demoTimeDoc_fits.2.2.2.2.2.2

example : readAs demoReading .solution (Document.write demoReading (.solution demoSolutionDoc)) =
    .ok (.solution { demoSolutionDoc with fileInfo := some ⟨demoEvening.localNow, demoEvening.utcNow, some "1.0.0a3"⟩ }) := by
  rw [show DocKind.solution = (Document.solution demoSolutionDoc).kind from rfl,
    C76_round_trip demoReading demoReading (.solution demoSolutionDoc) demoSolutionDoc_fits demoReading_clocks]
  rfl

/-- Metadata of spectra are taken for those of a project. -/
def demoSpecDoc : SpecDoc where
  main := ⟨none, [.float (1 / 4)], ["Ex"], 1, 1, demoInstant, demoInstant, demoTimeDoc.site, demoTimeDoc.chansMeta,
    [⟨⟨.float (1 / 4), 10, 128, 32, 0⟩, 1, [.float (1 / 4)]⟩]⟩
  refTime := demoInstant
  history := demoTimeDoc.history

theorem demoSpecDoc_fits : demoSpecDoc.Fits := by
  refine ⟨⟨fun f hf => by simp [demoSpecDoc] at hf, fun f hf => ?_, demoInstant_fits, demoInstant_fits, demoTimeDoc_fits.2.2.2.2.1,
    demoTimeDoc_fits.2.2.2.2.2.1, fun l hl => ?_⟩, demoInstant_fits, demoTimeDoc_fits.2.2.2.2.2.2⟩
  · simp only [demoSpecDoc, List.mem_singleton] at hf
    exact hf ▸ demo_quarter
  · simp only [demoSpecDoc, List.mem_singleton] at hl
    subst hl
    refine ⟨⟨demo_quarter, by decide, by decide⟩, fun f hf => ?_⟩
    rw [List.mem_singleton] at hf
    exact hf ▸ demo_quarter

example : readAs demoReading .project (Document.write demoReading (.spectra demoSpecDoc)) =
    .ok (.project ⟨some (newFileInfo demoReading), demoInstant, "", "", -999, "", []⟩) :=
  (C76_read_as_project demoReading demoReading demoReading_clocks).2 demoSpecDoc demoSpecDoc_fits

example : ¬∃ d, readAs demoReading .decimated (Document.write demoReading (.spectra demoSpecDoc)) = .ok d := by
  rw [C76_other_classes demoReading demoReading demoReading_clocks (.spectra demoSpecDoc) demoSpecDoc_fits .decimated (by decide)]
  simp [Document.AlsoReadAs, demoSpecDoc]

end Resistics
