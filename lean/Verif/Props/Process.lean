import Verif.Model.Process
import Verif.Props.ProjectPaths
import Verif.Props.FilesCrash
import Verif.Props.TransFunc

/-!
# The processing steps of a project (C45: solutions)
-/

namespace Resistics

/-! ## The file of a solution -/

theorem splitSlash_head (cur cs : List Char) :
    ∃ r l, splitSlash cur cs = String.ofList (cur.reverse ++ r) :: l := by
  induction cs generalizing cur with
  | nil => exact ⟨[], [], by simp [splitSlash]⟩
  | cons c cs ih =>
    unfold splitSlash
    split
    · exact ⟨[], splitSlash [] cs, by simp⟩
    · obtain ⟨r, l, h⟩ := ih (c :: cur)
      exact ⟨c :: r, l, by rw [h]; simp⟩

theorem pathJoin_ne_nil (p : Path) {s : String} {c : Char} (h : s.toList.head? = some c) (h1 : c ≠ '/') (h2 : c ≠ '.') :
    pathJoin p s ≠ [] := by
  unfold pathJoin
  rw [if_neg (by rw [h]; simpa using h1)]
  intro he
  have he := (List.append_eq_nil_iff.1 he).2
  unfold pathParts at he
  cases hs : s.toList with
  | nil => rw [hs] at h; cases h
  | cons x cs =>
    rw [hs, List.head?_cons, Option.some.injEq] at h
    subst h
    rw [hs] at he
    unfold splitSlash at he
    rw [if_neg h1] at he
    obtain ⟨r, l, hr⟩ := splitSlash_head [x] cs
    rw [hr, List.filter_cons_of_pos] at he
    · cases he
    · simp only [List.reverse_cons, List.reverse_nil, List.nil_append, decide_eq_true_eq]
      constructor
      · intro hq
        have := congrArg String.toList hq
        simp at this
      · intro hq
        have := congrArg String.toList hq
        simp only [String.toList_ofList] at this
        exact h2 (by simpa using congrArg List.head? this)

theorem repr_head (n : ℕ) : ∃ c, n.repr.toList.head? = some c ∧ c.isDigit = true := by
  have h : n.repr.toList = Nat.toDigits 10 n := by simp [Nat.repr]
  rw [h]
  cases hd : Nat.toDigits 10 n with
  | nil => exact absurd hd (by simp)
  | cons c l => exact ⟨c, rfl, Nat.isDigit_of_mem_toDigits (b := 10) (n := n) (by norm_num) (by norm_num) (by rw [hd]; simp)⟩

theorem fsToString_head (f : ℚ) : ∃ c, (fsToString f).toList.head? = some c ∧ c ≠ '/' ∧ c ≠ '.' := by
  unfold fsToString
  simp only
  split
  · exact ⟨'-', by simp, by decide, by decide⟩
  · obtain ⟨c, h1, h2⟩ := repr_head ((pyRound (|f| * 1000000)).toNat / 1000000)
    refine ⟨c, ?_, ?_, ?_⟩
    · rw [String.toList_append, String.toList_append, String.toList_append]
      simp only [String.toList_empty, List.nil_append, List.append_assoc]
      rw [List.head?_append, h1]; rfl
    · rintro rfl; revert h2; decide
    · rintro rfl; revert h2; decide

theorem solutionName_head (f : ℚ) (t v : String) (p : Option String) :
    ∃ c, (getSolutionName f t v p).toList.head? = some c ∧ c ≠ '/' ∧ c ≠ '.' := by
  obtain ⟨c, h1, h2⟩ := fsToString_head f
  refine ⟨c, ?_, h2⟩
  have hx : ∃ rest, getSolutionName f t v p = fsToString f ++ rest := by
    unfold getSolutionName
    simp only
    cases p <;> simp only <;> split <;> exact ⟨_, by simp only [String.append_assoc]; rfl⟩
  obtain ⟨rest, hx⟩ := hx
  rw [hx, String.toList_append, List.head?_append, h1]; rfl

/-- The file of a solution: directory and name. -/
theorem solutionPath (dir : Path) (f : ℚ) (t v : String) (p : Option String) :
    (pathJoin dir (getSolutionName f t v p)).dropLast ++ [pathName (pathJoin dir (getSolutionName f t v p))] =
      pathJoin dir (getSolutionName f t v p) := by
  obtain ⟨c, h1, h2, h3⟩ := solutionName_head f t v p
  have hne := pathJoin_ne_nil dir h1 h2 h3
  unfold pathName
  rw [List.getLast?_eq_getLast_of_ne_nil hne]
  exact List.dropLast_append_getLast hne

/-! ## Writing -/

theorem solveWith_tf {getCoef : List (List ℝ) → List ℝ → Except Err (List ℝ)} {r : RegInput} {sol : Solution}
    (h : solveWith getCoef r = .ok sol) : sol.tf = r.tf ∧ sol.freqs = r.freqs := by
  unfold solveWith at h
  simp only [bind, Except.bind, throw, throwThe, MonadExceptOf.throw] at h
  split at h
  · cases h
  · split at h
    · cases h
    · unfold getSolutionOf at h
      simp only [bind, Except.bind, pure, Except.pure] at h
      split at h
      · cases h
      · cases h; exact ⟨rfl, rfl⟩

theorem prepareGathered_tf {tf : TransFunc} {g : Gathered ℂ} {r : RegInput} (h : prepareGathered tf g = .ok r) :
    r.tf = tf := by
  unfold prepareGathered at h
  simp only [bind, Except.bind, pure, Except.pure] at h
  split at h
  · cases h
  · cases h; rfl

theorem Config.solve_tf {c : Config} {g : Gathered ℂ} {sol : Solution} (h : c.solve g = .ok sol) : sol.tf = c.tf := by
  unfold Config.solve at h
  obtain ⟨r, h1, h2⟩ := except_bind_ok.1 h
  rw [(solveWith_tf h2).1, prepareGathered_tf h1]

theorem Config.tfOf_tf {c : Config} {p : Project ℂ} {disk : FS ℂ} {fs : ℚ} {outSite : String}
    {inSite crossSite : Option String} {sol : Solution} (h : c.tfOf p disk fs outSite inSite crossSite = .ok sol) :
    sol.tf = c.tf := by
  unfold Config.tfOf at h
  obtain ⟨_, _, h⟩ := except_bind_ok.1 h
  obtain ⟨_, _, h⟩ := except_bind_ok.1 h
  obtain ⟨_, _, h⟩ := except_bind_ok.1 h
  exact Config.solve_tf h

variable {W : Type}

/-- Making a directory when it is missing: it raises and changes nothing, or ends in a file system where at most missing
parents were made. -/
theorem ensureDir_run (dir : Path) (s : FsState W) :
    ensureDir dir s = (.error .os, s) ∨
      ∃ steps, ensureDir dir s = (.ok (), s.after steps) ∧ ∀ t ∈ steps, Frame dir [] s.fs t := by
  have hrun : ensureDir dir s = (if (s.fs dir).isSome then pure () else mkdirParents dir : FsM W Unit) s := by
    unfold ensureDir
    rw [fs_read_bind]
  rw [hrun]
  cases hd : s.fs dir with
  | some n =>
    right
    exact ⟨[], by rw [after_nil]; rfl, by simp⟩
  | none =>
    simp only [Option.isSome_none, Bool.false_eq_true, if_false]
    have hm : mkdirParents dir s =
        (if (dir.inits.any fun q => s.fs.isFile q) then throw .os else mkdirEach dir.inits : FsM W Unit) s := by
      unfold mkdirParents
      rw [fs_read_bind]
    rw [hm]
    split
    · left; rfl
    · right
      obtain ⟨steps, h1, _, h3⟩ := mkdirEach_run dir dir.inits (fun q hq => (List.mem_inits _ _).1 hq) s
      exact ⟨steps, h1, h3⟩

/-- What `process_evals_to_tf` does: nothing is written unless the solution was computed; then at most missing directories
on the way to the results directory are made and the file of the solution is written. -/
theorem processEvalsToTf_run (c : Config) (p : Project ℂ) (fs : ℚ) (outSite : String)
    (inSite crossSite postfix? : Option String) (s : FsState ℂ) :
    (∃ e, processEvalsToTf c p fs outSite inSite crossSite postfix? s = (.error e, s) ∧
      ∀ sol, c.tfOf p s.fs fs outSite inSite crossSite = .ok sol → e = .os) ∨
    ∃ sol steps, c.tfOf p s.fs fs outSite inSite crossSite = .ok sol ∧
      (∀ t ∈ steps, Frame (getResultsPath p.dirPath outSite c.name) [] s.fs t) ∧
      ((processEvalsToTf c p fs outSite inSite crossSite postfix? s = (.error .os, s.after steps)) ∨
      ∃ path, path = pathJoin (getResultsPath p.dirPath outSite c.name) (getSolutionName fs c.tf.name c.tf.variation postfix?) ∧
        processEvalsToTf c p fs outSite inSite crossSite postfix? s = (.ok sol, s.after (steps ++
          [(s.after steps).fs.set path (.file .torn), (s.after steps).fs.set path (.file (.solJson sol))]))) := by
  unfold processEvalsToTf
  rw [fs_read_bind]
  cases hsol : c.tfOf p s.fs fs outSite inSite crossSite with
  | error e => exact Or.inl ⟨e, rfl, by simp⟩
  | ok sol =>
    simp only
    rw [fs_bind]
    rcases ensureDir_run (getResultsPath p.dirPath outSite c.name) s with he | ⟨steps, he, hf⟩
    · rw [he]
      exact Or.inl ⟨.os, rfl, fun _ _ => rfl⟩
    · rw [he]
      simp only
      right
      refine ⟨sol, steps, rfl, hf, ?_⟩
      rw [Config.tfOf_tf hsol, fs_bind]
      unfold writeSolution
      rcases writeFile_run (pathJoin (getResultsPath p.dirPath outSite c.name)
        (getSolutionName fs c.tf.name c.tf.variation postfix?)).dropLast (pathName (pathJoin
        (getResultsPath p.dirPath outSite c.name) (getSolutionName fs c.tf.name c.tf.variation postfix?)))
        (.solJson sol) (s.after steps) with ⟨_, hw⟩ | ⟨_, hw⟩
      · rw [hw, solutionPath]
        right
        refine ⟨_, rfl, ?_⟩
        simp only
        rw [after_after]
        rfl
      · rw [hw]
        exact Or.inl rfl

/-! ## Reading back -/

/-- Reading a solution depends on its file only. -/
theorem getSolution_congr (types : List (String × TfClass)) {fs t : FS W} {proj : Path} {site config : String} {rate : ℚ}
    {name var : String} {postfix? : Option String}
    (h : fs.content (pathJoin (getResultsPath proj site config) (getSolutionName rate name var postfix?)) =
      t.content (pathJoin (getResultsPath proj site config) (getSolutionName rate name var postfix?))) :
    getSolution types fs proj site config rate name var postfix? =
      getSolution types t proj site config rate name var postfix? := by
  unfold getSolution
  rw [h]

theorem Frame.content_eq {dir : Path} {fs t : FS W} (h : Frame dir [] fs t) (q : Path) : t.content q = fs.content q := by
  unfold FS.content
  rcases h q with h | ⟨_, h1, h2⟩ | ⟨n, hn, _⟩
  · rw [h]
  · rw [h1, h2]
  · cases hn

theorem content_set_eq {fs : FS W} {p : Path} {c : Content W} : (fs.set p (.file c)).content p = .ok c := by
  unfold FS.content
  rw [set_eq]

theorem content_set_ne {fs : FS W} {p q : Path} {c : Content W} (h : q ≠ p) :
    (fs.set p (.file c)).content q = fs.content q := by
  unfold FS.content
  rw [set_ne h]

theorem mem_trace_append {s : FsState W} {a : List (FS W)} {x y : FS W} :
    (s.after (a ++ [x, y])).fs = y := by
  simp [FsState.after]

/-- **C45 (the solution read is the solution written)**: when `process_evals_to_tf` returns a solution, `get_solution` with
the same site, configuration, sampling frequency and postfix and with the transfer function's name and variation returns
that solution, provided the class of the transfer function is registered when it is read. -/
theorem C45_solution_read_back (c : Config) (p : Project ℂ) (fs : ℚ) (outSite : String)
    (inSite crossSite postfix? : Option String) (s s' : FsState ℂ) (sol : Solution)
    (h : processEvalsToTf c p fs outSite inSite crossSite postfix? s = (.ok sol, s'))
    (types : List (String × TfClass)) (cls : TfClass) (a : TfArgs) (ha : a.name = none)
    (htf : mkTransFunc cls a = .ok c.tf)
    (hreg : cls.className = "TransferFunction" ∧ cls = tfBase ∨
      cls.className ≠ "TransferFunction" ∧ types.lookup cls.className = some cls) :
    sol.tf = c.tf ∧
      getSolution types s'.fs p.dirPath outSite c.name fs c.tf.name c.tf.variation postfix? = .ok sol := by
  rcases processEvalsToTf_run c p fs outSite inSite crossSite postfix? s with ⟨e, he, _⟩ | ⟨x, steps, hx, _, he | ⟨path, hp, he⟩⟩
  · rw [h] at he; cases he
  · rw [h] at he; cases he
  · rw [h] at he
    obtain ⟨h1, h2⟩ := Prod.mk.inj he
    cases h1
    have htf' := Config.tfOf_tf hx
    refine ⟨htf', ?_⟩
    unfold getSolution
    rw [h2, mem_trace_append, ← hp, content_set_eq]
    simp only [bind, Except.bind, parseSolution, pure, Except.pure]
    rw [htf', C37_dict_roundtrip types cls a c.tf ha htf hreg]
    simp only
    rw [← htf']

/-- **C45 (other solutions are kept)**: whatever happens in `process_evals_to_tf`, and in every state it passes through (so
also when it is interrupted), a solution with another file is read as before. -/
theorem C45_other_solutions (c : Config) (p : Project ℂ) (fs : ℚ) (outSite : String)
    (inSite crossSite postfix? : Option String) (s : FsState ℂ) (types : List (String × TfClass))
    (site config : String) (rate : ℚ) (name var : String) (post : Option String)
    (hne : pathJoin (getResultsPath p.dirPath site config) (getSolutionName rate name var post) ≠
      pathJoin (getResultsPath p.dirPath outSite c.name) (getSolutionName fs c.tf.name c.tf.variation postfix?)) :
    ∃ steps, (processEvalsToTf c p fs outSite inSite crossSite postfix? s).2.trace = s.trace ++ steps ∧
      ∀ t ∈ (processEvalsToTf c p fs outSite inSite crossSite postfix? s).2.fs :: steps,
        getSolution types t p.dirPath site config rate name var post =
          getSolution types s.fs p.dirPath site config rate name var post := by
  rcases processEvalsToTf_run c p fs outSite inSite crossSite postfix? s with
    ⟨e, he, _⟩ | ⟨x, steps, _, hf, he | ⟨path, hp, he⟩⟩
  · rw [he]
    refine ⟨[], by simp, ?_⟩
    intro t ht
    rw [List.mem_singleton] at ht
    rw [ht]
  · rw [he]
    refine ⟨steps, rfl, ?_⟩
    intro t ht
    apply getSolution_congr
    rcases List.mem_cons.1 ht with rfl | ht
    · exact (after_fs_frame hf).content_eq _
    · exact (hf t ht).content_eq _
  · rw [he]
    refine ⟨_, rfl, ?_⟩
    intro t ht
    apply getSolution_congr
    simp only [List.mem_cons, List.mem_append, List.not_mem_nil, or_false, mem_trace_append] at ht
    rw [hp] at ht
    rcases ht with rfl | ht | rfl | rfl
    · rw [content_set_ne hne]; exact (after_fs_frame hf).content_eq _
    · exact (hf t ht).content_eq _
    · rw [content_set_ne hne]; exact (after_fs_frame hf).content_eq _
    · rw [content_set_ne hne]; exact (after_fs_frame hf).content_eq _

/-- **C45 (interruption)**: in every state that `process_evals_to_tf` passes through, `get_solution` with the same request
returns what it returned before, the new solution, or raises a validation error; it never returns anything else. -/
theorem C45_interrupted_solution (c : Config) (p : Project ℂ) (fs : ℚ) (outSite : String)
    (inSite crossSite postfix? : Option String) (s : FsState ℂ) (types : List (String × TfClass)) (cls : TfClass) (a : TfArgs)
    (ha : a.name = none) (htf : mkTransFunc cls a = .ok c.tf)
    (hreg : cls.className = "TransferFunction" ∧ cls = tfBase ∨
      cls.className ≠ "TransferFunction" ∧ types.lookup cls.className = some cls) :
    ∃ steps, (processEvalsToTf c p fs outSite inSite crossSite postfix? s).2.trace = s.trace ++ steps ∧
      ∀ t ∈ steps,
        getSolution types t p.dirPath outSite c.name fs c.tf.name c.tf.variation postfix? =
            getSolution types s.fs p.dirPath outSite c.name fs c.tf.name c.tf.variation postfix? ∨
        getSolution types t p.dirPath outSite c.name fs c.tf.name c.tf.variation postfix? = .error .value ∨
        ∃ sol, c.tfOf p s.fs fs outSite inSite crossSite = .ok sol ∧
          getSolution types t p.dirPath outSite c.name fs c.tf.name c.tf.variation postfix? = .ok sol := by
  rcases processEvalsToTf_run c p fs outSite inSite crossSite postfix? s with
    ⟨e, he, _⟩ | ⟨x, steps, hx, hf, he | ⟨path, hp, he⟩⟩
  · rw [he]
    exact ⟨[], by simp, by simp⟩
  · rw [he]
    refine ⟨steps, rfl, ?_⟩
    intro t ht
    exact Or.inl (getSolution_congr types ((hf t ht).content_eq _))
  · have hfin := C45_solution_read_back c p fs outSite inSite crossSite postfix? s _ x he types cls a ha htf hreg
    rw [he]
    refine ⟨_, rfl, ?_⟩
    intro t ht
    simp only [List.mem_cons, List.mem_append, List.not_mem_nil, or_false] at ht
    rcases ht with ht | rfl | rfl
    · exact Or.inl (getSolution_congr types ((hf t ht).content_eq _))
    · right; left
      unfold getSolution
      rw [← hp, content_set_eq]
      rfl
    · right; right
      rw [mem_trace_append] at hfin
      exact ⟨x, hx, hfin.2⟩

/-- **C45 (nothing without a solution)**: when the data cannot be gathered or solved, the exception is passed on and the file
system is not touched. -/
theorem C45_failed_solution (c : Config) (p : Project ℂ) (fs : ℚ) (outSite : String)
    (inSite crossSite postfix? : Option String) (s : FsState ℂ) (e : Err)
    (h : c.tfOf p s.fs fs outSite inSite crossSite = .error e) :
    processEvalsToTf c p fs outSite inSite crossSite postfix? s = (.error e, s) := by
  unfold processEvalsToTf
  rw [fs_read_bind, h]

end Resistics
