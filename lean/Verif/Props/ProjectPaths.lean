import Verif.Props.ProjectCreate
import Verif.Lemmas.Sampling

/-!
# Where a project keeps its data (C45)
-/

namespace Resistics

variable {W : Type}

/-! ## Specification -/

/-- Specification: a name that is a single component of a path. -/
def IsName (s : String) : Prop := s ≠ "" ∧ s ≠ "." ∧ s ≠ ".." ∧ '/' ∉ s.toList

/-- Specification: the kinds of data of a project, with the names that identify them. -/
inductive DataId where
  | calibration
  | time (site meas : String)
  | spectra (site meas config : String)
  | evals (site meas config : String)
  | features (site meas config : String)
  | masks (site config : String)
  | results (site config : String)
  deriving DecidableEq

/-- The path of data, by the function of /repo/resistics/project.py for their kind. -/
def DataId.path (proj : Path) : DataId → Path
  | .calibration => getCalibrationPath proj
  | .time site meas => getMeasTimePath proj site meas
  | .spectra site meas config => getMeasSpectraPath proj site meas config
  | .evals site meas config => getMeasEvalsPath proj site meas config
  | .features site meas config => getMeasFeaturesPath proj site meas config
  | .masks site config => getMaskPath proj site config
  | .results site config => getResultsPath proj site config

/-- Specification: the names are single components. -/
def DataId.Named : DataId → Prop
  | .calibration => True
  | .time site meas => IsName site ∧ IsName meas
  | .spectra site meas config => IsName site ∧ IsName meas ∧ IsName config
  | .evals site meas config => IsName site ∧ IsName meas ∧ IsName config
  | .features site meas config => IsName site ∧ IsName meas ∧ IsName config
  | .masks site config => IsName site ∧ IsName config
  | .results site config => IsName site ∧ IsName config

/-! ## Paths -/

theorem splitSlash_none (cur cs : List Char) (h : '/' ∉ cs) :
    splitSlash cur cs = [String.ofList (cur.reverse ++ cs)] := by
  induction cs generalizing cur with
  | nil => simp [splitSlash]
  | cons c cs ih =>
    rw [List.mem_cons, not_or] at h
    unfold splitSlash
    rw [if_neg (fun hc => h.1 hc.symm), ih _ h.2]
    simp

theorem pathJoin_name (p : Path) {s : String} (h1 : s ≠ "") (h2 : s ≠ ".") (h3 : '/' ∉ s.toList) :
    pathJoin p s = p ++ [s] := by
  unfold pathJoin
  rw [if_neg]
  · unfold pathParts
    rw [splitSlash_none [] _ h3]
    simp [h1, h2]
  · intro h
    exact h3 (List.mem_of_head? h)

theorem IsName.join {s : String} (h : IsName s) (p : Path) : pathJoin p s = p ++ [s] := pathJoin_name p h.1 h.2.1 h.2.2.2

theorem isName_of (s : String) (h : s ≠ "" ∧ s ≠ "." ∧ s ≠ ".." ∧ '/' ∉ s.toList) : IsName s := h

/-- The components of the path below the project directory. -/
def DataId.rel : DataId → List String
  | .calibration => ["calibrate"]
  | .time site meas => ["time", site, meas]
  | .spectra site meas config => ["spectra", site, config, meas]
  | .evals site meas config => ["evals", site, config, meas]
  | .features site meas config => ["features", site, config, meas]
  | .masks site config => ["masks", site, config]
  | .results site config => ["results", site, config]

theorem DataId.path_eq (proj : Path) {d : DataId} (h : d.Named) : d.path proj = proj ++ d.rel := by
  have j : ∀ (s : String) (p : Path), s ∈ ["calibrate", "time", "spectra", "evals", "features", "masks", "results"] →
      pathJoin p s = p ++ [s] := by
    intro s p hs
    have hall : ∀ s ∈ ["calibrate", "time", "spectra", "evals", "features", "masks", "results"],
        s ≠ "" ∧ s ≠ "." ∧ '/' ∉ s.toList := by decide
    obtain ⟨h1, h2, h3⟩ := hall s hs
    exact pathJoin_name p h1 h2 h3
  cases d with
  | calibration =>
    show pathJoin proj "calibrate" = _
    rw [j _ _ (by simp)]; rfl
  | time site meas =>
    show pathJoin (pathJoin (pathJoin proj "time") site) meas = _
    rw [j "time" _ (by simp), h.1.join, h.2.join]
    simp [DataId.rel]
  | spectra site meas config =>
    show pathJoin (pathJoin (pathJoin (pathJoin proj "spectra") site) config) meas = _
    rw [j "spectra" _ (by simp), h.1.join, h.2.2.join, h.2.1.join]
    simp [DataId.rel]
  | evals site meas config =>
    show pathJoin (pathJoin (pathJoin (pathJoin proj "evals") site) config) meas = _
    rw [j "evals" _ (by simp), h.1.join, h.2.2.join, h.2.1.join]
    simp [DataId.rel]
  | features site meas config =>
    show pathJoin (pathJoin (pathJoin (pathJoin proj "features") site) config) meas = _
    rw [j "features" _ (by simp), h.1.join, h.2.2.join, h.2.1.join]
    simp [DataId.rel]
  | masks site config =>
    show pathJoin (pathJoin (pathJoin proj "masks") site) config = _
    rw [j "masks" _ (by simp), h.1.join, h.2.join]
    simp [DataId.rel]
  | results site config =>
    show pathJoin (pathJoin (pathJoin proj "results") site) config = _
    rw [j "results" _ (by simp), h.1.join, h.2.join]
    simp [DataId.rel]

/-- **C45 (paths)**: for names that are single components, the directories of different data of a project are different,
they lie inside the project, and none lies inside another one. -/
theorem C45_paths_distinct (proj : Path) (a b : DataId) (ha : a.Named) (hb : b.Named) :
    (a.path proj = b.path proj ↔ a = b) ∧ (a.path proj <+: b.path proj → a = b) ∧ proj <+: a.path proj := by
  have key : a.path proj <+: b.path proj → a = b := by
    rw [DataId.path_eq proj ha, DataId.path_eq proj hb, List.prefix_append_right_inj]
    intro h
    cases a <;> cases b <;> simp_all [DataId.rel]
  refine ⟨⟨fun h => key (h ▸ List.prefix_refl _), fun h => by rw [h]⟩, key, ?_⟩
  rw [DataId.path_eq proj ha]
  exact List.prefix_append _ _

/-- **C45 (directories and kinds)**: for names that are single components, the data of a kind lie in the sub-directory of
that kind which project creation makes. -/
theorem C45_paths_in_their_directory (proj : Path) (site meas config : String) (hs : IsName site) (hm : IsName meas)
    (hc : IsName config) :
    getMeasTimePath proj site meas = proj ++ ["time", site, meas] ∧
    getMeasSpectraPath proj site meas config = proj ++ ["spectra", site, config, meas] ∧
    getMeasEvalsPath proj site meas config = proj ++ ["evals", site, config, meas] ∧
    getMeasFeaturesPath proj site meas config = proj ++ ["features", site, config, meas] ∧
    getMaskPath proj site config = proj ++ ["masks", site, config] ∧
    getResultsPath proj site config = proj ++ ["results", site, config] ∧
    getCalibrationPath proj = proj ++ ["calibrate"] :=
  ⟨DataId.path_eq proj (d := .time site meas) ⟨hs, hm⟩, DataId.path_eq proj (d := .spectra site meas config) ⟨hs, hm, hc⟩,
   DataId.path_eq proj (d := .evals site meas config) ⟨hs, hm, hc⟩,
   DataId.path_eq proj (d := .features site meas config) ⟨hs, hm, hc⟩,
   DataId.path_eq proj (d := .masks site config) ⟨hs, hc⟩, DataId.path_eq proj (d := .results site config) ⟨hs, hc⟩,
   DataId.path_eq proj (d := .calibration) trivial⟩

/-- **C45 (limit)**: names with slashes are not checked: they can make two measurements share a directory, and an absolute
name leads out of the project. -/
theorem C45_slashes_collide (proj : Path) :
    getMeasTimePath proj "a/b" "c" = getMeasTimePath proj "a" "b/c" ∧
    getMeasTimePath proj "/etc" "m" = ["etc", "m"] := by
  have h1 : ∀ p, pathJoin p "a/b" = p ++ ["a", "b"] := by
    intro p
    have h1 : "a/b".toList.head? ≠ some '/' := by decide
    have h2 : pathParts "a/b" = ["a", "b"] := by decide +kernel
    unfold pathJoin
    rw [if_neg h1, h2]
  have h2 : ∀ p, pathJoin p "b/c" = p ++ ["b", "c"] := by
    intro p
    have h1 : "b/c".toList.head? ≠ some '/' := by decide
    have h2 : pathParts "b/c" = ["b", "c"] := by decide +kernel
    unfold pathJoin
    rw [if_neg h1, h2]
  have h3 : ∀ p, pathJoin p "/etc" = ["etc"] := by
    intro p
    have h1 : "/etc".toList.head? = some '/' := by decide
    have h2 : pathParts "/etc" = ["etc"] := by decide +kernel
    unfold pathJoin
    rw [if_pos h1, h2]
  have n : ∀ (s : String) (p : Path), s ∈ ["a", "c", "m"] → pathJoin p s = p ++ [s] := by
    intro s p hs
    have hall : ∀ s ∈ ["a", "c", "m"], s ≠ "" ∧ s ≠ "." ∧ '/' ∉ s.toList := by decide
    obtain ⟨h1, h2, h3⟩ := hall s hs
    exact pathJoin_name p h1 h2 h3
  unfold getMeasTimePath
  constructor
  · rw [h1, n "c" _ (by simp), n "a" _ (by simp), h2]
    simp
  · rw [h3, n "m" _ (by simp)]
    rfl

/-! ## Names of files -/

theorem split_first {α : Type} {a b x y : List α} {c : α} (ha : c ∉ a) (hb : c ∉ b) (h : a ++ c :: x = b ++ c :: y) :
    a = b ∧ x = y := by
  induction a generalizing b with
  | nil =>
    cases b with
    | nil => simpa using h
    | cons z b =>
      simp only [List.nil_append, List.cons_append, List.cons.injEq] at h
      exact absurd (h.1 ▸ List.mem_cons_self) hb
  | cons z a ih =>
    cases b with
    | nil =>
      simp only [List.nil_append, List.cons_append, List.cons.injEq] at h
      exact absurd (h.1 ▸ List.mem_cons_self) ha
    | cons w b =>
      simp only [List.cons_append, List.cons.injEq] at h
      rw [List.mem_cons, not_or] at ha hb
      obtain ⟨h1, h2⟩ := ih ha.2 hb.2 h.2
      exact ⟨by rw [h.1, h1], h2⟩

theorem digitChar_inj {a b : ℕ} (ha : a < 10) (hb : b < 10) (h : Nat.digitChar a = Nat.digitChar b) : a = b := by
  have : ∀ x : Fin 10, ∀ y : Fin 10, Nat.digitChar x = Nat.digitChar y → x = y := by decide
  have := this ⟨a, ha⟩ ⟨b, hb⟩ h
  exact Fin.mk.inj_iff.1 this

theorem repr_no_underscore (n : ℕ) : '_' ∉ n.repr.toList := by
  intro h
  rw [Nat.toList_repr] at h
  have := Nat.isDigit_of_mem_toDigits (by omega) (by omega) h
  revert this
  decide

theorem repr_inj {a b : ℕ} (h : a.repr = b.repr) : a = b := by
  have h1 := Nat.toNat?_repr a
  rw [h, Nat.toNat?_repr b] at h1
  exact (Option.some.inj h1).symm

theorem sixDigits_inj {a b : ℕ} (h : sixDigits a = sixDigits b) : a % 1000000 = b % 1000000 := by
  unfold sixDigits at h
  have h := congrArg String.toList h
  simp only [String.toList_ofList, List.cons.injEq, and_true] at h
  obtain ⟨h1, h2, h3, h4, h5, h6⟩ := h
  have k : ∀ {x y : ℕ}, Nat.digitChar (x % 10) = Nat.digitChar (y % 10) → x % 10 = y % 10 := fun h =>
    digitChar_inj (Nat.mod_lt _ (by omega)) (Nat.mod_lt _ (by omega)) h
  have h1 := k h1; have h2 := k h2; have h3 := k h3; have h4 := k h4; have h5 := k h5; have h6 := k h6
  omega

/-- The number of millionths of a sampling frequency, as in the names of files. -/
def millionths (fs : ℚ) : ℕ := (pyRound (fs * 1000000)).toNat

theorem fsToString_pos {fs : ℚ} (h : 0 ≤ fs) :
    (fsToString fs).toList = (millionths fs / 1000000).repr.toList ++ '_' :: (sixDigits (millionths fs)).toList := by
  unfold fsToString millionths
  rw [if_neg (not_lt.2 h), abs_of_nonneg h]
  simp [String.toList_append]

/-- A text after the sampling frequency: both can be recovered. -/
theorem fsToString_split {a b : ℚ} (ha : 0 ≤ a) (hb : 0 ≤ b) {x y : String} :
    fsToString a ++ ("_" ++ x) = fsToString b ++ ("_" ++ y) ↔ millionths a = millionths b ∧ x = y := by
  constructor
  · intro h
    have h := congrArg String.toList h
    simp only [String.toList_append, fsToString_pos ha, fsToString_pos hb, List.append_assoc, List.cons_append] at h
    obtain ⟨h1, h2⟩ := split_first (repr_no_underscore _) (repr_no_underscore _) h
    have h1 := repr_inj (String.toList_injective h1)
    obtain ⟨h3, h4⟩ := List.append_inj h2 (by simp [sixDigits])
    have h3 := sixDigits_inj (String.toList_injective h3)
    have h4 := (List.append_inj h4 rfl).2
    exact ⟨by omega, String.toList_injective h4⟩
  · rintro ⟨h1, rfl⟩
    have : fsToString a = fsToString b := by
      apply String.toList_injective
      rw [fsToString_pos ha, fsToString_pos hb, h1]
    rw [this]

/-- **C45 (sampling frequencies)**: sampling frequencies with the same text in file names are at most a millionth apart. -/
theorem C45_fs_strings (a b : ℚ) (ha : 0 ≤ a) (hb : 0 ≤ b) (h : fsToString a = fsToString b) :
    |a - b| ≤ 1 / 1000000 := by
  have h1 : fsToString a ++ ("_" ++ "") = fsToString b ++ ("_" ++ "") := by rw [h]
  have h2 := ((fsToString_split ha hb).1 h1).1
  unfold millionths at h2
  have nn : ∀ x : ℚ, 0 ≤ x → 0 ≤ pyRound x := by
    intro x hx
    have h := pyRound_near x
    rw [abs_le] at h
    have : (-1 : ℚ) < pyRound x := by linarith
    have : (-1 : ℤ) < pyRound x := by exact_mod_cast this
    omega
  have h3 : pyRound (a * 1000000) = pyRound (b * 1000000) := by
    have := nn (a * 1000000) (by positivity)
    have := nn (b * 1000000) (by positivity)
    omega
  have h4 := pyRound_near (a * 1000000)
  have h5 := pyRound_near (b * 1000000)
  rw [h3] at h4
  rw [abs_le] at h4 h5 ⊢
  constructor <;> linarith [h4.1, h4.2, h5.1, h5.2]

/-- **C45 (masks)**: two masks have the same file name exactly when they have the same name and the same sampling frequency
to a millionth. -/
theorem C45_mask_names (a b : ℚ) (ha : 0 ≤ a) (hb : 0 ≤ b) (m m' : String) :
    getMaskName a m = getMaskName b m' ↔ fsToString a = fsToString b ∧ m = m' := by
  unfold getMaskName
  rw [fsToString_split ha hb]
  have h1 : m ++ ".dat" = m' ++ ".dat" ↔ m = m' := by
    constructor
    · intro h
      have h := congrArg String.toList h
      rw [String.toList_append, String.toList_append] at h
      exact String.toList_injective (List.append_cancel_right h)
    · rintro rfl; rfl
  have h2 : millionths a = millionths b ↔ fsToString a = fsToString b := by
    constructor
    · intro h
      apply String.toList_injective
      rw [fsToString_pos ha, fsToString_pos hb, h]
    · intro h
      have : fsToString a ++ ("_" ++ "") = fsToString b ++ ("_" ++ "") := by rw [h]
      exact ((fsToString_split ha hb).1 this).1
  rw [h1, h2]

/-- Everything after the sampling frequency and the transfer function in the name of a solution. -/
def solutionTail (tfVar : String) (postfix? : Option String) : List Char :=
  (if tfVar ≠ "" then '_' :: (spacesToUnderscores tfVar).toList else []) ++
    (match postfix? with
      | none => ".json".toList
      | some p => '_' :: (p.toList ++ ".json".toList))

theorem getSolutionName_eq (fs : ℚ) (tfName tfVar : String) (post : Option String) :
    getSolutionName fs tfName tfVar post =
      fsToString fs ++ ("_" ++ String.ofList ((lowerName tfName).toList ++ solutionTail tfVar post)) := by
  apply String.toList_injective
  unfold getSolutionName solutionTail
  by_cases hv : tfVar = ""
  · cases post <;> simp [hv, String.toList_append]
  · cases post <;> simp [hv, String.toList_append]

theorem lower_no_underscore {s : String} (h : '_' ∉ s.toList) : '_' ∉ (lowerName s).toList := by
  unfold lowerName
  rw [String.toList_ofList, List.mem_map]
  rintro ⟨c, hc, hl⟩
  have : c = '_' := by
    by_contra hne
    have key : c.toLower ≠ '_' := by
      unfold Char.toLower
      split
      · rename_i hup
        intro he
        have hv := congrArg Char.val he
        simp only at hv
        have hv' := congrArg UInt32.toNat hv
        rw [UInt32.toNat_add] at hv'
        have h1 : (65 : UInt32) ≤ c.val := hup.1
        have h2 : c.val ≤ (90 : UInt32) := hup.2
        have h1 := UInt32.le_iff_toNat_le.1 h1
        have h2 := UInt32.le_iff_toNat_le.1 h2
        have e1 : (65 : UInt32).toNat = 65 := rfl
        have e2 : (90 : UInt32).toNat = 90 := rfl
        have e3 : (32 : UInt32).toNat = 32 := rfl
        have e4 : ('_').val.toNat = 95 := rfl
        rw [e1] at h1
        rw [e2] at h2
        rw [e4] at hv'
        have e5 : ('a'.val - 'A'.val).toNat = 32 := by decide
        rw [e5] at hv'
        omega
      · exact hne
    exact key hl
  exact h (this ▸ hc)

theorem spaces_id {s : String} (h : ' ' ∉ s.toList) : spacesToUnderscores s = s := by
  unfold spacesToUnderscores
  apply String.toList_injective
  rw [String.toList_ofList]
  conv_rhs => rw [← List.map_id s.toList]
  apply List.map_congr_left
  intro c hc
  rw [if_neg]
  · rfl
  · rintro rfl; exact h hc

/-- The tail decides variation and postfix. -/
theorem solutionTail_inj {v v' : String} {p p' : Option String} (hv : '_' ∉ v.toList) (hv' : '_' ∉ v'.toList)
    (hs : ' ' ∉ v.toList) (hs' : ' ' ∉ v'.toList) (he : v = "" ↔ v' = "")
    (h : solutionTail v p = solutionTail v' p') : v = v' ∧ p = p' := by
  have hj : '_' ∉ ".json".toList := by decide
  unfold solutionTail at h
  rw [spaces_id hs, spaces_id hs'] at h
  by_cases h0 : v = ""
  · have h0' := he.1 h0
    rw [if_neg (by simpa using h0), if_neg (by simpa using h0')] at h
    refine ⟨h0.trans h0'.symm, ?_⟩
    cases p with
    | none =>
      cases p' with
      | none => rfl
      | some y =>
        simp only [List.nil_append] at h
        exact absurd (h ▸ List.mem_cons_self) hj
    | some x =>
      cases p' with
      | none =>
        simp only [List.nil_append] at h
        exact absurd (h.symm ▸ List.mem_cons_self) hj
      | some y =>
        simp only [List.nil_append, List.cons.injEq, true_and] at h
        rw [String.toList_injective (List.append_cancel_right h)]
  · have h0' : v' ≠ "" := fun h => h0 (he.2 h)
    rw [if_pos h0, if_pos h0'] at h
    simp only [List.cons_append, List.cons.injEq, true_and] at h
    cases p with
    | none =>
      cases p' with
      | none => exact ⟨String.toList_injective (List.append_cancel_right h), rfl⟩
      | some y =>
        simp only at h
        have : '_' ∈ v.toList ++ ".json".toList := by rw [h]; simp
        rcases List.mem_append.1 this with h1 | h1
        · exact absurd h1 hv
        · exact absurd h1 hj
    | some x =>
      cases p' with
      | none =>
        simp only at h
        have : '_' ∈ v'.toList ++ ".json".toList := by rw [← h]; simp
        rcases List.mem_append.1 this with h1 | h1
        · exact absurd h1 hv'
        · exact absurd h1 hj
      | some y =>
        simp only at h
        obtain ⟨h1, h2⟩ := split_first hv hv' h
        exact ⟨String.toList_injective h1, by rw [String.toList_injective (List.append_cancel_right h2)]⟩

/-- The tail begins with an underscore, or has none. -/
theorem solutionTail_cases (v : String) (p : Option String) :
    (v = "" ∧ p = none ∧ solutionTail v p = ".json".toList) ∨ (¬ (v = "" ∧ p = none) ∧
      ∃ r, solutionTail v p = '_' :: r) := by
  unfold solutionTail
  by_cases h0 : v = ""
  · cases p with
    | none => left; simp [h0]
    | some x => right; simp [h0]
  · right
    simp [h0]

/-- **C45 (solutions)**: transfer functions whose names have no underscore and whose variations have neither underscores nor
spaces (both with or both without a variation) have solutions of the same file name exactly when the sampling frequency (to
a millionth), the name of the transfer function (without regard to case), the variation and the postfix are the same. -/
theorem C45_solution_names (a b : ℚ) (ha : 0 ≤ a) (hb : 0 ≤ b) (t t' v v' : String) (p p' : Option String)
    (ht : '_' ∉ t.toList) (ht' : '_' ∉ t'.toList) (hv : '_' ∉ v.toList) (hv' : '_' ∉ v'.toList)
    (hs : ' ' ∉ v.toList) (hs' : ' ' ∉ v'.toList) (he : v = "" ↔ v' = "") :
    getSolutionName a t v p = getSolutionName b t' v' p' ↔
      fsToString a = fsToString b ∧ lowerName t = lowerName t' ∧ v = v' ∧ p = p' := by
  have h2 : millionths a = millionths b ↔ fsToString a = fsToString b := by
    constructor
    · intro h
      apply String.toList_injective
      rw [fsToString_pos ha, fsToString_pos hb, h]
    · intro h
      have : fsToString a ++ ("_" ++ "") = fsToString b ++ ("_" ++ "") := by rw [h]
      exact ((fsToString_split ha hb).1 this).1
  rw [getSolutionName_eq, getSolutionName_eq, fsToString_split ha hb, h2]
  apply and_congr_right
  intro _
  constructor
  · intro h
    have h := congrArg String.toList h
    rw [String.toList_ofList, String.toList_ofList] at h
    have hj : '_' ∉ ".json".toList := by decide
    have lt := lower_no_underscore ht
    have lt' := lower_no_underscore ht'
    have hparts : (lowerName t).toList = (lowerName t').toList ∧ solutionTail v p = solutionTail v' p' := by
      rcases solutionTail_cases v p with ⟨-, -, e1⟩ | ⟨-, r, e1⟩ <;>
        rcases solutionTail_cases v' p' with ⟨-, -, e2⟩ | ⟨-, r', e2⟩
      · rw [e1, e2] at h ⊢
        exact ⟨List.append_cancel_right h, rfl⟩
      · exfalso
        rw [e1, e2] at h
        have : '_' ∈ (lowerName t).toList ++ ".json".toList := by rw [h]; simp
        rcases List.mem_append.1 this with h1 | h1
        · exact lt h1
        · exact hj h1
      · exfalso
        rw [e1, e2] at h
        have : '_' ∈ (lowerName t').toList ++ ".json".toList := by rw [← h]; simp
        rcases List.mem_append.1 this with h1 | h1
        · exact lt' h1
        · exact hj h1
      · rw [e1, e2] at h ⊢
        obtain ⟨h3, h4⟩ := split_first lt lt' h
        exact ⟨h3, by rw [h4]⟩
    exact ⟨String.toList_injective hparts.1, solutionTail_inj hv hv' hs hs' he hparts.2⟩
  · rintro ⟨h1, rfl, rfl⟩
    rw [h1]

/-- **C45 (limits)**: requests for different solutions do share a file name when the variation of one is the postfix of the
other, when variations differ by a space for an underscore, when names of transfer functions differ by case, and when
sampling frequencies round to the same millionth. -/
theorem C45_solution_name_collisions (f : ℚ) (t x : String) (hx : x ≠ "") (hs : ' ' ∉ x.toList) :
    getSolutionName f t "" (some x) = getSolutionName f t x none ∧
    (∀ p, getSolutionName f t "full mt" p = getSolutionName f t "full_mt" p) ∧
    (∀ v p, getSolutionName f "Tipper" v p = getSolutionName f "TIPPER" v p) ∧
    (∀ v p, getSolutionName (1 / 10000000) t v p = getSolutionName (2 / 10000000) t v p) := by
  refine ⟨?_, ?_, ?_, ?_⟩
  · rw [getSolutionName_eq, getSolutionName_eq]
    unfold solutionTail
    rw [spaces_id hs]
    simp [hx]
  · intro p
    rw [getSolutionName_eq, getSolutionName_eq]
    have h1 : spacesToUnderscores "full mt" = spacesToUnderscores "full_mt" := by decide +kernel
    unfold solutionTail
    rw [h1]
    rfl
  · intro v p
    rw [getSolutionName_eq, getSolutionName_eq]
    have h1 : lowerName "Tipper" = lowerName "TIPPER" := by decide +kernel
    rw [h1]
  · intro v p
    rw [getSolutionName_eq, getSolutionName_eq]
    have h1 : fsToString (1 / 10000000) = fsToString (2 / 10000000) := by decide +kernel
    rw [h1]

/-! ## Concrete cases -/

example : getSolutionName 512 "ImpedanceTensor" "default" = "512_000000_impedancetensor_default.json" ∧
    getSolutionName (1 / 8) "Tipper" "full mt" (some "rr") = "0_125000_tipper_full_mt_rr.json" ∧
    getMaskName 128 "quiet" = "128_000000_quiet.dat" := by decide +kernel

example : DataId.path ["proj"] (.evals "site1" "meas1" "default") = ["proj", "evals", "site1", "default", "meas1"] ∧
    DataId.path ["proj"] (.time "site1" "meas1") = ["proj", "time", "site1", "meas1"] := by decide +kernel

example : (DataId.evals "site1" "meas1" "default").Named ∧ (DataId.time "site 2" "2021-01-01").Named := by
  refine ⟨⟨?_, ?_, ?_⟩, ?_, ?_⟩ <;> exact isName_of _ (by decide)

end Resistics
