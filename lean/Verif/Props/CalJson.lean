import Verif.Props.CalCut
import Verif.Props.MetaFiles
import Verif.Lemmas.Single
import Mathlib.Analysis.Real.Pi.Bounds

/-!
# Property C81: degrees, JSON calibration files and the choice of a reader
-/

namespace Resistics

open Real

/-! ## Degrees -/

theorem degDouble_eq : degDouble = 5030569068109113 / 2 ^ 58 := by decide +kernel

theorem degDouble_close : |(degDouble : ℝ) - π / 180| ≤ π / 180 / 2 ^ 52 := by
  have h1 := Real.pi_gt_d20
  have h2 := Real.pi_lt_d20
  rw [degDouble_eq, abs_le]
  push_cast
  constructor <;> norm_num <;> norm_num at h1 h2 <;> linarith

/-- **C81 (degrees)**. A phase in degrees becomes the double next to it in radians, up to two roundings. -/
theorem C81_degrees (q : ℚ) (hq : IsDouble q) :
    ∃ r : ℚ, IsDouble r ∧ inRadians (.float q) = .float r ∧ |(r : ℝ) - q * (π / 180)| ≤ |(q : ℝ)| * (π / 180) / 2 ^ 51 + 1 / 2 ^ 1075 := by
  have hdeg : 0 < degDouble ∧ degDouble < 1 / 2 := by rw [degDouble_eq]; norm_num
  have herr := nearestDouble_error (q * degDouble)
  have hmax : |nearestDouble (q * degDouble)| ≤ maxDouble := by
    have h0 := nearestDouble_nearest (q * degDouble) 0 ⟨0, 0, by norm_num, by norm_num, by norm_num, by simp⟩
    rw [zero_sub, abs_neg] at h0
    have h1 : |q * degDouble| ≤ |q| / 2 := by
      rw [abs_mul, abs_of_pos hdeg.1]
      nlinarith [abs_nonneg q, hdeg.2]
    have h2 := hq.le_max
    have h3 : |nearestDouble (q * degDouble)| ≤ |nearestDouble (q * degDouble) - q * degDouble| + |q * degDouble| := by
      calc |nearestDouble (q * degDouble)| = |(nearestDouble (q * degDouble) - q * degDouble) + q * degDouble| := by ring_nf
        _ ≤ _ := abs_add_le _ _
    linarith
  refine ⟨nearestDouble (q * degDouble), nearestDouble_isDouble hmax, ?_, ?_⟩
  · show toDouble (q * degDouble) = _
    unfold toDouble
    rw [if_pos hmax]
  · have herr' : |((nearestDouble (q * degDouble) : ℚ) : ℝ) - q * degDouble| ≤ |(q : ℝ) * degDouble| / 2 ^ 53 + 1 / 2 ^ 1075 := by
      have := (Rat.cast_le (K := ℝ)).2 herr
      push_cast at this
      exact this
    generalize nearestDouble (q * degDouble) = r at herr'
    have hc := degDouble_close
    have hpos := Real.pi_pos
    generalize hD : (degDouble : ℝ) = D at *
    have hD0 : 0 < D := by rw [← hD]; exact_mod_cast hdeg.1
    generalize π / 180 = p at *
    have hp : 0 < p := by
      by_contra hp
      have h1 := abs_nonneg (D - p)
      have h2 : D - p ≤ p / 2 ^ 52 := (le_abs_self _).trans hc
      have : p / 2 ^ 52 ≤ 0 := by
        apply div_nonpos_of_nonpos_of_nonneg
        · linarith
        · positivity
      linarith
    have h1 : |(r : ℝ) - q * p| ≤ |(r : ℝ) - q * D| + |(q : ℝ)| * |D - p| := by
      rw [← abs_mul]
      calc |(r : ℝ) - q * p| = |((r : ℝ) - q * D) + q * (D - p)| := by ring_nf
        _ ≤ _ := abs_add_le _ _
    rw [abs_mul, abs_of_pos hD0] at herr'
    have hDp : D ≤ p + p / 2 ^ 52 := by linarith [(le_abs_self _).trans hc]
    generalize hA : |(q : ℝ)| = A at *
    have hA0 : 0 ≤ A := by rw [← hA]; exact abs_nonneg _
    have h2 : A * |D - p| ≤ A * (p / 2 ^ 52) := mul_le_mul_of_nonneg_left hc hA0
    have h3 : A * D ≤ A * (p + p / 2 ^ 52) := mul_le_mul_of_nonneg_left hDp hA0
    have hAp : 0 ≤ A * p := mul_nonneg hA0 hp.le
    generalize (1 : ℝ) / 2 ^ 1075 = tiny at *
    have e1 : A * (p / 2 ^ 52) = A * p / 2 ^ 52 := by ring
    have e2 : A * (p + p / 2 ^ 52) = A * p + A * p / 2 ^ 52 := by ring
    rw [e1] at h2
    rw [e2] at h3
    generalize A * p = B at *
    generalize A * D = C at *
    norm_num at *
    linarith

/-- The other numbers stay what they are. -/
theorem C81_degrees_special : (∀ neg, inRadians (.inf neg) = .inf neg) ∧ inRadians .nan = .nan := ⟨fun _ => rfl, rfl⟩

/-! ## JSON files -/

theorem readCal_as (env : Doc.Reading) (text : List Char) :
    readAs env .calibration text = (Doc.parseFile env (Doc.CalDoc.read env) text).map .calibration := by
  unfold readAs Doc.parseFile
  cases loads text with
  | error e => rfl
  | ok v => exact readModel_map env _ _ v

/-- **C81 (JSON)**. Calibration data that were written to a JSON file are what the JSON reader reads, with the place of the file. -/
theorem C81_json_written (env env' : Doc.Reading) (path : String) (m : Doc.CalDoc) (h : m.Fits env) (hc : env'.ClocksRun) :
    readCalJson env path (m.write env') = .ok { m.asRead with fileInfo := some (Doc.newFileInfo env'), filePath := some path } := by
  have := C76_round_trip env env' (.calibration m) h hc
  rw [show (Document.calibration m).kind = .calibration from rfl, readCal_as] at this
  unfold readCalJson
  cases hp : Doc.parseFile env (Doc.CalDoc.read env) (Document.write env' (.calibration m)) with
  | error e => rw [hp] at this; cases this
  | ok d =>
    rw [hp] at this
    have h1 := Document.calibration.inj (Except.ok.inj this)
    have hp' : Doc.parseFile env (Doc.CalDoc.read env) (m.write env') = .ok d := hp
    rw [hp', h1]
    rfl

/-- **C81 (JSON, interrupted)**. A JSON file whose writing was interrupted is refused by the JSON reader. -/
theorem C81_json_interrupted (env env' : Doc.Reading) (path : String) (m : Doc.CalDoc) (h : m.Fits env) (hc : env'.ClocksRun) (part rest : List Char)
    (hp : m.write env' = part ++ rest) (hr : rest ≠ []) : readCalJson env path part = .error .value := by
  have := C76_interrupted env env' (.calibration m) h hc .calibration part rest hp hr
  rw [readCal_as] at this
  unfold readCalJson
  cases hq : Doc.parseFile env (Doc.CalDoc.read env) part with
  | error e => rw [hq] at this; cases this; rfl
  | ok d => rw [hq] at this; cases this

/-- A text without newlines. -/
theorem one_line_refused (path : String) (text : List Char) (h : '\n' ∉ text ∧ '\r' ∉ text) (hne : text ≠ []) : ∃ e, readCalChars path text = .error e := by
  have ht : TextOf text [text] := by
    refine ⟨?_, ['\n'], .unix, Or.inr ⟨[], text, rfl, hne, rfl⟩⟩
    intro l hl
    rw [List.mem_singleton] at hl
    rw [hl]
    exact h
  cases hr : readCalChars path text with
  | error e => exact ⟨e, rfl⟩
  | ok d =>
    exfalso
    obtain ⟨⟨body, rows, ⟨pre, marker, post, he, -⟩, hb, -⟩, -⟩ := (C81_which_texts path text _ (stripped_of ht)).1 ⟨d, hr⟩
    have := congrArg List.length he
    simp only [stripped, List.map_cons, List.map_nil, List.length_cons, List.length_nil, List.length_append] at this
    exact hb (List.length_eq_zero_iff.1 (by omega))

/-- **C81 (kinds)**. A JSON file, whole or cut off, is never taken for a text file. -/
theorem C81_json_is_no_text (env : Doc.Reading) (path : String) (m : Doc.CalDoc) (h : m.Fits env) (hc : env.ClocksRun) (part rest : List Char)
    (hp : m.write env = part ++ rest) : ∃ e, readCalChars path part = .error e := by
  have hg := toJson_good (env := env) (env' := env) (doc := .calibration m) h hc
  have hw := write_eq env (.calibration m)
  have hpr := C75_printable _ hg
  rw [← hw] at hpr
  have hmem : ∀ c ∈ part, 32 ≤ c.toNat := fun c hc' => (hpr c (by
    show c ∈ m.write env
    rw [hp]; exact List.mem_append_left _ hc')).1
  by_cases hne : part = []
  · subst hne
    cases hr : readCalChars path [] with
    | error e => exact ⟨e, rfl⟩
    | ok d =>
      exfalso
      have ht : TextOf [] [] := ⟨(fun l hl => nomatch hl), ['\n'], .unix, Or.inl rfl⟩
      obtain ⟨⟨body, rows, ⟨pre, marker, post, he, -⟩, -⟩, -⟩ := (C81_which_texts path [] _ (stripped_of ht)).1 ⟨d, hr⟩
      have := congrArg List.length he
      simp [stripped] at this
  · exact one_line_refused path part ⟨fun hc' => absurd (hmem _ hc') (by decide), fun hc' => absurd (hmem _ hc') (by decide)⟩ hne

/-! ## The choice of a reader -/

/-- **C81 (choice)**. The calibration data of a sensor are those of the first reader whose file exists and can be read. -/
theorem C81_first_reader (env : Doc.Reading) (dir : String) (files : String → Option (List Char)) (sensor serial : String) (readers : List CalReader)
    (d : Doc.CalDoc) : findCalDoc env dir files sensor serial readers = some d ↔
      ∃ pre r post text, readers = pre ++ r :: post ∧ files (r.fileName sensor serial) = some text ∧
        readCalKind env (dir ++ "/" ++ r.fileName sensor serial) text r.kind = .ok d ∧
        ∀ r' ∈ pre, ∀ text', files (r'.fileName sensor serial) = some text' → ∃ e, readCalKind env (dir ++ "/" ++ r'.fileName sensor serial) text' r'.kind = .error e := by
  unfold findCalDoc
  rw [List.findSome?_eq_some_iff]
  constructor
  · rintro ⟨pre, r, post, h1, h2, h3⟩
    unfold runCalReader at h2
    cases hf : files (r.fileName sensor serial) with
    | none => rw [hf] at h2; cases h2
    | some text =>
      rw [hf] at h2
      refine ⟨pre, r, post, text, h1, hf, ?_, ?_⟩
      · simp only at h2
        cases hk : readCalKind env (dir ++ "/" ++ r.fileName sensor serial) text r.kind with
        | error e => rw [hk] at h2; cases h2
        | ok d' => rw [hk] at h2; cases h2; rfl
      · intro r' hr' text' ht'
        have := h3 r' hr'
        unfold runCalReader at this
        rw [ht'] at this
        simp only at this
        cases hk : readCalKind env (dir ++ "/" ++ r'.fileName sensor serial) text' r'.kind with
        | error e => exact ⟨e, rfl⟩
        | ok d' => rw [hk] at this; cases this
  · rintro ⟨pre, r, post, text, h1, h2, h3, h4⟩
    refine ⟨pre, r, post, h1, ?_, ?_⟩
    · unfold runCalReader
      rw [h2]
      simp only [h3]
      rfl
    · intro r' hr'
      unfold runCalReader
      cases hf : files (r'.fileName sensor serial) with
      | none => rfl
      | some text' =>
        obtain ⟨e, he⟩ := h4 r' hr' text' hf
        simp only [he]
        rfl

/-- **C81 (missing file)**. A reader whose file does not exist says that, whatever other files there are; with its file it reads that file alone. -/
theorem C81_missing_file (env : Doc.Reading) (dir : String) (files files' : String → Option (List Char)) (sensor serial : String) (r : CalReader)
    (h : files (r.fileName sensor serial) = files' (r.fileName sensor serial)) :
    runCalReader env dir files sensor serial r = runCalReader env dir files' sensor serial r ∧
    (files (r.fileName sensor serial) = none → runCalReader env dir files sensor serial r = .error .calFileNotFound) := by
  unfold runCalReader
  rw [h]
  exact ⟨rfl, fun hn => by rw [hn]⟩

/-- **C81** (finding). When the only calibration file of a sensor is a JSON file whose writing was interrupted, no reader complains: there are no calibration data, as if the sensor had no file, and
the calibrator leaves the channel as it is. -/
theorem C81_interrupted_is_missing (env env' : Doc.Reading) (dir : String) (files : String → Option (List Char)) (sensor serial : String) (readers : List CalReader)
    (m : Doc.CalDoc) (h : m.Fits env) (h' : m.Fits env') (hc : env'.ClocksRun) (part rest : List Char) (hp : m.write env' = part ++ rest) (hr : rest ≠ [])
    (hf : ∀ r ∈ readers, files (r.fileName sensor serial) = none ∨ files (r.fileName sensor serial) = some part) :
    findCalDoc env dir files sensor serial readers = none := by
  cases hres : findCalDoc env dir files sensor serial readers with
  | none => rfl
  | some d =>
    exfalso
    obtain ⟨pre, r, post, text, he, h2, h3, -⟩ := (C81_first_reader env dir files sensor serial readers d).1 hres
    rcases hf r (by rw [he]; simp) with h4 | h4
    · rw [h4] at h2; cases h2
    · rw [h4] at h2
      cases h2
      cases hk : r.kind with
      | json =>
        rw [hk] at h3
        have := C81_json_interrupted env env' (dir ++ "/" ++ r.fileName sensor serial) m h hc part rest hp hr
        simp only [readCalKind] at h3
        rw [this] at h3
        cases h3
      | txt =>
        rw [hk] at h3
        obtain ⟨e, this⟩ := C81_json_is_no_text env' (dir ++ "/" ++ r.fileName sensor serial) m h' hc part rest hp
        simp only [readCalKind] at h3
        rw [this] at h3
        cases h3

end Resistics
