import Verif.Model.CalChars
import Verif.Props.CalText
import Verif.Props.TextData

/-!
# Property C81: calibration files character by character
-/

namespace Resistics

/-! ## Specification -/

/-- A line of the table: three words that are numbers, and these are the numbers. -/
def NumberRow (line : String) (r : PyNum × PyNum × PyNum) : Prop :=
  ∃ a b c : String, Words line.toList [a, b, c] ∧ NumberText a.toList r.1 ∧ NumberText b.toList r.2.1 ∧ NumberText c.toList r.2.2

/-- The place of a number on the line; `nan` has none. -/
def PyNum.place : PyNum → Option (WithBot (WithTop ℚ))
  | .int n => some ((n : ℚ) : WithTop ℚ)
  | .float q => some (q : WithTop ℚ)
  | .inf true => some ⊥
  | .inf false => some (⊤ : WithTop ℚ)
  | .nan => none

/-- In order: `nan` is last. -/
def InOrder (a b : PyNum) : Prop := b.place = none ∨ ∃ x y, a.place = some x ∧ b.place = some y ∧ x ≤ y

/-- The serial number as an integer if it is one, else as a text. -/
def SerialSays (s : String) (v : Doc.Serial) : Prop :=
  (∃ sign ds, s.toList = signChars sign ++ ds ∧ AllDigits ds ∧ ds ≠ [] ∧ v = .number (if sign = some true then -(digitsValue ds : ℤ) else digitsValue ds)) ∨
    (¬ (∃ sign ds, s.toList = signChars sign ++ ds ∧ AllDigits ds ∧ ds ≠ []) ∧ v = .text s)

/-- The number the first line about the static gain gives, or one. -/
def GainSays (lines : List String) (v : PyNum) : Prop :=
  (∃ pre l post s, lines = pre ++ l :: post ∧ Names "static gain" l ∧ (∀ x ∈ pre, ¬ Names "static gain" x) ∧ HasValue l s ∧ NumberText s.toList v) ∨
    (∀ x ∈ lines, ¬ Names "static gain" x) ∧ v = .float 1

/-- What the lines of a file, without the white space at their ends, say. -/
structure CalSays (lines : List String) (path : String) (d : Doc.CalDoc) : Prop where
  /-- the rows are those of the lines after the marker, in order of frequency and nothing else; the phase is changed exactly when the unit is `degrees` -/
  table : ∃ body rows unit, DataBlock lines body ∧ body ≠ [] ∧ List.Forall₂ NumberRow body rows ∧
    LastValue (Names "phase unit") false "radians" lines unit ∧
    (d.frequency.zip (d.magnitude.zip d.phase)).Perm (rows.map fun r => (r.1, r.2.1, if unit = "degrees" then inRadians r.2.2 else r.2.2))
  order : d.frequency.Pairwise InOrder
  sizes : d.magnitude.length = d.frequency.length ∧ d.phase.length = d.frequency.length ∧ d.nSamples = d.frequency.length
  sensor : LastValue (Names "sensor") true "" lines d.sensor
  serial : ∃ s, LastValue (Names "serial") true "1" lines s ∧ SerialSays s d.serial
  unit : LastValue (Names "magnitude unit") false "mV/nT" lines d.magnitudeUnit
  gain : GainSays lines d.staticGain
  file : d.filePath = some path ∧ d.fileInfo.isNone

/-- The lines of a text without the white space at their ends. -/
def TrimmedLines (text : List Char) (lines : List String) : Prop :=
  ∃ raw, TextOf text raw ∧ List.Forall₂ (fun (a : List Char) (b : String) => Trimmed a b.toList) raw lines

/-! ## Numbers -/

theorem calNumber_iff (w : String) (v : PyNum) : calNumber w = .ok v ↔ NumberText w.toList v := by
  rw [← C78_number]
  unfold calNumber
  cases h : readWord w.toList with
  | none => simp
  | some x => simp

theorem charRow_iff (line : String) (r : PyNum × PyNum × PyNum) : charRow line = .ok r ↔ NumberRow line r := by
  obtain ⟨x, y, z⟩ := r
  unfold charRow NumberRow
  constructor
  · intro h
    split at h
    · rename_i a b c hs
      obtain ⟨x', hx, h⟩ := except_bind_ok.1 h
      obtain ⟨y', hy, h⟩ := except_bind_ok.1 h
      obtain ⟨z', hz, h⟩ := except_bind_ok.1 h
      cases h
      exact ⟨a, b, c, (pySplit_iff _ _).1 hs, (calNumber_iff _ _).1 hx, (calNumber_iff _ _).1 hy, (calNumber_iff _ _).1 hz⟩
    · cases h
  · rintro ⟨a, b, c, hs, hx, hy, hz⟩
    rw [(pySplit_iff _ _).2 hs]
    simp only at hx hy hz
    simp only [(calNumber_iff _ _).2 hx, (calNumber_iff _ _).2 hy, (calNumber_iff _ _).2 hz]
    rfl

theorem numLe_iff (a b : PyNum) : numLe a b = true ↔ InOrder a b := by
  unfold InOrder
  cases a with
  | int a =>
    cases b with
    | int b => simp [numLe, PyNum.place]
    | float b => simp [numLe, PyNum.place]
    | inf n => cases n <;> simp [numLe, PyNum.place]
    | nan => simp [numLe, PyNum.place]
  | float a =>
    cases b with
    | int b => simp [numLe, PyNum.place]
    | float b => simp [numLe, PyNum.place]
    | inf n => cases n <;> simp [numLe, PyNum.place]
    | nan => simp [numLe, PyNum.place]
  | inf n =>
    cases b with
    | int b => cases n <;> simp [numLe, PyNum.place]
    | float b => cases n <;> simp [numLe, PyNum.place]
    | inf m => cases n <;> cases m <;> simp [numLe, PyNum.place]
    | nan => cases n <;> simp [numLe, PyNum.place]
  | nan =>
    cases b with
    | int b => simp [numLe, PyNum.place]
    | float b => simp [numLe, PyNum.place]
    | inf m => cases m <;> simp [numLe, PyNum.place]
    | nan => simp [numLe, PyNum.place]

theorem inOrder_total (a b : PyNum) : InOrder a b ∨ InOrder b a := by
  unfold InOrder
  cases ha : a.place with
  | none => exact Or.inr (Or.inl rfl)
  | some x =>
    cases hb : b.place with
    | none => exact Or.inl (Or.inl rfl)
    | some y =>
      rcases le_total x y with h | h
      · exact Or.inl (Or.inr ⟨x, y, rfl, rfl, h⟩)
      · exact Or.inr (Or.inr ⟨y, x, rfl, rfl, h⟩)

theorem inOrder_trans {a b c : PyNum} (h : InOrder a b) (h' : InOrder b c) : InOrder a c := by
  unfold InOrder at *
  rcases h' with h' | ⟨y, z, hy, hz, hyz⟩
  · exact Or.inl h'
  · rcases h with h | ⟨x, y', hx, hy', hxy⟩
    · rw [h] at hy; cases hy
    · rw [hy] at hy'
      cases hy'
      exact Or.inr ⟨x, z, hx, hz, hxy.trans hyz⟩

theorem readSign_digits (sign : Option Bool) (ds : List Char) (h : AllDigits ds) :
    readSign (signChars sign ++ ds) = (decide (sign = some true), ds) := by
  rcases sign with _ | _ | _
  · show readSign ds = _
    cases ds with
    | nil => rfl
    | cons c cs =>
      have hc := h c (by simp)
      have h1 : c ≠ '-' := by rintro rfl; revert hc; decide
      have h2 : c ≠ '+' := by rintro rfl; revert hc; decide
      unfold readSign
      split
      · rename_i heq; cases heq; exact absurd rfl h1
      · rename_i heq; cases heq; exact absurd rfl h2
      · rfl
  · rfl
  · rfl

theorem serialOf_says (s : String) : SerialSays s (serialOf s) := by
  unfold SerialSays serialOf intOfText
  have hsplit : ∃ sign, s.toList = signChars sign ++ (readSign s.toList).2 ∧ ((readSign s.toList).1 = decide (sign = some true)) := by
    unfold readSign
    split
    · rename_i cs h
      exact ⟨some true, h, rfl⟩
    · rename_i cs h
      exact ⟨some false, h, rfl⟩
    · exact ⟨none, rfl, rfl⟩
  obtain ⟨sign, h1, h2⟩ := hsplit
  by_cases hc : (readSign s.toList).2 ≠ [] ∧ (readSign s.toList).2.all isDecDigit = true
  · rw [if_pos hc]
    refine Or.inl ⟨sign, _, h1, fun c hcc => List.all_eq_true.1 hc.2 c hcc, hc.1, ?_⟩
    simp only [Option.elim_some, h2, decide_eq_true_eq]
  · rw [if_neg hc]
    refine Or.inr ⟨?_, rfl⟩
    rintro ⟨sg, ds, e, hd, hne⟩
    apply hc
    rw [e, readSign_digits sg ds hd]
    exact ⟨hne, List.all_eq_true.2 hd⟩

theorem SerialSays.unique {s : String} {v v' : Doc.Serial} (h : SerialSays s v) (h' : SerialSays s v') : v = v' := by
  have key : ∀ {sg ds sg' ds'}, signChars sg ++ ds = signChars sg' ++ ds' → AllDigits ds → AllDigits ds' →
      ds = ds' ∧ decide (sg = some true) = decide (sg' = some true) := by
    intro sg ds sg' ds' e hd hd'
    have h1 := readSign_digits sg ds hd
    rw [e, readSign_digits sg' ds' hd'] at h1
    exact ⟨(Prod.mk.inj h1).2.symm, (Prod.mk.inj h1).1.symm⟩
  rcases h with ⟨sg, ds, h1, h2, h3, rfl⟩ | ⟨h1, rfl⟩
  · rcases h' with ⟨sg', ds', h1', h2', h3', rfl⟩ | ⟨h1', rfl⟩
    · obtain ⟨rfl, hs⟩ := key (h1.symm.trans h1') h2 h2'
      by_cases hp : sg = some true
      · have : sg' = some true := by simpa [hp] using hs
        rw [if_pos hp, if_pos this]
      · have : sg' ≠ some true := by simpa [hp] using hs
        rw [if_neg hp, if_neg this]
    · exact absurd ⟨sg, ds, h1, h2, h3⟩ h1'
  · rcases h' with ⟨sg', ds', h1', h2', h3', rfl⟩ | ⟨h1', rfl⟩
    · exact absurd ⟨sg', ds', h1', h2', h3'⟩ h1
    · rfl

/-! ## Lines -/

theorem trimmedLines_eq {text : List Char} {lines : List String} (h : TrimmedLines text lines) :
    (textLines text).map (fun l => pyStrip (String.ofList l)) = lines := by
  obtain ⟨raw, ht, hl⟩ := h
  rw [textLines_eq ht]
  clear ht
  induction hl with
  | nil => rfl
  | cons h _ ih =>
    rw [List.map_cons, ih]
    congr 1
    have := trimmed_strip (String.ofList ‹List Char›)
    rw [String.toList_ofList] at this
    exact String.toList_injective (this.unique h)

theorem readCalChars_lines {text : List Char} {lines : List String} (h : TrimmedLines text lines) (path : String) :
    readCalChars path text = readCalLines path lines := by
  unfold readCalChars
  rw [trimmedLines_eq h]

theorem gainSays_iff {lines : List String} {v : PyNum} : staticGainOf lines = .ok v ↔ GainSays lines v := by
  unfold staticGainOf GainSays
  constructor
  · intro h
    cases hf : lines.find? fun l => pyContains "static gain" (pyLower l) with
    | none =>
      rw [hf] at h
      cases h
      rw [List.find?_eq_none] at hf
      exact Or.inr ⟨fun x hx hn => hf x hx ((pyContains_iff _ _).2 hn), rfl⟩
    | some l =>
      rw [hf] at h
      obtain ⟨s, hs, h⟩ := except_bind_ok.1 h
      rw [List.find?_eq_some_iff_append] at hf
      obtain ⟨h1, pre, post, h2, h3⟩ := hf
      exact Or.inl ⟨pre, l, post, s, h2, (pyContains_iff _ _).1 h1,
        fun x hx hn => by simpa [(pyContains_iff _ _).2 hn] using h3 x hx, (afterEquals_iff _ _).1 hs, (calNumber_iff _ _).1 h⟩
  · rintro (⟨pre, l, post, s, he, hn, hpre, hv, hnum⟩ | ⟨hn, rfl⟩)
    · have : lines.find? (fun l => pyContains "static gain" (pyLower l)) = some l := by
        rw [List.find?_eq_some_iff_append]
        refine ⟨(pyContains_iff _ _).2 hn, pre, post, he, fun x hx => ?_⟩
        have := hpre x hx
        rw [← namesB_iff] at this
        simpa [namesB] using this
      rw [this]
      simp only [(afterEquals_iff _ _).2 hv, bind, Except.bind]
      exact (calNumber_iff _ _).2 hnum
    · have : lines.find? (fun l => pyContains "static gain" (pyLower l)) = none := by
        rw [List.find?_eq_none]
        intro x hx hc
        exact hn x hx ((pyContains_iff _ _).1 hc)
      rw [this]

theorem calTable_spec (unit : String) (rows : List (PyNum × PyNum × PyNum)) :
    (calTable unit rows).Perm (rows.map fun r => (r.1, r.2.1, if unit = "degrees" then inRadians r.2.2 else r.2.2)) ∧
    ((calTable unit rows).map (·.1)).Pairwise InOrder := by
  constructor
  · exact List.perm_insertionSort _ _
  · rw [List.pairwise_map]
    have ht : Std.Total (fun a b : PyNum × PyNum × PyNum => (numLe a.1 b.1 = true)) :=
      ⟨fun a b => by rw [numLe_iff, numLe_iff]; exact inOrder_total _ _⟩
    have htr : IsTrans (PyNum × PyNum × PyNum) (fun a b => (numLe a.1 b.1 = true)) :=
      ⟨fun a b c h1 h2 => by rw [numLe_iff] at *; exact inOrder_trans h1 h2⟩
    have := List.pairwise_insertionSort (fun a b : PyNum × PyNum × PyNum => (numLe a.1 b.1 = true))
      (rows.map fun r => (r.1, r.2.1, if unit = "degrees" then inRadians r.2.2 else r.2.2))
    exact this.imp fun h => (numLe_iff _ _).1 h

theorem rows_forall₂ {body : List String} {rows : List (PyNum × PyNum × PyNum)} :
    body.mapM charRow = .ok rows ↔ List.Forall₂ NumberRow body rows := by
  rw [mapM_forall₂]
  simp only [charRow_iff]

theorem charTable_spec {lines : List String} {unit : String} {t : List (PyNum × PyNum × PyNum)} (h : charTable lines unit = .ok t) :
    ∃ body rows, DataBlock lines body ∧ body ≠ [] ∧ List.Forall₂ NumberRow body rows ∧ t = calTable unit rows := by
  unfold charTable at h
  obtain ⟨i, hi, h⟩ := except_bind_ok.1 h
  obtain ⟨rows, hr, h⟩ := except_bind_ok.1 h
  split at h
  · cases h
  · rename_i hne
    cases h
    refine ⟨_, rows, dataBlock_of_readFrom hi, ?_, rows_forall₂.1 hr, rfl⟩
    intro hb
    rw [hb] at hr
    cases hr
    exact hne rfl

theorem charTable_of {lines body : List String} {unit : String} {rows : List (PyNum × PyNum × PyNum)} (hb : DataBlock lines body) (hne : body ≠ [])
    (hr : List.Forall₂ NumberRow body rows) : charTable lines unit = .ok (calTable unit rows) := by
  obtain ⟨i, hi, hbody⟩ := readFrom_of_dataBlock hb
  have hrs : rows ≠ [] := by
    rintro rfl
    cases hr
    exact hne rfl
  unfold charTable
  simp only [hi, hbody, rows_forall₂.2 hr, bind, Except.bind]
  rw [if_neg hrs]

/-- **C81**. The text reader returns what the file says, with Unix, Windows and Mac newlines: a row for each line after the marker up to the first empty
line or the end, each number the double nearest to what is written, in order of frequency, with the phase in radians exactly when the unit is `degrees`; the last sensor,
serial number and units, in small letters for sensor and serial number, a serial number that is an integer as one; the first static gain. -/
theorem C81_text_is_read (path : String) (text : List Char) (lines : List String) (hl : TrimmedLines text lines) (d : Doc.CalDoc)
    (h : readCalChars path text = .ok d) : CalSays lines path d := by
  rw [readCalChars_lines hl] at h
  unfold readCalLines at h
  obtain ⟨⟨serial, sensor⟩, h1, h⟩ := except_bind_ok.1 h
  obtain ⟨gain, h2, h⟩ := except_bind_ok.1 h
  obtain ⟨_, -, h⟩ := except_bind_ok.1 h
  obtain ⟨⟨mu, pu⟩, h4, h⟩ := except_bind_ok.1 h
  obtain ⟨rows, h5, h⟩ := except_bind_ok.1 h
  cases h
  rw [sensorDetails_eq] at h1
  rw [units_eq] at h4
  obtain ⟨ha, hb⟩ := pairFold_ok h1
  obtain ⟨hc, hd⟩ := pairFold_ok h4
  obtain ⟨body, rs, hblock, hne, hrows, rfl⟩ := charTable_spec h5
  obtain ⟨hp, ho⟩ := calTable_spec pu rs
  refine ⟨⟨body, rs, pu, hblock, hne, hrows, lastBool_iff.1 hd, ?_⟩, ho, ⟨by simp [calDocOf], by simp [calDocOf], by simp [calDocOf]⟩,
    lastBool_iff.1 hb, ⟨serial, lastBool_iff.1 ha, serialOf_says serial⟩, lastBool_iff.1 hc, gainSays_iff.1 h2, rfl, rfl⟩
  simp only [calDocOf]
  rw [zip_maps]
  simpa using hp

/-- **C81 (which texts are read)**. The text reader succeeds exactly for the texts with a marker, at least one line after it, nothing but three numbers on each of these
lines, and a value on the lines that name sensor, serial number, units, static gain (a number) and chopper. -/
theorem C81_which_texts (path : String) (text : List Char) (lines : List String) (hl : TrimmedLines text lines) :
    (∃ d, readCalChars path text = .ok d) ↔
      (∃ body rows, DataBlock lines body ∧ body ≠ [] ∧ List.Forall₂ NumberRow body rows) ∧
      (∀ l ∈ lines, Names "serial" l ∨ Names "sensor" l → ∃ v, HasValue (pyLower l) v) ∧
      (∀ l ∈ lines, Names "magnitude unit" l ∨ Names "phase unit" l → ∃ v, HasValue l v) ∧
      (∃ v, GainSays lines v) ∧
      (∀ pre l post, lines = pre ++ l :: post → Names "chopper" l → (∀ x ∈ pre, ¬ Names "chopper" x) → ∃ v, HasValue l v) := by
  rw [readCalChars_lines hl]
  have first : ∀ (text : String) (pre : List String) (l : String) (post : List String), lines = pre ++ l :: post →
      Names text l → (∀ x ∈ pre, ¬ Names text x) → lines.find? (fun l => pyContains text (pyLower l)) = some l := by
    intro text pre l post he hn hpre
    rw [List.find?_eq_some_iff_append]
    refine ⟨(pyContains_iff _ _).2 hn, pre, post, he, fun x hx => ?_⟩
    have := hpre x hx
    rw [← namesB_iff] at this
    simpa [namesB] using this
  constructor
  · rintro ⟨d, h⟩
    unfold readCalLines at h
    obtain ⟨ss, h1, h⟩ := except_bind_ok.1 h
    obtain ⟨gain, h2, h⟩ := except_bind_ok.1 h
    obtain ⟨_, h3, h⟩ := except_bind_ok.1 h
    obtain ⟨uu, h4, h⟩ := except_bind_ok.1 h
    obtain ⟨rows, h5, h⟩ := except_bind_ok.1 h
    rw [sensorDetails_eq] at h1
    rw [units_eq] at h4
    refine ⟨?_, ?_, ?_, ⟨gain, gainSays_iff.1 h2⟩, ?_⟩
    · obtain ⟨body, rs, hblock, hne, hrows, -⟩ := charTable_spec h5
      exact ⟨body, rs, hblock, hne, hrows⟩
    · intro l hl hn
      obtain ⟨v, hv⟩ := pairFold_values h1 l hl (by simpa only [namesB_iff] using hn)
      exact ⟨v, (afterEquals_iff _ _).1 hv⟩
    · intro l hl hn
      obtain ⟨v, hv⟩ := pairFold_values h4 l hl (by simpa only [namesB_iff] using hn)
      exact ⟨v, (afterEquals_iff _ _).1 hv⟩
    · intro pre l post he hn hpre
      unfold getChopper at h3
      rw [first _ pre l post he hn hpre] at h3
      obtain ⟨s, hs, h3⟩ := except_bind_ok.1 h3
      exact ⟨s, (afterEquals_iff _ _).1 hs⟩
  · rintro ⟨⟨body, rows, hb, hne, hrows⟩, hsens, hunit, ⟨g, hgain⟩, hchop⟩
    obtain ⟨ss, h1⟩ := pairFold_exists (p := namesB "serial") (q := namesB "sensor")
      (f := fun l => if true then (pyLower l) else l) (lines := lines) (st := ("1", "")) (fun l hl hn => by
        obtain ⟨v, hv⟩ := hsens l hl (by simpa only [namesB_iff] using hn)
        exact ⟨v, (afterEquals_iff _ _).2 hv⟩)
    obtain ⟨uu, h4⟩ := pairFold_exists (p := namesB "magnitude unit") (q := namesB "phase unit")
      (f := fun l => if false then (pyLower l) else l) (lines := lines) (st := ("mV/nT", "radians")) (fun l hl hn => by
        obtain ⟨v, hv⟩ := hunit l hl (by simpa only [namesB_iff] using hn)
        exact ⟨v, (afterEquals_iff _ _).2 hv⟩)
    rw [← sensorDetails_eq] at h1
    rw [← units_eq] at h4
    have h3 : ∃ b, getChopper lines = .ok b := by
      unfold getChopper
      cases hf : lines.find? fun l => pyContains "chopper" (pyLower l) with
      | none => exact ⟨false, rfl⟩
      | some l =>
        obtain ⟨hn, pre, post, he, hpre⟩ := List.find?_eq_some_iff_append.1 hf
        obtain ⟨v, hv⟩ := hchop pre l post he ((pyContains_iff _ _).1 hn) (fun x hx hn => by
          have := hpre x hx
          rw [(pyContains_iff _ _).2 hn] at this
          cases this)
        refine ⟨decide (v = "True"), ?_⟩
        simp only [(afterEquals_iff _ _).2 hv, bind, Except.bind]
        rfl
    obtain ⟨b, h3⟩ := h3
    unfold readCalLines
    simp only [h1, gainSays_iff.2 hgain, h3, h4, charTable_of hb hne hrows, bind, Except.bind]
    exact ⟨_, rfl⟩

end Resistics
