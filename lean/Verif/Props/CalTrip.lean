import Verif.Props.CalJson

/-!
# Property C81: a text file can carry what a JSON file carries
-/

namespace Resistics

/-! ## Specification -/

/-- The words the reader of text files looks for, in small letters. -/
def calWords : List String := ["serial", "sensor", "static gain", "chopper", "magnitude unit", "phase unit", "calibration data"]

/-- A text that can stand behind an equals sign: on one line, not empty, without white space at its ends, without another equals sign and without the words
the reader looks for. -/
def PlainValue (v : List Char) : Prop :=
  v ≠ [] ∧ (∀ c, v.head? = some c → isSpace c = false) ∧ (∀ c, v.getLast? = some c → isSpace c = false) ∧ '=' ∉ v ∧ '\n' ∉ v ∧ '\r' ∉ v ∧
    ∀ t ∈ calWords, ¬ Names t (String.ofList v)

/-- In small letters. -/
def IsLower (v : List Char) : Prop := ∀ c ∈ v, c.toLower = c

/-- A serial number as a text. -/
def serialChars : Doc.Serial → List Char
  | .number n => intText n
  | .text s => s.toList

/-- A row: frequency, magnitude and phase as Python writes them. -/
def rowChars (r : ℚ × ℚ × ℚ) : List Char := floatText r.1 ++ ([' '] ++ (floatText r.2.1 ++ ([' '] ++ floatText r.2.2)))

/-- The lines of a text file. -/
def calListing (sensor unit : String) (serial : Doc.Serial) (gain : ℚ) (rows : List (ℚ × ℚ × ℚ)) : List (List Char) :=
  ["Sensor = ".toList ++ sensor.toList, "Serial = ".toList ++ serialChars serial, "Static gain = ".toList ++ floatText gain,
    "Magnitude unit = ".toList ++ unit.toList, "Phase unit = radians".toList, "CALIBRATION DATA".toList] ++ rows.map rowChars

/-! ## Lines with a value -/

theorem infix_split {t a b : List Char} {c : Char} (hc : c ∉ t) (h : t <:+: a ++ c :: b) : t <:+: a ∨ t <:+: b := by
  obtain ⟨x, y, h⟩ := h
  rw [List.append_assoc] at h
  rcases List.append_eq_append_iff.1 h with ⟨a', h1, h2⟩ | ⟨x', h1, h2⟩
  · -- a = x ++ a', t ++ y = a' ++ c :: b
    rcases List.append_eq_append_iff.1 h2 with ⟨a'', h3, h4⟩ | ⟨t', h3, h4⟩
    · exact Or.inl ⟨x, a'', by rw [h1, h3, List.append_assoc]⟩
    · cases t' with
      | nil => exact Or.inl ⟨x, [], by rw [h1, h3]; simp⟩
      | cons z zs =>
        have := (List.cons.inj h4).1
        exact absurd (by rw [h3, this]; simp) hc
  · cases x' with
    | nil =>
      simp only [List.nil_append] at h2
      cases t with
      | nil => exact Or.inl ⟨[], a, by simp⟩
      | cons z zs =>
        have := (List.cons.inj h2).1
        exact absurd (by rw [this]; simp) hc
    | cons z zs =>
      have := (List.cons.inj h2).2
      exact Or.inr ⟨zs, y, by rw [this]; simp⟩

theorem infix_space {t b : List Char} (h0 : t.head? ≠ some ' ') (h : t <:+: ' ' :: b) : t <:+: b := by
  rcases List.infix_cons_iff.1 h with h | h
  · cases t with
    | nil => exact ⟨[], b, by simp⟩
    | cons z zs =>
      have := (List.cons_prefix_cons.1 h).1
      exact absurd (by rw [this]; rfl) h0
  · exact h

/-- What a line with a value names: what its key names. -/
theorem line_names {key v : List Char} (hv : PlainValue v) (t : String) (ht : t ∈ calWords) :
    namesB t (String.ofList (key ++ '=' :: ' ' :: v)) = decide (t.toList <:+: key.map Char.toLower) := by
  have hword : ∀ t ∈ calWords, '=' ∉ t.toList ∧ t.toList.head? ≠ some ' ' := by decide
  obtain ⟨h1, h2⟩ := hword t ht
  have hn := hv.2.2.2.2.2.2 t ht
  unfold Names at hn
  rw [← pyContains_iff] at hn
  unfold pyContains pyLower at hn
  unfold namesB pyContains pyLower
  rw [decide_eq_true_iff, String.toList_ofList, String.toList_ofList] at hn
  rw [String.toList_ofList, String.toList_ofList]
  apply decide_eq_decide.2
  rw [List.map_append, List.map_cons, List.map_cons, show Char.toLower '=' = '=' by decide, show Char.toLower ' ' = ' ' by decide]
  constructor
  · intro h
    rcases infix_split h1 h with h | h
    · exact h
    · exact absurd (infix_space h2 h) hn
  · intro h
    exact h.trans ⟨[], _, rfl⟩

/-- The value of a line. -/
theorem line_value {key v : List Char} (hk : '=' ∉ key) (hv : PlainValue v) : HasValue (String.ofList (key ++ '=' :: ' ' :: v)) (String.ofList v) := by
  obtain ⟨h0, h1, h2, h3, h4, h5, -⟩ := hv
  refine ⟨key, ' ' :: v, [], by simp, hk, ?_, (fun c hc => nomatch hc), [' '], [], by simp, ?_, (fun c hc => nomatch hc), ?_, ?_⟩
  · simp [h3]
  · intro c hc
    rw [List.mem_singleton] at hc
    rw [hc]; rfl
  · rw [String.toList_ofList]; exact h1
  · rw [String.toList_ofList]; exact h2

theorem line_lower {key v : List Char} (hv : IsLower v) :
    pyLower (String.ofList (key ++ '=' :: ' ' :: v)) = String.ofList (key.map Char.toLower ++ '=' :: ' ' :: v) := by
  unfold pyLower
  rw [String.toList_ofList, List.map_append, List.map_cons, List.map_cons, show Char.toLower '=' = '=' by decide, show Char.toLower ' ' = ' ' by decide]
  have : v.map Char.toLower = v := (List.map_congr_left hv).trans (List.map_id' v)
  rw [this]

/-- A line with a value has no white space at its ends. -/
theorem line_strip {key v : List Char} (hk : ∀ c, key.head? = some c → isSpace c = false) (hk' : key ≠ []) (hv : PlainValue v) :
    pyStrip (String.ofList (key ++ '=' :: ' ' :: v)) = String.ofList (key ++ '=' :: ' ' :: v) := by
  apply String.toList_injective
  refine (trimmed_strip _).unique ?_
  refine ⟨[], [], by simp, (fun c hc => nomatch hc), (fun c hc => nomatch hc), ?_, ?_⟩
  · rw [String.toList_ofList]
    intro c hc
    cases key with
    | nil => exact absurd rfl hk'
    | cons x xs => exact hk c hc
  · rw [String.toList_ofList]
    intro c hc
    apply hv.2.2.1
    have h0 := hv.1
    rw [List.getLast?_append, List.getLast?_cons, List.getLast?_cons] at hc
    cases hl : v.getLast? with
    | none => rw [List.getLast?_eq_none_iff] at hl; exact absurd hl h0
    | some x => rw [hl] at hc; simpa using hc

/-! ## Numbers -/

theorem numChars_facts : (∀ c ∈ numChars, c ≠ '=' ∧ c ≠ '\n' ∧ c ≠ '\r' ∧ isSpace c = false) := by decide

theorem decimal_plain {d : Decimal} (hd : d.Legal) (hne : d.text ≠ []) : PlainValue d.text := by
  have hch := decimal_chars hd
  refine ⟨hne, ?_, ?_, ?_, ?_, ?_, ?_⟩
  · exact fun c hc => (numChars_facts c (hch c (List.mem_of_mem_head? hc))).2.2.2
  · exact fun c hc => (numChars_facts c (hch c (List.mem_of_getLast? hc))).2.2.2
  · exact fun h => (numChars_facts _ (hch _ h)).1 rfl
  · exact fun h => (numChars_facts _ (hch _ h)).2.1 rfl
  · exact fun h => (numChars_facts _ (hch _ h)).2.2.1 rfl
  · intro t ht hn
    have hword : ∀ t ∈ calWords, ∃ c ∈ t.toList, c ∉ numberChars := by decide
    obtain ⟨c, hc, hnc⟩ := hword t ht
    obtain ⟨a, b, hab⟩ := hn
    have hmem : c ∈ (pyLower (String.ofList d.text)).toList := by rw [hab]; simp [hc]
    rw [pyLower, String.toList_ofList, String.toList_ofList, List.mem_map] at hmem
    obtain ⟨x, hx, rfl⟩ := hmem
    exact hnc (numChars_lower x (hch x hx))

theorem text_ne {d : Decimal} (hc : d.Legal) : d.text ≠ [] := by
  obtain ⟨-, -, h, hp, -⟩ := hc
  intro h0
  unfold Decimal.text at h0
  simp only [List.append_eq_nil_iff] at h0
  obtain ⟨-, h1, h2, -⟩ := h0
  apply h
  rw [h1, List.nil_append]
  by_cases hpt : d.point = true
  · rw [if_pos hpt] at h2
    cases h2
  · exact hp (by simpa using hpt)

theorem float_plain {q : ℚ} (hq : IsDouble q) : PlainValue (floatText q) ∧ ∀ x ∈ floatText q, isSpace x = false := by
  obtain ⟨d, hd, ht, -⟩ := json_number (C74_float q hq)
  rw [ht]
  exact ⟨decimal_plain hd (text_ne hd), fun x hx => (numChars_facts x (decimal_chars hd x hx)).2.2.2⟩

theorem int_plain (n : ℤ) : PlainValue (intText n) := by
  obtain ⟨d, hd, ht, -⟩ := json_number (C74_int n)
  rw [ht]
  exact decimal_plain hd (text_ne hd)

theorem digits_all (n : ℕ) : AllDigits (Nat.toDigits 10 n) ∧ Nat.toDigits 10 n ≠ [] := by
  refine ⟨?_, Nat.toDigits_ne_nil⟩
  intro c hc
  have := Nat.isDigit_of_mem_toDigits (by norm_num) (by norm_num) hc
  unfold isDecDigit
  unfold Char.isDigit at this
  simp only [Bool.and_eq_true, decide_eq_true_eq] at this ⊢
  exact ⟨this.1, this.2⟩

theorem int_lower (n : ℤ) : IsLower (intText n) := by
  have hd := (digits_all n.natAbs).1
  intro c hc
  unfold intText at hc
  split at hc
  · rcases List.mem_cons.1 hc with rfl | hc
    · decide
    · exact digit_lower (hd c hc)
  · exact digit_lower (hd c hc)

theorem int_serial (n : ℤ) : SerialSays (String.ofList (intText n)) (.number n) := by
  obtain ⟨hd, hne⟩ := digits_all n.natAbs
  refine Or.inl ⟨if n < 0 then some true else none, Nat.toDigits 10 n.natAbs, ?_, hd, hne, ?_⟩
  · rw [String.toList_ofList, intText]
    split <;> rfl
  · rw [digitsValue_toDigits]
    congr 1
    split
    · rw [if_pos rfl]; omega
    · rw [if_neg (by decide)]; omega

theorem words_three {a s1 b s2 c : List Char} (ha : a ≠ []) (ha' : ∀ x ∈ a, isSpace x = false) (h1 : s1 ≠ []) (h1' : Blank s1)
    (hb : b ≠ []) (hb' : ∀ x ∈ b, isSpace x = false) (h2 : s2 ≠ []) (h2' : Blank s2) (hc : c ≠ []) (hc' : ∀ x ∈ c, isSpace x = false) :
    Words (a ++ (s1 ++ (b ++ (s2 ++ c)))) [String.ofList a, String.ofList b, String.ofList c] := by
  have w3 : Words (s2 ++ c) [String.ofList c] := by
    have := Words.cons s2 c [] [] h2' hc hc' (fun x hx => by cases hx) (.nil [] (fun x hx => by cases hx))
    simpa using this
  have w2 : Words (s1 ++ (b ++ (s2 ++ c))) [String.ofList b, String.ofList c] := by
    have := Words.cons s1 b (s2 ++ c) [String.ofList c] h1' hb hb' (fun x hx => by
      cases s2 with
      | nil => exact absurd rfl h2
      | cons y ys =>
        simp only [List.cons_append, List.head?_cons, Option.some.injEq] at hx
        rw [← hx]
        exact h2' y (by simp)) w3
    simpa using this
  have := Words.cons [] a (s1 ++ (b ++ (s2 ++ c))) _ (fun x hx => by cases hx) ha ha' (fun x hx => by
      cases s1 with
      | nil => exact absurd rfl h1
      | cons y ys =>
        simp only [List.cons_append, List.head?_cons, Option.some.injEq] at hx
        rw [← hx]
        exact h1' y (by simp)) w2
  simpa using this

/-- A row that was written is a row. -/
theorem row_number {r : ℚ × ℚ × ℚ} (h1 : IsDouble r.1) (h2 : IsDouble r.2.1) (h3 : IsDouble r.2.2) :
    NumberRow (String.ofList (rowChars r)) (.float r.1, .float r.2.1, .float r.2.2) := by
  obtain ⟨p1, q1⟩ := float_plain h1
  obtain ⟨p2, q2⟩ := float_plain h2
  obtain ⟨p3, q3⟩ := float_plain h3
  have hsp : Blank [' '] := by
    intro c hc
    rw [List.mem_singleton] at hc
    rw [hc]; rfl
  refine ⟨String.ofList (floatText r.1), String.ofList (floatText r.2.1), String.ofList (floatText r.2.2), ?_, ?_, ?_, ?_⟩
  · rw [String.toList_ofList]
    exact words_three p1.1 q1 (by simp) hsp p2.1 q2 (by simp) hsp p3.1 q3
  · rw [String.toList_ofList]; exact C78_python_numbers.1 _ h1
  · rw [String.toList_ofList]; exact C78_python_numbers.1 _ h2
  · rw [String.toList_ofList]; exact C78_python_numbers.1 _ h3

/-! ## The whole file -/

/-- The lines about the sensor. -/
theorem listing_names {v : List Char} (hv : PlainValue v) :
    (∀ t ∈ calWords, namesB t (String.ofList ("Sensor = ".toList ++ v)) = decide (t = "sensor")) ∧
    (∀ t ∈ calWords, namesB t (String.ofList ("Serial = ".toList ++ v)) = decide (t = "serial")) ∧
    (∀ t ∈ calWords, namesB t (String.ofList ("Static gain = ".toList ++ v)) = decide (t = "static gain")) ∧
    (∀ t ∈ calWords, namesB t (String.ofList ("Magnitude unit = ".toList ++ v)) = decide (t = "magnitude unit")) ∧
    (∀ t ∈ calWords, namesB t (String.ofList ("Phase unit = ".toList ++ v)) = decide (t = "phase unit")) := by
  refine ⟨fun t ht => ?_, fun t ht => ?_, fun t ht => ?_, fun t ht => ?_, fun t ht => ?_⟩
  · rw [show "Sensor = ".toList ++ v = "Sensor ".toList ++ '=' :: ' ' :: v from rfl, line_names hv t ht]
    revert t
    decide
  · rw [show "Serial = ".toList ++ v = "Serial ".toList ++ '=' :: ' ' :: v from rfl, line_names hv t ht]
    revert t
    decide
  · rw [show "Static gain = ".toList ++ v = "Static gain ".toList ++ '=' :: ' ' :: v from rfl, line_names hv t ht]
    revert t
    decide
  · rw [show "Magnitude unit = ".toList ++ v = "Magnitude unit ".toList ++ '=' :: ' ' :: v from rfl, line_names hv t ht]
    revert t
    decide
  · rw [show "Phase unit = ".toList ++ v = "Phase unit ".toList ++ '=' :: ' ' :: v from rfl, line_names hv t ht]
    revert t
    decide

theorem mentions_names {t l : String} (h : Mentions t l) : Names (pyLower t) l := by
  obtain ⟨a, b, h⟩ := h
  refine ⟨a.map Char.toLower, b.map Char.toLower, ?_⟩
  unfold pyLower
  rw [String.toList_ofList, String.toList_ofList, h]
  simp

/-- **C81 (carried)**. Every set of calibration data that a JSON file can hold – any finite doubles, in order of frequency, at least one, and texts that can be told apart from the words the reader
looks for – can be written as a text file, and the text reader reads exactly these data from it. -/
theorem C81_text_carries (path sensor unit : String) (serial : Doc.Serial) (gain : ℚ) (rows : List (ℚ × ℚ × ℚ)) (eol : List Char) (he : IsNewline eol)
    (hs : PlainValue sensor.toList ∧ IsLower sensor.toList) (hu : PlainValue unit.toList)
    (hser : ∀ s, serial = .text s → PlainValue s.toList ∧ IsLower s.toList ∧ ∀ sign ds, s.toList = signChars sign ++ ds → AllDigits ds → ds = [])
    (hg : IsDouble gain) (hrows : ∀ r ∈ rows, IsDouble r.1 ∧ IsDouble r.2.1 ∧ IsDouble r.2.2) (hne : rows ≠ []) (hord : (rows.map (·.1)).Pairwise (· ≤ ·)) :
    readCalChars path ((calListing sensor unit serial gain rows).flatMap fun l => l ++ eol) =
      .ok (.mk none (some path) sensor serial (.float gain) unit (rows.map fun r => .float r.1) (rows.map fun r => .float r.2.1)
        (rows.map fun r => .float r.2.2) rows.length) := by
  -- the serial number
  have hsv : PlainValue (serialChars serial) ∧ IsLower (serialChars serial) ∧ SerialSays (String.ofList (serialChars serial)) serial := by
    cases serial with
    | number n => exact ⟨int_plain n, int_lower n, int_serial n⟩
    | text s =>
      obtain ⟨a, b, c⟩ := hser s rfl
      refine ⟨a, b, Or.inr ⟨?_, ?_⟩⟩
      · rintro ⟨sign, ds, h1, h2, h3⟩
        rw [String.toList_ofList] at h1
        exact h3 (c sign ds h1 h2)
      · show Doc.Serial.text s = .text (String.ofList s.toList)
        rw [String.ofList_toList]
  have hgv := (float_plain hg).1
  have hrad : PlainValue "radians".toList := by
    refine ⟨by decide, by decide, by decide, by decide, by decide, by decide, ?_⟩
    intro t ht hn
    rw [← namesB_iff] at hn
    revert t
    decide
  -- the lines
  set S1 := "Sensor = ".toList ++ sensor.toList with hS1
  set S2 := "Serial = ".toList ++ serialChars serial with hS2
  set S3 := "Static gain = ".toList ++ floatText gain with hS3
  set S4 := "Magnitude unit = ".toList ++ unit.toList with hS4
  set S5 := "Phase unit = radians".toList with hS5
  have n1 := (listing_names hs.1).1
  have n2 := (listing_names hsv.1).2.1
  have n3 := (listing_names hgv).2.2.1
  have n4 := (listing_names hu).2.2.2.1
  have n5 := (listing_names hrad).2.2.2.2
  rw [← hS1] at n1
  rw [← hS2] at n2
  rw [← hS3] at n3
  rw [← hS4] at n4
  rw [show "Phase unit = ".toList ++ "radians".toList = S5 from rfl] at n5
  have st1 : pyStrip (String.ofList S1) = String.ofList S1 := line_strip (key := "Sensor ".toList) (by decide) (by decide) hs.1
  have st2 : pyStrip (String.ofList S2) = String.ofList S2 := line_strip (key := "Serial ".toList) (by decide) (by decide) hsv.1
  have st3 : pyStrip (String.ofList S3) = String.ofList S3 := line_strip (key := "Static gain ".toList) (by decide) (by decide) hgv
  have st4 : pyStrip (String.ofList S4) = String.ofList S4 := line_strip (key := "Magnitude unit ".toList) (by decide) (by decide) hu
  have st5 : pyStrip (String.ofList S5) = String.ofList S5 := line_strip (key := "Phase unit ".toList) (by decide) (by decide) hrad
  have v1 : afterEquals (pyLower (String.ofList S1)) = .ok sensor := by
    rw [show S1 = "Sensor ".toList ++ '=' :: ' ' :: sensor.toList from rfl, line_lower hs.2, afterEquals_iff]
    have := line_value (key := "Sensor ".toList.map Char.toLower) (by decide) hs.1
    rwa [String.ofList_toList] at this
  have v2 : afterEquals (pyLower (String.ofList S2)) = .ok (String.ofList (serialChars serial)) := by
    rw [show S2 = "Serial ".toList ++ '=' :: ' ' :: serialChars serial from rfl, line_lower hsv.2.1, afterEquals_iff]
    exact line_value (key := "Serial ".toList.map Char.toLower) (by decide) hsv.1
  have v3 : afterEquals (String.ofList S3) = .ok (String.ofList (floatText gain)) := by
    rw [afterEquals_iff]
    exact line_value (key := "Static gain ".toList) (by decide) hgv
  have v4 : afterEquals (String.ofList S4) = .ok unit := by
    rw [afterEquals_iff]
    have := line_value (key := "Magnitude unit ".toList) (by decide) hu
    rwa [String.ofList_toList] at this
  have v5 : afterEquals (String.ofList S5) = .ok "radians" := by
    rw [afterEquals_iff]
    exact line_value (key := "Phase unit ".toList) (by decide) hrad
  -- the text
  set pre := [S1, S2, S3, S4, S5] with hpre
  have hlist : calListing sensor unit serial gain rows = pre ++ "CALIBRATION DATA".toList :: rows.map rowChars := rfl
  have hrow : List.Forall₂ (fun l r => NumberRow (String.ofList l) r) (rows.map rowChars) (rows.map fun r => (.float r.1, .float r.2.1, .float r.2.2)) := by
    rw [List.forall₂_map_left_iff, List.forall₂_map_right_iff]
    exact List.forall₂_same.2 fun r hr => row_number (hrows r hr).1 (hrows r hr).2.1 (hrows r hr).2.2
  have hnl : ∀ (key : List Char), '\n' ∉ key ∧ '\r' ∉ key → ∀ {v : List Char}, PlainValue v → '\n' ∉ key ++ v ∧ '\r' ∉ key ++ v := by
    intro key hk v hv
    simp only [List.mem_append, not_or]
    exact ⟨⟨hk.1, hv.2.2.2.2.1⟩, hk.2, hv.2.2.2.2.2.1⟩
  have htext : TextOf ((calListing sensor unit serial gain rows).flatMap fun l => l ++ eol) (pre ++ "CALIBRATION DATA".toList :: (rows.map rowChars ++ [])) := by
    rw [List.append_nil, hlist]
    refine ⟨?_, eol, he, Or.inl rfl⟩
    intro l hl
    simp only [hpre, List.mem_append, List.mem_cons, List.not_mem_nil, or_false] at hl
    rcases hl with (rfl | rfl | rfl | rfl | rfl) | rfl | hl
    · exact hnl "Sensor = ".toList (by decide) hs.1
    · exact hnl "Serial = ".toList (by decide) hsv.1
    · exact hnl "Static gain = ".toList (by decide) hgv
    · exact hnl "Magnitude unit = ".toList (by decide) hu
    · exact hnl "Phase unit = ".toList (by decide) hrad
    · decide
    · obtain ⟨r, hr, rfl⟩ := List.mem_map.1 hl
      obtain ⟨a, b, c⟩ := hrows r hr
      have pa := (float_plain a).1
      have pb := (float_plain b).1
      have pc := (float_plain c).1
      have := hnl (floatText r.1 ++ ([' '] ++ (floatText r.2.1 ++ [' ']))) (by
        simp only [List.mem_append, List.mem_singleton, not_or]
        exact ⟨⟨pa.2.2.2.2.1, by decide, pb.2.2.2.2.1, by decide⟩, pa.2.2.2.2.2.1, by decide, pb.2.2.2.2.2.1, by decide⟩) pc
      simpa [rowChars] using this
  have hnomark : ∀ l ∈ pre, ¬ Mentions "CALIBRATION DATA" (String.ofList l) := by
    intro l hl hm
    have hn := (namesB_iff _ _).2 (mentions_names hm)
    rw [show pyLower "CALIBRATION DATA" = "calibration data" by decide] at hn
    simp only [hpre, List.mem_cons, List.not_mem_nil, or_false] at hl
    rcases hl with rfl | rfl | rfl | rfl | rfl
    · rw [n1 _ (by decide)] at hn; revert hn; decide
    · rw [n2 _ (by decide)] at hn; revert hn; decide
    · rw [n3 _ (by decide)] at hn; revert hn; decide
    · rw [n4 _ (by decide)] at hn; revert hn; decide
    · rw [n5 _ (by decide)] at hn; revert hn; decide
  obtain ⟨hblock, hbody⟩ := stripped_block (post := []) (marker := "CALIBRATION DATA".toList) ((pyContains_iff _ _).1 (by decide)) hnomark hrow (fun l hl => by cases hl)
  rw [readCalChars_lines (stripped_of htext)]
  -- the lines that speak
  have hfil : (stripped (pre ++ "CALIBRATION DATA".toList :: (rows.map rowChars ++ []))).filter speaks =
      [String.ofList S1, String.ofList S2, String.ofList S3, String.ofList S4, String.ofList S5] := by
    have e1 := speaks_strip_rows hrow
    unfold stripped at e1 ⊢
    have k1 : speaks (String.ofList S1) = true := by simp [speaks, n1 "sensor" (by decide)]
    have k2 : speaks (String.ofList S2) = true := by simp [speaks, n2 "serial" (by decide)]
    have k3 : speaks (String.ofList S3) = true := by simp [speaks, n3 "static gain" (by decide)]
    have k4 : speaks (String.ofList S4) = true := by simp [speaks, n4 "magnitude unit" (by decide)]
    have k5 : speaks (String.ofList S5) = true := by simp [speaks, n5 "phase unit" (by decide)]
    have k6 : speaks (pyStrip (String.ofList "CALIBRATION DATA".toList)) = false := by decide
    rw [List.append_nil]
    simp only [hpre, List.cons_append, List.nil_append, List.map_cons, List.filter_cons, st1, st2, st3, st4, st5, k1, k2, k3, k4, k5, k6, e1, if_true,
      Bool.false_eq_true, if_false]
  obtain ⟨m1, m2, m3, m4⟩ := metadata_filter (stripped (pre ++ "CALIBRATION DATA".toList :: (rows.map rowChars ++ [])))
  rw [hfil] at m1 m2 m3 m4
  generalize stripped (pre ++ "CALIBRATION DATA".toList :: (rows.map rowChars ++ [])) = lines at *
  have q1 : getSensorDetails lines = .ok (String.ofList (serialChars serial), sensor) := by
    rw [← m1, sensorDetails_eq]
    simp [pairStep, n1 "serial" (by decide), n1 "sensor" (by decide), n2 "serial" (by decide), n2 "sensor" (by decide), n3 "serial" (by decide),
      n3 "sensor" (by decide), n4 "serial" (by decide), n4 "sensor" (by decide), n5 "serial" (by decide), n5 "sensor" (by decide), v1, v2,
      bind, Except.bind, pure, Except.pure]
  have q4 : getUnits lines = .ok (unit, "radians") := by
    rw [← m4, units_eq]
    simp [pairStep, n1 "magnitude unit" (by decide), n1 "phase unit" (by decide), n2 "magnitude unit" (by decide), n2 "phase unit" (by decide),
      n3 "magnitude unit" (by decide), n3 "phase unit" (by decide), n4 "magnitude unit" (by decide), n4 "phase unit" (by decide),
      n5 "magnitude unit" (by decide), n5 "phase unit" (by decide), v4, v5, bind, Except.bind, pure, Except.pure]
  have q3 : getChopper lines = .ok false := by
    rw [← m3]
    unfold getChopper
    have : [String.ofList S1, String.ofList S2, String.ofList S3, String.ofList S4, String.ofList S5].find? (namesB "chopper") = none := by
      simp [n1 "chopper" (by decide), n2 "chopper" (by decide), n3 "chopper" (by decide), n4 "chopper" (by decide), n5 "chopper" (by decide)]
    rw [show (fun l => pyContains "chopper" (pyLower l)) = namesB "chopper" from rfl, this]
  have q2 : staticGainOf lines = .ok (.float gain) := by
    rw [← m2]
    unfold staticGainOf
    have : [String.ofList S1, String.ofList S2, String.ofList S3, String.ofList S4, String.ofList S5].find? (namesB "static gain") = some (String.ofList S3) := by
      simp [n1 "static gain" (by decide), n2 "static gain" (by decide), n3 "static gain" (by decide)]
    rw [show (fun l => pyContains "static gain" (pyLower l)) = namesB "static gain" from rfl, this]
    simp only [v3, bind, Except.bind]
    rw [calNumber_iff, String.toList_ofList]
    exact C78_python_numbers.1 _ hg
  have hne' : stripped (rows.map rowChars) ≠ [] := by
    intro h0
    apply hne
    have := congrArg List.length h0
    simp only [stripped, List.length_map, List.length_nil] at this
    exact List.length_eq_zero_iff.1 this
  unfold readCalLines
  simp only [q1, q2, q3, q4, charTable_of hblock hne' hbody, bind, Except.bind, pure, Except.pure]
  have htab : calTable "radians" (rows.map fun r => (PyNum.float r.1, PyNum.float r.2.1, PyNum.float r.2.2)) =
      rows.map fun r => (PyNum.float r.1, PyNum.float r.2.1, PyNum.float r.2.2) := by
    unfold calTable
    have e : ((rows.map fun r => (PyNum.float r.1, PyNum.float r.2.1, PyNum.float r.2.2)).map fun r =>
        (r.1, r.2.1, if "radians" = "degrees" then inRadians r.2.2 else r.2.2)) = rows.map fun r => (PyNum.float r.1, PyNum.float r.2.1, PyNum.float r.2.2) := by
      simp
    rw [e]
    apply List.Pairwise.insertionSort_eq
    rw [List.pairwise_map] at hord ⊢
    exact hord.imp fun {a b} hab => by simp only [numLe, decide_eq_true_eq]; exact hab
  have hse : serialOf (String.ofList (serialChars serial)) = serial := (serialOf_says _).unique hsv.2.2
  rw [htab]
  simp [calDocOf, hse]

/-- **C81 (same data)**. Whether calibration data come as a JSON file or as a text file makes no difference but for the information about the file. -/
theorem C81_same_data (env env' : Doc.Reading) (hc : env'.ClocksRun) (path sensor unit : String) (serial : Doc.Serial) (gain : ℚ) (rows : List (ℚ × ℚ × ℚ)) (eol : List Char)
    (he : IsNewline eol) (hs : PlainValue sensor.toList ∧ IsLower sensor.toList) (hu : PlainValue unit.toList) (hfit : serial.Fits env)
    (hser : ∀ s, serial = .text s → PlainValue s.toList ∧ IsLower s.toList ∧ ∀ sign ds, s.toList = signChars sign ++ ds → AllDigits ds → ds = [])
    (hg : IsDouble gain) (hrows : ∀ r ∈ rows, IsDouble r.1 ∧ IsDouble r.2.1 ∧ IsDouble r.2.2) (hne : rows ≠ []) (hord : (rows.map (·.1)).Pairwise (· ≤ ·)) :
    ∃ d d', readCalChars path ((calListing sensor unit serial gain rows).flatMap fun l => l ++ eol) = .ok d ∧
      readCalJson env path (Doc.CalDoc.write env' (.mk none none sensor serial (.float gain) unit (rows.map fun r => .float r.1) (rows.map fun r => .float r.2.1)
        (rows.map fun r => .float r.2.2) rows.length)) = .ok d' ∧ d'.fileInfo = some (Doc.newFileInfo env') ∧ d = { d' with fileInfo := none } := by
  refine ⟨_, _, C81_text_carries path sensor unit serial gain rows eol he hs hu hser hg hrows hne hord, C81_json_written env env' path _ ?_ hc, rfl, ?_⟩
  · refine ⟨(fun f hf => nomatch hf), (fun f hf => nomatch hf), hfit, ⟨hg, fun n hn => nomatch hn⟩, ?_, ?_, ?_⟩
    · intro f hf
      obtain ⟨r, hr, rfl⟩ := List.mem_map.1 hf
      exact ⟨(hrows r hr).1, fun n hn => nomatch hn⟩
    · intro f hf
      obtain ⟨r, hr, rfl⟩ := List.mem_map.1 hf
      exact ⟨(hrows r hr).2.1, fun n hn => nomatch hn⟩
    · intro f hf
      obtain ⟨r, hr, rfl⟩ := List.mem_map.1 hf
      exact ⟨(hrows r hr).2.2, fun n hn => nomatch hn⟩
  · simp [Doc.CalDoc.asRead, PyNum.asFloat]

end Resistics
