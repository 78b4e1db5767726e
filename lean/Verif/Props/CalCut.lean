import Verif.Props.CalChars

/-!
# Property C81: calibration files that were cut off, and rows in another order
-/

namespace Resistics

/-- The characters of numbers, in small letters. -/
def numberChars : List Char := "0123456789+-.einftya".toList

theorem toLower_letters {name : List Char} {t : String} (h : name.map Char.toLower = t.toList) (ht : ∀ c ∈ t.toList, c ∈ numberChars) :
    ∀ c ∈ name, c.toLower ∈ numberChars := by
  intro c hc
  apply ht
  rw [← h]
  exact List.mem_map_of_mem hc

theorem numChars_lower : ∀ c ∈ numChars, c.toLower ∈ numberChars := by decide

theorem numberText_chars {w : List Char} {v : PyNum} (h : NumberText w v) : ∀ c ∈ w, isSpace c = true ∨ c.toLower ∈ numberChars := by
  obtain ⟨t, ⟨g, g', rfl, hg, hg', -, -⟩, ht⟩ := h
  have key : ∀ c ∈ t, c.toLower ∈ numberChars := by
    rcases ht with ⟨d, hd, rfl, -⟩ | ⟨s, name, rfl, hn, -⟩ | ⟨s, name, rfl, hn, -⟩
    · exact fun c hc => numChars_lower c (decimal_chars hd c hc)
    · intro c hc
      rcases List.mem_append.1 hc with hc | hc
      · exact numChars_lower c (signChars_numChars s c hc)
      · rcases hn with hn | hn
        · exact toLower_letters hn (by decide) c hc
        · exact toLower_letters hn (by decide) c hc
    · intro c hc
      rcases List.mem_append.1 hc with hc | hc
      · exact numChars_lower c (signChars_numChars s c hc)
      · exact toLower_letters hn (by decide) c hc
  intro c hc
  simp only [List.mem_append] at hc
  rcases hc with (hc | hc) | hc
  · exact Or.inl (hg c hc)
  · exact Or.inr (key c hc)
  · exact Or.inl (hg' c hc)

theorem words_chars {s : List Char} {ws : List String} (h : Words s ws) : ∀ c ∈ s, isSpace c = true ∨ ∃ w ∈ ws, c ∈ w.toList := by
  induction h with
  | nil g hg => exact fun c hc => Or.inl (hg c hc)
  | cons g w s ws hg hne hw hs h ih =>
    intro c hc
    simp only [List.mem_append] at hc
    rcases hc with (hc | hc) | hc
    · exact Or.inl (hg c hc)
    · exact Or.inr ⟨String.ofList w, by simp, by rw [String.toList_ofList]; exact hc⟩
    · rcases ih c hc with h1 | ⟨w', h1, h2⟩
      · exact Or.inl h1
      · exact Or.inr ⟨w', by simp [h1], h2⟩

theorem numberRow_chars {line : String} {r : PyNum × PyNum × PyNum} (h : NumberRow line r) :
    ∀ c ∈ line.toList, isSpace c = true ∨ c.toLower ∈ numberChars := by
  obtain ⟨a, b, c, hw, h1, h2, h3⟩ := h
  intro x hx
  rcases words_chars hw x hx with h | ⟨w, hm, hxw⟩
  · exact Or.inl h
  · simp only [List.mem_cons, List.not_mem_nil, or_false] at hm
    rcases hm with rfl | rfl | rfl
    · exact numberText_chars h1 x hxw
    · exact numberText_chars h2 x hxw
    · exact numberText_chars h3 x hxw

/-- The lines that say something about sensor, serial number, gain, chopper or units. -/
def speaks (l : String) : Bool :=
  namesB "serial" l || namesB "sensor" l || namesB "static gain" l || namesB "chopper" l || namesB "magnitude unit" l || namesB "phase unit" l

theorem lower_space {c : Char} (h : isSpace c = true) : c.toLower = c := by
  unfold isSpace at h
  simp only [Bool.or_eq_true, decide_eq_true_eq] at h
  rcases h with ((((rfl | rfl) | rfl) | rfl) | rfl) | rfl <;> decide

theorem numberRow_quiet {line : String} {r : PyNum × PyNum × PyNum} (h : NumberRow line r) (t : String) (x : Char) (hx : x ∈ t.toList)
    (hs : isSpace x = false) (hn : x ∉ numberChars) : namesB t line = false := by
  rw [← Bool.not_eq_true, namesB_iff]
  rintro ⟨a, b, hab⟩
  have hmem : x ∈ (pyLower line).toList := by rw [hab]; simp [hx]
  rw [pyLower, String.toList_ofList, List.mem_map] at hmem
  obtain ⟨c, hc, rfl⟩ := hmem
  rcases numberRow_chars h c hc with h1 | h1
  · rw [lower_space h1, h1] at hs
    cases hs
  · exact hn h1

theorem numberRow_silent {line : String} {r : PyNum × PyNum × PyNum} (h : NumberRow line r) : speaks line = false := by
  unfold speaks
  rw [numberRow_quiet h "serial" 's' (by decide) (by decide) (by decide), numberRow_quiet h "sensor" 's' (by decide) (by decide) (by decide),
    numberRow_quiet h "static gain" 's' (by decide) (by decide) (by decide), numberRow_quiet h "chopper" 'c' (by decide) (by decide) (by decide),
    numberRow_quiet h "magnitude unit" 'm' (by decide) (by decide) (by decide), numberRow_quiet h "phase unit" 'p' (by decide) (by decide) (by decide)]
  rfl

/-! ## Lines that say nothing do not matter -/

theorem find_filter (p q : String → Bool) (h : ∀ x, p x = true → q x = true) (l : List String) : (l.filter q).find? p = l.find? p := by
  induction l with
  | nil => rfl
  | cons a l ih =>
    by_cases hq : q a = true
    · rw [List.filter_cons_of_pos hq, List.find?_cons, List.find?_cons, ih]
    · rw [List.filter_cons_of_neg hq, ih, List.find?_cons]
      have : p a = false := by
        by_contra hp
        exact hq (h a (by simpa using hp))
      rw [this]

theorem pairFold_filter (p q s : String → Bool) (f : String → String) (h : ∀ x, p x = true ∨ q x = true → s x = true) (lines : List String)
    (st : String × String) : (lines.filter s).foldlM (pairStep p q f) st = lines.foldlM (pairStep p q f) st := by
  induction lines generalizing st with
  | nil => rfl
  | cons a l ih =>
    by_cases hq : s a = true
    · rw [List.filter_cons_of_pos hq, List.foldlM_cons, List.foldlM_cons]
      congr 1
      funext st'
      exact ih st'
    · rw [List.filter_cons_of_neg hq, ih, List.foldlM_cons]
      have hp : p a = false := by
        by_contra hp
        exact hq (h a (Or.inl (by simpa using hp)))
      have hq' : q a = false := by
        by_contra hp
        exact hq (h a (Or.inr (by simpa using hp)))
      have : pairStep p q f st a = .ok st := by
        unfold pairStep
        rw [hp, hq']
        rfl
      rw [this]
      rfl

theorem speaks_of {t : String} (ht : t ∈ ["serial", "sensor", "static gain", "chopper", "magnitude unit", "phase unit"]) {l : String}
    (h : namesB t l = true) : speaks l = true := by
  simp only [List.mem_cons, List.not_mem_nil, or_false] at ht
  unfold speaks
  rcases ht with rfl | rfl | rfl | rfl | rfl | rfl <;> simp [h]

/-- The metadata depend only on the lines that say something. -/
theorem metadata_filter (lines : List String) :
    getSensorDetails (lines.filter speaks) = getSensorDetails lines ∧ staticGainOf (lines.filter speaks) = staticGainOf lines ∧
    getChopper (lines.filter speaks) = getChopper lines ∧ getUnits (lines.filter speaks) = getUnits lines := by
  refine ⟨?_, ?_, ?_, ?_⟩
  · rw [sensorDetails_eq, sensorDetails_eq]
    exact pairFold_filter _ _ _ _ (fun x h => h.elim (speaks_of (by simp)) (speaks_of (by simp))) _ _
  · unfold staticGainOf
    rw [find_filter (fun l => pyContains "static gain" (pyLower l)) speaks (fun x h => speaks_of (t := "static gain") (by simp) h)]
  · unfold getChopper
    rw [find_filter (fun l => pyContains "chopper" (pyLower l)) speaks (fun x h => speaks_of (t := "chopper") (by simp) h)]
  · rw [units_eq, units_eq]
    exact pairFold_filter _ _ _ _ (fun x h => h.elim (speaks_of (by simp)) (speaks_of (by simp))) _ _

/-- Two files with the same metadata lines, each with its table. -/
theorem readCalLines_swap (path : String) {lines lines' body body' : List String} {rows rows' : List (PyNum × PyNum × PyNum)} {d : Doc.CalDoc}
    (h : readCalLines path lines = .ok d) (hm : lines.filter speaks = lines'.filter speaks) (hb : DataBlock lines body)
    (hr : List.Forall₂ NumberRow body rows) (hb' : DataBlock lines' body') (hne' : body' ≠ []) (hr' : List.Forall₂ NumberRow body' rows') :
    ∃ unit, LastValue (Names "phase unit") false "radians" lines unit ∧
      (d.frequency.zip (d.magnitude.zip d.phase)) = calTable unit rows ∧
      readCalLines path lines' = .ok { d with frequency := (calTable unit rows').map (·.1), magnitude := (calTable unit rows').map (·.2.1)
                                              phase := (calTable unit rows').map (·.2.2), nSamples := rows'.length } := by
  obtain ⟨m1, m2, m3, m4⟩ := metadata_filter lines
  obtain ⟨n1, n2, n3, n4⟩ := metadata_filter lines'
  rw [← hm] at n1 n2 n3 n4
  unfold readCalLines at h
  obtain ⟨⟨serial, sensor⟩, h1, h⟩ := except_bind_ok.1 h
  obtain ⟨gain, h2, h⟩ := except_bind_ok.1 h
  obtain ⟨c, h3, h⟩ := except_bind_ok.1 h
  obtain ⟨⟨mu, pu⟩, h4, h⟩ := except_bind_ok.1 h
  obtain ⟨t, h5, h⟩ := except_bind_ok.1 h
  cases h
  have hu : LastValue (Names "phase unit") false "radians" lines pu := by
    rw [units_eq] at h4
    exact lastBool_iff.1 (pairFold_ok h4).2
  obtain ⟨body₁, rows₁, hb₁, -, hr₁, rfl⟩ := charTable_spec h5
  obtain rfl := hb.unique hb₁
  have hrr : rows₁ = rows := by
    have a := rows_forall₂.2 hr
    have b := rows_forall₂.2 hr₁
    rw [a] at b
    exact (Except.ok.inj b).symm
  subst hrr
  refine ⟨pu, hu, ?_, ?_⟩
  · simp only [calDocOf]
    rw [zip_maps]
    simp
  · unfold readCalLines
    rw [m1] at n1; rw [m2] at n2; rw [m3] at n3; rw [m4] at n4
    rw [← n1, ← n2, ← n3, ← n4]
    simp only [h1, h2, h3, h4, charTable_of hb' hne' hr', bind, Except.bind, pure, Except.pure, calDocOf, Except.ok.injEq]
    congr 1
    rw [calTable]
    simp

/-! ## White space at the ends of the lines -/

theorem splitWords_trail (v g : List Char) (hg : Blank g) (cur : List Char) : splitWords cur (v ++ g) = splitWords cur v := by
  induction v generalizing cur with
  | nil =>
    rw [List.nil_append]
    cases g with
    | nil => rfl
    | cons c cs =>
      have hc := hg c (by simp)
      have hcs : splitWords [] cs = [] := splitWords_blank cs (fun x hx => hg x (by simp [hx]))
      simp only [splitWords, hc, if_true, hcs]
  | cons a v ih =>
    simp only [List.cons_append, splitWords, ih]

theorem pySplit_strip (l : String) : pySplit (pyStrip l) = pySplit l := by
  obtain ⟨g, g', hs, hg, hg', -, -⟩ := trimmed_strip l
  unfold pySplit
  rw [hs, List.append_assoc, splitWords_lead _ _ hg, splitWords_trail _ _ hg']

theorem numberRow_strip {l : String} {r : PyNum × PyNum × PyNum} (h : NumberRow l r) : NumberRow (pyStrip l) r := by
  obtain ⟨a, b, c, hw, h1⟩ := h
  exact ⟨a, b, c, (pySplit_iff _ _).1 ((pySplit_strip l).trans ((pySplit_iff _ _).2 hw)), h1⟩

theorem numberRow_ne {l : String} {r : PyNum × PyNum × PyNum} (h : NumberRow l r) : l ≠ "" := by
  rintro rfl
  obtain ⟨a, b, c, hw, -⟩ := h
  have := (pySplit_iff _ _).2 hw
  revert this
  simp [pySplit, splitWords]

/-- A blank beginning ends before a character that is no blank. -/
theorem blank_prefix {g w a : List Char} {x : Char} {b : List Char} (h : g ++ w = a ++ x :: b) (hg : Blank g) (hx : isSpace x = false) :
    ∃ a', a = g ++ a' ∧ w = a' ++ x :: b := by
  rcases List.append_eq_append_iff.1 h with ⟨a', h1, h2⟩ | ⟨c, h1, h2⟩
  · exact ⟨a', h1, h2⟩
  · cases c with
    | nil => exact ⟨[], by simpa using h1.symm, by simpa using h2.symm⟩
    | cons y c =>
      have h3 := List.cons.inj h2
      have : isSpace x = true := hg x (by rw [h1, h3.1]; simp)
      rw [hx] at this
      cases this

theorem mentions_strip {t l : String} {x y : Char} {m : List Char} (ht : t.toList = x :: (m ++ [y])) (hx : isSpace x = false) (hy : isSpace y = false) :
    Mentions t (pyStrip l) ↔ Mentions t l := by
  obtain ⟨g, g', hs, hg, hg', -, -⟩ := trimmed_strip l
  constructor
  · rintro ⟨a, b, h⟩
    exact ⟨g ++ a, b ++ g', by rw [hs, h]; simp⟩
  · rintro ⟨a, b, h⟩
    rw [hs, ht] at h
    obtain ⟨a', ha, h2⟩ := blank_prefix (g := g) (w := (pyStrip l).toList ++ g') (a := a) (x := x) (b := m ++ [y] ++ b) (by
      simpa using h) hg hx
    have h3 : g'.reverse ++ (pyStrip l).toList.reverse = b.reverse ++ y :: (a' ++ x :: m).reverse := by
      have := congrArg List.reverse h2
      simpa using this
    obtain ⟨b', hb, h4⟩ := blank_prefix h3 (fun c hc => hg' c (by simpa using hc)) hy
    refine ⟨a', b'.reverse, ?_⟩
    have := congrArg List.reverse h4
    rw [ht]
    simpa using this

theorem marker_strip (l : String) : Mentions "CALIBRATION DATA" (pyStrip l) ↔ Mentions "CALIBRATION DATA" l :=
  mentions_strip (x := 'C') (y := 'A') (m := "ALIBRATION DAT".toList) (by decide) (by decide) (by decide)

/-- The stripped lines of a file. -/
def stripped (raw : List (List Char)) : List String := raw.map fun l => pyStrip (String.ofList l)

theorem stripped_of {text : List Char} {raw : List (List Char)} (h : TextOf text raw) : TrimmedLines text (stripped raw) := by
  refine ⟨raw, h, ?_⟩
  unfold stripped
  rw [List.forall₂_map_right_iff]
  apply List.forall₂_same.mpr
  intro l _
  have := trimmed_strip (String.ofList l)
  rwa [String.toList_ofList] at this

theorem stripped_block {pre body post : List (List Char)} {marker : List Char} {rows : List (PyNum × PyNum × PyNum)}
    (hm : Mentions "CALIBRATION DATA" (String.ofList marker)) (hp : ∀ l ∈ pre, ¬ Mentions "CALIBRATION DATA" (String.ofList l))
    (hrows : List.Forall₂ (fun l r => NumberRow (String.ofList l) r) body rows) (hpost : ∀ l, post.head? = some l → Blank l) :
    DataBlock (stripped (pre ++ marker :: (body ++ post))) (stripped body) ∧ List.Forall₂ NumberRow (stripped body) rows := by
  have hr : List.Forall₂ NumberRow (stripped body) rows := by
    unfold stripped
    rw [List.forall₂_map_left_iff]
    exact hrows.imp fun _ _ h => numberRow_strip h
  refine ⟨⟨stripped pre, pyStrip (String.ofList marker), stripped post, ?_, (marker_strip _).2 hm, ?_, ?_, ?_⟩, hr⟩
  · simp [stripped]
  · intro l hl
    obtain ⟨x, hx, rfl⟩ := List.mem_map.1 hl
    rw [marker_strip]
    exact hp x hx
  · intro hmem
    obtain ⟨i, hi, he⟩ := List.mem_iff_getElem.1 hmem
    obtain ⟨hlen, hget⟩ := List.forall₂_iff_get.1 hr
    have := hget i hi (by rw [← hlen]; exact hi)
    exact numberRow_ne this he
  · intro l hl
    cases post with
    | nil => cases hl
    | cons x xs =>
      simp only [stripped, List.map_cons, List.head?_cons, Option.some.injEq] at hl
      rw [← hl]
      have hb : Blank x := hpost x rfl
      have h1 := trimmed_strip (String.ofList x)
      rw [String.toList_ofList] at h1
      have h2 : Trimmed x [] := ⟨x, [], by simp, hb, (fun c hc => nomatch hc), (fun c hc => nomatch hc), (fun c hc => nomatch hc)⟩
      exact String.toList_injective (h1.unique h2)

theorem speaks_strip_rows {body : List (List Char)} {rows : List (PyNum × PyNum × PyNum)}
    (hrows : List.Forall₂ (fun l r => NumberRow (String.ofList l) r) body rows) : (stripped body).filter speaks = [] := by
  rw [List.filter_eq_nil_iff]
  intro l hl
  obtain ⟨x, hx, rfl⟩ := List.mem_map.1 hl
  obtain ⟨i, hi, rfl⟩ := List.mem_iff_getElem.1 hx
  obtain ⟨hlen, hget⟩ := List.forall₂_iff_get.1 hrows
  have := numberRow_silent (numberRow_strip (hget i hi (by rw [← hlen]; exact hi)))
  simp only [List.get_eq_getElem] at this
  rw [this]
  exact Bool.false_ne_true

/-- The rows of the calibration data. -/
def _root_.Resistics.Doc.CalDoc.rows (d : Doc.CalDoc) : List (PyNum × PyNum × PyNum) := d.frequency.zip (d.magnitude.zip d.phase)

/-- **C81**. The order of the rows in a text file, white space and blanks around them, and the kind of newlines do not matter when the frequencies differ: the
data are the same. -/
theorem C81_row_order (path : String) (text text' : List Char) (pre body body' post : List (List Char)) (marker : List Char)
    (rows rows' : List (PyNum × PyNum × PyNum)) (ht : TextOf text (pre ++ marker :: (body ++ post))) (ht' : TextOf text' (pre ++ marker :: (body' ++ post)))
    (hm : Mentions "CALIBRATION DATA" (String.ofList marker)) (hp : ∀ l ∈ pre, ¬ Mentions "CALIBRATION DATA" (String.ofList l))
    (hrows : List.Forall₂ (fun l r => NumberRow (String.ofList l) r) body rows)
    (hrows' : List.Forall₂ (fun l r => NumberRow (String.ofList l) r) body' rows') (hpost : ∀ l, post.head? = some l → Blank l)
    (hperm : rows.Perm rows') (hnan : ∀ r ∈ rows, r.1 ≠ .nan) (hdiff : (rows.map fun r => r.1.place).Nodup) (d : Doc.CalDoc)
    (h : readCalChars path text = .ok d) : readCalChars path text' = .ok d := by
  obtain ⟨hb, hr⟩ := stripped_block hm hp hrows hpost
  obtain ⟨hb', hr'⟩ := stripped_block hm hp hrows' hpost
  rw [readCalChars_lines (stripped_of ht)] at h
  rw [readCalChars_lines (stripped_of ht')]
  have hfil : (stripped (pre ++ marker :: (body ++ post))).filter speaks = (stripped (pre ++ marker :: (body' ++ post))).filter speaks := by
    have e1 := speaks_strip_rows hrows
    have e2 := speaks_strip_rows hrows'
    unfold stripped at e1 e2 ⊢
    simp only [List.map_append, List.map_cons, List.filter_append, List.filter_cons, e1, e2]
  have hne' : stripped body' ≠ [] := by
    intro he
    rw [he] at hr'
    cases hr'
    rw [hperm.eq_nil] at hr
    have hbn : stripped body = [] := List.forall₂_nil_right_iff.1 hr
    unfold readCalLines at h
    obtain ⟨_, -, h⟩ := except_bind_ok.1 h
    obtain ⟨_, -, h⟩ := except_bind_ok.1 h
    obtain ⟨_, -, h⟩ := except_bind_ok.1 h
    obtain ⟨_, -, h⟩ := except_bind_ok.1 h
    obtain ⟨_, h5, -⟩ := except_bind_ok.1 h
    obtain ⟨b1, -, hb1, hne1, -⟩ := charTable_spec h5
    exact hne1 ((hb1.unique hb).trans hbn)
  obtain ⟨unit, -, hd, h'⟩ := readCalLines_swap path h hfil hb hr hb' hne' hr'
  rw [h']
  have htab : calTable unit rows' = calTable unit rows := by
    obtain ⟨p1, o1⟩ := calTable_spec unit rows
    obtain ⟨p2, o2⟩ := calTable_spec unit rows'
    have hpp : (calTable unit rows').Perm (calTable unit rows) := p2.trans ((hperm.symm.map _).trans p1.symm)
    rw [List.pairwise_map] at o1 o2
    refine List.Perm.eq_of_pairwise ?_ o2 o1 hpp
    intro a b ha hb hab hba
    have ha' : a ∈ rows.map (fun r => (r.1, r.2.1, if unit = "degrees" then inRadians r.2.2 else r.2.2)) := p1.subset (hpp.subset ha)
    have hb' : b ∈ rows.map (fun r => (r.1, r.2.1, if unit = "degrees" then inRadians r.2.2 else r.2.2)) := p1.subset hb
    obtain ⟨ra, hra, rfl⟩ := List.mem_map.1 ha'
    obtain ⟨rb, hrb, rfl⟩ := List.mem_map.1 hb'
    have hpl : ra.1.place = rb.1.place := by
      have na : ∀ r ∈ rows, r.1.place ≠ none := by
        intro r hr hn
        have := hnan r hr
        cases hc : r.1 with
        | int n => rw [hc] at hn; cases hn
        | float n => rw [hc] at hn; cases hn
        | inf n => rw [hc] at hn; cases n <;> cases hn
        | nan => exact this hc
      rcases hab with hab | ⟨x, y, hx, hy, hxy⟩
      · exact absurd hab (na rb hrb)
      · rcases hba with hba | ⟨x', y', hx', hy', hxy'⟩
        · exact absurd hba (na ra hra)
        · simp only at hx hy hx' hy'
          rw [hx] at hy'
          rw [hy] at hx'
          cases hy'
          cases hx'
          rw [hx, hy, le_antisymm hxy hxy']
    have : ra = rb := List.inj_on_of_nodup_map hdiff hra hrb hpl
    rw [this]
  have hlen : (rows'.length : ℤ) = d.nSamples := by
    have hs := (C81_text_is_read path text _ (stripped_of ht) d (by rw [readCalChars_lines (stripped_of ht)]; exact h)).sizes
    have h1 := congrArg List.length hd
    rw [hs.2.2]
    simp only [List.length_zip, hs.1, hs.2.1, min_self, calTable, List.length_insertionSort, List.length_map] at h1
    rw [h1, hperm.length_eq]
  rw [htab, ← hd, hlen]
  have hs := (C81_text_is_read path text _ (stripped_of ht) d (by rw [readCalChars_lines (stripped_of ht)]; exact h)).sizes
  have e1 : (d.frequency.zip (d.magnitude.zip d.phase)).map (·.1) = d.frequency := by
    rw [← List.unzip_fst, List.unzip_zip (by simp [List.length_zip, hs.1, hs.2.1])]
  have e2 : (d.frequency.zip (d.magnitude.zip d.phase)).map (·.2) = d.magnitude.zip d.phase := by
    rw [← List.unzip_snd, List.unzip_zip (by simp [List.length_zip, hs.1, hs.2.1])]
  have e3 : (d.frequency.zip (d.magnitude.zip d.phase)).map (fun r => r.2.1) = d.magnitude := by
    have : (d.frequency.zip (d.magnitude.zip d.phase)).map (fun r => r.2.1) = ((d.frequency.zip (d.magnitude.zip d.phase)).map (·.2)).map (·.1) := by simp
    rw [this, e2, ← List.unzip_fst, List.unzip_zip (by simp [hs.1, hs.2.1])]
  have e4 : (d.frequency.zip (d.magnitude.zip d.phase)).map (fun r => r.2.2) = d.phase := by
    have : (d.frequency.zip (d.magnitude.zip d.phase)).map (fun r => r.2.2) = ((d.frequency.zip (d.magnitude.zip d.phase)).map (·.2)).map (·.2) := by simp
    rw [this, e2, ← List.unzip_snd, List.unzip_zip (by simp [hs.1, hs.2.1])]
  rw [e1, e3, e4]

/-- **C81** (finding). A text file that was cut off between two rows of its table – its writing or copying was interrupted – is read without complaint: everything is
as in the whole file, only the rows behind the cut are missing. -/
theorem C81_cut_is_read (path : String) (pre body : List (List Char)) (marker eol : List Char) (rows : List (PyNum × PyNum × PyNum)) (k : ℕ)
    (he : IsNewline eol) (hlines : ∀ l ∈ pre ++ marker :: body, '\n' ∉ l ∧ '\r' ∉ l)
    (hm : Mentions "CALIBRATION DATA" (String.ofList marker)) (hp : ∀ l ∈ pre, ¬ Mentions "CALIBRATION DATA" (String.ofList l))
    (hrows : List.Forall₂ (fun l r => NumberRow (String.ofList l) r) body rows) (hk : 1 ≤ k) (hk' : k < body.length)
    (d : Doc.CalDoc) (h : readCalChars path ((pre ++ marker :: body).flatMap fun l => l ++ eol) = .ok d) :
    ∃ part rest d', ((pre ++ marker :: body).flatMap fun l => l ++ eol) = part ++ rest ∧ rest ≠ [] ∧ readCalChars path part = .ok d' ∧
      d'.sensor = d.sensor ∧ d'.serial = d.serial ∧ d'.staticGain = d.staticGain ∧ d'.magnitudeUnit = d.magnitudeUnit ∧ d'.nSamples = k ∧
      ∃ unit, d.rows.Perm (rows.map fun r => (r.1, r.2.1, if unit = "degrees" then inRadians r.2.2 else r.2.2)) ∧
        d'.rows.Perm ((rows.take k).map fun r => (r.1, r.2.1, if unit = "degrees" then inRadians r.2.2 else r.2.2)) := by
  have ht : TextOf ((pre ++ marker :: body).flatMap fun l => l ++ eol) (pre ++ marker :: (body ++ [])) := by
    rw [List.append_nil]
    exact ⟨hlines, eol, he, Or.inl rfl⟩
  have hsub : ∀ l ∈ pre ++ marker :: body.take k, l ∈ pre ++ marker :: body := by
    intro l hl
    simp only [List.mem_append, List.mem_cons] at hl ⊢
    rcases hl with h1 | h1 | h1
    · exact Or.inl h1
    · exact Or.inr (Or.inl h1)
    · exact Or.inr (Or.inr (List.mem_of_mem_take h1))
  have ht' : TextOf ((pre ++ marker :: body.take k).flatMap fun l => l ++ eol) (pre ++ marker :: (body.take k ++ [])) := by
    rw [List.append_nil]
    exact ⟨fun l hl => hlines l (hsub l hl), eol, he, Or.inl rfl⟩
  have hrows' : List.Forall₂ (fun l r => NumberRow (String.ofList l) r) (body.take k) (rows.take k) := List.forall₂_take k hrows
  have hnil : ∀ l, ([] : List (List Char)).head? = some l → Blank l := fun l hl => by cases hl
  obtain ⟨hb, hr⟩ := stripped_block hm hp hrows hnil
  obtain ⟨hb', hr'⟩ := stripped_block hm hp hrows' hnil
  rw [readCalChars_lines (stripped_of ht)] at h
  have hfil : (stripped (pre ++ marker :: (body ++ []))).filter speaks = (stripped (pre ++ marker :: (body.take k ++ []))).filter speaks := by
    have e1 := speaks_strip_rows hrows
    have e2 := speaks_strip_rows hrows'
    unfold stripped at e1 e2 ⊢
    simp only [List.map_append, List.map_cons, List.filter_append, List.filter_cons, e1, e2, List.append_nil]
  have hne' : stripped (body.take k) ≠ [] := by
    intro he
    have := congrArg List.length he
    simp only [stripped, List.length_map, List.length_take, List.length_nil] at this
    omega
  obtain ⟨unit, -, hd, h'⟩ := readCalLines_swap path h hfil hb hr hb' hne' hr'
  refine ⟨_, (body.drop k).flatMap (fun l => l ++ eol), _, ?_, ?_, (readCalChars_lines (stripped_of ht') path).trans h', rfl, rfl, rfl, rfl, ?_, unit, ?_, ?_⟩
  · rw [← List.flatMap_append]
    simp only [List.append_assoc, List.cons_append, List.take_append_drop]
  · have : body.drop k ≠ [] := by
      intro h0
      have := congrArg List.length h0
      simp only [List.length_drop, List.length_nil] at this
      omega
    intro hf
    rw [List.flatMap_eq_nil_iff] at hf
    obtain ⟨x, hx⟩ := List.exists_mem_of_ne_nil _ this
    have := hf x hx
    have h2 := (List.append_eq_nil_iff.1 this).2
    subst h2
    cases he
  · have := hrows.length_eq
    simp only [List.length_take]
    omega
  · unfold Doc.CalDoc.rows
    rw [hd]
    exact (calTable_spec unit rows).1
  · unfold Doc.CalDoc.rows
    simp only
    rw [zip_maps]
    have : ((calTable unit (rows.take k)).map fun x => (x.1, x.2.1, x.2.2)) = calTable unit (rows.take k) := by simp
    rw [this]
    exact (calTable_spec unit (rows.take k)).1

/-- **C81** (finding). Nor is it noticed when the file was cut off inside the last number of its last row, as long as what is left of the row can be read: a phase of `90` that lost its zero is
nine. -/
theorem C81_cut_in_number (path : String) (pre body : List (List Char)) (marker eol start tail : List Char) (rows : List (PyNum × PyNum × PyNum))
    (r r' : PyNum × PyNum × PyNum) (he : IsNewline eol) (hlines : ∀ l ∈ pre ++ marker :: (body ++ [start ++ tail]), '\n' ∉ l ∧ '\r' ∉ l)
    (hm : Mentions "CALIBRATION DATA" (String.ofList marker)) (hp : ∀ l ∈ pre, ¬ Mentions "CALIBRATION DATA" (String.ofList l))
    (hrows : List.Forall₂ (fun l r => NumberRow (String.ofList l) r) body rows) (hr : NumberRow (String.ofList (start ++ tail)) r)
    (hr' : NumberRow (String.ofList start) r') (d : Doc.CalDoc)
    (h : readCalChars path ((pre ++ marker :: (body ++ [start ++ tail])).flatMap fun l => l ++ eol) = .ok d) :
    ∃ part d', ((pre ++ marker :: (body ++ [start ++ tail])).flatMap fun l => l ++ eol) = part ++ (tail ++ eol) ∧ readCalChars path part = .ok d' ∧
      d'.sensor = d.sensor ∧ d'.serial = d.serial ∧ d'.staticGain = d.staticGain ∧ d'.magnitudeUnit = d.magnitudeUnit ∧ d'.nSamples = d.nSamples ∧
      ∃ unit, d.rows.Perm ((rows ++ [r]).map fun r => (r.1, r.2.1, if unit = "degrees" then inRadians r.2.2 else r.2.2)) ∧
        d'.rows.Perm ((rows ++ [r']).map fun r => (r.1, r.2.1, if unit = "degrees" then inRadians r.2.2 else r.2.2)) := by
  have ht : TextOf ((pre ++ marker :: (body ++ [start ++ tail])).flatMap fun l => l ++ eol) (pre ++ marker :: ((body ++ [start ++ tail]) ++ [])) := by
    rw [List.append_nil]
    exact ⟨hlines, eol, he, Or.inl rfl⟩
  have hstart : start ≠ [] := by
    rintro rfl
    exact numberRow_ne hr' rfl
  have hsl : ∀ l ∈ pre ++ marker :: (body ++ [start]), '\n' ∉ l ∧ '\r' ∉ l := by
    intro l hl
    simp only [List.mem_append, List.mem_cons, List.not_mem_nil, or_false] at hl hlines
    rcases hl with h1 | h1 | h1 | h1
    · exact hlines l (Or.inl h1)
    · exact hlines l (Or.inr (Or.inl h1))
    · exact hlines l (Or.inr (Or.inr (Or.inl h1)))
    · subst h1
      have := hlines _ (Or.inr (Or.inr (Or.inr rfl)))
      simp only [List.mem_append, not_or] at this
      exact ⟨this.1.1, this.2.1⟩
  have ht' : TextOf ((pre ++ marker :: body).flatMap (fun l => l ++ eol) ++ start) (pre ++ marker :: ((body ++ [start]) ++ [])) := by
    rw [List.append_nil]
    exact ⟨hsl, eol, he, Or.inr ⟨pre ++ marker :: body, start, by simp, hstart, rfl⟩⟩
  have hrowsA : List.Forall₂ (fun l r => NumberRow (String.ofList l) r) (body ++ [start ++ tail]) (rows ++ [r]) :=
    List.rel_append hrows (List.Forall₂.cons hr List.Forall₂.nil)
  have hrowsB : List.Forall₂ (fun l r => NumberRow (String.ofList l) r) (body ++ [start]) (rows ++ [r']) :=
    List.rel_append hrows (List.Forall₂.cons hr' List.Forall₂.nil)
  have hnil : ∀ l, ([] : List (List Char)).head? = some l → Blank l := fun l hl => by cases hl
  obtain ⟨hb, hrA⟩ := stripped_block hm hp hrowsA hnil
  obtain ⟨hb', hrB⟩ := stripped_block hm hp hrowsB hnil
  have hsizes := (C81_text_is_read path _ _ (stripped_of ht) d h).sizes
  rw [readCalChars_lines (stripped_of ht)] at h
  have hfil : (stripped (pre ++ marker :: ((body ++ [start ++ tail]) ++ []))).filter speaks =
      (stripped (pre ++ marker :: ((body ++ [start]) ++ []))).filter speaks := by
    have e1 := speaks_strip_rows hrowsA
    have e2 := speaks_strip_rows hrowsB
    unfold stripped at e1 e2 ⊢
    rw [List.append_nil, List.append_nil]
    generalize body ++ [start ++ tail] = xs at e1
    generalize body ++ [start] = ys at e2
    simp only [List.map_append, List.map_cons, List.filter_append, List.filter_cons, e1, e2]
  have hne' : stripped (body ++ [start]) ≠ [] := by
    intro he
    have := congrArg List.length he
    simp [stripped] at this
  obtain ⟨unit, -, hd, h'⟩ := readCalLines_swap path h hfil hb hrA hb' hne' hrB
  refine ⟨_, _, ?_, (readCalChars_lines (stripped_of ht') path).trans h', rfl, rfl, rfl, rfl, ?_, unit, ?_, ?_⟩
  · simp
  · have h1 := congrArg List.length hd
    rw [hsizes.2.2]
    simp only [List.length_zip, hsizes.1, hsizes.2.1, min_self, calTable, List.length_insertionSort, List.length_map] at h1
    rw [h1]
    simp
  · unfold Doc.CalDoc.rows
    rw [hd]
    exact (calTable_spec unit _).1
  · unfold Doc.CalDoc.rows
    simp only
    rw [zip_maps]
    have : ((calTable unit (rows ++ [r'])).map fun x => (x.1, x.2.1, x.2.2)) = calTable unit (rows ++ [r']) := by simp
    rw [this]
    exact (calTable_spec unit _).1

end Resistics
