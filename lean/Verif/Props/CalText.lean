import Verif.Model.Calibrate
import Verif.Lemmas.Except
import Mathlib.Data.List.Sort

/-!
# Property C42: text calibration files
-/

namespace Resistics

/-! ## Specification -/

/-- `sub` occurs in `s`. -/
def Mentions (sub s : String) : Prop := ∃ a b : List Char, s.toList = a ++ sub.toList ++ b

/-- White space only. -/
def Blank (g : List Char) : Prop := ∀ c ∈ g, isSpace c = true

/-- `v` is `s` without the white space at both ends. -/
def Trimmed (s v : List Char) : Prop :=
  ∃ g g', s = g ++ v ++ g' ∧ Blank g ∧ Blank g' ∧ (∀ c, v.head? = some c → isSpace c = false) ∧
    ∀ c, v.getLast? = some c → isSpace c = false

/-- The words of a line: runs of other characters, separated by white space. -/
inductive Words : List Char → List String → Prop where
  | nil (g : List Char) (h : Blank g) : Words g []
  | cons (g w s : List Char) (ws : List String) (hg : Blank g) (hne : w ≠ []) (hw : ∀ c ∈ w, isSpace c = false)
      (hs : ∀ c, s.head? = some c → isSpace c = true) (h : Words s ws) : Words (g ++ w ++ s) (String.ofList w :: ws)

/-- A line "name = value": the value is what stands between the first equals sign and the next one or the end, without
the white space at both ends. -/
def HasValue (line v : String) : Prop :=
  ∃ a b r : List Char, line.toList = a ++ '=' :: (b ++ r) ∧ '=' ∉ a ∧ '=' ∉ b ∧ (∀ c, r.head? = some c → c = '=') ∧
    Trimmed b v.toList

/-- The value given by the last line that has the property `p`, or `v₀` if there is none. -/
def LastValue (p : String → Prop) (lower : Bool) (v₀ : String) (lines : List String) (v : String) : Prop :=
  (∃ pre l post, lines = pre ++ l :: post ∧ p l ∧ (∀ x ∈ post, ¬ p x) ∧ HasValue (if lower then pyLower l else l) v) ∨
    (∀ x ∈ lines, ¬ p x) ∧ v = v₀

/-- The line mentions the text, in small or capital letters. -/
def Names (text : String) (line : String) : Prop := Mentions text (pyLower line)

/-- The data lines of the file: those after the first line with the marker, up to the first empty line or the end. -/
def DataBlock (lines body : List String) : Prop :=
  ∃ pre marker post, lines = pre ++ marker :: (body ++ post) ∧ Mentions "CALIBRATION DATA" marker ∧
    (∀ l ∈ pre, ¬ Mentions "CALIBRATION DATA" l) ∧ "" ∉ body ∧ ∀ l, post.head? = some l → l = ""

/-- A data line: three words that are numbers. -/
def IsCalRow (toNum : String → Except Err ℚ) (line : String) (r : ℚ × ℚ × ℚ) : Prop :=
  ∃ a b c, Words line.toList [a, b, c] ∧ toNum a = .ok r.1 ∧ toNum b = .ok r.2.1 ∧ toNum c = .ok r.2.2

/-! ## Strings -/

theorem pyContains_iff (sub s : String) : pyContains sub s = true ↔ Mentions sub s := by
  unfold pyContains Mentions
  rw [decide_eq_true_iff]
  constructor
  · rintro ⟨a, b, h⟩; exact ⟨a, b, h.symm⟩
  · rintro ⟨a, b, h⟩; exact ⟨a, b, h.symm⟩

theorem mem_takeWhile_pos {α : Type} {p : α → Bool} {l : List α} {c : α} (h : c ∈ l.takeWhile p) : p c = true := by
  induction l with
  | nil => simp at h
  | cons a l ih =>
    rw [List.takeWhile_cons] at h
    split at h
    · rename_i ha
      rcases List.mem_cons.1 h with rfl | h
      · exact ha
      · exact ih h
    · simp at h

theorem dropWhile_split {α : Type} (p : α → Bool) (l : List α) :
    ∃ g, l = g ++ l.dropWhile p ∧ (∀ c ∈ g, p c = true) ∧ ∀ c, (l.dropWhile p).head? = some c → p c = false := by
  refine ⟨l.takeWhile p, List.takeWhile_append_dropWhile.symm, fun c hc => mem_takeWhile_pos hc, ?_⟩
  intro c hc
  have := List.head?_dropWhile_not p l
  rw [hc] at this
  simpa using this

theorem trimmed_strip (s : String) : Trimmed s.toList (pyStrip s).toList := by
  unfold pyStrip
  rw [String.toList_ofList]
  obtain ⟨g, h1, h2, h3⟩ := dropWhile_split isSpace s.toList
  obtain ⟨g', h4, h5, h6⟩ := dropWhile_split isSpace (s.toList.dropWhile isSpace).reverse
  set m := s.toList.dropWhile isSpace with hm
  set v := m.reverse.dropWhile isSpace with hv
  have hmv : m = v.reverse ++ g'.reverse := by
    have := congrArg List.reverse h4
    rwa [List.reverse_reverse, List.reverse_append] at this
  refine ⟨g, g'.reverse, ?_, h2, fun c hc => h5 c (List.mem_reverse.1 hc), ?_, ?_⟩
  · rw [List.append_assoc, ← hmv]; exact h1
  · intro c hc
    apply h3
    rw [hmv, List.head?_append, hc]
    rfl
  · intro c hc
    apply h6
    rwa [List.getLast?_reverse] at hc

/-- Trimming has one result. -/
theorem Trimmed.unique {s v v' : List Char} (h : Trimmed s v) (h' : Trimmed s v') : v = v' := by
  obtain ⟨g, k, he, hg, hk, hv1, hv2⟩ := h
  obtain ⟨g', k', he', hg', hk', hv1', hv2'⟩ := h'
  have key : ∀ (g v k : List Char), Blank g → Blank k → (∀ c, v.head? = some c → isSpace c = false) →
      (∀ c, v.getLast? = some c → isSpace c = false) →
      v = (((g ++ v ++ k).dropWhile isSpace).reverse.dropWhile isSpace).reverse := by
    intro g v k hg hk h1 h2
    rw [List.append_assoc, List.dropWhile_append_of_pos (fun c hc => hg c hc)]
    cases v with
    | nil =>
      rw [List.nil_append]
      have : k.dropWhile isSpace = [] := by
        have := List.dropWhile_append_of_pos (p := isSpace) (l₁ := k) (l₂ := []) (fun c hc => hk c hc)
        simpa using this
      rw [this]; rfl
    | cons a v =>
      rw [List.cons_append, List.dropWhile_cons_of_neg (by simpa using h1 a rfl), ← List.cons_append,
        List.reverse_append, List.dropWhile_append_of_pos (fun c hc => hk c (List.mem_reverse.1 hc))]
      cases hr : (a :: v).reverse with
      | nil => simp at hr
      | cons b r =>
        have hb : isSpace b = false := h2 b (by rw [← List.head?_reverse, hr]; rfl)
        rw [List.dropWhile_cons_of_neg (by simpa using hb), ← hr, List.reverse_reverse]
  rw [key g v k hg hk hv1 hv2, key g' v' k' hg' hk' hv1' hv2', ← he, ← he']

theorem splitWords_blank (g : List Char) (hg : Blank g) : splitWords [] g = [] := by
  induction g with
  | nil => rfl
  | cons c g ih =>
    rw [splitWords, if_pos (hg c (by simp)), if_pos rfl]
    exact ih fun d hd => hg d (by simp [hd])

theorem splitWords_lead (g s : List Char) (hg : Blank g) : splitWords [] (g ++ s) = splitWords [] s := by
  induction g with
  | nil => rfl
  | cons c g ih =>
    rw [List.cons_append, splitWords, if_pos (hg c (by simp)), if_pos rfl]
    exact ih fun d hd => hg d (by simp [hd])

theorem splitWords_run (cur w s : List Char) (hw : ∀ c ∈ w, isSpace c = false) :
    splitWords cur (w ++ s) = splitWords (w.reverse ++ cur) s := by
  induction w generalizing cur with
  | nil => rfl
  | cons c w ih =>
    rw [List.cons_append, splitWords, if_neg (by simp [hw c (by simp)]), ih _ fun d hd => hw d (by simp [hd])]
    simp

theorem splitWords_stop (cur s : List Char) (hcur : cur ≠ []) (hs : ∀ c, s.head? = some c → isSpace c = true) :
    splitWords cur s = String.ofList cur.reverse :: splitWords [] s := by
  cases s with
  | nil => rw [splitWords, if_neg hcur]; rfl
  | cons c s =>
    have hc := hs c rfl
    rw [splitWords, if_pos hc, if_neg hcur, splitWords, if_pos hc, if_pos rfl]

theorem splitWords_of_words {s : List Char} {ws : List String} (h : Words s ws) : splitWords [] s = ws := by
  induction h with
  | nil g hg => exact splitWords_blank g hg
  | cons g w s ws hg hne hw hs h ih =>
    rw [List.append_assoc, splitWords_lead g _ hg, splitWords_run [] w s hw, List.append_nil,
      splitWords_stop _ s (by simpa using hne) hs, ih, List.reverse_reverse]

theorem words_exists (n : ℕ) (s : List Char) (hn : s.length ≤ n) : ∃ ws, Words s ws := by
  induction n generalizing s with
  | zero =>
    have : s = [] := List.length_eq_zero_iff.1 (by omega)
    subst this
    exact ⟨[], .nil [] fun c hc => (by simp at hc)⟩
  | succ n ih =>
    obtain ⟨g, h1, h2, h3⟩ := dropWhile_split isSpace s
    set m := s.dropWhile isSpace with hm
    obtain ⟨w, h4, h5, h6⟩ := dropWhile_split (fun c => !isSpace c) m
    set r := m.dropWhile (fun c => !isSpace c) with hr
    by_cases hw : w = []
    · refine ⟨[], ?_⟩
      have hmn : m = [] := by
        cases hmm : m with
        | nil => rfl
        | cons c t =>
          have hc := h3 c (by rw [hmm]; rfl)
          have hc' := h6 c (by rw [hw, List.nil_append] at h4; rw [← h4, hmm]; rfl)
          simp [hc] at hc'
      rw [h1, hmn, List.append_nil]
      exact .nil g h2
    · have hlen : r.length ≤ n := by
        have := congrArg List.length h1
        have h' := congrArg List.length h4
        rw [List.length_append] at this h'
        have : 0 < w.length := List.length_pos_iff.2 hw
        omega
      obtain ⟨ws, hws⟩ := ih r hlen
      refine ⟨String.ofList w :: ws, ?_⟩
      rw [h1, h4, ← List.append_assoc]
      exact .cons g w r ws h2 hw (fun c hc => by simpa using h5 c hc) (fun c hc => by simpa using h6 c hc) hws

/-- Splitting a line gives its words. -/
theorem pySplit_iff (s : String) (ws : List String) : pySplit s = ws ↔ Words s.toList ws := by
  unfold pySplit
  constructor
  · rintro rfl
    obtain ⟨ws, h⟩ := words_exists _ s.toList le_rfl
    rwa [splitWords_of_words h]
  · exact splitWords_of_words

theorem afterEquals_iff (s v : String) : afterEquals s = .ok v ↔ HasValue s v := by
  unfold afterEquals
  obtain ⟨a, h1, h2, h3⟩ := dropWhile_split (fun c => decide (c ≠ '=')) s.toList
  have ha : '=' ∉ a := fun h => by simpa using h2 _ h
  constructor
  · intro h
    cases hd : s.toList.dropWhile (fun c => decide (c ≠ '=')) with
    | nil => rw [hd] at h; cases h
    | cons e rest =>
      rw [hd] at h h1 h3
      simp only [Except.ok.injEq] at h
      have he : e = '=' := by simpa using h3 e rfl
      subst he
      obtain ⟨b, h4, h5, h6⟩ := dropWhile_split (fun c => decide (c ≠ '=')) rest
      refine ⟨a, rest.takeWhile (fun c => decide (c ≠ '=')), rest.dropWhile (fun c => decide (c ≠ '=')), ?_, ha, ?_, ?_, ?_⟩
      · rw [List.takeWhile_append_dropWhile]; exact h1
      · intro hm
        simpa using mem_takeWhile_pos hm
      · intro c hc
        simpa using h6 c hc
      · rw [← h]
        have := trimmed_strip (String.ofList (rest.takeWhile (fun c => decide (c ≠ '='))))
        rwa [String.toList_ofList] at this
  · rintro ⟨a', b, r, he, ha', hb, hr, ht⟩
    have hdrop : s.toList.dropWhile (fun c => decide (c ≠ '=')) = '=' :: (b ++ r) := by
      rw [he, List.dropWhile_append_of_pos, List.dropWhile_cons_of_neg (by simp)]
      intro c hc
      have : c ≠ '=' := fun h => ha' (h ▸ hc)
      simpa using this
    have htake : (b ++ r).takeWhile (fun c => decide (c ≠ '=')) = b := by
      rw [List.takeWhile_append_of_pos]
      · cases r with
        | nil => simp
        | cons c r =>
          have : c = '=' := hr c rfl
          subst this
          simp
      · intro c hc
        have : c ≠ '=' := fun h => hb (h ▸ hc)
        simpa using this
    rw [hdrop]
    simp only [htake, Except.ok.injEq]
    have h' := trimmed_strip (String.ofList b)
    rw [String.toList_ofList] at h'
    exact String.toList_injective (h'.unique ht)

/-! ## Metadata -/

/-- The two loops over the lines in one form. -/
def pairStep (p q : String → Bool) (f : String → String) (st : String × String) (line : String) :
    Except Err (String × String) := do
  let x ← if p line then afterEquals (f line) else .ok st.1
  let y ← if q line then afterEquals (f line) else .ok st.2
  return (x, y)

theorem pairStep_ok {p q : String → Bool} {f : String → String} {st : String × String} {line : String}
    {x y : String} : pairStep p q f st line = .ok (x, y) ↔
      (if p line = true then afterEquals (f line) = .ok x else x = st.1) ∧
      (if q line = true then afterEquals (f line) = .ok y else y = st.2) := by
  unfold pairStep
  cases hp : p line <;> cases hq : q line <;> cases ha : afterEquals (f line) <;>
    simp [bind, Except.bind, pure, Except.pure, eq_comm, Prod.ext_iff]

/-- Last line with the property, for a Boolean property. -/
def LastBool (p : String → Bool) (f : String → String) (v₀ : String) (lines : List String) (v : String) : Prop :=
  (∃ pre l post, lines = pre ++ l :: post ∧ p l = true ∧ (∀ x ∈ post, p x = false) ∧ afterEquals (f l) = .ok v) ∨
    (∀ x ∈ lines, p x = false) ∧ v = v₀

theorem lastBool_cons {p : String → Bool} {f : String → String} {v₀ x v : String} {l : String} {lines : List String}
    (h1 : if p l = true then afterEquals (f l) = .ok x else x = v₀) (h2 : LastBool p f x lines v) :
    LastBool p f v₀ (l :: lines) v := by
  rcases h2 with ⟨pre, m, post, he, h⟩ | ⟨hn, rfl⟩
  · exact Or.inl ⟨l :: pre, m, post, by rw [he]; rfl, h⟩
  · by_cases hp : p l = true
    · rw [if_pos hp] at h1
      exact Or.inl ⟨[], l, lines, rfl, hp, hn, h1⟩
    · rw [if_neg hp] at h1
      refine Or.inr ⟨?_, h1⟩
      intro y hy
      rcases List.mem_cons.1 hy with rfl | hy
      · simpa using hp
      · exact hn y hy

theorem pairFold_ok {p q : String → Bool} {f : String → String} {lines : List String} {st : String × String}
    {a b : String} (h : lines.foldlM (pairStep p q f) st = .ok (a, b)) :
    LastBool p f st.1 lines a ∧ LastBool q f st.2 lines b := by
  induction lines generalizing st with
  | nil =>
    cases h
    exact ⟨Or.inr ⟨by simp, rfl⟩, Or.inr ⟨by simp, rfl⟩⟩
  | cons l lines ih =>
    rw [List.foldlM_cons] at h
    obtain ⟨⟨x, y⟩, h1, h2⟩ := except_bind_ok.1 h
    obtain ⟨h3, h4⟩ := pairStep_ok.1 h1
    obtain ⟨h5, h6⟩ := ih h2
    exact ⟨lastBool_cons h3 h5, lastBool_cons h4 h6⟩

theorem pairFold_exists {p q : String → Bool} {f : String → String} {lines : List String} {st : String × String}
    (h : ∀ l ∈ lines, p l = true ∨ q l = true → ∃ v, afterEquals (f l) = .ok v) :
    ∃ r, lines.foldlM (pairStep p q f) st = .ok r := by
  induction lines generalizing st with
  | nil => exact ⟨st, rfl⟩
  | cons l lines ih =>
    rw [List.foldlM_cons]
    have : ∃ x y, pairStep p q f st l = .ok (x, y) := by
      by_cases hp : p l = true
      · obtain ⟨v, hv⟩ := h l (by simp) (Or.inl hp)
        by_cases hq : q l = true
        · exact ⟨v, v, pairStep_ok.2 (by simp [hp, hq, hv])⟩
        · exact ⟨v, st.2, pairStep_ok.2 (by simp [hp, hq, hv])⟩
      · by_cases hq : q l = true
        · obtain ⟨v, hv⟩ := h l (by simp) (Or.inr hq)
          exact ⟨st.1, v, pairStep_ok.2 (by simp [hp, hq, hv])⟩
        · exact ⟨st.1, st.2, pairStep_ok.2 (by simp [hp, hq])⟩
    obtain ⟨x, y, hxy⟩ := this
    rw [hxy]
    exact ih fun m hm => h m (by simp [hm])

theorem pairFold_values {p q : String → Bool} {f : String → String} {lines : List String} {st : String × String}
    {r : String × String} (h : lines.foldlM (pairStep p q f) st = .ok r) :
    ∀ l ∈ lines, p l = true ∨ q l = true → ∃ v, afterEquals (f l) = .ok v := by
  induction lines generalizing st with
  | nil => intro l hl; simp at hl
  | cons l lines ih =>
    rw [List.foldlM_cons] at h
    obtain ⟨⟨x, y⟩, h1, h2⟩ := except_bind_ok.1 h
    obtain ⟨h3, h4⟩ := pairStep_ok.1 h1
    intro m hm hpq
    rcases List.mem_cons.1 hm with rfl | hm
    · rcases hpq with hp | hq
      · rw [if_pos hp] at h3; exact ⟨x, h3⟩
      · rw [if_pos hq] at h4; exact ⟨y, h4⟩
    · exact ih h2 m hm hpq

def namesB (text : String) (line : String) : Bool := pyContains text (pyLower line)

theorem namesB_iff (text line : String) : namesB text line = true ↔ Names text line := pyContains_iff _ _

theorem lastBool_iff {text : String} {lower : Bool} {v₀ v : String} {lines : List String} :
    LastBool (namesB text) (fun l => if lower then (pyLower l) else l) v₀ lines v ↔
      LastValue (Names text) lower v₀ lines v := by
  unfold LastBool LastValue
  simp only [← namesB_iff, afterEquals_iff, Bool.not_eq_true]

theorem sensorDetails_eq (lines : List String) :
    getSensorDetails lines = lines.foldlM
      (pairStep (namesB "serial") (namesB "sensor") (fun l => if true then (pyLower l) else l)) ("1", "") := rfl

theorem units_eq (lines : List String) :
    getUnits lines = lines.foldlM
      (pairStep (namesB "magnitude unit") (namesB "phase unit") (fun l => if false then (pyLower l) else l))
      ("mV/nT", "radians") := rfl

/-! ## Data lines -/

theorem dataBlock_of_readFrom {lines : List String} {i : ℕ} (h : getReadFrom lines = .ok i) :
    DataBlock lines (getDataLines lines i) := by
  unfold getReadFrom at h
  cases hf : lines.findIdx? fun l => pyContains "CALIBRATION DATA" l with
  | none => rw [hf] at h; cases h
  | some k =>
    rw [hf] at h
    cases h
    rw [List.findIdx?_eq_some_iff_getElem] at hf
    obtain ⟨hk, h1, h2⟩ := hf
    unfold getDataLines
    refine ⟨lines.take k, lines[k], (lines.drop (k + 1)).dropWhile (· ≠ ""), ?_, (pyContains_iff _ _).1 h1, ?_, ?_, ?_⟩
    · rw [List.takeWhile_append_dropWhile, List.getElem_cons_drop, List.take_append_drop]
    · intro l hl
      obtain ⟨j, hj, rfl⟩ := List.mem_iff_getElem.1 hl
      rw [List.getElem_take, ← pyContains_iff]
      have hjk : j < k := by
        have := hj
        rw [List.length_take] at this
        omega
      simpa using h2 j hjk
    · intro hm
      simpa using mem_takeWhile_pos hm
    · intro l hl
      have := List.head?_dropWhile_not (fun x : String => decide (x ≠ "")) (lines.drop (k + 1))
      rw [hl] at this
      simpa using this

theorem readFrom_of_dataBlock {lines body : List String} (h : DataBlock lines body) :
    ∃ i, getReadFrom lines = .ok i ∧ getDataLines lines i = body := by
  obtain ⟨pre, marker, post, he, hm, hpre, hb, hpost⟩ := h
  have hfind : lines.findIdx? (fun l => pyContains "CALIBRATION DATA" l) = some pre.length := by
    rw [List.findIdx?_eq_some_iff_getElem]
    have hlen : pre.length < lines.length := by rw [he]; simp
    refine ⟨hlen, ?_, ?_⟩
    · have : lines[pre.length] = marker := by simp [he]
      rw [this, pyContains_iff]
      exact hm
    · intro j hj
      have : lines[j] = pre[j] := by simp [he, List.getElem_append_left hj]
      rw [this]
      have := hpre _ (List.getElem_mem hj)
      rw [← pyContains_iff] at this
      exact this
  refine ⟨pre.length + 1, ?_, ?_⟩
  · unfold getReadFrom
    rw [hfind]
  · unfold getDataLines
    have : lines.drop (pre.length + 1) = body ++ post := by
      rw [he]
      rw [← List.drop_drop]
      simp
    rw [this, List.takeWhile_append_of_pos]
    · cases post with
      | nil => simp
      | cons l post =>
        have : l = "" := hpost l rfl
        subst this
        simp
    · intro c hc
      have : c ≠ "" := fun h => hb (h ▸ hc)
      simpa using this

/-- A file has at most one block of data lines. -/
theorem DataBlock.unique {lines body body' : List String} (h : DataBlock lines body) (h' : DataBlock lines body') :
    body = body' := by
  obtain ⟨i, h1, h2⟩ := readFrom_of_dataBlock h
  obtain ⟨j, h3, h4⟩ := readFrom_of_dataBlock h'
  rw [h1] at h3
  cases h3
  rw [← h2, h4]

theorem parseRow_iff (toNum : String → Except Err ℚ) (line : String) (r : ℚ × ℚ × ℚ) :
    parseRow toNum line = .ok r ↔ IsCalRow toNum line r := by
  unfold parseRow IsCalRow
  obtain ⟨x, y, z⟩ := r
  constructor
  · intro h
    split at h
    · rename_i a b c hs
      obtain ⟨x', hx, h⟩ := except_bind_ok.1 h
      obtain ⟨y', hy, h⟩ := except_bind_ok.1 h
      obtain ⟨z', hz, h⟩ := except_bind_ok.1 h
      cases h
      exact ⟨a, b, c, (pySplit_iff _ _).1 hs, hx, hy, hz⟩
    · cases h
  · rintro ⟨a, b, c, hs, hx, hy, hz⟩
    rw [(pySplit_iff _ _).2 hs]
    simp only at hx hy hz
    simp only [hx, hy, hz]
    rfl

theorem mapM_forall₂ {α β : Type} {f : α → Except Err β} {l : List α} {r : List β} :
    l.mapM f = .ok r ↔ List.Forall₂ (fun a b => f a = .ok b) l r := by
  induction l generalizing r with
  | nil =>
    rw [List.mapM_nil]
    constructor
    · intro h; cases h; exact .nil
    · intro h; cases h; rfl
  | cons a l ih =>
    rw [List.mapM_cons]
    constructor
    · intro h
      obtain ⟨b, hb, h⟩ := except_bind_ok.1 h
      obtain ⟨bs, hbs, h⟩ := except_bind_ok.1 h
      cases h
      exact .cons hb (ih.1 hbs)
    · intro h
      cases h with
      | cons hb hbs => rw [hb, ih.2 hbs]; rfl

/-! ## C42 -/

/-- Specification of what a text file says. -/
structure CalText (toNum : String → Except Err ℚ) (deg : ℚ) (raw : List String) (d : CalData) : Prop where
  /-- The rows are those of the data lines, in order of frequency, and nothing else; the phase is converted exactly when
  the file says degrees. -/
  data : ∃ lines body rows unit, List.Forall₂ (fun a b : String => Trimmed a.toList b.toList) raw lines ∧
    DataBlock lines body ∧ body ≠ [] ∧ List.Forall₂ (IsCalRow toNum) body rows ∧
    LastValue (Names "phase unit") false "radians" lines unit ∧
    (d.frequency.zip (d.magnitude.zip d.phase)).Perm
      (rows.map fun r => (r.1, r.2.1, if unit = "degrees" then r.2.2 * deg else r.2.2)) ∧
    d.frequency.Pairwise (· ≤ ·) ∧ d.magnitude.length = d.frequency.length ∧ d.phase.length = d.frequency.length ∧
    -- the metadata
    LastValue (Names "serial") true "1" lines d.serial ∧ LastValue (Names "sensor") true "" lines d.sensor ∧
    LastValue (Names "magnitude unit") false "mV/nT" lines d.magnitudeUnit ∧
    ((∃ pre l post v, lines = pre ++ l :: post ∧ Names "static gain" l ∧ (∀ x ∈ pre, ¬ Names "static gain" x) ∧
      HasValue l v ∧ toNum v = .ok d.staticGain) ∨ (∀ x ∈ lines, ¬ Names "static gain" x) ∧ d.staticGain = 1)

theorem zip_maps {α β γ δ : Type} (f : α → β) (g : α → γ) (h : α → δ) (l : List α) :
    (l.map f).zip ((l.map g).zip (l.map h)) = l.map fun x => (f x, g x, h x) := by
  induction l with
  | nil => rfl
  | cons a l ih => simp [ih]

theorem staticGain_spec {toNum : String → Except Err ℚ} {lines : List String} {v : ℚ}
    (h : getStaticGain toNum lines = .ok v) :
    (∃ pre l post s, lines = pre ++ l :: post ∧ Names "static gain" l ∧ (∀ x ∈ pre, ¬ Names "static gain" x) ∧
      HasValue l s ∧ toNum s = .ok v) ∨ (∀ x ∈ lines, ¬ Names "static gain" x) ∧ v = 1 := by
  unfold getStaticGain at h
  cases hf : lines.find? fun l => pyContains "static gain" (pyLower l) with
  | none =>
    rw [hf] at h
    cases h
    rw [List.find?_eq_none] at hf
    exact Or.inr ⟨fun x hx hn => hf x hx ((pyContains_iff _ _).2 hn), rfl⟩
  | some l =>
    rw [hf] at h
    obtain ⟨s, hs, h⟩ := except_bind_ok.1 h
    rw [List.find?_eq_some_iff_append] at hf
    obtain ⟨h1, pre, post, h2, h3⟩ := hf
    exact Or.inl ⟨pre, l, post, s, h2, (pyContains_iff _ _).1 h1,
      fun x hx hn => by simpa [(pyContains_iff _ _).2 hn] using h3 x hx, (afterEquals_iff _ _).1 hs, h⟩

theorem mapM_isRow {toNum : String → Except Err ℚ} {body : List String} {rows : List (ℚ × ℚ × ℚ)} :
    body.mapM (parseRow toNum) = .ok rows ↔ List.Forall₂ (IsCalRow toNum) body rows := by
  rw [mapM_forall₂]
  simp only [parseRow_iff]

theorem strip_forall₂ (raw : List String) :
    List.Forall₂ (fun a b : String => Trimmed a.toList b.toList) raw (raw.map pyStrip) := by
  induction raw with
  | nil => exact .nil
  | cons a l ih => exact .cons (trimmed_strip a) ih

theorem strip_unique {raw lines : List String}
    (h : List.Forall₂ (fun a b : String => Trimmed a.toList b.toList) raw lines) : lines = raw.map pyStrip := by
  induction h with
  | nil => rfl
  | cons h _ ih =>
    rw [List.map_cons, ← ih]
    rw [String.toList_injective (h.unique (trimmed_strip _))]

/-- **C42**: what the reader returns is what the file says: one row for each line after the marker up to the first empty
line or the end of the file, in order of frequency, with the phase converted exactly when the file says degrees. -/
theorem C42_text_is_read (toNum : String → Except Err ℚ) (deg : ℚ) (raw : List String) (d : CalData)
    (h : readCalText toNum deg raw = .ok d) : CalText toNum deg raw d := by
  unfold readCalText at h
  obtain ⟨⟨serial, sensor⟩, h1, h⟩ := except_bind_ok.1 h
  obtain ⟨gain, h2, h⟩ := except_bind_ok.1 h
  obtain ⟨_, -, h⟩ := except_bind_ok.1 h
  obtain ⟨⟨mu, pu⟩, h4, h⟩ := except_bind_ok.1 h
  obtain ⟨rows, h5, h⟩ := except_bind_ok.1 h
  cases h
  rw [sensorDetails_eq] at h1
  rw [units_eq] at h4
  obtain ⟨ha, hb⟩ := pairFold_ok h1
  obtain ⟨hc, hd⟩ := pairFold_ok h4
  unfold readCalRows at h5
  obtain ⟨i, hi, h5⟩ := except_bind_ok.1 h5
  obtain ⟨rs, hrs, h5⟩ := except_bind_ok.1 h5
  split at h5
  · cases h5
  · rename_i hne
    cases h5
    have hrows := mapM_isRow.1 hrs
    have hrs' : toRadians deg pu rs = rs.map fun r => (r.1, r.2.1, if pu = "degrees" then r.2.2 * deg else r.2.2) := by
      unfold toRadians
      by_cases hp : pu = "degrees"
      · simp [hp]
      · simp [hp]
    have hperm := List.perm_insertionSort (fun a b : ℚ × ℚ × ℚ => a.1 ≤ b.1) (toRadians deg pu rs)
    refine ⟨raw.map pyStrip, _, rs, pu, strip_forall₂ raw, dataBlock_of_readFrom hi, ?_, hrows, lastBool_iff.1 hd, ?_, ?_,
      by simp, by simp, lastBool_iff.1 ha, lastBool_iff.1 hb, lastBool_iff.1 hc, staticGain_spec h2⟩
    · intro hnil
      rw [hnil] at hrows
      cases hrows
      exact hne rfl
    · simp only
      rw [zip_maps, ← hrs']
      simpa using hperm
    · simp only
      rw [List.pairwise_map]
      have : Std.Total (fun a b : ℚ × ℚ × ℚ => a.1 ≤ b.1) := ⟨fun a b => le_total a.1 b.1⟩
      have : IsTrans (ℚ × ℚ × ℚ) (fun a b => a.1 ≤ b.1) := ⟨fun a b c h1 h2 => le_trans h1 h2⟩
      exact List.pairwise_insertionSort (fun a b : ℚ × ℚ × ℚ => a.1 ≤ b.1) _

/-- **C42 (which files are read)**: the reader succeeds exactly on the files with a marker, at least one data line, only
rows of three numbers, and a readable value on the metadata lines; every other file is refused with an error. -/
theorem C42_which_files (toNum : String → Except Err ℚ) (deg : ℚ) (raw lines : List String)
    (hl : List.Forall₂ (fun a b : String => Trimmed a.toList b.toList) raw lines) :
    (∃ d, readCalText toNum deg raw = .ok d) ↔
      (∃ body rows, DataBlock lines body ∧ body ≠ [] ∧ List.Forall₂ (IsCalRow toNum) body rows) ∧
      (∀ l ∈ lines, Names "serial" l ∨ Names "sensor" l → ∃ v, HasValue (pyLower l) v) ∧
      (∀ l ∈ lines, Names "magnitude unit" l ∨ Names "phase unit" l → ∃ v, HasValue l v) ∧
      (∀ pre l post, lines = pre ++ l :: post → Names "static gain" l → (∀ x ∈ pre, ¬ Names "static gain" x) →
        ∃ v q, HasValue l v ∧ toNum v = .ok q) ∧
      (∀ pre l post, lines = pre ++ l :: post → Names "chopper" l → (∀ x ∈ pre, ¬ Names "chopper" x) →
        ∃ v, HasValue l v) := by
  have hlines := strip_unique hl
  subst hlines
  set lines := raw.map pyStrip with hlines
  have first : ∀ (text : String) (pre : List String) (l : String) (post : List String), lines = pre ++ l :: post →
      Names text l → (∀ x ∈ pre, ¬ Names text x) → lines.find? (fun l => pyContains text (pyLower l)) = some l := by
    intro text pre l post he hn hpre
    rw [List.find?_eq_some_iff_append]
    refine ⟨(pyContains_iff _ _).2 hn, pre, post, he, fun x hx => ?_⟩
    have := hpre x hx
    rw [← namesB_iff] at this
    simpa [namesB] using this
  constructor
  · rintro ⟨d, h⟩
    unfold readCalText at h
    rw [← hlines] at h
    obtain ⟨ss, h1, h⟩ := except_bind_ok.1 h
    obtain ⟨gain, h2, h⟩ := except_bind_ok.1 h
    obtain ⟨_, h3, h⟩ := except_bind_ok.1 h
    obtain ⟨uu, h4, h⟩ := except_bind_ok.1 h
    obtain ⟨rows, h5, h⟩ := except_bind_ok.1 h
    rw [sensorDetails_eq] at h1
    rw [units_eq] at h4
    refine ⟨?_, ?_, ?_, ?_, ?_⟩
    · unfold readCalRows at h5
      obtain ⟨i, hi, h5⟩ := except_bind_ok.1 h5
      obtain ⟨rs, hrs, h5⟩ := except_bind_ok.1 h5
      split at h5
      · cases h5
      · rename_i hne
        refine ⟨_, rs, dataBlock_of_readFrom hi, ?_, mapM_isRow.1 hrs⟩
        intro hnil
        rw [hnil] at hrs
        cases hrs
        exact hne rfl
    · intro l hl hn
      obtain ⟨v, hv⟩ := pairFold_values h1 l hl (by simpa only [namesB_iff] using hn)
      exact ⟨v, (afterEquals_iff _ _).1 hv⟩
    · intro l hl hn
      obtain ⟨v, hv⟩ := pairFold_values h4 l hl (by simpa only [namesB_iff] using hn)
      exact ⟨v, (afterEquals_iff _ _).1 hv⟩
    · intro pre l post he hn hpre
      unfold getStaticGain at h2
      rw [first _ pre l post he hn hpre] at h2
      obtain ⟨s, hs, h2⟩ := except_bind_ok.1 h2
      exact ⟨s, gain, (afterEquals_iff _ _).1 hs, h2⟩
    · intro pre l post he hn hpre
      unfold getChopper at h3
      rw [first _ pre l post he hn hpre] at h3
      obtain ⟨s, hs, h3⟩ := except_bind_ok.1 h3
      exact ⟨s, (afterEquals_iff _ _).1 hs⟩
  · rintro ⟨⟨body, rows, hb, hne, hrows⟩, hsens, hunit, hgain, hchop⟩
    obtain ⟨ss, h1⟩ := pairFold_exists (p := namesB "serial") (q := namesB "sensor")
      (f := fun l => if true then (pyLower l) else l) (lines := lines) (st := ("1", "")) (fun l hl hn => by
        obtain ⟨v, hv⟩ := hsens l hl (by simpa only [namesB_iff] using hn)
        exact ⟨v, (afterEquals_iff _ _).2 hv⟩)
    obtain ⟨uu, h4⟩ := pairFold_exists (p := namesB "magnitude unit") (q := namesB "phase unit")
      (f := fun l => if false then (pyLower l) else l) (lines := lines) (st := ("mV/nT", "radians")) (fun l hl hn => by
        obtain ⟨v, hv⟩ := hunit l hl (by simpa only [namesB_iff] using hn)
        exact ⟨v, (afterEquals_iff _ _).2 hv⟩)
    rw [← sensorDetails_eq] at h1
    rw [← units_eq] at h4
    have h2 : ∃ g, getStaticGain toNum lines = .ok g := by
      unfold getStaticGain
      cases hf : lines.find? fun l => pyContains "static gain" (pyLower l) with
      | none => exact ⟨1, rfl⟩
      | some l =>
        obtain ⟨hn, pre, post, he, hpre⟩ := List.find?_eq_some_iff_append.1 hf
        obtain ⟨v, q, hv, hq⟩ := hgain pre l post he ((pyContains_iff _ _).1 hn) (fun x hx hn => by
          have := hpre x hx
          rw [(pyContains_iff _ _).2 hn] at this
          cases this)
        refine ⟨q, ?_⟩
        simp only [(afterEquals_iff _ _).2 hv, bind, Except.bind]
        exact hq
    have h3 : ∃ b, getChopper lines = .ok b := by
      unfold getChopper
      cases hf : lines.find? fun l => pyContains "chopper" (pyLower l) with
      | none => exact ⟨false, rfl⟩
      | some l =>
        obtain ⟨hn, pre, post, he, hpre⟩ := List.find?_eq_some_iff_append.1 hf
        obtain ⟨v, hv⟩ := hchop pre l post he ((pyContains_iff _ _).1 hn) (fun x hx hn => by
          have := hpre x hx
          rw [(pyContains_iff _ _).2 hn] at this
          cases this)
        refine ⟨decide (v = "True"), ?_⟩
        simp only [(afterEquals_iff _ _).2 hv, bind, Except.bind]
        rfl
    obtain ⟨g, h2⟩ := h2
    obtain ⟨b, h3⟩ := h3
    obtain ⟨i, hi, hbody⟩ := readFrom_of_dataBlock hb
    have hrs : rows ≠ [] := by
      rintro rfl
      cases hrows
      exact hne rfl
    have h5 : ∃ rs, readCalRows toNum deg lines uu.2 = .ok rs := by
      unfold readCalRows
      simp only [hi, hbody, mapM_isRow.2 hrows, bind, Except.bind]
      rw [if_neg hrs]
      exact ⟨_, rfl⟩
    obtain ⟨rs, h5⟩ := h5
    unfold readCalText
    simp only [← hlines, h1, h2, h3, h4, h5, bind, Except.bind]
    exact ⟨_, rfl⟩

/-- **C42 (no marker)**: a file none of whose lines has the data marker is refused. -/
theorem C42_no_marker (toNum : String → Except Err ℚ) (deg : ℚ) (raw : List String)
    (h : ∀ l ∈ raw, ¬ Mentions "CALIBRATION DATA" l) : ∃ e, readCalText toNum deg raw = .error e := by
  cases hr : readCalText toNum deg raw with
  | error e => exact ⟨e, rfl⟩
  | ok d =>
    exfalso
    obtain ⟨⟨body, rows, ⟨pre, marker, post, he, hm, -⟩, -⟩, -⟩ :=
      (C42_which_files toNum deg raw _ (strip_forall₂ raw)).1 ⟨d, hr⟩
    have hmem : marker ∈ raw.map pyStrip := by rw [he]; simp
    obtain ⟨l, hl, rfl⟩ := List.mem_map.1 hmem
    apply h l hl
    obtain ⟨a, b, hab⟩ := hm
    obtain ⟨g, g', hg, -⟩ := trimmed_strip l
    exact ⟨g ++ a, b ++ g', by rw [hg, hab]; simp⟩

/-! ## A case with the hypotheses -/

/-- Numbers of one digit, and 90. -/
def digitNum (s : String) : Except Err ℚ :=
  match s.toList with
  | [c] => if c.isDigit then .ok ((c.toNat - 48 : ℕ) : ℚ) else .error .value
  | ['9', '0'] => .ok 90
  | _ => .error .value

/-- The file of the documentation, shortened: rows out of order, a line after the block. -/
def demoText : List String :=
  ["Serial = 710\n", "Sensor = LEMI120\n", "Static gain = 1\n", "Magnitude unit = mV/nT\n", "Phase unit = degrees\n",
    "Chopper = False\n", "\n", "CALIBRATION DATA\n", "3\t5  90\n", "  1 4 0\n", "\n", "7 7 7\n"]

example : readCalText digitNum (1 / 57) demoText = .ok
    { sensor := "lemi120", serial := "710", staticGain := 1, magnitudeUnit := "mV/nT", frequency := [1, 3],
      magnitude := [4, 5], phase := [0, 90 / 57] } := by decide +kernel

/-- A row of two numbers, or no rows, are refused. -/
example : readCalText digitNum (1 / 57) ["CALIBRATION DATA", "1 2 3", "4 5"] = .error .value ∧
    readCalText digitNum (1 / 57) ["CALIBRATION DATA", "", "1 2 3"] = .error .value ∧
    readCalText digitNum (1 / 57) ["Serial 5", "CALIBRATION DATA", "1 2 3"] = .error .index := by decide +kernel

end Resistics
