import Verif.Model.Json
import Verif.Props.FloatText
import Verif.Props.GatherData

/-!
# C75: JSON text
-/

namespace Resistics

/-! ## Specification -/

/-- A number a file can hold: the finite floating point ones are doubles. -/
def PyNum.Good : PyNum → Prop
  | .float q => IsDouble q
  | _ => True

mutual

/-- A value Python can hold: its numbers are numbers of Python, and the keys of its dictionaries are different. -/
def Json.Good : Json → Prop
  | .null => True
  | .bool _ => True
  | .num n => n.Good
  | .str _ => True
  | .list l => GoodItems l
  | .dict d => (d.map Prod.fst).Nodup ∧ GoodPairs d

/-- The items of a list. -/
def GoodItems : List Json → Prop
  | [] => True
  | v :: l => v.Good ∧ GoodItems l

/-- The values of a dictionary. -/
def GoodPairs : List (String × Json) → Prop
  | [] => True
  | (_, v) :: d => v.Good ∧ GoodPairs d

end

theorem goodItems_iff (l : List Json) : GoodItems l ↔ ∀ v ∈ l, v.Good := by
  induction l with
  | nil => simp [GoodItems]
  | cons v l ih => simp [GoodItems, ih]

theorem goodPairs_iff (d : List (String × Json)) : GoodPairs d ↔ ∀ q ∈ d, q.2.Good := by
  induction d with
  | nil => simp [GoodPairs]
  | cons q d ih => obtain ⟨k, v⟩ := q; simp only [GoodPairs, ih, List.forall_mem_cons]

/-! ## Texts -/

theorem hexValue_hexDigit : ∀ n < 16, hexValue (hexDigit n) = some n := by decide

theorem readHex4_escape (n : ℕ) (h : n < 65536) (rest : List Char) :
    readHex4 (hexDigit (n / 4096 % 16) :: hexDigit (n / 256 % 16) :: hexDigit (n / 16 % 16) :: hexDigit (n % 16) :: rest) =
      some (n, rest) := by
  have hx : ∀ m : ℕ, hexValue (hexDigit (m % 16)) = some (m % 16) := fun m => hexValue_hexDigit _ (Nat.mod_lt _ (by norm_num))
  simp only [readHex4, hx, bind, Option.bind, pure, Option.some.injEq, Prod.mk.injEq, and_true]
  omega

theorem char_lt (c : Char) : c.toNat < 1114112 ∧ (c.toNat < 55296 ∨ 57343 < c.toNat) := by
  have := c.valid
  unfold UInt32.isValidChar Nat.isValidChar at this
  unfold Char.toNat
  omega

theorem ofNat_toNat (c : Char) : Char.ofNat c.toNat = c := Char.ofNat_toNat c

theorem scanString_more {n m : ℕ} (h : n ≤ m) {cs : List Char} {r : List Char × List Char} (hr : scanString n cs = some r) :
    scanString m cs = some r := by
  induction n generalizing m cs r with
  | zero => simp [scanString] at hr
  | succ n ih =>
    obtain ⟨m, rfl⟩ : ∃ k, m = k + 1 := ⟨m - 1, by omega⟩
    cases cs with
    | nil => simp [scanString] at hr
    | cons c cs =>
      simp only [scanString] at hr ⊢
      split at hr
      · rename_i h1; rw [if_pos h1]; exact hr
      rename_i h1
      rw [if_neg h1]
      split at hr
      · rename_i h2
        rw [if_pos h2]
        simp only [bind, Option.bind, pure] at hr ⊢
        cases he : readEscape cs with
        | none => simp [he] at hr
        | some p =>
          simp only [he] at hr ⊢
          cases hs : scanString n p.2 with
          | none => simp [hs] at hr
          | some q => rw [ih (by omega) hs]; simp only [hs] at hr; exact hr
      rename_i h2
      rw [if_neg h2]
      split at hr
      · simp at hr
      rename_i h3
      rw [if_neg h3]
      simp only [bind, Option.bind, pure] at hr ⊢
      cases hs : scanString n cs with
      | none => simp [hs] at hr
      | some q => rw [ih (by omega) hs]; simp only [hs] at hr; exact hr

theorem readUnicode_plain (n : ℕ) (h : n < 65536) (h1 : n < 55296 ∨ 57343 < n) (rest : List Char) :
    readUnicode (hexDigit (n / 4096 % 16) :: hexDigit (n / 256 % 16) :: hexDigit (n / 16 % 16) :: hexDigit (n % 16) :: rest) =
      some (Char.ofNat n, rest) := by
  unfold readUnicode
  rw [readHex4_escape n h rest]
  simp only [bind, Option.bind]
  rw [if_neg (by omega), if_neg (by omega)]

theorem readUnicode_pair (a b : ℕ) (ha : 55296 ≤ a ∧ a ≤ 56319) (hb : 56320 ≤ b ∧ b ≤ 57343) (rest : List Char) :
    readUnicode (hexDigit (a / 4096 % 16) :: hexDigit (a / 256 % 16) :: hexDigit (a / 16 % 16) :: hexDigit (a % 16) ::
      (unicodeEscape b ++ rest)) = some (Char.ofNat (65536 + (a - 55296) * 1024 + (b - 56320)), rest) := by
  unfold readUnicode
  rw [readHex4_escape a (by omega)]
  simp only [bind, Option.bind]
  rw [if_pos ha]
  unfold unicodeEscape readLowSurrogate
  simp only [List.cons_append, List.nil_append]
  rw [readHex4_escape b (by omega)]
  simp only [bind, Option.bind, guard, pure]
  rw [if_pos hb]

theorem surrogates (n : ℕ) (h1 : 65536 ≤ n) :
    65536 + (55296 + (n - 65536) / 1024 - 55296) * 1024 + (56320 + (n - 65536) % 1024 - 56320) = n := by omega

/-- an escaped character of a text -/
theorem scan_escape {c : Char} {n : ℕ} {e cs : List Char} {q : List Char × List Char} (he : readEscape e = some (c, cs))
    (h : scanString n cs = some q) : scanString (n + 1) ('\\' :: e) = some (c :: q.1, q.2) := by
  simp only [scanString, show ¬('\\' : Char) = '"' by decide, if_false, if_true, bind, Option.bind, he, h, pure]

theorem unicodeEscape_append (n : ℕ) (rest : List Char) : unicodeEscape n ++ rest = '\\' :: 'u' ::
    (hexDigit (n / 4096 % 16) :: hexDigit (n / 256 % 16) :: hexDigit (n / 16 % 16) :: hexDigit (n % 16) :: rest) := by
  simp [unicodeEscape]

/-- one character of a text -/
theorem scan_escaped (c : Char) (n : ℕ) (cs : List Char) (q : List Char × List Char) (h : scanString n cs = some q) :
    scanString (n + 1) (escapeChar c ++ cs) = some (c :: q.1, q.2) := by
  have hlt := char_lt c
  unfold escapeChar
  split_ifs with h1 h2 h3 h4 h5 h6 h7 h8 h9
  · subst h1; exact scan_escape (by simp [readEscape]) h
  · subst h2; exact scan_escape (by simp [readEscape]) h
  · subst h3; exact scan_escape (by simp [readEscape]) h
  · subst h4; exact scan_escape (by simp [readEscape]) h
  · subst h5; exact scan_escape (by simp [readEscape]) h
  · rw [← ofNat_toNat c, h6]
    exact scan_escape (by simp [readEscape]) h
  · rw [← ofNat_toNat c, h7]
    exact scan_escape (by simp [readEscape]) h
  · simp only [List.cons_append, List.nil_append, scanString, if_neg h1, if_neg h2, if_neg (show ¬c.toNat < 32 by omega), bind,
      Option.bind, h, pure]
  · rw [unicodeEscape_append]
    refine scan_escape ?_ h
    rw [readEscape, if_pos rfl, readUnicode_plain _ h9 hlt.2, ofNat_toNat]
  · rw [List.append_assoc, unicodeEscape_append]
    refine scan_escape ?_ h
    rw [readEscape, if_pos rfl, readUnicode_pair _ _ (by omega) (by omega), surrogates _ (by omega), ofNat_toNat]

theorem escapeChar_ne_nil (c : Char) : 1 ≤ (escapeChar c).length := by
  unfold escapeChar unicodeEscape
  split_ifs <;> simp

theorem scan_chars (l rest : List Char) : scanString (l.length + 1) (l.flatMap escapeChar ++ '"' :: rest) = some (l, rest) := by
  induction l with
  | nil => rfl
  | cons c l ih =>
    rw [List.flatMap_cons, List.append_assoc]
    exact scan_escaped c _ _ _ ih

theorem flatMap_escape_length (l : List Char) : l.length ≤ (l.flatMap escapeChar).length := by
  induction l with
  | nil => simp
  | cons c l ih =>
    have := escapeChar_ne_nil c
    simp only [List.flatMap_cons, List.length_append, List.length_cons]
    omega

/-- a text is read back -/
theorem readStringBody_text (s : String) (rest : List Char) :
    readStringBody (s.toList.flatMap escapeChar ++ '"' :: rest) = some (s, rest) := by
  unfold readStringBody
  have h := flatMap_escape_length s.toList
  rw [scanString_more (n := s.toList.length + 1) (by simp only [List.length_append, List.length_cons]; omega)
    (scan_chars s.toList rest)]
  simp

/-! ## Numbers -/

theorem spanDigits_parts (cs : List Char) : cs = (spanDigits cs).1 ++ (spanDigits cs).2 ∧ AllDigits (spanDigits cs).1 := by
  unfold spanDigits
  rw [List.span_eq_takeWhile_dropWhile]
  refine ⟨List.takeWhile_append_dropWhile.symm, fun c hc => ?_⟩
  have := List.all_takeWhile (p := isDecDigit) (l := cs)
  rw [List.all_eq_true] at this
  exact this c hc

/-- All of them can belong to a number. -/
def AllNumber (cs : List Char) : Prop := ∀ c ∈ cs, isNumberChar c = true

theorem AllDigits.number {cs : List Char} (h : AllDigits cs) : AllNumber cs := fun c hc => by
  unfold isNumberChar
  rw [h c hc]
  rfl

theorem AllNumber.append {a b : List Char} (ha : AllNumber a) (hb : AllNumber b) : AllNumber (a ++ b) := by
  intro c hc
  rcases List.mem_append.1 hc with h | h
  · exact ha c h
  · exact hb c h

theorem AllNumber.cons {c : Char} {b : List Char} (hc : isNumberChar c = true) (hb : AllNumber b) : AllNumber (c :: b) := by
  intro d hd
  rcases List.mem_cons.1 hd with h | h
  · rw [h]; exact hc
  · exact hb d h

theorem readMinus_number {cs : List Char} (h : AllNumber (readMinus cs).2) : AllNumber cs := by
  unfold readMinus at h
  split at h
  · exact h.cons (by decide)
  · exact h

theorem readSign_number {cs : List Char} (h : AllNumber (readSign cs).2) : AllNumber cs := by
  unfold readSign at h
  split at h
  · exact h.cons (by decide)
  · exact h.cons (by decide)
  · exact h

theorem readFraction_number {cs t : List Char} {f : Option (List Char)} (h : readFraction cs = some (f, t)) (ht : AllNumber t) :
    AllNumber cs := by
  unfold readFraction at h
  split at h
  · rename_i cs
    split at h
    · simp at h
    · simp only [Option.some.injEq, Prod.mk.injEq] at h
      have hp := spanDigits_parts cs
      rw [hp.1]
      refine AllNumber.cons (by decide) (hp.2.number.append ?_)
      rw [h.2]
      exact ht
  · simp only [Option.some.injEq, Prod.mk.injEq] at h
    rw [h.2]
    exact ht

theorem exponentDigits_number {q : Bool × List Char} {t : List Char} {e : Option ℤ} (h : exponentDigits q = some (e, t)) (ht : AllNumber t) :
    AllNumber q.2 := by
  unfold exponentDigits at h
  split at h
  · simp at h
  · simp only [Option.some.injEq, Prod.mk.injEq] at h
    have hp := spanDigits_parts q.2
    rw [hp.1]
    refine hp.2.number.append ?_
    rw [h.2]
    exact ht

theorem readExponent_number {cs t : List Char} {e : Option ℤ} (h : readExponent cs = some (e, t)) (ht : AllNumber t) :
    AllNumber cs := by
  unfold readExponent at h
  split at h
  · exact (readSign_number (exponentDigits_number h ht)).cons (by decide)
  · exact (readSign_number (exponentDigits_number h ht)).cons (by decide)
  · simp only [Option.some.injEq, Prod.mk.injEq] at h
    rw [h.2]
    exact ht

/-- a number consists of characters of numbers -/
theorem readNumberText_number {cs : List Char} {n : PyNum} (h : readNumberText cs = some n) : AllNumber cs := by
  unfold readNumberText at h
  simp only [bind, Option.bind, guard, pure] at h
  split_ifs at h with hg
  cases hf : readFraction (spanDigits (readMinus cs).2).2 with
  | none => simp [hf] at h
  | some p =>
    obtain ⟨f, t⟩ := p
    simp only [hf] at h
    cases he : readExponent t with
    | none => simp [he] at h
    | some p =>
      obtain ⟨e, u⟩ := p
      simp only [he] at h
      by_cases hu : u = []
      · have h1 := readExponent_number he (by rw [hu]; intro c hc; simp at hc)
        have h2 := readFraction_number hf h1
        apply readMinus_number
        have hp := spanDigits_parts (readMinus cs).2
        rw [hp.1]
        exact hp.2.number.append h2
      · rw [if_neg hu] at h
        simp [failure] at h

/-- What may follow a value: nothing, or something that cannot belong to a number. -/
def JsonApart (rest : List Char) : Prop := ∀ c ∈ rest.head?, isNumberChar c = false

theorem takeWhile_number {a rest : List Char} (ha : AllNumber a) (hr : JsonApart rest) :
    (a ++ rest).takeWhile isNumberChar = a ∧ (a ++ rest).dropWhile isNumberChar = rest := by
  rw [List.takeWhile_append_of_pos ha, List.dropWhile_append_of_pos ha]
  cases rest with
  | nil => simp
  | cons c cs =>
    have hc := hr c (by simp)
    simp [List.takeWhile_cons, List.dropWhile_cons, hc]

theorem parseNumber_text {a rest : List Char} {n : PyNum} (ha : readNumberText a = some n) (hr : JsonApart rest) :
    parseNumber (a ++ rest) = some (.num n, rest) := by
  have h := takeWhile_number (readNumberText_number ha) hr
  unfold parseNumber
  rw [h.1, h.2, ha]
  rfl

theorem readNumberText_nil : readNumberText [] = none := rfl

theorem readNumberText_minus : readNumberText ['-'] = none := rfl

/-- a text that starts with a number is read as one -/
theorem parseScalar_number {a rest : List Char} {n : PyNum} (ha : readNumberText a = some n) :
    parseScalar (a ++ rest) = parseNumber (a ++ rest) := by
  have hall := readNumberText_number ha
  unfold parseScalar
  have first : ∀ c cs, a ++ rest = c :: cs → isNumberChar c = true := by
    intro c cs h
    cases a with
    | nil => rw [readNumberText_nil] at ha; simp at ha
    | cons d ds =>
      simp only [List.cons_append, List.cons.injEq] at h
      rw [← h.1]
      exact hall d (by simp)
  split
  · rename_i cs h; exact absurd (first _ _ h) (by decide)
  · rename_i cs h; exact absurd (first _ _ h) (by decide)
  · rename_i cs h; exact absurd (first _ _ h) (by decide)
  · rename_i cs h; exact absurd (first _ _ h) (by decide)
  · rename_i cs h; exact absurd (first _ _ h) (by decide)
  · rename_i cs h
    cases a with
    | nil => rw [readNumberText_nil] at ha; simp at ha
    | cons d ds =>
      cases ds with
      | nil =>
        simp only [List.cons_append, List.cons.injEq, List.nil_append] at h
        rw [h.1, readNumberText_minus] at ha
        simp at ha
      | cons e es =>
        simp only [List.cons_append, List.cons.injEq] at h
        have := hall e (by simp)
        rw [h.2.1] at this
        exact absurd this (by decide)
  · rfl

/-- the first character of a number starts no text, list or dictionary -/
theorem parseValue_number {a rest : List Char} {n : PyNum} (ha : readNumberText a = some n) (k : ℕ) :
    parseValue (k + 1) (a ++ rest) = parseNumber (a ++ rest) := by
  have hall := readNumberText_number ha
  have first : ∀ c cs, a ++ rest = c :: cs → isNumberChar c = true := by
    intro c cs h
    cases a with
    | nil => rw [readNumberText_nil] at ha; simp at ha
    | cons d ds =>
      simp only [List.cons_append, List.cons.injEq] at h
      rw [← h.1]
      exact hall d (by simp)
  rw [← parseScalar_number ha]
  simp only [parseValue]
  split
  · rename_i cs h; exact absurd (first _ _ h) (by decide)
  · rename_i cs h; exact absurd (first _ _ h) (by decide)
  · rename_i cs h; exact absurd (first _ _ h) (by decide)
  · rfl

theorem parseWord_text (word : List Char) (v : Json) (rest : List Char) : parseWord word v (word ++ rest) = some (v, rest) := by
  unfold parseWord
  rw [if_pos (by simp)]
  simp

theorem parse_num (x : PyNum) (h : x.Good) (n : ℕ) (rest : List Char) (hr : JsonApart rest) :
    parseValue (n + 1) (x.text ++ rest) = some (.num x, rest) := by
  cases x with
  | int k => exact (parseValue_number (C74_int k) n).trans (parseNumber_text (C74_int k) hr)
  | float q => exact (parseValue_number (C74_float q h) n).trans (parseNumber_text (C74_float q h) hr)
  | inf neg =>
    cases neg with
    | false => exact parseWord_text "nfinity".toList _ rest
    | true => exact parseWord_text "nfinity".toList _ rest
  | nan => exact parseWord_text "aN".toList _ rest

/-! ## Values -/

/-- what every value starts with is no white space and closes nothing -/
def Starts (cs : List Char) : Prop := ∃ c rest, cs = c :: rest ∧ isJsonSpace c = false ∧ c ≠ ']' ∧ c ≠ '}'

theorem Starts.append {cs : List Char} (h : Starts cs) (more : List Char) : Starts (cs ++ more) := by
  obtain ⟨c, rest, rfl, h1, h2⟩ := h
  exact ⟨c, rest ++ more, by simp, h1, h2⟩

theorem number_starts {a : List Char} {n : PyNum} (ha : readNumberText a = some n) : Starts a := by
  cases a with
  | nil => rw [readNumberText_nil] at ha; simp at ha
  | cons c cs =>
    have hc := readNumberText_number ha c (by simp)
    refine ⟨c, cs, rfl, ?_, ?_, ?_⟩
    · by_contra hcon
      simp only [Bool.not_eq_false, isJsonSpace, Bool.or_eq_true, beq_iff_eq] at hcon
      rcases hcon with ((h | h) | h) | h <;> subst h <;> revert hc <;> decide
    · rintro rfl; revert hc; decide
    · rintro rfl; revert hc; decide

theorem text_starts (v : Json) (h : v.Good) : Starts v.text := by
  cases v with
  | null => exact ⟨'n', "ull".toList, rfl, by decide, by decide, by decide⟩
  | bool b =>
    cases b
    · exact ⟨'f', "alse".toList, rfl, by decide, by decide, by decide⟩
    · exact ⟨'t', "rue".toList, rfl, by decide, by decide, by decide⟩
  | num x =>
    cases x with
    | int k => exact number_starts (C74_int k)
    | float q => exact number_starts (C74_float q h)
    | inf neg =>
      cases neg
      · exact ⟨'I', "nfinity".toList, rfl, by decide, by decide, by decide⟩
      · exact ⟨'-', "Infinity".toList, rfl, by decide, by decide, by decide⟩
    | nan => exact ⟨'N', "aN".toList, rfl, by decide, by decide, by decide⟩
  | str s => exact ⟨'"', s.toList.flatMap escapeChar ++ ['"'], by simp only [Json.text, stringText], by decide, by decide, by decide⟩
  | list l =>
    cases l with
    | nil => exact ⟨'[', [']'], by simp only [Json.text], by decide, by decide, by decide⟩
    | cons v l => exact ⟨'[', _, by simp only [Json.text]; rfl, by decide, by decide, by decide⟩
  | dict d =>
    cases d with
    | nil => exact ⟨'{', ['}'], by simp only [Json.text], by decide, by decide, by decide⟩
    | cons q d => obtain ⟨k, v⟩ := q; exact ⟨'{', _, by simp only [Json.text]; rfl, by decide, by decide, by decide⟩

theorem skipSpace_starts {cs : List Char} (h : Starts cs) : skipSpace cs = cs := by
  obtain ⟨c, rest, rfl, h1, -⟩ := h
  simp [skipSpace, List.dropWhile_cons, h1]

theorem skipSpace_blank {cs : List Char} (h : Starts cs) : skipSpace (' ' :: cs) = cs := by
  simp only [skipSpace, List.dropWhile_cons, show isJsonSpace ' ' = true by decide, if_true]
  exact skipSpace_starts h

theorem skipSpace_mark (c : Char) (hc : isJsonSpace c = false) (cs : List Char) : skipSpace (c :: cs) = c :: cs := by
  simp [skipSpace, List.dropWhile_cons, hc]

theorem stringText_starts (s : String) : Starts (stringText s) := ⟨'"', _, rfl, by decide, by decide, by decide⟩

theorem asDict_nodup {d : List (String × Json)} (h : (d.map Prod.fst).Nodup) : asDict d = d := by
  unfold asDict
  rw [foldl_dictSet_new d [] (by simpa using h)]
  simp

theorem stringText_append (s : String) (rest : List Char) :
    stringText s ++ rest = '"' :: (s.toList.flatMap escapeChar ++ '"' :: rest) := by
  simp [stringText]

theorem parsePair_text (value : List Char → Option (Json × List Char)) (k : String) (v : Json) (hv : v.Good) (rest : List Char)
    (h : value (v.text ++ rest) = some (v, rest)) :
    parsePair value (stringText k ++ ':' :: ' ' :: (v.text ++ rest)) = some ((k, v), rest) := by
  rw [stringText_append]
  simp only [parsePair, readStringBody_text, bind, Option.bind, parseAfterKey, skipSpace_mark ':' (by decide),
    skipSpace_blank ((text_starts v hv).append rest), h, pure]

theorem apart_bracket (rest : List Char) : JsonApart (']' :: rest) := by
  intro c hc
  simp only [List.head?_cons, Option.mem_def, Option.some.injEq] at hc
  rw [← hc]
  decide

theorem apart_brace (rest : List Char) : JsonApart ('}' :: rest) := by
  intro c hc
  simp only [List.head?_cons, Option.mem_def, Option.some.injEq] at hc
  rw [← hc]
  decide

theorem apart_comma (rest : List Char) : JsonApart (',' :: rest) := by
  intro c hc
  simp only [List.head?_cons, Option.mem_def, Option.some.injEq] at hc
  rw [← hc]
  decide

theorem apart_items (l : List Json) (rest : List Char) : JsonApart (moreItemsText l ++ rest) := by
  cases l with
  | nil => simp only [moreItemsText, List.cons_append]; exact apart_bracket _
  | cons v l => simp only [moreItemsText, List.cons_append]; exact apart_comma _

theorem apart_pairs (d : List (String × Json)) (rest : List Char) : JsonApart (morePairsText d ++ rest) := by
  cases d with
  | nil => simp only [morePairsText, List.cons_append]; exact apart_brace _
  | cons q d => obtain ⟨k, v⟩ := q; simp only [morePairsText, List.cons_append]; exact apart_comma _

mutual

/-- a value is read back -/
theorem parse_text : ∀ (v : Json), v.Good → ∀ (n : ℕ) (rest : List Char), v.text.length ≤ n → (∀ x, v = .num x → JsonApart rest) →
    parseValue (n + 1) (v.text ++ rest) = some (v, rest)
  | .null, _, n, rest, _, _ => parseWord_text "ull".toList _ rest
  | .bool true, _, n, rest, _, _ => parseWord_text "rue".toList _ rest
  | .bool false, _, n, rest, _, _ => parseWord_text "alse".toList _ rest
  | .num x, h, n, rest, _, hr => parse_num x h n rest (hr x rfl)
  | .str s, _, n, rest, _, _ => by
      simp only [Json.text, stringText_append, parseValue, readStringBody_text, Option.map_some]
  | .list [], _, n, rest, _, _ => by
      simp [Json.text, parseValue, parseItems, skipSpace, isJsonSpace, List.dropWhile_cons]
  | .list (v :: l), h, n, rest, hn, hr => by
      simp only [Json.Good, GoodItems] at h
      simp only [Json.text, List.length_cons, List.length_append] at hn
      have hpos : 1 ≤ v.text.length := by
        obtain ⟨c, r, hc, -⟩ := text_starts v h.1
        rw [hc]; simp
      obtain ⟨n, rfl⟩ : ∃ k, n = k + 1 := ⟨n - 1, by omega⟩
      have h1 := parse_text v h.1 n (moreItemsText l ++ rest) (by omega) (fun _ _ => apart_items l rest)
      have h2 := parse_more_items l h.2 n n rest (by omega) (by omega)
      have hs : skipSpace (v.text ++ moreItemsText l ++ rest) = v.text ++ (moreItemsText l ++ rest) := by
        rw [List.append_assoc]; exact skipSpace_starts ((text_starts v h.1).append _)
      have hp : parseItems (parseValue (n + 1)) (n + 1) (v.text ++ moreItemsText l ++ rest) = some (v :: l, rest) := by
        unfold parseItems
        rw [hs]
        split
        · rename_i r heq
          obtain ⟨c, r', hc, -, hne, -⟩ := (text_starts v h.1).append (moreItemsText l ++ rest)
          rw [hc] at heq
          exact absurd (List.cons.inj heq).1 hne
        · simp only [bind, Option.bind, h1, h2, pure]
      simp only [Json.text, List.cons_append]
      rw [parseValue]
      simp only [hp, Option.map_some]
  | .dict [], _, n, rest, _, _ => by
      simp [Json.text, parseValue, parsePairs, skipSpace, isJsonSpace, List.dropWhile_cons, asDict]
  | .dict ((k, v) :: d), h, n, rest, hn, hr => by
      simp only [Json.Good, GoodPairs] at h
      simp only [Json.text, List.length_cons, List.length_append] at hn
      obtain ⟨n, rfl⟩ : ∃ k, n = k + 1 := ⟨n - 1, by omega⟩
      have h1 := parse_text v h.2.1 n (morePairsText d ++ rest) (by omega) (fun _ _ => apart_pairs d rest)
      have h2 := parse_more_pairs d h.2.2 n n rest (by omega) (by omega)
      have h3 := parsePair_text (parseValue (n + 1)) k v h.2.1 (morePairsText d ++ rest) h1
      have hs : skipSpace (stringText k ++ ':' :: ' ' :: (v.text ++ morePairsText d) ++ rest) =
          stringText k ++ ':' :: ' ' :: (v.text ++ (morePairsText d ++ rest)) := by
        simp only [List.append_assoc, List.cons_append]; exact skipSpace_starts ((stringText_starts k).append _)
      have hp : parsePairs (parseValue (n + 1)) (n + 1) (stringText k ++ ':' :: ' ' :: (v.text ++ morePairsText d) ++ rest) =
          some ((k, v) :: d, rest) := by
        unfold parsePairs
        rw [hs]
        split
        · rename_i r heq
          obtain ⟨c, r', hc, -, -, hne⟩ := (stringText_starts k).append (':' :: ' ' :: (v.text ++ (morePairsText d ++ rest)))
          rw [hc] at heq
          exact absurd (List.cons.inj heq).1 hne
        · simp only [bind, Option.bind, h3, h2, pure]
      simp only [Json.text, List.cons_append]
      rw [parseValue]
      simp only [hp, Option.map_some, asDict_nodup h.1]

/-- the items of a list after the first are read back -/
theorem parse_more_items : ∀ (l : List Json), GoodItems l → ∀ (n m : ℕ) (rest : List Char), (moreItemsText l).length ≤ n + 1 →
    (moreItemsText l).length ≤ m + 1 → parseMoreItems (parseValue (n + 1)) (m + 1) (moreItemsText l ++ rest) = some (l, rest)
  | [], _, n, m, rest, _, _ => by
      simp [moreItemsText, parseMoreItems, skipSpace, isJsonSpace, List.dropWhile_cons]
  | v :: l, h, n, m, rest, hn, hm => by
      simp only [GoodItems] at h
      simp only [moreItemsText, List.length_cons, List.length_append] at hn hm
      obtain ⟨m, rfl⟩ : ∃ k, m = k + 1 := ⟨m - 1, by omega⟩
      have h1 := parse_text v h.1 n (moreItemsText l ++ rest) (by omega) (fun _ _ => apart_items l rest)
      have h2 := parse_more_items l h.2 n m rest (by omega) (by omega)
      have hs : skipSpace (' ' :: (v.text ++ moreItemsText l ++ rest)) = v.text ++ (moreItemsText l ++ rest) := by
        rw [List.append_assoc]; exact skipSpace_blank ((text_starts v h.1).append _)
      simp only [moreItemsText, List.cons_append]
      rw [parseMoreItems, skipSpace_mark ',' (by decide)]
      simp only [hs, bind, Option.bind, h1, h2, pure]

/-- the entries of a dictionary after the first are read back -/
theorem parse_more_pairs : ∀ (d : List (String × Json)), GoodPairs d → ∀ (n m : ℕ) (rest : List Char),
    (morePairsText d).length ≤ n + 1 → (morePairsText d).length ≤ m + 1 →
    parseMorePairs (parseValue (n + 1)) (m + 1) (morePairsText d ++ rest) = some (d, rest)
  | [], _, n, m, rest, _, _ => by
      simp [morePairsText, parseMorePairs, skipSpace, isJsonSpace, List.dropWhile_cons]
  | (k, v) :: d, h, n, m, rest, hn, hm => by
      simp only [GoodPairs] at h
      simp only [morePairsText, List.length_cons, List.length_append] at hn hm
      obtain ⟨m, rfl⟩ : ∃ k, m = k + 1 := ⟨m - 1, by omega⟩
      have h1 := parse_text v h.1 n (morePairsText d ++ rest) (by omega) (fun _ _ => apart_pairs d rest)
      have h2 := parse_more_pairs d h.2 n m rest (by omega) (by omega)
      have h3 := parsePair_text (parseValue (n + 1)) k v h.1 (morePairsText d ++ rest) h1
      have hs : skipSpace (' ' :: (stringText k ++ ':' :: ' ' :: (v.text ++ morePairsText d) ++ rest)) =
          stringText k ++ ':' :: ' ' :: (v.text ++ (morePairsText d ++ rest)) := by
        simp only [List.append_assoc, List.cons_append]; exact skipSpace_blank ((stringText_starts k).append _)
      simp only [morePairsText, List.cons_append]
      rw [parseMorePairs, skipSpace_mark ',' (by decide)]
      simp only [hs, bind, Option.bind, h3, h2, pure]

end

/-! ## Whole texts -/

/-- Only white space. -/
def JsonBlank (cs : List Char) : Prop := ∀ c ∈ cs, isJsonSpace c = true

theorem skipSpace_blanks {a : List Char} (h : JsonBlank a) (cs : List Char) : skipSpace (a ++ cs) = skipSpace cs := by
  unfold skipSpace
  rw [List.dropWhile_append_of_pos h]

theorem space_apart {c : Char} (h : isJsonSpace c = true) : isNumberChar c = false := by
  simp only [isJsonSpace, Bool.or_eq_true, beq_iff_eq] at h
  rcases h with ((h | h) | h) | h <;> subst h <;> decide

theorem JsonBlank.jsonApart {a : List Char} (h : JsonBlank a) : JsonApart a := fun c hc => space_apart (h c (List.mem_of_mem_head? hc))

theorem parse_text_le {v : Json} (h : v.Good) {n : ℕ} (hn : v.text.length ≤ n) {rest : List Char} (hr : JsonApart rest) :
    parseValue (n + 1) (v.text ++ rest) = some (v, rest) := parse_text v h n rest hn fun _ _ => hr

/-- **C75 (round trip)**: every value that is written as JSON is read back unchanged, with any white space around it. -/
theorem C75_round_trip (v : Json) (h : v.Good) (before after : List Char) (hb : JsonBlank before) (ha : JsonBlank after) :
    loads (before ++ v.text ++ after) = .ok v := by
  unfold loads
  rw [List.append_assoc, skipSpace_blanks hb, skipSpace_starts ((text_starts v h).append after)]
  rw [parse_text_le h (by simp only [List.length_append]; omega) ha.jsonApart]
  simp only [wholeText]
  have := skipSpace_blanks ha []
  rw [List.append_nil] at this
  rw [if_pos (by rw [this]; rfl)]

theorem loads_text (v : Json) (h : v.Good) : loads v.text = .ok v := by
  have := C75_round_trip v h [] [] (by intro c hc; simp at hc) (by intro c hc; simp at hc)
  simpa using this

/-- **C75 (distinct)**: different values have different texts. -/
theorem C75_distinct (v w : Json) (hv : v.Good) (hw : w.Good) (h : v.text = w.text) : v = w := by
  have h1 := loads_text v hv
  rw [h, loads_text w hw] at h1
  exact (Except.ok.inj h1).symm

theorem dropWhile_nil_all {p : Char → Bool} : ∀ (l : List Char), l.dropWhile p = [] → ∀ c ∈ l, p c = true
  | [], _, c, hc => by simp at hc
  | a :: l, h, c, hc => by
      rw [List.dropWhile_cons] at h
      split at h
      · rename_i ha
        rcases List.mem_cons.1 hc with rfl | hc
        · exact ha
        · exact dropWhile_nil_all l h c hc
      · cases h

/-- **C75 (trailing text)**: a text with anything but white space after a value is refused, for example what is left of a longer file; after a number it must be something that cannot belong
to the number. -/
theorem C75_trailing_text (v : Json) (h : v.Good) (rest : List Char) (hr : ∀ x, v = .num x → JsonApart rest) (hne : ¬JsonBlank rest) :
    loads (v.text ++ rest) = .error .value := by
  unfold loads
  rw [skipSpace_starts ((text_starts v h).append rest)]
  rw [parse_text v h _ _ (by simp only [List.length_append]; omega) hr]
  simp only [wholeText]
  rw [if_neg]
  intro hs
  apply hne
  intro c hc
  unfold skipSpace at hs
  exact dropWhile_nil_all rest hs c hc

/-! ## Interrupted texts -/

/-- The rest of a text starts with something that cannot belong to a number. -/
def StopsBefore (rest : List Char) : Prop := ∃ c r, rest = c :: r ∧ isNumberChar c = false

theorem StopsBefore.append {rest : List Char} (h : StopsBefore rest) (s : List Char) : StopsBefore (rest ++ s) := by
  obtain ⟨c, r, rfl, hc⟩ := h
  exact ⟨c, r ++ s, by simp, hc⟩

theorem readHex4_more {p r s : List Char} {n : ℕ} (h : readHex4 p = some (n, r)) : readHex4 (p ++ s) = some (n, r ++ s) := by
  unfold readHex4 at h
  split at h
  · rename_i a b c d cs
    simp only [List.cons_append, readHex4]
    simp only [bind, Option.bind, pure] at h ⊢
    cases ha : hexValue a with
    | none => simp [ha] at h
    | some a' =>
    cases hb : hexValue b with
    | none => simp [ha, hb] at h
    | some b' =>
    cases hc : hexValue c with
    | none => simp [ha, hb, hc] at h
    | some c' =>
    cases hd : hexValue d with
    | none => simp [ha, hb, hc, hd] at h
    | some d' =>
    simp only [ha, hb, hc, hd, Option.some.injEq, Prod.mk.injEq] at h ⊢
    exact ⟨h.1, by rw [h.2]⟩
  · simp at h

theorem readLowSurrogate_more {k : ℕ} {p r s : List Char} {c : Char} (h : readLowSurrogate k p = some (c, r)) :
    readLowSurrogate k (p ++ s) = some (c, r ++ s) := by
  unfold readLowSurrogate at h
  split at h
  · rename_i cs
    simp only [List.cons_append, readLowSurrogate]
    simp only [bind, Option.bind, pure, guard] at h ⊢
    cases hx : readHex4 cs with
    | none => simp [hx] at h
    | some q =>
      obtain ⟨n, t⟩ := q
      rw [readHex4_more hx]
      simp only [hx] at h ⊢
      split_ifs at h with hg
      rw [if_pos hg]
      simp only [Option.some.injEq, Prod.mk.injEq] at h ⊢
      exact ⟨h.1, by rw [h.2]⟩
  · simp at h

theorem readUnicode_more {p r s : List Char} {c : Char} (h : readUnicode p = some (c, r)) :
    readUnicode (p ++ s) = some (c, r ++ s) := by
  unfold readUnicode at h ⊢
  simp only [bind, Option.bind] at h ⊢
  cases hx : readHex4 p with
  | none => simp [hx] at h
  | some q =>
    obtain ⟨n, t⟩ := q
    rw [readHex4_more hx]
    simp only [hx] at h ⊢
    split_ifs at h with h1 h2
    · rw [if_pos h1]; exact readLowSurrogate_more h
    · rw [if_neg h1, if_neg h2]
      simp only [Option.some.injEq, Prod.mk.injEq] at h ⊢
      exact ⟨h.1, by rw [h.2]⟩

theorem readEscape_more {p r s : List Char} {c : Char} (h : readEscape p = some (c, r)) :
    readEscape (p ++ s) = some (c, r ++ s) := by
  cases p with
  | nil => simp [readEscape] at h
  | cons d ds =>
    simp only [List.cons_append, readEscape] at h ⊢
    split_ifs at h ⊢ with h1
    · exact readUnicode_more h
    all_goals
      simp only [Option.some.injEq, Prod.mk.injEq] at h ⊢
      exact ⟨h.1, by rw [h.2]⟩

theorem scanString_extend {n m : ℕ} (hnm : n ≤ m) {p l r : List Char} (s : List Char) (h : scanString n p = some (l, r)) :
    scanString m (p ++ s) = some (l, r ++ s) := by
  induction n generalizing m p l r with
  | zero => simp [scanString] at h
  | succ n ih =>
    obtain ⟨m, rfl⟩ : ∃ k, m = k + 1 := ⟨m - 1, by omega⟩
    cases p with
    | nil => simp [scanString] at h
    | cons c cs =>
      simp only [List.cons_append, scanString] at h ⊢
      split at h
      · rename_i h1
        rw [if_pos h1]
        simp only [Option.some.injEq, Prod.mk.injEq] at h ⊢
        exact ⟨h.1, by rw [h.2]⟩
      rename_i h1
      rw [if_neg h1]
      split at h
      · rename_i h2
        rw [if_pos h2]
        simp only [bind, Option.bind, pure] at h ⊢
        cases he : readEscape cs with
        | none => simp [he] at h
        | some q =>
          obtain ⟨d, t⟩ := q
          rw [readEscape_more he]
          simp only [he] at h ⊢
          cases hs : scanString n t with
          | none => simp [hs] at h
          | some q =>
            obtain ⟨l', r'⟩ := q
            rw [ih (m := m) (by omega) hs]
            simp only [hs, Option.some.injEq, Prod.mk.injEq] at h ⊢
            exact ⟨h.1, by rw [h.2]⟩
      rename_i h2
      rw [if_neg h2]
      split at h
      · simp at h
      rename_i h3
      rw [if_neg h3]
      simp only [bind, Option.bind, pure] at h ⊢
      cases hs : scanString n cs with
      | none => simp [hs] at h
      | some q =>
        obtain ⟨l', r'⟩ := q
        rw [ih (m := m) (by omega) hs]
        simp only [hs, Option.some.injEq, Prod.mk.injEq] at h ⊢
        exact ⟨h.1, by rw [h.2]⟩

theorem readStringBody_extend {p r : List Char} {k : String} (s : List Char) (h : readStringBody p = some (k, r)) :
    readStringBody (p ++ s) = some (k, r ++ s) := by
  unfold readStringBody at h ⊢
  rw [Option.map_eq_some_iff] at h ⊢
  obtain ⟨⟨l, t⟩, h1, h2⟩ := h
  simp only [Prod.mk.injEq] at h2
  refine ⟨(l, t ++ s), scanString_extend (by simp) s h1, ?_⟩
  simp only [Prod.mk.injEq]
  exact ⟨h2.1, by rw [h2.2]⟩

theorem skipSpace_extend {p r : List Char} {c : Char} (s : List Char) (h : skipSpace p = c :: r) : skipSpace (p ++ s) = c :: (r ++ s) := by
  unfold skipSpace at h ⊢
  rw [List.dropWhile_append, h]
  simp

/-- what is read next starts with something that cannot belong to a number -/
theorem stopsBefore_of_skip {p r : List Char} {c : Char} (h : skipSpace p = c :: r) (hc : isNumberChar c = false) : StopsBefore p := by
  cases p with
  | nil => simp [skipSpace] at h
  | cons d ds =>
    by_cases hd : isJsonSpace d = true
    · exact ⟨d, ds, rfl, space_apart hd⟩
    · rw [skipSpace_mark d (by simpa using hd)] at h
      rw [(List.cons.inj h).1]
      exact ⟨c, ds, rfl, hc⟩

/-- What a reader of values reads is not changed by more text. -/
def Extends (value value' : List Char → Option (Json × List Char)) (s : List Char) : Prop :=
  ∀ p w r, value p = some (w, r) → StopsBefore r → value' (p ++ s) = some (w, r ++ s)

theorem parseMoreItems_extend {value value' : List Char → Option (Json × List Char)} {s : List Char} (hv : Extends value value' s)
    (hnil : value [] = none) {n m : ℕ} (hnm : n ≤ m) {p r : List Char} {l : List Json} (h : parseMoreItems value n p = some (l, r)) :
    parseMoreItems value' m (p ++ s) = some (l, r ++ s) ∧ StopsBefore p := by
  induction n generalizing m p l r with
  | zero => simp [parseMoreItems] at h
  | succ n ih =>
    obtain ⟨m, rfl⟩ : ∃ k, m = k + 1 := ⟨m - 1, by omega⟩
    simp only [parseMoreItems] at h ⊢
    split at h
    · rename_i rest heq
      rw [skipSpace_extend s heq]
      simp only [Option.some.injEq, Prod.mk.injEq] at h ⊢
      exact ⟨⟨h.1, by rw [h.2]⟩, stopsBefore_of_skip heq (by decide)⟩
    · rename_i rest heq
      rw [skipSpace_extend s heq]
      refine ⟨?_, stopsBefore_of_skip heq (by decide)⟩
      simp only [bind, Option.bind, pure] at h ⊢
      cases hval : value (skipSpace rest) with
      | none => simp [hval] at h
      | some q =>
        obtain ⟨w, t⟩ := q
        simp only [hval] at h
        cases hmore : parseMoreItems value n t with
        | none => simp [hmore] at h
        | some q =>
          obtain ⟨l', t'⟩ := q
          simp only [hmore, Option.some.injEq, Prod.mk.injEq] at h
          have h2 := ih (m := m) (by omega) hmore
          have h3 := hv _ _ _ hval h2.2
          cases hsk : skipSpace rest with
          | nil => rw [hsk, hnil] at hval; simp at hval
          | cons c cs =>
            rw [skipSpace_extend s hsk]
            rw [hsk] at h3
            rw [List.cons_append] at h3
            simp only [h3, h2.1, Option.some.injEq, Prod.mk.injEq]
            exact ⟨h.1, by rw [h.2]⟩
    · simp at h

theorem parseItems_extend {value value' : List Char → Option (Json × List Char)} {s : List Char} (hv : Extends value value' s)
    (hnil : value [] = none) {n m : ℕ} (hnm : n ≤ m) {p r : List Char} {l : List Json} (h : parseItems value n p = some (l, r)) :
    parseItems value' m (p ++ s) = some (l, r ++ s) := by
  unfold parseItems at h ⊢
  cases hsk : skipSpace p with
  | nil => simp [hsk, hnil, bind, Option.bind] at h
  | cons c cs =>
    rw [skipSpace_extend s hsk]
    rw [hsk] at h
    by_cases hc : c = ']'
    · subst hc
      simp only [Option.some.injEq, Prod.mk.injEq] at h ⊢
      exact ⟨h.1, by rw [h.2]⟩
    · split at h
      · rename_i r' heq; exact absurd (List.cons.inj heq).1 hc
      split
      · rename_i r' heq; exact absurd (List.cons.inj heq).1 hc
      simp only [bind, Option.bind, pure] at h ⊢
      cases hval : value (c :: cs) with
      | none => simp [hval] at h
      | some q =>
        obtain ⟨w, t⟩ := q
        simp only [hval] at h
        cases hmore : parseMoreItems value n t with
        | none => simp [hmore] at h
        | some q =>
          obtain ⟨l', t'⟩ := q
          simp only [hmore, Option.some.injEq, Prod.mk.injEq] at h
          have h2 := parseMoreItems_extend hv hnil hnm hmore
          have h3 := hv _ _ _ hval h2.2
          rw [List.cons_append] at h3
          simp only [h3, h2.1, Option.some.injEq, Prod.mk.injEq]
          exact ⟨h.1, by rw [h.2]⟩

theorem parseAfterKey_extend {value value' : List Char → Option (Json × List Char)} {s : List Char} (hv : Extends value value' s)
    (hnil : value [] = none) {p r : List Char} {w : Json} (h : parseAfterKey value p = some (w, r)) (hr : StopsBefore r) :
    parseAfterKey value' (p ++ s) = some (w, r ++ s) := by
  unfold parseAfterKey at h ⊢
  split at h
  · rename_i rest heq
    rw [skipSpace_extend s heq]
    simp only
    cases hsk : skipSpace rest with
    | nil => simp [hsk, hnil] at h
    | cons c cs =>
      rw [skipSpace_extend s hsk]
      rw [hsk] at h
      exact hv _ _ _ h hr
  · simp at h

theorem parsePair_extend {value value' : List Char → Option (Json × List Char)} {s : List Char} (hv : Extends value value' s)
    (hnil : value [] = none) {p r : List Char} {q : String × Json} (h : parsePair value p = some (q, r)) (hr : StopsBefore r) :
    parsePair value' (p ++ s) = some (q, r ++ s) := by
  unfold parsePair at h
  split at h
  · rename_i cs
    simp only [List.cons_append, parsePair]
    simp only [bind, Option.bind, pure] at h ⊢
    cases hk : readStringBody cs with
    | none => simp [hk] at h
    | some kt =>
      obtain ⟨k, t⟩ := kt
      rw [readStringBody_extend s hk]
      simp only [hk] at h ⊢
      cases ha : parseAfterKey value t with
      | none => simp [ha] at h
      | some wt =>
        obtain ⟨w, t'⟩ := wt
        simp only [ha, Option.some.injEq, Prod.mk.injEq] at h
        rw [parseAfterKey_extend hv hnil ha (by rw [h.2]; exact hr)]
        simp only [Option.some.injEq, Prod.mk.injEq]
        exact ⟨h.1, by rw [h.2]⟩
  · simp at h

theorem parseMorePairs_extend {value value' : List Char → Option (Json × List Char)} {s : List Char} (hv : Extends value value' s)
    (hnil : value [] = none) {n m : ℕ} (hnm : n ≤ m) {p r : List Char} {d : List (String × Json)}
    (h : parseMorePairs value n p = some (d, r)) : parseMorePairs value' m (p ++ s) = some (d, r ++ s) ∧ StopsBefore p := by
  induction n generalizing m p d r with
  | zero => simp [parseMorePairs] at h
  | succ n ih =>
    obtain ⟨m, rfl⟩ : ∃ k, m = k + 1 := ⟨m - 1, by omega⟩
    simp only [parseMorePairs] at h ⊢
    split at h
    · rename_i rest heq
      rw [skipSpace_extend s heq]
      simp only [Option.some.injEq, Prod.mk.injEq] at h ⊢
      exact ⟨⟨h.1, by rw [h.2]⟩, stopsBefore_of_skip heq (by decide)⟩
    · rename_i rest heq
      rw [skipSpace_extend s heq]
      refine ⟨?_, stopsBefore_of_skip heq (by decide)⟩
      simp only [bind, Option.bind, pure] at h ⊢
      cases hval : parsePair value (skipSpace rest) with
      | none => simp [hval] at h
      | some q =>
        obtain ⟨w, t⟩ := q
        simp only [hval] at h
        cases hmore : parseMorePairs value n t with
        | none => simp [hmore] at h
        | some q =>
          obtain ⟨l', t'⟩ := q
          simp only [hmore, Option.some.injEq, Prod.mk.injEq] at h
          have h2 := ih (m := m) (by omega) hmore
          have h3 := parsePair_extend hv hnil hval h2.2
          cases hsk : skipSpace rest with
          | nil => rw [hsk] at hval; simp [parsePair] at hval
          | cons c cs =>
            rw [skipSpace_extend s hsk]
            rw [hsk] at h3
            rw [List.cons_append] at h3
            simp only [h3, h2.1, Option.some.injEq, Prod.mk.injEq]
            exact ⟨h.1, by rw [h.2]⟩
    · simp at h

theorem parsePairs_extend {value value' : List Char → Option (Json × List Char)} {s : List Char} (hv : Extends value value' s)
    (hnil : value [] = none) {n m : ℕ} (hnm : n ≤ m) {p r : List Char} {d : List (String × Json)}
    (h : parsePairs value n p = some (d, r)) : parsePairs value' m (p ++ s) = some (d, r ++ s) := by
  unfold parsePairs at h ⊢
  cases hsk : skipSpace p with
  | nil => simp [hsk, parsePair, bind, Option.bind] at h
  | cons c cs =>
    rw [skipSpace_extend s hsk]
    rw [hsk] at h
    by_cases hc : c = '}'
    · subst hc
      simp only [Option.some.injEq, Prod.mk.injEq] at h ⊢
      exact ⟨h.1, by rw [h.2]⟩
    · split at h
      · rename_i r' heq; exact absurd (List.cons.inj heq).1 hc
      split
      · rename_i r' heq; exact absurd (List.cons.inj heq).1 hc
      simp only [bind, Option.bind, pure] at h ⊢
      cases hval : parsePair value (c :: cs) with
      | none => simp [hval] at h
      | some q =>
        obtain ⟨w, t⟩ := q
        simp only [hval] at h
        cases hmore : parseMorePairs value n t with
        | none => simp [hmore] at h
        | some q =>
          obtain ⟨l', t'⟩ := q
          simp only [hmore, Option.some.injEq, Prod.mk.injEq] at h
          have h2 := parseMorePairs_extend hv hnil hnm hmore
          have h3 := parsePair_extend hv hnil hval h2.2
          rw [List.cons_append] at h3
          simp only [h3, h2.1, Option.some.injEq, Prod.mk.injEq]
          exact ⟨h.1, by rw [h.2]⟩

theorem parseWord_extend {word p r : List Char} {v w : Json} (s : List Char) (h : parseWord word v p = some (w, r)) :
    parseWord word v (p ++ s) = some (w, r ++ s) := by
  unfold parseWord at h ⊢
  split_ifs at h with hp
  rw [List.isPrefixOf_iff_prefix] at hp
  obtain ⟨t, rfl⟩ := hp
  simp only [List.drop_left, Option.some.injEq, Prod.mk.injEq] at h
  rw [if_pos (by rw [List.append_assoc, List.isPrefixOf_iff_prefix]; exact ⟨_, rfl⟩), List.append_assoc, List.drop_left]
  simp only [Option.some.injEq, Prod.mk.injEq]
  exact ⟨h.1, by rw [h.2]⟩

theorem parseNumber_extend {p r : List Char} {w : Json} (s : List Char) (h : parseNumber p = some (w, r)) (hr : StopsBefore r) :
    (∃ a n, readNumberText a = some n ∧ p = a ++ r) ∧ parseNumber (p ++ s) = some (w, r ++ s) := by
  unfold parseNumber at h
  rw [Option.map_eq_some_iff] at h
  obtain ⟨n, hn, h2⟩ := h
  simp only [Prod.mk.injEq] at h2
  have hp : p = p.takeWhile isNumberChar ++ r := by
    conv_lhs => rw [← List.takeWhile_append_dropWhile (p := isNumberChar) (l := p)]
    rw [h2.2]
  refine ⟨⟨_, n, hn, hp⟩, ?_⟩
  obtain ⟨c, r', hr', hc⟩ := hr.append s
  rw [show p ++ s = p.takeWhile isNumberChar ++ (r ++ s) by rw [← List.append_assoc, ← hp]]
  rw [parseNumber_text hn (by rw [hr']; intro d hd; simp at hd; rw [← hd]; exact hc), ← h2.1]

theorem parseScalar_extend {p r : List Char} {w : Json} (s : List Char) (h : parseScalar p = some (w, r)) (hr : StopsBefore r) :
    parseScalar (p ++ s) = some (w, r ++ s) := by
  unfold parseScalar at h
  split at h
  · simp only [List.cons_append, parseScalar]; exact parseWord_extend s h
  · simp only [List.cons_append, parseScalar]; exact parseWord_extend s h
  · simp only [List.cons_append, parseScalar]; exact parseWord_extend s h
  · simp only [List.cons_append, parseScalar]; exact parseWord_extend s h
  · simp only [List.cons_append, parseScalar]; exact parseWord_extend s h
  · simp only [List.cons_append, parseScalar]; exact parseWord_extend s h
  · obtain ⟨⟨a, n, ha, hp⟩, h2⟩ := parseNumber_extend s h hr
    rw [← h2, hp, List.append_assoc]
    exact parseScalar_number ha

theorem parseScalar_nil : parseScalar [] = none := rfl

theorem parseValue_nil (n : ℕ) : parseValue n [] = none := by
  cases n with
  | zero => rfl
  | succ n => rfl

/-- more text and more steps do not change what is read -/
theorem parseValue_extend (n : ℕ) {m : ℕ} (hnm : n ≤ m) {p r s : List Char} {w : Json} (h : parseValue n p = some (w, r))
    (hr : StopsBefore r ∨ ∃ t, p = '{' :: t ∨ p = '[' :: t) : parseValue m (p ++ s) = some (w, r ++ s) := by
  induction n generalizing m p r w with
  | zero => simp [parseValue] at h
  | succ n ih =>
    obtain ⟨m, rfl⟩ : ∃ k, m = k + 1 := ⟨m - 1, by omega⟩
    have hv : Extends (parseValue n) (parseValue m) s := fun p w r h hs => ih (by omega) h (.inl hs)
    simp only [parseValue] at h
    split at h
    · rename_i cs
      rw [Option.map_eq_some_iff] at h
      obtain ⟨⟨k, t⟩, h1, h2⟩ := h
      simp only [Prod.mk.injEq] at h2
      simp only [List.cons_append, parseValue, readStringBody_extend s h1, Option.map_some, h2.1, h2.2]
    · rename_i cs
      rw [Option.map_eq_some_iff] at h
      obtain ⟨⟨k, t⟩, h1, h2⟩ := h
      simp only [Prod.mk.injEq] at h2
      simp only [List.cons_append, parseValue, parseItems_extend hv (parseValue_nil n) (by omega : n ≤ m) h1, Option.map_some, h2.1, h2.2]
    · rename_i cs
      rw [Option.map_eq_some_iff] at h
      obtain ⟨⟨k, t⟩, h1, h2⟩ := h
      simp only [Prod.mk.injEq] at h2
      simp only [List.cons_append, parseValue, parsePairs_extend hv (parseValue_nil n) (by omega : n ≤ m) h1, Option.map_some, h2.1, h2.2]
    · rename_i h1 h2 h3
      rcases hr with hr | ⟨t, rfl | rfl⟩
      · have h4 := parseScalar_extend s h hr
        cases p with
        | nil => rw [parseScalar_nil] at h; simp at h
        | cons c cs =>
          rw [List.cons_append] at h4 ⊢
          simp only [parseValue]
          split
          · rename_i heq; exact absurd (by rw [(List.cons.inj heq).1]) (h1 cs)
          · rename_i heq; exact absurd (by rw [(List.cons.inj heq).1]) (h2 cs)
          · rename_i heq; exact absurd (by rw [(List.cons.inj heq).1]) (h3 cs)
          · exact h4
      · exact absurd rfl (h3 t)
      · exact absurd rfl (h2 t)

/-- **C75 (interrupted writing)**: no proper beginning of the text of a dictionary or a list is accepted: a file that was not written to its
end is refused, wherever the writing stopped. -/
theorem C75_interrupted (v : Json) (h : v.Good) (hv : (∃ d, v = .dict d) ∨ ∃ l, v = .list l) (p s : List Char) (hp : v.text = p ++ s)
    (hs : s ≠ []) : loads p = .error .value := by
  cases p with
  | nil => rfl
  | cons c cs =>
    have hc : c = '{' ∨ c = '[' := by
      rcases hv with ⟨d, rfl⟩ | ⟨l, rfl⟩
      · cases d with
        | nil => simp only [Json.text, List.cons_append, List.cons.injEq] at hp; exact .inl hp.1.symm
        | cons q d => simp only [Json.text, List.cons_append, List.cons.injEq] at hp; exact .inl hp.1.symm
      · cases l with
        | nil => simp only [Json.text, List.cons_append, List.cons.injEq] at hp; exact .inr hp.1.symm
        | cons q d => simp only [Json.text, List.cons_append, List.cons.injEq] at hp; exact .inr hp.1.symm
    have hsp : isJsonSpace c = false := by rcases hc with rfl | rfl <;> decide
    unfold loads
    rw [skipSpace_mark c hsp]
    cases hparse : parseValue ((c :: cs).length + 1) (c :: cs) with
    | none => rfl
    | some q =>
      obtain ⟨w, r⟩ := q
      exfalso
      have hlen : (c :: cs).length + 1 ≤ v.text.length + 1 := by rw [hp]; simp
      have h1 := parseValue_extend _ hlen (s := s) hparse (.inr ⟨cs, by rcases hc with rfl | rfl <;> simp⟩)
      rw [← hp] at h1
      have h2 := parse_text_le h le_rfl (rest := []) (by intro c hc; simp at hc)
      rw [List.append_nil, h1] at h2
      simp only [Option.some.injEq, Prod.mk.injEq, List.append_eq_nil_iff] at h2
      exact hs h2.2.2

/-! ## Only printable ASCII -/

/-- Printable ASCII. -/
def Printable (cs : List Char) : Prop := ∀ c ∈ cs, 32 ≤ c.toNat ∧ c.toNat ≤ 126

theorem Printable.append {a b : List Char} (ha : Printable a) (hb : Printable b) : Printable (a ++ b) := by
  intro c hc
  rcases List.mem_append.1 hc with h | h
  · exact ha c h
  · exact hb c h

theorem Printable.cons {c : Char} {b : List Char} (hc : 32 ≤ c.toNat ∧ c.toNat ≤ 126) (hb : Printable b) : Printable (c :: b) := by
  intro d hd
  rcases List.mem_cons.1 hd with h | h
  · rw [h]; exact hc
  · exact hb d h

theorem printable_nil : Printable [] := by intro c hc; simp at hc

theorem AllNumber.printable {cs : List Char} (h : AllNumber cs) : Printable cs := by
  intro c hc
  have := h c hc
  simp only [isNumberChar, isDecDigit, Bool.or_eq_true, Bool.and_eq_true, decide_eq_true_eq, beq_iff_eq] at this
  rcases this with ((((⟨h1, h2⟩ | h) | h) | h) | h) | h
  · rw [Char.le_def, UInt32.le_iff_toNat_le] at h1 h2
    have e1 : ('0' : Char).val.toNat = 48 := rfl
    have e2 : ('9' : Char).val.toNat = 57 := rfl
    rw [e1] at h1
    rw [e2] at h2
    unfold Char.toNat
    omega
  all_goals subst h; decide

theorem hexDigit_printable : ∀ n < 16, 32 ≤ (hexDigit n).toNat ∧ (hexDigit n).toNat ≤ 126 := by decide

theorem unicodeEscape_printable (n : ℕ) : Printable (unicodeEscape n) := by
  have hx : ∀ m : ℕ, 32 ≤ (hexDigit (m % 16)).toNat ∧ (hexDigit (m % 16)).toNat ≤ 126 := fun m =>
    hexDigit_printable _ (Nat.mod_lt _ (by norm_num))
  unfold unicodeEscape
  exact .cons (by decide) (.cons (by decide) (.cons (hx _) (.cons (hx _) (.cons (hx _) (.cons (hx _) printable_nil)))))

theorem escapeChar_printable (c : Char) : Printable (escapeChar c) := by
  unfold escapeChar
  split_ifs with h1 h2 h3 h4 h5 h6 h7 h8 h9
  all_goals first
    | exact .cons (by decide) (.cons (by decide) printable_nil)
    | exact .cons h8 printable_nil
    | exact unicodeEscape_printable _
    | exact (unicodeEscape_printable _).append (unicodeEscape_printable _)

theorem stringText_printable (s : String) : Printable (stringText s) := by
  unfold stringText
  refine .cons (by decide) (.append ?_ (.cons (by decide) printable_nil))
  intro c hc
  rw [List.mem_flatMap] at hc
  obtain ⟨d, -, hd⟩ := hc
  exact escapeChar_printable d c hd

theorem num_printable (x : PyNum) (h : x.Good) : Printable x.text := by
  cases x with
  | int k => exact (readNumberText_number (C74_int k)).printable
  | float q => exact (readNumberText_number (C74_float q h)).printable
  | inf neg => cases neg <;> unfold PyNum.text Printable <;> decide
  | nan => unfold PyNum.text Printable; decide

mutual

/-- see `C75_printable` -/
theorem text_printable : ∀ (v : Json), v.Good → Printable v.text
  | .null, _ => by unfold Json.text Printable; decide
  | .bool true, _ => by unfold Json.text Printable; decide
  | .bool false, _ => by unfold Json.text Printable; decide
  | .num x, h => by rw [Json.text]; exact num_printable x h
  | .str s, _ => by rw [Json.text]; exact stringText_printable s
  | .list [], _ => by unfold Json.text Printable; decide
  | .list (v :: l), h => by
      simp only [Json.Good, GoodItems] at h
      rw [Json.text]
      exact .cons (by decide) ((text_printable v h.1).append (items_printable l h.2))
  | .dict [], _ => by unfold Json.text Printable; decide
  | .dict ((k, v) :: d), h => by
      simp only [Json.Good, GoodPairs] at h
      rw [Json.text]
      exact .cons (by decide) ((stringText_printable k).append (.cons (by decide) (.cons (by decide)
        ((text_printable v h.2.1).append (pairs_printable d h.2.2)))))

/-- see `C75_printable` -/
theorem items_printable : ∀ (l : List Json), GoodItems l → Printable (moreItemsText l)
  | [], _ => by unfold moreItemsText Printable; decide
  | v :: l, h => by
      simp only [GoodItems] at h
      rw [moreItemsText]
      exact .cons (by decide) (.cons (by decide) ((text_printable v h.1).append (items_printable l h.2)))

/-- see `C75_printable` -/
theorem pairs_printable : ∀ (d : List (String × Json)), GoodPairs d → Printable (morePairsText d)
  | [], _ => by unfold morePairsText Printable; decide
  | (k, v) :: d, h => by
      simp only [GoodPairs] at h
      rw [morePairsText]
      exact .cons (by decide) (.cons (by decide) ((stringText_printable k).append (.cons (by decide) (.cons (by decide)
        ((text_printable v h.1).append (pairs_printable d h.2))))))

end

/-- **C75 (printable)**: whatever the names and texts in it, what is written is printable ASCII on one line, so that no encoding or
translation of line ends can change it. -/
theorem C75_printable (v : Json) (h : v.Good) : ∀ c ∈ v.text, 32 ≤ c.toNat ∧ c.toNat ≤ 126 := text_printable v h

/-! ## Cases -/

/-- A value with everything in it. -/
def demoJson : Json :=
  .dict [("fs", .num (.float (1 / 4))), ("n", .num (.int (-3))), ("é\"\\\n", .list [.null, .bool true, .str "😀", .num .nan]),
    ("empty", .dict []), ("", .list [])]

theorem demoJson_good : demoJson.Good := by
  unfold demoJson
  simp only [Json.Good, GoodPairs, GoodItems, PyNum.Good, and_true, true_and]
  exact ⟨by decide, ⟨1, -2, by norm_num, by norm_num, by norm_num, by norm_num [zpow_neg]⟩, by simp⟩

example : demoJson.text =
    "{\"fs\": 0.25, \"n\": -3, \"\\u00e9\\\"\\\\\\n\": [null, true, \"\\ud83d\\ude00\", NaN], \"empty\": {}, \"\": []}".toList := by
  decide +kernel

example : loads demoJson.text = .ok demoJson := loads_text _ demoJson_good

example : loads (demoJson.text.take 40) = .error .value :=
  C75_interrupted demoJson demoJson_good (.inl ⟨_, rfl⟩) _ (demoJson.text.drop 40) (List.take_append_drop _ _).symm (by decide +kernel)

example : loads (demoJson.text ++ "}".toList) = .error .value :=
  C75_trailing_text demoJson demoJson_good _ (fun _ _ => apart_brace []) (by unfold JsonBlank; decide)

end Resistics
