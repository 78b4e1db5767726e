import Verif.Lemmas.Single
import Verif.Props.CalText
import Verif.Props.TimeRead
import Verif.Props.Files

/-!
# C78: recordings as text
-/

namespace Resistics

/-! ## Specification: numbers as text -/

/-- A sign that may be missing; `true` is minus. -/
def signChars : Option Bool → List Char
  | none => []
  | some true => ['-']
  | some false => ['+']

/-- Minus one for the minus sign, else one. -/
def signFactor (s : Option Bool) : ℚ := if s = some true then -1 else 1

/-- A decimal number as it is written: sign, digits, perhaps a point with further digits, perhaps an exponent. -/
structure Decimal where
  sign : Option Bool := none
  whole : List Char
  point : Bool := false
  frac : List Char := []
  /-- the letter, the sign and the digits of the exponent -/
  expo : Option (Char × Option Bool × List Char) := none

/-- The exponent as it is written. -/
def expoChars : Option (Char × Option Bool × List Char) → List Char
  | none => []
  | some (l, s, ds) => l :: (signChars s ++ ds)

/-- The value of an exponent. -/
def expoValue : Option (Char × Option Bool × List Char) → ℤ
  | none => 0
  | some (_, s, ds) => if s = some true then -(digitsValue ds : ℤ) else digitsValue ds

/-- The characters. -/
def Decimal.text (d : Decimal) : List Char :=
  signChars d.sign ++ (d.whole ++ ((if d.point then '.' :: d.frac else []) ++ expoChars d.expo))

/-- The number that is meant. -/
def Decimal.value (d : Decimal) : ℚ :=
  signFactor d.sign * ((digitsValue (d.whole ++ d.frac) : ℚ) * (10 : ℚ) ^ (expoValue d.expo - d.frac.length))

/-- Digits where digits belong, at least one before the exponent, and at least one in the exponent. -/
def Decimal.Legal (d : Decimal) : Prop :=
  AllDigits d.whole ∧ AllDigits d.frac ∧ d.whole ++ d.frac ≠ [] ∧ (d.point = false → d.frac = []) ∧
    ∀ l s ds, d.expo = some (l, s, ds) → (l = 'e' ∨ l = 'E') ∧ AllDigits ds ∧ ds ≠ []

/-- The word is a number, and this is its value: the double nearest to a decimal number, infinity or `nan` in any case. -/
def NumberText (w : List Char) (v : PyNum) : Prop :=
  ∃ t, Trimmed w t ∧ ((∃ d : Decimal, d.Legal ∧ t = d.text ∧ v = toDouble d.value) ∨
    (∃ s name, t = signChars s ++ name ∧ (name.map Char.toLower = "inf".toList ∨ name.map Char.toLower = "infinity".toList) ∧
      v = .inf (decide (s = some true))) ∨
    ∃ s name, t = signChars s ++ name ∧ name.map Char.toLower = "nan".toList ∧ v = .nan)

/-! ## Reading numbers -/

theorem spanDigits_spec (cs : List Char) : cs = (spanDigits cs).1 ++ (spanDigits cs).2 ∧ AllDigits (spanDigits cs).1 ∧
    ∀ c ∈ (spanDigits cs).2.head?, isDecDigit c = false := by
  unfold spanDigits
  rw [List.span_eq_takeWhile_dropWhile]
  refine ⟨(List.takeWhile_append_dropWhile).symm, ?_, ?_⟩
  · intro c hc
    exact mem_takeWhile_pos hc
  · intro c hc
    have := List.head?_dropWhile_not isDecDigit cs
    cases h : (cs.dropWhile isDecDigit).head? with
    | none => simp [h] at hc
    | some x =>
      rw [h] at this
      simp only [h, Option.mem_def, Option.some.injEq] at hc
      subst hc
      simpa using this

theorem readSign_spec (cs : List Char) : ∃ s, cs = signChars s ++ (readSign cs).2 ∧ (readSign cs).1 = decide (s = some true) ∧
    (s = none → ∀ c ∈ cs.head?, c ≠ '-' ∧ c ≠ '+') := by
  unfold readSign
  split
  · exact ⟨some true, rfl, rfl, by simp⟩
  · exact ⟨some false, rfl, rfl, by simp⟩
  · rename_i h1 h2
    refine ⟨none, rfl, rfl, ?_⟩
    intro _ c hc
    cases cs with
    | nil => simp at hc
    | cons a cs =>
      simp only [List.head?_cons, Option.mem_def, Option.some.injEq] at hc
      subst hc
      exact ⟨fun h => h1 cs (by rw [h]), fun h => h2 cs (by rw [h])⟩

theorem readSign_signChars (s : Option Bool) {cs : List Char} (h : ∀ c ∈ cs.head?, c ≠ '-' ∧ c ≠ '+') :
    readSign (signChars s ++ cs) = (decide (s = some true), cs) := by
  rcases s with _ | _ | _
  · exact readSign_other h
  · rfl
  · rfl

theorem digit_head {ds rest : List Char} (h : AllDigits ds) (hne : ds ≠ []) : ∀ c ∈ (ds ++ rest).head?, isDecDigit c = true := by
  cases ds with
  | nil => simp at hne
  | cons a ds =>
    intro c hc
    simp only [List.cons_append, List.head?_cons, Option.mem_def, Option.some.injEq] at hc
    exact h c (by simp [hc])

theorem digit_not_sign {c : Char} (h : isDecDigit c = true) : c ≠ '-' ∧ c ≠ '+' := by
  constructor <;> (rintro rfl; exact absurd h (by decide))

theorem readExponent_spec {cs : List Char} {e : Option ℤ} (h : readExponent cs = some (e, [])) :
    ∃ x, cs = expoChars x ∧ e.getD 0 = expoValue x ∧
      ∀ l s ds, x = some (l, s, ds) → (l = 'e' ∨ l = 'E') ∧ AllDigits ds ∧ ds ≠ [] := by
  have key : ∀ (l : Char) (cs : List Char), (l = 'e' ∨ l = 'E') → exponentDigits (readSign cs) = some (e, []) →
      ∃ x, l :: cs = expoChars x ∧ e.getD 0 = expoValue x ∧
        ∀ l s ds, x = some (l, s, ds) → (l = 'e' ∨ l = 'E') ∧ AllDigits ds ∧ ds ≠ [] := by
    intro l cs hl h
    obtain ⟨s, h1, h2, -⟩ := readSign_spec cs
    obtain ⟨g1, g2, -⟩ := spanDigits_spec (readSign cs).2
    unfold exponentDigits at h
    split at h
    · exact absurd h (by simp)
    · rename_i hne
      simp only [Option.some.injEq, Prod.mk.injEq] at h
      rw [h.2, List.append_nil] at g1
      refine ⟨some (l, s, (readSign cs).2), ?_, ?_, ?_⟩
      · rw [expoChars, ← h1]
      · rw [← h.1, expoValue, Option.getD_some, h2, ← g1]
        simp
      · intro l' s' ds' heq
        simp only [Option.some.injEq, Prod.mk.injEq] at heq
        obtain ⟨rfl, rfl, rfl⟩ := heq
        refine ⟨hl, ?_, ?_⟩
        · rw [g1]; exact g2
        · rw [g1]; exact hne
  unfold readExponent at h
  split at h
  · exact key _ _ (Or.inl rfl) h
  · exact key _ _ (Or.inr rfl) h
  · simp only [Option.some.injEq, Prod.mk.injEq] at h
    exact ⟨none, by rw [h.2]; rfl, by rw [← h.1]; rfl, by simp⟩

theorem readExponent_expoChars {x : Option (Char × Option Bool × List Char)}
    (h : ∀ l s ds, x = some (l, s, ds) → (l = 'e' ∨ l = 'E') ∧ AllDigits ds ∧ ds ≠ []) :
    ∃ e, readExponent (expoChars x) = some (e, []) ∧ e.getD 0 = expoValue x := by
  rcases x with _ | ⟨l, s, ds⟩
  · exact ⟨none, rfl, rfl⟩
  · obtain ⟨hl, hd, hne⟩ := h l s ds rfl
    have hr : readExponent (l :: (signChars s ++ ds)) = exponentDigits (readSign (signChars s ++ ds)) := by
      rcases hl with rfl | rfl <;> rfl
    have hs : readSign (signChars s ++ ds) = (decide (s = some true), ds) :=
      readSign_signChars s fun c hc => digit_not_sign (digit_head (rest := []) hd hne c (by simpa using hc))
    rw [expoChars, hr, hs]
    unfold exponentDigits
    rw [spanDigits_all hd]
    simp only [if_neg hne]
    exact ⟨_, rfl, by simp [expoValue]⟩

theorem readPoint_spec (cs : List Char) (hc : ∀ c ∈ cs.head?, isDecDigit c = false) :
    ∃ point, cs = (if point then '.' :: (readPoint cs).1 else []) ++ (readPoint cs).2 ∧ AllDigits (readPoint cs).1 ∧
      (point = false → (readPoint cs).1 = []) := by
  unfold readPoint
  split
  · rename_i cs
    obtain ⟨h1, h2, -⟩ := spanDigits_spec cs
    exact ⟨true, by simpa using h1, h2, by simp⟩
  · exact ⟨false, rfl, by intro c hc; simp at hc, fun _ => rfl⟩

theorem expoChars_head {x : Option (Char × Option Bool × List Char)}
    (h : ∀ l s ds, x = some (l, s, ds) → (l = 'e' ∨ l = 'E') ∧ AllDigits ds ∧ ds ≠ []) :
    ∀ c ∈ (expoChars x).head?, isDecDigit c = false ∧ c ≠ '.' := by
  rcases x with _ | ⟨l, s, ds⟩
  · simp [expoChars]
  · intro c hc
    simp only [expoChars, List.head?_cons, Option.mem_def, Option.some.injEq] at hc
    subst hc
    rcases (h l s ds rfl).1 with rfl | rfl <;> decide

/-- What is read after the sign. -/
theorem readDecimal_iff (neg : Bool) (cs : List Char) (v : PyNum) : readDecimal neg cs = some v ↔
    ∃ d : Decimal, d.Legal ∧ d.sign = none ∧ cs = d.text ∧ v = toDouble ((if neg then -1 else 1) * d.value) := by
  constructor
  · intro h
    unfold readDecimal at h
    obtain ⟨h1, h2, h3⟩ := spanDigits_spec cs
    obtain ⟨point, h4, h5, h6⟩ := readPoint_spec (spanDigits cs).2 h3
    simp only [bind, Option.bind, guard, pure] at h
    by_cases hg : (spanDigits cs).1 ++ (readPoint (spanDigits cs).2).1 ≠ []
    swap
    · rw [if_neg hg] at h
      exact absurd h (by simp)
    rw [if_pos hg] at h
    simp only at h
    cases hq : readExponent (readPoint (spanDigits cs).2).2 with
    | none => rw [hq] at h; exact absurd h (by simp)
    | some q =>
      rw [hq] at h
      obtain ⟨e, rest⟩ := q
      simp only at h
      by_cases hr : rest = []
      swap
      · rw [if_neg hr] at h
        exact absurd h (by simp)
      rw [if_pos hr] at h
      subst hr
      obtain ⟨x, h7, h8, h9⟩ := readExponent_spec hq
      refine ⟨{ whole := (spanDigits cs).1, point := point, frac := (readPoint (spanDigits cs).2).1, expo := x },
        ⟨h2, h5, hg, h6, h9⟩, rfl, ?_, ?_⟩
      · simp only [Decimal.text, signChars, List.nil_append]
        rw [← h7, ← h4]
        exact h1
      · rw [← Option.some.inj h]
        simp only [Decimal.value, signFactor, decimalValue, h8, reduceCtorEq, if_false, one_mul]
  · rintro ⟨d, ⟨h1, h2, h3, h4, h5⟩, hs, rfl, rfl⟩
    obtain ⟨e, he, hev⟩ := readExponent_expoChars h5
    have hx := expoChars_head h5
    have hspan : spanDigits (d.text) = (d.whole, (if d.point then '.' :: d.frac else []) ++ expoChars d.expo) := by
      rw [Decimal.text, hs, signChars, List.nil_append]
      apply spanDigits_append h1
      intro c hc
      cases hp : d.point with
      | true => simp [hp] at hc; subst hc; decide
      | false => exact (hx c (by simpa [hp] using hc)).1
    have hpoint : readPoint ((if d.point then '.' :: d.frac else []) ++ expoChars d.expo) = (d.frac, expoChars d.expo) := by
      cases hp : d.point with
      | true =>
        simp only [if_true, List.cons_append, readPoint]
        exact spanDigits_append h2 fun c hc => (hx c hc).1
      | false =>
        simp only [Bool.false_eq_true, if_false, List.nil_append, h4 hp]
        generalize expoChars d.expo = t at hx
        unfold readPoint
        split
        · exact absurd rfl (hx '.' (by simp)).2
        · rfl
    unfold readDecimal
    simp only [hspan, hpoint, guard, if_pos h3, he, bind, Option.bind, pure, if_true, hev, decimalValue]
    simp only [Decimal.value, hs, signFactor, reduceCtorEq, if_false, one_mul]

theorem stripSpace_trimmed (cs : List Char) : Trimmed cs (stripSpace cs) := by
  have h := trimmed_strip (String.ofList cs)
  simpa [pyStrip, stripSpace] using h

theorem digit_lower {c : Char} (h : isDecDigit c = true) : c.toLower = c := by
  unfold isDecDigit at h
  simp only [Bool.and_eq_true, decide_eq_true_eq] at h
  unfold Char.toLower
  rw [dif_neg]
  intro hc
  have h1 : c.val ≤ '9'.val := h.2
  have h2 : 'A'.val ≤ c.val := hc.1
  exact absurd (UInt32.le_trans h2 h1) (by decide)

/-- A legal decimal number starts with a digit or a point, after its sign. -/
theorem decimal_head {d : Decimal} (h : d.Legal) (hs : d.sign = none) : ∃ c cs, d.text = c :: cs ∧ (isDecDigit c = true ∨ c = '.') := by
  obtain ⟨h1, h2, h3, h4, -⟩ := h
  unfold Decimal.text
  rw [hs, signChars, List.nil_append]
  cases hw : d.whole with
  | cons a w => exact ⟨a, _, rfl, Or.inl (h1 a (by rw [hw]; simp))⟩
  | nil =>
    cases hp : d.point with
    | true => exact ⟨'.', _, rfl, Or.inr rfl⟩
    | false => rw [hw, h4 hp] at h3; simp at h3

theorem decimal_not_name {d : Decimal} (h : d.Legal) (hs : d.sign = none) (name : List Char) (hn : ∀ c ∈ name.head?, c = 'i' ∨ c = 'n') : d.text.map Char.toLower ≠ name := by
  obtain ⟨c, cs, hc, hd⟩ := decimal_head h hs
  rw [hc]
  intro heq
  have h1 := hn c.toLower (by rw [← heq]; simp)
  rcases hd with hd | rfl
  · rw [digit_lower hd] at h1
    rcases h1 with rfl | rfl <;> exact absurd hd (by decide)
  · exact absurd h1 (by decide)

/-- **C78 (numbers)**: a word is read as a number exactly if it is one, with blanks around it: then as the double nearest to the decimal
number it says, or as infinity or `nan`. -/
theorem C78_number (w : List Char) (v : PyNum) : readWord w = some v ↔ NumberText w v := by
  have htrim := stripSpace_trimmed w
  constructor
  · intro h
    refine ⟨_, htrim, ?_⟩
    unfold readWord at h
    generalize stripSpace w = t at h
    obtain ⟨s, h1, h2, -⟩ := readSign_spec t
    unfold readUnsigned at h
    by_cases hi : (readSign t).2.map Char.toLower = "inf".toList ∨ (readSign t).2.map Char.toLower = "infinity".toList
    · rw [if_pos hi] at h
      exact Or.inr (Or.inl ⟨s, _, h1, hi, by rw [← Option.some.inj h, h2]⟩)
    rw [if_neg hi] at h
    by_cases hn : (readSign t).2.map Char.toLower = "nan".toList
    · rw [if_pos hn] at h
      exact Or.inr (Or.inr ⟨s, _, h1, hn, (Option.some.inj h).symm⟩)
    rw [if_neg hn] at h
    obtain ⟨d, hd, hds, ht, hv⟩ := (readDecimal_iff _ _ _).1 h
    refine Or.inl ⟨{ d with sign := s }, hd, ?_, ?_⟩
    · rw [h1, ht]
      simp [Decimal.text, hds, signChars]
    · rw [hv, h2]
      simp only [Decimal.value, signFactor, hds, decide_eq_true_eq, reduceCtorEq, if_false, one_mul]
  · rintro ⟨t, ht, hcase⟩
    have := htrim.unique ht
    unfold readWord
    rw [this]
    have name_head : ∀ (s : Option Bool) (name : List Char) (n : String), name.map Char.toLower = n.toList →
        (∀ c ∈ n.toList.head?, c = 'i' ∨ c = 'n') → readSign (signChars s ++ name) = (decide (s = some true), name) := by
      intro s name n hn hh
      apply readSign_signChars
      intro c hc
      have := hh c.toLower (by rw [← hn, List.head?_map, Option.mem_def, Option.mem_def.1 hc]; rfl)
      constructor <;> (rintro rfl; revert this; decide)
    rcases hcase with ⟨d, hd, rfl, rfl⟩ | ⟨s, name, rfl, hn, rfl⟩ | ⟨s, name, rfl, hn, rfl⟩
    · set d' : Decimal := { d with sign := none } with hd'
      have hl : d'.Legal := hd
      have htext : d.text = signChars d.sign ++ d'.text := by simp [Decimal.text, hd', signChars]
      have hsign : readSign d.text = (decide (d.sign = some true), d'.text) := by
        rw [htext]
        apply readSign_signChars
        obtain ⟨c, cs, hc, hdig⟩ := decimal_head hl rfl
        rw [hc]
        intro x hx
        simp only [List.head?_cons, Option.mem_def, Option.some.injEq] at hx
        subst hx
        rcases hdig with h | rfl
        · exact digit_not_sign h
        · decide
      rw [hsign]
      unfold readUnsigned
      rw [if_neg, if_neg]
      · refine (readDecimal_iff _ _ _).2 ⟨d', hl, rfl, rfl, ?_⟩
        simp [Decimal.value, signFactor, hd']
      · exact decimal_not_name hl rfl _ (by decide)
      · rintro (h | h)
        · exact decimal_not_name hl rfl _ (by decide) h
        · exact decimal_not_name hl rfl _ (by decide) h
    · have hs : readSign (signChars s ++ name) = (decide (s = some true), name) := by
        rcases hn with hn | hn
        · exact name_head s name _ hn (by decide)
        · exact name_head s name _ hn (by decide)
      rw [hs]
      unfold readUnsigned
      rw [if_pos hn]
    · rw [name_head s name _ hn (by decide)]
      unfold readUnsigned
      simp only
      rw [if_neg, if_pos hn]
      rw [hn]
      decide

/-! ## Numbers as they are written -/

/-- The characters of decimal numbers. -/
def numChars : List Char := "0123456789+-.eE".toList

theorem digit_numChar {c : Char} (h : isDecDigit c = true) : c ∈ numChars := by
  have h1 : 48 ≤ c.toNat ∧ c.toNat ≤ 57 := by
    unfold isDecDigit at h
    simp only [Bool.and_eq_true, decide_eq_true_eq] at h
    exact ⟨h.1, h.2⟩
  have h2 : c = Char.ofNat c.toNat := (Char.ofNat_toNat c).symm
  have h3 : ∀ n : Fin 10, Char.ofNat (48 + n.val) ∈ numChars := by decide
  have := h3 ⟨c.toNat - 48, by omega⟩
  rw [h2]
  convert this using 2
  simp only
  omega

theorem signChars_numChars (s : Option Bool) : ∀ c ∈ signChars s, c ∈ numChars := by
  rcases s with _ | _ | _ <;> decide

theorem decimal_chars {d : Decimal} (h : d.Legal) : ∀ c ∈ d.text, c ∈ numChars := by
  obtain ⟨h1, h2, -, -, h5⟩ := h
  intro c hc
  simp only [Decimal.text, List.mem_append] at hc
  rcases hc with hc | hc | hc | hc
  · exact signChars_numChars _ c hc
  · exact digit_numChar (h1 c hc)
  · cases hp : d.point with
    | false => simp [hp] at hc
    | true =>
      simp only [hp, if_true, List.mem_cons] at hc
      rcases hc with rfl | hc
      · decide
      · exact digit_numChar (h2 c hc)
  · rcases hx : d.expo with _ | ⟨l, s, ds⟩
    · rw [hx] at hc; simp [expoChars] at hc
    · rw [hx] at hc
      obtain ⟨hl, hd, -⟩ := h5 l s ds hx
      simp only [expoChars, List.mem_cons, List.mem_append] at hc
      rcases hc with rfl | hc | hc
      · rcases hl with rfl | rfl <;> decide
      · exact signChars_numChars _ c hc
      · exact digit_numChar (hd c hc)

theorem numChar_not_space {c : Char} (h : c ∈ numChars) : isSpace c = false ∧ c ≠ '#' ∧ c ≠ '\n' ∧ c ≠ '\r' := by
  have : ∀ c ∈ numChars, isSpace c = false ∧ c ≠ '#' ∧ c ≠ '\n' ∧ c ≠ '\r' := by decide
  exact this c h

theorem trimmed_self {t : List Char} (h : ∀ c ∈ t, isSpace c = false) : Trimmed t t :=
  ⟨[], [], by simp, by simp [Blank], by simp [Blank], fun c hc => h c (List.mem_of_mem_head? hc), fun c hc => h c (List.mem_of_mem_getLast? hc)⟩

theorem NumberText.decimal {d : Decimal} (h : d.Legal) : NumberText d.text (toDouble d.value) :=
  ⟨_, trimmed_self fun c hc => (numChar_not_space (decimal_chars h c hc)).1, Or.inl ⟨d, h, rfl, rfl⟩⟩

/-- A number as a floating point number. -/
def asFloat : PyNum → PyNum
  | .int n => toDouble n
  | v => v

theorem readMinus_spec (cs : List Char) : cs = signChars (if (readMinus cs).1 then some true else none) ++ (readMinus cs).2 := by
  unfold readMinus
  split <;> simp [signChars]

theorem readFraction_spec {cs rest : List Char} {f : Option (List Char)} (h : readFraction cs = some (f, rest)) :
    cs = (if f.isSome then '.' :: f.getD [] else []) ++ rest ∧ AllDigits (f.getD []) := by
  unfold readFraction at h
  split at h
  · rename_i cs
    obtain ⟨h1, h2, -⟩ := spanDigits_spec cs
    split at h
    · exact absurd h (by simp)
    · simp only [Option.some.injEq, Prod.mk.injEq] at h
      obtain ⟨rfl, rfl⟩ := h
      exact ⟨by simpa using h1, h2⟩
  · simp only [Option.some.injEq, Prod.mk.injEq] at h
    obtain ⟨rfl, rfl⟩ := h
    exact ⟨by simp, by intro c hc; simp at hc⟩

/-- The numbers of JSON are numbers. -/
theorem json_number {cs : List Char} {v : PyNum} (h : readNumberText cs = some v) :
    ∃ d : Decimal, d.Legal ∧ cs = d.text ∧ asFloat v = toDouble d.value := by
  unfold readNumberText at h
  have h0 := readMinus_spec cs
  generalize hm : readMinus cs = m at h h0
  obtain ⟨neg, c1⟩ := m
  obtain ⟨h1, h2, -⟩ := spanDigits_spec c1
  simp only [bind, Option.bind, guard, pure] at h
  generalize hsp : spanDigits c1 = sp at h h1 h2
  obtain ⟨whole, c2⟩ := sp
  simp only at h h1 h2 h0
  by_cases hg : goodWhole whole = true
  swap
  · rw [if_neg hg] at h; exact absurd h (by simp)
  rw [if_pos hg] at h
  simp only at h
  cases hf : readFraction c2 with
  | none => rw [hf] at h; exact absurd h (by simp)
  | some q =>
    obtain ⟨f, c3⟩ := q
    rw [hf] at h
    simp only at h
    obtain ⟨h3, h4⟩ := readFraction_spec hf
    cases hx : readExponent c3 with
    | none => rw [hx] at h; exact absurd h (by simp)
    | some q =>
      obtain ⟨e, c4⟩ := q
      rw [hx] at h
      simp only at h
      by_cases hr : c4 = []
      swap
      · rw [if_neg hr] at h; exact absurd h (by simp)
      rw [if_pos hr] at h
      subst hr
      obtain ⟨x, h7, h8, h9⟩ := readExponent_spec hx
      have hw : whole ≠ [] := by rintro rfl; simp [goodWhole] at hg
      refine ⟨{ sign := if neg then some true else none, whole := whole, point := f.isSome, frac := f.getD [], expo := x },
        ⟨h2, h4, by simp [hw], ?_, h9⟩, ?_, ?_⟩
      · intro hs
        cases f with
        | none => rfl
        | some f => simp at hs
      · simp only [Decimal.text]
        rw [h0, h1, h3, h7]
      · rw [← Option.some.inj h]
        have hsf : signFactor (if neg = true then some true else none) = if neg = true then -1 else 1 := by
          cases neg <;> simp [signFactor]
        unfold numberOf
        split
        · rename_i hnn
          obtain ⟨rfl, rfl⟩ := hnn
          have hx0 : expoValue x = 0 := by rw [← h8]; rfl
          simp only [asFloat, Decimal.value, hsf, hx0, Option.getD_none, List.append_nil, List.length_nil]
          congr 1
          cases neg <;> simp
        · have hnf : ∀ y, asFloat (toDouble y) = toDouble y := by
            intro y; unfold toDouble; split <;> rfl
          simp only [hnf, decimalValue, Decimal.value, hsf, h8]

/-- **C78 (Python's numbers)**: the text Python writes for a whole number or a finite double is read as that number. -/
theorem C78_python_numbers : (∀ q, IsDouble q → NumberText (floatText q) (.float q)) ∧
    ∀ n : ℤ, |n| ≤ 2 ^ 53 → NumberText (intText n) (.float n) := by
  constructor
  · intro q hq
    obtain ⟨d, hd, ht, hv⟩ := json_number (C74_float q hq)
    rw [ht, show (PyNum.float q) = toDouble d.value from hv]
    exact NumberText.decimal hd
  · intro n hn
    obtain ⟨d, hd, ht, hv⟩ := json_number (C74_int n)
    rw [ht, ← C74_int_as_float n hn, show toDouble (n : ℚ) = toDouble d.value from hv]
    exact NumberText.decimal hd

/-! ## Six decimals -/

theorem digitChar_digit {k : ℕ} (h : k < 10) : isDecDigit (Nat.digitChar k) = true ∧ (Nat.digitChar k).toNat - '0'.toNat = k := by
  have : ∀ k : Fin 10, isDecDigit (Nat.digitChar k.val) = true ∧ (Nat.digitChar k.val).toNat - '0'.toNat = k.val := by decide
  exact this ⟨k, h⟩

theorem sixDigits_spec (n : ℕ) : AllDigits (sixDigits n).toList ∧ (sixDigits n).toList.length = 6 ∧
    digitsValue (sixDigits n).toList = n % 1000000 := by
  have e : (sixDigits n).toList = [Nat.digitChar (n / 100000 % 10), Nat.digitChar (n / 10000 % 10), Nat.digitChar (n / 1000 % 10),
    Nat.digitChar (n / 100 % 10), Nat.digitChar (n / 10 % 10), Nat.digitChar (n % 10)] := by simp [sixDigits]
  rw [e]
  have hlt : ∀ m : ℕ, m % 10 < 10 := fun m => Nat.mod_lt _ (by norm_num)
  refine ⟨?_, rfl, ?_⟩
  · intro c hc
    simp only [List.mem_cons, List.not_mem_nil, or_false] at hc
    rcases hc with rfl | rfl | rfl | rfl | rfl | rfl <;> exact (digitChar_digit (hlt _)).1
  · simp only [digitsValue, List.foldl_cons, List.foldl_nil, (digitChar_digit (hlt _)).2]
    omega

/-- The decimal number `"%.6f"` writes. -/
def fixedDecimal (x : ℚ) : Decimal where
  sign := if x < 0 then some true else none
  whole := Nat.toDigits 10 ((pyRound (|x| * 1000000)).toNat / 1000000)
  point := true
  frac := (sixDigits (pyRound (|x| * 1000000)).toNat).toList

theorem toDigits_ne_nil (n : ℕ) : Nat.toDigits 10 n ≠ [] := by
  intro h
  have := Nat.length_toDigits_pos (b := 10) (n := n)
  rw [h] at this
  simp at this

theorem fixedDecimal_legal (x : ℚ) : (fixedDecimal x).Legal ∧ (fixedDecimal x).text = fixedText x := by
  refine ⟨⟨allDigits_toDigits _, (sixDigits_spec _).1, ?_, by simp [fixedDecimal], by simp [fixedDecimal]⟩, ?_⟩
  · simp [fixedDecimal]
  · unfold Decimal.text fixedDecimal fixedText
    split <;> simp [signChars, expoChars]

theorem fixedDecimal_value (x : ℚ) : (fixedDecimal x).value = (if x < 0 then -1 else 1) * ((pyRound (|x| * 1000000)).toNat / 1000000 : ℚ) := by
  unfold Decimal.value fixedDecimal
  obtain ⟨-, h2, h3⟩ := sixDigits_spec (pyRound (|x| * 1000000)).toNat
  simp only [digitsValue_append, digitsValue_toDigits, h2, h3, expoValue]
  generalize (pyRound (|x| * 1000000)).toNat = n
  rw [show n / 1000000 * 10 ^ 6 + n % 1000000 = n by omega]
  congr 1
  split <;> simp [signFactor]

/-- the value is a nearest multiple of a millionth -/
theorem fixedDecimal_near (x : ℚ) : |(fixedDecimal x).value - x| ≤ 1 / 2000000 := by
  rw [fixedDecimal_value]
  have hn := pyRound_near (|x| * 1000000)
  have h0 : 0 ≤ pyRound (|x| * 1000000) := by
    rw [abs_le] at hn
    have : (-1 : ℚ) < (pyRound (|x| * 1000000) : ℚ) := by
      have : 0 ≤ |x| * 1000000 := by positivity
      linarith [hn.1]
    have : (-1 : ℤ) < pyRound (|x| * 1000000) := by exact_mod_cast this
    omega
  have hc : ((pyRound (|x| * 1000000)).toNat : ℚ) = (pyRound (|x| * 1000000) : ℚ) := by
    exact_mod_cast Int.toNat_of_nonneg h0
  rw [hc]
  rw [abs_le] at hn ⊢
  split
  · rename_i hx
    rw [abs_of_neg hx] at hn ⊢
    constructor <;> linarith [hn.1, hn.2]
  · rename_i hx
    rw [abs_of_nonneg (not_lt.1 hx)] at hn ⊢
    constructor <;> linarith [hn.1, hn.2]

/-! ## Specification: lines and files -/

/-- The line is the fields with the delimiter between them. -/
inductive Fields (d : Char) : List Char → List (List Char) → Prop
  | one (w : List Char) (h : d ∉ w) : Fields d w [w]
  | more (w rest : List Char) (ws : List (List Char)) (h : d ∉ w) (hr : Fields d rest ws) : Fields d (w ++ d :: rest) (w :: ws)

/-- The words of what is on a line before a comment: separated by blanks, or by the delimiter. -/
def WordsOf (delimiter : Option Char) (bare : List Char) (ws : List (List Char)) : Prop :=
  match delimiter with
  | none => Words bare (ws.map String.ofList)
  | some d => (bare = [] ∧ ws = []) ∨ (bare ≠ [] ∧ Fields d bare ws)

/-- The words of a line; what follows `#` is a comment. -/
def LineWords (delimiter : Option Char) (line : List Char) (ws : List (List Char)) : Prop :=
  ∃ bare comment, line = bare ++ comment ∧ '#' ∉ bare ∧ (∀ c ∈ comment.head?, c = '#') ∧ WordsOf delimiter bare ws

/-- A line with the numbers of one sample. -/
def SampleLine (delimiter : Option Char) (line : List Char) (xs : List PyNum) : Prop :=
  ∃ ws, LineWords delimiter line ws ∧ List.Forall₂ NumberText ws xs

/-- The lines of a file, each ended by a newline: that of Unix, of Windows or of old Macs. -/
inductive IsNewline : List Char → Prop
  | unix : IsNewline ['\n']
  | windows : IsNewline ['\r', '\n']
  | mac : IsNewline ['\r']

/-- A text of lines; the last one may have no newline. -/
def TextOf (text : List Char) (lines : List (List Char)) : Prop :=
  (∀ l ∈ lines, '\n' ∉ l ∧ '\r' ∉ l) ∧ ∃ eol, IsNewline eol ∧
    (text = lines.flatMap (fun l => l ++ eol) ∨
      ∃ init last, lines = init ++ [last] ∧ last ≠ [] ∧ text = init.flatMap (fun l => l ++ eol) ++ last)

/-! ## Lines -/

theorem linesFrom_run (cur w cs : List Char) (hw : '\n' ∉ w ∧ '\r' ∉ w) : linesFrom cur (w ++ cs) = linesFrom (w.reverse ++ cur) cs := by
  induction w generalizing cur with
  | nil => rfl
  | cons a w ih =>
    have ha : a ≠ '\n' ∧ a ≠ '\r' := ⟨fun h => hw.1 (by simp [h]), fun h => hw.2 (by simp [h])⟩
    rw [List.cons_append, linesFrom]
    · rw [ih _ ⟨fun h => hw.1 (by simp [h]), fun h => hw.2 (by simp [h])⟩]
      simp
    · intro cs' h; exact absurd h ha.2
    · intro h; exact absurd h ha.2
    · intro h; exact absurd h ha.1

theorem linesFrom_eol {eol : List Char} (h : IsNewline eol) (cur cs : List Char) (hcs : cs.head? ≠ some '\n') :
    linesFrom cur (eol ++ cs) = cur.reverse :: linesFrom [] cs := by
  cases h with
  | unix => rfl
  | windows => rfl
  | mac =>
    cases cs with
    | nil => rfl
    | cons a cs =>
      simp only [List.head?_cons, ne_eq, Option.some.injEq] at hcs
      show linesFrom cur ('\r' :: a :: cs) = _
      rw [linesFrom]
      intro cs' h
      simp only [List.cons.injEq] at h
      exact absurd h.1 hcs

theorem lines_head {eol : List Char} (h : IsNewline eol) (ls : List (List Char)) (hl : ∀ l ∈ ls, '\n' ∉ l ∧ '\r' ∉ l) (rest : List Char)
    (hrest : rest.head? ≠ some '\n') (he : eol.head? ≠ some '\n') :
    (ls.flatMap (fun l => l ++ eol) ++ rest).head? ≠ some '\n' := by
  cases ls with
  | nil => simpa using hrest
  | cons l ls =>
    cases l with
    | cons a l =>
      simp only [List.flatMap_cons, List.cons_append, List.head?_cons, ne_eq, Option.some.injEq]
      rintro rfl
      exact (hl ('\n' :: l) (by simp)).1 (by simp)
    | nil =>
      cases eol with
      | nil => cases h
      | cons a eol => simpa using he

/-- only the newline of Unix starts with a newline, and it needs nothing of what follows -/
theorem linesFrom_eol' {eol : List Char} (h : IsNewline eol) (cur : List Char) (ls : List (List Char))
    (hl : ∀ l ∈ ls, '\n' ∉ l ∧ '\r' ∉ l) (rest : List Char) (hrest : rest.head? ≠ some '\n') :
    linesFrom cur (eol ++ (ls.flatMap (fun l => l ++ eol) ++ rest)) =
      cur.reverse :: linesFrom [] (ls.flatMap (fun l => l ++ eol) ++ rest) := by
  cases h with
  | unix => rfl
  | windows => rfl
  | mac => exact linesFrom_eol .mac _ _ (lines_head .mac ls hl rest hrest (by decide))

theorem textLines_eq {text : List Char} {lines : List (List Char)} (h : TextOf text lines) : textLines text = lines := by
  obtain ⟨hl, eol, he, hcase⟩ := h
  have key : ∀ (ls : List (List Char)) (rest : List Char), (∀ l ∈ ls, '\n' ∉ l ∧ '\r' ∉ l) → rest.head? ≠ some '\n' →
      linesFrom [] (ls.flatMap (fun l => l ++ eol) ++ rest) = ls ++ linesFrom [] rest := by
    intro ls
    induction ls with
    | nil => intro rest _ _; rfl
    | cons l ls ih =>
      intro rest hls hrest
      rw [List.flatMap_cons, List.append_assoc, List.append_assoc, linesFrom_run _ _ _ (hls l (by simp)),
        linesFrom_eol' he _ _ (fun x hx => hls x (by simp [hx])) _ hrest, ih _ (fun x hx => hls x (by simp [hx])) hrest]
      simp
  unfold textLines
  rcases hcase with rfl | ⟨init, last, rfl, hne, rfl⟩
  · have := key lines [] hl (by simp)
    rw [List.append_nil] at this
    rw [this, linesFrom]
    simp
  · have hlast := hl last (by simp)
    have hh : last.head? ≠ some '\n' := fun h => hlast.1 (List.mem_of_mem_head? h)
    rw [key init last (fun l hm => hl l (by simp [hm])) hh]
    have := linesFrom_run [] last [] hlast
    rw [List.append_nil] at this
    rw [this, linesFrom, if_neg (by simpa using hne)]
    simp

theorem splitAtChar_fields {d : Char} {s : List Char} {ws : List (List Char)} (h : Fields d s ws) : splitAtChar d [] s = ws := by
  have run : ∀ (w cur rest : List Char), d ∉ w → splitAtChar d cur (w ++ rest) = splitAtChar d (w.reverse ++ cur) rest := by
    intro w
    induction w with
    | nil => intro cur rest _; rfl
    | cons a w ih =>
      intro cur rest hw
      rw [List.cons_append, splitAtChar, if_neg (fun h => hw (by simp [h])), ih _ _ (fun h => hw (by simp [h]))]
      simp
  induction h with
  | one w hw =>
    have := run w [] [] hw
    rw [List.append_nil] at this
    rw [this]
    simp [splitAtChar]
  | more w rest ws hw _ ih =>
    rw [run w [] _ hw, splitAtChar, if_pos rfl, ih]
    simp

theorem splitAtChar_spec (d : Char) (cur s : List Char) (hc : d ∉ cur) : Fields d (cur.reverse ++ s) (splitAtChar d cur s) := by
  induction s generalizing cur with
  | nil =>
    rw [List.append_nil, splitAtChar]
    exact .one _ (by simpa using hc)
  | cons a s ih =>
    rw [splitAtChar]
    split
    · rename_i h
      subst h
      exact .more _ _ _ (by simpa using hc) (by simpa using ih [] (by simp))
    · rename_i h
      have := ih (a :: cur) (by simp only [List.mem_cons, not_or]; exact ⟨fun he => h he.symm, hc⟩)
      simpa using this

theorem splitBare_iff (delimiter : Option Char) (bare : List Char) (ws : List (List Char)) :
    splitBare delimiter bare = ws ↔ WordsOf delimiter bare ws := by
  cases delimiter with
  | none =>
    simp only [splitBare, WordsOf]
    have h := pySplit_iff (String.ofList bare) (ws.map String.ofList)
    simp only [pySplit, String.toList_ofList] at h
    rw [← h]
    constructor
    · rintro rfl
      simp
    · intro h
      rw [h]
      simp
  | some d =>
    simp only [splitBare, WordsOf]
    by_cases hb : bare = []
    · simp [hb, eq_comm]
    · rw [if_neg hb]
      constructor
      · rintro rfl
        exact Or.inr ⟨hb, by simpa using splitAtChar_spec d [] bare (by simp)⟩
      · rintro (h | h)
        · exact absurd h.1 hb
        · exact splitAtChar_fields h.2

theorem takeWhile_comment {bare comment : List Char} (h1 : '#' ∉ bare) (h2 : ∀ c ∈ comment.head?, c = '#') :
    (bare ++ comment).takeWhile (fun c => c ≠ '#') = bare := by
  rw [List.takeWhile_append_of_pos (fun c hc => by
    simp only [ne_eq, decide_eq_true_eq]; rintro rfl; exact h1 hc)]
  cases comment with
  | nil => simp
  | cons a c => simp [h2 a (by simp)]

theorem splitLine_iff (delimiter : Option Char) (line : List Char) (ws : List (List Char)) :
    splitLine delimiter line = ws ↔ LineWords delimiter line ws := by
  unfold splitLine LineWords
  rw [splitBare_iff]
  constructor
  · intro h
    refine ⟨_, line.dropWhile (fun c => c ≠ '#'), List.takeWhile_append_dropWhile.symm, ?_, ?_, h⟩
    · intro hc
      have := mem_takeWhile_pos hc
      simp at this
    · intro c hc
      have := List.head?_dropWhile_not (fun c : Char => decide (c ≠ '#')) line
      rw [Option.mem_def.1 hc] at this
      simpa using this
  · rintro ⟨bare, comment, rfl, h1, h2, h3⟩
    rwa [takeWhile_comment h1 h2]

theorem readSample_iff (w : List Char) (v : PyNum) : readSample w = .ok v ↔ ∃ x, NumberText w x ∧ v = toSingle x := by
  unfold readSample
  cases h : readWord w with
  | none =>
    simp only [Option.elim_none, reduceCtorEq, false_iff]
    rintro ⟨x, hx, -⟩
    rw [(C78_number w x).2 hx] at h
    cases h
  | some x =>
    simp only [Option.elim_some, Except.ok.injEq]
    constructor
    · intro hv
      exact ⟨x, (C78_number w x).1 h, hv.symm⟩
    · rintro ⟨y, hy, rfl⟩
      rw [(C78_number w y).2 hy] at h
      rw [Option.some.inj h]

/-- **C78 (lines)**: a line is read exactly if all its words are numbers, as these in single precision. -/
theorem C78_line (delimiter : Option Char) (line : List Char) (vs : List PyNum) :
    readRow delimiter line = .ok vs ↔ ∃ xs, SampleLine delimiter line xs ∧ vs = xs.map toSingle := by
  unfold readRow SampleLine
  rw [mapM_ok_iff]
  constructor
  · intro h
    have : ∃ xs, List.Forall₂ NumberText (splitLine delimiter line) xs ∧ vs = xs.map toSingle := by
      generalize splitLine delimiter line = ws at h
      induction h with
      | nil => exact ⟨[], .nil, rfl⟩
      | cons hwv _ ih =>
        obtain ⟨xs, h1, h2⟩ := ih
        obtain ⟨x, h3, h4⟩ := (readSample_iff _ _).1 hwv
        exact ⟨x :: xs, .cons h3 h1, by simp [h2, h4]⟩
    obtain ⟨xs, h1, h2⟩ := this
    exact ⟨xs, ⟨_, (splitLine_iff _ _ _).1 rfl, h1⟩, h2⟩
  · rintro ⟨xs, ⟨ws, hl, hf⟩, rfl⟩
    rw [(splitLine_iff _ _ _).2 hl]
    clear hl
    induction hf with
    | nil => exact .nil
    | cons h _ ih => exact .cons ((readSample_iff _ _).2 ⟨_, h, rfl⟩) ih

/-! ## Recordings -/

/-- Samples `a` to `b`. -/
def samplesReq (a b : ℕ) : ReadReq := { fromSample := some (a : ℤ), toSample := some (b : ℤ) }

theorem getReadSamples_samples {md : TimeMeta} {a b : ℕ} (hab : a < b) (hb : (b : ℤ) < md.nSamples) :
    getReadSamples md (samplesReq a b) = .ok ((a : ℤ), (b : ℤ)) := by
  have c1 : ¬ ((a : ℤ) < 0) := by omega
  have c2 : ¬ (md.nSamples ≤ (a : ℤ)) := by omega
  have c3 : ¬ ((b : ℤ) < 0) := by omega
  have c4 : ¬ (md.nSamples ≤ (b : ℤ)) := by omega
  have c5 : ¬ ((b : ℤ) ≤ (a : ℤ)) := by omega
  simp [getReadSamples, samplesReq, readFromBound, readToBound, checkSample, c1, c2, c3, c4, c5, bind, Except.bind, pure, Except.pure]

theorem bareLine_false {delimiter : Option Char} {line : List Char} {xs : List PyNum} (h : SampleLine delimiter line xs)
    (hx : xs ≠ []) : bareLine delimiter line = false := by
  obtain ⟨ws, hl, hf⟩ := h
  unfold bareLine
  rw [(splitLine_iff _ _ _).2 hl]
  cases hf with
  | nil => exact absurd rfl hx
  | cons _ _ => rfl

theorem not_bare {delimiter : Option Char} {data : List (List Char)} {rows : List (List PyNum)}
    (h : List.Forall₂ (SampleLine delimiter) data rows) (hr : ∀ x ∈ rows, x ≠ []) : ∀ l ∈ data, bareLine delimiter l = false := by
  induction h with
  | nil => simp
  | cons h1 _ ih =>
    intro l hl
    rcases List.mem_cons.1 hl with rfl | hl
    · exact bareLine_false h1 (hr _ (by simp))
    · exact ih (fun x hx => hr x (by simp [hx])) l hl

theorem filter_not_bare {delimiter : Option Char} {data : List (List Char)} (h : ∀ l ∈ data, bareLine delimiter l = false) :
    data.filter (fun l => !bareLine delimiter l) = data ∧ data.dropWhile (bareLine delimiter) = data := by
  constructor
  · rw [List.filter_eq_self]
    intro l hl
    simp [h l hl]
  · cases data with
    | nil => rfl
    | cons a data => rw [List.dropWhile_cons_of_neg (by simp [h a (by simp)])]

theorem readRows_ok {delimiter : Option Char} {data : List (List Char)} {rows : List (List PyNum)}
    (h : List.Forall₂ (SampleLine delimiter) data rows) :
    data.mapM (readRow delimiter) = .ok (rows.map (List.map toSingle)) := by
  rw [mapM_ok_iff]
  induction h with
  | nil => exact .nil
  | cons h1 _ ih => exact .cons ((C78_line _ _ _).2 ⟨_, h1, rfl⟩) ih

/-- what is loaded when every line has values -/
theorem loadText_full {delimiter : Option Char} {header data : List (List Char)} {rows : List (List PyNum)}
    (h : List.Forall₂ (SampleLine delimiter) data rows) (hr : ∀ x ∈ rows, x ≠ []) (a k : ℕ) (ha : a ≤ data.length) :
    loadText delimiter (header ++ data) (a + header.length) k =
      loadtxtArray (((rows.drop a).take k).map (List.map toSingle)) := by
  have hlines : linesRead delimiter (header ++ data) (a + header.length) k = (data.drop a).take k := by
    unfold linesRead
    have e1 : (header ++ data).drop (a + header.length) = data.drop a := by
      rw [List.drop_append, List.drop_of_length_le (by omega)]
      simp
    have hb := not_bare h hr
    rw [e1, (filter_not_bare fun l hl => hb l (List.mem_of_mem_drop hl)).2,
      (filter_not_bare fun l hl => hb l (List.mem_of_mem_drop (List.mem_of_mem_take hl))).1]
  unfold loadText
  rw [if_neg (by simp; omega), hlines]
  have hf : List.Forall₂ (SampleLine delimiter) ((data.drop a).take k) ((rows.drop a).take k) :=
    List.forall₂_take k (List.forall₂_drop a h)
  rw [readRows_ok hf]
  rfl

/-- **C78 (whole recordings)**: take a text of header lines, whatever is on them, and one line for each sample with a number for each
of at least two channels, separated by blanks or by the delimiter, with any newlines, and comments behind the numbers or not.  Whatever
is asked for, the reader returns what the numpy reader returns for the table of these numbers in single precision: the same samples at the
same times, or the same refusal. -/
theorem C78_recording (delimiter : Option Char) (text : List Char) (header data : List (List Char)) (rows : List (List PyNum))
    (md : TimeMeta) (r : ReadReq) (ht : TextOf text (header ++ data)) (hd : List.Forall₂ (SampleLine delimiter) data rows)
    (hfs : 0 < md.fs) (hn : md.nSamples = rows.length) (hn1 : 1 ≤ md.nSamples) (hch : 2 ≤ md.chans.length)
    (hrows : ∀ x ∈ rows, x.length = md.chans.length) (hl : md.lastTime = sampleInstant md.fs md.firstTime (md.nSamples - 1)) :
    (readText delimiter header.length text md r).map (fun p => ({ p.1 with history := [] }, p.2))
      = (readNumpy (transposeN md.chans.length (rows.map (List.map toSingle))) md r).map
        (fun td => ({ td.md with history := [] }, NDArr.d2 td.data)) := by
  have h05 := C05_ascii_agrees_with_numpy (rows.map (List.map toSingle)) header.length md r hfs (by simpa using hn) hn1 hch (by
    intro x hx
    obtain ⟨y, hy, rfl⟩ := List.mem_map.1 hx
    simpa using hrows y hy) hl
  rw [← h05]
  congr 1
  unfold readText readAscii
  rw [textLines_eq ht]
  rcases getReadSamples_cases md r hfs hn1 hl with ⟨he, -⟩ | ⟨a, b, hab, ha0, hlt, hbn, -, -⟩
  · rw [he]; rfl
  · rw [hab]
    simp only [bind, Except.bind]
    unfold readDataText readDataAscii
    have hlen := hd.length_eq
    rw [loadText_full hd (fun x hx h => by have := hrows x hx; rw [h] at this; simp at this; omega) a.toNat _ (by omega)]
    have hr : loadtxtT (List.replicate header.length .header ++ (rows.map (List.map toSingle)).map .row) (a.toNat + header.length)
        (b - a + 1).toNat = loadtxtArray (((rows.drop a.toNat).take (b - a + 1).toNat).map (List.map toSingle)) := by
      unfold loadtxtT
      have e1 : (List.replicate header.length AsciiLine.header ++ (rows.map (List.map toSingle)).map AsciiLine.row).drop
          (a.toNat + header.length) = ((rows.map (List.map toSingle)).drop a.toNat).map AsciiLine.row := by
        rw [List.drop_append, List.drop_of_length_le (by simp)]
        simp
      have e2 : ∀ l : List (List PyNum), (List.mapM parseAsciiLine (List.map AsciiLine.row l)) = .ok l := by
        intro l
        induction l with
        | nil => rfl
        | cons x l ih => rw [List.map_cons, List.mapM_cons, ih]; rfl
      rw [e1, ← List.map_take, e2]
      simp only [bind, Except.bind]
      rw [List.map_take, List.map_drop]
    simp only [bind, Except.bind, hr]

end Resistics
