import Verif.Props.CalTrip

/-!
# Property C81: cases
-/

namespace Resistics

/-- The lines before the table. -/
def demoCalHead : List (List Char) := ["Sensor = LEMI120 ", "Serial = 710", "Static gain = 2.5", "Phase unit = degrees", ""].map String.toList

/-- The rows of the table. -/
def demoCalBody : List (List Char) := ["10.5 2 90", " 1e-1\t3 45 ", "7 1.5 10"].map String.toList

/-- A calibration file. -/
def demoCalText : List Char := (demoCalHead ++ "CALIBRATION DATA".toList :: demoCalBody).flatMap fun l => l ++ ['\n']

/-- The texts and the gain a reader gives. -/
def calHeader (r : Except Err Doc.CalDoc) : Option (String × PyNum × String) := r.toOption.map fun d => (d.sensor, d.staticGain, d.magnitudeUnit)

/-- The table a reader gives. -/
def calColumns (r : Except Err Doc.CalDoc) : Option (List PyNum × List PyNum × List PyNum) := r.toOption.map fun d => (d.frequency, d.magnitude, d.phase)

set_option maxRecDepth 100000 in
/-- The file is read; the rows are in order of frequency, and ninety degrees are half of the double of `np.pi`. -/
example : calHeader (readCalChars "cal.txt" demoCalText) = some ("lemi120", .float (5 / 2), "mV/nT") ∧
    calColumns (readCalChars "cal.txt" demoCalText) = some ([toDouble (1 / 10), .float 7, .float (21 / 2)], [.float 3, .float (3 / 2), .float 2],
      [toDouble (45 * degDouble), toDouble (10 * degDouble), .float (piDouble / 2)]) := by
  constructor <;> decide +kernel

/-- The rows. -/
def demoCalRows : List (PyNum × PyNum × PyNum) :=
  [(.float (21 / 2), .float 2, .float 90), (toDouble (1 / 10), .float 3, .float 45), (.float 7, .float (3 / 2), .float 10)]

theorem demoCal_rows : List.Forall₂ (fun l r => NumberRow (String.ofList l) r) demoCalBody demoCalRows := by
  have key : ∀ (l : List Char) (r : PyNum × PyNum × PyNum), charRow (String.ofList l) = .ok r → NumberRow (String.ofList l) r := fun l r h => (charRow_iff _ _).1 h
  refine .cons (key _ _ ?_) (.cons (key _ _ ?_) (.cons (key _ _ ?_) .nil)) <;> decide +kernel

theorem demoCal_lines : ∀ l ∈ demoCalHead ++ "CALIBRATION DATA".toList :: demoCalBody, '\n' ∉ l ∧ '\r' ∉ l := by decide

theorem demoCal_marker : Mentions "CALIBRATION DATA" (String.ofList "CALIBRATION DATA".toList) := (pyContains_iff _ _).1 (by decide)

theorem demoCal_head : ∀ l ∈ demoCalHead, ¬ Mentions "CALIBRATION DATA" (String.ofList l) := by
  intro l hl
  rw [← pyContains_iff]
  revert l
  decide

theorem demoCal_read : ∃ d, readCalChars "cal.txt" demoCalText = .ok d := by
  have h : (readCalChars "cal.txt" demoCalText).toOption.isSome = true := by decide +kernel
  cases hr : readCalChars "cal.txt" demoCalText with
  | error e => rw [hr] at h; cases h
  | ok d => exact ⟨d, rfl⟩

/-- The file meets the hypotheses of `C81_cut_is_read`. -/
example : ∃ d part rest d', readCalChars "cal.txt" demoCalText = .ok d ∧ demoCalText = part ++ rest ∧ rest ≠ [] ∧ readCalChars "cal.txt" part = .ok d' ∧ d'.nSamples = 2 := by
  obtain ⟨d, hd⟩ := demoCal_read
  obtain ⟨part, rest, d', h1, h2, h3, -, -, -, -, h4, -⟩ := C81_cut_is_read "cal.txt" demoCalHead demoCalBody _ ['\n'] demoCalRows 2 .unix demoCal_lines demoCal_marker
    demoCal_head demoCal_rows (by decide) (by decide) d hd
  exact ⟨d, part, rest, d', hd, h1, h2, h3, h4⟩

/-- The file meets the hypotheses of `C81_cut_in_number`: without the last zero, a phase of ten degrees is one degree. -/
example : ∃ d d', readCalChars "cal.txt" demoCalText = .ok d ∧ ∃ part, demoCalText = part ++ ['0', '\n'] ∧ readCalChars "cal.txt" part = .ok d' ∧ d'.nSamples = d.nSamples := by
  obtain ⟨d, hd⟩ := demoCal_read
  have key : ∀ (l : List Char) (r : PyNum × PyNum × PyNum), charRow (String.ofList l) = .ok r → NumberRow (String.ofList l) r := fun l r h => (charRow_iff _ _).1 h
  have hrows : List.Forall₂ (fun l r => NumberRow (String.ofList l) r) (demoCalBody.take 2) (demoCalRows.take 2) := List.forall₂_take 2 demoCal_rows
  obtain ⟨part, d', h1, h2, -, -, -, -, h3, -⟩ := C81_cut_in_number "cal.txt" demoCalHead (demoCalBody.take 2) "CALIBRATION DATA".toList ['\n'] "7 1.5 1".toList ['0']
    (demoCalRows.take 2) (.float 7, .float (3 / 2), .float 10) (.float 7, .float (3 / 2), .float 1) .unix demoCal_lines demoCal_marker
    demoCal_head hrows (key _ _ (by decide +kernel)) (key _ _ (by decide +kernel)) d hd
  exact ⟨d, d', hd, part, h1, h2, h3⟩

/-- The file meets the hypotheses of `C81_row_order`. -/
example (d : Doc.CalDoc) (h : readCalChars "cal.txt" demoCalText = .ok d) :
    readCalChars "cal.txt" ((demoCalHead ++ "CALIBRATION DATA".toList :: demoCalBody.reverse).flatMap fun l => l ++ ['\r', '\n']) = .ok d := by
  refine C81_row_order "cal.txt" demoCalText _ demoCalHead demoCalBody demoCalBody.reverse [] "CALIBRATION DATA".toList demoCalRows demoCalRows.reverse
    ⟨by rw [List.append_nil]; exact demoCal_lines, ['\n'], .unix, Or.inl (by rw [List.append_nil]; rfl)⟩
    ⟨by decide, ['\r', '\n'], .windows, Or.inl (by rw [List.append_nil])⟩ demoCal_marker demoCal_head demoCal_rows
    ?_ (fun l hl => by cases hl) (List.reverse_perm _).symm ?_ ?_ d h
  · exact List.rel_reverse demoCal_rows
  · decide +kernel
  · decide +kernel

/-- The listing of `C81_text_carries` for a sensor; its hypotheses are met. -/
example : ∃ d, readCalChars "cal.txt" ((calListing "lemi 120" "V/nT" (.number (-7)) (1 / 2) [(1, 2, 3), (5 / 4, 0, -3)]).flatMap fun l => l ++ ['\n']) = .ok d ∧
    d.sensor = "lemi 120" ∧ d.frequency = [.float 1, .float (5 / 4)] := by
  have hd : ∀ k : ℤ, |k| < 2 ^ 53 → IsDouble ((k : ℚ) / 4) := fun k hk => ⟨k, -2, hk, by norm_num, by norm_num, by norm_num; ring⟩
  have plain : ∀ v : List Char, v ≠ [] → (∀ c, v.head? = some c → isSpace c = false) → (∀ c, v.getLast? = some c → isSpace c = false) → '=' ∉ v → '\n' ∉ v → '\r' ∉ v →
      (calWords.all fun t => !namesB t (String.ofList v)) = true → PlainValue v := by
    intro v h1 h2 h3 h4 h5 h6 h7
    refine ⟨h1, h2, h3, h4, h5, h6, fun t ht hn => ?_⟩
    rw [List.all_eq_true] at h7
    have := h7 t ht
    rw [(namesB_iff _ _).2 hn] at this
    cases this
  refine ⟨_, C81_text_carries "cal.txt" "lemi 120" "V/nT" (.number (-7)) (1 / 2) _ ['\n'] .unix
    ⟨plain _ (by decide) (by decide) (by decide) (by decide) (by decide) (by decide) (by decide), by unfold IsLower; decide⟩
    (plain _ (by decide) (by decide) (by decide) (by decide) (by decide) (by decide) (by decide)) (fun s hs => nomatch hs) ?_ ?_ (by simp) ?_, rfl, rfl⟩
  · have := hd 2 (by norm_num); norm_num at this; exact this
  · intro r hr
    have h1 := hd 4 (by norm_num)
    have h2 := hd 8 (by norm_num)
    have h3 := hd 12 (by norm_num)
    have h4 := hd 5 (by norm_num)
    have h5 := hd 0 (by norm_num)
    have h6 := hd (-12) (by norm_num)
    norm_num at h1 h2 h3 h4 h5 h6
    simp only [List.mem_cons, List.not_mem_nil, or_false] at hr
    rcases hr with rfl | rfl
    · exact ⟨h1, h2, h3⟩
    · exact ⟨h4, h5, h6⟩
  · norm_num

/-- The same file with the unit in capital letters. -/
def demoCalCapital : List Char := ("Phase unit = Degrees\nCALIBRATION DATA\n1 1 90\n").toList

set_option maxRecDepth 100000 in
/-- Finding: a unit that is not exactly `degrees` is taken for radians: here a phase of ninety radians. -/
example : calColumns (readCalChars "cal.txt" demoCalCapital) = some ([.float 1], [.float 1], [.float 90]) := by decide +kernel

end Resistics
