import Verif.Model.DateText
import Mathlib.Tactic.Linarith
import Mathlib.Tactic.FieldSimp
import Mathlib.Tactic.NormNum
import Mathlib.Tactic.IntervalCases
import Mathlib.Algebra.Order.Floor.Ring
import Mathlib.Tactic.Positivity

/-!
# C47: the text form of date times
-/

namespace Resistics

/-! ## Specification: the instant of a calendar time -/

/-- the days of all years before a year -/
def daysBeforeYear : ℕ → ℕ
  | 0 => 0
  | y + 1 => daysBeforeYear y + (if isLeap y then 366 else 365)

/-- the days of a year before a month (1 to 12) -/
def daysBeforeMonth (year month : ℕ) : ℕ := ((List.range (month - 1)).map fun k => daysInMonth year (k + 1)).sum

/-- the number of a day, counted from the start of the calendar -/
def CalTime.dayNumber (t : CalTime) : ℕ := daysBeforeYear t.year + daysBeforeMonth t.year t.month + t.day

/-- whole microseconds since the start of the calendar -/
def CalTime.micros (t : CalTime) : ℕ :=
  (((t.dayNumber * 24 + t.hour) * 60 + t.minute) * 60 + t.second) * 1000000 + t.microsecond

/-- seconds since the start of the calendar -/
def CalTime.instant (t : CalTime) : ℚ := t.micros / 1000000 + t.nanosecond / 1000000000

/-- a time cut off after 24 decimal digits of the second -/
def CalTime.cut (t : CalTime) : CalTime := { t with nanosecond := ⌊t.nanosecond * 1000000000000000⌋ / 1000000000000000 }

structure CalTime.Valid (t : CalTime) : Prop where
  year_pos : 1 ≤ t.year
  year_le : t.year ≤ 9999
  month_pos : 1 ≤ t.month
  month_le : t.month ≤ 12
  day_pos : 1 ≤ t.day
  day_le : t.day ≤ daysInMonth t.year t.month
  hour_lt : t.hour < 24
  minute_lt : t.minute < 60
  second_lt : t.second < 60
  micro_lt : t.microsecond < 1000000
  nano_nonneg : 0 ≤ t.nanosecond
  nano_lt : t.nanosecond < 1000

theorem valid_iff (t : CalTime) : t.valid = true ↔ t.Valid := by
  unfold CalTime.valid
  rw [decide_eq_true_iff]
  constructor
  · rintro ⟨h1, h2, h3, h4, h5, h6, h7, h8, h9, h10, h11, h12⟩
    exact ⟨h1, h2, h3, h4, h5, h6, h7, h8, h9, h10, h11, h12⟩
  · rintro ⟨h1, h2, h3, h4, h5, h6, h7, h8, h9, h10, h11, h12⟩
    exact ⟨h1, h2, h3, h4, h5, h6, h7, h8, h9, h10, h11, h12⟩

/-! ## Instants identify valid times -/

theorem daysBeforeMonth_succ (y m : ℕ) (hm : 1 ≤ m) : daysBeforeMonth y (m + 1) = daysBeforeMonth y m + daysInMonth y m := by
  obtain ⟨k, rfl⟩ : ∃ k, m = k + 1 := ⟨m - 1, by omega⟩
  unfold daysBeforeMonth
  rw [Nat.add_sub_cancel, Nat.add_sub_cancel, List.range_succ, List.map_append, List.sum_append]
  simp

theorem daysBeforeMonth_mono (y : ℕ) {a b : ℕ} (ha : 1 ≤ a) (h : a ≤ b) : daysBeforeMonth y a ≤ daysBeforeMonth y b := by
  induction b, h using Nat.le_induction with
  | base => exact le_rfl
  | succ b hab ih => rw [daysBeforeMonth_succ y b (by omega)]; omega

theorem daysBeforeMonth_thirteen (y : ℕ) : daysBeforeMonth y 13 = if isLeap y then 366 else 365 := by
  unfold daysBeforeMonth daysInMonth
  cases isLeap y <;> decide

theorem daysBeforeYear_mono {a b : ℕ} (h : a ≤ b) : daysBeforeYear a ≤ daysBeforeYear b := by
  induction b, h using Nat.le_induction with
  | base => exact le_rfl
  | succ b hab ih => rw [daysBeforeYear]; omega

/-- Dates in order have numbers in order. -/
theorem dayNumber_year_lt {s t : CalTime} (hs : s.Valid) (ht : t.Valid) (h : s.year < t.year) : s.dayNumber < t.dayNumber := by
  have h1 := daysBeforeYear_mono (show s.year + 1 ≤ t.year from h)
  rw [daysBeforeYear, ← daysBeforeMonth_thirteen] at h1
  have h2 := daysBeforeMonth_mono s.year (show 1 ≤ s.month + 1 by omega) (show s.month + 1 ≤ 13 by have := hs.month_le; omega)
  rw [daysBeforeMonth_succ _ _ hs.month_pos] at h2
  have := hs.day_le
  have := ht.day_pos
  unfold CalTime.dayNumber
  omega

theorem dayNumber_month_lt {s t : CalTime} (hs : s.Valid) (ht : t.Valid) (hy : s.year = t.year) (h : s.month < t.month) :
    s.dayNumber < t.dayNumber := by
  have h2 := daysBeforeMonth_mono s.year (show 1 ≤ s.month + 1 by omega) (show s.month + 1 ≤ t.month from h)
  rw [daysBeforeMonth_succ _ _ hs.month_pos] at h2
  have := hs.day_le
  have := ht.day_pos
  unfold CalTime.dayNumber
  rw [← hy]
  omega

theorem date_of_dayNumber {s t : CalTime} (hs : s.Valid) (ht : t.Valid) (h : s.dayNumber = t.dayNumber) :
    s.year = t.year ∧ s.month = t.month ∧ s.day = t.day := by
  have hy : s.year = t.year := by
    rcases lt_trichotomy s.year t.year with h1 | h1 | h1
    · have := dayNumber_year_lt hs ht h1; omega
    · exact h1
    · have := dayNumber_year_lt ht hs h1; omega
  have hm : s.month = t.month := by
    rcases lt_trichotomy s.month t.month with h1 | h1 | h1
    · have := dayNumber_month_lt hs ht hy h1; omega
    · exact h1
    · have := dayNumber_month_lt ht hs hy.symm h1; omega
  refine ⟨hy, hm, ?_⟩
  unfold CalTime.dayNumber at h
  rw [hy, hm] at h
  omega

theorem micros_eq_floor {t : CalTime} (h0 : 0 ≤ t.nanosecond) (h1 : t.nanosecond < 1000) :
    (t.micros : ℤ) = ⌊t.instant * 1000000⌋ := by
  symm
  rw [Int.floor_eq_iff]
  unfold CalTime.instant
  push_cast
  constructor <;> linarith

/-- Valid times at the same instant are the same time. -/
theorem instant_inj {s t : CalTime} (hs : s.Valid) (ht : t.Valid) (h : s.instant = t.instant) : s = t := by
  have hm : s.micros = t.micros := by
    have h1 := micros_eq_floor hs.nano_nonneg hs.nano_lt
    rw [h, ← micros_eq_floor ht.nano_nonneg ht.nano_lt] at h1
    exact_mod_cast h1
  have hn : s.nanosecond = t.nanosecond := by
    unfold CalTime.instant at h
    rw [hm] at h
    linarith
  have a1 := hs.hour_lt; have a2 := hs.minute_lt; have a3 := hs.second_lt; have a4 := hs.micro_lt
  have b1 := ht.hour_lt; have b2 := ht.minute_lt; have b3 := ht.second_lt; have b4 := ht.micro_lt
  unfold CalTime.micros at hm
  have e1 : s.dayNumber = t.dayNumber := by omega
  have e2 : s.hour = t.hour := by omega
  have e3 : s.minute = t.minute := by omega
  have e4 : s.second = t.second := by omega
  have e5 : s.microsecond = t.microsecond := by omega
  obtain ⟨d1, d2, d3⟩ := date_of_dayNumber hs ht e1
  cases s; cases t
  simp only at *
  simp [d1, d2, d3, e2, e3, e4, e5, hn]

/-! ## Reading what was written -/

theorem digitValue_digitChar {d : ℕ} (h : d < 10) : digitValue (Nat.digitChar d) = some d := by
  interval_cases d <;> decide

theorem readNumber_add (a b acc : ℕ) (cs : List Char) :
    readNumber (a + b) acc cs = (readNumber a acc cs).bind fun p => readNumber b p.1 p.2 := by
  induction a generalizing acc cs with
  | zero => simp [readNumber]
  | succ a ih =>
    rw [Nat.add_right_comm]
    cases cs with
    | nil => rfl
    | cons c cs =>
      simp only [readNumber]
      cases digitValue c with
      | none => rfl
      | some d => exact ih _ _

theorem readNumber_pad (w acc n : ℕ) (h : n < 10 ^ w) (rest : List Char) :
    readNumber w acc (padDigits w n ++ rest) = some (acc * 10 ^ w + n, rest) := by
  induction w generalizing n rest with
  | zero => simp at h; simp [readNumber, padDigits, h]
  | succ w ih =>
    rw [readNumber_add, padDigits, List.append_assoc, List.singleton_append, ih (n / 10) (by rw [pow_succ] at h; omega)]
    simp only [Option.bind_some, readNumber, digitValue_digitChar (Nat.mod_lt n (by norm_num))]
    rw [Option.some.injEq, Prod.mk.injEq]
    refine ⟨?_, rfl⟩
    rw [pow_succ]
    have := Nat.div_add_mod n 10
    ring_nf at this ⊢
    omega

theorem readField_pad (c : Char) (w n : ℕ) (h : n < 10 ^ w) (rest : List Char) :
    readField c w (c :: (padDigits w n ++ rest)) = some (n, rest) := by
  unfold readField readChar
  simp only [if_true, Option.bind_some]
  rw [readNumber_pad w 0 n h]
  simp

theorem toDigits_year {y : ℕ} (h1 : 1000 ≤ y) (h2 : y ≤ 9999) : Nat.toDigits 10 y = padDigits 4 y := by
  rw [Nat.toDigits_of_base_le (by norm_num) (by omega), Nat.toDigits_of_base_le (by norm_num) (by omega),
    Nat.toDigits_of_base_le (by norm_num) (by omega), Nat.toDigits_of_lt_base (by omega)]
  simp only [padDigits]
  rw [Nat.mod_eq_of_lt (show y / 10 / 10 / 10 < 10 by omega)]
  rfl

theorem fraction_lt (t : CalTime) (k : ℕ) : t.fraction k < 10 ^ 6 := Nat.mod_lt _ (by norm_num)

theorem daysInMonth_le (y m : ℕ) : daysInMonth y m ≤ 31 := by
  unfold daysInMonth
  split_ifs <;> omega

/-- the three groups of digits put together -/
theorem fractions_sum {t : CalTime} (h0 : 0 ≤ t.nanosecond) (h1 : t.nanosecond < 1000) :
    (t.fraction 1000 : ℚ) / 1000 + (t.fraction 1000000000 : ℚ) / 1000000000 +
      (t.fraction 1000000000000000 : ℚ) / 1000000000000000 = t.cut.nanosecond := by
  unfold CalTime.fraction CalTime.cut
  simp only
  obtain ⟨N, hN⟩ : ∃ N : ℕ, ⌊t.nanosecond * 1000000000000000⌋ = (N : ℤ) :=
    ⟨_, (Int.toNat_of_nonneg (Int.floor_nonneg.2 (by positivity))).symm⟩
  have hb := Int.floor_eq_iff.1 hN
  rw [hN]
  have f9 : ⌊t.nanosecond * ((1000000000 : ℕ) : ℚ)⌋ = ((N / 1000000 : ℕ) : ℤ) := by
    have e : t.nanosecond * ((1000000000 : ℕ) : ℚ) = t.nanosecond * 1000000000000000 / ((1000000 : ℕ) : ℚ) := by
      push_cast; ring
    rw [e, Int.floor_div_natCast, hN, Int.natCast_div]
  have f3 : ⌊t.nanosecond * ((1000 : ℕ) : ℚ)⌋ = ((N / 1000000000000 : ℕ) : ℤ) := by
    have e : t.nanosecond * ((1000 : ℕ) : ℚ) = t.nanosecond * 1000000000000000 / ((1000000000000 : ℕ) : ℚ) := by
      push_cast; ring
    rw [e, Int.floor_div_natCast, hN, Int.natCast_div]
  have f15 : ⌊t.nanosecond * ((1000000000000000 : ℕ) : ℚ)⌋ = ((N : ℕ) : ℤ) := by
    rw [← hN]; norm_num
  rw [f3, f9, f15, Int.toNat_natCast, Int.toNat_natCast, Int.toNat_natCast]
  have hlt : N < 1000000000000000000 := by
    have : (N : ℚ) < 1000000000000000000 := by
      have := hb.1
      push_cast at this
      linarith
    exact_mod_cast this
  have hsum : N / 1000000000000 % 1000000 * 1000000000000 + N / 1000000 % 1000000 * 1000000 + N % 1000000 = N := by omega
  have hsum' : (((N / 1000000000000 % 1000000 : ℕ) : ℚ) * 1000000000000 + ((N / 1000000 % 1000000 : ℕ) : ℚ) * 1000000 +
      ((N % 1000000 : ℕ) : ℚ)) = N := by exact_mod_cast hsum
  rw [Int.cast_natCast, ← hsum']
  ring

theorem checkedTime_some (t : CalTime) : checkedTime (some t) = if t.valid then .ok t else .error .value := rfl

theorem cut_bounds {x : ℚ} (h0 : 0 ≤ x) (h1 : x < 1000) :
    0 ≤ (⌊x * 1000000000000000⌋ : ℚ) / 1000000000000000 ∧ (⌊x * 1000000000000000⌋ : ℚ) / 1000000000000000 < 1000 := by
  have a : (0 : ℤ) ≤ ⌊x * 1000000000000000⌋ := Int.floor_nonneg.2 (by positivity)
  have a' : (0 : ℚ) ≤ (⌊x * 1000000000000000⌋ : ℚ) := by exact_mod_cast a
  have b := Int.floor_le (x * 1000000000000000)
  constructor
  · positivity
  · rw [div_lt_iff₀ (by norm_num)]
    linarith

theorem CalTime.Valid.cut {t : CalTime} (h : t.Valid) : t.cut.Valid where
  year_pos := h.year_pos
  year_le := h.year_le
  month_pos := h.month_pos
  month_le := h.month_le
  day_pos := h.day_pos
  day_le := h.day_le
  hour_lt := h.hour_lt
  minute_lt := h.minute_lt
  second_lt := h.second_lt
  micro_lt := h.micro_lt
  nano_nonneg := (cut_bounds h.nano_nonneg h.nano_lt).1
  nano_lt := (cut_bounds h.nano_nonneg h.nano_lt).2

theorem readFields_written {t : CalTime} (h : t.Valid) (hy : 1000 ≤ t.year) : readFields (datetimeToChars t) = some t.cut := by
  have hd := h.day_le.trans (daysInMonth_le _ _)
  have m1 := h.month_le; have m2 := h.hour_lt; have m3 := h.minute_lt; have m4 := h.second_lt; have m5 := h.micro_lt
  have m6 := h.year_le
  unfold readFields datetimeToChars
  rw [toDigits_year hy h.year_le]
  have last : padDigits 6 (t.fraction 1000000000000000) = padDigits 6 (t.fraction 1000000000000000) ++ [] := by simp
  rw [last]
  simp only [readNumber_pad 4 0 t.year (by omega), readField_pad '-' 2 t.month (by omega), readField_pad '-' 2 t.day (by omega),
    readField_pad ' ' 2 t.hour (by omega), readField_pad ':' 2 t.minute (by omega), readField_pad ':' 2 t.second (by omega),
    readField_pad '.' 6 t.microsecond (by omega), readField_pad '_' 6 _ (fraction_lt t _), bind, Option.bind, if_true,
    fractions_sum h.nano_nonneg h.nano_lt]
  simp [CalTime.cut]

theorem readFields_more {t : CalTime} (h : t.Valid) (hy : 1000 ≤ t.year) (c : Char) (rest : List Char) :
    readFields (datetimeToChars t ++ c :: rest) = none := by
  have hd := h.day_le.trans (daysInMonth_le _ _)
  have m1 := h.month_le; have m2 := h.hour_lt; have m3 := h.minute_lt; have m4 := h.second_lt; have m5 := h.micro_lt
  have m6 := h.year_le
  unfold readFields datetimeToChars
  rw [toDigits_year hy h.year_le]
  simp only [List.append_assoc, List.cons_append]
  simp only [readNumber_pad 4 0 t.year (by omega), readField_pad '-' 2 t.month (by omega), readField_pad '-' 2 t.day (by omega),
    readField_pad ' ' 2 t.hour (by omega), readField_pad ':' 2 t.minute (by omega), readField_pad ':' 2 t.second (by omega),
    readField_pad '.' 6 t.microsecond (by omega), readField_pad '_' 6 _ (fraction_lt t _), bind, Option.bind]
  simp

/-- The cut time is the last multiple of 1e-24 seconds that is not after the time. -/
theorem cut_instant {t : CalTime} : t.cut.instant = (⌊t.instant * 10 ^ 24⌋ : ℚ) / 10 ^ 24 := by
  have e : t.instant * 10 ^ 24 = t.nanosecond * 1000000000000000 + ((t.micros * 10 ^ 18 : ℕ) : ℤ) := by
    unfold CalTime.instant
    push_cast
    ring
  rw [e, Int.floor_add_intCast]
  have hm : t.cut.micros = t.micros := rfl
  unfold CalTime.instant
  rw [hm]
  unfold CalTime.cut
  push_cast
  ring

/-- **C47**. A written time is read back as the same time cut off after 24 decimal digits of the second: the instant that is
read is the instant that was written, rounded down to a multiple of 1e-24 seconds. -/
theorem C47_round_trip (t : CalTime) (h : t.valid = true) (hy : 1000 ≤ t.year) :
    ∃ t' : CalTime, datetimeFromString (datetimeToString t) = .ok t' ∧ t'.valid = true ∧
      t'.instant = (⌊t.instant * 10 ^ 24⌋ : ℚ) / 10 ^ 24 := by
  have hv := (valid_iff t).1 h
  refine ⟨t.cut, ?_, (valid_iff _).2 hv.cut, cut_instant⟩
  unfold datetimeFromString datetimeToString
  rw [String.toList_ofList, readFields_written hv hy]
  rw [checkedTime_some, if_pos ((valid_iff _).2 hv.cut)]

/-- **C47**. A time survives exactly when its instant has at most 24 decimal digits of the second. -/
theorem C47_exact (t : CalTime) (h : t.valid = true) (hy : 1000 ≤ t.year) :
    datetimeFromString (datetimeToString t) = .ok t ↔ ∃ k : ℤ, t.instant = k / 10 ^ 24 := by
  obtain ⟨t', h1, h2, h3⟩ := C47_round_trip t h hy
  rw [h1, Except.ok.injEq]
  constructor
  · rintro rfl
    exact ⟨_, h3⟩
  · rintro ⟨k, hk⟩
    refine instant_inj ((valid_iff _).1 h2) ((valid_iff _).1 h) ?_
    rw [h3, hk, div_mul_cancel₀ _ (by norm_num), Int.floor_intCast]

/-- **C47**. Two times have the same text exactly when their instants agree down to 1e-24 seconds. -/
theorem C47_same_text (s t : CalTime) (hs : s.valid = true) (ht : t.valid = true) (hys : 1000 ≤ s.year) (hyt : 1000 ≤ t.year) :
    datetimeToString s = datetimeToString t ↔ ⌊s.instant * 10 ^ 24⌋ = ⌊t.instant * 10 ^ 24⌋ := by
  have vs := (valid_iff s).1 hs
  have vt := (valid_iff t).1 ht
  constructor
  · intro h
    obtain ⟨s', h1, _, h3⟩ := C47_round_trip s hs hys
    obtain ⟨t', g1, _, g3⟩ := C47_round_trip t ht hyt
    rw [h, g1, Except.ok.injEq] at h1
    rw [← h1, g3, div_left_inj' (by norm_num)] at h3
    exact_mod_cast h3.symm
  · intro h
    have hc : s.cut = t.cut := instant_inj vs.cut vt.cut (by rw [cut_instant, cut_instant, h])
    have key : ∀ u : CalTime, u.Valid → datetimeToString u = datetimeToString u.cut := by
      intro u hu
      have hf : ∀ k : ℕ, (k = 1000 ∨ k = 1000000000 ∨ k = 1000000000000000) → u.fraction k = u.cut.fraction k := by
        intro k hk
        unfold CalTime.fraction CalTime.cut
        simp only
        obtain ⟨m, hm, hkm⟩ : ∃ m : ℕ, 0 < m ∧ k * m = 1000000000000000 := by
          rcases hk with rfl | rfl | rfl
          · exact ⟨1000000000000, by norm_num, by norm_num⟩
          · exact ⟨1000000, by norm_num, by norm_num⟩
          · exact ⟨1, by norm_num, by norm_num⟩
        have hm' : (0 : ℚ) < m := by exact_mod_cast hm
        have hkm' : (k : ℚ) * m = 1000000000000000 := by exact_mod_cast hkm
        have hk0 : (k : ℚ) ≠ 0 := by rintro hz; rw [hz] at hkm'; norm_num at hkm'
        have e1 : u.nanosecond * k = u.nanosecond * 1000000000000000 / m := by rw [← hkm']; field_simp
        have e2 : (⌊u.nanosecond * 1000000000000000⌋ : ℚ) / 1000000000000000 * k =
            (⌊u.nanosecond * 1000000000000000⌋ : ℚ) / m := by rw [← hkm']; field_simp
        rw [e1, e2, Int.floor_div_natCast, Int.floor_div_natCast, Int.floor_intCast]
      unfold datetimeToString datetimeToChars
      rw [hf 1000 (by simp), hf 1000000000 (by simp), hf 1000000000000000 (by simp)]
      rfl
    rw [key s vs, key t vt, hc]

theorem readNumber_digits_short (w acc : ℕ) (cs : List Char) (c : Char) (rest : List Char) (hc : digitValue c = none)
    (h : cs.length < w) : readNumber w acc (cs ++ c :: rest) = none := by
  induction cs generalizing w acc with
  | nil =>
    obtain ⟨w, rfl⟩ : ∃ v, w = v + 1 := ⟨w - 1, by simp at h; omega⟩
    simp [readNumber, hc]
  | cons d cs ih =>
    obtain ⟨w, rfl⟩ : ∃ v, w = v + 1 := ⟨w - 1, by simp at h; omega⟩
    rw [List.cons_append, readNumber]
    cases digitValue d with
    | none => rfl
    | some v => exact ih _ _ (by simpa using h)

/-- **C47**, a limit of the code: years before 1000 are written without leading zeros and the text is refused. -/
theorem C47_early_years (t : CalTime) (hy : t.year < 1000) : datetimeFromString (datetimeToString t) = .error .value := by
  have hl : (Nat.toDigits 10 t.year).length < 4 := by
    have := (Nat.length_toDigits_le_iff (n := t.year) (k := 3) (b := 10) (by norm_num) (by norm_num)).2 (by omega)
    omega
  have : readFields (datetimeToChars t) = none := by
    unfold readFields datetimeToChars
    rw [readNumber_digits_short 4 0 _ '-' _ (by decide) hl]
    rfl
  unfold datetimeFromString datetimeToString
  rw [String.toList_ofList, this]
  rfl

/-- **C47**. A written time followed by further text (not a digit) is refused with ValueError. -/
theorem C47_trailing_text_refused (t : CalTime) (h : t.valid = true) (hy : 1000 ≤ t.year) (text : String) (c : Char) (rest : List Char)
    (ht : text.toList = c :: rest) (_hc : ¬ ('0' ≤ c ∧ c ≤ '9')) :
    datetimeFromString (datetimeToString t ++ text) = .error .value := by
  unfold datetimeFromString datetimeToString
  rw [String.toList_append, String.toList_ofList, ht, readFields_more ((valid_iff t).1 h) hy]
  rfl

/-- The day numbers of the calendar, as a formula. -/
theorem daysBeforeYear_eq (y : ℕ) : daysBeforeYear (y + 1) + y / 100 = 366 + 365 * y + y / 4 + y / 400 := by
  induction y with
  | zero => rfl
  | succ y ih =>
    rw [daysBeforeYear]
    unfold isLeap
    by_cases h : (y + 1) % 4 = 0 ∧ ((y + 1) % 100 ≠ 0 ∨ (y + 1) % 400 = 0)
    · simp only [h, ne_eq, and_self, decide_true, if_true]; omega
    · rw [decide_eq_false h]; simp only [Bool.false_eq_true, if_false]; omega

/-- **C47**. The calendar is the Gregorian one: the first of January of year `y` comes `365 (y-1) + (y-1)/4 - (y-1)/100 + (y-1)/400`
days after that of the year 1, a year has 366 or 365 days, and the 29th of February is a date exactly in the years divisible by 4
except the full centuries not divisible by 400. -/
theorem C47_calendar (y : ℕ) (hy : 1 ≤ y) :
    ((daysBeforeYear y : ℤ) - daysBeforeYear 1 = 365 * (y - 1) + (y - 1) / 4 - (y - 1) / 100 + (y - 1) / 400) ∧
    (∀ t : CalTime, t.year = y → t.month = 2 → t.day = 29 →
      (t.Valid ↔ (4 ∣ y ∧ (100 ∣ y → 400 ∣ y)) ∧ y ≤ 9999 ∧ t.hour < 24 ∧ t.minute < 60 ∧ t.second < 60 ∧ t.microsecond < 1000000 ∧
        0 ≤ t.nanosecond ∧ t.nanosecond < 1000)) := by
  constructor
  · obtain ⟨k, rfl⟩ : ∃ k, y = k + 1 := ⟨y - 1, by omega⟩
    have h1 := daysBeforeYear_eq k
    have h2 : daysBeforeYear 1 = 366 := rfl
    push_cast
    simp only [add_sub_cancel_right]
    omega
  · rintro t rfl hm hd
    have leap : daysInMonth t.year 2 = if 4 ∣ t.year ∧ (100 ∣ t.year → 400 ∣ t.year) then 29 else 28 := by
      unfold daysInMonth isLeap
      simp only [if_true, decide_eq_true_eq]
      apply if_congr _ rfl rfl
      omega
    constructor
    · intro h
      have := h.day_le
      rw [hm, hd, leap] at this
      refine ⟨?_, h.year_le, h.hour_lt, h.minute_lt, h.second_lt, h.micro_lt, h.nano_nonneg, h.nano_lt⟩
      by_contra hn
      rw [if_neg hn] at this
      omega
    · rintro ⟨h0, h1, h2, h3, h4, h5, h6, h7⟩
      exact ⟨hy, h1, by omega, by omega, by omega, by rw [hm, hd, leap, if_pos h0], h2, h3, h4, h5, h6, h7⟩

/-- **C47**. What is read from a text is a valid time with at most 24 decimal digits of the second... -/
theorem C47_read_digits (text : String) (t : CalTime) (h : datetimeFromString text = .ok t) :
    t.valid = true ∧ ∃ k : ℤ, t.instant = k / 10 ^ 24 := by
  unfold datetimeFromString at h
  cases hr : readFields text.toList with
  | none => rw [hr] at h; simp [checkedTime] at h
  | some u =>
    rw [hr, checkedTime_some] at h
    split at h
    · rename_i hv
      rw [Except.ok.injEq] at h
      subst h
      refine ⟨hv, ?_⟩
      have : ∃ a b c : ℕ, u.nanosecond = a / 1000 + b / 1000000000 + c / 1000000000000000 := by
        unfold readFields at hr
        simp only [bind, Option.bind_eq_some_iff] at hr
        obtain ⟨_, _, _, _, _, _, _, _, _, _, _, _, _, _, p8, _, p9, _, p10, _, hr⟩ := hr
        split at hr
        · rw [Option.some.injEq] at hr
          subst hr
          exact ⟨_, _, _, rfl⟩
        · simp at hr
      obtain ⟨a, b, c, hn⟩ := this
      refine ⟨(u.micros * 10 ^ 18 + a * 10 ^ 12 + b * 10 ^ 6 + c : ℕ), ?_⟩
      unfold CalTime.instant
      rw [hn]
      push_cast
      ring
    · simp at h

/-- **C47**. ... so writing it and reading it again changes nothing. -/
theorem C47_stable (text : String) (t : CalTime) (h : datetimeFromString text = .ok t) (hy : 1000 ≤ t.year) :
    datetimeFromString (datetimeToString t) = .ok t := by
  obtain ⟨h1, h2⟩ := C47_read_digits text t h
  exact (C47_exact t h1 hy).2 h2

/-- **C47**. `to_datetime` reads text in the fixed format itself... -/
theorem C47_to_datetime (pandas : String → Except Err Timestamp) (t : CalTime) (h : t.valid = true) (hy : 1000 ≤ t.year)
    (hd : ∃ k : ℤ, t.instant = k / 10 ^ 24) : toDatetime pandas (.text (datetimeToString t)) = .ok t := by
  unfold toDatetime
  simp only
  rw [(C47_exact t h hy).2 hd]
  rfl

/-- **C47**. ... and leaves every other text to pandas. -/
theorem C47_to_datetime_other (pandas : String → Except Err Timestamp) (text : String) (e : Err)
    (h : datetimeFromString text = .error e) : toDatetime pandas (.text text) = pandas text >>= ofTimestamp := by
  have he : e = .value := by
    unfold datetimeFromString at h
    cases hr : readFields text.toList with
    | none => rw [hr] at h; simpa [checkedTime] using h.symm
    | some u =>
      rw [hr, checkedTime_some] at h
      split at h
      · simp at h
      · simpa using h.symm
  unfold toDatetime
  simp only
  rw [h, he]
  rfl

/-- **C47**. A pandas timestamp keeps its nanoseconds in the text. -/
theorem C47_timestamp (pandas : String → Except Err Timestamp) (s : Timestamp) (t : CalTime)
    (h : toDatetime pandas (.timestamp s) = .ok t) (hy : 1000 ≤ s.year) :
    t.nanosecond = s.nanosecond ∧ toDatetime pandas (.text (datetimeToString t)) = .ok t := by
  unfold toDatetime ofTimestamp at h
  simp only [checkedTime_some] at h
  split at h
  · rename_i hv
    rw [Except.ok.injEq] at h
    subst h
    refine ⟨rfl, C47_to_datetime pandas _ hv hy ?_⟩
    unfold CalTime.instant
    simp only
    generalize CalTime.micros _ = n
    refine ⟨(n * 10 ^ 18 + s.nanosecond * 10 ^ 15 : ℕ), ?_⟩
    push_cast
    ring
  · simp at h

/-! ## Concrete cases -/

/-- the time of the docstring: 61 microseconds and 35.15625 nanoseconds -/
def demoTime : CalTime := { year := 2021, month := 1, day := 1, microsecond := 61, nanosecond := 3515625 / 100000 }

example : demoTime.valid = true ∧ 1000 ≤ demoTime.year := by decide +kernel

example : datetimeToChars demoTime = "2021-01-01 00:00:00.000061_035156_250000_000000".toList := by decide +kernel

example : datetimeFromString (datetimeToString demoTime) = .ok demoTime :=
  (C47_exact demoTime (by decide +kernel) (by decide)).2
    ⟨(demoTime.micros * 10 ^ 18 + 35156250000000000 : ℕ), by
      unfold CalTime.instant
      rw [show demoTime.nanosecond = 3515625 / 100000 from rfl]
      push_cast
      ring⟩

/-- a third of a nanosecond is cut off -/
example : datetimeFromString (datetimeToString { demoTime with nanosecond := 1 / 3 }) =
    .ok { demoTime with nanosecond := 333333333333333 / 1000000000000000 } := by
  unfold datetimeFromString datetimeToString
  rw [String.toList_ofList]
  decide +kernel

/-- text after the time is refused -/
example : datetimeFromString (datetimeToString demoTime ++ " UTC") = .error .value :=
  C47_trailing_text_refused demoTime (by decide +kernel) (by decide) " UTC" ' ' "UTC".toList (by decide +kernel) (by decide)

/-- the year 1900 has no 29th of February, the year 2000 has -/
example : ¬ CalTime.Valid { year := 1900, month := 2, day := 29 } ∧ CalTime.Valid { year := 2000, month := 2, day := 29 } := by
  constructor
  · rw [(C47_calendar 1900 (by norm_num)).2 _ rfl rfl rfl]; norm_num
  · rw [(C47_calendar 2000 (by norm_num)).2 _ rfl rfl rfl]; norm_num

end Resistics
