import Verif.Model.FloatText
import Verif.Lemmas.Sampling
import Mathlib.Tactic.Linarith
import Mathlib.Tactic.FieldSimp
import Mathlib.Tactic.NormNum
import Mathlib.Tactic.Positivity
import Mathlib.Tactic.Ring
import Mathlib.Algebra.Order.Field.Power
import Mathlib.Data.List.TakeDrop

/-!
# C74: numbers survive being written as text
-/

namespace Resistics

/-! ## Specification -/

/-- The finite numbers of IEEE double precision: 53 bits, exponents from -1074 to 971. -/
def IsDouble (q : ℚ) : Prop := ∃ k e : ℤ, |k| < 2 ^ 53 ∧ -1074 ≤ e ∧ e ≤ 971 ∧ q = (k : ℚ) * 2 ^ e

/-! ## Rounding to doubles -/

theorem pyRound_of_near {x : ℚ} {m : ℤ} (h : |x - m| < 1 / 2) : pyRound x = m := by
  have hn := pyRound_near x
  rw [abs_le] at hn
  rw [abs_lt] at h
  have h1 : (pyRound x : ℚ) < m + 1 := by linarith [hn.2, h.2]
  have h2 : (m : ℚ) - 1 < pyRound x := by linarith [hn.1, h.1]
  have h1' : pyRound x < m + 1 := by exact_mod_cast h1
  have h2' : m - 1 < pyRound x := by exact_mod_cast h2
  omega

theorem nearestDouble_of_near {c x : ℚ} (hc : c ≠ 0) (m : ℤ) (hx : x = m * 2 ^ lastBit c)
    (h : |c - x| < 2 ^ lastBit c / 2) : nearestDouble c = x := by
  have h2 : (0 : ℚ) < (2 : ℚ) ^ lastBit c := by positivity
  unfold nearestDouble
  rw [if_neg hc, hx]
  congr 2
  apply pyRound_of_near
  rw [show c / 2 ^ lastBit c - m = (c - x) / 2 ^ lastBit c by rw [hx]; field_simp]
  rw [abs_div, abs_of_pos h2, div_lt_iff₀ h2]
  linarith

theorem log_of_bounds {x : ℚ} {E : ℤ} (h1 : (2 : ℚ) ^ E ≤ x) (h2 : x < 2 ^ (E + 1)) : Int.log 2 x = E := by
  have hx : 0 < x := lt_of_lt_of_le (by positivity) h1
  have a := (Int.zpow_le_iff_le_log (b := 2) (by norm_num) hx).1 (by exact_mod_cast h1)
  have b := (Int.lt_zpow_iff_log_lt (b := 2) (by norm_num) hx).1 (by exact_mod_cast h2)
  omega

theorem log_bounds {x : ℚ} (hx : 0 < x) : (2 : ℚ) ^ Int.log 2 x ≤ x ∧ x < 2 ^ (Int.log 2 x + 1) := by
  have a := Int.zpow_log_le_self (b := 2) (by norm_num) hx
  have b := Int.lt_zpow_succ_log_self (b := 2) (by norm_num) x
  exact ⟨by exact_mod_cast a, by exact_mod_cast b⟩

/-- a double is a multiple of its last bit -/
theorem multiple_of_le {k e g : ℤ} (h : g ≤ e) : (k : ℚ) * 2 ^ e = ((k * 2 ^ (e - g).toNat : ℤ) : ℚ) * 2 ^ g := by
  push_cast
  rw [mul_assoc, ← zpow_natCast, Int.toNat_of_nonneg (by omega), ← zpow_add₀ (by norm_num)]
  congr 2
  omega

theorem double_log_le {k e : ℤ} (hk : |k| < 2 ^ 53) (hx : (0 : ℚ) < (k : ℚ) * 2 ^ e) : Int.log 2 ((k : ℚ) * 2 ^ e) ≤ 52 + e := by
  have h2 : (0 : ℚ) < (2 : ℚ) ^ e := by positivity
  have h1 : (k : ℚ) * 2 ^ e < (2 : ℚ) ^ (53 + e) := by
    rw [zpow_add₀ (by norm_num)]
    have : (k : ℚ) < 2 ^ 53 := by exact_mod_cast lt_of_le_of_lt (le_abs_self k) hk
    have h3 := mul_lt_mul_of_pos_right this h2
    norm_num at h3 ⊢
    exact h3
  have h3 := (Int.lt_zpow_iff_log_lt (b := 2) (by norm_num) hx).1 (by exact_mod_cast h1)
  omega

/-- Two multiples of a step with one below the other are a step apart. -/
theorem step_apart {a b : ℤ} {s : ℚ} (hs : 0 < s) (h : (a : ℚ) * s < b * s) : (a : ℚ) * s + s ≤ b * s := by
  have h1 : (a : ℚ) < b := lt_of_mul_lt_mul_right h hs.le
  have h2 : a + 1 ≤ b := by exact_mod_cast h1
  have h3 : (a : ℚ) + 1 ≤ b := by exact_mod_cast h2
  nlinarith

/-- A positive double is the nearest double of every number whose relative distance is at most half of `10 ^ -16`. -/
theorem nearestDouble_decimal {x c : ℚ} (hx : 0 < x) (hd : IsDouble x) (h : |c - x| ≤ x / (2 * 10 ^ 16)) : nearestDouble c = x := by
  obtain ⟨k, e, hk, he, -, rfl⟩ := hd
  set x : ℚ := (k : ℚ) * 2 ^ e with hxdef
  have hlog := double_log_le hk hx
  rw [← hxdef] at hlog
  obtain ⟨hb1, hb2⟩ := log_bounds hx
  set E := Int.log 2 x with hE
  have hk0 : 0 < k := by
    have h2 : (0 : ℚ) < (2 : ℚ) ^ e := by positivity
    have := pos_of_mul_pos_left (a := (k : ℚ)) (b := 2 ^ e) hx h2.le
    exact_mod_cast this
  have hEmin : e ≤ E := by
    have h1 : (2 : ℚ) ^ e ≤ x := by
      rw [hxdef]
      have : (1 : ℚ) ≤ k := by exact_mod_cast hk0
      have h2 : (0 : ℚ) < (2 : ℚ) ^ e := by positivity
      nlinarith
    exact (Int.zpow_le_iff_le_log (b := 2) (by norm_num) hx).1 (by exact_mod_cast h1)
  rw [abs_le] at h
  have hP : (0 : ℚ) < (2 : ℚ) ^ E := by positivity
  have hE1 : (2 : ℚ) ^ (E + 1) = 2 * 2 ^ E := by rw [zpow_add₀ (by norm_num)]; ring
  have hm52 : (2 : ℚ) ^ (E - 52) = 2 ^ E / 2 ^ 52 := by rw [zpow_sub₀ (by norm_num)]; norm_num
  have hm53 : (2 : ℚ) ^ (E - 53) = 2 ^ E / 2 ^ 53 := by rw [zpow_sub₀ (by norm_num)]; norm_num
  have hE2 : (2 : ℚ) ^ (E - 1) = 2 ^ E / 2 := by rw [zpow_sub₀ (by norm_num)]; norm_num
  have hc0 : 0 < c := by nlinarith [h.1]
  have hsmall : x / (2 * 10 ^ 16) < 2 ^ E / 2 ^ 53 := by
    rw [hE1] at hb2
    have : (2 * 2 ^ E : ℚ) / (2 * 10 ^ 16) < 2 ^ E / 2 ^ 53 := by
      rw [div_lt_div_iff₀ (by norm_num) (by norm_num)]
      nlinarith
    have h3 : x / (2 * 10 ^ 16) < (2 * 2 ^ E : ℚ) / (2 * 10 ^ 16) := div_lt_div_of_pos_right hb2 (by norm_num)
    linarith
  -- the last bit of `x`
  set g := max (E - 52) (-1074 : ℤ) with hg
  have hge : g ≤ e := by omega
  have hgE : g ≤ E := by omega
  have hgE1 : g ≤ E + 1 := by omega
  have hgpos : (0 : ℚ) < (2 : ℚ) ^ g := by positivity
  have hg52 : (2 : ℚ) ^ (E - 52) ≤ 2 ^ g := zpow_le_zpow_right₀ (by norm_num) (le_max_left _ _)
  have hxm := multiple_of_le (k := k) hge
  rw [← hxdef] at hxm
  -- the distance is less than half of the last bit
  have hhalf : |c - x| < 2 ^ g / 2 := by
    rw [abs_lt]
    rw [hm52] at hg52
    have e1 : (2 : ℚ) ^ E / 2 ^ 53 = (2 : ℚ) ^ E / 2 ^ 52 / 2 := by rw [div_div]; norm_num
    constructor <;> linarith [h.1, h.2]
  have hupper : c < 2 ^ (E + 1) := by
    by_contra hcon
    push Not at hcon
    have hone : ((1 : ℤ) : ℚ) * 2 ^ (E + 1) = ((1 * 2 ^ (E + 1 - g).toNat : ℤ) : ℚ) * 2 ^ g := multiple_of_le hgE1
    have h1 := step_apart (a := k * 2 ^ (e - g).toNat) (b := 1 * 2 ^ (E + 1 - g).toNat) hgpos (by
      rw [← hone, ← hxm]; simpa using hb2)
    rw [← hone, ← hxm] at h1
    rw [abs_lt] at hhalf
    simp only [Int.cast_one, one_mul] at h1
    linarith [hhalf.2]
  by_cases hlow : (2 : ℚ) ^ E ≤ c
  · have hl : lastBit c = g := by
      unfold lastBit
      rw [abs_of_pos hc0, log_of_bounds hlow hupper]
    refine nearestDouble_of_near hc0.ne' (k * 2 ^ (e - g).toNat) (by rw [hl]; exact hxm) (by rw [hl]; exact hhalf)
  · push Not at hlow
    have hxE : x = 2 ^ E := by
      by_contra hne
      have hlt : (2 : ℚ) ^ E < x := lt_of_le_of_ne hb1 (Ne.symm hne)
      have hone : ((1 : ℤ) : ℚ) * 2 ^ E = ((1 * 2 ^ (E - g).toNat : ℤ) : ℚ) * 2 ^ g := multiple_of_le hgE
      have h1 := step_apart (a := 1 * 2 ^ (E - g).toNat) (b := k * 2 ^ (e - g).toNat) hgpos (by
        rw [← hone, ← hxm]; simpa using hlt)
      rw [← hone, ← hxm] at h1
      rw [abs_lt] at hhalf
      simp only [Int.cast_one, one_mul] at h1
      linarith [hhalf.1]
    have hlog' : Int.log 2 c = E - 1 := by
      refine log_of_bounds ?_ (by rw [show E - 1 + 1 = E by ring]; exact hlow)
      rw [hE2]
      nlinarith [h.1]
    have hl : lastBit c = max (E - 53) (-1074) := by
      unfold lastBit
      rw [abs_of_pos hc0, hlog', show E - 1 - 52 = E - 53 by ring]
    have hle : max (E - 53) (-1074 : ℤ) ≤ e := by omega
    have hxm' := multiple_of_le (k := k) hle
    rw [← hxdef] at hxm'
    refine nearestDouble_of_near hc0.ne' _ (by rw [hl]; exact hxm') ?_
    rw [hl]
    have hg53 : (2 : ℚ) ^ (E - 53) ≤ 2 ^ max (E - 53) (-1074 : ℤ) := zpow_le_zpow_right₀ (by norm_num) (le_max_left _ _)
    have hq : x / (2 * 10 ^ 16) < 2 ^ E / 2 ^ 53 / 2 := by
      rw [hxE]
      rw [div_div, div_lt_div_iff₀ (by norm_num) (by norm_num)]
      nlinarith
    rw [hm53] at hg53
    rw [abs_lt]
    constructor <;> linarith [h.1, h.2]

theorem nearestDouble_neg (x : ℚ) : nearestDouble (-x) = -nearestDouble x := by
  have hp : ∀ y : ℚ, pyRound (-y) = -pyRound y := by
    intro y
    have hf := Int.floor_le y
    have hf' := Int.lt_floor_add_one y
    by_cases hi : y = ⌊y⌋
    · rw [hi]
      rw [show -((⌊y⌋ : ℤ) : ℚ) = ((-⌊y⌋ : ℤ) : ℚ) by push_cast; ring, pyRound_int, pyRound_int]
    · have hlt : (⌊y⌋ : ℚ) < y := lt_of_le_of_ne hf (Ne.symm hi)
      have hfl : ⌊-y⌋ = -⌊y⌋ - 1 := by
        rw [Int.floor_eq_iff]
        push_cast
        constructor <;> linarith
      unfold pyRound
      simp only [hfl]
      push_cast
      by_cases h1 : y - ⌊y⌋ < 1 / 2
      · rw [if_neg (by linarith), if_pos (by linarith), if_pos h1]; ring
      · by_cases h2 : 1 / 2 < y - ⌊y⌋
        · rw [if_pos (by linarith), if_neg h1, if_pos h2]; ring
        · rw [if_neg (by linarith), if_neg (by linarith), if_neg h1, if_neg h2]
          by_cases h3 : ⌊y⌋ % 2 = 0
          · rw [if_neg (by omega), if_pos h3]; ring
          · rw [if_pos (by omega), if_neg h3]; ring
  unfold nearestDouble lastBit
  by_cases h0 : x = 0
  · simp [h0]
  · rw [if_neg h0, if_neg (neg_ne_zero.2 h0), abs_neg, neg_div, hp]
    push_cast
    ring

theorem IsDouble.neg {x : ℚ} (h : IsDouble x) : IsDouble (-x) := by
  obtain ⟨k, e, hk, h1, h2, rfl⟩ := h
  exact ⟨-k, e, by rwa [abs_neg], h1, h2, by push_cast; ring⟩

theorem IsDouble.le_max {x : ℚ} (h : IsDouble x) : |x| ≤ maxDouble := by
  obtain ⟨k, e, hk, -, h2, rfl⟩ := h
  have hp : (0 : ℚ) < (2 : ℚ) ^ e := by positivity
  rw [abs_mul, abs_of_pos hp]
  have hk' : |(k : ℚ)| ≤ 2 ^ 53 - 1 := by
    have : |k| ≤ 2 ^ 53 - 1 := by omega
    exact_mod_cast this
  have he : (2 : ℚ) ^ e ≤ 2 ^ (971 : ℤ) := zpow_le_zpow_right₀ (by norm_num) h2
  unfold maxDouble
  rw [show (971 : ℤ) = ((971 : ℕ) : ℤ) from rfl, zpow_natCast] at he
  exact mul_le_mul hk' he hp.le (by norm_num)

/-- Doubles are not changed. -/
theorem nearestDouble_double {x : ℚ} (h : IsDouble x) : nearestDouble x = x := by
  rcases lt_trichotomy x 0 with hn | h0 | hp
  · have := nearestDouble_decimal (x := -x) (c := -x) (by linarith) h.neg (by simp; linarith)
    rw [nearestDouble_neg] at this
    linarith
  · simp [h0, nearestDouble]
  · exact nearestDouble_decimal hp h (by simp; linarith)

theorem toDouble_double {x : ℚ} (h : IsDouble x) : toDouble x = .float x := by
  unfold toDouble
  rw [nearestDouble_double h, if_pos h.le_max]

theorem toDouble_of_nearest {x c : ℚ} (h : IsDouble x) (hc : nearestDouble c = x) : toDouble c = .float x := by
  unfold toDouble
  rw [hc, if_pos h.le_max]

/-! ## The digits -/

theorem nearerDecimal_cases (y : ℚ) (lo : ℕ) : nearerDecimal y lo = lo ∨ nearerDecimal y lo = lo + 1 := by
  unfold nearerDecimal
  split_ifs <;> simp

theorem nearerDecimal_near {y : ℚ} {lo : ℕ} (h1 : (lo : ℚ) ≤ y) (h2 : y < lo + 1) : |(nearerDecimal y lo : ℚ) - y| ≤ 1 / 2 := by
  unfold nearerDecimal
  rw [abs_le]
  split_ifs <;> push_cast <;> constructor <;> linarith

theorem pickDecimal_reads {x : ℚ} {n m : ℕ} (h : pickDecimal x n = some m) : nearestDouble ((m : ℚ) * 10 ^ lastDigit x n) = x := by
  unfold pickDecimal at h
  simp only [readsBack, decide_eq_true_eq] at h
  split_ifs at h with h1 h2 h3
  · have hm := Option.some.inj h
    rcases nearerDecimal_cases (x / 10 ^ lastDigit x n) ⌊x / 10 ^ lastDigit x n⌋.toNat with h4 | h4
    · rw [← hm, h4]; exact h1.1
    · rw [← hm, h4]; exact h1.2
  · rw [← Option.some.inj h]; exact h2
  · rw [← Option.some.inj h]; exact h3

theorem pickDecimal_seventeen {x : ℚ} (hx : 0 < x) (hd : IsDouble x) : ∃ m, pickDecimal x 17 = some m := by
  have hlog := Int.zpow_log_le_self (b := 10) (by norm_num) hx
  have hk : (10 : ℚ) ^ lastDigit x 17 * 10 ^ 16 ≤ x := by
    have : (10 : ℚ) ^ lastDigit x 17 * 10 ^ 16 = 10 ^ Int.log 10 x := by
      unfold lastDigit
      rw [zpow_sub₀ (by norm_num)]
      norm_num
    rw [this]
    exact_mod_cast hlog
  have hp : (0 : ℚ) < (10 : ℚ) ^ lastDigit x 17 := by positivity
  set k := lastDigit x 17 with hkdef
  set y := x / (10 : ℚ) ^ k with hy
  have hy0 : 0 ≤ y := by positivity
  have hlo : ((⌊y⌋.toNat : ℕ) : ℚ) = (⌊y⌋ : ℚ) := by
    have : ((⌊y⌋.toNat : ℕ) : ℤ) = ⌊y⌋ := Int.toNat_of_nonneg (Int.floor_nonneg.2 hy0)
    exact_mod_cast this
  have hnear := nearerDecimal_near (y := y) (lo := ⌊y⌋.toNat) (by rw [hlo]; exact Int.floor_le y)
    (by rw [hlo]; exact Int.lt_floor_add_one y)
  have hreads : nearestDouble ((nearerDecimal y ⌊y⌋.toNat : ℚ) * 10 ^ k) = x := by
    apply nearestDouble_decimal hx hd
    have e : (nearerDecimal y ⌊y⌋.toNat : ℚ) * 10 ^ k - x = ((nearerDecimal y ⌊y⌋.toNat : ℚ) - y) * 10 ^ k := by
      rw [sub_mul, hy, div_mul_cancel₀ _ hp.ne']
    rw [e, abs_mul, abs_of_pos hp, le_div_iff₀ (by norm_num)]
    nlinarith
  unfold pickDecimal
  simp only [readsBack, decide_eq_true_eq, ← hkdef, ← hy]
  rcases nearerDecimal_cases y ⌊y⌋.toNat with h4 | h4 <;> rw [h4] at hreads
  · split_ifs <;> first | exact ⟨_, rfl⟩ | skip
  · split_ifs <;> first | exact ⟨_, rfl⟩ | skip

/-- the digits that are written are read back as the number -/
theorem shortestDecimal_reads {x : ℚ} (hx : 0 < x) (hd : IsDouble x) :
    nearestDouble (((shortestDecimal x).1 : ℚ) * 10 ^ (shortestDecimal x).2) = x := by
  obtain ⟨m, hm⟩ := pickDecimal_seventeen hx hd
  unfold shortestDecimal
  cases hf : (List.range 17).findSome? (pickWithPlace x) with
  | none =>
    rw [List.findSome?_eq_none_iff] at hf
    have := hf 16 (by simp)
    simp [pickWithPlace, hm] at this
  | some r =>
    obtain ⟨i, -, hi⟩ := List.exists_of_findSome?_eq_some hf
    unfold pickWithPlace at hi
    rw [Option.map_eq_some_iff] at hi
    obtain ⟨m', hm', rfl⟩ := hi
    exact pickDecimal_reads hm'

theorem shortestDecimal_pos {x : ℚ} (hx : 0 < x) (hd : IsDouble x) : 0 < (shortestDecimal x).1 := by
  rcases Nat.eq_zero_or_pos (shortestDecimal x).1 with h | h
  · have := shortestDecimal_reads hx hd
    rw [h] at this
    simp [nearestDouble] at this
    linarith
  · exact h

/-! ## Digits as text -/

theorem digitsValue_eq (ds : List Char) : digitsValue ds = Nat.ofDigitChars 10 ds 0 := by
  rw [Nat.ofDigitChars_eq_foldl]; rfl

theorem digitsValue_append (a b : List Char) : digitsValue (a ++ b) = digitsValue a * 10 ^ b.length + digitsValue b := by
  rw [digitsValue_eq, digitsValue_eq, digitsValue_eq, Nat.ofDigitChars_append, Nat.ofDigitChars_eq_ofDigitChars_zero]
  ring

theorem digitsValue_toDigits (n : ℕ) : digitsValue (Nat.toDigits 10 n) = n := by
  rw [digitsValue_eq, Nat.ofDigitChars_ten_toDigits]

theorem digitsValue_zeros (n : ℕ) : digitsValue (List.replicate n '0') = 0 := by
  rw [digitsValue_eq, Nat.ofDigitChars_replicate_zero, Nat.mul_zero]

/-- All of them are digits. -/
def AllDigits (ds : List Char) : Prop := ∀ c ∈ ds, isDecDigit c = true

theorem isDecDigit_eq (c : Char) : isDecDigit c = c.isDigit := by
  unfold isDecDigit Char.isDigit
  rfl

theorem allDigits_toDigits (n : ℕ) : AllDigits (Nat.toDigits 10 n) := by
  intro c hc
  rw [isDecDigit_eq]
  exact Nat.isDigit_of_mem_toDigits (by norm_num) (by norm_num) hc

theorem allDigits_zeros (n : ℕ) : AllDigits (List.replicate n '0') := by
  intro c hc
  rw [List.eq_of_mem_replicate hc]
  decide

theorem AllDigits.append {a b : List Char} (ha : AllDigits a) (hb : AllDigits b) : AllDigits (a ++ b) := by
  intro c hc
  rcases List.mem_append.1 hc with h | h
  · exact ha c h
  · exact hb c h

theorem AllDigits.sublist {a b : List Char} (hb : AllDigits b) (h : ∀ c ∈ a, c ∈ b) : AllDigits a := fun c hc => hb c (h c hc)

/-- A number starts with a zero only if it is zero. -/
theorem toDigits_head {n : ℕ} (hn : 0 < n) : ∀ c ∈ (Nat.toDigits 10 n).head?, c ≠ '0' := by
  induction n using Nat.strong_induction_on with
  | _ n ih =>
    intro c hc
    by_cases hlt : n < 10
    · rw [Nat.toDigits_of_lt_base hlt] at hc
      simp only [List.head?_cons, Option.mem_def, Option.some.injEq] at hc
      rw [← hc]
      rcases (by omega : n = 1 ∨ n = 2 ∨ n = 3 ∨ n = 4 ∨ n = 5 ∨ n = 6 ∨ n = 7 ∨ n = 8 ∨ n = 9) with
        h | h | h | h | h | h | h | h | h <;> subst h <;> decide
    · push Not at hlt
      rw [Nat.toDigits_of_base_le (by norm_num) hlt] at hc
      rw [List.head?_append_of_ne_nil _ Nat.toDigits_ne_nil] at hc
      exact ih (n / 10) (Nat.div_lt_self (by omega) (by norm_num)) (Nat.div_pos hlt (by norm_num)) c hc

theorem stripZeros_append (ds : List Char) : ∃ j, ds = stripZeros ds ++ List.replicate j '0' := by
  have h := List.takeWhile_append_dropWhile (p := fun c => c == '0') (l := ds.reverse)
  refine ⟨(ds.reverse.takeWhile fun c => c == '0').length, ?_⟩
  have hrep : (ds.reverse.takeWhile fun c => c == '0') = List.replicate (ds.reverse.takeWhile fun c => c == '0').length '0' := by
    rw [List.eq_replicate_iff]
    refine ⟨rfl, fun c hc => ?_⟩
    have := List.all_takeWhile (p := fun c => c == '0') (l := ds.reverse)
    rw [List.all_eq_true] at this
    simpa using this c hc
  unfold stripZeros
  calc ds = ds.reverse.reverse := (List.reverse_reverse _).symm
    _ = ((ds.reverse.takeWhile fun c => c == '0') ++ ds.reverse.dropWhile fun c => c == '0').reverse := by rw [h]
    _ = _ := by rw [List.reverse_append]; congr 1; conv_lhs => rw [hrep]
                rw [List.reverse_replicate]


/-! ## Reading -/

theorem spanDigits_append {ds rest : List Char} (h : AllDigits ds) (hr : ∀ c ∈ rest.head?, isDecDigit c = false) :
    spanDigits (ds ++ rest) = (ds, rest) := by
  unfold spanDigits
  rw [List.span_eq_takeWhile_dropWhile, List.takeWhile_append_of_pos h, List.dropWhile_append_of_pos h]
  cases rest with
  | nil => simp
  | cons c cs =>
    have hc := hr c (by simp)
    simp [List.takeWhile_cons, List.dropWhile_cons, hc]

theorem spanDigits_all {ds : List Char} (h : AllDigits ds) : spanDigits ds = (ds, []) := by
  have := spanDigits_append (rest := []) h (by simp)
  rwa [List.append_nil] at this

theorem readMinus_other {cs : List Char} (h : ∀ c ∈ cs.head?, c ≠ '-') : readMinus cs = (false, cs) := by
  unfold readMinus
  split
  · exact absurd rfl (h '-' (by simp))
  · rfl

theorem readSign_other {cs : List Char} (h : ∀ c ∈ cs.head?, c ≠ '-' ∧ c ≠ '+') : readSign cs = (false, cs) := by
  unfold readSign
  split
  · exact absurd rfl (h '-' (by simp)).1
  · exact absurd rfl (h '+' (by simp)).2
  · rfl

theorem AllDigits.head_ne {ds : List Char} (h : AllDigits ds) (x : Char) (hx : isDecDigit x = false) :
    ∀ c ∈ ds.head?, c ≠ x := by
  intro c hc hcx
  have := h c (List.mem_of_mem_head? hc)
  rw [hcx, hx] at this
  simp at this

/-- The sign of a number. -/
def signText (neg : Bool) : List Char := if neg then ['-'] else []

theorem read_pieces (neg : Bool) {whole tail t2 : List Char} {frac : Option (List Char)} {e : Option ℤ} (hw : AllDigits whole)
    (hg : goodWhole whole = true) (ht : ∀ c ∈ tail.head?, isDecDigit c = false) (h1 : readFraction tail = some (frac, t2))
    (h2 : readExponent t2 = some (e, [])) :
    readNumberText (signText neg ++ (whole ++ tail)) = some (numberOf neg whole frac e) := by
  have hm : readMinus (signText neg ++ (whole ++ tail)) = (neg, whole ++ tail) := by
    cases neg with
    | true => rfl
    | false =>
      apply readMinus_other
      intro c hc
      cases whole with
      | nil => simp [goodWhole] at hg
      | cons d ds => exact hw.head_ne '-' (by decide) c (by simpa [signText] using hc)
  unfold readNumberText
  simp only [hm, spanDigits_append hw ht, hg, guard, if_true, h1, h2, bind, Option.bind, pure]

theorem readFraction_point {ds rest : List Char} (h : AllDigits ds) (hne : ds ≠ []) (hr : ∀ c ∈ rest.head?, isDecDigit c = false) :
    readFraction ('.' :: (ds ++ rest)) = some (some ds, rest) := by
  unfold readFraction
  simp only [spanDigits_append h hr, if_neg hne]

theorem readFraction_none {cs : List Char} (h : ∀ c ∈ cs.head?, c ≠ '.') : readFraction cs = some (none, cs) := by
  unfold readFraction
  split
  · exact absurd rfl (h '.' (by simp))
  · rfl

theorem readExponent_nil : readExponent [] = some (none, []) := rfl

/-- the digits of an exponent -/
theorem exponent_digits (n : ℕ) : AllDigits (if n < 10 then '0' :: Nat.toDigits 10 n else Nat.toDigits 10 n) ∧
    (if n < 10 then '0' :: Nat.toDigits 10 n else Nat.toDigits 10 n) ≠ [] ∧
    digitsValue (if n < 10 then '0' :: Nat.toDigits 10 n else Nat.toDigits 10 n) = n := by
  split
  · refine ⟨(AllDigits.append (a := ['0']) (by intro c hc; simp at hc; subst hc; decide) (allDigits_toDigits n)), by simp, ?_⟩
    have := digitsValue_append ['0'] (Nat.toDigits 10 n)
    rw [show ['0'] ++ Nat.toDigits 10 n = '0' :: Nat.toDigits 10 n from rfl] at this
    rw [this, digitsValue_toDigits]
    simp [digitsValue]
  · exact ⟨allDigits_toDigits n, Nat.toDigits_ne_nil, digitsValue_toDigits n⟩

theorem readExponent_text (e : ℤ) : readExponent (exponentText e) = some (some e, []) := by
  obtain ⟨h1, h2, h3⟩ := exponent_digits e.natAbs
  unfold exponentText readExponent
  generalize (if e.natAbs < 10 then '0' :: Nat.toDigits 10 e.natAbs else Nat.toDigits 10 e.natAbs) = ds at h1 h2 h3 ⊢
  by_cases hneg : e < 0
  · simp only [hneg, if_true, readSign, exponentDigits, spanDigits_all h1, if_neg h2, h3]
    congr 3
    omega
  · simp only [hneg, if_false, readSign, exponentDigits, spanDigits_all h1, if_neg h2, h3]
    congr 3
    simp only [Bool.false_eq_true, if_false]
    omega

theorem exponentText_head (e : ℤ) : ∀ c ∈ (exponentText e).head?, isDecDigit c = false ∧ c ≠ '.' := by
  intro c hc
  unfold exponentText at hc
  simp only [List.head?_cons, Option.mem_def, Option.some.injEq] at hc
  rw [← hc]
  decide

/-- The sign of a number. -/
def signValue (neg : Bool) : ℚ := if neg then -1 else 1

theorem goodWhole_of_head {ds : List Char} (hne : ds ≠ []) (h0 : ∀ c ∈ ds.head?, c ≠ '0') : goodWhole ds = true := by
  cases ds with
  | nil => simp at hne
  | cons c cs =>
    cases cs with
    | nil => rfl
    | cons d ds => simpa [goodWhole] using h0 c (by simp)

/-- A number is read from its layout, whatever digits and place of the point. -/
theorem layout_reads (neg : Bool) {ds : List Char} (hd : AllDigits ds) (hne : ds ≠ []) (h0 : ∀ c ∈ ds.head?, c ≠ '0') (point : ℤ) :
    readNumberText (signText neg ++ layoutDigits ds point) =
      some (toDouble (signValue neg * ((digitsValue ds : ℚ) * (10 : ℚ) ^ (point - ds.length)))) := by
  unfold layoutDigits
  by_cases hexp : point ≤ -4 ∨ 16 < point
  · rw [if_pos hexp]
    cases ds with
    | nil => simp at hne
    | cons c cs =>
      have hc : AllDigits [c] := hd.sublist (by simp)
      have hcs : AllDigits cs := hd.sublist (by simp +contextual)
      simp only [List.take_succ_cons, List.take_zero, List.drop_succ_cons, List.drop_zero, List.append_assoc]
      cases cs with
      | nil =>
        simp only [moreDigits, List.nil_append]
        rw [read_pieces neg hc rfl (fun c hc => (exponentText_head _ c hc).1)
          (readFraction_none fun c hc => (exponentText_head _ c hc).2) (readExponent_text _)]
        simp [numberOf, decimalValue, signValue]
      | cons d ds =>
        simp only [moreDigits]
        refine (read_pieces neg (tail := '.' :: (d :: ds ++ exponentText (point - 1))) hc rfl
          (by intro c hc; simp at hc; subst hc; decide)
          (readFraction_point hcs (by simp) fun c hc => (exponentText_head _ c hc).1) (readExponent_text _)).trans ?_
        simp only [numberOf, reduceCtorEq, false_and, if_false, Option.getD_some, decimalValue, signValue, List.singleton_append]
        rw [show point - 1 - ((d :: ds).length : ℤ) = point - ((c :: d :: ds).length : ℤ) by simp; ring]
  rw [if_neg hexp]
  push Not at hexp
  by_cases hneg : point ≤ 0
  · rw [if_pos hneg]
    have hz := (allDigits_zeros (-point).toNat).append hd
    have := read_pieces neg (whole := ['0']) (tail := '.' :: (List.replicate (-point).toNat '0' ++ ds ++ [])) (by
      intro c hc; simp at hc; subst hc; decide) rfl (by intro c hc; simp at hc; subst hc; decide)
      (readFraction_point hz (by simp [hne]) (by simp)) readExponent_nil
    rw [List.append_nil] at this
    refine this.trans ?_
    simp only [numberOf, reduceCtorEq, false_and, if_false, Option.getD_some, Option.getD_none, decimalValue, signValue]
    rw [show ['0'] ++ (List.replicate (-point).toNat '0' ++ ds) = (List.replicate ((-point).toNat + 1) '0') ++ ds by
      rw [List.replicate_succ]; simp, digitsValue_append, digitsValue_zeros]
    simp only [List.length_append, List.length_replicate, Nat.zero_mul, Nat.zero_add]
    rw [show (0 : ℤ) - (((-point).toNat + ds.length : ℕ) : ℤ) = point - ds.length by omega]
  rw [if_neg hneg]
  push Not at hneg
  by_cases hin : point < ds.length
  · rw [if_pos hin]
    obtain ⟨p, rfl⟩ : ∃ p : ℕ, point = p := ⟨point.toNat, by omega⟩
    simp only [Int.toNat_natCast]
    have hp : p < ds.length := by omega
    have ht : AllDigits (ds.take p) := hd.sublist fun c => List.mem_of_mem_take
    have hdr : AllDigits (ds.drop p) := hd.sublist fun c => List.mem_of_mem_drop
    have htne : ds.take p ≠ [] := by
      rw [Ne, List.take_eq_nil_iff]; push Not; exact ⟨by omega, hne⟩
    have hth : ∀ c ∈ (ds.take p).head?, c ≠ '0' := by
      intro c hc
      apply h0
      rwa [List.head?_take, if_neg (by omega)] at hc
    have := read_pieces neg (whole := ds.take p) (tail := '.' :: (ds.drop p ++ [])) ht (goodWhole_of_head htne hth)
      (by intro c hc; simp at hc; subst hc; decide)
      (readFraction_point hdr (by rw [Ne, List.drop_eq_nil_iff]; omega) (by simp)) readExponent_nil
    rw [List.append_nil] at this
    rw [this]
    simp only [numberOf, reduceCtorEq, false_and, if_false, Option.getD_some, Option.getD_none, decimalValue, signValue,
      List.take_append_drop, List.length_drop]
    rw [show (0 : ℤ) - ((ds.length - p : ℕ) : ℤ) = p - ds.length by omega]
  · rw [if_neg hin]
    push Not at hin
    have hz := hd.append (allDigits_zeros (point - ds.length).toNat)
    have hne' : ds ++ List.replicate (point - ds.length).toNat '0' ≠ [] := by simp [hne]
    have hh : ∀ c ∈ (ds ++ List.replicate (point - ds.length).toNat '0').head?, c ≠ '0' := by
      rw [List.head?_append_of_ne_nil _ hne]
      exact h0
    have := read_pieces neg (tail := '.' :: (['0'] ++ [])) hz (goodWhole_of_head hne' hh)
      (by intro c hc; simp at hc; subst hc; decide)
      (readFraction_point (by intro c hc; simp at hc; subst hc; decide) (by simp) (by simp)) readExponent_nil
    refine this.trans ?_
    simp only [numberOf, reduceCtorEq, false_and, if_false, Option.getD_some, Option.getD_none, decimalValue, signValue]
    rw [List.append_assoc, show List.replicate (point - ds.length).toNat '0' ++ ['0'] =
      List.replicate ((point - ds.length).toNat + 1) '0' by rw [List.replicate_succ'], digitsValue_append, digitsValue_zeros]
    simp only [List.length_replicate, Nat.add_zero, List.length_singleton]
    congr 3
    push_cast
    rw [mul_assoc, ← zpow_natCast, ← zpow_add₀ (by norm_num)]
    congr 2
    push_cast
    omega

theorem positiveText_reads (neg : Bool) {x : ℚ} (hx : 0 < x) (hd : IsDouble x) :
    readNumberText (signText neg ++ positiveText x) = some (.float (signValue neg * x)) := by
  have hreads := shortestDecimal_reads hx hd
  have hpos := shortestDecimal_pos hx hd
  unfold positiveText
  simp only
  generalize hm : (shortestDecimal x).1 = m at hreads hpos
  generalize (shortestDecimal x).2 = k at hreads
  obtain ⟨j, hj⟩ := stripZeros_append (Nat.toDigits 10 m)
  have hall := allDigits_toDigits m
  have hval := digitsValue_toDigits m
  have hhead := toDigits_head hpos
  generalize hS : stripZeros (Nat.toDigits 10 m) = S at hj
  have hlen : ((Nat.toDigits 10 m).length : ℤ) = S.length + j := by rw [hj]; simp
  rw [hlen]
  rw [hj] at hall hval hhead
  rw [digitsValue_append, digitsValue_zeros, List.length_replicate, Nat.add_zero] at hval
  have hSne : S ≠ [] := by
    rintro rfl
    simp [digitsValue] at hval
    omega
  rw [List.head?_append_of_ne_nil _ hSne] at hhead
  rw [layout_reads neg (hall.sublist (by simp +contextual)) hSne hhead]
  have hv : (digitsValue S : ℚ) * (10 : ℚ) ^ ((S.length : ℤ) + j + k - S.length) = (m : ℚ) * 10 ^ k := by
    rw [← hval]
    push_cast
    rw [mul_assoc, ← zpow_natCast, ← zpow_add₀ (by norm_num)]
    congr 2
    ring
  rw [hv]
  congr 1
  cases neg with
  | false => simp only [signValue, Bool.false_eq_true, if_false, one_mul]; exact toDouble_of_nearest hd hreads
  | true =>
    simp only [signValue, if_true, neg_one_mul]
    exact toDouble_of_nearest hd.neg (by rw [nearestDouble_neg, hreads])

/-- **C74 (floating point numbers)**: every finite double is read back unchanged from the text that is written for it. -/
theorem C74_float (q : ℚ) (h : IsDouble q) : readNumberText (floatText q) = some (.float q) := by
  unfold floatText
  by_cases h0 : q = 0
  · rw [if_pos h0, h0]
    decide +kernel
  rw [if_neg h0]
  by_cases hn : q < 0
  · rw [if_pos hn]
    have := positiveText_reads true (x := -q) (by linarith) h.neg
    simpa [signText, signValue] using this
  · rw [if_neg hn]
    have := positiveText_reads false (x := q) (lt_of_le_of_ne (not_lt.1 hn) (Ne.symm h0)) h
    simpa [signText, signValue] using this

/-- **C74 (whole numbers)**: every whole number is read back unchanged from the text that is written for it. -/
theorem C74_int (n : ℤ) : readNumberText (intText n) = some (.int n) := by
  have key : ∀ neg : Bool, readNumberText (signText neg ++ Nat.toDigits 10 n.natAbs) =
      some (.int (if neg then -(n.natAbs : ℤ) else n.natAbs)) := by
    intro neg
    have hg : goodWhole (Nat.toDigits 10 n.natAbs) = true := by
      rcases Nat.eq_zero_or_pos n.natAbs with h | h
      · rw [h]; rfl
      · exact goodWhole_of_head Nat.toDigits_ne_nil (toDigits_head h)
    have := read_pieces neg (tail := []) (allDigits_toDigits n.natAbs) hg (by simp) (readFraction_none (by simp)) readExponent_nil
    rw [List.append_nil] at this
    rw [this]
    simp [numberOf, digitsValue_toDigits]
  unfold intText
  by_cases hn : n < 0
  · rw [if_pos hn]
    have := key true
    simp only [signText, if_true, List.singleton_append] at this
    rw [this]
    congr 2
    omega
  · rw [if_neg hn]
    have := key false
    simp only [signText, Bool.false_eq_true, if_false, List.nil_append] at this
    rw [this]
    congr 2
    omega

/-! ## Reading rounds correctly -/

/-- no whole number is nearer -/
theorem pyRound_nearest (y : ℚ) (m : ℤ) : |(pyRound y : ℚ) - y| ≤ |(m : ℚ) - y| := by
  by_contra hcon
  push Not at hcon
  have h1 := pyRound_near y
  have h2 : |(m : ℚ) - y| < 1 / 2 := by linarith
  have h3 := pyRound_of_near (x := y) (m := m) (by rwa [abs_sub_comm])
  rw [h3] at hcon
  exact lt_irrefl _ hcon

theorem abs_lt_of_log {x : ℚ} (hx : x ≠ 0) : (2 : ℚ) ^ Int.log 2 |x| ≤ |x| ∧ |x| < 2 ^ (Int.log 2 |x| + 1) := log_bounds (abs_pos.2 hx)

/-- the nearest double of a number on its grid -/
theorem nearest_multiple {x : ℚ} (hx : x ≠ 0) (m : ℤ) : |nearestDouble x - x| ≤ |(m : ℚ) * 2 ^ lastBit x - x| := by
  have h2 : (0 : ℚ) < (2 : ℚ) ^ lastBit x := by positivity
  unfold nearestDouble
  rw [if_neg hx]
  have e : ∀ a : ℤ, |(a : ℚ) * 2 ^ lastBit x - x| = |(a : ℚ) - x / 2 ^ lastBit x| * 2 ^ lastBit x := by
    intro a
    rw [show (a : ℚ) * 2 ^ lastBit x - x = ((a : ℚ) - x / 2 ^ lastBit x) * 2 ^ lastBit x by
      rw [sub_mul, div_mul_cancel₀ _ h2.ne'], abs_mul, abs_of_pos h2]
  rw [e, e]
  exact mul_le_mul_of_nonneg_right (pyRound_nearest _ m) h2.le

theorem between_abs {r s x : ℚ} (h1 : |r| ≤ s) (h2 : s ≤ |x|) : |(if 0 ≤ x then s else -s) - x| ≤ |r - x| := by
  have hr := abs_le.1 h1
  split
  · rename_i hx
    rw [abs_of_nonneg hx] at h2
    rw [abs_of_nonpos (by linarith), abs_of_nonpos (by linarith)]
    linarith
  · rename_i hx
    push Not at hx
    rw [abs_of_neg hx] at h2
    rw [abs_of_nonneg (by linarith), abs_of_nonneg (by linarith)]
    linarith

/-- no double is nearer than the nearest one -/
theorem nearestDouble_nearest (x r : ℚ) (hr : IsDouble r) : |nearestDouble x - x| ≤ |r - x| := by
  by_cases hx : x = 0
  · simp [hx, nearestDouble]
  obtain ⟨k, e, hk, he, -, rfl⟩ := hr
  by_cases hge : lastBit x ≤ e
  · rw [multiple_of_le hge]
    exact nearest_multiple hx _
  · push Not at hge
    have hg : lastBit x = Int.log 2 |x| - 52 := by
      unfold lastBit at hge ⊢
      omega
    obtain ⟨hb, -⟩ := abs_lt_of_log hx
    set L := Int.log 2 |x| with hL
    have hkr : |(k : ℚ) * 2 ^ e| ≤ 2 ^ L := by
      have h2 : (0 : ℚ) < (2 : ℚ) ^ e := by positivity
      rw [abs_mul, abs_of_pos h2]
      have h3 : |(k : ℚ)| ≤ 2 ^ 53 := by exact_mod_cast hk.le
      have h4 : |(k : ℚ)| * 2 ^ e ≤ 2 ^ (53 : ℤ) * 2 ^ e := by
        have := mul_le_mul_of_nonneg_right h3 h2.le
        norm_num at this ⊢
        exact this
      rw [← zpow_add₀ (by norm_num)] at h4
      exact h4.trans (zpow_le_zpow_right₀ (by norm_num) (by omega))
    have hs := between_abs hkr hb
    refine le_trans ?_ hs
    have hm : ∀ a : ℤ, (a : ℚ) * 2 ^ L = ((a * 2 ^ (L - lastBit x).toNat : ℤ) : ℚ) * 2 ^ lastBit x := fun a =>
      multiple_of_le (by omega)
    by_cases h0 : 0 ≤ x
    · rw [if_pos h0]
      have := nearest_multiple hx (1 * 2 ^ (L - lastBit x).toNat)
      rw [← hm] at this
      simpa using this
    · rw [if_neg h0]
      have := nearest_multiple hx (-1 * 2 ^ (L - lastBit x).toNat)
      rw [← hm] at this
      simpa using this

theorem nearestDouble_isDouble {x : ℚ} (h : |nearestDouble x| ≤ maxDouble) : IsDouble (nearestDouble x) := by
  by_cases hx : x = 0
  · simp only [hx, nearestDouble, if_true]
    exact ⟨0, 0, by norm_num, by norm_num, by norm_num, by simp⟩
  obtain ⟨hb1, hb2⟩ := abs_lt_of_log hx
  have h2 : (0 : ℚ) < (2 : ℚ) ^ lastBit x := by positivity
  -- at most 53 bits
  have hy : |x / 2 ^ lastBit x| ≤ 2 ^ 53 := by
    rw [abs_div, abs_of_pos h2, div_le_iff₀ h2]
    refine hb2.le.trans ?_
    rw [show ((2 : ℚ) ^ 53) = 2 ^ (53 : ℤ) by norm_num, ← zpow_add₀ (by norm_num)]
    exact zpow_le_zpow_right₀ (by norm_num) (by unfold lastBit; omega)
  have hm : |pyRound (x / 2 ^ lastBit x)| ≤ 2 ^ 53 := by
    have hn := pyRound_nearest (x / 2 ^ lastBit x) (if 0 ≤ x / 2 ^ lastBit x then 2 ^ 53 else -2 ^ 53)
    have hnear := abs_le.1 (pyRound_near (x / 2 ^ lastBit x))
    rw [abs_le] at hy
    have u1 : (pyRound (x / 2 ^ lastBit x) : ℚ) < 2 ^ 53 + 1 := by linarith [hy.2, hnear.2]
    have u2 : -2 ^ 53 - 1 < (pyRound (x / 2 ^ lastBit x) : ℚ) := by linarith [hy.1, hnear.1]
    have u1' : pyRound (x / 2 ^ lastBit x) < 2 ^ 53 + 1 := by exact_mod_cast u1
    have u2' : -2 ^ 53 - 1 < pyRound (x / 2 ^ lastBit x) := by exact_mod_cast u2
    rw [abs_le]
    omega
  have hdef : nearestDouble x = (pyRound (x / 2 ^ lastBit x) : ℚ) * 2 ^ lastBit x := by rw [nearestDouble, if_neg hx]
  have hg : lastBit x ≤ 971 := by
    by_contra hcon
    push Not at hcon
    have hL : lastBit x = Int.log 2 |x| - 52 := by unfold lastBit at hcon ⊢; omega
    -- the power of two below `x` is on the grid, so the nearest double is at least as large
    have hp : ∀ a : ℤ, (a : ℚ) * 2 ^ Int.log 2 |x| = ((a * 2 ^ (Int.log 2 |x| - lastBit x).toNat : ℤ) : ℚ) * 2 ^ lastBit x :=
      fun a => multiple_of_le (by omega)
    have hnn : (2 : ℚ) ^ Int.log 2 |x| ≤ |nearestDouble x| := by
      rw [hdef]
      rw [show Int.log 2 |x| = 52 + lastBit x by omega, zpow_add₀ (by norm_num), abs_mul, abs_of_pos h2]
      apply mul_le_mul_of_nonneg_right _ h2.le
      have hy2 : (2 : ℚ) ^ 52 ≤ |x / 2 ^ lastBit x| := by
        rw [abs_div, abs_of_pos h2, le_div_iff₀ h2]
        refine le_trans ?_ hb1
        rw [show Int.log 2 |x| = 52 + lastBit x by omega, zpow_add₀ (by norm_num)]
        norm_num
      have hnear := abs_le.1 (pyRound_near (x / 2 ^ lastBit x))
      have hz : (2 : ℤ) ^ 52 ≤ |pyRound (x / 2 ^ lastBit x)| := by
        rcases le_abs.1 hy2 with h4 | h4
        · have u : (2 : ℚ) ^ 52 - 1 < (pyRound (x / 2 ^ lastBit x) : ℚ) := by linarith [hnear.1]
          have u' : (2 : ℤ) ^ 52 - 1 < pyRound (x / 2 ^ lastBit x) := by exact_mod_cast u
          exact le_trans (by omega) (le_abs_self _)
        · have u : (pyRound (x / 2 ^ lastBit x) : ℚ) < -2 ^ 52 + 1 := by linarith [hnear.2]
          have u' : pyRound (x / 2 ^ lastBit x) < -2 ^ 52 + 1 := by exact_mod_cast u
          exact le_trans (by omega) (neg_le_abs _)
      have : ((2 : ℤ) ^ 52 : ℚ) ≤ |(pyRound (x / 2 ^ lastBit x) : ℚ)| := by exact_mod_cast hz
      norm_num at this ⊢
      exact this
    have hbig : (2 : ℚ) ^ (1024 : ℤ) ≤ 2 ^ Int.log 2 |x| := zpow_le_zpow_right₀ (by norm_num) (by omega)
    have hmax : maxDouble < (2 : ℚ) ^ (1024 : ℤ) := by
      unfold maxDouble
      rw [show (1024 : ℤ) = ((53 + 971 : ℕ) : ℤ) from rfl, zpow_natCast, pow_add]
      apply mul_lt_mul_of_pos_right (by norm_num) (by positivity)
    linarith
  have hlow : -1074 ≤ lastBit x := le_max_right _ _
  by_cases hfull : |pyRound (x / 2 ^ lastBit x)| = 2 ^ 53
  · -- 54 bits: the same number with one bit and the next exponent
    have hle : lastBit x + 1 ≤ 971 := by
      by_contra hcon
      have hg' : lastBit x = 971 := by omega
      rw [hdef, abs_mul, ← Int.cast_abs, hfull, hg'] at h
      rw [abs_of_pos (by positivity : (0 : ℚ) < 2 ^ (971 : ℤ))] at h
      unfold maxDouble at h
      rw [show (971 : ℤ) = ((971 : ℕ) : ℤ) from rfl, zpow_natCast] at h
      have hp : (0 : ℚ) < 2 ^ 971 := by positivity
      have := le_of_mul_le_mul_right h hp
      norm_num at this
    rcases abs_choice (pyRound (x / 2 ^ lastBit x)) with hs | hs
    · refine ⟨2 ^ 52, lastBit x + 1, by norm_num, by omega, hle, ?_⟩
      rw [hdef, ← hs, hfull, zpow_add₀ (by norm_num)]
      push_cast
      ring
    · refine ⟨-2 ^ 52, lastBit x + 1, by norm_num, by omega, hle, ?_⟩
      have : pyRound (x / 2 ^ lastBit x) = -2 ^ 53 := by omega
      rw [hdef, this, zpow_add₀ (by norm_num)]
      push_cast
      ring
  · exact ⟨pyRound (x / 2 ^ lastBit x), lastBit x, lt_of_le_of_ne hm hfull, hlow, hg, hdef⟩

/-- **C74 (rounding)**: a decimal number is read as a double, and no double is nearer to it. -/
theorem C74_reads_nearest (x q : ℚ) (h : toDouble x = .float q) : IsDouble q ∧ ∀ r, IsDouble r → |q - x| ≤ |r - x| := by
  unfold toDouble at h
  split at h
  · rename_i hle
    have := PyNum.float.inj h
    subst this
    exact ⟨nearestDouble_isDouble hle, fun r hr => nearestDouble_nearest x r hr⟩
  · exact absurd h (by simp)

/-- **C74 (overflow)**: a decimal number is read as infinite only if it is larger than all doubles. -/
theorem C74_overflow (x : ℚ) (neg : Bool) (h : toDouble x = .inf neg) : (neg = true ↔ x < 0) ∧ ∀ r, IsDouble r → |r| < |x| := by
  unfold toDouble at h
  split at h
  · exact absurd h (by simp)
  · rename_i hle
    push Not at hle
    have hneg := PyNum.inf.inj h
    refine ⟨by rw [← hneg]; simp, fun r hr => ?_⟩
    by_contra hcon
    push Not at hcon
    -- the nearest double of `x` would be between zero and the largest double
    have hx : x ≠ 0 := by
      rintro rfl
      simp [nearestDouble] at hle
      have : (0 : ℚ) ≤ maxDouble := by unfold maxDouble; positivity
      linarith
    have hxm : |x| ≤ maxDouble := hcon.trans hr.le_max
    have hd : IsDouble (if 0 ≤ x then maxDouble else -maxDouble) := by
      have h1 : IsDouble maxDouble := ⟨2 ^ 53 - 1, 971, by norm_num, by norm_num, by norm_num, by
        unfold maxDouble; rw [show (971 : ℤ) = ((971 : ℕ) : ℤ) from rfl, zpow_natCast]; congr 1; norm_num⟩
      split
      · exact h1
      · exact h1.neg
    have hn := nearestDouble_nearest x _ hd
    by_cases h0 : 0 ≤ x
    · rw [if_pos h0] at hn
      rw [abs_of_nonneg h0] at hxm
      have hpos : 0 ≤ maxDouble - x := by linarith
      rw [abs_of_nonneg hpos, abs_le] at hn
      have := nearestDouble_nearest x 0 ⟨0, 0, by norm_num, by norm_num, by norm_num, by simp⟩
      rcases lt_abs.1 hle with h3 | h3
      · linarith [hn.2]
      · rw [zero_sub, abs_neg, abs_of_nonneg h0, abs_le] at this
        linarith [this.1]
    · rw [if_neg h0] at hn
      push Not at h0
      rw [abs_of_neg h0] at hxm
      have hpos : -maxDouble - x ≤ 0 := by linarith
      rw [abs_of_nonpos hpos, abs_le] at hn
      have := nearestDouble_nearest x 0 ⟨0, 0, by norm_num, by norm_num, by norm_num, by simp⟩
      rcases lt_abs.1 hle with h3 | h3
      · rw [zero_sub, abs_neg, abs_of_neg h0, abs_le] at this
        linarith [this.2]
      · linarith [hn.1]

/-- **C74 (distinct)**: different doubles have different texts, and no text of a double is that of a whole number. -/
theorem C74_distinct (p q : ℚ) (hp : IsDouble p) (hq : IsDouble q) : (floatText p = floatText q ↔ p = q) ∧ ∀ n, floatText p ≠ intText n := by
  refine ⟨⟨fun h => ?_, fun h => by rw [h]⟩, fun n h => ?_⟩
  · have h1 := C74_float p hp
    rw [h, C74_float q hq] at h1
    exact (PyNum.float.inj (Option.some.inj h1)).symm
  · have h1 := C74_float p hp
    rw [h, C74_int] at h1
    simp at h1

/-- **C74 (whole numbers as floating point numbers)**: whole numbers of at most 53 bits are doubles. -/
theorem C74_int_as_float (n : ℤ) (h : |n| ≤ 2 ^ 53) : toDouble n = .float n := by
  apply toDouble_double
  by_cases hfull : |n| = 2 ^ 53
  · rcases abs_choice n with hs | hs
    · exact ⟨2 ^ 52, 1, by norm_num, by norm_num, by norm_num, by
        rw [show n = 2 ^ 53 by omega]; norm_num⟩
    · exact ⟨-2 ^ 52, 1, by norm_num, by norm_num, by norm_num, by
        rw [show n = -2 ^ 53 by omega]; norm_num⟩
  · exact ⟨n, 0, lt_of_le_of_ne h hfull, by norm_num, by norm_num, by simp⟩

/-! ## Cases -/

/-- one tenth -/
theorem tenth_isDouble : IsDouble (3602879701896397 / 36028797018963968) :=
  ⟨3602879701896397, -55, by norm_num, by norm_num, by norm_num, by norm_num [zpow_neg]⟩

example : floatText (3602879701896397 / 36028797018963968) = "0.1".toList ∧
    floatText (5404319552844596 / 18014398509481984) = "0.30000000000000004".toList ∧
    floatText (-3 / 2 ^ 20) = "-2.86102294921875e-06".toList ∧ floatText (2 ^ 60) = "1.152921504606847e+18".toList ∧
    intText (-42) = "-42".toList := by
  decide +kernel

/-- 16 digits would not be enough -/
example : pickDecimal (5404319552844596 / 18014398509481984) 16 = none := by decide +kernel

example : readNumberText "1e400".toList = some (.inf false) ∧ readNumberText "12".toList = some (.int 12) ∧
    readNumberText "1.".toList = none ∧ readNumberText "01".toList = none ∧ readNumberText "1e5".toList = some (.float 100000) := by
  decide +kernel

end Resistics
