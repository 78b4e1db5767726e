import Verif.Props.Float64
import Verif.Props.FloatText

/-!
# Rounding to 53 bits: the nearest such number, monotone
-/

namespace Resistics

/-- A number of at most 53 significant bits: a double, but for the limits of its exponent. -/
def Bits53 (x : ℚ) : Prop := ∃ k e : ℤ, |k| < 2 ^ 53 ∧ x = (k : ℚ) * 2 ^ e

theorem Bits53.fl_eq {x : ℚ} (h : Bits53 x) : fl x = x := by
  obtain ⟨k, e, hk, rfl⟩ := h
  exact fl_fixed k e hk

theorem bits53_int {k : ℤ} (h : |k| < 2 ^ 53) : Bits53 (k : ℚ) := ⟨k, 0, h, by simp⟩

theorem bits53_nat {k : ℕ} (h : k < 2 ^ 53) : Bits53 (k : ℚ) := ⟨k, 0, by rw [abs_of_nonneg (by positivity)]; exact_mod_cast h, by simp⟩

theorem Bits53.mul_zpow {x : ℚ} (h : Bits53 x) (e : ℤ) : Bits53 (x * 2 ^ e) := by
  obtain ⟨k, e', hk, rfl⟩ := h
  exact ⟨k, e' + e, hk, by rw [mul_assoc, ← zpow_add₀ (by norm_num)]⟩

theorem Bits53.div_pow {x : ℚ} (h : Bits53 x) (n : ℕ) : Bits53 (x / 2 ^ n) := by
  have := h.mul_zpow (-(n : ℤ))
  rwa [zpow_neg, zpow_natCast, ← div_eq_mul_inv] at this

theorem Bits53.mul_four {x : ℚ} (h : Bits53 x) : Bits53 (x * 4) := by
  have := h.mul_zpow 2
  norm_num at this
  exact this

theorem bits53_of_le {k e : ℤ} (h : |k| ≤ 2 ^ 53) : Bits53 ((k : ℚ) * 2 ^ e) := by
  rcases lt_or_eq_of_le h with h | h
  · exact ⟨k, e, h, rfl⟩
  · rcases abs_choice k with hc | hc
    · exact ⟨1, 53 + e, by norm_num, by rw [← hc, h, zpow_add₀ (by norm_num)]; norm_num⟩
    · refine ⟨-1, 53 + e, by norm_num, ?_⟩
      rw [show k = -2 ^ 53 by omega, zpow_add₀ (by norm_num)]; norm_num

theorem fl_multiple {x : ℚ} (hx : x ≠ 0) (m : ℤ) : |fl x - x| ≤ |(m : ℚ) * 2 ^ (Int.log 2 |x| - 52) - x| := by
  generalize hg : Int.log 2 |x| - 52 = g
  have h2 : (0 : ℚ) < (2 : ℚ) ^ g := by positivity
  unfold fl
  rw [if_neg hx, hg]
  have e : ∀ a : ℤ, |(a : ℚ) * 2 ^ g - x| = |(a : ℚ) - x / 2 ^ g| * 2 ^ g := by
    intro a
    rw [show (a : ℚ) * 2 ^ g - x = ((a : ℚ) - x / 2 ^ g) * 2 ^ g by rw [sub_mul, div_mul_cancel₀ _ h2.ne'], abs_mul, abs_of_pos h2]
  rw [e, e]
  exact mul_le_mul_of_nonneg_right (pyRound_nearest _ m) h2.le

/-- no number of 53 bits is nearer -/
theorem fl_nearest (x r : ℚ) (hr : Bits53 r) : |fl x - x| ≤ |r - x| := by
  by_cases hx : x = 0
  · simp [hx, fl]
  obtain ⟨k, e, hk, rfl⟩ := hr
  generalize hg : Int.log 2 |x| - 52 = g
  have hmul := fl_multiple hx
  rw [hg] at hmul
  by_cases hge : g ≤ e
  · rw [multiple_of_le hge]
    exact hmul _
  · push Not at hge
    obtain ⟨hb, -⟩ := abs_lt_of_log hx
    set L := Int.log 2 |x| with hL
    have hkr : |(k : ℚ) * 2 ^ e| ≤ 2 ^ L := by
      have h2 : (0 : ℚ) < (2 : ℚ) ^ e := by positivity
      rw [abs_mul, abs_of_pos h2]
      have h3 : |(k : ℚ)| ≤ 2 ^ 53 := by exact_mod_cast hk.le
      have h4 : |(k : ℚ)| * 2 ^ e ≤ 2 ^ (53 : ℤ) * 2 ^ e := by
        have := mul_le_mul_of_nonneg_right h3 h2.le
        norm_num at this ⊢
        exact this
      rw [← zpow_add₀ (by norm_num)] at h4
      exact h4.trans (zpow_le_zpow_right₀ (by norm_num) (by omega))
    refine le_trans ?_ (between_abs hkr hb)
    have hm : ∀ a : ℤ, (a : ℚ) * 2 ^ L = ((a * 2 ^ (L - g).toNat : ℤ) : ℚ) * 2 ^ g := fun a => multiple_of_le (by omega)
    by_cases h0 : 0 ≤ x
    · rw [if_pos h0]
      have := hmul (1 * 2 ^ (L - g).toNat)
      rw [← hm] at this
      simpa using this
    · rw [if_neg h0]
      have := hmul (-1 * 2 ^ (L - g).toNat)
      rw [← hm] at this
      simpa using this

theorem fl_bits53 (x : ℚ) : Bits53 (fl x) := by
  by_cases hx : x = 0
  · exact ⟨0, 0, by norm_num, by simp [hx, fl]⟩
  obtain ⟨-, hb2⟩ := abs_lt_of_log hx
  unfold fl
  rw [if_neg hx]
  apply bits53_of_le
  generalize hg : Int.log 2 |x| - 52 = g
  have h2 : (0 : ℚ) < (2 : ℚ) ^ g := by positivity
  have hy : |x / 2 ^ g| ≤ 2 ^ 53 := by
    rw [abs_div, abs_of_pos h2, div_le_iff₀ h2]
    refine hb2.le.trans ?_
    rw [show ((2 : ℚ) ^ 53) = 2 ^ (53 : ℤ) by norm_num, ← zpow_add₀ (by norm_num)]
    exact zpow_le_zpow_right₀ (by norm_num) (by omega)
  have hnear := abs_le.1 (pyRound_near (x / 2 ^ g))
  rw [abs_le] at hy
  have u1 : (pyRound (x / 2 ^ g) : ℚ) < 2 ^ 53 + 1 := by linarith [hy.2, hnear.2]
  have u2 : -2 ^ 53 - 1 < (pyRound (x / 2 ^ g) : ℚ) := by linarith [hy.1, hnear.1]
  have u1' : pyRound (x / 2 ^ g) < 2 ^ 53 + 1 := by exact_mod_cast u1
  have u2' : -2 ^ 53 - 1 < pyRound (x / 2 ^ g) := by exact_mod_cast u2
  rw [abs_le]
  omega

theorem fl_mono {x y : ℚ} (h : x ≤ y) : fl x ≤ fl y := by
  by_contra hcon
  push Not at hcon
  have h1 := fl_nearest x (fl y) (fl_bits53 y)
  have h2 := fl_nearest y (fl x) (fl_bits53 x)
  have m1 : fl x + fl y ≤ 2 * x := by
    by_contra hc
    push Not at hc
    rcases abs_cases (fl x - x) with ⟨a, -⟩ | ⟨a, a'⟩ <;> rcases abs_cases (fl y - x) with ⟨b, -⟩ | ⟨b, b'⟩ <;> linarith
  have m2 : 2 * y ≤ fl x + fl y := by
    by_contra hc
    push Not at hc
    rcases abs_cases (fl x - y) with ⟨a, a'⟩ | ⟨a, a'⟩ <;> rcases abs_cases (fl y - y) with ⟨b, b'⟩ | ⟨b, b'⟩ <;> linarith
  have : x = y := by linarith
  rw [this] at hcon
  exact lt_irrefl _ hcon

theorem fl_le_of_le {x r : ℚ} (hr : Bits53 r) (h : x ≤ r) : fl x ≤ r := by
  have := fl_mono h
  rwa [hr.fl_eq] at this

theorem le_fl_of_le {x r : ℚ} (hr : Bits53 r) (h : r ≤ x) : r ≤ fl x := by
  have := fl_mono h
  rwa [hr.fl_eq] at this

theorem fl_pos {x : ℚ} (h : 0 < x) : 0 < fl x := by
  have h1 := fl_near x
  rw [abs_of_pos h] at h1
  have := (abs_le.1 h1).1
  unfold unitRoundoff at this
  norm_num at this
  linarith

end Resistics
