import Verif.Model.TextData
import Verif.Props.FloatText

/-!
# Rounding to single precision
-/

namespace Resistics

/-- The finite numbers of IEEE single precision: 24 bits, exponents from -149 to 104. -/
def IsSingle (q : ℚ) : Prop := ∃ k e : ℤ, |k| < 2 ^ 24 ∧ -149 ≤ e ∧ e ≤ 104 ∧ q = (k : ℚ) * 2 ^ e

/-- the nearest single of a number on its grid -/
theorem nearest_multiple_single {x : ℚ} (hx : x ≠ 0) (m : ℤ) : |nearestSingle x - x| ≤ |(m : ℚ) * 2 ^ lastBitSingle x - x| := by
  have h2 : (0 : ℚ) < (2 : ℚ) ^ lastBitSingle x := by positivity
  unfold nearestSingle
  rw [if_neg hx]
  have e : ∀ a : ℤ, |(a : ℚ) * 2 ^ lastBitSingle x - x| = |(a : ℚ) - x / 2 ^ lastBitSingle x| * 2 ^ lastBitSingle x := by
    intro a
    rw [show (a : ℚ) * 2 ^ lastBitSingle x - x = ((a : ℚ) - x / 2 ^ lastBitSingle x) * 2 ^ lastBitSingle x by
      rw [sub_mul, div_mul_cancel₀ _ h2.ne'], abs_mul, abs_of_pos h2]
  rw [e, e]
  exact mul_le_mul_of_nonneg_right (pyRound_nearest _ m) h2.le

/-- no single is nearer than the nearest one -/
theorem nearestSingle_nearest (x r : ℚ) (hr : IsSingle r) : |nearestSingle x - x| ≤ |r - x| := by
  by_cases hx : x = 0
  · simp [hx, nearestSingle]
  obtain ⟨k, e, hk, he, -, rfl⟩ := hr
  by_cases hge : lastBitSingle x ≤ e
  · rw [multiple_of_le hge]
    exact nearest_multiple_single hx _
  · push Not at hge
    have hg : lastBitSingle x = Int.log 2 |x| - 23 := by
      unfold lastBitSingle at hge ⊢
      omega
    obtain ⟨hb, -⟩ := abs_lt_of_log hx
    set L := Int.log 2 |x| with hL
    have hkr : |(k : ℚ) * 2 ^ e| ≤ 2 ^ L := by
      have h2 : (0 : ℚ) < (2 : ℚ) ^ e := by positivity
      rw [abs_mul, abs_of_pos h2]
      have h3 : |(k : ℚ)| ≤ 2 ^ 24 := by exact_mod_cast hk.le
      have h4 : |(k : ℚ)| * 2 ^ e ≤ 2 ^ (24 : ℤ) * 2 ^ e := by
        have := mul_le_mul_of_nonneg_right h3 h2.le
        norm_num at this ⊢
        exact this
      rw [← zpow_add₀ (by norm_num)] at h4
      exact h4.trans (zpow_le_zpow_right₀ (by norm_num) (by omega))
    have hs := between_abs hkr hb
    refine le_trans ?_ hs
    have hm : ∀ a : ℤ, (a : ℚ) * 2 ^ L = ((a * 2 ^ (L - lastBitSingle x).toNat : ℤ) : ℚ) * 2 ^ lastBitSingle x := fun a =>
      multiple_of_le (by omega)
    by_cases h0 : 0 ≤ x
    · rw [if_pos h0]
      have := nearest_multiple_single hx (1 * 2 ^ (L - lastBitSingle x).toNat)
      rw [← hm] at this
      simpa using this
    · rw [if_neg h0]
      have := nearest_multiple_single hx (-1 * 2 ^ (L - lastBitSingle x).toNat)
      rw [← hm] at this
      simpa using this

theorem nearestSingle_isSingle {x : ℚ} (h : |nearestSingle x| ≤ maxSingle) : IsSingle (nearestSingle x) := by
  by_cases hx : x = 0
  · simp only [hx, nearestSingle, if_true]
    exact ⟨0, 0, by norm_num, by norm_num, by norm_num, by simp⟩
  obtain ⟨hb1, hb2⟩ := abs_lt_of_log hx
  have h2 : (0 : ℚ) < (2 : ℚ) ^ lastBitSingle x := by positivity
  -- at most 24 bits
  have hy : |x / 2 ^ lastBitSingle x| ≤ 2 ^ 24 := by
    rw [abs_div, abs_of_pos h2, div_le_iff₀ h2]
    refine hb2.le.trans ?_
    rw [show ((2 : ℚ) ^ 24) = 2 ^ (24 : ℤ) by norm_num, ← zpow_add₀ (by norm_num)]
    exact zpow_le_zpow_right₀ (by norm_num) (by unfold lastBitSingle; omega)
  have hm : |pyRound (x / 2 ^ lastBitSingle x)| ≤ 2 ^ 24 := by
    have hn := pyRound_nearest (x / 2 ^ lastBitSingle x) (if 0 ≤ x / 2 ^ lastBitSingle x then 2 ^ 24 else -2 ^ 24)
    have hnear := abs_le.1 (pyRound_near (x / 2 ^ lastBitSingle x))
    rw [abs_le] at hy
    have u1 : (pyRound (x / 2 ^ lastBitSingle x) : ℚ) < 2 ^ 24 + 1 := by linarith [hy.2, hnear.2]
    have u2 : -2 ^ 24 - 1 < (pyRound (x / 2 ^ lastBitSingle x) : ℚ) := by linarith [hy.1, hnear.1]
    have u1' : pyRound (x / 2 ^ lastBitSingle x) < 2 ^ 24 + 1 := by exact_mod_cast u1
    have u2' : -2 ^ 24 - 1 < pyRound (x / 2 ^ lastBitSingle x) := by exact_mod_cast u2
    rw [abs_le]
    omega
  have hdef : nearestSingle x = (pyRound (x / 2 ^ lastBitSingle x) : ℚ) * 2 ^ lastBitSingle x := by rw [nearestSingle, if_neg hx]
  have hg : lastBitSingle x ≤ 104 := by
    by_contra hcon
    push Not at hcon
    have hL : lastBitSingle x = Int.log 2 |x| - 23 := by unfold lastBitSingle at hcon ⊢; omega
    -- the power of two below `x` is on the grid, so the nearest single is at least as large
    have hp : ∀ a : ℤ, (a : ℚ) * 2 ^ Int.log 2 |x| = ((a * 2 ^ (Int.log 2 |x| - lastBitSingle x).toNat : ℤ) : ℚ) * 2 ^ lastBitSingle x :=
      fun a => multiple_of_le (by omega)
    have hnn : (2 : ℚ) ^ Int.log 2 |x| ≤ |nearestSingle x| := by
      rw [hdef]
      rw [show Int.log 2 |x| = 23 + lastBitSingle x by omega, zpow_add₀ (by norm_num), abs_mul, abs_of_pos h2]
      apply mul_le_mul_of_nonneg_right _ h2.le
      have hy2 : (2 : ℚ) ^ 23 ≤ |x / 2 ^ lastBitSingle x| := by
        rw [abs_div, abs_of_pos h2, le_div_iff₀ h2]
        refine le_trans ?_ hb1
        rw [show Int.log 2 |x| = 23 + lastBitSingle x by omega, zpow_add₀ (by norm_num)]
        norm_num
      have hnear := abs_le.1 (pyRound_near (x / 2 ^ lastBitSingle x))
      have hz : (2 : ℤ) ^ 23 ≤ |pyRound (x / 2 ^ lastBitSingle x)| := by
        rcases le_abs.1 hy2 with h4 | h4
        · have u : (2 : ℚ) ^ 23 - 1 < (pyRound (x / 2 ^ lastBitSingle x) : ℚ) := by linarith [hnear.1]
          have u' : (2 : ℤ) ^ 23 - 1 < pyRound (x / 2 ^ lastBitSingle x) := by exact_mod_cast u
          exact le_trans (by omega) (le_abs_self _)
        · have u : (pyRound (x / 2 ^ lastBitSingle x) : ℚ) < -2 ^ 23 + 1 := by linarith [hnear.2]
          have u' : pyRound (x / 2 ^ lastBitSingle x) < -2 ^ 23 + 1 := by exact_mod_cast u
          exact le_trans (by omega) (neg_le_abs _)
      have : ((2 : ℤ) ^ 23 : ℚ) ≤ |(pyRound (x / 2 ^ lastBitSingle x) : ℚ)| := by exact_mod_cast hz
      norm_num at this ⊢
      exact this
    have hbig : (2 : ℚ) ^ (128 : ℤ) ≤ 2 ^ Int.log 2 |x| := zpow_le_zpow_right₀ (by norm_num) (by omega)
    have hmax : maxSingle < (2 : ℚ) ^ (128 : ℤ) := by
      unfold maxSingle
      rw [show (128 : ℤ) = ((24 + 104 : ℕ) : ℤ) from rfl, zpow_natCast, pow_add]
      apply mul_lt_mul_of_pos_right (by norm_num) (by positivity)
    linarith
  have hlow : -149 ≤ lastBitSingle x := le_max_right _ _
  by_cases hfull : |pyRound (x / 2 ^ lastBitSingle x)| = 2 ^ 24
  · -- 25 bits: the same number with one bit and the next exponent
    have hle : lastBitSingle x + 1 ≤ 104 := by
      by_contra hcon
      have hg' : lastBitSingle x = 104 := by omega
      rw [hdef, abs_mul, ← Int.cast_abs, hfull, hg'] at h
      rw [abs_of_pos (by positivity : (0 : ℚ) < 2 ^ (104 : ℤ))] at h
      unfold maxSingle at h
      rw [show (104 : ℤ) = ((104 : ℕ) : ℤ) from rfl, zpow_natCast] at h
      have hp : (0 : ℚ) < 2 ^ 104 := by positivity
      have := le_of_mul_le_mul_right h hp
      norm_num at this
    rcases abs_choice (pyRound (x / 2 ^ lastBitSingle x)) with hs | hs
    · refine ⟨2 ^ 23, lastBitSingle x + 1, by norm_num, by omega, hle, ?_⟩
      rw [hdef, ← hs, hfull, zpow_add₀ (by norm_num)]
      push_cast
      ring
    · refine ⟨-2 ^ 23, lastBitSingle x + 1, by norm_num, by omega, hle, ?_⟩
      have : pyRound (x / 2 ^ lastBitSingle x) = -2 ^ 24 := by omega
      rw [hdef, this, zpow_add₀ (by norm_num)]
      push_cast
      ring
  · exact ⟨pyRound (x / 2 ^ lastBitSingle x), lastBitSingle x, lt_of_le_of_ne hm hfull, hlow, hg, hdef⟩

theorem IsSingle.le_max {x : ℚ} (h : IsSingle x) : |x| ≤ maxSingle := by
  obtain ⟨k, e, hk, -, h2, rfl⟩ := h
  have hp : (0 : ℚ) < (2 : ℚ) ^ e := by positivity
  rw [abs_mul, abs_of_pos hp]
  have hk' : |(k : ℚ)| ≤ 2 ^ 24 - 1 := by
    have : |k| ≤ 2 ^ 24 - 1 := by omega
    exact_mod_cast this
  have he : (2 : ℚ) ^ e ≤ 2 ^ (104 : ℤ) := zpow_le_zpow_right₀ (by norm_num) h2
  unfold maxSingle
  rw [show (104 : ℤ) = ((104 : ℕ) : ℤ) from rfl, zpow_natCast] at he
  exact mul_le_mul hk' he hp.le (by norm_num)


/-- Singles are not changed. -/
theorem nearestSingle_single {x : ℚ} (h : IsSingle x) : nearestSingle x = x := by
  have := nearestSingle_nearest x x h
  rw [sub_self, abs_zero] at this
  have := abs_nonpos_iff.1 this
  linarith

theorem IsSingle.isDouble {x : ℚ} (h : IsSingle x) : IsDouble x := by
  obtain ⟨k, e, hk, h1, h2, rfl⟩ := h
  exact ⟨k, e, by omega, by omega, by omega, rfl⟩

theorem toSingle_single {x : ℚ} (h : IsSingle x) : toSingle (.float x) = .float x := by
  unfold toSingle
  simp only [nearestSingle_single h, if_pos h.le_max]

/-- half of the last bit -/
theorem half_bit {x : ℚ} (hx : x ≠ 0) (g : ℤ) : |(pyRound (x / 2 ^ g) : ℚ) * 2 ^ g - x| ≤ 2 ^ g / 2 := by
  have h2 : (0 : ℚ) < (2 : ℚ) ^ g := by positivity
  have h := pyRound_near (x / 2 ^ g)
  rw [show (pyRound (x / 2 ^ g) : ℚ) * 2 ^ g - x = ((pyRound (x / 2 ^ g) : ℚ) - x / 2 ^ g) * 2 ^ g by
    rw [sub_mul, div_mul_cancel₀ _ h2.ne'], abs_mul, abs_of_pos h2]
  have := mul_le_mul_of_nonneg_right h h2.le
  linarith

/-- The nearest single is off by at most one part in `2 ^ 24`, and by `2 ^ -150` near zero. -/
theorem nearestSingle_error (x : ℚ) : |nearestSingle x - x| ≤ |x| / 2 ^ 24 + 1 / 2 ^ 150 := by
  by_cases hx : x = 0
  · subst hx; simp [nearestSingle]
  have h := half_bit hx (lastBitSingle x)
  have hd : nearestSingle x = (pyRound (x / 2 ^ lastBitSingle x) : ℚ) * 2 ^ lastBitSingle x := by rw [nearestSingle, if_neg hx]
  rw [hd]
  refine h.trans ?_
  obtain ⟨hb, -⟩ := abs_lt_of_log hx
  unfold lastBitSingle
  rcases max_cases (Int.log 2 |x| - 23) (-149) with ⟨hm, -⟩ | ⟨hm, -⟩
  · rw [hm, zpow_sub₀ (by norm_num)]
    have h0 : (0 : ℚ) < 1 / 2 ^ 150 := by positivity
    have : (2 : ℚ) ^ Int.log 2 |x| / 2 ^ (23 : ℤ) / 2 ≤ |x| / 2 ^ 24 := by
      rw [div_div]
      norm_num
      linarith
    linarith
  · rw [hm]
    have : (2 : ℚ) ^ (-149 : ℤ) / 2 = 1 / 2 ^ 150 := by norm_num
    rw [this]
    have : 0 ≤ |x| / 2 ^ 24 := by positivity
    linarith

/-- The nearest double is off by at most one part in `2 ^ 53`, and by `2 ^ -1075` near zero. -/
theorem nearestDouble_error (x : ℚ) : |nearestDouble x - x| ≤ |x| / 2 ^ 53 + 1 / 2 ^ 1075 := by
  by_cases hx : x = 0
  · subst hx; simp [nearestDouble]
  have h := half_bit hx (lastBit x)
  have hd : nearestDouble x = (pyRound (x / 2 ^ lastBit x) : ℚ) * 2 ^ lastBit x := by rw [nearestDouble, if_neg hx]
  rw [hd]
  refine h.trans ?_
  obtain ⟨hb, -⟩ := abs_lt_of_log hx
  unfold lastBit
  rcases max_cases (Int.log 2 |x| - 52) (-1074) with ⟨hm, -⟩ | ⟨hm, -⟩
  · rw [hm, zpow_sub₀ (by norm_num)]
    have h0 : (0 : ℚ) < 1 / 2 ^ 1075 := by positivity
    have : (2 : ℚ) ^ Int.log 2 |x| / 2 ^ (52 : ℤ) / 2 ≤ |x| / 2 ^ 53 := by
      rw [div_div]
      norm_num
      linarith
    linarith
  · rw [hm]
    have : (2 : ℚ) ^ (-1074 : ℤ) / 2 = 1 / 2 ^ 1075 := by
      rw [show (-1074 : ℤ) = -((1074 : ℕ) : ℤ) from rfl, zpow_neg, zpow_natCast, pow_succ]
      field_simp
    rw [this]
    have : 0 ≤ |x| / 2 ^ 53 := by positivity
    linarith

end Resistics
