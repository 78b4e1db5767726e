import Verif.Model.Setup64
import Verif.Lemmas.Fl
import Verif.Props.Decimate
import Verif.Props.Windower

/-!
# C79: setup of decimation and windows in double precision
-/

namespace Resistics

/-! ## Decimation factors -/

/-- The sampling frequency after `n` divisions. -/
def divided (div : ℕ) (fs : ℚ) : ℕ → ℚ
  | 0 => fs
  | n + 1 => fl (divided div fs n / div)

theorem divided_succ' (div : ℕ) (fs : ℚ) (n : ℕ) : divided div (fl (fs / div)) n = divided div fs (n + 1) := by
  induction n with
  | zero => rfl
  | succ n ih => rw [divided, ih]; rfl

theorem decLoopF_eq (div : ℕ) (target : ℚ) : ∀ (fuel : ℕ) (fs : ℚ) (factor : ℕ),
    ∃ k, k ≤ fuel ∧ decLoopF div target fuel fs factor = factor * div ^ k ∧ (∀ j, 1 ≤ j → j ≤ k → target ≤ divided div fs j) ∧
      (k < fuel → divided div fs (k + 1) < target)
  | 0, _, factor => ⟨0, le_refl _, by simp [decLoopF], by intro j h1 h2; omega, by omega⟩
  | fuel + 1, fs, factor => by
    by_cases h : target ≤ fl (fs / div)
    · obtain ⟨k, h1, h2, h3, h4⟩ := decLoopF_eq div target fuel (fl (fs / div)) (factor * div)
      refine ⟨k + 1, by omega, by rw [decLoopF, if_pos h, h2, pow_succ']; ring, ?_, ?_⟩
      · intro j hj1 hj2
        rcases Nat.lt_or_ge 1 j with h' | h'
        · have := h3 (j - 1) (by omega) (by omega)
          rw [divided_succ'] at this
          rwa [show j - 1 + 1 = j by omega] at this
        · have : j = 1 := by omega
          subst this
          exact h
      · intro hk
        have := h4 (by omega)
        rwa [divided_succ'] at this
    · exact ⟨0, by omega, by rw [decLoopF, if_neg h]; simp, by intro j h1 h2; omega, fun _ => not_le.1 h⟩

theorem divided_bits {div : ℕ} {fs : ℚ} (h : Bits53 fs) (n : ℕ) : Bits53 (divided div fs n) := by
  cases n with
  | zero => exact h
  | succ n => exact fl_bits53 _

theorem divided_pos {div : ℕ} (hdiv : 2 ≤ div) {fs : ℚ} (h : 0 < fs) (n : ℕ) : 0 < divided div fs n := by
  induction n with
  | zero => exact h
  | succ n ih => exact fl_pos (div_pos ih (by exact_mod_cast (by omega : 0 < div)))

theorem divided_le {div : ℕ} (hdiv : 2 ≤ div) {fs : ℚ} (h : 0 < fs) (hb : Bits53 fs) (n : ℕ) : divided div fs n ≤ fs / 2 ^ n := by
  induction n with
  | zero => simp [divided]
  | succ n ih =>
    have h2 : (2 : ℚ) ≤ div := by exact_mod_cast hdiv
    have hp := divided_pos hdiv h n
    have h3 : divided div fs n / div ≤ divided div fs n / 2 := div_le_div_of_nonneg_left hp.le (by norm_num) h2
    have h4 : fl (divided div fs n / div) ≤ divided div fs n / 2 := by
      refine fl_le_of_le ?_ h3
      simpa using (divided_bits (div := div) hb n).div_pow 1
    calc divided div fs (n + 1) ≤ divided div fs n / 2 := h4
      _ ≤ fs / 2 ^ n / 2 := by linarith
      _ = fs / 2 ^ (n + 1) := by rw [div_div, pow_succ]

/-- what the loop in double precision ends with -/
theorem getDecimationFactorF_spec {div : ℕ} (hdiv : 2 ≤ div) {fs f : ℚ} (hfs : Bits53 fs) (hfb : Bits53 f) (hf : 0 < f) (h : 4 * f ≤ fs) :
    ∃ k, getDecimationFactorF div fs f = div ^ k ∧ 4 * f ≤ divided div fs k ∧ divided div fs (k + 1) < 4 * f ∧
      4 * f ≤ fs / 2 ^ k := by
  unfold getDecimationFactorF
  rw [hfb.mul_four.fl_eq, mul_comm f 4, if_neg (not_lt.2 h)]
  have hT : 0 < 4 * f := by positivity
  have hfs0 : 0 < fs := by linarith
  obtain ⟨k, h1, h2, h3, h4⟩ := decLoopF_eq div (4 * f) (⌊fs / (4 * f)⌋₊ + 1) fs 1
  have hk : 4 * f ≤ divided div fs k := by
    rcases Nat.eq_zero_or_pos k with rfl | hk0
    · exact h
    · exact h3 k hk0 le_rfl
  have hk2 := hk.trans (divided_le hdiv hfs0 hfs k)
  refine ⟨k, by rw [h2, one_mul], hk, h4 ?_, hk2⟩
  by_contra hc
  have hke : k = ⌊fs / (4 * f)⌋₊ + 1 := by omega
  have h5 := Nat.lt_floor_add_one (fs / (4 * f))
  rw [le_div_iff₀ (by positivity)] at hk2
  have h6 : (2 : ℚ) ^ k ≤ fs / (4 * f) := by rw [le_div_iff₀ hT]; linarith
  have h7 : (k : ℚ) < 2 ^ k := by exact_mod_cast Nat.lt_two_pow_self
  have h8 : (k : ℚ) = ⌊fs / (4 * f)⌋₊ + 1 := by rw [hke]; push_cast; ring
  linarith

/-- the factor is determined by the powers of the division factor around it -/
theorem getDecimationFactor_eq {div : ℕ} (hdiv : 2 ≤ div) {fs f : ℚ} (hf : 0 < f) (k : ℕ) (h1 : 4 * f ≤ fs / (div : ℚ) ^ k)
    (h2 : fs / (div : ℚ) ^ (k + 1) < 4 * f) : getDecimationFactor div fs f = div ^ k := by
  have hd0 : (0 : ℚ) < div := by exact_mod_cast (by omega : 0 < div)
  have hd1 : (1 : ℚ) ≤ div := by exact_mod_cast (by omega : 1 ≤ div)
  have hfs : 0 < fs := by
    by_contra hc
    have : fs / (div : ℚ) ^ k ≤ 0 := div_nonpos_of_nonpos_of_nonneg (not_lt.1 hc) (by positivity)
    linarith
  have h4 : 4 * f ≤ fs := h1.trans (div_le_self hfs.le (one_le_pow₀ hd1))
  obtain ⟨⟨l, hl⟩, ha, hb, -⟩ := C17_decimation_factor div hdiv fs f hf
  have hle := hb k h1
  rw [hl] at hle ⊢
  have hge : k ≤ l := (Nat.pow_le_pow_iff_right (by omega)).1 hle
  have ha' := ha h4
  rw [hl] at ha'
  push_cast at ha'
  have : l ≤ k := by
    by_contra hc
    have : fs / (div : ℚ) ^ l ≤ fs / (div : ℚ) ^ (k + 1) :=
      div_le_div_of_nonneg_left hfs.le (by positivity) (pow_le_pow_right₀ hd1 (by omega))
    linarith
  rw [le_antisymm hge this]

theorem divided_two {fs : ℚ} (h : Bits53 fs) (a n : ℕ) : divided (2 ^ a) fs n = fs / ((2 ^ a : ℕ) : ℚ) ^ n := by
  induction n with
  | zero => simp [divided]
  | succ n ih =>
    rw [divided, Bits53.fl_eq, ih, div_div, ← pow_succ]
    have := (divided_bits (div := 2 ^ a) h n).div_pow a
    push_cast
    exact this

/-- **C79 (powers of two)**: with a division factor that is a power of two, as by default, rounding errors never change the decimation
factor of a level, whatever the sampling frequency and the frequencies. -/
theorem C79_factor_power_of_two (a : ℕ) (ha : 1 ≤ a) (fs f : ℚ) (hfs : Bits53 fs) (hfb : Bits53 f) (hf : 0 < f) :
    getDecimationFactorF (2 ^ a) fs f = getDecimationFactor (2 ^ a) fs f := by
  have hdiv : 2 ≤ 2 ^ a := by
    calc 2 = 2 ^ 1 := rfl
      _ ≤ 2 ^ a := Nat.pow_le_pow_right (by norm_num) ha
  by_cases h : 4 * f ≤ fs
  · obtain ⟨k, h1, h2, h3, -⟩ := getDecimationFactorF_spec hdiv hfs hfb hf h
    rw [divided_two hfs] at h2 h3
    rw [h1, getDecimationFactor_eq hdiv hf k h2 h3]
  · unfold getDecimationFactorF getDecimationFactor
    rw [hfb.mul_four.fl_eq, if_pos (by linarith)]
    simp only
    rw [if_pos (by linarith)]

theorem divided_near {div : ℕ} (hdiv : 2 ≤ div) {fs : ℚ} (hfs : 0 < fs) (n : ℕ) (hn : n ≤ 4001) :
    |divided div fs n - fs / (div : ℚ) ^ n| ≤ 2 * n / 2 ^ 53 * (fs / (div : ℚ) ^ n) := by
  have hd : (0 : ℚ) < div := by exact_mod_cast (by omega : 0 < div)
  induction n with
  | zero => simp [divided]
  | succ n ih =>
    have ih := ih (by omega)
    have hn' : (n : ℚ) ≤ 4001 := by exact_mod_cast (by omega : n ≤ 4001)
    set y := fs / (div : ℚ) ^ (n + 1) with hy
    have hy0 : 0 < y := by positivity
    have e : fs / (div : ℚ) ^ n / div = y := by rw [div_div, ← pow_succ]
    have hz : |divided div fs n / div - y| ≤ 2 * n / 2 ^ 53 * y := by
      rw [← e, ← sub_div, abs_div, abs_of_pos hd, ← mul_div_assoc]
      exact div_le_div_of_nonneg_right ih hd.le
    have hc : (2 : ℚ) * n / 2 ^ 53 ≤ 1 := by
      rw [div_le_one (by norm_num)]
      norm_num
      linarith
    have hz2 : |divided div fs n / div| ≤ 2 * y := by
      rw [abs_le] at hz ⊢
      have := mul_le_mul_of_nonneg_right hc hy0.le
      have h0 : (0 : ℚ) ≤ 2 * n / 2 ^ 53 * y := by positivity
      constructor <;> linarith [hz.1, hz.2]
    have h1 := fl_near (divided div fs n / div)
    unfold unitRoundoff at h1
    have h2 : |divided div fs n / div| * (1 / 2 ^ 53) ≤ 2 * y * (1 / 2 ^ 53) := mul_le_mul_of_nonneg_right hz2 (by norm_num)
    calc |divided div fs (n + 1) - y| = |(fl (divided div fs n / div) - divided div fs n / div) + (divided div fs n / div - y)| := by
          rw [divided]; ring_nf
      _ ≤ _ + _ := abs_add_le _ _
      _ ≤ 2 * y * (1 / 2 ^ 53) + 2 * n / 2 ^ 53 * y := by linarith
      _ = _ := by push_cast; ring

/-- **C79 (other division factors)**: with any division factor the decimation factor is that of exact arithmetic, unless four times the
highest frequency of the level is the sampling frequency divided by a power of the division factor up to about a part in `2 ^ 40`.  (The
ratio of the frequencies is bounded by that of the largest and the smallest double.) -/
theorem C79_factor (div : ℕ) (hdiv : 2 ≤ div) (fs f : ℚ) (hfs : Bits53 fs) (hfb : Bits53 f) (hf : 0 < f) (hmax : fs ≤ 4 * f * 2 ^ 4000)
    (hgap : ∀ m : ℕ, fs / 2 ^ 40 < |fs - 4 * f * (div : ℚ) ^ m|) :
    getDecimationFactorF div fs f = getDecimationFactor div fs f := by
  by_cases h : 4 * f ≤ fs
  · obtain ⟨k, h1, h2, h3, h4⟩ := getDecimationFactorF_spec hdiv hfs hfb hf h
    have hfs0 : 0 < fs := by linarith
    have hd : (0 : ℚ) < div := by exact_mod_cast (by omega : 0 < div)
    have hk : k ≤ 4000 := by
      rw [le_div_iff₀ (by positivity)] at h4
      have h5 : 4 * f * 2 ^ k ≤ 4 * f * 2 ^ 4000 := h4.trans hmax
      have h6 : (2 : ℚ) ^ k ≤ 2 ^ 4000 := le_of_mul_le_mul_left h5 (by positivity)
      exact (pow_le_pow_iff_right₀ (by norm_num)).1 h6
    have key : ∀ m : ℕ, m ≤ 4001 → |divided div fs m - fs / (div : ℚ) ^ m| < |fs / (div : ℚ) ^ m - 4 * f| := by
      intro m hm
      have g1 := divided_near hdiv hfs0 m hm
      have hD : (0 : ℚ) < (div : ℚ) ^ m := by positivity
      have g2 : fs / (div : ℚ) ^ m / 2 ^ 40 < |fs / (div : ℚ) ^ m - 4 * f| := by
        have e : fs / (div : ℚ) ^ m - 4 * f = (fs - 4 * f * (div : ℚ) ^ m) / (div : ℚ) ^ m := by field_simp
        rw [e, abs_div, abs_of_pos hD, div_right_comm]
        exact div_lt_div_of_pos_right (hgap m) hD
      have hm' : (m : ℚ) ≤ 4001 := by exact_mod_cast hm
      have g3 : 2 * (m : ℚ) / 2 ^ 53 ≤ 1 / 2 ^ 40 := by
        rw [div_le_div_iff₀ (by norm_num) (by norm_num)]
        norm_num
        linarith
      have g4 := mul_le_mul_of_nonneg_right g3 (show 0 ≤ fs / (div : ℚ) ^ m by positivity)
      have g5 : (1 : ℚ) / 2 ^ 40 * (fs / (div : ℚ) ^ m) = fs / (div : ℚ) ^ m / 2 ^ 40 := by ring
      linarith
    have k1 := key k (by omega)
    have k2 := key (k + 1) (by omega)
    rw [h1, getDecimationFactor_eq hdiv hf k]
    · by_contra hc
      push Not at hc
      rw [abs_of_neg (show fs / (div : ℚ) ^ k - 4 * f < 0 by linarith)] at k1
      have := (abs_lt.1 k1).2
      linarith
    · by_contra hc
      push Not at hc
      rw [abs_of_nonneg (show 0 ≤ fs / (div : ℚ) ^ (k + 1) - 4 * f by linarith)] at k2
      have := (abs_lt.1 k2).1
      linarith
  · unfold getDecimationFactorF getDecimationFactor
    rw [hfb.mul_four.fl_eq, if_pos (by linarith)]
    simp only
    rw [if_pos (by linarith)]

/-- **C79 (finding)**: the frequency `fs / 36` of a 1000 Hz recording, as precise as a double can be, is put on a level decimated by 3 where
exact arithmetic decimates by 9, when the division factor is 3. -/
theorem C79_factor_rounded : getDecimationFactorF 3 1000 (fl (1000 / 36)) = 3 ∧ getDecimationFactor 3 (1000 : ℚ) (1000 / 36) = 9 := by
  decide +kernel

end Resistics
