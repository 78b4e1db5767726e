import Verif.Model.Cal64
import Verif.Props.Calibrate
import Verif.Props.Eval64
import Verif.Props.Robust64
import Verif.Props.Powers64
import Mathlib.Analysis.SpecialFunctions.Trigonometric.Bounds

/-!
# C88: calibration in floating point numbers
-/

namespace Resistics

open Complex (I exp)

/-! ## The quotient -/

theorem unit_small : unitRoundoff = 1 / 2 ^ 53 := rfl

/-- the numerator of a part -/
theorem numerator_close (a b r e1 : ℚ) (hr : |r| ≤ 1) (h1 : |e1| ≤ unitRoundoff) :
    |fl (a + fl (b * (r * (1 + e1)))) - (a + b * r)| ≤ 4 * unitRoundoff * (|a| + |b|) := by
  obtain ⟨e2, h2, hm⟩ := fl_factor (b * (r * (1 + e1)))
  rw [hm]
  obtain ⟨e3, h3, hs⟩ := fl_factor (a + b * (r * (1 + e1)) * (1 + e2))
  rw [hs]
  have hid : (a + b * (r * (1 + e1)) * (1 + e2)) * (1 + e3) - (a + b * r) =
      a * e3 + b * (r * ((1 + e1) * (1 + e2) * (1 + e3) - 1)) := by ring
  rw [hid]
  refine (abs_add_le _ _).trans ?_
  have hE : |(1 + e1) * (1 + e2) * (1 + e3) - 1| ≤ 4 * unitRoundoff := by
    have n0 : (0 : ℚ) ≤ 1 - unitRoundoff := by rw [unit_small]; norm_num
    have p := prod_bounds (prod_bounds (factor_bounds h1) (factor_bounds h2) n0 n0) (factor_bounds h3) (mul_nonneg n0 n0) n0
    rw [abs_le]
    constructor
    · refine le_trans ?_ (sub_le_sub_right p.1 1)
      rw [unit_small]; norm_num
    · refine (sub_le_sub_right p.2 1).trans ?_
      rw [unit_small]; norm_num
  rw [abs_mul, abs_mul, abs_mul]
  have hu := unit_pos
  have k1 : |a| * |e3| ≤ |a| * unitRoundoff := mul_le_mul_of_nonneg_left h3 (abs_nonneg _)
  have k2 : |r| * |(1 + e1) * (1 + e2) * (1 + e3) - 1| ≤ 1 * (4 * unitRoundoff) :=
    mul_le_mul hr hE (abs_nonneg _) (by norm_num)
  have k3 := mul_le_mul_of_nonneg_left k2 (abs_nonneg b)
  nlinarith [abs_nonneg a, abs_nonneg b]

/-- the reciprocal of the denominator -/
theorem scale_close (p q e1 : ℚ) (hp : p ≠ 0) (h1 : |e1| ≤ unitRoundoff) :
    ∃ θ, |θ| ≤ 5 * unitRoundoff ∧ fl (1 / fl (p + fl (q * (q / p * (1 + e1))))) = (1 + θ) * (p / (p ^ 2 + q ^ 2)) := by
  obtain ⟨e2, h2, hm⟩ := fl_factor (q * (q / p * (1 + e1)))
  rw [hm]
  obtain ⟨e3, h3, hs⟩ := fl_factor (p + q * (q / p * (1 + e1)) * (1 + e2))
  rw [hs]
  obtain ⟨e4, h4, hd⟩ := fl_factor (1 / ((p + q * (q / p * (1 + e1)) * (1 + e2)) * (1 + e3)))
  rw [hd]
  have n0 : (0 : ℚ) ≤ 1 - unitRoundoff := by rw [unit_small]; norm_num
  have b12 := prod_bounds (factor_bounds h1) (factor_bounds h2) n0 n0
  have b3 := factor_bounds h3
  have b4 := factor_bounds h4
  have hp2 : 0 < p ^ 2 := by positivity
  have hq2 : 0 ≤ q ^ 2 := sq_nonneg q
  set E := (1 + e1) * (1 + e2) with hE
  set D := p ^ 2 + q ^ 2 with hD
  have hDpos : 0 < D := by rw [hD]; linarith
  have hEpos : 0 < E := lt_of_lt_of_le (by rw [unit_small]; norm_num) b12.1
  have hNpos : 0 < p ^ 2 + q ^ 2 * E := by positivity
  have h3pos : 0 < 1 + e3 := lt_of_lt_of_le (by rw [unit_small]; norm_num) b3.1
  have hval : 1 / ((p + q * (q / p * (1 + e1)) * (1 + e2)) * (1 + e3)) * (1 + e4) =
      (D * (1 + e4) / ((p ^ 2 + q ^ 2 * E) * (1 + e3))) * (p / D) := by
    have e : (p + q * (q / p * (1 + e1)) * (1 + e2)) = (p ^ 2 + q ^ 2 * E) / p := by
      rw [hE]; field_simp
    rw [e]
    field_simp
  refine ⟨D * (1 + e4) / ((p ^ 2 + q ^ 2 * E) * (1 + e3)) - 1, ?_, by rw [hval]; ring⟩
  have hlo : (1 - unitRoundoff) ^ 2 * D ≤ p ^ 2 + q ^ 2 * E := by
    have := mul_le_mul_of_nonneg_left b12.1 hq2
    have h5 : (1 - unitRoundoff) ^ 2 * p ^ 2 ≤ 1 * p ^ 2 := mul_le_mul_of_nonneg_right (by rw [unit_small]; norm_num) hp2.le
    rw [hD]; nlinarith
  have hhi : p ^ 2 + q ^ 2 * E ≤ (1 + unitRoundoff) ^ 2 * D := by
    have := mul_le_mul_of_nonneg_left b12.2 hq2
    have h5 : 1 * p ^ 2 ≤ (1 + unitRoundoff) ^ 2 * p ^ 2 := mul_le_mul_of_nonneg_right (by rw [unit_small]; norm_num) hp2.le
    rw [hD]; nlinarith
  have hden : 0 < (p ^ 2 + q ^ 2 * E) * (1 + e3) := by positivity
  rw [abs_le]
  constructor
  · rw [neg_le_sub_iff_le_add, ← sub_le_iff_le_add, le_div_iff₀ hden]
    have k1 : (p ^ 2 + q ^ 2 * E) * (1 + e3) ≤ (1 + unitRoundoff) ^ 2 * D * (1 + unitRoundoff) :=
      mul_le_mul hhi b3.2 h3pos.le (by positivity)
    have k2 : D * (1 - unitRoundoff) ≤ D * (1 + e4) := mul_le_mul_of_nonneg_left b4.1 hDpos.le
    have k3 : (1 - 5 * unitRoundoff) * ((p ^ 2 + q ^ 2 * E) * (1 + e3)) ≤ (1 - 5 * unitRoundoff) * ((1 + unitRoundoff) ^ 2 * D * (1 + unitRoundoff)) :=
      mul_le_mul_of_nonneg_left k1 (by rw [unit_small]; norm_num)
    refine k3.trans (le_trans ?_ k2)
    have k4 : (1 - 5 * unitRoundoff) * (1 + unitRoundoff) ^ 3 ≤ 1 - unitRoundoff := by rw [unit_small]; norm_num
    calc _ = D * ((1 - 5 * unitRoundoff) * (1 + unitRoundoff) ^ 3) := by ring
      _ ≤ _ := mul_le_mul_of_nonneg_left k4 hDpos.le
  · rw [sub_le_iff_le_add, div_le_iff₀ hden]
    have k1 : (1 - unitRoundoff) ^ 2 * D * (1 - unitRoundoff) ≤ (p ^ 2 + q ^ 2 * E) * (1 + e3) :=
      mul_le_mul hlo b3.1 n0 hNpos.le
    have k2 : D * (1 + e4) ≤ D * (1 + unitRoundoff) := mul_le_mul_of_nonneg_left b4.2 hDpos.le
    have k3 := mul_le_mul_of_nonneg_left k1 (show (0 : ℚ) ≤ 5 * unitRoundoff + 1 by linarith [unit_pos])
    refine k2.trans (le_trans ?_ k3)
    have k4 : 1 + unitRoundoff ≤ (5 * unitRoundoff + 1) * (1 - unitRoundoff) ^ 3 := by rw [unit_small]; norm_num
    calc _ ≤ D * ((5 * unitRoundoff + 1) * (1 - unitRoundoff) ^ 3) := mul_le_mul_of_nonneg_left k4 hDpos.le
      _ = _ := by ring

/-- one part of a quotient -/
theorem quotient_part (n' n S θ s : ℚ) (hn : |n' - n| ≤ 4 * unitRoundoff * S) (hS : |n| ≤ S) (hθ : |θ| ≤ 5 * unitRoundoff) :
    |fl (n' * ((1 + θ) * s)) - n * s| ≤ 11 * unitRoundoff * (S * |s|) := by
  obtain ⟨e, he, hf⟩ := fl_factor (n' * ((1 + θ) * s))
  rw [hf]
  have hid : n' * ((1 + θ) * s) * (1 + e) - n * s = s * ((n' - n) * ((1 + θ) * (1 + e)) + n * ((1 + θ) * (1 + e) - 1)) := by ring
  rw [hid, abs_mul]
  have hu := unit_pos
  have hS0 : 0 ≤ S := (abs_nonneg _).trans hS
  have hθ' := abs_le.1 hθ
  have bθ : 1 - 5 * unitRoundoff ≤ 1 + θ ∧ 1 + θ ≤ 1 + 5 * unitRoundoff := ⟨by linarith [hθ'.1], by linarith [hθ'.2]⟩
  have p := prod_bounds bθ (factor_bounds he) (by rw [unit_small]; norm_num) (by rw [unit_small]; norm_num)
  set F := (1 + θ) * (1 + e)
  have hF1 : |F| ≤ 1 + 1 / 2 ^ 20 := by
    rw [abs_le]
    constructor
    · refine le_trans ?_ p.1; rw [unit_small]; norm_num
    · refine p.2.trans ?_; rw [unit_small]; norm_num
  have hF2 : |F - 1| ≤ (6 + 1 / 2 ^ 20) * unitRoundoff := by
    rw [abs_le]
    constructor
    · refine le_trans ?_ (sub_le_sub_right p.1 1); rw [unit_small]; norm_num
    · refine (sub_le_sub_right p.2 1).trans ?_; rw [unit_small]; norm_num
  have k1 : |(n' - n) * F| ≤ 4 * unitRoundoff * S * (1 + 1 / 2 ^ 20) := by
    rw [abs_mul]
    exact mul_le_mul hn hF1 (abs_nonneg _) (by positivity)
  have k2 : |n * (F - 1)| ≤ S * ((6 + 1 / 2 ^ 20) * unitRoundoff) := by
    rw [abs_mul]
    exact mul_le_mul hS hF2 (abs_nonneg _) hS0
  have k3 : |(n' - n) * F + n * (F - 1)| ≤ 11 * unitRoundoff * S := by
    refine (abs_add_le _ _).trans ((add_le_add k1 k2).trans ?_)
    have : 0 ≤ unitRoundoff * S := by positivity
    nlinarith
  calc |s| * |(n' - n) * F + n * (F - 1)| ≤ |s| * (11 * unitRoundoff * S) := mul_le_mul_of_nonneg_left k3 (abs_nonneg _)
    _ = _ := by ring

/-- **C88**. Each part of a quotient is exact up to eleven roundings of the size of the quotient. -/
theorem C88_quotient (x h : ℚ × ℚ) (hh : h ≠ (0, 0)) :
    |(divF x h).1 - (x.1 * h.1 + x.2 * h.2) / (h.1 ^ 2 + h.2 ^ 2)| ≤ 11 / 2 ^ 53 * ((|x.1| + |x.2|) * max |h.1| |h.2| / (h.1 ^ 2 + h.2 ^ 2)) ∧
    |(divF x h).2 - (x.2 * h.1 - x.1 * h.2) / (h.1 ^ 2 + h.2 ^ 2)| ≤ 11 / 2 ^ 53 * ((|x.1| + |x.2|) * max |h.1| |h.2| / (h.1 ^ 2 + h.2 ^ 2)) := by
  have h11 : (11 : ℚ) / 2 ^ 53 = 11 * unitRoundoff := by rw [unit_small]; ring
  rw [h11]
  obtain ⟨x1, x2⟩ := x
  obtain ⟨p, q⟩ := h
  simp only
  unfold divF
  simp only
  by_cases hle : |q| ≤ |p|
  · rw [if_pos hle, max_eq_left hle]
    have hp : p ≠ 0 := by
      rintro rfl
      rw [abs_zero] at hle
      exact hh (by rw [abs_nonpos_iff.1 hle])
    have hr : |q / p| ≤ 1 := by rw [abs_div]; exact (div_le_one (abs_pos.2 hp)).2 hle
    obtain ⟨e1, h1, hrat⟩ := fl_factor (q / p)
    obtain ⟨θ, hθ, hs⟩ := scale_close p q e1 hp h1
    rw [hrat, hs]
    have hD : 0 < p ^ 2 + q ^ 2 := by positivity
    have hab : |p / (p ^ 2 + q ^ 2)| = |p| / (p ^ 2 + q ^ 2) := by rw [abs_div, abs_of_pos hD]
    have hS : ∀ a b : ℚ, |a + b * (q / p)| ≤ |a| + |b| := by
      intro a b
      refine (abs_add_le _ _).trans (add_le_add_right ?_ _)
      rw [abs_mul]
      calc |b| * |q / p| ≤ |b| * 1 := mul_le_mul_of_nonneg_left hr (abs_nonneg _)
        _ = |b| := mul_one _
    constructor
    · have := quotient_part _ _ _ θ (p / (p ^ 2 + q ^ 2)) (numerator_close x1 x2 (q / p) e1 hr h1) (hS x1 x2) hθ
      rw [hab] at this
      have e : (x1 + x2 * (q / p)) * (p / (p ^ 2 + q ^ 2)) = (x1 * p + x2 * q) / (p ^ 2 + q ^ 2) := by field_simp
      rw [e] at this
      convert this using 2
      ring
    · have := quotient_part _ _ _ θ (p / (p ^ 2 + q ^ 2)) (numerator_close x2 (-x1) (q / p) e1 hr h1) (hS x2 (-x1)) hθ
      rw [hab] at this
      have e : (x2 + -x1 * (q / p)) * (p / (p ^ 2 + q ^ 2)) = (x2 * p - x1 * q) / (p ^ 2 + q ^ 2) := by field_simp; ring
      rw [e, neg_mul, fl_opposite, ← sub_eq_add_neg, abs_neg] at this
      convert this using 2
      ring
  · rw [if_neg hle, max_eq_right (le_of_not_ge hle)]
    have hle' : |p| ≤ |q| := (le_of_not_ge hle)
    have hq : q ≠ 0 := by
      rintro rfl
      rw [abs_zero] at hle
      exact hle (abs_nonneg _)
    have hr : |p / q| ≤ 1 := by rw [abs_div]; exact (div_le_one (abs_pos.2 hq)).2 hle'
    obtain ⟨e1, h1, hrat⟩ := fl_factor (p / q)
    obtain ⟨θ, hθ, hs⟩ := scale_close q p e1 hq h1
    rw [hrat, hs]
    rw [add_comm (p ^ 2)]
    have hD : 0 < q ^ 2 + p ^ 2 := by positivity
    have hab : |q / (q ^ 2 + p ^ 2)| = |q| / (q ^ 2 + p ^ 2) := by rw [abs_div, abs_of_pos hD]
    have hS : ∀ a b : ℚ, |a + b * (p / q)| ≤ |a| + |b| := by
      intro a b
      refine (abs_add_le _ _).trans (add_le_add_right ?_ _)
      rw [abs_mul]
      calc |b| * |p / q| ≤ |b| * 1 := mul_le_mul_of_nonneg_left hr (abs_nonneg _)
        _ = |b| := mul_one _
    constructor
    · have := quotient_part _ _ _ θ (q / (q ^ 2 + p ^ 2)) (numerator_close x2 x1 (p / q) e1 hr h1) (hS x2 x1) hθ
      rw [hab] at this
      have e : (x2 + x1 * (p / q)) * (q / (q ^ 2 + p ^ 2)) = (x1 * p + x2 * q) / (q ^ 2 + p ^ 2) := by field_simp; ring
      rw [e, add_comm x2] at this
      convert this using 2
      ring
    · have := quotient_part _ _ _ θ (q / (q ^ 2 + p ^ 2)) (numerator_close (-x1) x2 (p / q) e1 hr h1) (hS (-x1) x2) hθ
      rw [hab] at this
      have e : (-x1 + x2 * (p / q)) * (q / (q ^ 2 + p ^ 2)) = (x2 * p - x1 * q) / (q ^ 2 + p ^ 2) := by field_simp; ring
      rw [e, add_comm (-x1), ← sub_eq_add_neg, abs_neg] at this
      convert this using 2
      ring

/-- **C88**. As complex numbers: a quotient is exact up to a part in 2^48. -/
theorem C88_quotient_norm (x h : ℚ × ℚ) (hh : h ≠ (0, 0)) :
    ‖asComplex (divF x h) - asComplex x / asComplex h‖ ≤ 1 / 2 ^ 48 * ‖asComplex x / asComplex h‖ := by
  obtain ⟨h1, h2⟩ := C88_quotient x h hh
  have hD : 0 < h.1 ^ 2 + h.2 ^ 2 := by
    by_contra hn
    have a1 := sq_nonneg h.1
    have a2 := sq_nonneg h.2
    have e1 : h.1 ^ 2 = 0 := by linarith
    have e2 : h.2 ^ 2 = 0 := by linarith
    exact hh (Prod.ext (by simpa using e1) (by simpa using e2))
  have hDR : (0 : ℝ) < ((h.1 ^ 2 + h.2 ^ 2 : ℚ) : ℝ) := by exact_mod_cast hD
  have hsq : Complex.normSq (asComplex h) = ((h.1 ^ 2 + h.2 ^ 2 : ℚ) : ℝ) := by
    simp only [asComplex, Complex.normSq_mk]; push_cast; ring
  have e1 : (asComplex (divF x h) - asComplex x / asComplex h).re =
      (((divF x h).1 - (x.1 * h.1 + x.2 * h.2) / (h.1 ^ 2 + h.2 ^ 2) : ℚ) : ℝ) := by
    rw [Complex.sub_re, Complex.div_re, hsq]
    simp only [asComplex]
    push_cast
    ring
  have e2 : (asComplex (divF x h) - asComplex x / asComplex h).im =
      (((divF x h).2 - (x.2 * h.1 - x.1 * h.2) / (h.1 ^ 2 + h.2 ^ 2) : ℚ) : ℝ) := by
    rw [Complex.sub_im, Complex.div_im, hsq]
    simp only [asComplex]
    push_cast
    ring
  refine (Complex.norm_le_abs_re_add_abs_im _).trans ?_
  rw [e1, e2, ← Rat.cast_abs, ← Rat.cast_abs]
  have hN : 0 < ‖asComplex h‖ := by
    rw [Complex.norm_def, hsq]; exact Real.sqrt_pos.2 hDR
  have hN2 : ‖asComplex h‖ * ‖asComplex h‖ = ((h.1 ^ 2 + h.2 ^ 2 : ℚ) : ℝ) := by
    rw [← hsq, Complex.normSq_eq_norm_sq]; ring
  have hmax : ((max |h.1| |h.2| : ℚ) : ℝ) ≤ ‖asComplex h‖ := by
    rw [Rat.cast_max, Rat.cast_abs, Rat.cast_abs]
    exact max_le (Complex.abs_re_le_norm (asComplex h)) (Complex.abs_im_le_norm (asComplex h))
  have hB : (((|x.1| + |x.2|) * max |h.1| |h.2| / (h.1 ^ 2 + h.2 ^ 2) : ℚ) : ℝ) ≤ √2 * (‖asComplex x‖ / ‖asComplex h‖) := by
    rw [Rat.cast_div, Rat.cast_mul, div_le_iff₀ hDR, ← hN2]
    have := mul_le_mul (abs_parts_le x) hmax (by positivity) (by positivity)
    refine this.trans (le_of_eq ?_)
    field_simp
  have h3 := (Rat.cast_le (K := ℝ)).2 (add_le_add h1 h2)
  rw [Rat.cast_add, Rat.cast_add, Rat.cast_mul] at h3
  refine h3.trans ?_
  rw [norm_div]
  have hs2 : √2 ≤ (16 / 11 : ℝ) := by
    rw [Real.sqrt_le_left (by norm_num)]; norm_num
  have hQ : 0 ≤ ‖asComplex x‖ / ‖asComplex h‖ := by positivity
  have h4 : √2 * (‖asComplex x‖ / ‖asComplex h‖) ≤ 16 / 11 * (‖asComplex x‖ / ‖asComplex h‖) := mul_le_mul_of_nonneg_right hs2 hQ
  generalize ‖asComplex x‖ / ‖asComplex h‖ = Q at *
  have h5 := hB.trans h4
  generalize (((|x.1| + |x.2|) * max |h.1| |h.2| / (h.1 ^ 2 + h.2 ^ 2) : ℚ) : ℝ) = B at *
  push_cast
  linarith

/-- **C88**. A real response that is a power of two divides exactly (gains of amplifiers): no part is rounded; an imaginary one also exchanges the parts. -/
theorem C88_power_of_two (x : ℚ × ℚ) (hx : Bits53 x.1 ∧ Bits53 x.2) (s : ℤ) (k : ℤ) (hs : s = 1 ∨ s = -1) :
    divF x ((s : ℚ) * 2 ^ k, 0) = (s * x.1 / 2 ^ k, s * x.2 / 2 ^ k) ∧ divF x (0, (s : ℚ) * 2 ^ k) = (s * x.2 / 2 ^ k, -(s * x.1) / 2 ^ k) := by
  have h0 : (0 : ℚ) < 2 ^ k := by positivity
  have hs0 : (s : ℚ) ≠ 0 := by rcases hs with rfl | rfl <;> norm_num
  have hss : (s : ℚ) * s = 1 := by rcases hs with rfl | rfl <;> norm_num
  have hP : Bits53 ((s : ℚ) * 2 ^ k) := ⟨s, k, by rcases hs with rfl | rfl <;> norm_num, rfl⟩
  have hR : Bits53 ((s : ℚ) * 2 ^ (-k)) := ⟨s, -k, by rcases hs with rfl | rfl <;> norm_num, rfl⟩
  have hinv : 1 / ((s : ℚ) * 2 ^ k) = s * 2 ^ (-k) := by
    rw [zpow_neg]
    field_simp
    rw [sq, hss]
  have hscale : ∀ a : ℚ, Bits53 a → Bits53 (a * ((s : ℚ) * 2 ^ (-k))) := by
    rintro a ⟨n, e, hn, rfl⟩
    refine ⟨n * s, e - k, ?_, ?_⟩
    · rcases hs with rfl | rfl <;> simpa using hn
    · rw [sub_eq_add_neg, zpow_add₀ (by norm_num)]
      push_cast
      ring
  have hneg : ∀ a : ℚ, Bits53 a → Bits53 (-a) := by
    rintro a ⟨n, e, hn, rfl⟩
    exact ⟨-n, e, by rwa [abs_neg], by push_cast; ring⟩
  have hdiv : ∀ a : ℚ, a * ((s : ℚ) * 2 ^ (-k)) = s * a / 2 ^ k := by
    intro a
    rw [zpow_neg, ← div_eq_mul_inv, mul_div_assoc', mul_comm a]
  have f1 : ∀ a : ℚ, Bits53 a → fl (s * a / 2 ^ k) = s * a / 2 ^ k := fun a ha => by rw [← hdiv]; exact (hscale a ha).fl_eq
  have f2 := f1 _ (hneg _ hx.1)
  rw [mul_neg] at f2
  constructor
  · unfold divF
    rw [if_pos (by rw [abs_zero]; exact abs_nonneg _)]
    simp only [zero_div, mul_zero, fl_zero, add_zero, sub_zero, hP.fl_eq, hinv, hR.fl_eq, hx.1.fl_eq, hx.2.fl_eq, hdiv, f1 _ hx.1, f1 _ hx.2]
  · unfold divF
    rw [if_neg (by simp only [abs_zero, abs_nonpos_iff]; exact mul_ne_zero hs0 h0.ne')]
    simp only [zero_div, mul_zero, fl_zero, add_zero, zero_add, zero_sub, hP.fl_eq, hinv, hR.fl_eq, hx.2.fl_eq, (hneg _ hx.1).fl_eq,
      hdiv, mul_neg, f1 _ hx.2, f2]

/-- **C88**. Conjugates: the quotient of the conjugates is exactly the conjugate of the quotient. -/
theorem C88_conjugates (x h : ℚ × ℚ) : divF (conjF x) (conjF h) = conjF (divF x h) := by
  obtain ⟨a, b⟩ := x
  obtain ⟨p, q⟩ := h
  simp only [divF, conjF, abs_neg]
  by_cases hle : |q| ≤ |p|
  · rw [if_pos hle, if_pos hle]
    simp only [neg_div, fl_opposite, mul_neg, neg_mul, neg_neg, sub_neg_eq_add, Prod.mk.injEq, true_and]
    rw [← fl_opposite, ← neg_mul, ← fl_opposite]
    congr 3
    ring
  · rw [if_neg hle, if_neg hle]
    have e1 : fl (-q + fl (p * fl (p / -q))) = -fl (q + fl (p * fl (p / q))) := by
      rw [← fl_opposite, div_neg, fl_opposite, mul_neg, fl_opposite]
      congr 1
      ring
    simp only [e1]
    simp only [div_neg, fl_opposite, mul_neg, neg_mul, neg_neg, Prod.mk.injEq]
    constructor
    · rw [show -fl (a * fl (p / q)) + -b = -(fl (a * fl (p / q)) + b) by ring, fl_opposite]
      simp only [neg_mul, fl_opposite, neg_neg]
    · trivial

/-- **C88**. A quarter turn of the spectrum turns the quotient exactly. -/
theorem C88_quarter_turn (x h : ℚ × ℚ) : divF (-x.2, x.1) h = (-(divF x h).2, (divF x h).1) := by
  obtain ⟨a, b⟩ := x
  obtain ⟨p, q⟩ := h
  simp only [divF]
  by_cases hle : |q| ≤ |p|
  · rw [if_pos hle, if_pos hle]
    simp only [neg_mul, fl_opposite, sub_neg_eq_add, Prod.mk.injEq, and_true]
    rw [← fl_opposite, ← neg_mul, ← fl_opposite]
    congr 3
    ring
  · rw [if_neg hle, if_neg hle]
    simp only [neg_mul, fl_opposite, Prod.mk.injEq]
    rw [show -fl (b * fl (p / q)) + a = -(fl (b * fl (p / q)) - a) by ring, fl_opposite, neg_mul, fl_opposite, sub_neg_eq_add]
    exact ⟨rfl, rfl⟩

/-! ## The response -/

/-- Specification: the sine and cosine of the mathematical library are exact up to a part in 2^51. -/
def CisNear (cis : ℚ → ℚ × ℚ) : Prop := ∀ p : ℚ, ‖asComplex (cis p) - exp ((p : ℂ) * I)‖ ≤ 1 / 2 ^ 51

theorem norm_turn (p : ℚ) : ‖exp ((p : ℂ) * I)‖ = 1 := by
  have := Complex.norm_exp_ofReal_mul_I (p : ℝ)
  simpa using this

theorem norm_ratCast (m : ℚ) : ‖(m : ℂ)‖ = |(m : ℝ)| := by
  have := Complex.norm_real (m : ℝ)
  rw [Real.norm_eq_abs] at this
  rw [← this, Complex.ofReal_ratCast]

theorem norm_parts (a b : ℚ) : ‖asComplex (a, b)‖ ≤ ((|a| + |b| : ℚ) : ℝ) := by
  refine (Complex.norm_le_abs_re_add_abs_im _).trans (le_of_eq ?_)
  simp [asComplex]

theorem response_close {cis : ℚ → ℚ × ℚ} (hcis : CisNear cis) (m p : ℚ) :
    ‖asComplex (fl (m * (cis p).1), fl (m * (cis p).2)) - (m : ℂ) * exp ((p : ℂ) * I)‖ ≤ 1 / 2 ^ 50 * |(m : ℝ)| := by
  have hc := hcis p
  have hn : ‖asComplex (cis p)‖ ≤ 1 + 1 / 2 ^ 51 := by
    have := norm_sub_norm_le (asComplex (cis p)) (exp ((p : ℂ) * I))
    rw [norm_turn] at this
    linarith
  have e : asComplex (fl (m * (cis p).1), fl (m * (cis p).2)) - (m : ℂ) * exp ((p : ℂ) * I) =
      asComplex (fl (m * (cis p).1) - m * (cis p).1, fl (m * (cis p).2) - m * (cis p).2) +
        (m : ℂ) * (asComplex (cis p) - exp ((p : ℂ) * I)) := by
    have : asComplex (fl (m * (cis p).1) - m * (cis p).1, fl (m * (cis p).2) - m * (cis p).2) =
        asComplex (fl (m * (cis p).1), fl (m * (cis p).2)) - (m : ℂ) * asComplex (cis p) := by
      apply Complex.ext
      · simp [asComplex]
      · simp [asComplex]
    rw [this]
    ring
  rw [e]
  refine (norm_add_le _ _).trans ?_
  have h1 : ‖asComplex (fl (m * (cis p).1) - m * (cis p).1, fl (m * (cis p).2) - m * (cis p).2)‖ ≤
      1 / 2 ^ 53 * (|(m : ℝ)| * (√2 * (1 + 1 / 2 ^ 51))) := by
    refine (norm_parts _ _).trans ?_
    have k1 := fl_near (m * (cis p).1)
    have k2 := fl_near (m * (cis p).2)
    have k3 : |fl (m * (cis p).1) - m * (cis p).1| + |fl (m * (cis p).2) - m * (cis p).2| ≤ 1 / 2 ^ 53 * (|m| * (|(cis p).1| + |(cis p).2|)) := by
      rw [abs_mul] at k1 k2
      rw [unit_small] at k1 k2
      linarith
    have k4 := (Rat.cast_le (K := ℝ)).2 k3
    refine k4.trans ?_
    rw [Rat.cast_mul, Rat.cast_mul]
    have k5 := (abs_parts_le (cis p)).trans (mul_le_mul_of_nonneg_left hn (Real.sqrt_nonneg 2))
    have k6 := mul_le_mul_of_nonneg_left k5 (show (0 : ℝ) ≤ ((|m| : ℚ) : ℝ) by positivity)
    rw [Rat.cast_abs] at k6 ⊢
    have k7 := mul_le_mul_of_nonneg_left k6 (show (0 : ℝ) ≤ 1 / 2 ^ 53 by positivity)
    refine le_trans (le_of_eq ?_) k7
    push_cast
    ring
  have h2 : ‖(m : ℂ) * (asComplex (cis p) - exp ((p : ℂ) * I))‖ ≤ |(m : ℝ)| * (1 / 2 ^ 51) := by
    rw [norm_mul]
    rw [norm_ratCast]
    exact mul_le_mul_of_nonneg_left hc (abs_nonneg _)
  have hs2 : √2 ≤ (3 / 2 : ℝ) := by rw [Real.sqrt_le_left (by norm_num)]; norm_num
  have hm : 0 ≤ |(m : ℝ)| := abs_nonneg _
  have h3 : |(m : ℝ)| * (√2 * (1 + 1 / 2 ^ 51)) ≤ |(m : ℝ)| * (3 / 2 * (1 + 1 / 2 ^ 51)) :=
    mul_le_mul_of_nonneg_left (mul_le_mul_of_nonneg_right hs2 (by positivity)) hm
  generalize |(m : ℝ)| = M at *
  norm_num at h1 h2 h3 ⊢
  linarith

/-- quotients by close numbers -/
theorem quotient_shift (x h h' : ℂ) (δ : ℝ) (h0 : h ≠ 0) (hδ0 : 0 ≤ δ) (hδ : δ ≤ 1 / 2) (hh : ‖h' - h‖ ≤ δ * ‖h‖) :
    h' ≠ 0 ∧ ‖x / h' - x / h‖ ≤ 2 * δ * ‖x / h‖ := by
  have hn : 0 < ‖h‖ := norm_pos_iff.2 h0
  have h1 : ‖h‖ / 2 ≤ ‖h'‖ := by
    have := norm_sub_norm_le h h'
    rw [norm_sub_rev] at this
    nlinarith
  have hn' : 0 < ‖h'‖ := by linarith
  have h0' : h' ≠ 0 := norm_pos_iff.1 hn'
  refine ⟨h0', ?_⟩
  have e : x / h' - x / h = x / h * ((h - h') / h') := by field_simp
  rw [e, norm_mul, mul_comm]
  refine mul_le_mul_of_nonneg_right ?_ (norm_nonneg _)
  rw [norm_div, norm_sub_rev, div_le_iff₀ hn']
  nlinarith

/-- Specification: `z` is the value `x` calibrated with the magnitude `m` and the phase `p`, up to a part in 2^47, and stored in the number type. -/
def CalibratedNear (t : NumType) (m p : ℚ) (x z : ℚ × ℚ) : Prop :=
  ‖asComplex z - asComplex x / ((m : ℂ) * exp ((p : ℂ) * I))‖ ≤
    (1 / 2 ^ 47 + 2 * t.unit) * ‖asComplex x / ((m : ℂ) * exp ((p : ℂ) * I))‖ + 2 * t.tiny

theorem store_close {t : NumType} (ht : t.Floating) (z : ℚ × ℚ) :
    ‖asComplex (storeF t z) - asComplex z‖ ≤ 3 / 2 * t.unit * ‖asComplex z‖ + 2 * t.tiny := by
  obtain ⟨hu, -⟩ := ht.unit_bounds
  have e : asComplex (storeF t z) - asComplex z = asComplex (t.calc z.1 - z.1, t.calc z.2 - z.2) := by
    apply Complex.ext <;> simp [asComplex, storeF]
  rw [e]
  refine (norm_parts _ _).trans ?_
  have k : |t.calc z.1 - z.1| + |t.calc z.2 - z.2| ≤ t.unit * (|z.1| + |z.2|) + 2 * t.tiny := by
    have k1 := ht.near z.1
    have k2 := ht.near z.2
    linarith
  refine ((Rat.cast_le (K := ℝ)).2 k).trans ?_
  rw [Rat.cast_add, Rat.cast_mul]
  have hs2 : √2 ≤ (3 / 2 : ℝ) := by rw [Real.sqrt_le_left (by norm_num)]; norm_num
  have k3 := (abs_parts_le z).trans (mul_le_mul_of_nonneg_right hs2 (norm_nonneg _))
  have k4 := mul_le_mul_of_nonneg_left k3 (show (0 : ℝ) ≤ (t.unit : ℝ) by exact_mod_cast hu.le)
  push_cast at k4 ⊢
  linarith

/-- one calibrated value -/
theorem calibrated_close {t : NumType} (ht : t.Floating) {cis : ℚ → ℚ × ℚ} (hcis : CisNear cis) (m p : ℚ) (hm : m ≠ 0) (x : ℚ × ℚ) :
    CalibratedNear t m p x (storeF t (divF x (fl (m * (cis p).1), fl (m * (cis p).2)))) := by
  unfold CalibratedNear
  have hr := response_close hcis m p
  set h' := (fl (m * (cis p).1), fl (m * (cis p).2)) with hh'
  set h := (m : ℂ) * exp ((p : ℂ) * I) with hh
  have hmn : ‖h‖ = |(m : ℝ)| := by
    rw [hh, norm_mul, norm_turn, mul_one, norm_ratCast]
  rw [← hmn] at hr
  have h0 : h ≠ 0 := by
    rw [← norm_pos_iff, hmn, abs_pos]
    exact_mod_cast hm
  obtain ⟨h0', hq⟩ := quotient_shift (asComplex x) h (asComplex h') (1 / 2 ^ 50) h0 (by positivity) (by norm_num) hr
  have h0'' : h' ≠ (0, 0) := by
    intro hz
    rw [hz] at h0'
    apply h0'
    apply Complex.ext <;> simp [asComplex]
  have hd := C88_quotient_norm x h' h0''
  have hst := store_close ht (divF x h')
  obtain ⟨hu, hu1, hτ, -⟩ := ht.unit_bounds
  have hu' : (0 : ℝ) < (t.unit : ℝ) := by exact_mod_cast hu
  have hu1' : (t.unit : ℝ) ≤ 1 / 2 ^ 24 := by
    have := (Rat.cast_le (K := ℝ)).2 hu1
    push_cast at this
    exact this
  have n1 : ‖asComplex x / asComplex h'‖ ≤ (1 + 1 / 2 ^ 49) * ‖asComplex x / h‖ := by
    have := norm_sub_norm_le (asComplex x / asComplex h') (asComplex x / h)
    norm_num at hq this ⊢
    linarith
  have hQ : 0 ≤ ‖asComplex x / h‖ := norm_nonneg _
  have n2 : ‖asComplex (divF x h') - asComplex x / h‖ ≤ 1 / 2 ^ 47 * ‖asComplex x / h‖ := by
    have tri := norm_add_le (asComplex (divF x h') - asComplex x / asComplex h') (asComplex x / asComplex h' - asComplex x / h)
    rw [sub_add_sub_cancel] at tri
    generalize ‖asComplex x / h‖ = Q at *
    generalize ‖asComplex x / asComplex h'‖ = Q' at *
    norm_num at hd hq n1 ⊢
    linarith
  have n3 : ‖asComplex (divF x h')‖ ≤ (1 + 1 / 2 ^ 47) * ‖asComplex x / h‖ := by
    have := norm_sub_norm_le (asComplex (divF x h')) (asComplex x / h)
    norm_num at n2 this ⊢
    linarith
  have tri := norm_add_le (asComplex (storeF t (divF x h')) - asComplex (divF x h')) (asComplex (divF x h') - asComplex x / h)
  rw [sub_add_sub_cancel] at tri
  have n4 : 3 / 2 * (t.unit : ℝ) * ‖asComplex (divF x h')‖ ≤ 3 / 2 * t.unit * ((1 + 1 / 2 ^ 47) * ‖asComplex x / h‖) :=
    mul_le_mul_of_nonneg_left n3 (by positivity)
  have n5 : 0 ≤ (t.unit : ℝ) * ‖asComplex x / h‖ := mul_nonneg hu'.le hQ
  generalize ‖asComplex x / h‖ = Q at *
  generalize ‖asComplex (divF x h')‖ = N at *
  norm_num at n2 n4 ⊢
  nlinarith

end Resistics
