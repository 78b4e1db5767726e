import Verif.Props.Fourier64
import Verif.Props.Eval64

/-!
# C91: Fourier transform and evaluation frequencies in floating point numbers
-/

namespace Resistics

open Finset (range)

theorem fourierRow_size (d : Detrend) (coeffs : ℕ → List ℚ) (n : ℕ) (row : List ℚ) (h2 : 2 ≤ row.length) (hc : (coeffs row.length).length = row.length)
    (hc1 : ∀ c ∈ coeffs row.length, |c| ≤ 1) (k : ℕ) (w : ℂ) (hw : (fourierRow d (fun l => realRow (coeffs l)) n (realRow row))[k]? = some w) :
    ‖w‖ ≤ rowSize (realRow row) := by
  have hlen := realRow_length row
  have hk : k ≤ n / 2 := by
    have := (List.getElem?_eq_some_iff.1 hw).1
    unfold fourierRow at this
    rw [rfftOrtho_length] at this
    omega
  unfold fourierRow at hw
  rw [rfftOrtho_get _ _ hk, Option.some.injEq, hlen] at hw
  rw [← hw]
  refine (dftAt_size _ _ _).trans ?_
  have hyl : (detrendRow d (realRow row)).length = row.length := by rw [detrend_length, hlen]
  rw [rowSize_eq, rowSize_eq, List.length_zipWith, hyl, realRow_length, hc, min_self, hlen]
  have hds := detrend_size d (realRow row) (by rw [hlen]; exact h2)
  rw [hlen] at hds
  refine le_trans ?_ hds
  rw [← l2_abs row.length (fun i => (detrendRow d (realRow row)).getD i 0)]
  refine l2_mono fun i hi => ?_
  rw [windowed_getD (fun x c => x * c) _ (realRow (coeffs row.length)) 0 0 0 i (by omega) (by rw [realRow_length]; omega), realRow_getD, abs_mul]
  have hm : (coeffs row.length).getD i 0 ∈ coeffs row.length := by
    rw [List.getD_eq_getElem?_getD, List.getElem?_eq_getElem (by omega : i < (coeffs row.length).length)]
    exact List.getElem_mem _
  have h1 : |(((coeffs row.length).getD i 0 : ℚ) : ℝ)| ≤ 1 := by exact_mod_cast hc1 _ hm
  have := mul_le_mul_of_nonneg_left h1 (abs_nonneg ((detrendRow d (realRow row)).getD i 0))
  linarith

/-- **C91**. The value at a position between two bins, of the rounded transform and with rounded interpolation, is the line between the exact coefficients up to 33 roundings and
three times the inaccuracy of the library, relative to the root of the sum of the squared samples. -/
theorem C91_evaluated (m : FourierMath) (outside : ℕ → ℚ → ℤ) (t : NumType) (d : Detrend) (coeffs : ℕ → List ℚ) (ht : (detrendType t d).Floating) {e : ℝ}
    (he0 : 0 ≤ e) (he : e ≤ 1 / 16) (hm : m.Accurate (detrendType t d) e) (n : ℕ) (row : List ℚ) (h2 : 2 ≤ row.length)
    (hh : ∀ x ∈ row, Holds (detrendType t d) x) (hc : (coeffs row.length).length = row.length) (hc1 : ∀ c ∈ coeffs row.length, |c| ≤ 1)
    (hout : ∀ r ∈ fourierRowF m outside t d coeffs n row, Holds (detrendType t d) r.1 ∧ Holds (detrendType t d) r.2)
    (j : ℕ) (hj : j + 1 ≤ n / 2) (idx : ℚ) (hb : Bits53 idx) (h0 : (j : ℚ) ≤ idx) (h1 : idx ≤ ((j + 1 : ℕ) : ℚ)) (w w' : ℂ)
    (hw : (fourierRow d (fun l => realRow (coeffs l)) n (realRow row))[j]? = some w)
    (hw' : (fourierRow d (fun l => realRow (coeffs l)) n (realRow row))[j + 1]? = some w') :
    ∃ v, evalAtF (detrendType t d) (fourierRowF m outside t d coeffs n row) idx = .ok v ∧
      ‖asComplex v - (w + ((idx - j : ℚ) : ℂ) * (w' - w))‖ ≤
        (33 * (detrendType t d).unit + 3 * e) * rowSize (realRow row) + 12 * (√(row.length : ℝ) * (detrendType t d).tiny) := by
  have hl := fourierRowF_length m outside t d coeffs hm n row
  obtain ⟨v, v1, v2, v3, -⟩ := evalAtF_between ht (fourierRowF m outside t d coeffs n row) hout j (by rw [hl]; omega) idx hb h0 h1
  refine ⟨v, v1, ?_⟩
  have hz := List.getElem?_eq_getElem (l := fourierRowF m outside t d coeffs n row) (i := j) (by rw [hl]; omega)
  have hz' := List.getElem?_eq_getElem (l := fourierRowF m outside t d coeffs n row) (i := j + 1) (by rw [hl]; omega)
  have c1 := C91_row m outside t d coeffs ht he0 he hm n row h2 hh hc hc1 j _ w hz hw
  have c2 := C91_row m outside t d coeffs ht he0 he hm n row h2 hh hc hc1 (j + 1) _ w' hz' hw'
  have s1 := fourierRow_size d coeffs n row h2 hc hc1 j w hw
  have s2 := fourierRow_size d coeffs n row h2 hc hc1 (j + 1) w' hw'
  obtain ⟨u0, u1, t0, t1⟩ := unit_real ht
  set τ := detrendType t d with hτ
  set z := (fourierRowF m outside t d coeffs n row)[j]'(by rw [hl]; omega) with hzd
  set z' := (fourierRowF m outside t d coeffs n row)[j + 1]'(by rw [hl]; omega) with hzd'
  set S := rowSize (realRow row) with hS
  have hS0 : 0 ≤ S := rowSize_nonneg _
  have hr1 : (τ.tiny : ℝ) ≤ √(row.length : ℝ) * τ.tiny := by
    have : (1 : ℝ) ≤ √(row.length : ℝ) := Real.one_le_sqrt.2 (by exact_mod_cast (by omega : 1 ≤ row.length))
    nlinarith
  set r := √(row.length : ℝ) * (τ.tiny : ℝ) with hr
  have hr0 : 0 ≤ r := t0.le.trans hr1
  have n1 : ‖asComplex z‖ ≤ 12 / 10 * S + 3 * r := by
    have := norm_add_le (asComplex z - w) w
    rw [sub_add_cancel] at this
    have k1 : 4 * (τ.unit : ℝ) + 3 * e ≤ 2 / 10 := by
      have : (τ.unit : ℝ) ≤ 1 / 1000 := u1.trans (by norm_num)
      linarith
    have k2 := mul_le_mul_of_nonneg_right k1 hS0
    linarith
  have n2 : ‖asComplex z'‖ ≤ 12 / 10 * S + 3 * r := by
    have := norm_add_le (asComplex z' - w') w'
    rw [sub_add_cancel] at this
    have k1 : 4 * (τ.unit : ℝ) + 3 * e ≤ 2 / 10 := by
      have : (τ.unit : ℝ) ≤ 1 / 1000 := u1.trans (by norm_num)
      linarith
    have k2 := mul_le_mul_of_nonneg_right k1 hS0
    linarith
  have hsq : √2 ≤ (3 / 2 : ℝ) := Real.sqrt_le_iff.2 ⟨by norm_num, by norm_num⟩
  have a1 : ((|z.1| + |z.2| : ℚ) : ℝ) ≤ 3 / 2 * (12 / 10 * S + 3 * r) :=
    (abs_parts_le z).trans (mul_le_mul hsq n1 (norm_nonneg _) (by norm_num))
  have a2 : ((|z'.1| + |z'.2| : ℚ) : ℝ) ≤ 3 / 2 * (12 / 10 * S + 3 * r) :=
    (abs_parts_le z').trans (mul_le_mul hsq n2 (norm_nonneg _) (by norm_num))
  push_cast at a1 a2
  have b1 := (Rat.cast_le (K := ℝ)).2 v2
  have b2 := (Rat.cast_le (K := ℝ)).2 v3
  push_cast at b1 b2
  have c3 : ‖asComplex v - (asComplex z + ((idx - j : ℚ) : ℂ) * (asComplex z' - asComplex z))‖ ≤ 29 * (τ.unit * S) + 9 * r := by
    refine (Complex.norm_le_abs_re_add_abs_im _).trans ?_
    have e1 : (asComplex v - (asComplex z + ((idx - j : ℚ) : ℂ) * (asComplex z' - asComplex z))).re =
        (v.1 : ℝ) - (z.1 + ((idx : ℝ) - j) * (z'.1 - z.1)) := by
      simp [asComplex]
    have e2 : (asComplex v - (asComplex z + ((idx - j : ℚ) : ℂ) * (asComplex z' - asComplex z))).im =
        (v.2 : ℝ) - (z.2 + ((idx : ℝ) - j) * (z'.2 - z.2)) := by
      simp [asComplex]
    rw [e1, e2]
    have q : 8 * (τ.unit : ℝ) * ((|(z.1 : ℝ)| + |(z.2 : ℝ)|) + (|(z'.1 : ℝ)| + |(z'.2 : ℝ)|)) ≤ 8 * τ.unit * (3 * (12 / 10 * S + 3 * r)) :=
      mul_le_mul_of_nonneg_left (by linarith) (by positivity)
    have ur : (τ.unit : ℝ) * r ≤ r / 1000 := by
      have : (τ.unit : ℝ) ≤ 1 / 1000 := u1.trans (by norm_num)
      nlinarith
    have uS : 0 ≤ (τ.unit : ℝ) * S := mul_nonneg u0.le hS0
    linarith
  have p0 : (0 : ℝ) ≤ ((idx - j : ℚ) : ℝ) := by exact_mod_cast sub_nonneg.2 h0
  have p1 : ((idx - j : ℚ) : ℝ) ≤ 1 := by
    have : idx - j ≤ 1 := by push_cast at h1; linarith
    exact_mod_cast this
  have c4 : ‖(asComplex z + ((idx - j : ℚ) : ℂ) * (asComplex z' - asComplex z)) - (w + ((idx - j : ℚ) : ℂ) * (w' - w))‖ ≤ (4 * τ.unit + 3 * e) * S + 3 * r := by
    have e3 : (asComplex z + ((idx - j : ℚ) : ℂ) * (asComplex z' - asComplex z)) - (w + ((idx - j : ℚ) : ℂ) * (w' - w)) =
        ((1 - ((idx - j : ℚ) : ℝ) : ℝ) : ℂ) * (asComplex z - w) + ((((idx - j : ℚ) : ℝ) : ℝ) : ℂ) * (asComplex z' - w') := by
      push_cast
      ring
    rw [e3]
    refine (norm_add_le _ _).trans ?_
    rw [norm_mul, norm_mul, Complex.norm_real, Complex.norm_real, Real.norm_of_nonneg p0, Real.norm_of_nonneg (by linarith)]
    have g1 := mul_le_mul_of_nonneg_left c1 (by linarith : (0 : ℝ) ≤ 1 - ((idx - j : ℚ) : ℝ))
    have g2 := mul_le_mul_of_nonneg_left c2 p0
    linarith
  have c5 := norm_sub_le_norm_sub_add_norm_sub (asComplex v) (asComplex z + ((idx - j : ℚ) : ℂ) * (asComplex z' - asComplex z)) (w + ((idx - j : ℚ) : ℂ) * (w' - w))
  linarith

/-- **C91**. Channels that follow a transfer function `Z` in the exact spectra of two neighbouring bins follow it in the evaluated data of a position between them, up to 33 roundings and
three times the inaccuracy of the library, relative to the samples of the channels: the noise that C89 asks for. -/
theorem C91_evaluated_noise (m : FourierMath) (outside : ℕ → ℚ → ℤ) (t : NumType) (d : Detrend) (coeffs : ℕ → List ℚ) (ht : (detrendType t d).Floating) {e : ℝ}
    (he0 : 0 ≤ e) (he : e ≤ 1 / 16) (hm : m.Accurate (detrendType t d) e) (n L : ℕ) (hL : 2 ≤ L) (hc : (coeffs L).length = L) (hc1 : ∀ x ∈ coeffs L, |x| ≤ 1)
    (nIn : ℕ) (outRow : List ℚ) (inRow : ℕ → List ℚ) (hlo : outRow.length = L) (hli : ∀ i < nIn, (inRow i).length = L)
    (hho : ∀ x ∈ outRow, Holds (detrendType t d) x) (hhi : ∀ i < nIn, ∀ x ∈ inRow i, Holds (detrendType t d) x)
    (hro : ∀ r ∈ fourierRowF m outside t d coeffs n outRow, Holds (detrendType t d) r.1 ∧ Holds (detrendType t d) r.2)
    (hri : ∀ i < nIn, ∀ r ∈ fourierRowF m outside t d coeffs n (inRow i), Holds (detrendType t d) r.1 ∧ Holds (detrendType t d) r.2)
    (j : ℕ) (hj : j + 1 ≤ n / 2) (idx : ℚ) (hb : Bits53 idx) (h0 : (j : ℚ) ≤ idx) (h1 : idx ≤ ((j + 1 : ℕ) : ℚ)) (Z : ℕ → ℂ)
    (hZ : ∀ k ∈ [j, j + 1], ∃ (E : ℂ) (H : ℕ → ℂ), (fourierRow d (fun l => realRow (coeffs l)) n (realRow outRow))[k]? = some E ∧
      (∀ i < nIn, (fourierRow d (fun l => realRow (coeffs l)) n (realRow (inRow i)))[k]? = some (H i)) ∧ E = ∑ i ∈ range nIn, Z i * H i) :
    ∃ (v : ℚ × ℚ) (y : ℕ → ℚ × ℚ), evalAtF (detrendType t d) (fourierRowF m outside t d coeffs n outRow) idx = .ok v ∧
      (∀ i < nIn, evalAtF (detrendType t d) (fourierRowF m outside t d coeffs n (inRow i)) idx = .ok (y i)) ∧
      ‖asComplex v - ∑ i ∈ range nIn, Z i * asComplex (y i)‖ ≤
        (33 * (detrendType t d).unit + 3 * e) * (rowSize (realRow outRow) + ∑ i ∈ range nIn, ‖Z i‖ * rowSize (realRow (inRow i))) +
        12 * (√(L : ℝ) * (detrendType t d).tiny) * (1 + ∑ i ∈ range nIn, ‖Z i‖) := by
  obtain ⟨E, H, z1, z2, z3⟩ := hZ j (by simp)
  obtain ⟨E', H', z1', z2', z3'⟩ := hZ (j + 1) (by simp)
  obtain ⟨v, v1, v2⟩ := C91_evaluated m outside t d coeffs ht he0 he hm n outRow (by omega) hho (by rw [hlo]; exact hc) (by rw [hlo]; exact hc1) hro j hj idx hb h0 h1 E E' z1 z1'
  rw [hlo] at v2
  have hin : ∀ i, ∃ y : ℚ × ℚ, i < nIn → evalAtF (detrendType t d) (fourierRowF m outside t d coeffs n (inRow i)) idx = .ok y ∧
      ‖asComplex y - (H i + ((idx - j : ℚ) : ℂ) * (H' i - H i))‖ ≤
        (33 * (detrendType t d).unit + 3 * e) * rowSize (realRow (inRow i)) + 12 * (√(L : ℝ) * (detrendType t d).tiny) := by
    intro i
    by_cases hi : i < nIn
    · have hl := hli i hi
      obtain ⟨y, y1, y2⟩ := C91_evaluated m outside t d coeffs ht he0 he hm n (inRow i) (by omega) (hhi i hi) (by rw [hl]; exact hc) (by rw [hl]; exact hc1) (hri i hi) j hj idx hb h0 h1
        (H i) (H' i) (z2 i hi) (z2' i hi)
      rw [hl] at y2
      exact ⟨y, fun _ => ⟨y1, y2⟩⟩
    · exact ⟨0, fun h => absurd h hi⟩
  choose y hy using hin
  refine ⟨v, y, v1, fun i hi => (hy i hi).1, ?_⟩
  have h3 : ∀ i ∈ range nIn, ‖Z i * (H i + ((idx - j : ℚ) : ℂ) * (H' i - H i)) - Z i * asComplex (y i)‖ ≤ ‖Z i‖ *
      ((33 * (detrendType t d).unit + 3 * e) * rowSize (realRow (inRow i)) + 12 * (√(L : ℝ) * (detrendType t d).tiny)) := by
    intro i hi
    rw [← mul_sub, norm_mul, norm_sub_rev]
    exact mul_le_mul_of_nonneg_left (hy i (Finset.mem_range.1 hi)).2 (norm_nonneg _)
  have e0 : E + ((idx - j : ℚ) : ℂ) * (E' - E) = ∑ i ∈ range nIn, Z i * (H i + ((idx - j : ℚ) : ℂ) * (H' i - H i)) := by
    rw [z3, z3', ← Finset.sum_sub_distrib, Finset.mul_sum, ← Finset.sum_add_distrib]
    exact Finset.sum_congr rfl fun i _ => by ring
  have e1 : asComplex v - ∑ i ∈ range nIn, Z i * asComplex (y i) = (asComplex v - (E + ((idx - j : ℚ) : ℂ) * (E' - E))) +
      ∑ i ∈ range nIn, (Z i * (H i + ((idx - j : ℚ) : ℂ) * (H' i - H i)) - Z i * asComplex (y i)) := by
    rw [Finset.sum_sub_distrib, ← e0]
    ring
  rw [e1]
  refine (norm_add_le _ _).trans ((add_le_add v2 (norm_sum_le_of_le _ h3)).trans (le_of_eq ?_))
  have e2 : ∑ i ∈ range nIn, ‖Z i‖ * ((33 * ((detrendType t d).unit : ℝ) + 3 * e) * rowSize (realRow (inRow i)) + 12 * (√(L : ℝ) * (detrendType t d).tiny)) =
      (33 * ((detrendType t d).unit : ℝ) + 3 * e) * ∑ i ∈ range nIn, ‖Z i‖ * rowSize (realRow (inRow i)) +
      12 * (√(L : ℝ) * (detrendType t d).tiny) * ∑ i ∈ range nIn, ‖Z i‖ := by
    rw [Finset.mul_sum, Finset.mul_sum, ← Finset.sum_add_distrib]
    exact Finset.sum_congr rfl fun i _ => by ring
  rw [e2]
  ring

/-! Examples. -/

theorem impulse_transform (x : ℚ) (k : ℕ) (hk : k ≤ 2) : (rfftOrtho 4 (realRow [x, 0]))[k]? = some (asComplex (x / 2, 0)) := by
  rw [rfftOrtho_get _ _ (by simpa using hk), Option.some.injEq, dftAt]
  have h4 : √(4 : ℝ) = 2 := by rw [show (4 : ℝ) = 2 ^ 2 by norm_num, Real.sqrt_sq (by norm_num)]
  simp only [realRow, List.map_cons, List.map_nil, List.length_cons, List.length_nil]
  norm_num [Finset.sum_range_succ, h4]
  apply Complex.ext <;> simp [asComplex]

/-- The hypotheses of `C91_evaluated_noise` are met: an output channel that is twice the input channel, in double precision, between the bins 0 and 1. -/
example : ∃ (m : FourierMath) (v y : ℚ × ℚ), evalAtF .double (fourierRowF m (fun _ _ => 0) .double .none (fun l => List.replicate l 1) 4 [4, 0]) (1 / 2) = .ok v ∧
    evalAtF .double (fourierRowF m (fun _ _ => 0) .double .none (fun l => List.replicate l 1) 4 [2, 0]) (1 / 2) = .ok y ∧ ‖asComplex v - 2 * asComplex y‖ ≤ 1 / 2 ^ 40 := by
  obtain ⟨m, hm, hex⟩ := fourier_exact_exists (1 / 2 ^ 50) (by positivity)
  have hwin : ∀ x : ℚ, (x = 4 ∨ x = 2) → windowTyped (fun _ _ => 0) .double (List.replicate 2 1) [x, 0] = [x, 0] := by
    rintro x (rfl | rfl) <;> decide +kernel
  have hrow : ∀ x : ℚ, (x = 4 ∨ x = 2) → fourierRowF m (fun _ _ => 0) .double .none (fun l => List.replicate l 1) 4 [x, 0] = [(x / 2, 0), (x / 2, 0), (x / 2, 0)] := by
    intro x hx
    have e : fourierRowF m (fun _ _ => 0) .double .none (fun l => List.replicate l 1) 4 [x, 0] = m.rfft .double 4 [x, 0] := by
      have := hwin x hx
      simp only [fourierRowF, detrendType, detrendF, List.length_cons, List.length_nil]
      rw [this]
    rw [e]
    have hl := (hm .double).rfft_length 4 [x, 0]
    apply List.ext_getElem?
    intro k
    by_cases hk : k ≤ 2
    · rw [hex .double 4 [x, 0] k (x / 2, 0) (impulse_transform x k hk)]
      match k, hk with
      | 0, _ => rfl
      | 1, _ => rfl
      | 2, _ => rfl
    · rw [List.getElem?_eq_none (by rw [hl]; omega), List.getElem?_eq_none (by simp; omega)]
  have hint : ∀ k : ℤ, |k| < 2 ^ 53 → Holds .double (k : ℚ) := fun k hk => ⟨k, 0, by exact_mod_cast hk, by norm_num, by norm_num⟩
  have h0 : Holds .double 0 := by exact_mod_cast hint 0 (by norm_num)
  have h1 : Holds .double 1 := by exact_mod_cast hint 1 (by norm_num)
  have h2 : Holds .double 2 := by exact_mod_cast hint 2 (by norm_num)
  have h4 : Holds .double 4 := by exact_mod_cast hint 4 (by norm_num)
  have hfr : ∀ x : ℚ, fourierRow .none (fun l => realRow (List.replicate l 1)) 4 (realRow [x, 0]) = rfftOrtho 4 (realRow [x, 0]) := by
    intro x
    simp [fourierRow, detrendRow, realRow]
  have hr4 := hrow 4 (Or.inl rfl)
  have hr2 := hrow 2 (Or.inr rfl)
  norm_num at hr4 hr2
  obtain ⟨v, y, a1, a2, a3⟩ := C91_evaluated_noise m (fun _ _ => 0) .double .none (fun l => List.replicate l 1) (Or.inr rfl) (by positivity) (by norm_num) (hm _) 4 2 le_rfl (by simp)
    (by simp) 1 [4, 0] (fun _ => [2, 0]) rfl (fun _ _ => rfl) (by simpa [detrendType] using ⟨h4, h0⟩) (by simpa [detrendType] using ⟨h2, h0⟩)
    (by rw [hr4]; simpa [detrendType] using ⟨h2, h0⟩) (by intro i _; rw [hr2]; simpa [detrendType] using ⟨h1, h0⟩) 0 (by norm_num) (1 / 2)
    ⟨1, -1, by norm_num, by norm_num⟩ (by norm_num) (by norm_num) (fun _ => 2) (by
      intro k hk
      have hk2 : k ≤ 2 := by
        simp at hk
        omega
      refine ⟨asComplex (4 / 2, 0), fun _ => asComplex (2 / 2, 0), ?_, ?_, ?_⟩
      · rw [hfr]; exact impulse_transform 4 k hk2
      · intro i _; rw [hfr]; exact impulse_transform 2 k hk2
      · rw [Finset.sum_range_one]
        apply Complex.ext <;> norm_num [asComplex])
  refine ⟨m, v, y 0, a1, a2 0 (by norm_num), ?_⟩
  simp only [Finset.sum_range_one] at a3
  refine a3.trans ?_
  have hs4 : rowSize (realRow [4, 0]) = 4 := by
    rw [rowSize]
    norm_num [realRow]
    rw [show (16 : ℝ) = 4 ^ 2 by norm_num, Real.sqrt_sq (by norm_num)]
  have hs2 : rowSize (realRow [2, 0]) = 2 := by
    rw [rowSize]
    norm_num [realRow]
    rw [show (4 : ℝ) = 2 ^ 2 by norm_num, Real.sqrt_sq (by norm_num)]
  have hu : ((NumType.unit (detrendType .double .none) : ℚ) : ℝ) = 1 / 2 ^ 53 := by
    simp only [detrendType, NumType.unit]; push_cast; rfl
  have ht : ((NumType.tiny (detrendType .double .none) : ℚ) : ℝ) ≤ 1 / 2 ^ 60 := by
    simp only [detrendType, NumType.tiny]
    push_cast
    exact one_div_le_one_div_of_le (by positivity) (pow_le_pow_right₀ (by norm_num) (by norm_num))
  have ht0 : (0 : ℝ) ≤ ((NumType.tiny (detrendType .double .none) : ℚ) : ℝ) := by
    simp only [detrendType, NumType.tiny]
    positivity
  have hq : √((2 : ℕ) : ℝ) ≤ 2 := Real.sqrt_le_iff.2 ⟨by norm_num, by norm_num⟩
  have hz : ‖(2 : ℂ)‖ = 2 := by simp
  rw [hs4, hs2, hu, hz]
  have h6 : √((2 : ℕ) : ℝ) * ((NumType.tiny (detrendType .double .none) : ℚ) : ℝ) ≤ 2 * (1 / 2 ^ 60) := mul_le_mul hq ht ht0 (by norm_num)
  norm_num at h6 ⊢
  linarith

end Resistics
