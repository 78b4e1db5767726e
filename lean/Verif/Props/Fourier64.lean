import Verif.Model.Fourier64
import Verif.Props.Fourier
import Verif.Props.Spectra
import Verif.Props.Powers64
import Mathlib.Analysis.InnerProductSpace.PiL2

/-!
# C91: the Fourier transform in floating point numbers
-/

namespace Resistics

open Finset (range)

/-! ## Specification -/

/-- The samples as real numbers. -/
def realRow (row : List ℚ) : List ℝ := row.map fun (q : ℚ) => (q : ℝ)

/-- Specification: the size of a row, the root of the sum of its squares. -/
noncomputable def rowSize (row : List ℝ) : ℝ := √((row.map (· ^ 2)).sum)

/-- Specification: mean, line and transform of the libraries are exact up to `e`, relative to the samples they are given. -/
structure FourierMath.Accurate (m : FourierMath) (t : NumType) (e : ℝ) : Prop where
  mean : ∀ row, |(m.mean t row : ℝ) - realMean (realRow row)| ≤ e * realMean ((realRow row).map (|·|))
  line_length : ∀ row, (m.line t row).length = row.length
  line : ∀ row, 2 ≤ row.length → rowSize (List.zipWith (· - ·) (realRow (m.line t row)) (detrendRow .linear (realRow row))) ≤ e * rowSize (realRow row)
  rfft_length : ∀ n row, (m.rfft t n row).length = n / 2 + 1
  rfft : ∀ (n : ℕ) (row : List ℚ) (k : ℕ) (z : ℚ × ℚ) (w : ℂ), (m.rfft t n row)[k]? = some z → (rfftOrtho n (realRow row))[k]? = some w →
    ‖asComplex z - w‖ ≤ e * rowSize (realRow row)

/-! ## Sizes -/

noncomputable def l2 (n : ℕ) (f : ℕ → ℝ) : ℝ := √(∑ i ∈ range n, f i ^ 2)

theorem l2_norm (n : ℕ) (f : ℕ → ℝ) : l2 n f = ‖(WithLp.toLp 2 (fun i : Fin n => f i) : EuclideanSpace ℝ (Fin n))‖ := by
  rw [EuclideanSpace.norm_eq, l2, Finset.sum_range]
  simp

theorem l2_nonneg (n : ℕ) (f : ℕ → ℝ) : 0 ≤ l2 n f := Real.sqrt_nonneg _

theorem l2_add (n : ℕ) (f g : ℕ → ℝ) : l2 n (fun i => f i + g i) ≤ l2 n f + l2 n g := by
  rw [l2_norm, l2_norm, l2_norm]
  exact norm_add_le (WithLp.toLp 2 (fun i : Fin n => f i) : EuclideanSpace ℝ (Fin n)) (WithLp.toLp 2 (fun i : Fin n => g i))

theorem l2_mono {n : ℕ} {f g : ℕ → ℝ} (h : ∀ i < n, |f i| ≤ g i) : l2 n f ≤ l2 n g := by
  refine Real.sqrt_le_sqrt (Finset.sum_le_sum fun i hi => ?_)
  have h1 := h i (Finset.mem_range.1 hi)
  rw [← sq_abs]
  exact pow_le_pow_left₀ (abs_nonneg _) h1 2

theorem l2_const (n : ℕ) {c : ℝ} (hc : 0 ≤ c) : l2 n (fun _ => c) = √n * c := by
  rw [l2, Finset.sum_const, Finset.card_range, nsmul_eq_mul, Real.sqrt_mul (by positivity), Real.sqrt_sq hc]

theorem l2_mul (n : ℕ) {c : ℝ} (hc : 0 ≤ c) (f : ℕ → ℝ) : l2 n (fun i => c * f i) = c * l2 n f := by
  rw [l2, l2]
  simp only [mul_pow]
  rw [← Finset.mul_sum, Real.sqrt_mul (by positivity), Real.sqrt_sq hc]

theorem l2_abs (n : ℕ) (f : ℕ → ℝ) : l2 n (fun i => |f i|) = l2 n f := by simp [l2]

theorem l2_le {m n : ℕ} (h : m ≤ n) (f : ℕ → ℝ) : l2 m f ≤ l2 n f := by
  refine Real.sqrt_le_sqrt (Finset.sum_le_sum_of_subset_of_nonneg ?_ fun i _ _ => sq_nonneg _)
  exact Finset.range_subset_range.2 h

theorem sum_abs_le (n : ℕ) (f : ℕ → ℝ) : ∑ i ∈ range n, |f i| ≤ √n * l2 n f := by
  rw [l2, ← Real.sqrt_mul (by positivity)]
  refine Real.le_sqrt_of_sq_le ?_
  have := Finset.sum_mul_sq_le_sq_mul_sq (range n) (fun _ => (1 : ℝ)) (fun i => |f i|)
  simpa using this

theorem rowSize_eq (x : List ℝ) : rowSize x = l2 x.length (fun i => x.getD i 0) := by
  rw [rowSize, l2, sum_getD, List.length_map]
  congr 1
  refine Finset.sum_congr rfl fun i hi => ?_
  have := Finset.mem_range.1 hi
  simp [List.getD_eq_getElem?_getD, this]

theorem rowSize_nonneg (x : List ℝ) : 0 ≤ rowSize x := Real.sqrt_nonneg _

theorem realRow_getD (row : List ℚ) (i : ℕ) : (realRow row).getD i 0 = ((row.getD i 0 : ℚ) : ℝ) := by
  simp only [realRow, List.getD_eq_getElem?_getD, List.getElem?_map]
  cases row[i]? <;> simp

theorem realRow_length (row : List ℚ) : (realRow row).length = row.length := by simp [realRow]

/-! ## The transform does not enlarge -/

theorem dftAt_close (n : ℕ) (x y : List ℝ) (k : ℤ) (h : x.length = y.length) :
    ‖dftAt n x k - dftAt n y k‖ ≤ l2 x.length (fun i => x.getD i 0 - y.getD i 0) := by
  unfold dftAt
  rw [← h, ← sub_div, ← Finset.sum_sub_distrib, norm_div, Complex.norm_real, Real.norm_of_nonneg (Real.sqrt_nonneg _)]
  rcases Nat.eq_zero_or_pos n with h0 | h0
  · rw [h0]
    simpa using l2_nonneg _ _
  have hn : 0 < √(n : ℝ) := Real.sqrt_pos.2 (by exact_mod_cast h0)
  rw [div_le_iff₀ hn]
  have h1 : ‖∑ j ∈ range (min n x.length), ((x.getD j 0 : ℂ) * Complex.exp (-(2 * Real.pi * k * j / n : ℝ) * Complex.I) -
      (y.getD j 0 : ℂ) * Complex.exp (-(2 * Real.pi * k * j / n : ℝ) * Complex.I))‖ ≤ ∑ j ∈ range (min n x.length), |x.getD j 0 - y.getD j 0| := by
    refine norm_sum_le_of_le _ fun j _ => ?_
    rw [← sub_mul, norm_mul, ← Complex.ofReal_sub, Complex.norm_real, Real.norm_eq_abs]
    have : ‖Complex.exp (-(2 * Real.pi * k * j / n : ℝ) * Complex.I)‖ = 1 := by
      rw [← Complex.ofReal_neg, Complex.norm_exp_ofReal_mul_I]
    rw [this, mul_one]
  refine h1.trans ((sum_abs_le _ _).trans ?_)
  rw [mul_comm]
  have h2 : √((min n x.length : ℕ) : ℝ) ≤ √(n : ℝ) := Real.sqrt_le_sqrt (by exact_mod_cast min_le_left _ _)
  exact mul_le_mul (l2_le (min_le_right _ _) _) h2 (Real.sqrt_nonneg _) (l2_nonneg _ _)

/-! ## Detrending -/

theorem detrend_size (d : Detrend) (x : List ℝ) (h2 : 2 ≤ x.length) :
    l2 x.length (fun i => (detrendRow d x).getD i 0) ≤ l2 x.length (fun i => x.getD i 0) := by
  cases d with
  | none => exact le_refl _
  | linear =>
    obtain ⟨a, b, -, h⟩ := C53_detrend_linear x h2
    exact Real.sqrt_le_sqrt (h 0 0 x ⟨rfl, fun i _ => by ring⟩)
  | constant =>
    refine Real.sqrt_le_sqrt ?_
    have e0 : ∀ i ∈ range x.length, (detrendRow .constant x).getD i 0 ^ 2 = (x.getD i 0 - realMean x) ^ 2 := fun i hi => by
      rw [detrend_constant_getD x (Finset.mem_range.1 hi)]
    rw [Finset.sum_congr rfl e0]
    have hn : (0 : ℝ) < x.length := by exact_mod_cast (by omega : 0 < x.length)
    have e : ∀ i, (x.getD i 0 - realMean x) ^ 2 = x.getD i 0 ^ 2 - 2 * realMean x * x.getD i 0 + realMean x ^ 2 := fun i => by ring
    simp only [e]
    rw [Finset.sum_add_distrib, Finset.sum_sub_distrib, ← Finset.mul_sum, ← sum_getD, Finset.sum_const, Finset.card_range, nsmul_eq_mul]
    have e2 : x.sum = x.length * realMean x := by unfold realMean; field_simp
    rw [e2]
    nlinarith [mul_nonneg hn.le (sq_nonneg (realMean x))]

theorem mean_abs_le (x : List ℝ) : √(x.length : ℝ) * realMean (x.map (|·|)) ≤ l2 x.length (fun i => x.getD i 0) := by
  rcases Nat.eq_zero_or_pos x.length with h0 | h0
  · rw [h0]
    simpa using l2_nonneg _ _
  have hn : (0 : ℝ) < x.length := by exact_mod_cast h0
  have h1 : (x.map (|·|)).sum = ∑ i ∈ range x.length, |x.getD i 0| := by
    rw [sum_getD, List.length_map]
    refine Finset.sum_congr rfl fun i hi => ?_
    have := Finset.mem_range.1 hi
    simp [List.getD_eq_getElem?_getD, this]
  have h2 := sum_abs_le x.length (fun i => x.getD i 0)
  unfold realMean
  rw [h1, List.length_map, mul_div_assoc', div_le_iff₀ hn]
  have h3 : √(x.length : ℝ) * √(x.length : ℝ) = x.length := Real.mul_self_sqrt hn.le
  calc √(x.length : ℝ) * ∑ i ∈ range x.length, |x.getD i 0| ≤ √(x.length : ℝ) * (√(x.length : ℝ) * l2 x.length (fun i => x.getD i 0)) :=
        mul_le_mul_of_nonneg_left h2 (Real.sqrt_nonneg _)
    _ = l2 x.length (fun i => x.getD i 0) * x.length := by rw [← mul_assoc, h3, mul_comm]

theorem near_real {t : NumType} (h : t.Floating) (x : ℚ) : |(t.calc x : ℝ) - x| ≤ t.unit * |(x : ℝ)| + t.tiny := by
  have := (Rat.cast_le (K := ℝ)).2 (h.near x)
  push_cast at this
  exact this

theorem unit_real {t : NumType} (h : t.Floating) : (0 : ℝ) < t.unit ∧ (t.unit : ℝ) ≤ 1 / 2 ^ 24 ∧ (0 : ℝ) < t.tiny ∧ (t.tiny : ℝ) ≤ t.unit / 2 ^ 24 := by
  rcases h with rfl | rfl
  · refine ⟨?_, ?_, ?_, ?_⟩ <;> simp only [NumType.unit, NumType.tiny] <;> push_cast <;> norm_num
  · have h1 : ((NumType.unit .double : ℚ) : ℝ) = 1 / 2 ^ 53 := by simp only [NumType.unit]; push_cast; rfl
    have h2 : ((NumType.tiny .double : ℚ) : ℝ) = 1 / 2 ^ 1075 := by simp only [NumType.tiny]; push_cast; rfl
    rw [h1, h2]
    refine ⟨by positivity, by norm_num, by positivity, ?_⟩
    rw [div_div, ← pow_add]
    exact one_div_le_one_div_of_le (by positivity) (pow_le_pow_right₀ (by norm_num) (by norm_num))

/-- what detrending may add to the error -/
theorem detrend_close (m : FourierMath) {t : NumType} (ht : t.Floating) {e : ℝ} (he0 : 0 ≤ e) (hm : m.Accurate t e) (d : Detrend) (row : List ℚ)
    (h2 : 2 ≤ row.length) (hh : ∀ x ∈ row, Holds t x) :
    (detrendF m t d row).length = row.length ∧
    l2 row.length (fun i => (((detrendF m t d row).getD i 0 : ℚ) : ℝ) - (detrendRow d (realRow row)).getD i 0) ≤
      (e + t.unit * (1 + e)) * rowSize (realRow row) + √(row.length : ℝ) * t.tiny := by
  obtain ⟨u0, u1, t0, -⟩ := unit_real ht
  have hS := rowSize_nonneg (realRow row)
  have hr := Real.sqrt_nonneg (row.length : ℝ)
  have hrt : 0 ≤ √(row.length : ℝ) * (t.tiny : ℝ) := mul_nonneg hr t0.le
  have hlen := realRow_length row
  cases d with
  | none =>
    refine ⟨rfl, ?_⟩
    have : (fun i => (((detrendF m t .none row).getD i 0 : ℚ) : ℝ) - (detrendRow .none (realRow row)).getD i 0) = fun _ => (0 : ℝ) := by
      funext i
      simp only [detrendF, detrendRow, realRow_getD, sub_self]
    rw [this, l2_const _ le_rfl, mul_zero]
    positivity
  | linear =>
    have hl := hm.line_length row
    refine ⟨hl, ?_⟩
    have h := hm.line row h2
    rw [rowSize_eq] at h
    have hl' : (List.zipWith (· - ·) (realRow (m.line t row)) (detrendRow .linear (realRow row))).length = row.length := by
      simp [realRow_length, detrend_length, hl]
    rw [hl'] at h
    have h' : l2 row.length (fun i => (((detrendF m t .linear row).getD i 0 : ℚ) : ℝ) - (detrendRow .linear (realRow row)).getD i 0) ≤ e * rowSize (realRow row) := by
      refine le_trans (le_of_eq ?_) h
      unfold l2
      congr 1
      refine Finset.sum_congr rfl fun i hi => ?_
      have hi' := Finset.mem_range.1 hi
      have a1 : i < (realRow (m.line t row)).length := by rw [realRow_length, hl]; exact hi'
      have a2 : i < (detrendRow .linear (realRow row)).length := by rw [detrend_length, realRow_length]; exact hi'
      simp only [detrendF]
      rw [← realRow_getD]
      simp only [List.getD_eq_getElem?_getD, List.getElem?_zipWith, List.getElem?_eq_getElem a1, List.getElem?_eq_getElem a2, Option.getD_some]
    have : 0 ≤ (t.unit : ℝ) * (1 + e) * rowSize (realRow row) := by positivity
    nlinarith
  | constant =>
    refine ⟨by simp [detrendF], ?_⟩
    have hmean := hm.mean row
    set μ' : ℝ := (m.mean t row : ℝ) with hμ'
    set μ : ℝ := realMean (realRow row) with hμ
    have hdm : √(row.length : ℝ) * |μ' - μ| ≤ e * rowSize (realRow row) := by
      have h3 := mean_abs_le (realRow row)
      rw [hlen] at h3
      have := mul_le_mul_of_nonneg_left hmean hr
      have h4 := mul_le_mul_of_nonneg_left h3 he0
      rw [rowSize_eq, hlen]
      linarith
    have hpt : ∀ i < row.length, |(((detrendF m t .constant row).getD i 0 : ℚ) : ℝ) - (detrendRow .constant (realRow row)).getD i 0| ≤
        (t.unit * |(detrendRow .constant (realRow row)).getD i 0| + (1 + t.unit) * |μ' - μ|) + t.tiny := by
      intro i hi
      rw [detrend_constant_getD (realRow row) (by rw [hlen]; exact hi), ← hμ, realRow_getD]
      have hx : row.getD i 0 = row[i] := by simp [List.getD_eq_getElem?_getD, hi]
      have e1 : (detrendF m t .constant row).getD i 0 = t.calc (row[i] - m.mean t row) := by
        simp only [detrendF, List.getD_eq_getElem?_getD, List.getElem?_map, List.getElem?_eq_getElem hi, Option.map_some, Option.getD_some]
        rw [ht.fixed (hh _ (List.getElem_mem hi))]
      rw [e1, hx]
      have n1 := near_real ht (row[i] - m.mean t row)
      push_cast at n1
      rw [← hμ'] at n1
      have s1 : |(row[i] : ℝ) - μ'| ≤ |(row[i] : ℝ) - μ| + |μ' - μ| := by
        have := abs_sub_le (row[i] : ℝ) μ μ'
        rwa [abs_sub_comm μ μ'] at this
      have s2 := abs_sub_le (t.calc (row[i] - m.mean t row) : ℝ) ((row[i] : ℝ) - μ') ((row[i] : ℝ) - μ)
      have s3 : |(row[i] : ℝ) - μ' - ((row[i] : ℝ) - μ)| = |μ' - μ| := by
        rw [show (row[i] : ℝ) - μ' - ((row[i] : ℝ) - μ) = -(μ' - μ) by ring, abs_neg]
      rw [s3] at s2
      have s4 := mul_le_mul_of_nonneg_left s1 u0.le
      linarith
    refine (l2_mono hpt).trans ((l2_add _ _ _).trans ?_)
    have a1 := l2_add row.length (fun i => (t.unit : ℝ) * |(detrendRow .constant (realRow row)).getD i 0|) (fun _ => (1 + t.unit) * |μ' - μ|)
    rw [l2_mul _ u0.le, l2_abs, l2_const _ (by positivity)] at a1
    rw [l2_const _ t0.le]
    have a2 := detrend_size .constant (realRow row) (by rw [hlen]; exact h2)
    rw [hlen] at a2
    have a3 : l2 row.length (fun i => (realRow row).getD i 0) = rowSize (realRow row) := by rw [rowSize_eq, hlen]
    rw [a3] at a2
    have a4 := mul_le_mul_of_nonneg_left a2 u0.le
    have a5 : √(row.length : ℝ) * ((1 + t.unit) * |μ' - μ|) ≤ (1 + t.unit) * (e * rowSize (realRow row)) := by
      have := mul_le_mul_of_nonneg_left hdm (by positivity : (0 : ℝ) ≤ 1 + t.unit)
      linarith
    linarith

/-! ## One row -/

theorem windowed_getD {α β γ : Type} (f : α → β → γ) (x : List α) (y : List β) (a : α) (b : β) (c : γ) (i : ℕ) (hx : i < x.length) (hy : i < y.length) :
    (List.zipWith f x y).getD i c = f (x.getD i a) (y.getD i b) := by
  simp only [List.getD_eq_getElem?_getD, List.getElem?_zipWith, List.getElem?_eq_getElem hx, List.getElem?_eq_getElem hy, Option.getD_some]

/-- what multiplying by the window function may add to the error -/
theorem window_close {t : NumType} (ht : t.Floating) (outside : ℕ → ℚ → ℤ) (y' : List ℚ) (y : List ℝ) (c : List ℚ) (L : ℕ) (h1 : y'.length = L)
    (h2 : y.length = L) (h3 : c.length = L) (hc : ∀ x ∈ c, |x| ≤ 1) {S D : ℝ} (hS : l2 L (fun i => y.getD i 0) ≤ S)
    (hD : l2 L (fun i => ((y'.getD i 0 : ℚ) : ℝ) - y.getD i 0) ≤ D) :
    l2 L (fun i => (((windowTyped outside t c y').getD i 0 : ℚ) : ℝ) - (List.zipWith (fun x c => x * c) y (realRow c)).getD i 0) ≤
      21 / 10 * t.unit * (S + D) + D + √(L : ℝ) * t.tiny ∧ l2 L (fun i => (List.zipWith (fun x c => x * c) y (realRow c)).getD i 0) ≤ S := by
  obtain ⟨u0, u1, t0, t1⟩ := unit_real ht
  have hlc := realRow_length c
  have hcR : ∀ i < L, |((c.getD i 0 : ℚ) : ℝ)| ≤ 1 := by
    intro i hi
    have : c.getD i 0 ∈ c := by
      rw [List.getD_eq_getElem?_getD, List.getElem?_eq_getElem (by omega : i < c.length)]
      exact List.getElem_mem _
    exact_mod_cast hc _ this
  constructor
  · have hpt : ∀ i < L, |(((windowTyped outside t c y').getD i 0 : ℚ) : ℝ) - (List.zipWith (fun x c => x * c) y (realRow c)).getD i 0| ≤
        (21 / 10 * t.unit * |((y'.getD i 0 : ℚ) : ℝ)| + |((y'.getD i 0 : ℚ) : ℝ) - y.getD i 0|) + t.tiny := by
      intro i hi
      have e1 : (windowTyped outside t c y').getD i 0 = t.calc (y'.getD i 0 * t.calc (c.getD i 0)) := by
        unfold windowTyped
        rw [windowed_getD (fun x c => t.calc (x * t.cast outside c)) y' c 0 0 0 i (by omega) (by omega), ht.cast_eq]
      rw [e1, windowed_getD (fun x c => x * c) y (realRow c) 0 0 0 i (by omega) (by omega), realRow_getD]
      have n1 := near_real ht (c.getD i 0)
      have n2 := near_real ht (y'.getD i 0 * t.calc (c.getD i 0))
      push_cast at n2
      have hci := hcR i hi
      generalize ((c.getD i 0 : ℚ) : ℝ) = a at *
      generalize ((t.calc (c.getD i 0) : ℚ) : ℝ) = b at *
      generalize ((y'.getD i 0 : ℚ) : ℝ) = x' at *
      generalize y.getD i 0 = x at *
      generalize ((t.calc (y'.getD i 0 * t.calc (c.getD i 0)) : ℚ) : ℝ) = z at *
      have k1 : |b - a| ≤ t.unit + t.tiny := by
        have := mul_le_mul_of_nonneg_left hci u0.le
        linarith
      have k2 : |b| ≤ 1 + (t.unit + t.tiny) := by
        have := abs_add_le (b - a) a
        rw [sub_add_cancel] at this
        linarith
      have k3 : |x' * b - x * a| ≤ |x'| * (t.unit + t.tiny) + |x' - x| := by
        have e : x' * b - x * a = x' * (b - a) + (x' - x) * a := by ring
        rw [e]
        refine (abs_add_le _ _).trans ?_
        rw [abs_mul, abs_mul]
        have q1 := mul_le_mul_of_nonneg_left k1 (abs_nonneg x')
        have q2 := mul_le_mul_of_nonneg_left hci (abs_nonneg (x' - x))
        linarith
      have k4 : t.unit * |x' * b| ≤ t.unit * (|x'| * (1 + (t.unit + t.tiny))) := by
        rw [abs_mul]
        exact mul_le_mul_of_nonneg_left (mul_le_mul_of_nonneg_left k2 (abs_nonneg x')) u0.le
      have k5 := abs_sub_le z (x' * b) (x * a)
      have k6 : t.unit * (|x'| * (1 + (t.unit + t.tiny))) + |x'| * (t.unit + t.tiny) ≤ 21 / 10 * t.unit * |x'| := by
        have : (t.unit : ℝ) * (1 + (t.unit + t.tiny)) + (t.unit + t.tiny) ≤ 21 / 10 * t.unit := by
          have r1 : (t.tiny : ℝ) ≤ t.unit / 100 := by
            refine t1.trans ?_
            have := u0
            norm_num
            linarith
          have r2 : (t.unit : ℝ) + t.tiny ≤ 1 / 100 := by
            have : (1 / 2 ^ 24 : ℝ) ≤ 1 / 200 := by norm_num
            linarith
          nlinarith
        have := mul_le_mul_of_nonneg_right this (abs_nonneg x')
        linarith
      linarith
    refine (l2_mono hpt).trans ((l2_add _ _ _).trans ?_)
    rw [l2_const _ t0.le]
    have a1 := l2_add L (fun i => 21 / 10 * (t.unit : ℝ) * |((y'.getD i 0 : ℚ) : ℝ)|) (fun i => |((y'.getD i 0 : ℚ) : ℝ) - y.getD i 0|)
    rw [l2_mul _ (by positivity), l2_abs, l2_abs L (fun i => ((y'.getD i 0 : ℚ) : ℝ) - y.getD i 0)] at a1
    have a2 := l2_add L (fun i => ((y'.getD i 0 : ℚ) : ℝ) - y.getD i 0) (fun i => y.getD i 0)
    simp only [sub_add_cancel] at a2
    have a3 : l2 L (fun i => ((y'.getD i 0 : ℚ) : ℝ)) ≤ S + D := by linarith
    have a4 := mul_le_mul_of_nonneg_left a3 (by positivity : (0 : ℝ) ≤ 21 / 10 * t.unit)
    linarith
  · refine le_trans ?_ hS
    rw [← l2_abs L (fun i => y.getD i 0)]
    refine l2_mono fun i hi => ?_
    rw [windowed_getD (fun x c => x * c) y (realRow c) 0 0 0 i (by omega) (by omega), realRow_getD, abs_mul]
    have := mul_le_mul_of_nonneg_left (hcR i hi) (abs_nonneg (y.getD i 0))
    linarith

theorem fourierRowF_length (m : FourierMath) (outside : ℕ → ℚ → ℤ) (t : NumType) (d : Detrend) (coeffs : ℕ → List ℚ) {e : ℝ} (hm : m.Accurate (detrendType t d) e)
    (n : ℕ) (row : List ℚ) : (fourierRowF m outside t d coeffs n row).length = n / 2 + 1 := hm.rfft_length _ _

/-- **C91**. With a window function between -1 and 1 every Fourier coefficient of a row of samples is exact up to four roundings and three times the inaccuracy `e` of the library
routines, relative to the root of the sum of the squared samples. -/
theorem C91_row (m : FourierMath) (outside : ℕ → ℚ → ℤ) (t : NumType) (d : Detrend) (coeffs : ℕ → List ℚ) (ht : (detrendType t d).Floating) {e : ℝ}
    (he0 : 0 ≤ e) (he : e ≤ 1 / 16) (hm : m.Accurate (detrendType t d) e) (n : ℕ) (row : List ℚ) (h2 : 2 ≤ row.length)
    (hh : ∀ x ∈ row, Holds (detrendType t d) x) (hc : (coeffs row.length).length = row.length) (hc1 : ∀ c ∈ coeffs row.length, |c| ≤ 1)
    (k : ℕ) (z : ℚ × ℚ) (w : ℂ) (hz : (fourierRowF m outside t d coeffs n row)[k]? = some z)
    (hw : (fourierRow d (fun l => realRow (coeffs l)) n (realRow row))[k]? = some w) :
    ‖asComplex z - w‖ ≤ (4 * (detrendType t d).unit + 3 * e) * rowSize (realRow row) + 3 * (√(row.length : ℝ) * (detrendType t d).tiny) := by
  set τ := detrendType t d with hτ
  obtain ⟨u0, u1, t0, t1⟩ := unit_real ht
  have hlen := realRow_length row
  obtain ⟨dl, dc⟩ := detrend_close m ht he0 hm d row h2 hh
  set S := rowSize (realRow row) with hSdef
  have hS : 0 ≤ S := rowSize_nonneg _
  set r := √(row.length : ℝ) * (τ.tiny : ℝ) with hr
  have hr0 : 0 ≤ r := mul_nonneg (Real.sqrt_nonneg _) t0.le
  have dsz := detrend_size d (realRow row) (by rw [hlen]; exact h2)
  rw [← rowSize_eq, ← hSdef, hlen] at dsz
  have hyl : (detrendRow d (realRow row)).length = row.length := by rw [detrend_length, hlen]
  obtain ⟨w1, w2⟩ := window_close ht outside (detrendF m τ d row) (detrendRow d (realRow row)) (coeffs row.length) row.length dl hyl hc hc1 dsz dc
  unfold fourierRow at hw
  rw [hlen] at hw
  unfold fourierRowF at hz
  rw [← hτ] at hz
  set X := windowTyped outside τ (coeffs row.length) (detrendF m τ d row) with hX
  set Y := List.zipWith (fun x c => x * c) (detrendRow d (realRow row)) (realRow (coeffs row.length)) with hY
  have hXl : X.length = row.length := by rw [hX, windowTyped, List.length_zipWith, dl, hc, min_self]
  have hYl : Y.length = row.length := by rw [hY, List.length_zipWith, hyl, realRow_length, hc, min_self]
  have hk : k ≤ n / 2 := by
    have := (List.getElem?_eq_some_iff.1 hw).1
    rw [rfftOrtho_length] at this
    omega
  have f1 := hm.rfft n X k z _ hz (rfftOrtho_get n (realRow X) hk)
  rw [rfftOrtho_get n Y hk, Option.some.injEq] at hw
  have f2 := dftAt_close n (realRow X) Y k (by rw [realRow_length, hXl, hYl])
  rw [realRow_length, hXl] at f2
  simp only [realRow_getD] at f2
  rw [rowSize_eq, realRow_length, hXl] at f1
  simp only [realRow_getD] at f1
  have f3 := l2_add row.length (fun i => ((X.getD i 0 : ℚ) : ℝ) - Y.getD i 0) (fun i => Y.getD i 0)
  simp only [sub_add_cancel] at f3
  rw [← hw]
  have f4 := norm_sub_le_norm_sub_add_norm_sub (asComplex z) (dftAt n (realRow X) k) (dftAt n Y k)
  generalize l2 row.length (fun i => ((X.getD i 0 : ℚ) : ℝ) - Y.getD i 0) = W at *
  generalize l2 row.length (fun i => ((X.getD i 0 : ℚ) : ℝ)) = X2 at *
  generalize l2 row.length (fun i => Y.getD i 0) = Y2 at *
  have g0 : X2 ≤ S + W := by linarith
  have g1 := mul_le_mul_of_nonneg_left g0 he0
  have uS : 0 ≤ (τ.unit : ℝ) * S := mul_nonneg u0.le hS
  have eS : 0 ≤ e * S := mul_nonneg he0 hS
  have ur : (τ.unit : ℝ) * r ≤ r / 1000 := by
    have : (τ.unit : ℝ) ≤ 1 / 1000 := u1.trans (by norm_num)
    nlinarith
  have euS : e * ((τ.unit : ℝ) * S) ≤ 1 / 16 * (τ.unit * S) := mul_le_mul_of_nonneg_right he uS
  have uuS : (τ.unit : ℝ) * ((τ.unit : ℝ) * S) ≤ 1 / 1000 * (τ.unit * S) := mul_le_mul_of_nonneg_right (u1.trans (by norm_num)) uS
  have ueS : (τ.unit : ℝ) * (τ.unit * (e * S)) ≤ 1 / 1000 * (τ.unit * S) := by
    have : (τ.unit : ℝ) * (e * S) ≤ τ.unit * S := by
      refine mul_le_mul_of_nonneg_left ?_ u0.le
      nlinarith
    have h9 := mul_le_mul_of_nonneg_left this u0.le
    linarith
  have eeS : e * (e * S) ≤ 1 / 16 * (e * S) := mul_le_mul_of_nonneg_right he eS
  have er : e * r ≤ 1 / 16 * r := mul_le_mul_of_nonneg_right he hr0
  have hW : W ≤ 34 / 10 * (τ.unit * S) + e * S + 21 / 10 * r := by linarith
  have heW : e * W ≤ 34 / 10 * (1 / 16 * (τ.unit * S)) + 1 / 16 * (e * S) + 21 / 10 * (1 / 16 * r) := by
    have := mul_le_mul_of_nonneg_left hW he0
    linarith
  linarith

/-- Coefficient `k` of a row of a level. -/
def coefAt {W : Type} (arr : SpecArr W) (w c k : ℕ) : Option W := ((arr[w]?.getD [])[c]?.getD [])[k]?

/-- **C91**. The transform of windowed data succeeds as in exact arithmetic, with the same channels, levels, windows and frequencies, and every coefficient of every level, window and
channel is that of exact arithmetic up to four roundings and three times the inaccuracy of the library, relative to the samples of the window. -/
theorem C91_run (m : FourierMath) (outside : ℕ → ℚ → ℤ) (t : NumType) (d : Detrend) (coeffs : ℕ → List ℚ) (nfl : ℕ → ℕ) (ht : (detrendType t d).Floating) {e : ℝ}
    (he0 : 0 ≤ e) (he : e ≤ 1 / 16) (hm : m.Accurate (detrendType t d) e) (hc : ∀ l, (coeffs l).length = l ∧ ∀ c ∈ coeffs l, |c| ≤ 1)
    (win : WinData ℚ) (hsh : win.Shaped) (hsize : ∀ lm ∈ win.md.levels, 2 ≤ lm.winSize)
    (hh : ∀ i wins, win.getLevel i = .ok (.d3 wins) → ∀ w ∈ wins, ∀ row ∈ w, ∀ x ∈ row, Holds (detrendType t d) x) :
    ∃ out exact, fourierRun nfl (fourierRowF m outside t d coeffs) win = .ok out ∧
      fourierRun nfl (fun n row => fourierRow d (fun l => realRow (coeffs l)) n (realRow row)) win = .ok exact ∧
      out.Shaped ∧ out.md.chans = win.md.chans ∧ exact.md.chans = win.md.chans ∧ out.md.nLevels = win.md.nLevels ∧
      ∀ (i : ℕ) (lm : WinLevelMeta), win.md.levels[i]? = some lm → ∃ wins lo le arr arr', win.getLevel i = .ok (.d3 wins) ∧
        out.getLevel i = .ok arr ∧ exact.getLevel i = .ok arr' ∧ out.md.levels[i]? = some lo ∧ exact.md.levels[i]? = some le ∧ lo.freqs = le.freqs ∧
        lo.nWins = lm.nWins ∧ arr.length = wins.length ∧
        ∀ (w c k : ℕ) (win1 : List (List ℚ)) (row : List ℚ), wins[w]? = some win1 → win1[c]? = some row → k ≤ nfl lm.winSize.toNat / 2 →
          ∃ z v, coefAt arr w c k = some z ∧ coefAt arr' w c k = some v ∧
            ‖asComplex z - v‖ ≤ (4 * (detrendType t d).unit + 3 * e) * rowSize (realRow row) + 3 * (√(row.length : ℝ) * (detrendType t d).tiny) := by
  obtain ⟨out, o1, o2, o3, o4, -, o6⟩ := C51_fourier_run nfl (fourierRowF m outside t d coeffs) (fun n row => fourierRowF_length m outside t d coeffs hm n row) win hsh
  obtain ⟨ex, x1, -, x3, -, -, x6⟩ := C51_fourier_run nfl (fun n row => fourierRow d (fun l => realRow (coeffs l)) n (realRow row))
    (fun n row => rfftOrtho_length n _) win hsh
  refine ⟨out, ex, o1, x1, o2, o3, x3, o4, ?_⟩
  intro i lm hlm
  obtain ⟨wins, lo, p1, p2, p3, p4, -, p6, -⟩ := o6 i lm hlm
  obtain ⟨wins', le, q1, q2, q3, q4, -⟩ := x6 i lm hlm
  obtain ⟨wins'', s1, -, s3⟩ := hsh.array i lm hlm
  rw [p1] at q1 s1
  simp only [Except.ok.injEq, WinArr.d3.injEq] at q1 s1
  subst q1 s1
  refine ⟨wins, lo, le, _, _, p1, p2, q2, p3, q3, p4.trans q4.symm, p6, by simp, ?_⟩
  intro w c k win1 row hw hrow hk
  have hwm := List.mem_of_getElem? hw
  have hrm := List.mem_of_getElem? hrow
  have hl : (row.length : ℤ) = lm.winSize := (s3 win1 hwm).2 row hrm
  have hsz := hsize lm (List.mem_of_getElem? hlm)
  have hlen1 : k < (fourierRowF m outside t d coeffs (nfl lm.winSize.toNat) row).length := by
    rw [fourierRowF_length m outside t d coeffs hm]; omega
  have hlen2 : k < (fourierRow d (fun l => realRow (coeffs l)) (nfl lm.winSize.toNat) (realRow row)).length := by
    unfold fourierRow
    rw [rfftOrtho_length]; omega
  refine ⟨_, _, ?_, ?_, C91_row m outside t d coeffs ht he0 he hm (nfl lm.winSize.toNat) row (by omega) (hh i wins p1 win1 hwm row hrm) (hc _).1 (hc _).2 k _ _
    (List.getElem?_eq_getElem hlen1) (List.getElem?_eq_getElem hlen2)⟩
  · simp [coefAt, hw, hrow]
  · simp [coefAt, hw, hrow]

theorem detrend_constant_row (d : Detrend) (hd : d ≠ .none) (L : ℕ) (hL : 2 ≤ L) (c : ℝ) (i : ℕ) : (detrendRow d (List.replicate L c)).getD i 0 = 0 := by
  by_cases hi : i < (List.replicate L c).length
  · have hn : (L : ℝ) ≠ 0 := by exact_mod_cast (by omega : L ≠ 0)
    have hmean : realMean (List.replicate L c) = c := by
      unfold realMean
      rw [List.sum_replicate, List.length_replicate, nsmul_eq_mul]
      field_simp
    have hiL : i < L := by simpa using hi
    have hx : (List.replicate L c).getD i 0 = c := by simp [List.getD_eq_getElem?_getD, hiL]
    cases d with
    | none => exact absurd rfl hd
    | constant => rw [detrend_constant_getD _ hi, hmean, hx, sub_self]
    | linear =>
      rw [detrend_linear_getD _ hi, hmean, hx]
      have : lsSlope (List.replicate L c) = 0 := by
        rw [lsSlope_eq, List.length_replicate]
        have e : ∀ j ∈ range L, ((j : ℝ) - ((L : ℝ) - 1) / 2) * (List.replicate L c).getD j 0 = ((j : ℝ) - ((L : ℝ) - 1) / 2) * c := by
          intro j hj
          have := Finset.mem_range.1 hj
          simp [List.getD_eq_getElem?_getD, this]
        rw [Finset.sum_congr rfl e, ← Finset.sum_mul, sum_centred, zero_mul, zero_div]
      rw [this]
      ring
  · rw [List.getD_eq_getElem?_getD, List.getElem?_eq_none (by rw [detrend_length]; omega)]
    rfl

/-- **C91**. What is left of a constant row after detrending: at most four roundings and three times the inaccuracy of the library, relative to the constant times the root of the number of samples. -/
theorem C91_offset (m : FourierMath) (outside : ℕ → ℚ → ℤ) (t : NumType) (d : Detrend) (hd : d ≠ .none) (coeffs : ℕ → List ℚ) (ht : (detrendType t d).Floating) {e : ℝ}
    (he0 : 0 ≤ e) (he : e ≤ 1 / 16) (hm : m.Accurate (detrendType t d) e) (n L : ℕ) (hL : 2 ≤ L) (c : ℚ) (hx : Holds (detrendType t d) c)
    (hc : (coeffs L).length = L) (hc1 : ∀ x ∈ coeffs L, |x| ≤ 1) (k : ℕ) (z : ℚ × ℚ)
    (hz : (fourierRowF m outside t d coeffs n (List.replicate L c))[k]? = some z) :
    ‖asComplex z‖ ≤ √(L : ℝ) * ((4 * (detrendType t d).unit + 3 * e) * |(c : ℝ)| + 3 * (detrendType t d).tiny) := by
  have hk : k ≤ n / 2 := by
    have := (List.getElem?_eq_some_iff.1 hz).1
    rw [fourierRowF_length m outside t d coeffs hm] at this
    omega
  have hreal : realRow (List.replicate L c) = List.replicate L (c : ℝ) := by simp [realRow]
  have hw : (fourierRow d (fun l => realRow (coeffs l)) n (realRow (List.replicate L c)))[k]? = some 0 := by
    unfold fourierRow
    rw [rfftOrtho_get _ _ hk, Option.some.injEq, dftAt]
    rw [Finset.sum_eq_zero, zero_div]
    intro j hj
    have hj' : j < L := by
      have := Finset.mem_range.1 hj
      simp [realRow_length, detrend_length] at this
      omega
    rw [windowed_getD (fun x c => x * c) _ _ 0 0 0 j (by rw [detrend_length, realRow_length]; simpa using hj') (by rw [realRow_length, realRow_length]; simpa [hc] using hj'), hreal,
      detrend_constant_row d hd L hL]
    simp
  have h := C91_row m outside t d coeffs ht he0 he hm n (List.replicate L c) (by simpa using hL) (fun x hx' => by rw [List.eq_of_mem_replicate hx']; exact hx)
    (by simpa using hc) (by simpa using hc1) k z 0 hz hw
  have hsz : rowSize (realRow (List.replicate L c)) = √(L : ℝ) * |(c : ℝ)| := by
    rw [hreal, rowSize, List.map_replicate, List.sum_replicate, nsmul_eq_mul, Real.sqrt_mul (by positivity), Real.sqrt_sq_eq_abs]
  rw [hsz, sub_zero, List.length_replicate] at h
  linarith

/-- **C91**. Spectra that follow a transfer function in exact arithmetic follow it after the rounded transform too, up to roundings and the inaccuracy of the library, relative to
the samples of the output channel and those of the input channels times their coefficients: the noise that C89 asks for. -/
theorem C91_noise (m : FourierMath) (outside : ℕ → ℚ → ℤ) (t : NumType) (d : Detrend) (coeffs : ℕ → List ℚ) (ht : (detrendType t d).Floating) {e : ℝ}
    (he0 : 0 ≤ e) (he : e ≤ 1 / 16) (hm : m.Accurate (detrendType t d) e) (n L : ℕ) (hL : 2 ≤ L) (hc : (coeffs L).length = L) (hc1 : ∀ x ∈ coeffs L, |x| ≤ 1)
    (outRow : List ℚ) (nIn : ℕ) (inRow : ℕ → List ℚ) (hlo : outRow.length = L) (hli : ∀ j < nIn, (inRow j).length = L)
    (hho : ∀ x ∈ outRow, Holds (detrendType t d) x) (hhi : ∀ j < nIn, ∀ x ∈ inRow j, Holds (detrendType t d) x) (k : ℕ) (Z : ℕ → ℂ)
    (E : ℂ) (H : ℕ → ℂ) (hE : (fourierRow d (fun l => realRow (coeffs l)) n (realRow outRow))[k]? = some E)
    (hH : ∀ j < nIn, (fourierRow d (fun l => realRow (coeffs l)) n (realRow (inRow j)))[k]? = some (H j)) (hZ : E = ∑ j ∈ range nIn, Z j * H j)
    (z : ℚ × ℚ) (y : ℕ → ℚ × ℚ) (hz : (fourierRowF m outside t d coeffs n outRow)[k]? = some z)
    (hy : ∀ j < nIn, (fourierRowF m outside t d coeffs n (inRow j))[k]? = some (y j)) :
    ‖asComplex z - ∑ j ∈ range nIn, Z j * asComplex (y j)‖ ≤
      (4 * (detrendType t d).unit + 3 * e) * (rowSize (realRow outRow) + ∑ j ∈ range nIn, ‖Z j‖ * rowSize (realRow (inRow j))) +
      3 * (√(L : ℝ) * (detrendType t d).tiny) * (1 + ∑ j ∈ range nIn, ‖Z j‖) := by
  have h1 := C91_row m outside t d coeffs ht he0 he hm n outRow (by omega) hho (by rw [hlo]; exact hc) (by rw [hlo]; exact hc1) k z E hz hE
  rw [hlo] at h1
  have h2 : ∀ j ∈ range nIn, ‖Z j * H j - Z j * asComplex (y j)‖ ≤ ‖Z j‖ * ((4 * (detrendType t d).unit + 3 * e) * rowSize (realRow (inRow j)) +
      3 * (√(L : ℝ) * (detrendType t d).tiny)) := by
    intro j hj
    have hj' := Finset.mem_range.1 hj
    have hl := hli j hj'
    have := C91_row m outside t d coeffs ht he0 he hm n (inRow j) (by omega) (hhi j hj') (by rw [hl]; exact hc) (by rw [hl]; exact hc1) k (y j) (H j) (hy j hj') (hH j hj')
    rw [hl] at this
    rw [← mul_sub, norm_mul, norm_sub_rev]
    exact mul_le_mul_of_nonneg_left this (norm_nonneg _)
  have e1 : asComplex z - ∑ j ∈ range nIn, Z j * asComplex (y j) = (asComplex z - E) + ∑ j ∈ range nIn, (Z j * H j - Z j * asComplex (y j)) := by
    rw [Finset.sum_sub_distrib, ← hZ]
    ring
  rw [e1]
  refine (norm_add_le _ _).trans ((add_le_add h1 (norm_sum_le_of_le _ h2)).trans (le_of_eq ?_))
  have e2 : ∑ j ∈ range nIn, ‖Z j‖ * ((4 * ((detrendType t d).unit : ℝ) + 3 * e) * rowSize (realRow (inRow j)) + 3 * (√(L : ℝ) * (detrendType t d).tiny)) =
      (4 * ((detrendType t d).unit : ℝ) + 3 * e) * ∑ j ∈ range nIn, ‖Z j‖ * rowSize (realRow (inRow j)) +
      3 * (√(L : ℝ) * (detrendType t d).tiny) * ∑ j ∈ range nIn, ‖Z j‖ := by
    rw [Finset.mul_sum, Finset.mul_sum, ← Finset.sum_add_distrib]
    exact Finset.sum_congr rfl fun j _ => by ring
  rw [e2]
  ring

/-! Examples. -/

theorem exists_near (x ε : ℝ) (hε : 0 < ε) : ∃ q : ℚ, |(q : ℝ) - x| ≤ ε := by
  obtain ⟨q, q1, q2⟩ := exists_rat_btwn (show x - ε < x by linarith)
  exact ⟨q, by rw [abs_le]; constructor <;> linarith⟩

/-- Rational numbers near a real number that is zero when the allowed error is. -/
theorem exists_near' (x ε : ℝ) (hε : 0 ≤ ε) (h0 : ε = 0 → x = 0) : ∃ q : ℚ, |(q : ℝ) - x| ≤ ε := by
  rcases hε.eq_or_lt with h | h
  · exact ⟨0, by rw [h0 h.symm]; simpa using hε⟩
  · exact exists_near x ε h

theorem dftAt_size (n : ℕ) (x : List ℝ) (k : ℤ) : ‖dftAt n x k‖ ≤ rowSize x := by
  have h := dftAt_close n x (List.replicate x.length 0) k (by simp)
  have h0 : dftAt n (List.replicate x.length 0) k = 0 := by
    unfold dftAt
    rw [Finset.sum_eq_zero, zero_div]
    intro j _
    have : (List.replicate x.length (0 : ℝ)).getD j 0 = 0 := by
      rw [List.getD_eq_getElem?_getD, List.getElem?_replicate]
      split <;> rfl
    rw [this]
    simp
  rw [h0, sub_zero] at h
  refine h.trans (le_of_eq ?_)
  rw [rowSize_eq]
  congr 1
  funext j
  have : (List.replicate x.length (0 : ℝ)).getD j 0 = 0 := by
    rw [List.getD_eq_getElem?_getD, List.getElem?_replicate]
    split <;> rfl
  rw [this, sub_zero]

theorem abs_sum_row (l : List ℝ) : |l.sum| ≤ (l.map (|·|)).sum := by
  induction l with
  | nil => simp
  | cons a l ih =>
    rw [List.sum_cons, List.map_cons, List.sum_cons]
    exact (abs_add_le _ _).trans (by linarith)

theorem asComplex_inj {a b : ℚ × ℚ} (h : asComplex a = asComplex b) : a = b := by
  have h1 := congrArg Complex.re h
  have h2 := congrArg Complex.im h
  simp only [asComplex] at h1 h2
  exact Prod.ext (by exact_mod_cast h1) (by exact_mod_cast h2)

/-- Routines of every accuracy exist, also with exact transforms where these are rational. -/
theorem fourier_exact_exists (e : ℝ) (he : 0 < e) : ∃ m : FourierMath, (∀ t, m.Accurate t e) ∧
    ∀ (t : NumType) (n : ℕ) (row : List ℚ) (k : ℕ) (w : ℚ × ℚ), (rfftOrtho n (realRow row))[k]? = some (asComplex w) → (m.rfft t n row)[k]? = some w := by
  have hmean : ∀ row : List ℚ, ∃ q : ℚ, |(q : ℝ) - realMean (realRow row)| ≤ e * realMean ((realRow row).map (|·|)) := by
    intro row
    have h0 : 0 ≤ realMean ((realRow row).map (|·|)) := by
      unfold realMean
      refine div_nonneg (List.sum_nonneg ?_) (by positivity)
      intro x hx
      obtain ⟨y, -, rfl⟩ := List.mem_map.1 hx
      exact abs_nonneg y
    have h1 : |realMean (realRow row)| ≤ realMean ((realRow row).map (|·|)) := by
      unfold realMean
      rw [abs_div, List.length_map, abs_of_nonneg (by positivity : (0 : ℝ) ≤ (realRow row).length)]
      exact div_le_div_of_nonneg_right (abs_sum_row _) (by positivity)
    refine exists_near' _ _ (by positivity) fun h => ?_
    rcases mul_eq_zero.1 h with h | h
    · exact absurd h he.ne'
    · rw [h] at h1
      exact abs_nonpos_iff.1 h1
  have hline : ∀ row : List ℚ, ∃ l : List ℚ, l.length = row.length ∧ (2 ≤ row.length →
      rowSize (List.zipWith (· - ·) (realRow l) (detrendRow .linear (realRow row))) ≤ e * rowSize (realRow row)) := by
    intro row
    have hS := rowSize_nonneg (realRow row)
    by_cases h2 : 2 ≤ row.length
    · have hq : ∀ i, ∃ q : ℚ, |(q : ℝ) - (detrendRow .linear (realRow row)).getD i 0| ≤ e * rowSize (realRow row) / √(row.length : ℝ) := by
        intro i
        have hn : 0 < √(row.length : ℝ) := Real.sqrt_pos.2 (by exact_mod_cast (by omega : 0 < row.length))
        refine exists_near' _ _ (by positivity) fun h => ?_
        have h' : rowSize (realRow row) = 0 := by
          rcases div_eq_zero_iff.1 h with h | h
          · rcases mul_eq_zero.1 h with h | h
            · exact absurd h he.ne'
            · exact h
          · exact absurd h hn.ne'
        by_cases hi : i < row.length
        · have h3 := detrend_size .linear (realRow row) (by rw [realRow_length]; exact h2)
          rw [← rowSize_eq, h', realRow_length] at h3
          have h4 : ∑ j ∈ range row.length, (detrendRow .linear (realRow row)).getD j 0 ^ 2 ≤ 0 := by
            have := Real.sqrt_eq_zero'.1 (le_antisymm h3 (l2_nonneg _ _))
            exact this
          have h5 := Finset.single_le_sum (f := fun j => (detrendRow .linear (realRow row)).getD j 0 ^ 2) (fun j _ => sq_nonneg _) (Finset.mem_range.2 hi)
          have h6 : (detrendRow .linear (realRow row)).getD i 0 ^ 2 = 0 := le_antisymm (h5.trans h4) (sq_nonneg _)
          exact pow_eq_zero_iff (two_ne_zero) |>.1 h6
        · rw [List.getD_eq_getElem?_getD, List.getElem?_eq_none (by rw [detrend_length, realRow_length]; omega)]
          rfl
      choose q hq using hq
      refine ⟨(List.range row.length).map q, by simp, fun _ => ?_⟩
      rw [rowSize_eq]
      have hl : (List.zipWith (· - ·) (realRow ((List.range row.length).map q)) (detrendRow .linear (realRow row))).length = row.length := by
        simp [realRow_length, detrend_length]
      rw [hl]
      have hn : 0 < √(row.length : ℝ) := Real.sqrt_pos.2 (by exact_mod_cast (by omega : 0 < row.length))
      have hle := l2_mono (n := row.length) (f := fun i => (List.zipWith (· - ·) (realRow ((List.range row.length).map q)) (detrendRow .linear (realRow row))).getD i 0)
        (g := fun _ => e * rowSize (realRow row) / √(row.length : ℝ)) (fun i hi => by
          have h7 := windowed_getD (fun x y : ℝ => x - y) (realRow ((List.range row.length).map q)) (detrendRow .linear (realRow row)) 0 0 0 i
            (by simpa [realRow_length] using hi) (by rw [detrend_length, realRow_length]; exact hi)
          have h8 : (realRow ((List.range row.length).map q)).getD i 0 = (q i : ℝ) := by
            rw [realRow_getD]
            simp [List.getD_eq_getElem?_getD, hi]
          rw [h8] at h7
          rw [h7]
          exact hq i)
      rw [l2_const _ (by positivity)] at hle
      refine hle.trans (le_of_eq ?_)
      field_simp
    · exact ⟨row, rfl, fun h => absurd h h2⟩
  have hfft : ∀ (n : ℕ) (row : List ℚ), ∃ l : List (ℚ × ℚ), l.length = n / 2 + 1 ∧ (∀ (k : ℕ) (z : ℚ × ℚ) (w : ℂ), l[k]? = some z →
      (rfftOrtho n (realRow row))[k]? = some w → ‖asComplex z - w‖ ≤ e * rowSize (realRow row)) ∧
      ∀ (k : ℕ) (w : ℚ × ℚ), (rfftOrtho n (realRow row))[k]? = some (asComplex w) → l[k]? = some w := by
    intro n row
    have hS := rowSize_nonneg (realRow row)
    have hq : ∀ k : ℕ, ∃ z : ℚ × ℚ, ‖asComplex z - dftAt n (realRow row) k‖ ≤ e * rowSize (realRow row) ∧ ∀ w, asComplex w = dftAt n (realRow row) k → z = w := by
      intro k
      by_cases hex : ∃ w, asComplex w = dftAt n (realRow row) k
      · obtain ⟨w, hw⟩ := hex
        exact ⟨w, by rw [hw, sub_self, norm_zero]; positivity, fun w' hw' => asComplex_inj (hw.trans hw'.symm)⟩
      have hsz := dftAt_size n (realRow row) k
      have hz : e * rowSize (realRow row) / 2 = 0 → dftAt n (realRow row) k = 0 := by
        intro h
        have h' : rowSize (realRow row) = 0 := by
          rcases mul_eq_zero.1 (by linarith : e * rowSize (realRow row) = 0) with h | h
          · exact absurd h he.ne'
          · exact h
        rw [h'] at hsz
        exact norm_le_zero_iff.1 hsz
      obtain ⟨a, ha⟩ := exists_near' (dftAt n (realRow row) k).re (e * rowSize (realRow row) / 2) (by positivity) fun h => by rw [hz h]; rfl
      obtain ⟨b, hb⟩ := exists_near' (dftAt n (realRow row) k).im (e * rowSize (realRow row) / 2) (by positivity) fun h => by rw [hz h]; rfl
      refine ⟨(a, b), (Complex.norm_le_abs_re_add_abs_im _).trans ?_, fun w hw => absurd ⟨w, hw⟩ hex⟩
      simp only [asComplex, Complex.sub_re, Complex.sub_im]
      linarith
    choose z hz hz' using hq
    refine ⟨(List.range (n / 2 + 1)).map z, by simp, ?_, ?_⟩
    swap
    · intro k w hw
      have hk : k ≤ n / 2 := by
        have := (List.getElem?_eq_some_iff.1 hw).1
        rw [rfftOrtho_length] at this
        omega
      rw [rfftOrtho_get _ _ hk, Option.some.injEq] at hw
      rw [List.getElem?_map, List.getElem?_range (by omega), Option.map_some, Option.some.injEq]
      exact hz' k w hw.symm
    intro k x w hx hw
    have hk : k ≤ n / 2 := by
      have := (List.getElem?_eq_some_iff.1 hw).1
      rw [rfftOrtho_length] at this
      omega
    rw [rfftOrtho_get _ _ hk, Option.some.injEq] at hw
    rw [List.getElem?_map, List.getElem?_range (by omega), Option.map_some, Option.some.injEq] at hx
    rw [← hx, ← hw]
    exact hz k
  choose mean h1 using hmean
  choose line h2 h3 using hline
  choose rfft h4 h5 h6 using hfft
  exact ⟨⟨fun _ => mean, fun _ => line, fun _ => rfft⟩, fun t => ⟨h1, h2, h3, h4, h5⟩, fun t => h6⟩

/-- Routines of every accuracy exist. -/
theorem fourier_accurate_exists (e : ℝ) (he : 0 < e) : ∃ m : FourierMath, ∀ t, m.Accurate t e := by
  obtain ⟨m, hm, -⟩ := fourier_exact_exists e he
  exact ⟨m, hm⟩

/-- Windows of 16-bit integers, detrended, in double precision: the hypotheses of `C91_row` are met, with an accuracy of 2^-50; the coefficient of frequency zero. -/
example : ∃ (m : FourierMath) (z : ℚ × ℚ), (fourierRowF m (fun _ _ => 0) (.integer 16) .constant (fun l => List.replicate l 1) 4 [3, 1, -1, -3])[0]? = some z ∧
    ‖asComplex z‖ ≤ 1 / 2 ^ 44 := by
  obtain ⟨m, hm⟩ := fourier_accurate_exists (1 / 2 ^ 50) (by positivity)
  have hlen := fourierRowF_length m (fun _ _ => 0) (.integer 16) .constant (fun l => List.replicate l 1) (hm _) 4 [3, 1, -1, -3]
  have hz := List.getElem?_eq_getElem (l := fourierRowF m (fun _ _ => 0) (.integer 16) .constant (fun l => List.replicate l 1) 4 [3, 1, -1, -3]) (i := 0) (by rw [hlen]; norm_num)
  refine ⟨m, _, hz, ?_⟩
  have hw : (fourierRow .constant (fun l => realRow (List.replicate l 1)) 4 (realRow [3, 1, -1, -3]))[0]? = some 0 := by
    unfold fourierRow
    rw [rfftOrtho_get _ _ (by norm_num)]
    simp [dftAt, realRow, detrendRow, realMean, Finset.sum_range_succ]
  have h := C91_row m (fun _ _ => 0) (.integer 16) .constant (fun l => List.replicate l 1) (Or.inr rfl) (by positivity) (by norm_num) (hm _) 4 [3, 1, -1, -3] (by norm_num)
    (by
      intro x hx
      have : ∃ k : ℤ, x = k ∧ |k| < 2 ^ 53 := by
        simp only [List.mem_cons, List.not_mem_nil, or_false] at hx
        rcases hx with rfl | rfl | rfl | rfl
        · exact ⟨3, by norm_num, by norm_num⟩
        · exact ⟨1, by norm_num, by norm_num⟩
        · exact ⟨-1, by norm_num, by norm_num⟩
        · exact ⟨-3, by norm_num, by norm_num⟩
      obtain ⟨k, rfl, hk⟩ := this
      exact ⟨k, 0, by exact_mod_cast hk, by norm_num, by norm_num⟩)
    (by simp) (by simp) 0 _ 0 hz hw
  rw [sub_zero] at h
  refine h.trans ?_
  have hs : rowSize (realRow [3, 1, -1, -3]) ≤ 5 := by
    rw [rowSize]
    refine Real.sqrt_le_iff.2 ⟨by norm_num, ?_⟩
    norm_num [realRow]
  have hu : ((NumType.unit (detrendType (.integer 16) .constant) : ℚ) : ℝ) = 1 / 2 ^ 53 := by
    simp only [detrendType, NumType.withFloat, NumType.unit]; push_cast; rfl
  have ht : ((NumType.tiny (detrendType (.integer 16) .constant) : ℚ) : ℝ) ≤ 1 / 2 ^ 60 := by
    simp only [detrendType, NumType.withFloat, NumType.tiny]
    push_cast
    exact one_div_le_one_div_of_le (by positivity) (pow_le_pow_right₀ (by norm_num) (by norm_num))
  have ht0 : (0 : ℝ) ≤ ((NumType.tiny (detrendType (.integer 16) .constant) : ℚ) : ℝ) := by
    simp only [detrendType, NumType.withFloat, NumType.tiny]
    positivity
  have h4 : √(([3, 1, -1, -3] : List ℚ).length : ℝ) ≤ 2 := by
    refine Real.sqrt_le_iff.2 ⟨by norm_num, ?_⟩
    norm_num
  rw [hu]
  have h6 : √(([3, 1, -1, -3] : List ℚ).length : ℝ) * ((NumType.tiny (detrendType (.integer 16) .constant) : ℚ) : ℝ) ≤ 2 * (1 / 2 ^ 60) := mul_le_mul h4 ht ht0 (by norm_num)
  have h7 : (4 * (1 / 2 ^ 53) + 3 * (1 / 2 ^ 50) : ℝ) * rowSize (realRow [3, 1, -1, -3]) ≤ (4 * (1 / 2 ^ 53) + 3 * (1 / 2 ^ 50)) * 5 := mul_le_mul_of_nonneg_left hs (by positivity)
  norm_num at h6 h7 ⊢
  linarith

/-- Two windows of four samples of two channels. -/
def demoFourierWin : WinData ℚ where
  md := { fs := [4], chans := ["Ex", "Hy"], nLevels := 1, firstTime := 0, lastTime := 7 / 4, levels := [⟨4, 2, 4, 1, 0⟩], refTime := 0, history := [] }
  data := [(0, .d3 [[[3, 1, -1, -3], [6, 2, -2, -6]], [[-3, 5, 0, 1], [-6, 10, 0, 2]]])]

theorem demoFourierWin_shaped : demoFourierWin.Shaped := by
  refine ⟨rfl, by decide, ?_⟩
  intro i lm hlm
  match i, hlm with
  | 0, hlm =>
    simp only [demoFourierWin, List.getElem?_cons_zero, Option.some.injEq] at hlm
    subst hlm
    exact ⟨_, rfl, by decide +kernel, by decide +kernel⟩

/-- The hypotheses of `C91_run` are met: samples in single precision, no detrending, a window function of ones. -/
example : ∃ (m : FourierMath) (out : SpecData (ℚ × ℚ)), fourierRun id (fourierRowF m (fun _ _ => 0) .single .none (fun l => List.replicate l 1)) demoFourierWin = .ok out ∧
    out.Shaped ∧ out.md.chans = ["Ex", "Hy"] := by
  obtain ⟨m, hm⟩ := fourier_accurate_exists (1 / 2 ^ 20) (by positivity)
  obtain ⟨out, -, h1, -, h2, h3, -⟩ := C91_run m (fun _ _ => 0) .single .none (fun l => List.replicate l 1) id (Or.inl rfl) (by positivity) (by norm_num) (hm _) (by simp)
    demoFourierWin demoFourierWin_shaped (by decide +kernel) (by
      intro i wins hw w hwm row hrow x hx
      have hi : i = 0 := by
        by_contra hne
        unfold WinData.getLevel at hw
        rcases lt_or_gt_of_ne hne with h | h
        · rw [if_neg (by simp only [demoFourierWin]; omega), if_pos h] at hw
          exact absurd hw (by simp)
        · rw [if_pos (by simp only [demoFourierWin]; omega)] at hw
          exact absurd hw (by simp)
      subst hi
      have hw' : demoFourierWin.getLevel 0 = .ok (.d3 [[[3, 1, -1, -3], [6, 2, -2, -6]], [[-3, 5, 0, 1], [-6, 10, 0, 2]]]) := rfl
      rw [hw'] at hw
      simp only [Except.ok.injEq, WinArr.d3.injEq] at hw
      subst hw
      have hall : ∀ w ∈ ([[[3, 1, -1, -3], [6, 2, -2, -6]], [[-3, 5, 0, 1], [-6, 10, 0, 2]]] : List (List (List ℚ))), ∀ row ∈ w, ∀ x ∈ row, x.den = 1 ∧ |x.num| < 2 ^ 24 := by
        decide +kernel
      obtain ⟨d1, d2⟩ := hall w hwm row hrow x hx
      refine ⟨x.num, 0, by exact_mod_cast d2, by norm_num, ?_⟩
      rw [zpow_zero, mul_one]
      exact ⟨by norm_num, ((Rat.den_eq_one_iff x).1 d1).symm⟩)
  exact ⟨m, out, h1, h2, h3⟩

end Resistics
