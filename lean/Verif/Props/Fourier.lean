import Verif.Model.Spectra
import Mathlib.Algebra.BigOperators.Field
import Mathlib.RingTheory.RootsOfUnity.Complex

/-!
# Property C53: the transform of one row
-/

namespace Resistics

open Finset

/-! ## Sums over lists -/

theorem sum_zipIdx_from {M : Type} [AddCommMonoid M] (f : ℝ → ℕ → M) (l : List ℝ) (k : ℕ) :
    ((l.zipIdx k).map fun p => f p.1 p.2).sum = ∑ i ∈ range l.length, f (l.getD i 0) (k + i) := by
  induction l generalizing k with
  | nil => simp
  | cons a l ih =>
    rw [List.zipIdx_cons, List.map_cons, List.sum_cons, ih, List.length_cons, Finset.sum_range_succ', add_comm]
    congr 1
    apply Finset.sum_congr rfl
    intro i _
    simp only [List.getD_cons_succ]
    congr 1
    omega

theorem sum_zipIdx {M : Type} [AddCommMonoid M] (f : ℝ → ℕ → M) (l : List ℝ) :
    ((l.zipIdx).map fun p => f p.1 p.2).sum = ∑ i ∈ range l.length, f (l.getD i 0) i := by
  rw [sum_zipIdx_from]
  simp

theorem sum_getD (l : List ℝ) : l.sum = ∑ i ∈ range l.length, l.getD i 0 := by
  induction l with
  | nil => simp
  | cons a l ih => rw [List.sum_cons, ih, List.length_cons, Finset.sum_range_succ', add_comm]; simp

/-! ## Detrending -/

/-- Specification: two rows of the same length differ by the line `a + b i`. -/
def DiffersByLine (x y : List ℝ) (a b : ℝ) : Prop :=
  x.length = y.length ∧ ∀ i < x.length, x.getD i 0 = y.getD i 0 + (a + b * i)

theorem detrend_length (d : Detrend) (row : List ℝ) : (detrendRow d row).length = row.length := by
  cases d <;> simp [detrendRow]

theorem detrend_constant_getD (row : List ℝ) {i : ℕ} (hi : i < row.length) :
    (detrendRow .constant row).getD i 0 = row.getD i 0 - realMean row := by
  simp [detrendRow, List.getD_eq_getElem?_getD, hi]

theorem detrend_linear_getD (row : List ℝ) {i : ℕ} (hi : i < row.length) :
    (detrendRow .linear row).getD i 0 =
      row.getD i 0 - (realMean row + lsSlope row * ((i : ℝ) - ((row.length : ℝ) - 1) / 2)) := by
  simp [detrendRow, List.getD_eq_getElem?_getD, hi]

/-- **C53**: `detrend="constant"` subtracts one number from the whole row, and the result has mean zero. -/
theorem C53_detrend_constant (row : List ℝ) (hne : row ≠ []) :
    (∃ c, DiffersByLine row (detrendRow .constant row) c 0) ∧ (detrendRow .constant row).sum = 0 := by
  have hn : (row.length : ℝ) ≠ 0 := by
    have := List.length_pos_iff.2 hne
    exact_mod_cast this.ne'
  refine ⟨⟨realMean row, (detrend_length _ _).symm, fun i hi => ?_⟩, ?_⟩
  · rw [detrend_constant_getD row hi]; ring
  · rw [sum_getD, detrend_length]
    rw [Finset.sum_congr rfl fun i hi => detrend_constant_getD row (Finset.mem_range.1 hi)]
    rw [Finset.sum_sub_distrib, ← sum_getD, Finset.sum_const, Finset.card_range, nsmul_eq_mul]
    unfold realMean
    field_simp
    ring

/-- The centred positions sum to zero. -/
theorem sum_centred (n : ℕ) : ∑ i ∈ range n, ((i : ℝ) - ((n : ℝ) - 1) / 2) = 0 := by
  rw [Finset.sum_sub_distrib, Finset.sum_const, Finset.card_range, nsmul_eq_mul]
  have h : (∑ i ∈ range n, (i : ℝ)) = n * (n - 1) / 2 := by
    induction n with
    | zero => simp
    | succ n ih => rw [Finset.sum_range_succ, ih]; push_cast; ring
  rw [h]; ring

theorem sum_centred_sq_pos {n : ℕ} (hn : 2 ≤ n) : 0 < ∑ i ∈ range n, ((i : ℝ) - ((n : ℝ) - 1) / 2) ^ 2 := by
  apply Finset.sum_pos'
  · intro i _; positivity
  · refine ⟨0, Finset.mem_range.2 (by omega), ?_⟩
    have : (2 : ℝ) ≤ n := by exact_mod_cast hn
    have h : ((0 : ℕ) : ℝ) - ((n : ℝ) - 1) / 2 ≠ 0 := by
      intro h
      push_cast at h
      linarith
    positivity

theorem lsSlope_eq (row : List ℝ) : lsSlope row =
    (∑ i ∈ range row.length, ((i : ℝ) - ((row.length : ℝ) - 1) / 2) * row.getD i 0) /
      ∑ i ∈ range row.length, ((i : ℝ) - ((row.length : ℝ) - 1) / 2) ^ 2 := by
  unfold lsSlope
  rw [sum_zipIdx (fun x i => ((i : ℝ) - ((row.length : ℝ) - 1) / 2) * x),
    sum_zipIdx (fun _ i => ((i : ℝ) - ((row.length : ℝ) - 1) / 2) ^ 2)]

/-- The residuals sum to zero. -/
theorem residual_sum (row : List ℝ) (hne : row ≠ []) : ∑ i ∈ range row.length, (detrendRow .linear row).getD i 0 = 0 := by
  have hn : (row.length : ℝ) ≠ 0 := by
    have := List.length_pos_iff.2 hne
    exact_mod_cast this.ne'
  rw [Finset.sum_congr rfl fun i hi => detrend_linear_getD row (Finset.mem_range.1 hi)]
  rw [Finset.sum_sub_distrib, ← sum_getD, Finset.sum_add_distrib, ← Finset.mul_sum, sum_centred, Finset.sum_const,
    Finset.card_range, nsmul_eq_mul]
  unfold realMean
  field_simp
  ring

theorem residual_centred (row : List ℝ) (h2 : 2 ≤ row.length) :
    ∑ i ∈ range row.length, ((i : ℝ) - ((row.length : ℝ) - 1) / 2) * (detrendRow .linear row).getD i 0 = 0 := by
  have hS := (sum_centred_sq_pos h2).ne'
  rw [Finset.sum_congr rfl fun i hi => by rw [detrend_linear_getD row (Finset.mem_range.1 hi)]]
  have : ∀ i : ℕ, ((i : ℝ) - ((row.length : ℝ) - 1) / 2) *
      (row.getD i 0 - (realMean row + lsSlope row * ((i : ℝ) - ((row.length : ℝ) - 1) / 2))) =
      ((i : ℝ) - ((row.length : ℝ) - 1) / 2) * row.getD i 0 - ((i : ℝ) - ((row.length : ℝ) - 1) / 2) * realMean row -
      lsSlope row * ((i : ℝ) - ((row.length : ℝ) - 1) / 2) ^ 2 := fun i => by ring
  simp only [this]
  rw [Finset.sum_sub_distrib, Finset.sum_sub_distrib, ← Finset.sum_mul, ← Finset.mul_sum, sum_centred, lsSlope_eq]
  rw [div_mul_cancel₀ _ hS]
  ring

/-- **C53**: `detrend="linear"` subtracts a straight line, and the one it subtracts is the least squares line: no other
line leaves a smaller sum of squares. -/
theorem C53_detrend_linear (row : List ℝ) (h2 : 2 ≤ row.length) :
    ∃ a b, DiffersByLine row (detrendRow .linear row) a b ∧
      ∀ (a' b' : ℝ) (y : List ℝ), DiffersByLine row y a' b' →
        ∑ i ∈ range row.length, ((detrendRow .linear row).getD i 0) ^ 2 ≤ ∑ i ∈ range row.length, (y.getD i 0) ^ 2 := by
  have hne : row ≠ [] := by rintro rfl; simp at h2
  refine ⟨realMean row - lsSlope row * (((row.length : ℝ) - 1) / 2), lsSlope row, ⟨(detrend_length _ _).symm, ?_⟩, ?_⟩
  · intro i hi
    rw [detrend_linear_getD row hi]; ring
  · rintro a' b' y ⟨hl, hy⟩
    -- the other residual is this one plus a line in centred positions
    set r := fun i => (detrendRow .linear row).getD i 0 with hr
    set t : ℕ → ℝ := fun i => (i : ℝ) - ((row.length : ℝ) - 1) / 2 with ht
    set p := realMean row - a' - b' * (((row.length : ℝ) - 1) / 2) with hp
    set q := lsSlope row - b' with hq
    have hyi : ∀ i ∈ range row.length, (y.getD i 0) ^ 2 = (r i + (p + q * t i)) ^ 2 := by
      intro i hi
      have h1 := hy i (Finset.mem_range.1 hi)
      have h3 : r i = _ := detrend_linear_getD row (Finset.mem_range.1 hi)
      have h4 : y.getD i 0 = row.getD i 0 - (a' + b' * i) := by linarith
      rw [h3, h4, hp, hq, ht]
      ring
    rw [Finset.sum_congr rfl hyi]
    have hs1 : ∑ i ∈ range row.length, r i = 0 := residual_sum row hne
    have hs2 : ∑ i ∈ range row.length, t i * r i = 0 := residual_centred row h2
    have hexp : ∑ i ∈ range row.length, (r i + (p + q * t i)) ^ 2 =
        ∑ i ∈ range row.length, r i ^ 2 + ∑ i ∈ range row.length, (p + q * t i) ^ 2 := by
      have : ∀ i, (r i + (p + q * t i)) ^ 2 = r i ^ 2 + (p + q * t i) ^ 2 + (2 * p * r i + 2 * q * (t i * r i)) :=
        fun i => by ring
      simp only [this]
      rw [Finset.sum_add_distrib, Finset.sum_add_distrib, Finset.sum_add_distrib, ← Finset.mul_sum, ← Finset.mul_sum,
        hs1, hs2]
      ring
    rw [hexp]
    have : 0 ≤ ∑ i ∈ range row.length, (p + q * t i) ^ 2 := Finset.sum_nonneg fun i _ => sq_nonneg _
    linarith

/-! ## Linearity -/

/-- Specification: `z` is `a x + b y`, entry by entry. -/
def Combines (a b : ℝ) (x y z : List ℝ) : Prop :=
  x.length = z.length ∧ y.length = z.length ∧ ∀ i < z.length, z.getD i 0 = a * x.getD i 0 + b * y.getD i 0

theorem Combines.sum {a b : ℝ} {x y z : List ℝ} (h : Combines a b x y z) : z.sum = a * x.sum + b * y.sum := by
  obtain ⟨h1, h2, h3⟩ := h
  rw [sum_getD, sum_getD x, sum_getD y, h1, h2, Finset.mul_sum, Finset.mul_sum, ← Finset.sum_add_distrib]
  exact Finset.sum_congr rfl fun i hi => h3 i (Finset.mem_range.1 hi)

theorem Combines.mean {a b : ℝ} {x y z : List ℝ} (h : Combines a b x y z) :
    realMean z = a * realMean x + b * realMean y := by
  unfold realMean
  rw [h.sum, h.1, h.2.1]
  ring

theorem Combines.slope {a b : ℝ} {x y z : List ℝ} (h : Combines a b x y z) :
    lsSlope z = a * lsSlope x + b * lsSlope y := by
  rw [lsSlope_eq, lsSlope_eq, lsSlope_eq, h.1, h.2.1]
  rw [mul_div_assoc', mul_div_assoc', ← add_div, Finset.mul_sum, Finset.mul_sum, ← Finset.sum_add_distrib]
  congr 1
  apply Finset.sum_congr rfl
  intro i hi
  rw [h.2.2 i (Finset.mem_range.1 hi)]
  ring

theorem Combines.detrend {a b : ℝ} {x y z : List ℝ} (h : Combines a b x y z) (d : Detrend) :
    Combines a b (detrendRow d x) (detrendRow d y) (detrendRow d z) := by
  refine ⟨by rw [detrend_length, detrend_length, h.1], by rw [detrend_length, detrend_length, h.2.1], ?_⟩
  intro i hi
  rw [detrend_length] at hi
  have hx : i < x.length := by rw [h.1]; exact hi
  have hy : i < y.length := by rw [h.2.1]; exact hi
  cases d with
  | none => exact h.2.2 i hi
  | constant =>
    rw [detrend_constant_getD _ hi, detrend_constant_getD _ hx, detrend_constant_getD _ hy, h.2.2 i hi, h.mean]
    ring
  | linear =>
    rw [detrend_linear_getD _ hi, detrend_linear_getD _ hx, detrend_linear_getD _ hy, h.2.2 i hi, h.mean, h.slope, h.1,
      h.2.1]
    ring

theorem Combines.window {a b : ℝ} {x y z : List ℝ} (h : Combines a b x y z) (c : List ℝ) :
    Combines a b (List.zipWith (fun x c => x * c) x c) (List.zipWith (fun x c => x * c) y c)
      (List.zipWith (fun x c => x * c) z c) := by
  refine ⟨by simp [h.1], by simp [h.2.1], ?_⟩
  intro i hi
  rw [List.length_zipWith] at hi
  have hz : i < z.length := by omega
  have hx : i < x.length := by rw [h.1]; exact hz
  have hy : i < y.length := by rw [h.2.1]; exact hz
  have hc : i < c.length := by omega
  have := h.2.2 i hz
  simp only [List.getD_eq_getElem?_getD, List.getElem?_eq_getElem hx, List.getElem?_eq_getElem hy,
    List.getElem?_eq_getElem hz, Option.getD_some] at this
  simp only [List.getD_eq_getElem?_getD, List.getElem?_zipWith, List.getElem?_eq_getElem hx,
    List.getElem?_eq_getElem hy, List.getElem?_eq_getElem hz, List.getElem?_eq_getElem hc, Option.getD_some, this]
  ring

/-- Entry `k` of the transform as a sum. -/
noncomputable def dftAt (n : ℕ) (x : List ℝ) (k : ℤ) : ℂ :=
  (∑ j ∈ range (min n x.length), (x.getD j 0 : ℂ) * Complex.exp (-(2 * Real.pi * k * j / n : ℝ) * Complex.I)) /
    (Real.sqrt n : ℂ)

theorem rfftOrtho_get (n : ℕ) (x : List ℝ) {k : ℕ} (hk : k ≤ n / 2) :
    (rfftOrtho n x)[k]? = some (dftAt n x k) := by
  unfold rfftOrtho dftAt
  rw [List.getElem?_map, List.getElem?_range (by omega)]
  simp only [Option.map_some]
  rw [sum_zipIdx (fun (y : ℝ) (j : ℕ) => (y : ℂ) * Complex.exp (-(2 * Real.pi * k * j / n : ℝ) * Complex.I))]
  rw [List.length_take]
  congr 2
  apply Finset.sum_congr rfl
  intro j hj
  have hj' := Finset.mem_range.1 hj
  rw [List.getD_eq_getElem?_getD, List.getElem?_take_of_lt (by omega), ← List.getD_eq_getElem?_getD]
  push_cast
  rfl

theorem rfftOrtho_length (n : ℕ) (x : List ℝ) : (rfftOrtho n x).length = n / 2 + 1 := by simp [rfftOrtho]

/-- **C53**: the transform of a row is linear: a combination of two rows goes to the same combination of their
transforms, for every kind of detrending, window function and transform length. -/
theorem C53_linear (d : Detrend) (coeffs : ℕ → List ℝ) (n : ℕ) (a b : ℝ) (x y z : List ℝ) (h : Combines a b x y z) :
    fourierRow d coeffs n z =
      List.zipWith (fun u v => (a : ℂ) * u + (b : ℂ) * v) (fourierRow d coeffs n x) (fourierRow d coeffs n y) := by
  unfold fourierRow
  have h' := (h.detrend d).window (coeffs z.length)
  rw [h.1, h.2.1]
  set x' := List.zipWith (fun x c => x * c) (detrendRow d x) (coeffs z.length)
  set y' := List.zipWith (fun x c => x * c) (detrendRow d y) (coeffs z.length)
  set z' := List.zipWith (fun x c => x * c) (detrendRow d z) (coeffs z.length)
  apply List.ext_getElem?
  intro k
  by_cases hk : k ≤ n / 2
  · rw [List.getElem?_zipWith, rfftOrtho_get _ _ hk, rfftOrtho_get _ _ hk, rfftOrtho_get _ _ hk]
    simp only [Option.some.injEq]
    unfold dftAt
    rw [h'.1, h'.2.1, mul_div_assoc', mul_div_assoc', ← add_div, Finset.mul_sum, Finset.mul_sum,
      ← Finset.sum_add_distrib]
    congr 1
    apply Finset.sum_congr rfl
    intro j hj
    have hj' := Finset.mem_range.1 hj
    rw [h'.2.2 j (by omega)]
    push_cast
    ring
  · rw [List.getElem?_eq_none (by rw [rfftOrtho_length]; omega),
      List.getElem?_eq_none (by rw [List.length_zipWith, rfftOrtho_length, rfftOrtho_length]; omega)]

/-! ## The transform is the orthonormal Fourier transform -/

/-- Roots of unity. -/
theorem sum_roots (n : ℕ) (hn : 0 < n) (d : ℤ) :
    ∑ j ∈ range n, Complex.exp ((2 * Real.pi * d * j / n : ℝ) * Complex.I) = if (n : ℤ) ∣ d then (n : ℂ) else 0 := by
  have hnc : (n : ℂ) ≠ 0 := by exact_mod_cast hn.ne'
  have hprim := Complex.isPrimitiveRoot_exp n hn.ne'
  set ζ := Complex.exp (2 * Real.pi * Complex.I / n) with hζ
  have hterm : ∀ j ∈ range n, Complex.exp ((2 * Real.pi * d * j / n : ℝ) * Complex.I) = (ζ ^ d) ^ j := by
    intro j _
    rw [hζ, ← Complex.exp_int_mul, ← Complex.exp_nat_mul]
    congr 1
    push_cast
    field_simp
  rw [Finset.sum_congr rfl hterm]
  split
  · rename_i hd
    rw [(hprim.zpow_eq_one_iff_dvd d).2 hd]
    simp
  · rename_i hd
    have hne : ζ ^ d ≠ 1 := fun h => hd ((hprim.zpow_eq_one_iff_dvd d).1 h)
    rw [geom_sum_eq hne]
    have : (ζ ^ d) ^ n = 1 := by
      rw [← zpow_natCast, ← zpow_mul, mul_comm, zpow_mul, zpow_natCast, hprim.pow_eq_one, one_zpow]
    rw [this]
    simp

/-- A row of `n` samples of a tone of complex amplitude `A` at bin `m`. -/
noncomputable def tone (n m : ℕ) (A : ℂ) : List ℝ :=
  (List.range n).map fun (j : ℕ) => (A * Complex.exp ((2 * Real.pi * m * j / n : ℝ) * Complex.I)).re

theorem tone_getD {n m : ℕ} {A : ℂ} {j : ℕ} (hj : j < n) :
    ((tone n m A).getD j 0 : ℂ) = (A * Complex.exp ((2 * Real.pi * m * j / n : ℝ) * Complex.I) +
      (starRingEnd ℂ) A * Complex.exp (-(2 * Real.pi * m * j / n : ℝ) * Complex.I)) / 2 := by
  unfold tone
  rw [List.getD_eq_getElem?_getD, List.getElem?_map, List.getElem?_range hj]
  simp only [Option.map_some, Option.getD_some]
  rw [Complex.re_eq_add_conj, map_mul, ← Complex.exp_conj, map_mul, Complex.conj_ofReal, Complex.conj_I]
  congr 3
  congr 1
  ring

/-- **C53**: the transform has the scaling and the frequency axis it is documented to have: a tone of complex amplitude
`A` at bin `m`, strictly between zero and the Nyquist frequency, gives `A √n / 2` at bin `m` and zero at every other bin. -/
theorem C53_tone (n m : ℕ) (A : ℂ) (hm : 0 < m) (hn : 2 * m < n) :
    rfftOrtho n (tone n m A) = (List.range (n / 2 + 1)).map fun k => if k = m then A * (Real.sqrt n : ℂ) / 2 else 0 := by
  have hnpos : 0 < n := by omega
  have hnr : (0 : ℝ) < n := by exact_mod_cast hnpos
  apply List.ext_getElem?
  intro k
  by_cases hk : k ≤ n / 2
  · rw [rfftOrtho_get _ _ hk, List.getElem?_map, List.getElem?_range (by omega)]
    simp only [Option.map_some, Option.some.injEq]
    unfold dftAt
    have hlen : (tone n m A).length = n := by simp [tone]
    rw [hlen, Nat.min_self]
    have hsplit : ∀ j ∈ range n, ((tone n m A).getD j 0 : ℂ) *
        Complex.exp (-(2 * Real.pi * ((k : ℤ) : ℝ) * j / n : ℝ) * Complex.I) =
        A / 2 * Complex.exp ((2 * Real.pi * (((m : ℤ) - k : ℤ) : ℝ) * j / n : ℝ) * Complex.I) +
        (starRingEnd ℂ) A / 2 * Complex.exp ((2 * Real.pi * ((-((m : ℤ) + k) : ℤ) : ℝ) * j / n : ℝ) * Complex.I) := by
      intro j hj
      rw [tone_getD (Finset.mem_range.1 hj)]
      have e1 : Complex.exp ((2 * Real.pi * (((m : ℤ) - k : ℤ) : ℝ) * j / n : ℝ) * Complex.I) =
          Complex.exp ((2 * Real.pi * m * j / n : ℝ) * Complex.I) *
          Complex.exp (-(2 * Real.pi * ((k : ℤ) : ℝ) * j / n : ℝ) * Complex.I) := by
        rw [← Complex.exp_add]
        congr 1
        push_cast
        ring
      have e2 : Complex.exp ((2 * Real.pi * ((-((m : ℤ) + k) : ℤ) : ℝ) * j / n : ℝ) * Complex.I) =
          Complex.exp (-(2 * Real.pi * m * j / n : ℝ) * Complex.I) *
          Complex.exp (-(2 * Real.pi * ((k : ℤ) : ℝ) * j / n : ℝ) * Complex.I) := by
        rw [← Complex.exp_add]
        congr 1
        push_cast
        ring
      rw [e1, e2]
      ring
    rw [Finset.sum_congr rfl hsplit, Finset.sum_add_distrib, ← Finset.mul_sum, ← Finset.mul_sum, sum_roots n hnpos,
      sum_roots n hnpos]
    have hnd : ¬ (n : ℤ) ∣ -((m : ℤ) + k) := by
      rw [dvd_neg]
      intro h
      have := Int.le_of_dvd (by omega) h
      omega
    rw [if_neg hnd, mul_zero, add_zero]
    by_cases hkm : k = m
    · subst hkm
      rw [if_pos (by simp), if_pos rfl]
      have hs : (Real.sqrt n : ℂ) * (Real.sqrt n : ℂ) = (n : ℂ) := by
        rw [← Complex.ofReal_mul, Real.mul_self_sqrt hnr.le]
        simp
      have hs0 : (Real.sqrt n : ℂ) ≠ 0 := by
        exact_mod_cast (Real.sqrt_pos.2 hnr).ne'
      rw [← hs]
      field_simp
    · rw [if_neg hkm, if_neg]
      · simp
      · intro h
        have h0 : (m : ℤ) - k ≠ 0 := by omega
        obtain ⟨c, hc⟩ := h
        have : c = 0 := by
          by_contra hc0
          rcases lt_or_gt_of_ne hc0 with h | h
          · have : (n : ℤ) * c ≤ n * (-1) := by
              apply mul_le_mul_of_nonneg_left <;> omega
            omega
          · have : (n : ℤ) * 1 ≤ n * c := by
              apply mul_le_mul_of_nonneg_left <;> omega
            omega
        subst this
        omega
  · rw [List.getElem?_eq_none (by rw [rfftOrtho_length]; omega), List.getElem?_eq_none (by simp; omega)]

theorem dftAt_conj (n : ℕ) (hn : 0 < n) (x : List ℝ) (k : ℤ) : (starRingEnd ℂ) (dftAt n x (n - k)) = dftAt n x k := by
  have hnc : (n : ℂ) ≠ 0 := by exact_mod_cast hn.ne'
  unfold dftAt
  rw [map_div₀, map_sum, Complex.conj_ofReal]
  congr 1
  apply Finset.sum_congr rfl
  intro j _
  rw [map_mul, Complex.conj_ofReal, ← Complex.exp_conj, map_mul, map_neg, Complex.conj_ofReal, Complex.conj_I]
  congr 1
  have : -((2 * Real.pi * (((n : ℤ) - k : ℤ) : ℝ) * j / n : ℝ) : ℂ) * -Complex.I =
      -((2 * Real.pi * (k : ℝ) * j / n : ℝ) : ℂ) * Complex.I + (j : ℤ) * (2 * Real.pi * Complex.I) := by
    push_cast
    field_simp
    ring
  rw [this, Complex.exp_add, Complex.exp_int_mul_two_pi_mul_I, mul_one]

/-- **C53**: nothing is lost: every sample of a row of `n` values is recovered from its transform to `n` points, whose
upper half is the conjugate of the lower one. -/
theorem C53_inversion (n : ℕ) (X : List ℂ) (row : List ℝ) (hlen : row.length = n) (hX : X = rfftOrtho n row) (j : ℕ)
    (hj : j < n) :
    (row.getD j 0 : ℂ) = (∑ k ∈ range n, (if k ≤ n / 2 then X.getD k 0 else (starRingEnd ℂ) (X.getD (n - k) 0)) *
      Complex.exp ((2 * Real.pi * k * j / n : ℝ) * Complex.I)) / (Real.sqrt n : ℂ) := by
  have hn : 0 < n := by omega
  have hnr : (0 : ℝ) < n := by exact_mod_cast hn
  have hs : (Real.sqrt n : ℂ) * (Real.sqrt n : ℂ) = (n : ℂ) := by
    rw [← Complex.ofReal_mul, Real.mul_self_sqrt hnr.le]
    simp
  have hs0 : (Real.sqrt n : ℂ) ≠ 0 := by exact_mod_cast (Real.sqrt_pos.2 hnr).ne'
  have hnc : (n : ℂ) ≠ 0 := by exact_mod_cast hn.ne'
  have hterm : ∀ k ∈ range n, (if k ≤ n / 2 then X.getD k 0 else (starRingEnd ℂ) (X.getD (n - k) 0)) *
      Complex.exp ((2 * Real.pi * k * j / n : ℝ) * Complex.I) =
      dftAt n row k * Complex.exp ((2 * Real.pi * k * j / n : ℝ) * Complex.I) := by
    intro k hk
    have hk' := Finset.mem_range.1 hk
    congr 1
    split
    · rename_i h
      rw [hX, List.getD_eq_getElem?_getD, rfftOrtho_get _ _ h, Option.getD_some]
    · rename_i h
      rw [hX, List.getD_eq_getElem?_getD, rfftOrtho_get _ _ (by omega), Option.getD_some, ← dftAt_conj n hn row k]
      congr 2
      push_cast [Nat.cast_sub hk'.le]
      ring
  rw [Finset.sum_congr rfl hterm]
  unfold dftAt
  rw [hlen, Nat.min_self]
  have hswap : ∑ k ∈ range n, (∑ i ∈ range n, (row.getD i 0 : ℂ) *
        Complex.exp (-(2 * Real.pi * ((k : ℤ) : ℝ) * i / n : ℝ) * Complex.I)) / (Real.sqrt n : ℂ) *
        Complex.exp ((2 * Real.pi * k * j / n : ℝ) * Complex.I) =
      ∑ i ∈ range n, (row.getD i 0 : ℂ) / (Real.sqrt n : ℂ) *
        ∑ k ∈ range n, Complex.exp ((2 * Real.pi * (((j : ℤ) - i : ℤ) : ℝ) * k / n : ℝ) * Complex.I) := by
    simp only [Finset.sum_div, Finset.sum_mul, Finset.mul_sum]
    rw [Finset.sum_comm]
    apply Finset.sum_congr rfl
    intro i _
    apply Finset.sum_congr rfl
    intro k _
    have : Complex.exp ((2 * Real.pi * (((j : ℤ) - i : ℤ) : ℝ) * k / n : ℝ) * Complex.I) =
        Complex.exp (-(2 * Real.pi * ((k : ℤ) : ℝ) * i / n : ℝ) * Complex.I) *
        Complex.exp ((2 * Real.pi * k * j / n : ℝ) * Complex.I) := by
      rw [← Complex.exp_add]
      congr 1
      push_cast
      ring
    rw [this]
    ring
  rw [hswap]
  rw [Finset.sum_eq_single j]
  · rw [sum_roots n hn, if_pos (by simp), ← hs]
    field_simp
  · intro i hi hij
    have hi' := Finset.mem_range.1 hi
    rw [sum_roots n hn, if_neg, mul_zero]
    rintro ⟨c, hc⟩
    have : c = 0 := by
      by_contra hc0
      rcases lt_or_gt_of_ne hc0 with h | h
      · have : (n : ℤ) * c ≤ n * (-1) := by
          apply mul_le_mul_of_nonneg_left <;> omega
        omega
      · have : (n : ℤ) * 1 ≤ n * c := by
          apply mul_le_mul_of_nonneg_left <;> omega
        omega
    subst this
    omega
  · intro h
    exact absurd (Finset.mem_range.2 hj) h

/-! ## Cases with the hypotheses -/

/-- Eight samples of a tone at bin 2 satisfy the hypotheses of `C53_tone`. -/
example (A : ℂ) : (rfftOrtho 8 (tone 8 2 A))[2]? = some (A * (Real.sqrt 8 : ℂ) / 2) := by
  have := C53_tone 8 2 A (by decide) (by decide)
  rw [this]
  simp

example : Combines 2 3 [1, 0] [0, 1] [2, 3] := by
  refine ⟨rfl, rfl, fun i hi => ?_⟩
  have : i = 0 ∨ i = 1 := by simp at hi; omega
  rcases this with rfl | rfl <;> simp

/-- A line is removed entirely. -/
example : detrendRow .constant [3, 5, 4] = [-1, 1, 0] := by
  simp only [detrendRow, realMean, List.map_cons, List.map_nil, List.sum_cons, List.sum_nil, List.length_cons,
    List.length_nil]
  norm_num

end Resistics
