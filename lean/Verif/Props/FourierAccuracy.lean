import Verif.Props.FourierEval64
import Verif.Props.Accuracy

/-!
# C91: from the samples of the windows to the transfer function, every step rounded
-/

namespace Resistics

open scoped ComplexConjugate
open Finset (range)

/-! ## Specification -/

/-- Specification: all rows have `L` samples of the number type, and so are the parts of their transforms. -/
structure RowsFit (m : FourierMath) (outside : ℕ → ℚ → ℤ) (t : NumType) (d : Detrend) (coeffs : ℕ → List ℚ) (n L nIn : ℕ) (outRow : List ℚ) (inRow : ℕ → List ℚ) : Prop where
  out_length : outRow.length = L
  in_length : ∀ i < nIn, (inRow i).length = L
  out_holds : ∀ x ∈ outRow, Holds (detrendType t d) x
  in_holds : ∀ i < nIn, ∀ x ∈ inRow i, Holds (detrendType t d) x
  out_spectra : ∀ r ∈ fourierRowF m outside t d coeffs n outRow, Holds (detrendType t d) r.1 ∧ Holds (detrendType t d) r.2
  in_spectra : ∀ i < nIn, ∀ r ∈ fourierRowF m outside t d coeffs n (inRow i), Holds (detrendType t d) r.1 ∧ Holds (detrendType t d) r.2

/-- Specification: the exact spectra of the rows follow `Z` in the two bins around the position `idx`. -/
def SpectraFollow (d : Detrend) (coeffs : ℕ → List ℚ) (n nIn : ℕ) (outRow : List ℚ) (inRow : ℕ → List ℚ) (Z : ℕ → ℂ) (idx : ℚ) : Prop :=
  ∃ j : ℕ, j + 1 ≤ n / 2 ∧ (j : ℚ) ≤ idx ∧ idx ≤ ((j + 1 : ℕ) : ℚ) ∧ ∀ k ∈ [j, j + 1], ∃ (E : ℂ) (H : ℕ → ℂ),
    (fourierRow d (fun l => realRow (coeffs l)) n (realRow outRow))[k]? = some E ∧
    (∀ i < nIn, (fourierRow d (fun l => realRow (coeffs l)) n (realRow (inRow i)))[k]? = some (H i)) ∧ E = ∑ i ∈ range nIn, Z i * H i

/-- Specification: the largest error of the evaluated data of a window. -/
noncomputable def windowError (u τ e : ℝ) (L nIn : ℕ) (outRow : List ℚ) (inRow : ℕ → List ℚ) (Z : ℕ → ℂ) : ℝ :=
  (33 * u + 3 * e) * (rowSize (realRow outRow) + ∑ i ∈ range nIn, ‖Z i‖ * rowSize (realRow (inRow i))) + 12 * (√(L : ℝ) * τ) * (1 + ∑ i ∈ range nIn, ‖Z i‖)

/-! ## Samples that follow coefficients -/

theorem fourierRow_zero (d : Detrend) (coeffs : ℕ → List ℝ) (n L : ℕ) (k : ℕ) (hk : k ≤ n / 2) : (fourierRow d coeffs n (List.replicate L 0))[k]? = some 0 := by
  have h : Combines 0 0 (List.replicate L (0 : ℝ)) (List.replicate L 0) (List.replicate L 0) := by
    refine ⟨rfl, rfl, fun i hi => ?_⟩
    have : i < L := by simpa using hi
    simp [List.getD_eq_getElem?_getD, this]
  have hlen : k < (fourierRow d coeffs n (List.replicate L 0)).length := by
    unfold fourierRow
    rw [rfftOrtho_length]
    omega
  rw [C53_linear d coeffs n 0 0 _ _ _ h, List.getElem?_zipWith, List.getElem?_eq_getElem hlen]
  simp

/-- **C91**. Samples of an output channel that are fixed real coefficients times the samples of the input channels have exact spectra that follow these coefficients in every bin. -/
theorem C91_samples_follow (d : Detrend) (coeffs : ℕ → List ℚ) (n L nIn : ℕ) (outRow : List ℚ) (inRow : ℕ → List ℚ) (z : ℕ → ℝ) (hlo : outRow.length = L)
    (hli : ∀ i < nIn, (inRow i).length = L) (hz : ∀ s < L, ((outRow.getD s 0 : ℚ) : ℝ) = ∑ i ∈ range nIn, z i * (((inRow i).getD s 0 : ℚ) : ℝ))
    (idx : ℚ) (j : ℕ) (hj : j + 1 ≤ n / 2) (h0 : (j : ℚ) ≤ idx) (h1 : idx ≤ ((j + 1 : ℕ) : ℚ)) :
    SpectraFollow d coeffs n nIn outRow inRow (fun i => (z i : ℂ)) idx := by
  have key : ∀ k ≤ n / 2, ∀ q ≤ nIn, ∃ H : ℕ → ℂ, (∀ i < q, (fourierRow d (fun l => realRow (coeffs l)) n (realRow (inRow i)))[k]? = some (H i)) ∧
      (fourierRow d (fun l => realRow (coeffs l)) n ((List.range L).map fun s => ∑ i ∈ range q, z i * (((inRow i).getD s 0 : ℚ) : ℝ)))[k]? =
        some (∑ i ∈ range q, (z i : ℂ) * H i) := by
    intro k hk q
    induction q with
    | zero =>
      intro _
      refine ⟨fun _ => 0, fun i hi => absurd hi (by omega), ?_⟩
      have : ((List.range L).map fun s => ∑ i ∈ range 0, z i * (((inRow i).getD s 0 : ℚ) : ℝ)) = List.replicate L 0 := by
        simp
      rw [this, fourierRow_zero d _ n L k hk]
      simp
    | succ q ih =>
      intro hq
      obtain ⟨H, a1, a2⟩ := ih (by omega)
      have hlen : ∀ x, k < (fourierRow d (fun l => realRow (coeffs l)) n x).length := by
        intro x
        unfold fourierRow
        rw [rfftOrtho_length]
        omega
      have hcomb : Combines 1 (z q) ((List.range L).map fun s => ∑ i ∈ range q, z i * (((inRow i).getD s 0 : ℚ) : ℝ)) (realRow (inRow q))
          ((List.range L).map fun s => ∑ i ∈ range (q + 1), z i * (((inRow i).getD s 0 : ℚ) : ℝ)) := by
        refine ⟨by simp, by simp [realRow_length, hli q (by omega)], fun s hs => ?_⟩
        have hs' : s < L := by simpa using hs
        rw [realRow_getD]
        have g : ∀ f : ℕ → ℝ, ((List.range L).map f).getD s 0 = f s := by
          intro f
          rw [List.getD_eq_getElem?_getD, List.getElem?_map, List.getElem?_range hs']
          rfl
        rw [g, g, Finset.sum_range_succ, one_mul]
      have hlast := List.getElem?_eq_getElem (hlen (realRow (inRow q)))
      refine ⟨fun i => if i < q then H i else (fourierRow d (fun l => realRow (coeffs l)) n (realRow (inRow q)))[k]'(hlen _), ?_, ?_⟩
      · intro i hi
        by_cases h : i < q
        · simp only [if_pos h]
          exact a1 i h
        · have : i = q := by omega
          subst this
          simp only [lt_irrefl, if_false]
          exact hlast
      · rw [C53_linear d _ n 1 (z q) _ _ _ hcomb, List.getElem?_zipWith, a2, hlast]
        simp only [Option.some.injEq]
        rw [Finset.sum_range_succ, if_neg (lt_irrefl q)]
        congr 1
        rw [Complex.ofReal_one, one_mul]
        refine Finset.sum_congr rfl fun i hi => ?_
        rw [if_pos (Finset.mem_range.1 hi)]
  refine ⟨j, hj, h0, h1, fun k hk => ?_⟩
  have hk' : k ≤ n / 2 := by
    simp at hk
    omega
  obtain ⟨H, a1, a2⟩ := key k hk' nIn le_rfl
  refine ⟨_, H, ?_, a1, rfl⟩
  rw [← a2]
  congr 2
  apply List.ext_getElem
  · simp [realRow_length, hlo]
  · intro s h1 h2
    have hs : s < L := by simpa using h2
    rw [List.getElem_map, List.getElem_range, ← hz s hs, ← realRow_getD, List.getD_eq_getElem?_getD, List.getElem?_eq_getElem h1]
    rfl

/-! ## The transfer function -/

/-- **C91**. Every step rounded, from the samples of the windows to the equations: if at an evaluation frequency the gathered data of every window are the evaluated data of rows of samples
whose exact spectra follow `Z`, then the error of the least squares solution times the gain of the inputs, less the rounding errors of their cross powers, is at most the size of the errors of
the transforms times the cross channels and of the cross powers, which are given by the sizes of the samples. -/
theorem C91_accuracy (m : FourierMath) (outside : ℕ → ℚ → ℤ) (tw : NumType) (d : Detrend) (coeffs : ℕ → List ℚ) (htw : (detrendType tw d).Floating) {e : ℝ}
    (he0 : 0 ≤ e) (he : e ≤ 1 / 16) (hm : m.Accurate (detrendType tw d) e) (n L : ℕ) (hL : 2 ≤ L) (hcl : (coeffs L).length = L) (hc1 : ∀ x ∈ coeffs L, |x| ≤ 1)
    (getCoef : List (List ℝ) → List ℝ → Except Err (List ℝ)) (hls : LeastSquares getCoef) (t : ℕ → NumType) (ht : ∀ k, (t k).Floating)
    (tf : TransFunc) (hc : CountsOk tf) (hk : KeysDistinct tf) (hnd : tf.outChans.Nodup) (hi : tf.inChans ≠ []) (hx : tf.crossChans ≠ [])
    (g : Gathered (ℚ × ℚ)) (nw : ℕ → ℕ) (F I C : ℕ → ℕ → ℕ → ℚ × ℚ) (hg : GatheredPairs tf g nw F I C) (hnw : ∀ k < g.outData.evalFreqs.length, 0 < nw k) :
    ∃ r s Zh, prepareGatheredF t tf g = .ok r ∧ solveWith getCoef r = .ok s ∧ s.Holds tf g.outData.evalFreqs Zh ∧
      ∀ k < g.outData.evalFreqs.length, ∀ o < tf.outChans.length, ∀ (Z : ℕ → ℂ) (σ : ℝ) (idx : ℚ) (outRow : ℕ → List ℚ) (inRow : ℕ → ℕ → List ℚ), Bits53 idx →
        (∀ w < nw k, RowsFit m outside tw d coeffs n L tf.inChans.length (outRow w) (inRow w) ∧ SpectraFollow d coeffs n tf.inChans.length (outRow w) (inRow w) Z idx ∧
          evalAtF (detrendType tw d) (fourierRowF m outside tw d coeffs n (outRow w)) idx = .ok (F k w o) ∧
          ∀ i < tf.inChans.length, evalAtF (detrendType tw d) (fourierRowF m outside tw d coeffs n (inRow w i)) idx = .ok (I k w i)) →
        Gain (nw k) tf.crossChans.length tf.inChans.length (fun w i c => asComplex (I k w i) * conj (asComplex (C k w c))) σ →
        (σ - inputRounding (t k) (nw k) tf.crossChans.length tf.inChans.length (I k) (C k)) * size (range tf.inChans.length) (fun i => Zh k o i - Z i) ≤
          √(∑ p ∈ equations (nw k) tf.crossChans.length,
            (windowError (detrendType tw d).unit (detrendType tw d).tiny e L tf.inChans.length (outRow p.1) (inRow p.1) Z * ‖asComplex (C k p.1 p.2)‖ +
            (powerError (t k) (F k p.1 o) (C k p.1 p.2) + ∑ i ∈ range tf.inChans.length, ‖Z i‖ * powerError (t k) (I k p.1 i) (C k p.1 p.2))) ^ 2) := by
  obtain ⟨r, s, Zh, r1, r2, r3, r4⟩ := C89_rounded getCoef hls t ht tf hc hk hnd hi hx g nw F I C hg hnw
  refine ⟨r, s, Zh, r1, r2, r3, fun k hk' o ho Z σ idx outRow inRow hb hs hσ => (r4 k hk' o ho Z σ hσ).trans ?_⟩
  unfold noiseAndRounding
  refine Real.sqrt_le_sqrt (Finset.sum_le_sum fun p hp => ?_)
  rw [equations, Finset.mem_product, Finset.mem_range, Finset.mem_range] at hp
  obtain ⟨f, ⟨j, j1, j2, j3, j4⟩, s3, s4⟩ := hs p.1 hp.1
  obtain ⟨v, y, v1, v2, v3⟩ := C91_evaluated_noise m outside tw d coeffs htw he0 he hm n L hL hcl hc1 tf.inChans.length (outRow p.1) (inRow p.1) f.out_length f.in_length f.out_holds
    f.in_holds f.out_spectra f.in_spectra j j1 idx hb j2 j3 Z j4
  rw [s3, Except.ok.injEq] at v1
  have hsum : ∑ i ∈ range tf.inChans.length, Z i * asComplex (y i) = ∑ i ∈ range tf.inChans.length, Z i * asComplex (I k p.1 i) := by
    refine Finset.sum_congr rfl fun i hi => ?_
    have h1 := v2 i (Finset.mem_range.1 hi)
    rw [s4 i (Finset.mem_range.1 hi), Except.ok.injEq] at h1
    rw [h1]
  rw [← v1, hsum] at v3
  have hpe : ∀ a b : ℚ × ℚ, 0 ≤ powerError (t k) a b := by
    intro a b
    obtain ⟨u0, -, t0, -⟩ := unit_real (ht k)
    unfold powerError
    positivity
  have hs0 : 0 ≤ ∑ i ∈ range tf.inChans.length, ‖Z i‖ * powerError (t k) (I k p.1 i) (C k p.1 p.2) :=
    Finset.sum_nonneg fun i _ => mul_nonneg (norm_nonneg _) (hpe _ _)
  refine pow_le_pow_left₀ ?_ ?_ 2
  · have := hpe (F k p.1 o) (C k p.1 p.2)
    have := mul_nonneg (norm_nonneg (asComplex (F k p.1 o) - ∑ i ∈ range tf.inChans.length, Z i * asComplex (I k p.1 i))) (norm_nonneg (asComplex (C k p.1 p.2)))
    linarith
  · have := mul_le_mul_of_nonneg_right v3 (norm_nonneg (asComplex (C k p.1 p.2)))
    unfold windowError
    linarith

/-! Examples. -/

theorem impulse_row {m : FourierMath} (hm : ∀ t, m.Accurate t (1 / 2 ^ 50)) (hex : ∀ (t : NumType) (n : ℕ) (row : List ℚ) (k : ℕ) (z : ℚ × ℚ), (rfftOrtho n (realRow row))[k]? = some (asComplex z) → (m.rfft t n row)[k]? = some z)
    (x : ℚ) (hx : x = 4 ∨ x = 2) :
    fourierRowF m (fun _ _ => 0) .double .none (fun l => List.replicate l 1) 4 [x, 0] = [(x / 2, 0), (x / 2, 0), (x / 2, 0)] := by
  have hwin : windowTyped (fun _ _ => 0) .double (List.replicate 2 1) [x, 0] = [x, 0] := by
    rcases hx with rfl | rfl <;> decide +kernel
  have e : fourierRowF m (fun _ _ => 0) .double .none (fun l => List.replicate l 1) 4 [x, 0] = m.rfft .double 4 [x, 0] := by
    simp only [fourierRowF, detrendType, detrendF, List.length_cons, List.length_nil]
    rw [hwin]
  rw [e]
  have hl := (hm .double).rfft_length 4 [x, 0]
  apply List.ext_getElem?
  intro k
  by_cases hk : k ≤ 2
  · rw [hex .double 4 [x, 0] k (x / 2, 0) (impulse_transform x k hk)]
    match k, hk with
    | 0, _ => rfl
    | 1, _ => rfl
    | 2, _ => rfl
  · rw [List.getElem?_eq_none (by rw [hl]; omega), List.getElem?_eq_none (by simp; omega)]

/-- One window of a site with one output, one input and one cross channel: the evaluated data of the samples 4, 0 and 2, 0. -/
def impulsePairs : Gathered (ℚ × ℚ) :=
  ⟨⟨"A", 1, [], ["Ex"], 1, [1 / 4], [], [(0, [some [(2, 0)]])]⟩, ⟨"A", 1, [], ["Hx"], 1, [1 / 4], [], [(0, [some [(1, 0)]])]⟩,
    ⟨"B", 1, [], ["Hx"], 1, [1 / 4], [], [(0, [some [(1, 0)]])]⟩⟩

theorem impulsePairs_is : GatheredPairs demoPairsTf impulsePairs (fun _ => 1) (fun _ _ _ => (2, 0)) (fun _ _ _ => (1, 0)) (fun _ _ _ => (1, 0)) := by
  refine ⟨rfl, rfl, ?_, ?_, ?_⟩ <;>
  · intro k hk
    have : k = 0 := by simpa [impulsePairs] using hk
    subst this
    decide +kernel

theorem impulse_gain : Gain 1 1 1 (fun _ _ _ => asComplex (1, 0) * conj (asComplex (1, 0))) 1 := by
  intro W
  refine Real.le_sqrt_of_sq_le ?_
  have : size (range 1) W ^ 2 = ‖W 0‖ ^ 2 := by
    rw [size, Real.sq_sqrt (Finset.sum_nonneg fun _ _ => sq_nonneg _)]; simp
  have h1 : asComplex (1, 0) = 1 := by
    apply Complex.ext <;> simp [asComplex]
  rw [one_mul, this]
  simp [equations, h1]

/-- The hypotheses of `C91_accuracy` are met: the output channel is twice the input channel, in double precision, between the bins 0 and 1, and 2 is found up to a part in 2^40. -/
example : ∃ r s Zh, prepareGatheredF (fun _ => .double) demoPairsTf impulsePairs = .ok r ∧ solveWith someLeastSquares r = .ok s ∧ s.Holds demoPairsTf [1 / 4] Zh ∧
    size (range 1) (fun i => Zh 0 0 i - 2) ≤ 1 / 2 ^ 40 := by
  obtain ⟨m, hm, hex⟩ := fourier_exact_exists (1 / 2 ^ 50) (by positivity)
  have hint : ∀ k : ℤ, |k| < 2 ^ 53 → Holds .double (k : ℚ) := fun k hk => ⟨k, 0, by exact_mod_cast hk, by norm_num, by norm_num⟩
  have h0 : Holds .double 0 := by exact_mod_cast hint 0 (by norm_num)
  have h1 : Holds .double 1 := by exact_mod_cast hint 1 (by norm_num)
  have h2 : Holds .double 2 := by exact_mod_cast hint 2 (by norm_num)
  have h4 : Holds .double 4 := by exact_mod_cast hint 4 (by norm_num)
  have hr4 := impulse_row hm hex 4 (Or.inl rfl)
  have hr2 := impulse_row hm hex 2 (Or.inr rfl)
  norm_num at hr4 hr2
  have hfollow : SpectraFollow .none (fun l => List.replicate l 1) 4 1 [4, 0] (fun _ => [2, 0]) (fun _ => ((2 : ℝ) : ℂ)) (1 / 2) :=
    C91_samples_follow .none (fun l => List.replicate l 1) 4 2 1 [4, 0] (fun _ => [2, 0]) (fun _ => 2) rfl (fun _ _ => rfl) (by
      intro s hs
      match s, hs with
      | 0, _ => norm_num
      | 1, _ => norm_num) (1 / 2) 0 (by norm_num) (by norm_num) (by norm_num)
  have hfit : RowsFit m (fun _ _ => 0) .double .none (fun l => List.replicate l 1) 4 2 1 [4, 0] (fun _ => [2, 0]) :=
    ⟨rfl, fun _ _ => rfl, by simpa [detrendType] using ⟨h4, h0⟩, by simpa [detrendType] using ⟨h2, h0⟩,
      by rw [hr4]; simpa [detrendType] using ⟨h2, h0⟩, by intro i _; rw [hr2]; simpa [detrendType] using ⟨h1, h0⟩⟩
  obtain ⟨r, s, Zh, a1, a2, a3, a4⟩ := C91_accuracy m (fun _ _ => 0) .double .none (fun l => List.replicate l 1) (Or.inr rfl) (by positivity) (by norm_num) (hm _) 4 2 le_rfl (by simp)
    (by simp) someLeastSquares someLeastSquares_spec (fun _ => .double) (fun _ => Or.inr rfl) demoPairsTf ⟨rfl, rfl⟩
    (C35_equal_lengths demoPairsTf (by decide) (by decide) (Or.inl ⟨2, by decide⟩)) (by decide) (by simp [demoPairsTf]) (by simp [demoPairsTf])
    impulsePairs _ _ _ _ impulsePairs_is (by simp)
  refine ⟨r, s, Zh, a1, a2, a3, ?_⟩
  have a5 := a4 0 (by simp [impulsePairs]) 0 (by simp [demoPairsTf]) (fun _ => ((2 : ℝ) : ℂ)) 1 (1 / 2) (fun _ => [4, 0]) (fun _ _ => [2, 0]) ⟨1, -1, by norm_num, by norm_num⟩
    (fun w _ => ⟨hfit, hfollow, by rw [hr4]; decide +kernel, fun i _ => by rw [hr2]; decide +kernel⟩) impulse_gain
  have hs4 : rowSize (realRow [4, 0]) = 4 := by
    rw [rowSize]
    norm_num [realRow]
    rw [show (16 : ℝ) = 4 ^ 2 by norm_num, Real.sqrt_sq (by norm_num)]
  have hs2 : rowSize (realRow [2, 0]) = 2 := by
    rw [rowSize]
    norm_num [realRow]
    rw [show (4 : ℝ) = 2 ^ 2 by norm_num, Real.sqrt_sq (by norm_num)]
  have hu : ((NumType.unit .double : ℚ) : ℝ) = 1 / 2 ^ 53 := by
    simp only [NumType.unit]; push_cast; rfl
  have ht : ((NumType.tiny .double : ℚ) : ℝ) ≤ 1 / 2 ^ 60 := by
    simp only [NumType.tiny]
    push_cast
    exact one_div_le_one_div_of_le (by positivity) (pow_le_pow_right₀ (by norm_num) (by norm_num))
  have ht0 : (0 : ℝ) ≤ ((NumType.tiny .double : ℚ) : ℝ) := by
    simp only [NumType.tiny]
    positivity
  have hq : √(2 : ℝ) ≤ 2 := Real.sqrt_le_iff.2 ⟨by norm_num, by norm_num⟩
  have h6 : √(2 : ℝ) * ((NumType.tiny .double : ℚ) : ℝ) ≤ 2 * (1 / 2 ^ 60) := mul_le_mul hq ht ht0 (by norm_num)
  generalize hτ : ((NumType.tiny .double : ℚ) : ℝ) = τ at ht ht0 h6
  have n1 : asComplex (1, 0) = 1 := by
    apply Complex.ext <;> simp [asComplex]
  have n2 : asComplex (2, 0) = 2 := by
    apply Complex.ext <;> simp [asComplex]
  have hin : inputRounding .double 1 1 1 (fun _ _ => (1, 0)) (fun _ _ => (1, 0)) ≤ 1 / 2 := by
    simp only [inputRounding, powerError, n1, hu, hτ]
    refine Real.sqrt_le_iff.2 ⟨by norm_num, ?_⟩
    simp [equations]
    nlinarith
  have hsz : 0 ≤ size (range 1) (fun i => Zh 0 0 i - ((2 : ℝ) : ℂ)) := Real.sqrt_nonneg _
  have e2 : size (range 1) (fun i => Zh 0 0 i - ((2 : ℝ) : ℂ)) = size (range 1) (fun i => Zh 0 0 i - 2) := by
    simp
  simp only [demoPairsTf, List.length_cons, List.length_nil, Nat.zero_add] at a5
  rw [← e2]
  have a6 : (1 : ℝ) / 2 * size (range 1) (fun i => Zh 0 0 i - ((2 : ℝ) : ℂ)) ≤ 1 / 2 ^ 41 := by
    refine (mul_le_mul_of_nonneg_right (by linarith) hsz).trans (a5.trans ?_)
    refine Real.sqrt_le_iff.2 ⟨by norm_num, ?_⟩
    simp only [equations, Finset.sum_product, Finset.sum_range_one, windowError, powerError, detrendType, hs4, hs2, hu, hτ, n1, n2]
    refine pow_le_pow_left₀ (by positivity) ?_ 2
    norm_num at h6 ht ⊢
    linarith
  linarith

end Resistics
