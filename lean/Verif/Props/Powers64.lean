import Verif.Model.Powers64
import Verif.Props.Regression
import Verif.Props.Eval64
import Verif.Props.Robust64

/-!
# C87: cross powers in floating point numbers
-/

namespace Resistics

open scoped ComplexConjugate
open Finset (range)

theorem calc_zero {t : NumType} (h : t.Floating) : t.calc 0 = 0 := by
  rcases h with rfl | rfl <;> simp [NumType.calc, nearestSingle, nearestDouble]

theorem calc_opposite {t : NumType} (h : t.Floating) (x : ℚ) : t.calc (-x) = -t.calc x := by
  rcases h with rfl | rfl
  · simp only [NumType.calc, nearestSingle, neg_eq_zero]
    by_cases hx : x = 0
    · simp [hx]
    · rw [if_neg hx, if_neg hx]
      have : lastBitSingle (-x) = lastBitSingle x := by simp [lastBitSingle]
      rw [this, neg_div, pyRound_opposite]
      push_cast
      ring
  · exact nearestDouble_neg x

/-- one part of a product -/
theorem part_close {t : NumType} (h : t.Floating) (p q : ℚ) :
    |t.calc (t.calc p + t.calc q) - (p + q)| ≤ 3 * (t.unit * (|p| + |q|)) + 4 * t.tiny := by
  obtain ⟨hu, hu1, hτ, -⟩ := h.unit_bounds
  have h1 := h.near p
  have h2 := h.near q
  have h3 : |t.calc p + t.calc q - (p + q)| ≤ t.unit * (|p| + |q|) + 2 * t.tiny := by
    have : t.calc p + t.calc q - (p + q) = (t.calc p - p) + (t.calc q - q) := by ring
    rw [this]
    refine (abs_add_le _ _).trans ?_
    linarith
  refine (h.step h3 (abs_add_le p q)).trans ?_
  have hS : 0 ≤ |p| + |q| := by positivity
  generalize |p| + |q| = S at *
  have k1 : t.unit * (t.unit * S) ≤ 1 / 2 ^ 24 * (t.unit * S) := mul_le_mul_of_nonneg_right hu1 (by positivity)
  have k2 : t.unit * t.tiny ≤ 1 / 2 ^ 24 * t.tiny := mul_le_mul_of_nonneg_right hu1 hτ.le
  have k3 : 0 ≤ t.unit * S := by positivity
  norm_num at k1 k2
  nlinarith

/-- **C87**. Each part of the product of a number with a conjugate is exact up to three roundings of its two products. -/
theorem C87_product {t : NumType} (h : t.Floating) (a b : ℚ × ℚ) :
    |(mulF t a (conjF b)).1 - (a.1 * b.1 + a.2 * b.2)| ≤ 3 * (t.unit * (|a.1 * b.1| + |a.2 * b.2|)) + 4 * t.tiny ∧
    |(mulF t a (conjF b)).2 - (a.2 * b.1 - a.1 * b.2)| ≤ 3 * (t.unit * (|a.2 * b.1| + |a.1 * b.2|)) + 4 * t.tiny := by
  constructor
  · have := part_close h (a.1 * b.1) (a.2 * b.2)
    simp only [mulF, conjF, mul_neg, calc_opposite h, sub_neg_eq_add]
    exact this
  · have := part_close h (-(a.1 * b.2)) (a.2 * b.1)
    simp only [mulF, conjF, mul_neg]
    rw [abs_neg] at this
    rw [show a.2 * b.1 - a.1 * b.2 = -(a.1 * b.2) + a.2 * b.1 by ring, add_comm (|a.2 * b.1|)]
    exact this

/-- **C87**. The power of a channel with itself is real, and not negative. -/
theorem C87_auto_power {t : NumType} (h : t.Floating) (a : ℚ × ℚ) : 0 ≤ (mulF t a (conjF a)).1 ∧ (mulF t a (conjF a)).2 = 0 := by
  have hnn : ∀ x : ℚ, 0 ≤ x → 0 ≤ t.calc x := by
    intro x hx
    by_contra hneg
    push Not at hneg
    have h0 : Holds t 0 := by
      rcases h with rfl | rfl <;> exact ⟨0, 0, by norm_num, by norm_num, by norm_num, by norm_num⟩
    have := h.nearest x 0 h0
    rw [zero_sub, abs_neg, abs_of_nonneg hx, abs_of_neg (by linarith)] at this
    linarith
  constructor
  · simp only [mulF, conjF, mul_neg, calc_opposite h, sub_neg_eq_add]
    exact hnn _ (add_nonneg (hnn _ (mul_self_nonneg _)) (hnn _ (mul_self_nonneg _)))
  · simp only [mulF, conjF, mul_neg, calc_opposite h, mul_comm a.2 a.1, neg_add_cancel, calc_zero h]

/-- **C87**. Exchanging the two channels gives exactly the conjugate. -/
theorem C87_exchange {t : NumType} (h : t.Floating) (a b : ℚ × ℚ) : mulF t b (conjF a) = conjF (mulF t a (conjF b)) := by
  simp only [mulF, conjF, mul_neg, calc_opposite h, sub_neg_eq_add, Prod.mk.injEq]
  constructor
  · rw [mul_comm b.1, mul_comm b.2]
  · rw [← calc_opposite h (_ + _), mul_comm b.1, mul_comm b.2]
    congr 1
    ring

/-- **C87**. Data of single precision that were gathered in double precision, as `ProjectGather` does: each part of a cross power is the double
nearest to the exact one. -/
theorem C87_singles_in_double (a b : ℚ × ℚ) (ha : Holds .single a.1 ∧ Holds .single a.2) (hb : Holds .single b.1 ∧ Holds .single b.2) :
    mulF .double a (conjF b) = (nearestDouble (a.1 * b.1 + a.2 * b.2), nearestDouble (a.2 * b.1 - a.1 * b.2)) := by
  have hp : ∀ x y : ℚ, Holds .single x → Holds .single y → NumType.double.calc (x * y) = x * y := by
    intro x y hx hy
    obtain ⟨k1, e1, hk1, h11, h12, rfl⟩ := hx
    obtain ⟨k2, e2, hk2, h21, h22, rfl⟩ := hy
    have hd : NumType.double.Floating := Or.inr rfl
    refine hd.fixed ⟨k1 * k2, e1 + e2, ?_, by omega, by omega, ?_⟩
    · rw [abs_mul]
      calc |k1| * |k2| ≤ 2 ^ 24 * 2 ^ 24 := mul_le_mul hk1.le hk2.le (abs_nonneg _) (by norm_num)
        _ < 2 ^ 53 := by norm_num
    · rw [zpow_add₀ (by norm_num)]
      push_cast
      ring
  have h : NumType.double.Floating := Or.inr rfl
  simp only [mulF, conjF, mul_neg, calc_opposite h, sub_neg_eq_add, hp _ _ ha.1 hb.1, hp _ _ ha.2 hb.2, hp _ _ ha.1 hb.2, hp _ _ ha.2 hb.1,
    Prod.mk.injEq]
  refine ⟨rfl, ?_⟩
  rw [neg_add_eq_sub]
  rfl

theorem nearestSingle_vanishes (x : ℚ) (h : |x| ≤ 1 / 2 ^ 151) : nearestSingle x = 0 := by
  unfold nearestSingle
  by_cases hx : x = 0
  · rw [if_pos hx]
  · rw [if_neg hx]
    have hlog : lastBitSingle x = -149 := by
      unfold lastBitSingle
      apply max_eq_right
      have h0 : 0 < |x| := abs_pos.2 hx
      have h1 : |x| < (2 : ℚ) ^ (-150 : ℤ) := by
        refine lt_of_le_of_lt h ?_
        norm_num
      have := (Int.lt_zpow_iff_log_lt (by norm_num) h0).1 h1
      linarith
    rw [hlog]
    have h2 : |x / (2 : ℚ) ^ (-149 : ℤ)| < 1 / 2 := by
      rw [abs_div, abs_of_pos (by positivity : (0 : ℚ) < 2 ^ (-149 : ℤ)), div_lt_iff₀ (by positivity)]
      refine lt_of_le_of_lt h ?_
      norm_num
    have h3 : pyRound (x / (2 : ℚ) ^ (-149 : ℤ)) = 0 :=
      pyRound_of_near (by simpa using h2)
    rw [h3]
    simp

/-- **C87**. In single precision, as `QuickGather` keeps it, the cross powers of weak signals are zero: of all numbers of parts up to 2^-76. -/
theorem C87_weak_signals_vanish (a b : ℚ × ℚ) (ha : |a.1| ≤ 1 / 2 ^ 76 ∧ |a.2| ≤ 1 / 2 ^ 76) (hb : |b.1| ≤ 1 / 2 ^ 76 ∧ |b.2| ≤ 1 / 2 ^ 76) :
    mulF .single a (conjF b) = (0, 0) := by
  have hp : ∀ x y : ℚ, |x| ≤ 1 / 2 ^ 76 → |y| ≤ 1 / 2 ^ 76 → NumType.single.calc (x * y) = 0 := by
    intro x y hx hy
    apply nearestSingle_vanishes
    rw [abs_mul]
    refine (mul_le_mul hx hy (abs_nonneg _) (by positivity)).trans ?_
    norm_num
  have h : NumType.single.Floating := Or.inl rfl
  simp only [mulF, conjF, mul_neg, calc_opposite h, hp _ _ ha.1 hb.1, hp _ _ ha.2 hb.2, hp _ _ ha.1 hb.2, hp _ _ ha.2 hb.1,
    neg_zero, sub_zero, add_zero, calc_zero h]

/-! ## The equations -/

/-- Specification: the gathered data hold, at every evaluation frequency `k`, `nw k` windows with output values `F k`, input values `I k` and cross values
`C k`, one per channel of the transfer function. -/
structure GatheredPairs (tf : TransFunc) (g : Gathered (ℚ × ℚ)) (nw : ℕ → ℕ) (F I C : ℕ → ℕ → ℕ → ℚ × ℚ) : Prop where
  n_in : tf.nIn = tf.inChans.length
  n_cross : tf.nCross = tf.crossChans.length
  out : ∀ k < g.outData.evalFreqs.length,
    g.outData.data.lookup k = some (((List.range (nw k)).map fun w => (List.range tf.outChans.length).map (F k w)).map some)
  inp : ∀ k < g.outData.evalFreqs.length,
    g.inData.data.lookup k = some (((List.range (nw k)).map fun w => (List.range tf.inChans.length).map (I k w)).map some)
  cross : ∀ k < g.outData.evalFreqs.length,
    g.crossData.data.lookup k = some (((List.range (nw k)).map fun w => (List.range tf.crossChans.length).map (C k w)).map some)

theorem crossPowersF_arr (t : NumType) (nw n m : ℕ) (f g : ℕ → ℕ → ℚ × ℚ) :
    crossPowersF t ((List.range nw).map fun w => (List.range n).map (f w)) ((List.range nw).map fun w => (List.range m).map (g w)) =
      .ok ((List.range nw).map fun w => (List.range n).map fun i => (List.range m).map fun c => asComplex (mulF t (f w i) (conjF (g w c)))) := by
  unfold crossPowersF
  rw [if_neg (by simp)]
  simp only [List.zipWith_map, List.zipWith_self, winPowersF, List.map_map]
  rfl

theorem prepareEvalF_spec (t : ℕ → NumType) (tf : TransFunc) (hnd : tf.outChans.Nodup) (g : Gathered (ℚ × ℚ)) (nw : ℕ → ℕ)
    (F I C : ℕ → ℕ → ℕ → ℚ × ℚ) (hg : GatheredPairs tf g nw F I C) (k : ℕ) (hk : k < g.outData.evalFreqs.length) :
    ∃ obs preds, prepareEvalF t tf g k = .ok (obs, preds) ∧
      (∀ (o : ℕ) (name : String), tf.outChans[o]? = some name →
        obs.lookup name = some (complexRows (nw k) tf.crossChans.length fun w c => asComplex (mulF (t k) (F k w o) (conjF (C k w c))))) ∧
      preds = (List.range (nw k)).flatMap fun w => (List.range tf.crossChans.length).flatMap fun c =>
        predsRows ((List.range tf.inChans.length).map fun i => asComplex (mulF (t k) (I k w i) (conjF (C k w c)))) := by
  obtain ⟨obs, h1, h2⟩ := getObs_range tf hnd (nw k) tf.crossChans.length (fun w o c => asComplex (mulF (t k) (F k w o) (conjF (C k w c))))
  refine ⟨obs, _, ?_, h2, rfl⟩
  unfold prepareEvalF
  simp only [siteRows_some _ _ _ (hg.out k hk), siteRows_some _ _ _ (hg.inp k hk), siteRows_some _ _ _ (hg.cross k hk),
    bind, Except.bind, crossPowersF_arr, h1,
    getPreds_range tf (nw k) tf.inChans.length tf.crossChans.length hg.n_in hg.n_cross
      (fun w i c => asComplex (mulF (t k) (I k w i) (conjF (C k w c))))]
  rfl

/-- **C87**. Preparing gathered data in floating point numbers: the observations are, window by window and cross channel by cross channel, the real
and imaginary part of the rounded cross powers, and the predictors times the real coefficients of any complex `Z` those of `Z` applied to the
rounded cross powers of the inputs: the equations are exact equations for rounded cross powers. -/
theorem C87_rows (t : ℕ → NumType) (tf : TransFunc) (hnd : tf.outChans.Nodup) (g : Gathered (ℚ × ℚ)) (nw : ℕ → ℕ)
    (F I C : ℕ → ℕ → ℕ → ℚ × ℚ) (hg : GatheredPairs tf g nw F I C) :
    ∃ r, prepareGatheredF t tf g = .ok r ∧ r.tf = tf ∧ r.freqs = g.outData.evalFreqs ∧
      ∀ (k : ℕ), k < g.outData.evalFreqs.length → ∀ (o : ℕ) (name : String), tf.outChans[o]? = some name →
        ∃ obs preds, r.getInputs k name = .ok (obs, preds) ∧
          obs = complexRows (nw k) tf.crossChans.length (fun w c => asComplex (mulF (t k) (F k w o) (conjF (C k w c)))) ∧
          (∀ Z : ℕ → ℂ, predict preds (realCoefs tf.inChans.length Z) =
            complexRows (nw k) tf.crossChans.length fun w c =>
              ∑ i ∈ range tf.inChans.length, Z i * asComplex (mulF (t k) (I k w i) (conjF (C k w c)))) ∧
          obs.length = nw k * (2 * tf.crossChans.length) ∧ preds.length = obs.length ∧
          ∀ row ∈ preds, row.length = 2 * tf.inChans.length := by
  obtain ⟨rows, hrows⟩ := mapM_exists (f := prepareEvalF t tf g) (l := List.range g.outData.evalFreqs.length) (by
    intro k hk
    obtain ⟨obs, preds, h, -⟩ := prepareEvalF_spec t tf hnd g nw F I C hg k (List.mem_range.mp hk)
    exact ⟨_, h⟩)
  have hlen := mapM_ok_length hrows
  rw [List.length_range] at hlen
  refine ⟨_, by unfold prepareGatheredF; rw [hrows]; rfl, rfl, rfl, ?_⟩
  intro k hk o name ho
  obtain ⟨obs, preds, h, h2, h3⟩ := prepareEvalF_spec t tf hnd g nw F I C hg k hk
  have hk' : k < rows.length := by omega
  have hrow : rows[k] = (obs, preds) := by
    have := mapM_ok_getElem hrows k (by simpa using hk) hk'
    rw [List.getElem_range, h, Except.ok.injEq] at this
    exact this.symm
  refine ⟨_, preds, ?_, rfl, ?_, complexRows_length _ _ _, ?_, ?_⟩
  · unfold RegInput.getInputs
    simp only [pyIndex_natCast (rows.map (·.1)) k (by simpa using hk'), pyIndex_natCast (rows.map (·.2)) k (by simpa using hk'),
      List.getElem_map, hrow, bind, Except.bind, dictGet, h2 o name ho]
    rfl
  · intro Z; rw [h3, predict_window]
  · rw [h3, predsRows_length, complexRows_length]
  · intro row hrow'
    rw [h3] at hrow'
    simp only [List.mem_flatMap, predsRows, List.mem_cons, List.not_mem_nil, or_false] at hrow'
    obtain ⟨w, -, c, -, hr | hr⟩ := hrow' <;> (subst hr; simp [List.length_flatMap, List.map_map, Function.comp_def, mul_comm])

theorem abs_parts_le (z : ℚ × ℚ) : ((|z.1| + |z.2| : ℚ) : ℝ) ≤ √2 * ‖asComplex z‖ := by
  rw [← Real.sqrt_sq (show (0 : ℝ) ≤ ((|z.1| + |z.2| : ℚ) : ℝ) by positivity), Complex.norm_def, ← Real.sqrt_mul (by norm_num)]
  apply Real.sqrt_le_sqrt
  simp only [asComplex, Complex.normSq_mk]
  push_cast
  nlinarith [sq_nonneg (|(z.1 : ℝ)| - |(z.2 : ℝ)|), abs_mul_abs_self (z.1 : ℝ), abs_mul_abs_self (z.2 : ℝ)]

/-- **C87**. As complex numbers: a cross power is exact up to six roundings of its size. -/
theorem C87_product_norm {t : NumType} (h : t.Floating) (a b : ℚ × ℚ) :
    ‖asComplex (mulF t a (conjF b)) - asComplex a * conj (asComplex b)‖ ≤ 6 * t.unit * (‖asComplex a‖ * ‖asComplex b‖) + 8 * t.tiny := by
  obtain ⟨h1, h2⟩ := C87_product h a b
  obtain ⟨hu, -⟩ := h.unit_bounds
  refine (Complex.norm_le_abs_re_add_abs_im _).trans ?_
  have e1 : (asComplex (mulF t a (conjF b)) - asComplex a * conj (asComplex b)).re =
      (((mulF t a (conjF b)).1 - (a.1 * b.1 + a.2 * b.2) : ℚ) : ℝ) := by
    simp [asComplex, Complex.mul_re, sub_eq_add_neg]
  have e2 : (asComplex (mulF t a (conjF b)) - asComplex a * conj (asComplex b)).im =
      (((mulF t a (conjF b)).2 - (a.2 * b.1 - a.1 * b.2) : ℚ) : ℝ) := by
    simp [asComplex, Complex.mul_im]
    ring
  rw [e1, e2, ← Rat.cast_abs, ← Rat.cast_abs]
  have h3 : |(mulF t a (conjF b)).1 - (a.1 * b.1 + a.2 * b.2)| + |(mulF t a (conjF b)).2 - (a.2 * b.1 - a.1 * b.2)| ≤
      3 * t.unit * ((|a.1| + |a.2|) * (|b.1| + |b.2|)) + 8 * t.tiny := by
    rw [abs_mul, abs_mul] at h1 h2
    nlinarith
  have h4 : (((|a.1| + |a.2|) * (|b.1| + |b.2|) : ℚ) : ℝ) ≤ 2 * (‖asComplex a‖ * ‖asComplex b‖) := by
    have ha := abs_parts_le a
    have hb := abs_parts_le b
    have h0 : (0 : ℝ) ≤ ((|b.1| + |b.2| : ℚ) : ℝ) := by positivity
    rw [Rat.cast_mul]
    refine (mul_le_mul ha hb h0 (by positivity)).trans (le_of_eq ?_)
    have : √2 * √2 = (2 : ℝ) := Real.mul_self_sqrt (by norm_num)
    linear_combination (‖asComplex a‖ * ‖asComplex b‖) * this
  have h5 : ((|(mulF t a (conjF b)).1 - (a.1 * b.1 + a.2 * b.2)| + |(mulF t a (conjF b)).2 - (a.2 * b.1 - a.1 * b.2)| : ℚ) : ℝ) ≤
      ((3 * t.unit * ((|a.1| + |a.2|) * (|b.1| + |b.2|)) + 8 * t.tiny : ℚ) : ℝ) := by exact_mod_cast h3
  rw [Rat.cast_add] at h5
  refine h5.trans ?_
  have hu' : (0 : ℝ) < (t.unit : ℝ) := by exact_mod_cast hu
  rw [Rat.cast_add, Rat.cast_mul, Rat.cast_mul]
  push_cast at h4 ⊢
  nlinarith

/-- **C87**. Output data that are exactly `Z` times the input data: every equation is satisfied by `Z` up to rounding, relative to the sizes of the
data and of `Z`. -/
theorem C87_exact_data (t : ℕ → NumType) (ht : ∀ k, (t k).Floating) (tf : TransFunc) (hnd : tf.outChans.Nodup) (g : Gathered (ℚ × ℚ)) (nw : ℕ → ℕ)
    (F I C : ℕ → ℕ → ℕ → ℚ × ℚ) (hg : GatheredPairs tf g nw F I C) (r : RegInput) (hr : prepareGatheredF t tf g = .ok r)
    (k : ℕ) (hk : k < g.outData.evalFreqs.length) (o : ℕ) (name : String) (ho : tf.outChans[o]? = some name) (Z : ℕ → ℂ)
    (hZ : ∀ w < nw k, asComplex (F k w o) = ∑ i ∈ range tf.inChans.length, Z i * asComplex (I k w i)) :
    ∃ obs preds A B, r.getInputs k name = .ok (obs, preds) ∧ obs = complexRows (nw k) tf.crossChans.length A ∧
      predict preds (realCoefs tf.inChans.length Z) = complexRows (nw k) tf.crossChans.length B ∧
      ∀ w < nw k, ∀ c < tf.crossChans.length, ‖B w c - A w c‖ ≤
        6 * (t k).unit * ((‖asComplex (F k w o)‖ + ∑ i ∈ range tf.inChans.length, ‖Z i‖ * ‖asComplex (I k w i)‖) * ‖asComplex (C k w c)‖) +
          8 * (t k).tiny * (1 + ∑ i ∈ range tf.inChans.length, ‖Z i‖) := by
  obtain ⟨r', h1, -, -, h2⟩ := C87_rows t tf hnd g nw F I C hg
  rw [hr, Except.ok.injEq] at h1
  subst h1
  obtain ⟨obs, preds, h3, h4, h5, -⟩ := h2 k hk o name ho
  refine ⟨obs, preds, _, _, h3, h4, h5 Z, fun w hw c _ => ?_⟩
  have e : ∑ i ∈ range tf.inChans.length, Z i * asComplex (mulF (t k) (I k w i) (conjF (C k w c))) -
      asComplex (mulF (t k) (F k w o) (conjF (C k w c))) =
      ∑ i ∈ range tf.inChans.length, Z i * (asComplex (mulF (t k) (I k w i) (conjF (C k w c))) - asComplex (I k w i) * conj (asComplex (C k w c))) -
      (asComplex (mulF (t k) (F k w o) (conjF (C k w c))) - asComplex (F k w o) * conj (asComplex (C k w c))) := by
    rw [hZ w hw, Finset.sum_mul]
    simp only [mul_sub, Finset.sum_sub_distrib, mul_assoc]
    ring
  rw [e]
  refine (norm_sub_le _ _).trans ?_
  have hf := C87_product_norm (ht k) (F k w o) (C k w c)
  have hi : ‖∑ i ∈ range tf.inChans.length, Z i * (asComplex (mulF (t k) (I k w i) (conjF (C k w c))) - asComplex (I k w i) * conj (asComplex (C k w c)))‖ ≤
      ∑ i ∈ range tf.inChans.length, ‖Z i‖ * (6 * (t k).unit * (‖asComplex (I k w i)‖ * ‖asComplex (C k w c)‖) + 8 * (t k).tiny) := by
    refine (norm_sum_le _ _).trans (Finset.sum_le_sum fun i _ => ?_)
    rw [norm_mul]
    exact mul_le_mul_of_nonneg_left (C87_product_norm (ht k) _ _) (norm_nonneg _)
  have e2 : ∑ i ∈ range tf.inChans.length, ‖Z i‖ * (6 * ((t k).unit : ℝ) * (‖asComplex (I k w i)‖ * ‖asComplex (C k w c)‖) + 8 * (t k).tiny) =
      6 * (t k).unit * ((∑ i ∈ range tf.inChans.length, ‖Z i‖ * ‖asComplex (I k w i)‖) * ‖asComplex (C k w c)‖) +
        8 * (t k).tiny * ∑ i ∈ range tf.inChans.length, ‖Z i‖ := by
    rw [Finset.sum_mul, Finset.mul_sum, Finset.mul_sum, ← Finset.sum_add_distrib]
    refine Finset.sum_congr rfl fun i _ => ?_
    ring
  rw [e2] at hi
  linarith

/-! Examples. -/

/-- Two windows of a site with one output, one input and one cross channel. -/
def demoPairs : Gathered (ℚ × ℚ) :=
  ⟨⟨"A", 1, [], ["Ex"], 1, [1 / 4], [], [(0, [some [(2, 1)], some [(1, 8)]])]⟩, ⟨"A", 1, [], ["Hx"], 1, [1 / 4], [], [(0, [some [(1, 0)], some [(2, 3)]])]⟩,
    ⟨"B", 1, [], ["Hx"], 1, [1 / 4], [], [(0, [some [(1, 1)], some [(0, 5)]])]⟩⟩

def demoPairsTf : TransFunc := ⟨"T", "", ["Ex"], ["Hx"], ["Hx"], 1, 1, 1⟩

theorem demoPairs_is : GatheredPairs demoPairsTf demoPairs (fun _ => 2) (fun _ w _ => if w = 0 then (2, 1) else (1, 8))
    (fun _ w _ => if w = 0 then (1, 0) else (2, 3)) (fun _ w _ => if w = 0 then (1, 1) else (0, 5)) := by
  refine ⟨rfl, rfl, ?_, ?_, ?_⟩ <;>
  · intro k hk
    have : k = 0 := by simpa [demoPairs] using hk
    subst this
    decide +kernel

example : ∃ r, prepareGatheredF (fun _ => .single) demoPairsTf demoPairs = .ok r := by
  obtain ⟨r, h, -⟩ := C87_rows (fun _ => .single) demoPairsTf (by decide) demoPairs _ _ _ _ demoPairs_is
  exact ⟨r, h⟩

/-- Products of singles are rounded in single precision and exact in double precision. -/
example : mulF .single (1 + 1 / 2 ^ 23, 0) (conjF (1 + 1 / 2 ^ 23, 1)) = (1 + 1 / 2 ^ 22, -(1 + 1 / 2 ^ 23)) ∧
    mulF .double (1 + 1 / 2 ^ 23, 0) (conjF (1 + 1 / 2 ^ 23, 1)) = (1 + 1 / 2 ^ 22 + 1 / 2 ^ 46, -(1 + 1 / 2 ^ 23)) := by decide +kernel

/-- Weak signals: nothing is left in single precision, everything in double precision. -/
example : mulF .single (1 / 2 ^ 80, 0) (conjF (1 / 2 ^ 80, 0)) = (0, 0) ∧ mulF .double (1 / 2 ^ 80, 0) (conjF (1 / 2 ^ 80, 0)) = (1 / 2 ^ 160, 0) := by
  refine ⟨C87_weak_signals_vanish _ _ ?_ ?_, by decide +kernel⟩ <;> norm_num

/-- The data of the example are `2 + i` times the input: the hypotheses of `C87_exact_data` are met. -/
example (r : RegInput) (hr : prepareGatheredF (fun _ => .single) demoPairsTf demoPairs = .ok r) :
    ∃ obs preds, r.getInputs (0 : ℕ) "Ex" = .ok (obs, preds) := by
  obtain ⟨obs, preds, -, -, h, -⟩ := C87_exact_data (fun _ => .single) (fun _ => Or.inl rfl) demoPairsTf (by decide) demoPairs _ _ _ _ demoPairs_is r hr 0
    (by decide) 0 "Ex" rfl (fun _ => ⟨2, 1⟩) (by
      intro w _
      by_cases h : w = 0
      · simp [h, asComplex, demoPairsTf, Complex.ext_iff]
      · simp [h, asComplex, demoPairsTf, Complex.ext_iff]; norm_num)
  exact ⟨obs, preds, h⟩

end Resistics
