import Verif.Model.Robust64
import Verif.Lemmas.Fl

/-!
# C84: robust weights in double precision arithmetic
-/

namespace Resistics

theorem bits53_abs {x : ℚ} (h : Bits53 x) : Bits53 |x| := by
  obtain ⟨k, e, hk, rfl⟩ := h
  refine ⟨|k|, e, by rwa [abs_abs], ?_⟩
  rw [abs_mul, abs_of_pos (by positivity : (0 : ℚ) < 2 ^ e)]
  push_cast
  rfl

theorem bits53_double {x : ℚ} (h : Bits53 x) : Bits53 (2 * x) := by
  have := h.mul_zpow 1
  rw [zpow_one, mul_comm] at this
  exact this

theorem bits53_half {x : ℚ} (h : Bits53 x) : Bits53 (x / 2) := by
  have := h.div_pow 1
  simpa using this

theorem bits53_quarter {x : ℚ} (h : Bits53 x) : Bits53 (x / 4) := by
  have := h.div_pow 2
  norm_num at this
  exact this

theorem bits53_zero : Bits53 (0 : ℚ) := ⟨0, 0, by norm_num, by norm_num⟩
theorem bits53_one : Bits53 (1 : ℚ) := ⟨1, 0, by norm_num, by norm_num⟩

/-- Rounding does not depend on the sign. -/
theorem pyRound_opposite (x : ℚ) : pyRound (-x) = -pyRound x := by
  unfold pyRound
  simp only
  by_cases hx : (⌊x⌋ : ℚ) = x
  · have : ⌊-x⌋ = -⌊x⌋ := by
      rw [← hx]
      rw [show -((⌊x⌋ : ℤ) : ℚ) = ((-⌊x⌋ : ℤ) : ℚ) by push_cast; rfl, Int.floor_intCast, Int.floor_intCast]
    rw [this, if_pos (by push_cast; linarith), if_pos (by linarith)]
  · have h1 := Int.floor_le x
    have h2 := Int.lt_floor_add_one x
    have h3 : (⌊x⌋ : ℚ) < x := lt_of_le_of_ne h1 hx
    have hf : ⌊-x⌋ = -⌊x⌋ - 1 := by
      rw [Int.floor_eq_iff]
      push_cast
      constructor <;> linarith
    rw [hf]
    push_cast
    rcases lt_trichotomy (x - (⌊x⌋ : ℚ)) (1 / 2) with h | h | h
    · rw [if_neg (by linarith), if_pos (by linarith), if_pos h]
      ring
    · by_cases he : ⌊x⌋ % 2 = 0
      · rw [if_neg (by linarith), if_neg (by linarith), if_neg (by omega), if_neg (by linarith), if_neg (by linarith), if_pos he]; ring
      · rw [if_neg (by linarith), if_neg (by linarith), if_pos (by omega), if_neg (by linarith), if_neg (by linarith), if_neg he]; ring
    · rw [if_pos (by linarith), if_neg (by linarith), if_pos h]
      ring

theorem fl_opposite (x : ℚ) : fl (-x) = -fl x := by
  unfold fl
  by_cases hx : x = 0
  · simp [hx]
  · rw [if_neg (by simpa using hx), if_neg hx, abs_neg, neg_div, pyRound_opposite]
    push_cast
    ring

theorem fl_abs (x : ℚ) : |fl x| = fl |x| := by
  rcases le_total 0 x with h | h
  · rw [abs_of_nonneg h, abs_of_nonneg (fl_nonneg h)]
  · have h2 := fl_nonneg (by linarith : 0 ≤ -x)
    have e := fl_opposite x
    rw [abs_of_nonpos h, e, abs_of_nonpos (by rw [e] at h2; linarith)]

/-! ## Sorting -/

theorem sortF_length (l : List ℚ) : (sortF l).length = l.length := List.length_insertionSort _ _
theorem sortF_perm (l : List ℚ) : (sortF l).Perm l := List.perm_insertionSort _ _
theorem sortF_sorted (l : List ℚ) : (sortF l).Pairwise (· ≤ ·) := List.pairwise_insertionSort _ _

theorem sortF_mono (l : List ℚ) (i j : ℕ) (hij : i ≤ j) (hj : j < (sortF l).length) : (sortF l)[i]'(by omega) ≤ (sortF l)[j] := by
  rcases Nat.lt_or_eq_of_le hij with h | h
  · exact List.pairwise_iff_getElem.mp (sortF_sorted l) i j (by omega) hj h
  · subst h; exact le_refl _

/-! ## Percentiles -/

/-- Specification: `v` is the percentile `100 q` of the numbers `l` in double precision: with the numbers in increasing order, it is the number at the position
`q (n - 1)`; when the position is not whole, it is between the two numbers next to it and, up to rounding, on the line between them. -/
def IsPercentileF (l : List ℚ) (q v : ℚ) : Prop :=
  ∃ s : List ℚ, s.Perm l ∧ s.Pairwise (· ≤ ·) ∧
    (∀ k : ℕ, q * ((l.length : ℚ) - 1) = k → s[k]? = some v) ∧
    ∀ (k : ℕ) (a b : ℚ), (k : ℚ) < q * ((l.length : ℚ) - 1) → q * ((l.length : ℚ) - 1) < k + 1 → s[k]? = some a →
      s[k + 1]? = some b → a ≤ v ∧ v ≤ b ∧ |v - (a + (q * ((l.length : ℚ) - 1) - k) * (b - a))| ≤ 4 / 2 ^ 53 * (|a| + |b|)

theorem unit_eq : unitRoundoff = 1 / 2 ^ 53 := rfl

/-- Half of a rounded difference, rounded again, is not more than the difference. -/
theorem half_step {d t : ℚ} (hd : 0 ≤ d) (h0 : 0 ≤ t) (h1 : t ≤ 1 / 2) : 0 ≤ fl (fl d * t) ∧ fl (fl d * t) ≤ d := by
  have hf := fl_nonneg hd
  refine ⟨fl_nonneg (mul_nonneg hf h0), ?_⟩
  have n1 := fl_near d
  rw [abs_of_nonneg hd] at n1
  have u1 := (abs_le.1 n1).2
  have n2 := fl_near (fl d * t)
  rw [abs_of_nonneg (mul_nonneg hf h0)] at n2
  have u2 := (abs_le.1 n2).2
  have hm : fl d * t ≤ fl d * (1 / 2) := mul_le_mul_of_nonneg_left h1 hf
  rw [unit_eq] at *
  norm_num at *
  linarith

/-- The product of a rounded difference, rounded again, is near the product. -/
theorem step_near {d t : ℚ} (hd : 0 ≤ d) (h0 : 0 ≤ t) (h1 : t ≤ 1) : |fl (fl d * t) - d * t| ≤ 21 / 10 * unitRoundoff * d := by
  have hf := fl_nonneg hd
  have n1 := fl_near d
  rw [abs_of_nonneg hd] at n1
  have n2 := fl_near (fl d * t)
  rw [abs_of_nonneg (mul_nonneg hf h0)] at n2
  have e : fl (fl d * t) - d * t = (fl (fl d * t) - fl d * t) + (fl d - d) * t := by ring
  rw [e]
  refine (abs_add_le _ _).trans ?_
  rw [abs_mul, abs_of_nonneg h0]
  have m1 : |fl d - d| * t ≤ d * unitRoundoff * 1 := mul_le_mul n1 h1 h0 (mul_nonneg hd unit_pos.le)
  have m2 : fl d * t ≤ fl d * 1 := mul_le_mul_of_nonneg_left h1 hf
  have u1 := (abs_le.1 n1).2
  rw [unit_eq] at *
  norm_num at *
  linarith

theorem lerpF_zero (a b : ℚ) (ha : Bits53 a) : lerpF a b 0 = a := by
  unfold lerpF
  rw [if_neg (by norm_num), mul_zero, fl_zero, add_zero, ha.fl_eq]

theorem lerpF_spec {a b t : ℚ} (ha : Bits53 a) (hb : Bits53 b) (hab : a ≤ b) (h0 : 0 ≤ t) (h1 : t ≤ 1) (ht : fl (1 - t) = 1 - t) :
    a ≤ lerpF a b t ∧ lerpF a b t ≤ b ∧ |lerpF a b t - (a + t * (b - a))| ≤ 4 / 2 ^ 53 * (|a| + |b|) := by
  have hd : 0 ≤ b - a := by linarith
  have hD : b - a ≤ |a| + |b| := by
    have := abs_sub b a
    rw [abs_of_nonneg hd] at this
    linarith
  have hS : 0 ≤ |a| + |b| := by positivity
  have wrap : ∀ m x : ℚ, |m - x| ≤ 21 / 10 * unitRoundoff * (b - a) → |x| ≤ |a| + |b| → |fl m - x| ≤ 4 / 2 ^ 53 * (|a| + |b|) := by
    intro m x hm hx
    have n := fl_near m
    have hmx : |m| ≤ |x| + |m - x| := by
      calc |m| = |x + (m - x)| := by ring_nf
        _ ≤ _ := abs_add_le _ _
    have e : fl m - x = (fl m - m) + (m - x) := by ring
    rw [e]
    refine (abs_add_le _ _).trans ?_
    rw [unit_eq] at *
    norm_num at *
    linarith
  have hline : |a + t * (b - a)| ≤ |a| + |b| := by
    rw [show a + t * (b - a) = (1 - t) * a + t * b by ring]
    refine (abs_add_le _ _).trans ?_
    rw [abs_mul, abs_mul, abs_of_nonneg h0, abs_of_nonneg (by linarith : 0 ≤ 1 - t)]
    nlinarith [abs_nonneg a, abs_nonneg b]
  unfold lerpF
  by_cases hh : 1 / 2 ≤ t
  · rw [if_pos hh, ht]
    obtain ⟨s1, s2⟩ := half_step hd (by linarith : 0 ≤ 1 - t) (by linarith)
    refine ⟨le_fl_of_le ha (by linarith), fl_le_of_le hb (by linarith), wrap _ _ ?_ hline⟩
    have := step_near hd (by linarith : 0 ≤ 1 - t) (by linarith : 1 - t ≤ 1)
    rw [show b - fl (fl (b - a) * (1 - t)) - (a + t * (b - a)) = -(fl (fl (b - a) * (1 - t)) - (b - a) * (1 - t)) by ring, abs_neg]
    exact this
  · rw [if_neg hh]
    obtain ⟨s1, s2⟩ := half_step hd h0 (by linarith)
    refine ⟨le_fl_of_le ha (by linarith), fl_le_of_le hb (by linarith), wrap _ _ ?_ hline⟩
    have := step_near hd h0 h1
    rw [show a + fl (fl (b - a) * t) - (a + t * (b - a)) = fl (fl (b - a) * t) - (b - a) * t by ring]
    exact this

theorem sortF_bits {l : List ℚ} (h : ∀ x ∈ l, Bits53 x) : ∀ x ∈ sortF l, Bits53 x := fun x hx => h x ((sortF_perm l).mem_iff.1 hx)

/-- The fraction of a position. -/
theorem quarter_fixed (m : ℕ) (hm : m ≤ 4) : fl ((m : ℚ) / 4) = (m : ℚ) / 4 ∧ fl (1 - (m : ℚ) / 4) = 1 - (m : ℚ) / 4 := by
  constructor
  · exact (bits53_quarter (bits53_nat (by omega))).fl_eq
  · rw [show 1 - (m : ℚ) / 4 = ((4 - m : ℕ) : ℚ) / 4 by push_cast [Nat.cast_sub hm]; ring]
    exact (bits53_quarter (bits53_nat (by omega))).fl_eq

/-- The two neighbours of a percentile and the fraction. -/
theorem quantileF_eq (l : List ℚ) (c : ℕ) (hc : c * (l.length - 1) < 2 ^ 53) :
    quantileF l ((c : ℚ) / 4) = lerpF ((sortF l).getD (c * (l.length - 1) / 4) 0)
      ((sortF l).getD (c * (l.length - 1) / 4 + 1) ((sortF l).getD (c * (l.length - 1) / 4) 0)) (((c * (l.length - 1) % 4 : ℕ) : ℚ) / 4) := by
  have hpos : fl ((c : ℚ) / 4 * ((l.length - 1 : ℕ) : ℚ)) = ((c * (l.length - 1) : ℕ) : ℚ) / 4 := by
    rw [show (c : ℚ) / 4 * ((l.length - 1 : ℕ) : ℚ) = ((c * (l.length - 1) : ℕ) : ℚ) / 4 by push_cast; ring]
    exact (bits53_quarter (bits53_nat hc)).fl_eq
  unfold quantileF
  simp only [sortF_length, hpos]
  generalize c * (l.length - 1) = m
  have hdm := Nat.div_add_mod m 4
  have hfl : ⌊(m : ℚ) / 4⌋₊ = m / 4 := by
    have e : (m : ℚ) = 4 * ((m / 4 : ℕ) : ℚ) + ((m % 4 : ℕ) : ℚ) := by exact_mod_cast hdm.symm
    have l : ((m % 4 : ℕ) : ℚ) < 4 := by exact_mod_cast Nat.mod_lt m (by norm_num : 0 < 4)
    have z : (0 : ℚ) ≤ ((m % 4 : ℕ) : ℚ) := by positivity
    rw [Nat.floor_eq_iff (by positivity)]
    constructor <;> linarith
  have hfrac : (m : ℚ) / 4 - ((m / 4 : ℕ) : ℚ) = ((m % 4 : ℕ) : ℚ) / 4 := by
    have : (m : ℚ) = 4 * ((m / 4 : ℕ) : ℚ) + ((m % 4 : ℕ) : ℚ) := by exact_mod_cast hdm.symm
    linarith
  simp only [hfl, hfrac]
  rw [(quarter_fixed (m % 4) (by omega)).1]

theorem getD_out {s : List ℚ} {i : ℕ} {d : ℚ} (h : s.length ≤ i) : s.getD i d = d := by
  rw [List.getD_eq_getElem?_getD, List.getElem?_eq_none h, Option.getD_none]

theorem getD_pos {s : List ℚ} {i : ℕ} {d : ℚ} (h : i < s.length) : s.getD i d = s[i] := by
  rw [List.getD_eq_getElem?_getD, List.getElem?_eq_getElem h, Option.getD_some]

/-- A percentile is between the two numbers next to its position. -/
theorem quantileF_near (l : List ℚ) (hl : l ≠ []) (hb : ∀ x ∈ l, Bits53 x) (c : ℕ) (hc3 : c ≤ 3) (hn : l.length ≤ 2 ^ 51) :
    (sortF l).getD (c * (l.length - 1) / 4) 0 ≤ quantileF l ((c : ℚ) / 4) ∧
    quantileF l ((c : ℚ) / 4) ≤ (sortF l).getD (c * (l.length - 1) / 4 + 1) ((sortF l).getD (c * (l.length - 1) / 4) 0) ∧
    |quantileF l ((c : ℚ) / 4) - ((sortF l).getD (c * (l.length - 1) / 4) 0 + ((c * (l.length - 1) % 4 : ℕ) : ℚ) / 4 *
      ((sortF l).getD (c * (l.length - 1) / 4 + 1) ((sortF l).getD (c * (l.length - 1) / 4) 0) - (sortF l).getD (c * (l.length - 1) / 4) 0))| ≤
      4 / 2 ^ 53 * (|(sortF l).getD (c * (l.length - 1) / 4) 0| + |(sortF l).getD (c * (l.length - 1) / 4 + 1) ((sortF l).getD (c * (l.length - 1) / 4) 0)|) := by
  have hpos : 0 < l.length := List.length_pos_of_ne_nil hl
  have hm3 : c * (l.length - 1) ≤ 3 * (l.length - 1) := Nat.mul_le_mul_right _ hc3
  rw [quantileF_eq l c (by omega)]
  generalize c * (l.length - 1) = m at *
  have hlen := sortF_length l
  have hlo : m / 4 < (sortF l).length := by omega
  have hbs := sortF_bits hb
  have hm4 : ((m % 4 : ℕ) : ℚ) ≤ 4 := by exact_mod_cast (Nat.mod_lt m (by norm_num : 0 < 4)).le
  have hle : (sortF l).getD (m / 4) 0 ≤ (sortF l).getD (m / 4 + 1) ((sortF l).getD (m / 4) 0) := by
    by_cases h : m / 4 + 1 < (sortF l).length
    · rw [getD_pos h, getD_pos hlo]
      exact sortF_mono l _ _ (by omega) h
    · rw [getD_out (i := m / 4 + 1) (by omega)]
  have hb2 : Bits53 ((sortF l).getD (m / 4 + 1) ((sortF l).getD (m / 4) 0)) := by
    by_cases h : m / 4 + 1 < (sortF l).length
    · rw [getD_pos h]; exact hbs _ (List.getElem_mem h)
    · rw [getD_out (i := m / 4 + 1) (by omega), getD_pos hlo]; exact hbs _ (List.getElem_mem hlo)
  exact lerpF_spec (by rw [getD_pos hlo]; exact hbs _ (List.getElem_mem hlo)) hb2 hle (by positivity) (by linarith)
    (quarter_fixed (m % 4) (Nat.mod_lt m (by norm_num)).le).2

theorem quantileF_percentile (l : List ℚ) (hl : l ≠ []) (hb : ∀ x ∈ l, Bits53 x) (c : ℕ) (hc3 : c ≤ 3) (hn : l.length ≤ 2 ^ 51) :
    IsPercentileF l ((c : ℚ) / 4) (quantileF l ((c : ℚ) / 4)) := by
  have hpos : 0 < l.length := List.length_pos_of_ne_nil hl
  have hm3 : c * (l.length - 1) ≤ 3 * (l.length - 1) := Nat.mul_le_mul_right _ hc3
  have hcast : (c : ℚ) / 4 * ((l.length : ℚ) - 1) = ((c * (l.length - 1) : ℕ) : ℚ) / 4 := by push_cast [Nat.cast_sub hpos]; ring
  have hlen := sortF_length l
  have hdm := Nat.div_add_mod (c * (l.length - 1)) 4
  refine ⟨sortF l, sortF_perm l, sortF_sorted l, ?_, ?_⟩
  · intro k hk
    rw [hcast] at hk
    have hk4 : c * (l.length - 1) = 4 * k := by
      have : ((c * (l.length - 1) : ℕ) : ℚ) = ((4 * k : ℕ) : ℚ) := by push_cast at hk ⊢; linarith
      exact_mod_cast this
    have hkl : k < (sortF l).length := by omega
    rw [quantileF_eq l c (by omega), hk4]
    rw [show 4 * k % 4 = 0 by omega, show 4 * k / 4 = k by omega, Nat.cast_zero, zero_div, getD_pos hkl, lerpF_zero _ _ (sortF_bits hb _ (List.getElem_mem hkl))]
    exact List.getElem?_eq_getElem hkl
  · intro k a b hlo hhi ha hb'
    rw [hcast] at hlo hhi ⊢
    have h1 : 4 * k < c * (l.length - 1) := by
      have : ((4 * k : ℕ) : ℚ) < ((c * (l.length - 1) : ℕ) : ℚ) := by push_cast at hlo ⊢; linarith
      exact_mod_cast this
    have h2 : c * (l.length - 1) < 4 * k + 4 := by
      have : ((c * (l.length - 1) : ℕ) : ℚ) < ((4 * k + 4 : ℕ) : ℚ) := by push_cast at hhi ⊢; linarith
      exact_mod_cast this
    have h3 := quantileF_near l hl hb c hc3 hn
    have hdiv : c * (l.length - 1) / 4 = k := by omega
    have hfr : ((c * (l.length - 1) % 4 : ℕ) : ℚ) / 4 = ((c * (l.length - 1) : ℕ) : ℚ) / 4 - k := by
      have : ((c * (l.length - 1) : ℕ) : ℚ) = 4 * (k : ℚ) + ((c * (l.length - 1) % 4 : ℕ) : ℚ) := by rw [hdiv] at hdm; exact_mod_cast hdm.symm
      linarith
    obtain ⟨ka, rfl⟩ := List.getElem?_eq_some_iff.mp ha
    obtain ⟨kb, rfl⟩ := List.getElem?_eq_some_iff.mp hb'
    rw [hdiv, getD_pos ka, getD_pos kb, hfr] at h3
    exact h3

/-- The first quartile is not above the third. -/
theorem quartiles_le (l : List ℚ) (hl : l ≠ []) (hb : ∀ x ∈ l, Bits53 x) (hn : l.length ≤ 2 ^ 51) : quantileF l (1 / 4) ≤ quantileF l (3 / 4) := by
  have hpos : 0 < l.length := List.length_pos_of_ne_nil hl
  have hlen := sortF_length l
  have h1 := quantileF_near l hl hb 1 (by norm_num) hn
  have h3 := quantileF_near l hl hb 3 (by norm_num) hn
  have e1 := quantileF_eq l 1 (by omega)
  have e3 := quantileF_eq l 3 (by omega)
  norm_num at e1 e3 h1 h3
  rcases Nat.lt_or_ge l.length 3 with hlt | hge
  · rcases Nat.lt_or_ge l.length 2 with hlt1 | hge2
    · have : l.length = 1 := by omega
      rw [this] at e1 e3
      norm_num at e1 e3
      rw [e1, e3]
    · have h2 : l.length = 2 := by omega
      rw [h2] at e1 e3
      norm_num at e1 e3
      rw [e1, e3]
      have i0 : 0 < (sortF l).length := by omega
      have i1 : 1 < (sortF l).length := by omega
      have g0 : (sortF l)[0]?.getD 0 = (sortF l)[0] := by rw [List.getElem?_eq_getElem i0]; rfl
      have g1 : (sortF l)[1]?.getD (sortF l)[0] = (sortF l)[1] := by rw [List.getElem?_eq_getElem i1]; rfl
      rw [g0, g1]
      have hle := sortF_mono l 0 1 (by norm_num) i1
      generalize (sortF l)[0] = a at *
      generalize (sortF l)[1] = b at *
      have q := quarter_fixed 1 (by norm_num)
      unfold lerpF
      rw [if_neg (by norm_num), if_pos (by norm_num), show (1 : ℚ) - 3 / 4 = (1 : ℕ) / 4 by norm_num, q.1]
      push_cast
      refine fl_mono ?_
      have he : fl (fl (b - a) * (1 / 4)) = fl (b - a) / 4 := by
        rw [mul_one_div]; exact (bits53_quarter (fl_bits53 _)).fl_eq
      rw [he]
      have n1 := fl_near (b - a)
      rw [abs_of_nonneg (by linarith : 0 ≤ b - a)] at n1
      have u1 := (abs_le.1 n1).2
      rw [unit_eq] at u1
      norm_num at u1
      linarith
  · have i1 : (l.length - 1) / 4 + 1 < (sortF l).length := by omega
    have i3 : 3 * (l.length - 1) / 4 < (sortF l).length := by omega
    have hidx : (l.length - 1) / 4 + 1 ≤ 3 * (l.length - 1) / 4 := by omega
    have g1 : (sortF l)[(l.length - 1) / 4 + 1]?.getD ((sortF l)[(l.length - 1) / 4]?.getD 0) = (sortF l)[(l.length - 1) / 4 + 1] := by
      rw [List.getElem?_eq_getElem i1]; rfl
    have g3 : (sortF l)[3 * (l.length - 1) / 4]?.getD 0 = (sortF l)[3 * (l.length - 1) / 4] := by rw [List.getElem?_eq_getElem i3]; rfl
    rw [g1] at h1
    rw [g3] at h3
    exact h1.2.1.trans ((sortF_mono l _ _ hidx i3).trans h3.1)

/-- The median. -/
theorem medianF_percentile (l : List ℚ) (hl : l ≠ []) (hb : ∀ x ∈ l, Bits53 x) : IsPercentileF l (1 / 2) (medianF l) ∧
    (sortF l).getD ((l.length - 1) / 2) 0 ≤ medianF l := by
  have hpos : 0 < l.length := List.length_pos_of_ne_nil hl
  have hlen := sortF_length l
  have hcast : (1 : ℚ) / 2 * ((l.length : ℚ) - 1) = ((l.length - 1 : ℕ) : ℚ) / 2 := by push_cast [Nat.cast_sub hpos]; ring
  unfold medianF
  simp only [hlen]
  by_cases hodd : l.length % 2 = 1
  · simp only [hodd, if_true]
    have hi : l.length / 2 < (sortF l).length := by omega
    rw [getD_pos hi, show (l.length - 1) / 2 = l.length / 2 by omega, getD_pos hi]
    refine ⟨⟨sortF l, sortF_perm l, sortF_sorted l, ?_, ?_⟩, le_refl _⟩
    · intro k hk
      rw [hcast] at hk
      have : l.length - 1 = 2 * k := by
        have : ((l.length - 1 : ℕ) : ℚ) = ((2 * k : ℕ) : ℚ) := by push_cast at hk ⊢; linarith
        exact_mod_cast this
      have hk2 : l.length / 2 = k := by omega
      simp only [hk2]
      exact List.getElem?_eq_getElem (by omega)
    · intro k a b hlo hhi
      rw [hcast] at hlo hhi
      have h1 : 2 * k < l.length - 1 := by
        have : ((2 * k : ℕ) : ℚ) < ((l.length - 1 : ℕ) : ℚ) := by push_cast at hlo ⊢; linarith
        exact_mod_cast this
      have h2 : l.length - 1 < 2 * k + 2 := by
        have : ((l.length - 1 : ℕ) : ℚ) < ((2 * k + 2 : ℕ) : ℚ) := by push_cast at hhi ⊢; linarith
        exact_mod_cast this
      omega
  · rw [if_neg hodd]
    have i0 : l.length / 2 - 1 < (sortF l).length := by omega
    have i1 : l.length / 2 < (sortF l).length := by omega
    rw [show (l.length - 1) / 2 = l.length / 2 - 1 by omega, getD_pos i0, getD_pos i1]
    have hle := sortF_mono l _ _ (by omega : l.length / 2 - 1 ≤ l.length / 2) i1
    have ba := sortF_bits hb _ (List.getElem_mem i0)
    have bb := sortF_bits hb _ (List.getElem_mem i1)
    have key : ∀ a b : ℚ, Bits53 a → Bits53 b → a ≤ b → a ≤ fl (fl (a + b) / 2) ∧ fl (fl (a + b) / 2) ≤ b ∧
        |fl (fl (a + b) / 2) - (a + 1 / 2 * (b - a))| ≤ 4 / 2 ^ 53 * (|a| + |b|) := by
      intro a b ha hb hab
      rw [(bits53_half (fl_bits53 (a + b))).fl_eq]
      have l1 := le_fl_of_le (x := a + b) (bits53_double ha) (by linarith)
      have l2 := fl_le_of_le (x := a + b) (bits53_double hb) (by linarith)
      refine ⟨by linarith, by linarith, ?_⟩
      have n := fl_near (a + b)
      have n2 := abs_add_le a b
      rw [show fl (a + b) / 2 - (a + 1 / 2 * (b - a)) = (fl (a + b) - (a + b)) / 2 by ring, abs_div, abs_of_pos (by norm_num : (0 : ℚ) < 2)]
      have z1 := abs_nonneg a
      have z2 := abs_nonneg b
      rw [unit_eq] at n
      norm_num at n n2 ⊢
      linarith
    obtain ⟨k1, k2, k3⟩ := key _ _ ba bb hle
    refine ⟨⟨sortF l, sortF_perm l, sortF_sorted l, ?_, ?_⟩, k1⟩
    · intro k hk
      rw [hcast] at hk
      have : l.length - 1 = 2 * k := by
        have : ((l.length - 1 : ℕ) : ℚ) = ((2 * k : ℕ) : ℚ) := by push_cast at hk ⊢; linarith
        exact_mod_cast this
      omega
    · intro k a b hlo hhi ha hb'
      rw [hcast] at hlo hhi ⊢
      have h1 : 2 * k < l.length - 1 := by
        have : ((2 * k : ℕ) : ℚ) < ((l.length - 1 : ℕ) : ℚ) := by push_cast at hlo ⊢; linarith
        exact_mod_cast this
      have h2 : l.length - 1 < 2 * k + 2 := by
        have : ((l.length - 1 : ℕ) : ℚ) < ((2 * k + 2 : ℕ) : ℚ) := by push_cast at hhi ⊢; linarith
        exact_mod_cast this
      obtain ⟨ka, rfl⟩ := List.getElem?_eq_some_iff.mp ha
      obtain ⟨kb, rfl⟩ := List.getElem?_eq_some_iff.mp hb'
      have e0 : l.length / 2 - 1 = k := by omega
      have e1 : l.length / 2 = k + 1 := by omega
      have efr : ((l.length - 1 : ℕ) : ℚ) / 2 - k = 1 / 2 := by
        have : l.length - 1 = 2 * k + 1 := by omega
        rw [this]; push_cast; ring
      rw [efr]
      simp only [e0, e1] at k1 k2 k3 ⊢
      exact ⟨k1, k2, k3⟩

/-! ## Weighted least squares -/

theorem absResidualsF_bits (obs pred : List ℚ) : ∀ x ∈ absResidualsF obs pred, Bits53 x := by
  intro x hx
  unfold absResidualsF at hx
  obtain ⟨i, hi, rfl⟩ := List.mem_iff_getElem.mp hx
  rw [List.getElem_zipWith]
  exact bits53_abs (fl_bits53 _)

theorem scaleF_spec (l : List ℚ) (hl : l ≠ []) (hb : ∀ x ∈ l, Bits53 x) (hn : l.length ≤ 2 ^ 51) : Bits53 (scaleF l) ∧ 0 < scaleF l ∧
    (quantileF l (3 / 4) = quantileF l (1 / 4) → scaleF l = 1) ∧
    (quantileF l (3 / 4) ≠ quantileF l (1 / 4) → quantileF l (1 / 4) < quantileF l (3 / 4) ∧
      |scaleF l - (quantileF l (3 / 4) - quantileF l (1 / 4))| ≤ (quantileF l (3 / 4) - quantileF l (1 / 4)) / 2 ^ 53) := by
  have hq := quartiles_le l hl hb hn
  unfold scaleF
  simp only
  generalize quantileF l (3 / 4) = q3 at *
  generalize quantileF l (1 / 4) = q1 at *
  by_cases he : q3 = q1
  · subst he
    rw [sub_self, fl_zero, if_pos rfl]
    exact ⟨bits53_one, by norm_num, fun _ => rfl, fun h => absurd rfl h⟩
  · have hlt : q1 < q3 := lt_of_le_of_ne hq (Ne.symm he)
    have hp : 0 < fl (q3 - q1) := fl_pos (by linarith)
    rw [if_neg hp.ne']
    refine ⟨fl_bits53 _, hp, fun h => absurd h he, fun _ => ⟨hlt, ?_⟩⟩
    have := fl_near (q3 - q1)
    rw [abs_of_pos (by linarith : 0 < q3 - q1), unit_eq, mul_one_div] at this
    exact this

/-- The weight of a residual. -/
def weightF (med s x : ℚ) : ℚ := trimmedMeanF 2 (fl (fl (x - med) / s))

theorem wlsWeightsF_eq (obs pred : List ℚ) :
    wlsWeightsF obs pred = (absResidualsF obs pred).map (weightF (medianF (absResidualsF obs pred)) (scaleF (absResidualsF obs pred))) := by
  unfold wlsWeightsF robustScaledF
  rw [List.map_map]
  rfl

theorem weightF_cases (med s x : ℚ) : weightF med s x = 1 ∨ weightF med s x = 0 := by
  unfold weightF trimmedMeanF
  split_ifs
  · exact Or.inl rfl
  · exact Or.inr rfl

theorem weightF_kept {med s x : ℚ} (hs : 0 < s) (hb : Bits53 s) (h : x ≤ med + 2 * s) : weightF med s x = 1 := by
  unfold weightF trimmedMeanF
  have h1 : fl (x - med) ≤ 2 * s := fl_le_of_le (bits53_double hb) (by linarith)
  rw [if_pos]
  refine fl_le_of_le (bits53_nat (by norm_num : 2 < 2 ^ 53)) ?_
  push_cast
  rw [div_le_iff₀ hs]
  exact h1

theorem weightF_dropped {med s x : ℚ} (hs : 0 < s) (h : med + 2 * (1 + 1 / 2 ^ 51) * s < x) : weightF med s x = 0 := by
  unfold weightF trimmedMeanF
  rw [if_neg]
  rw [not_le]
  have hpos : 0 < x - med := by
    have : 0 < 2 * (1 + 1 / 2 ^ 51) * s := by positivity
    linarith
  have n := fl_near (x - med)
  rw [abs_of_pos hpos, unit_eq] at n
  have n1 := (abs_le.1 n).1
  have hb : Bits53 ((2 : ℚ) + 1 / 2 ^ 51) := ⟨2 ^ 52 + 1, -51, by norm_num, by norm_num⟩
  have : (2 : ℚ) + 1 / 2 ^ 51 ≤ fl (fl (x - med) / s) := by
    refine le_fl_of_le hb ?_
    rw [le_div_iff₀ hs]
    norm_num at n1 h ⊢
    linarith
  refine lt_of_lt_of_le ?_ this
  norm_num

theorem weightF_mono {med s x y : ℚ} (hs : 0 < s) (h : x ≤ y) : weightF med s y ≤ weightF med s x := by
  unfold weightF trimmedMeanF
  have h1 : fl (fl (x - med) / s) ≤ fl (fl (y - med) / s) := fl_mono ((div_le_div_iff_of_pos_right hs).2 (fl_mono (by linarith)))
  split_ifs with a b b
  · exact le_refl _
  · exact absurd (h1.trans a) b
  · norm_num
  · exact le_refl _

/-- C84: after a fit in double precision, an equation keeps its full weight when its residual is at most the median plus twice the interquartile range of all residuals
(the range counting as one when it is zero), and has no weight when it is above by more than one part in 2^51 of the range; there are no other weights. -/
theorem C84_trim_rule (obs pred : List ℚ) (hlen : pred.length = obs.length) (ho : obs ≠ []) (hn : obs.length ≤ 2 ^ 51) :
    ∃ res med q1 q3 s, res.length = obs.length ∧ IsPercentileF res (1 / 2) med ∧ IsPercentileF res (1 / 4) q1 ∧ IsPercentileF res (3 / 4) q3 ∧
      0 < s ∧ (q3 = q1 → s = 1) ∧ (q3 ≠ q1 → q1 < q3 ∧ |s - (q3 - q1)| ≤ (q3 - q1) / 2 ^ 53) ∧ (wlsWeightsF obs pred).length = obs.length ∧
      ∀ (i : ℕ) (o p : ℚ), obs[i]? = some o → pred[i]? = some p → ∃ x w, res[i]? = some x ∧ (wlsWeightsF obs pred)[i]? = some w ∧
        |x - (|o - p|)| ≤ |o - p| / 2 ^ 53 ∧ (w = 1 ∨ w = 0) ∧ (x ≤ med + 2 * s → w = 1) ∧ (med + 2 * (1 + 1 / 2 ^ 51) * s < x → w = 0) := by
  have hl : (absResidualsF obs pred).length = obs.length := by simp [absResidualsF, hlen]
  have hpos := List.length_pos_of_ne_nil ho
  have hne : absResidualsF obs pred ≠ [] := List.ne_nil_of_length_pos (by omega)
  have hb := absResidualsF_bits obs pred
  obtain ⟨s1, s2, s3, s4⟩ := scaleF_spec _ hne hb (by omega)
  have p1 := quantileF_percentile _ hne hb 1 (by norm_num) (by omega)
  have p3 := quantileF_percentile _ hne hb 3 (by norm_num) (by omega)
  push_cast at p1 p3
  refine ⟨absResidualsF obs pred, medianF _, quantileF _ (1 / 4), quantileF _ (3 / 4), scaleF _, hl, (medianF_percentile _ hne hb).1, p1, p3, s2, s3, s4, ?_, ?_⟩
  · rw [wlsWeightsF_eq, List.length_map, hl]
  · intro i o p hi hp
    have hx : (absResidualsF obs pred)[i]? = some |fl (o - p)| := by simp [absResidualsF, List.getElem?_zipWith, hi, hp]
    refine ⟨_, _, hx, by rw [wlsWeightsF_eq, List.getElem?_map, hx, Option.map_some], ?_, weightF_cases _ _ _, weightF_kept s2 s1, weightF_dropped s2⟩
    have h1 := abs_abs_sub_abs_le_abs_sub (fl (o - p)) (o - p)
    have h2 := fl_near (o - p)
    rw [unit_eq, mul_one_div] at h2
    exact h1.trans h2

/-- C84: an equation that is fitted better never has a smaller weight than one that is fitted worse. -/
theorem C84_monotone (obs pred : List ℚ) (hlen : pred.length = obs.length) (hn : obs.length ≤ 2 ^ 51) (i j : ℕ) (oi pi oj pj v w : ℚ)
    (hoi : obs[i]? = some oi) (hpi : pred[i]? = some pi) (hoj : obs[j]? = some oj) (hpj : pred[j]? = some pj) (hle : |oi - pi| ≤ |oj - pj|)
    (hv : (wlsWeightsF obs pred)[i]? = some v) (hw : (wlsWeightsF obs pred)[j]? = some w) : w ≤ v := by
  have hl : (absResidualsF obs pred).length = obs.length := by simp [absResidualsF, hlen]
  have hx : (absResidualsF obs pred)[i]? = some |fl (oi - pi)| := by simp [absResidualsF, List.getElem?_zipWith, hoi, hpi]
  have hy : (absResidualsF obs pred)[j]? = some |fl (oj - pj)| := by simp [absResidualsF, List.getElem?_zipWith, hoj, hpj]
  have hne : absResidualsF obs pred ≠ [] := by
    intro h
    rw [h] at hx
    simp at hx
  obtain ⟨-, s2, -, -⟩ := scaleF_spec _ hne (absResidualsF_bits obs pred) (by omega)
  rw [wlsWeightsF_eq, List.getElem?_map, hx, Option.map_some, Option.some.injEq] at hv
  rw [wlsWeightsF_eq, List.getElem?_map, hy, Option.map_some, Option.some.injEq] at hw
  rw [← hv, ← hw]
  refine weightF_mono s2 ?_
  rw [fl_abs, fl_abs]
  exact fl_mono hle

/-- C84: at least half of the equations keep their full weight after every fit. -/
theorem C84_half_kept (obs pred : List ℚ) (hlen : pred.length = obs.length) (hn : obs.length ≤ 2 ^ 51) :
    (wlsWeightsF obs pred).length = obs.length ∧ obs.length ≤ 2 * (wlsWeightsF obs pred).countP (fun w => w = 1) := by
  have hl : (absResidualsF obs pred).length = obs.length := by simp [absResidualsF, hlen]
  have hb := absResidualsF_bits obs pred
  rw [wlsWeightsF_eq]
  generalize absResidualsF obs pred = res at *
  refine ⟨by rw [List.length_map, hl], ?_⟩
  rw [← hl, List.countP_map]
  rcases eq_or_ne res [] with rfl | hne
  · simp
  obtain ⟨s1, s2, -, -⟩ := scaleF_spec res hne hb (by omega)
  have hmed := (medianF_percentile res hne hb).2
  have hpos := List.length_pos_of_ne_nil hne
  have hls := sortF_length res
  have hlo : (res.length - 1) / 2 < (sortF res).length := by omega
  rw [getD_pos hlo] at hmed
  rw [← (sortF_perm res).countP_eq]
  have hall : ((sortF res).take ((res.length - 1) / 2 + 1)).countP ((fun w => decide (w = 1)) ∘ weightF (medianF res) (scaleF res)) =
      ((sortF res).take ((res.length - 1) / 2 + 1)).length := by
    rw [List.countP_eq_length]
    intro x hx
    obtain ⟨j, hj, rfl⟩ := List.mem_iff_getElem.mp hx
    rw [List.length_take] at hj
    rw [List.getElem_take]
    have := sortF_mono res j ((res.length - 1) / 2) (by omega) hlo
    refine decide_eq_true ?_
    exact weightF_kept s2 s1 (by linarith)
  have hsub := List.Sublist.countP_le (p := ((fun w => decide (w = 1)) ∘ weightF (medianF res) (scaleF res))) (List.take_sublist ((res.length - 1) / 2 + 1) (sortF res))
  rw [hall, List.length_take] at hsub
  omega

/-- C84: when the model fits the data exactly, no equation loses weight. -/
theorem C84_exact_data (obs : List ℚ) (hn : obs.length ≤ 2 ^ 51) : wlsWeightsF obs obs = List.replicate obs.length 1 := by
  have hr : absResidualsF obs obs = List.replicate obs.length 0 := by
    unfold absResidualsF
    rw [List.zipWith_self]
    simp [fl_zero, List.eq_replicate_iff]
  rw [wlsWeightsF_eq]
  have hb := absResidualsF_bits obs obs
  rw [List.eq_replicate_iff]
  refine ⟨by rw [List.length_map, hr, List.length_replicate], fun w hw => ?_⟩
  obtain ⟨x, hx, rfl⟩ := List.mem_map.1 hw
  have hne : absResidualsF obs obs ≠ [] := List.ne_nil_of_mem hx
  have hpos := List.length_pos_of_ne_nil hne
  obtain ⟨s1, s2, -, -⟩ := scaleF_spec _ hne hb (by rw [hr, List.length_replicate]; exact hn)
  have hmed := (medianF_percentile _ hne hb).2
  have hls := sortF_length (absResidualsF obs obs)
  rw [getD_pos (by omega)] at hmed
  have hz : ∀ y ∈ absResidualsF obs obs, y = 0 := fun y hy => by rw [hr] at hy; exact List.eq_of_mem_replicate hy
  rw [hz _ ((sortF_perm _).mem_iff.1 (List.getElem_mem _))] at hmed
  rw [hz x hx]
  exact weightF_kept s2 s1 (by linarith)

/-- Weights with which a fit has enough data: zeros and ones, at least half of them ones. -/
def EnoughWeight (n : ℕ) (weights : List ℚ) : Prop :=
  weights.length = n ∧ (∀ w ∈ weights, w = 1 ∨ w = 0) ∧ n ≤ 2 * weights.countP (fun w => w = 1)

theorem enough_ones (n : ℕ) : EnoughWeight n (List.replicate n 1) := by
  refine ⟨List.length_replicate, fun w hw => Or.inl (List.eq_of_mem_replicate hw), ?_⟩
  rw [List.countP_replicate]
  simp
  omega

theorem enough_after (obs pred : List ℚ) (hlen : pred.length = obs.length) (hn : obs.length ≤ 2 ^ 51) : EnoughWeight obs.length (wlsWeightsF obs pred) := by
  obtain ⟨h1, h2⟩ := C84_half_kept obs pred hlen hn
  refine ⟨h1, fun w hw => ?_, h2⟩
  rw [wlsWeightsF_eq] at hw
  obtain ⟨x, -, rfl⟩ := List.mem_map.1 hw
  exact weightF_cases _ _ _

/-- C84: when a model can be fitted with at least half of the equations, then every fit of the loop succeeds, whatever the predictions of the earlier ones, and the model is the
one of the last fit, with weights of zero and one of which at least half are one. -/
theorem C84_always_fits {M : Type} (fit : List ℚ → Except Err M) (predict : M → List ℚ) (nIter : ℤ) (obs : List ℚ) (hn : obs.length ≤ 2 ^ 51)
    (hp : ∀ m, (predict m).length = obs.length) (hfit : ∀ w, EnoughWeight obs.length w → ∃ m, fit w = .ok m) :
    (0 < nIter → ∃ m w, wlsF fit predict nIter obs = .ok m ∧ EnoughWeight obs.length w ∧ fit w = .ok m) ∧
    (nIter ≤ 0 → wlsF fit predict nIter obs = .error .attribute) := by
  have loop : ∀ (n : ℕ) (weights : List ℚ) (last : Option M), EnoughWeight obs.length weights →
      (0 < n ∨ ∃ m w, last = some m ∧ EnoughWeight obs.length w ∧ fit w = .ok m) →
      ∃ m w, wlsLoopF fit predict obs n weights last = .ok m ∧ EnoughWeight obs.length w ∧ fit w = .ok m := by
    intro n
    induction n with
    | zero =>
      intro weights last hw h
      rcases h with h | ⟨m, w, rfl, h1, h2⟩
      · exact absurd h (by simp)
      · exact ⟨m, w, rfl, h1, h2⟩
    | succ n ih =>
      intro weights last hw _
      obtain ⟨m, hm⟩ := hfit weights hw
      obtain ⟨m', w', h1, h2, h3⟩ := ih (wlsWeightsF obs (predict m)) (some m) (enough_after obs _ (hp m) hn) (Or.inr ⟨m, weights, rfl, hw, hm⟩)
      refine ⟨m', w', ?_, h2, h3⟩
      simp only [wlsLoopF, hm, bind, Except.bind]
      exact h1
  constructor
  · intro h
    exact loop nIter.toNat _ none (enough_ones _) (Or.inl (by omega))
  · intro h
    have : nIter.toNat = 0 := by omega
    unfold wlsF
    rw [this]
    rfl

/-- C84: the model that is returned is the last of `nIter` fits: the first with all equations, each later one with the weights from the residuals of the one before. -/
theorem C84_iterations {M : Type} (fit : List ℚ → Except Err M) (predict : M → List ℚ) (nIter : ℤ) (hi : 0 < nIter) (obs : List ℚ) (m : M) :
    wlsF fit predict nIter obs = .ok m ↔ ∃ models : ℕ → M, fit (List.replicate obs.length 1) = .ok (models 0) ∧
      (∀ i : ℕ, (i : ℤ) + 1 < nIter → fit (wlsWeightsF obs (predict (models i))) = .ok (models (i + 1))) ∧ m = models (nIter - 1).toNat := by
  have loop : ∀ (n : ℕ) (weights : List ℚ) (last : Option M), wlsLoopF fit predict obs (n + 1) weights last = .ok m ↔ ∃ models : ℕ → M, fit weights = .ok (models 0) ∧
      (∀ i, i < n → fit (wlsWeightsF obs (predict (models i))) = .ok (models (i + 1))) ∧ m = models n := by
    intro n
    induction n with
    | zero =>
      intro weights last
      simp only [wlsLoopF]
      cases hf : fit weights with
      | error e => simp [bind, Except.bind]
      | ok a =>
        simp only [bind, Except.bind, Except.ok.injEq]
        exact ⟨fun h => ⟨fun _ => a, rfl, fun i hi => absurd hi (by omega), h.symm⟩, fun ⟨ms, h1, _, h3⟩ => by rw [h3]; exact h1⟩
    | succ n ih =>
      intro weights last
      rw [wlsLoopF]
      cases hf : fit weights with
      | error e => simp [bind, Except.bind]
      | ok a =>
        simp only [bind, Except.bind, Except.ok.injEq]
        rw [ih]
        constructor
        · rintro ⟨ms, h1, h2, h3⟩
          refine ⟨fun i => if i = 0 then a else ms (i - 1), by simp, ?_, by simpa using h3⟩
          intro i hi
          cases i with
          | zero => simpa using h1
          | succ i => simpa using h2 i (by omega)
        · rintro ⟨ms, h1, h2, h3⟩
          refine ⟨fun i => ms (i + 1), ?_, fun i hi => h2 (i + 1) (by omega), h3⟩
          have := h2 0 (by omega)
          rw [← h1] at this
          exact this
  obtain ⟨n, rfl⟩ : ∃ n : ℕ, nIter = n + 1 := ⟨(nIter - 1).toNat, by omega⟩
  have e : ((n : ℤ) + 1).toNat = n + 1 := by omega
  unfold wlsF
  rw [e, loop]
  have e2 : ((n : ℤ) + 1 - 1).toNat = n := by omega
  rw [e2]
  constructor
  · rintro ⟨ms, h1, h2, h3⟩
    exact ⟨ms, h1, fun i hi => h2 i (by omega), h3⟩
  · rintro ⟨ms, h1, h2, h3⟩
    exact ⟨ms, h1, fun i hi => h2 i (by omega), h3⟩

/-! ## The other weights -/

/-- C84: Huber's weights in double precision: positive, at most one, one up to the threshold, never increasing, and the threshold divided by the residual beyond it. -/
theorem C84_huber (k : ℚ) (hk : 0 < k) (r : ℚ) :
    0 < huberF k r ∧ huberF k r ≤ 1 ∧ (r ≤ k → huberF k r = 1) ∧ (∀ r', r ≤ r' → huberF k r' ≤ huberF k r) ∧
    (k < r → |huberF k r - k / r| ≤ k / r / 2 ^ 53) := by
  have pos : ∀ r, 0 < huberF k r := by
    intro r
    unfold huberF
    split_ifs with h
    · exact fl_pos (div_pos hk (hk.trans h))
    · norm_num
  have one : ∀ r, huberF k r ≤ 1 := by
    intro r
    unfold huberF
    split_ifs with h
    · exact fl_le_of_le bits53_one ((div_le_one (hk.trans h)).2 h.le)
    · exact le_refl _
  refine ⟨pos r, one r, fun h => ?_, fun r' h => ?_, fun h => ?_⟩
  · unfold huberF
    rw [if_neg (by linarith)]
  · by_cases hr : k < r
    · unfold huberF
      rw [if_pos hr, if_pos (by linarith)]
      exact fl_mono (div_le_div_of_nonneg_left hk.le (hk.trans hr) h)
    · have : huberF k r = 1 := by unfold huberF; rw [if_neg hr]
      rw [this]
      exact one r'
  · unfold huberF
    rw [if_pos h]
    have := fl_near (k / r)
    rw [abs_of_pos (div_pos hk (hk.trans h)), unit_eq, mul_one_div] at this
    exact this

/-- C84: the bisquare weights in double precision, for residuals that are not negative: between zero and one, one at zero, zero from the threshold on, never increasing, and
within nine roundings of the formula before the threshold. -/
theorem C84_bisquare (k : ℚ) (hk : 0 < k) (r : ℚ) (hr : 0 ≤ r) :
    0 ≤ bisquareF k r ∧ bisquareF k r ≤ 1 ∧ (r = 0 → bisquareF k r = 1) ∧ (k ≤ r → bisquareF k r = 0) ∧ (∀ r', r ≤ r' → bisquareF k r' ≤ bisquareF k r) ∧
    (r ≤ k → |bisquareF k r - (1 - (r / k) ^ 2) ^ 2| ≤ 9 / 2 ^ 53) := by
  have tb : ∀ r, 0 ≤ r → 0 ≤ min 1 (fl (r / k)) ∧ min 1 (fl (r / k)) ≤ 1 := fun r h =>
    ⟨le_min (by norm_num) (fl_nonneg (div_nonneg h hk.le)), min_le_left _ _⟩
  have wb : ∀ t, 0 ≤ t → t ≤ 1 → 0 ≤ fl (1 - fl (t * t)) ∧ fl (1 - fl (t * t)) ≤ 1 := by
    intro t h0 h1
    have a0 : 0 ≤ fl (t * t) := fl_nonneg (mul_nonneg h0 h0)
    have a1 : fl (t * t) ≤ 1 := fl_le_of_le bits53_one (by nlinarith)
    exact ⟨fl_nonneg (by linarith), fl_le_of_le bits53_one (by linarith)⟩
  obtain ⟨t0, t1⟩ := tb r hr
  obtain ⟨w0, w1⟩ := wb _ t0 t1
  refine ⟨fl_nonneg (mul_nonneg w0 w0), fl_le_of_le bits53_one (by nlinarith), fun h => ?_, fun h => ?_, fun r' h => ?_, fun h => ?_⟩
  · unfold bisquareF
    rw [h, zero_div, fl_zero]
    decide +kernel
  · unfold bisquareF
    have : (1 : ℚ) ≤ fl (r / k) := le_fl_of_le bits53_one ((one_le_div hk).2 h)
    simp only [min_eq_left this]
    decide +kernel
  · obtain ⟨v0, v1⟩ := tb r' (hr.trans h)
    obtain ⟨x0, x1⟩ := wb _ v0 v1
    have ht : min 1 (fl (r / k)) ≤ min 1 (fl (r' / k)) := min_le_min_left _ (fl_mono ((div_le_div_iff_of_pos_right hk).2 h))
    have hw : fl (1 - fl (min 1 (fl (r' / k)) * min 1 (fl (r' / k)))) ≤ fl (1 - fl (min 1 (fl (r / k)) * min 1 (fl (r / k)))) :=
      fl_mono (sub_le_sub_left (fl_mono (mul_le_mul ht ht t0 v0)) _)
    exact fl_mono (mul_le_mul hw hw x0 w0)
  · have hx0 : 0 ≤ r / k := div_nonneg hr hk.le
    have hx1 : r / k ≤ 1 := (div_le_one hk).2 h
    have hf1 : fl (r / k) ≤ 1 := fl_le_of_le bits53_one hx1
    unfold bisquareF
    simp only [min_eq_right hf1] at *
    generalize r / k = x at *
    have e1 : |fl x - x| ≤ 1 / 2 ^ 53 := by
      have := fl_near x
      rw [abs_of_nonneg hx0, unit_eq] at this
      exact this.trans (mul_le_of_le_one_left (by norm_num) hx1)
    generalize fl x = t at *
    have e2 : |t * t - x ^ 2| ≤ 2 / 2 ^ 53 := by
      rw [show t * t - x ^ 2 = (t - x) * (t + x) by ring, abs_mul, abs_of_nonneg (by linarith : 0 ≤ t + x)]
      calc |t - x| * (t + x) ≤ 1 / 2 ^ 53 * 2 := mul_le_mul e1 (by linarith) (by linarith) (by norm_num)
        _ = 2 / 2 ^ 53 := by norm_num
    have small : ∀ y : ℚ, 0 ≤ y → y ≤ 1 → |fl y - y| ≤ 1 / 2 ^ 53 := by
      intro y h0 h1
      have := fl_near y
      rw [abs_of_nonneg h0, unit_eq] at this
      exact this.trans (mul_le_of_le_one_left (by norm_num) h1)
    have tt0 : 0 ≤ t * t := mul_nonneg t0 t0
    have tt1 : t * t ≤ 1 := by nlinarith
    have e3 := small (t * t) tt0 tt1
    have s0 : 0 ≤ fl (t * t) := fl_nonneg tt0
    have s1 : fl (t * t) ≤ 1 := fl_le_of_le bits53_one tt1
    generalize fl (t * t) = q at *
    have e4 := small (1 - q) (by linarith) (by linarith)
    have e5 : |fl (1 - q) - (1 - x ^ 2)| ≤ 4 / 2 ^ 53 := by
      rw [abs_le] at e2 e3 e4 ⊢
      norm_num at e2 e3 e4 ⊢
      constructor <;> linarith [e2.1, e2.2, e3.1, e3.2, e4.1, e4.2]
    generalize fl (1 - q) = w at *
    have hW0 : 0 ≤ 1 - x ^ 2 := by nlinarith
    have hW1 : 1 - x ^ 2 ≤ 1 := by nlinarith
    have e6 : |w * w - (1 - x ^ 2) ^ 2| ≤ 8 / 2 ^ 53 := by
      rw [show w * w - (1 - x ^ 2) ^ 2 = (w - (1 - x ^ 2)) * (w + (1 - x ^ 2)) by ring, abs_mul, abs_of_nonneg (by linarith : 0 ≤ w + (1 - x ^ 2))]
      calc |w - (1 - x ^ 2)| * (w + (1 - x ^ 2)) ≤ 4 / 2 ^ 53 * 2 := mul_le_mul e5 (by linarith) (by linarith) (by norm_num)
        _ = 8 / 2 ^ 53 := by norm_num
    have e7 := small (w * w) (mul_nonneg w0 w0) (by nlinarith)
    rw [show fl (w * w) - (1 - x ^ 2) ^ 2 = (fl (w * w) - w * w) + (w * w - (1 - x ^ 2) ^ 2) by ring]
    refine (abs_add_le _ _).trans ((add_le_add e7 e6).trans ?_)
    norm_num

/-! Concrete cases: one residual out of five is far off; an even number of residuals; residuals that are all the same. -/

example : wlsWeightsF [1, 2, 3, 4, 100] [1, 1, 2, 3, 4] = [1, 1, 1, 1, 0] := by decide +kernel
example : medianF [3, 1, 2, 10] = 5 / 2 ∧ quantileF [3, 1, 2, 10] (1 / 4) = 7 / 4 ∧ quantileF [3, 1, 2, 10] (3 / 4) = 19 / 4 := by decide +kernel
example : scaleF [7, 7, 7] = 1 := by decide +kernel
example : wlsWeightsF [1, 2, 3] [1, 2, 3] = [1, 1, 1] := by decide +kernel
example : EnoughWeight 3 [1, 0, 1] := ⟨rfl, by decide +kernel, by decide +kernel⟩
example : huberF 2 3 ≠ 2 / 3 ∧ huberF 2 1 = 1 ∧ bisquareF 4 2 = 9 / 16 ∧ bisquareF 4 5 = 0 := by decide +kernel

/-- Negative residuals below the threshold get more than full weight from the bisquare formula: the hypothesis of `C84_bisquare` is needed. -/
example : bisquareF 1 (-2) = 9 := by decide +kernel

end Resistics
