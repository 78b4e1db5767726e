import Verif.Model.Phase64
import Verif.Props.TransFunc
import Verif.Props.Cal64
import Mathlib.Analysis.Real.Pi.Bounds

/-!
# C90: apparent resistivity and phase in floating point numbers
-/

namespace Resistics

/-! ## Specification -/

/-- Specification: absolute values and squares of the mathematical library are exact up to a part in 2^52, angles up to 1/2^51, and no angle is beyond `np.pi`. -/
structure AngleMath.Accurate (m : AngleMath) : Prop where
  absolute : ∀ z, |(m.absolute z : ℝ) - ‖asComplex z‖| ≤ 1 / 2 ^ 52 * ‖asComplex z‖
  square : ∀ x, |m.square x - x ^ 2| ≤ 1 / 2 ^ 52 * x ^ 2
  angle : ∀ z, |(m.angle z : ℝ) - (asComplex z).arg| ≤ 1 / 2 ^ 51
  half_turn : ∀ z, |m.angle z| ≤ piF

/-! ## Relative errors -/

/-- `x` is `y` up to `n` roundings. -/
def Rounded (n : ℕ) (x y : ℝ) : Prop := |x - y| ≤ ((1 + 1 / 2 ^ 53) ^ n - 1) * |y|

theorem Rounded.size {n : ℕ} {x y : ℝ} (h : Rounded n x y) : |x| ≤ (1 + 1 / 2 ^ 53) ^ n * |y| := by
  unfold Rounded at h
  have := abs_add_le (x - y) y
  rw [sub_add_cancel] at this
  linarith

theorem one_le_grow (n : ℕ) : (1 : ℝ) ≤ (1 + 1 / 2 ^ 53) ^ n := one_le_pow₀ (by norm_num)

theorem Rounded.trans {n k : ℕ} {x y z : ℝ} (h : Rounded n x y) (h' : Rounded k y z) : Rounded (n + k) x z := by
  have h1 := h'.size
  unfold Rounded at *
  have h2 := abs_sub_le x y z
  have h3 : ((1 + 1 / 2 ^ 53 : ℝ) ^ n - 1) * |y| ≤ ((1 + 1 / 2 ^ 53) ^ n - 1) * ((1 + 1 / 2 ^ 53) ^ k * |z|) :=
    mul_le_mul_of_nonneg_left h1 (by linarith [one_le_grow n])
  rw [pow_add]
  linarith

theorem Rounded.mul {n k : ℕ} {x y x' y' : ℝ} (h : Rounded n x y) (h' : Rounded k x' y') : Rounded (n + k) (x * x') (y * y') := by
  have h1 := h'.size
  unfold Rounded at *
  have e : x * x' - y * y' = (x - y) * x' + y * (x' - y') := by ring
  rw [e]
  refine (abs_add_le _ _).trans ?_
  rw [abs_mul, abs_mul, abs_mul y y', pow_add]
  have a1 : |x - y| * |x'| ≤ (((1 + 1 / 2 ^ 53) ^ n - 1) * |y|) * ((1 + 1 / 2 ^ 53) ^ k * |y'|) :=
    mul_le_mul h h1 (abs_nonneg _) (mul_nonneg (by linarith [one_le_grow n]) (abs_nonneg _))
  have a2 : |y| * |x' - y'| ≤ |y| * (((1 + 1 / 2 ^ 53) ^ k - 1) * |y'|) := mul_le_mul_of_nonneg_left h' (abs_nonneg _)
  nlinarith

theorem rounded_fl (x : ℚ) : Rounded 1 (fl x : ℝ) (x : ℝ) := by
  have := fl_near x
  unfold Rounded
  rw [unit_small] at this
  have h : ((|fl x - x| : ℚ) : ℝ) ≤ ((|x| * (1 / 2 ^ 53) : ℚ) : ℝ) := by exact_mod_cast this
  push_cast at h
  rw [pow_one]
  linarith

theorem rounded_two {x y : ℝ} (h : |x - y| ≤ 1 / 2 ^ 52 * |y|) : Rounded 2 x y := by
  unfold Rounded
  refine h.trans (mul_le_mul_of_nonneg_right ?_ (abs_nonneg _))
  norm_num

/-! ## Resistivity -/

theorem componentF_ok {re im : List ℚ} (h : re.length = im.length) : componentF re im = .ok (List.zip re im) := by simp [componentF, h]

/-- **C90**. The apparent resistivity of every period is `|Z|² / (5 f)` up to eleven parts in 2^53; it is not negative, and zero exactly for an impedance of zero. -/
theorem C90_resistivity (m : AngleMath) (hm : m.Accurate) (freqs re im : List ℚ) (hf : ∀ f ∈ freqs, 0 < f) (h1 : re.length = freqs.length)
    (h2 : im.length = freqs.length) :
    ∃ rho, getResistivityF m (periodsF freqs) re im = .ok rho ∧ rho.length = freqs.length ∧
      ∀ (k : ℕ) (f x y r : ℚ), freqs[k]? = some f → re[k]? = some x → im[k]? = some y → rho[k]? = some r →
        |(r : ℝ) - ‖asComplex (x, y)‖ ^ 2 / (5 * f)| ≤ 11 / 2 ^ 53 * (‖asComplex (x, y)‖ ^ 2 / (5 * f)) ∧ 0 ≤ r ∧ (r = 0 ↔ x = 0 ∧ y = 0) := by
  have hlen : (periodsF freqs).length = (List.zip re im).length := by simp [periodsF, h1, h2]
  refine ⟨List.zipWith (fun T w => fl (fl (fl (1 / 5) * T) * m.square (m.absolute w))) (periodsF freqs) (List.zip re im), ?_, ?_, ?_⟩
  · unfold getResistivityF
    simp only [componentF_ok (h1.trans h2.symm), bind, Except.bind]
    rw [if_neg (by simpa using hlen)]
  · simp [periodsF, h1, h2]
  intro k f x y r hk hx hy hr
  have hfpos := hf f (List.mem_of_getElem? hk)
  have hz : (List.zip re im)[k]? = some (x, y) := by rw [List.getElem?_zip_eq_some]; exact ⟨hx, hy⟩
  have hp : (periodsF freqs)[k]? = some (fl (1 / f)) := by simp [periodsF, hk]
  rw [List.getElem?_zipWith, hp, hz] at hr
  simp only [Option.some.injEq] at hr
  subst hr
  generalize hw : (x, y) = w
  have ha : Rounded 2 (m.absolute w : ℝ) ‖asComplex w‖ := rounded_two (by rw [abs_of_nonneg (norm_nonneg _)]; exact hm.absolute w)
  have hsq : Rounded 2 (m.square (m.absolute w) : ℝ) ((m.absolute w : ℝ) ^ 2) := by
    refine rounded_two ?_
    rw [abs_of_nonneg (sq_nonneg (m.absolute w : ℝ))]
    have h := (Rat.cast_le (K := ℝ)).2 (hm.square (m.absolute w))
    push_cast at h
    exact h
  have hsq' : Rounded (2 + (2 + 2)) (m.square (m.absolute w) : ℝ) (‖asComplex w‖ ^ 2) := by
    refine hsq.trans ?_
    rw [pow_two, pow_two]
    exact ha.mul ha
  have ht : Rounded (1 + (1 + 1)) (fl (fl (1 / 5) * fl (1 / f)) : ℝ) (((1 / 5 : ℚ) : ℝ) * ((1 / f : ℚ) : ℝ)) := by
    refine (rounded_fl _).trans ?_
    rw [Rat.cast_mul]
    exact (rounded_fl _).mul (rounded_fl _)
  have hall : Rounded (1 + ((1 + (1 + 1)) + (2 + (2 + 2)))) (fl (fl (fl (1 / 5) * fl (1 / f)) * m.square (m.absolute w)) : ℝ)
      (((1 / 5 : ℚ) : ℝ) * ((1 / f : ℚ) : ℝ) * ‖asComplex w‖ ^ 2) := by
    refine (rounded_fl _).trans ?_
    rw [Rat.cast_mul]
    exact ht.mul hsq'
  have hfR : (0 : ℝ) < f := by exact_mod_cast hfpos
  have e : ((1 / 5 : ℚ) : ℝ) * ((1 / f : ℚ) : ℝ) * ‖asComplex w‖ ^ 2 = ‖asComplex w‖ ^ 2 / (5 * f) := by
    push_cast
    field_simp
  rw [e] at hall
  have hpos : 0 ≤ ‖asComplex w‖ ^ 2 / (5 * (f : ℝ)) := by positivity
  have hb : |(fl (fl (fl (1 / 5) * fl (1 / f)) * m.square (m.absolute w)) : ℝ) - ‖asComplex w‖ ^ 2 / (5 * f)| ≤ 11 / 2 ^ 53 * (‖asComplex w‖ ^ 2 / (5 * f)) := by
    unfold Rounded at hall
    rw [abs_of_nonneg hpos] at hall
    refine hall.trans (mul_le_mul_of_nonneg_right ?_ hpos)
    norm_num
  refine ⟨hb, ?_, ?_⟩
  · have := (abs_le.1 hb).1
    have h0 : (0 : ℝ) ≤ (fl (fl (fl (1 / 5) * fl (1 / f)) * m.square (m.absolute w)) : ℝ) := by
      have : (11 / 2 ^ 53 : ℝ) ≤ 1 := by norm_num
      nlinarith
    exact_mod_cast h0
  · have hzero : ‖asComplex w‖ = 0 ↔ x = 0 ∧ y = 0 := by
      rw [norm_eq_zero, ← hw, asComplex, Complex.ext_iff]
      simp
    rw [← hzero]
    constructor
    · intro h
      rw [h, Rat.cast_zero, zero_sub, abs_neg, abs_of_nonneg hpos] at hb
      by_contra hne
      have hpos' : 0 < ‖asComplex w‖ ^ 2 / (5 * (f : ℝ)) := by
        have : 0 < ‖asComplex w‖ := lt_of_le_of_ne (norm_nonneg _) (Ne.symm hne)
        positivity
      have : (11 / 2 ^ 53 : ℝ) < 1 := by norm_num
      nlinarith
    · intro h
      rw [h] at hb
      have : (fl (fl (fl (1 / 5) * fl (1 / f)) * m.square (m.absolute w)) : ℝ) = 0 := by simpa using hb
      exact_mod_cast this

/-! ## Unwrapping -/

theorem piF_bits : Bits53 piF := ⟨884279719003555, -48, by norm_num, by unfold piF; norm_num⟩

theorem two_piF_bits : Bits53 (2 * piF) := ⟨884279719003555, -47, by norm_num, by unfold piF; norm_num⟩

theorem piF_pos : 0 < piF := by unfold piF; norm_num

theorem piF_bounds : 3 < piF ∧ piF < 13 / 4 := by unfold piF; norm_num

theorem pi_near : |Real.pi - (piF : ℝ)| ≤ 1 / 2 ^ 52 := by
  have h1 := Real.pi_gt_d20
  have h2 := Real.pi_lt_d20
  unfold piF
  push_cast
  rw [abs_le]
  constructor
  · have : (-(1 / 2 ^ 52) : ℝ) ≤ 3.14159265358979323846 - 884279719003555 / 2 ^ 48 := by norm_num
    linarith
  · have : (3.14159265358979323847 - 884279719003555 / 2 ^ 48 : ℝ) ≤ 1 / 2 ^ 52 := by norm_num
    linarith

theorem fl_le_abs {x r : ℚ} (hr : Bits53 r) (h : |x| ≤ r) : |fl x| ≤ r := by
  rw [fl_abs]
  exact fl_le_of_le hr h

theorem fl_err {x b : ℚ} (h : |x| ≤ b) : |fl x - x| ≤ b / 2 ^ 53 := by
  have := fl_near x
  rw [unit_small] at this
  linarith

/-- A correction is a whole number of turns, and what it leaves of the jump is at most half a turn, both up to 1/2^48. -/
theorem unwrapCorrectF_spec (dd : ℚ) (h : |dd| ≤ 2 * piF) :
    (∃ j : ℤ, |j| ≤ 1 ∧ |unwrapCorrectF dd - j * (2 * piF)| ≤ 1 / 2 ^ 48) ∧ |dd + unwrapCorrectF dd| ≤ piF + 1 / 2 ^ 48 := by
  obtain ⟨p1, p2⟩ := piF_bounds
  by_cases hlt : |dd| < piF
  · have e : unwrapCorrectF dd = 0 := by simp [unwrapCorrectF, hlt]
    rw [e]
    exact ⟨⟨0, by norm_num, by norm_num⟩, by rw [add_zero]; linarith⟩
  have hc : unwrapCorrectF dd = fl (jumpSignF dd - dd) := by simp [unwrapCorrectF, hlt]
  rw [hc]
  push Not at hlt
  obtain ⟨d1, d2⟩ := abs_le.1 h
  rcases le_total 0 dd with h0 | h0
  · rw [abs_of_nonneg h0] at hlt
    -- the sum with half a turn is at least a whole turn
    have a1 : 2 * piF ≤ fl (dd + piF) := le_fl_of_le two_piF_bits (by linarith)
    have a2 := fl_err (show |dd + piF| ≤ 10 by rw [abs_of_nonneg (by linarith)]; linarith)
    rw [abs_le] at a2
    generalize hA : fl (dd + piF) = a at *
    have hrem : remF a (2 * piF) = a - 2 * piF := by
      have hq : ⌊a / (2 * piF)⌋ = 1 := by
        rw [Int.floor_eq_iff]
        constructor
        · rw [Int.cast_one, le_div_iff₀ (by linarith)]; linarith
        · rw [Int.cast_one, div_lt_iff₀ (by linarith)]; norm_num at a2 ⊢; linarith
      unfold remF
      rw [if_pos (by linarith), hq]
      norm_num
    have hmod : modF a (2 * piF) = a - 2 * piF := by
      unfold modF
      rw [hrem, if_neg (by linarith)]
    have hj : jumpF dd = fl (a - 2 * piF - piF) := by unfold jumpF; rw [hA, hmod]
    have b1 := fl_err (show |a - 2 * piF - piF| ≤ 4 by rw [abs_le]; norm_num at a2 ⊢; constructor <;> linarith)
    rw [← hj, abs_le] at b1
    by_cases hs : jumpF dd = -piF
    · have e : jumpSignF dd = piF := by unfold jumpSignF; rw [if_pos ⟨hs, by linarith⟩]
      rw [e]
      rw [hs] at b1
      have c0 : |piF - dd| ≤ 14 / 2 ^ 53 := by
        rw [abs_le]
        norm_num at a2 b1 ⊢
        constructor <;> linarith
      have c1 := fl_err c0
      rw [abs_le] at c0 c1
      refine ⟨⟨0, by norm_num, ?_⟩, ?_⟩
      · rw [Int.cast_zero, zero_mul, sub_zero, abs_le]
        norm_num at c0 c1 ⊢
        constructor <;> linarith
      · rw [abs_le]
        norm_num at c0 c1 ⊢
        constructor <;> linarith
    · have e : jumpSignF dd = jumpF dd := by unfold jumpSignF; rw [if_neg (by tauto)]
      rw [e]
      have c0 : |jumpF dd - dd| ≤ 7 := by
        rw [abs_le]
        norm_num at a2 b1 ⊢
        constructor <;> linarith
      have c1 := fl_err c0
      rw [abs_le] at c1
      refine ⟨⟨-1, by norm_num, ?_⟩, ?_⟩
      · rw [abs_le]
        push_cast
        norm_num at a2 b1 c1 ⊢
        constructor <;> linarith
      · rw [abs_le]
        norm_num at a2 b1 c1 ⊢
        constructor <;> linarith
  · rw [abs_of_nonpos h0] at hlt
    have e : jumpSignF dd = jumpF dd := by unfold jumpSignF; rw [if_neg (by intro hh; linarith [hh.2])]
    rw [e]
    have a1 : fl (dd + piF) ≤ 0 := fl_le_of_le (r := 0) ⟨0, 0, by norm_num, by simp⟩ (by linarith)
    have a3 : -piF ≤ fl (dd + piF) := le_fl_of_le (by obtain ⟨k, e, hk, hp⟩ := piF_bits; exact ⟨-k, e, by rw [abs_neg]; exact hk, by rw [hp]; push_cast; ring⟩) (by linarith)
    have a2 := fl_err (show |dd + piF| ≤ 4 by rw [abs_of_nonpos (by linarith)]; linarith)
    have a4 := fl_near (dd + piF)
    rw [abs_le] at a2
    generalize hA : fl (dd + piF) = a at *
    rcases eq_or_lt_of_le a1 with ha | ha
    · have hdd : dd = -piF := by
        rw [ha, zero_sub, abs_neg, unit_small] at a4
        have := abs_nonneg (dd + piF)
        have h9 : |dd + piF| = 0 := by norm_num at a4; linarith
        linarith [abs_eq_zero.1 h9]
      have hmod : modF a (2 * piF) = 0 := by simp [modF, remF, ha]
      have hj : jumpF dd = -piF := by
        unfold jumpF
        rw [hA, hmod, zero_sub, fl_opposite, piF_bits.fl_eq]
      rw [hj, hdd]
      simp only [sub_self, fl_zero, add_zero, abs_neg]
      rw [abs_of_pos piF_pos]
      exact ⟨⟨0, by norm_num, by norm_num⟩, by norm_num⟩
    · have hrem : remF a (2 * piF) = a := by
        have hq : ⌈a / (2 * piF)⌉ = 0 := by
          rw [Int.ceil_eq_iff]
          constructor
          · rw [Int.cast_zero, zero_sub, lt_div_iff₀ (by linarith)]; linarith
          · rw [Int.cast_zero, div_le_iff₀ (by linarith)]; linarith
        unfold remF
        rw [if_neg (by linarith), hq]
        norm_num
      have hmod : modF a (2 * piF) = fl (a + 2 * piF) := by
        unfold modF
        rw [hrem, if_pos ha]
      have hj : jumpF dd = fl (fl (a + 2 * piF) - piF) := by unfold jumpF; rw [hA, hmod]
      have b1 := fl_err (show |a + 2 * piF| ≤ 7 by rw [abs_le]; constructor <;> linarith)
      rw [abs_le] at b1
      have b2 := fl_err (show |fl (a + 2 * piF) - piF| ≤ 4 by rw [abs_le]; norm_num at b1 ⊢; constructor <;> linarith)
      rw [← hj, abs_le] at b2
      have c0 : |jumpF dd - dd| ≤ 7 := by
        rw [abs_le]
        norm_num at a2 b1 b2 ⊢
        constructor <;> linarith
      have c1 := fl_err c0
      rw [abs_le] at c1
      refine ⟨⟨1, by norm_num, ?_⟩, ?_⟩
      · rw [abs_le]
        push_cast
        norm_num at a2 b1 b2 c1 ⊢
        constructor <;> linarith
      · rw [abs_le]
        norm_num at a2 b1 b2 c1 ⊢
        constructor <;> linarith

theorem bits_bound {n : ℕ} (h : n ≤ 2 ^ 20) : ((n : ℚ)) ^ 2 / 2 ^ 47 ≤ 1 / 2 ^ 7 := by
  have h1 : (n : ℚ) ≤ 2 ^ 20 := by exact_mod_cast h
  have h2 : (n : ℚ) ^ 2 ≤ (2 ^ 20) ^ 2 := pow_le_pow_left₀ (by positivity) h1 2
  norm_num at h2 ⊢
  linarith

theorem turns_bound {J : ℤ} {n : ℕ} (h : |J| ≤ n) : |(J : ℚ) * (2 * piF)| ≤ 13 / 2 * n := by
  rw [abs_mul, abs_of_pos (by linarith [piF_pos] : 0 < 2 * piF)]
  have h1 : |(J : ℚ)| ≤ n := by exact_mod_cast h
  have h2 : |(J : ℚ)| * (2 * piF) ≤ n * (2 * piF) := mul_le_mul_of_nonneg_right h1 (by linarith [piF_pos])
  have h3 : (n : ℚ) * (2 * piF) ≤ n * (13 / 2) := mul_le_mul_of_nonneg_left (by linarith [piF_bounds.2]) (by positivity)
  linarith

/-- Unwrapping after `n` phases: whole turns `J` accumulated in `acc`, the last result `y0`. -/
theorem unwrapFromF_spec (xs : List ℚ) : ∀ (n : ℕ) (prev acc y0 : ℚ) (J : ℤ), |prev| ≤ piF → |J| ≤ n → |acc - J * (2 * piF)| ≤ (n : ℚ) ^ 2 / 2 ^ 47 →
    |y0 - (prev + acc)| ≤ (8 * n + 16) / 2 ^ 53 → n + xs.length ≤ 2 ^ 20 → (∀ x ∈ xs, |x| ≤ piF) →
    (unwrapFromF prev acc xs).length = xs.length ∧
    (∀ (k : ℕ) (x y : ℚ), xs[k]? = some x → (unwrapFromF prev acc xs)[k]? = some y →
      ∃ j : ℤ, |j| ≤ n + k + 1 ∧ |y - (x + j * (2 * piF))| ≤ ((n : ℚ) + k + 2) ^ 2 / 2 ^ 47) ∧
    (∀ (k : ℕ) (y y' : ℚ), (y0 :: unwrapFromF prev acc xs)[k]? = some y → (y0 :: unwrapFromF prev acc xs)[k + 1]? = some y' →
      |y' - y| ≤ piF + ((n : ℚ) + k + 4) / 2 ^ 47) := by
  induction xs with
  | nil => intro n prev acc y0 J _ _ _ _ _ _; simp [unwrapFromF]
  | cons x xs ih =>
    intro n prev acc y0 J hprev hJ hacc hy0 hn hxs
    obtain ⟨p1, p2⟩ := piF_bounds
    have hx : |x| ≤ piF := hxs x (by simp)
    have hn' : n + 1 ≤ 2 ^ 20 := by rw [List.length_cons] at hn; omega
    have hdd : |x - prev| ≤ 2 * piF := by
      have := abs_sub x prev
      linarith
    have d1 := fl_err (show |x - prev| ≤ 7 by linarith)
    obtain ⟨⟨j, j1, j2⟩, j3⟩ := unwrapCorrectF_spec (fl (x - prev)) (fl_le_abs two_piF_bits hdd)
    simp only [unwrapFromF]
    generalize hdd' : fl (x - prev) = dd at *
    generalize hcorr : unwrapCorrectF dd = corr at *
    have hJ' : |J + j| ≤ ((n + 1 : ℕ) : ℤ) := by
      have := abs_add_le J j
      push_cast
      linarith
    have hnn : (0 : ℚ) ≤ n := by positivity
    have b0 := bits_bound (le_trans (Nat.le_succ n) hn')
    have t1 := turns_bound hJ'
    push_cast at t1
    have hsum : |acc + corr - ((J + j : ℤ) : ℚ) * (2 * piF)| ≤ (n : ℚ) ^ 2 / 2 ^ 47 + 1 / 2 ^ 48 := by
      have e : acc + corr - ((J + j : ℤ) : ℚ) * (2 * piF) = (acc - J * (2 * piF)) + (corr - j * (2 * piF)) := by push_cast; ring
      rw [e]
      exact (abs_add_le _ _).trans (add_le_add hacc j2)
    have hsize : |acc + corr| ≤ 7 * n + 8 := by
      have := abs_add_le (acc + corr - ((J + j : ℤ) : ℚ) * (2 * piF)) (((J + j : ℤ) : ℚ) * (2 * piF))
      rw [sub_add_cancel] at this
      push_cast at this hsum
      norm_num at b0 hsum ⊢
      linarith
    have r1 := fl_err hsize
    generalize hacc' : fl (acc + corr) = acc' at *
    have hacc2 : |acc' - ((J + j : ℤ) : ℚ) * (2 * piF)| ≤ (((n + 1 : ℕ) : ℚ)) ^ 2 / 2 ^ 47 := by
      have e : acc' - ((J + j : ℤ) : ℚ) * (2 * piF) = (acc' - (acc + corr)) + (acc + corr - ((J + j : ℤ) : ℚ) * (2 * piF)) := by ring
      rw [e]
      refine (abs_add_le _ _).trans ((add_le_add r1 hsum).trans ?_)
      push_cast
      norm_num
      nlinarith
    have b1 := bits_bound hn'
    have hsize2 : |x + acc'| ≤ 8 * n + 16 := by
      have s1 := abs_add_le (acc' - ((J + j : ℤ) : ℚ) * (2 * piF)) (((J + j : ℤ) : ℚ) * (2 * piF))
      rw [sub_add_cancel] at s1
      have s2 := abs_add_le x acc'
      push_cast at s1 hacc2 b1
      norm_num at b1 hacc2 ⊢
      linarith
    have r2 := fl_err hsize2
    generalize hy : fl (x + acc') = y1 at *
    have hy1 : |y1 - (x + acc')| ≤ (8 * ((n + 1 : ℕ) : ℚ) + 16) / 2 ^ 53 := by
      refine r2.trans ?_
      push_cast
      norm_num
      linarith
    obtain ⟨i1, i2, i3⟩ := ih (n + 1) x acc' y1 (J + j) hx hJ' hacc2 hy1 (by rw [List.length_cons] at hn; omega) (fun z hz => hxs z (by simp [hz]))
    refine ⟨by simp [i1], ?_, ?_⟩
    · intro k a y ha hy'
      cases k with
      | zero =>
        simp only [List.getElem?_cons_zero, Option.some.injEq] at ha hy'
        subst ha hy'
        refine ⟨J + j, by push_cast at hJ' ⊢; linarith, ?_⟩
        have e : y1 - (x + ((J + j : ℤ) : ℚ) * (2 * piF)) = (y1 - (x + acc')) + (acc' - ((J + j : ℤ) : ℚ) * (2 * piF)) := by ring
        rw [e]
        refine (abs_add_le _ _).trans ((add_le_add r2 hacc2).trans ?_)
        push_cast
        norm_num
        nlinarith
      | succ k =>
        obtain ⟨j', k1, k2⟩ := i2 k a y (by simpa using ha) (by simpa using hy')
        refine ⟨j', ?_, ?_⟩
        · push_cast at k1 ⊢; linarith
        · refine k2.trans (le_of_eq ?_)
          push_cast
          ring
    · intro k y y' hk hk'
      cases k with
      | zero =>
        simp only [List.getElem?_cons_zero, Option.some.injEq, zero_add, List.getElem?_cons_succ] at hk hk'
        subst hk hk'
        have e : y1 - y0 = (y1 - (x + acc')) - (y0 - (prev + acc)) + (acc' - (acc + corr)) - (dd - (x - prev)) + (dd + corr) := by ring
        rw [e]
        have q1 := abs_le.1 r2
        have q2 := abs_le.1 hy0
        have q3 := abs_le.1 r1
        have q4 := abs_le.1 d1
        have q5 := abs_le.1 j3
        rw [abs_le]
        push_cast
        norm_num at q1 q2 q3 q4 q5 ⊢
        constructor <;> linarith
      | succ k =>
        have := i3 k y y' (by simpa using hk) (by simpa using hk')
        refine this.trans (le_of_eq ?_)
        push_cast
        ring

/-- `np.unwrap` in floating point numbers: the same phases up to whole turns, no jump larger than half a turn, both up to rounding errors. -/
theorem unwrapF_spec (xs : List ℚ) (hn : xs.length ≤ 2 ^ 20) (hxs : ∀ x ∈ xs, |x| ≤ piF) :
    (unwrapF xs).length = xs.length ∧ (unwrapF xs)[0]? = xs[0]? ∧
    (∀ (k : ℕ) (x y : ℚ), xs[k]? = some x → (unwrapF xs)[k]? = some y → ∃ j : ℤ, |j| ≤ k ∧ |y - (x + j * (2 * piF))| ≤ ((k : ℚ) + 1) ^ 2 / 2 ^ 47) ∧
    (∀ (k : ℕ) (y y' : ℚ), (unwrapF xs)[k]? = some y → (unwrapF xs)[k + 1]? = some y' → |y' - y| ≤ piF + ((k : ℚ) + 4) / 2 ^ 47) := by
  cases xs with
  | nil => simp [unwrapF]
  | cons x xs =>
    obtain ⟨h1, h2, h3⟩ := unwrapFromF_spec xs 0 x 0 x 0 (hxs x (by simp)) (by simp) (by simp) (by norm_num) (by rw [List.length_cons] at hn; omega)
      (fun z hz => hxs z (by simp [hz]))
    simp only [unwrapF]
    refine ⟨by simp [h1], rfl, ?_, ?_⟩
    · intro k a y ha hy
      cases k with
      | zero =>
        simp only [List.getElem?_cons_zero, Option.some.injEq] at ha hy
        exact ⟨0, by simp, by rw [← ha, ← hy]; simp⟩
      | succ k =>
        obtain ⟨j, k1, k2⟩ := h2 k a y (by simpa using ha) (by simpa using hy)
        refine ⟨j, by push_cast at k1 ⊢; linarith, k2.trans (le_of_eq ?_)⟩
        push_cast
        ring
    · intro k y y' hk hk'
      refine (h3 k y y' hk hk').trans (le_of_eq ?_)
      push_cast
      ring

/-! ## Degrees -/

theorem rounded_inv_pi : Rounded 1 (1 / (piF : ℝ)) (1 / Real.pi) := by
  have h1 := pi_near
  have hp : (3 : ℝ) < piF := by exact_mod_cast piF_bounds.1
  have hpi := Real.pi_pos
  unfold Rounded
  have e : 1 / (piF : ℝ) - 1 / Real.pi = (Real.pi - piF) / piF * (1 / Real.pi) := by field_simp
  rw [e, abs_mul, pow_one, add_sub_cancel_left]
  refine mul_le_mul_of_nonneg_right ?_ (abs_nonneg _)
  rw [abs_div, abs_of_pos (by linarith : (0 : ℝ) < piF), div_le_iff₀ (by linarith)]
  norm_num at h1 ⊢
  linarith

theorem rounded_degrees (x : ℚ) : Rounded (1 + (1 + 1)) (degreesF x : ℝ) ((x : ℝ) * (180 / Real.pi)) := by
  unfold degreesF
  refine (rounded_fl _).trans ?_
  have := (rounded_fl (x * 180)).mul rounded_inv_pi
  rw [Rat.cast_div, div_eq_mul_one_div]
  have e : (x : ℝ) * (180 / Real.pi) = ((x * 180 : ℚ) : ℝ) * (1 / Real.pi) := by push_cast; ring
  rw [e]
  exact this

theorem degree_bounds : 0 < 180 / Real.pi ∧ 180 / Real.pi ≤ 60 := by
  have := Real.pi_gt_three
  refine ⟨by positivity, ?_⟩
  rw [div_le_iff₀ (by positivity)]
  linarith

theorem degrees_close {x : ℚ} {b : ℝ} (h : |(x : ℝ)| ≤ b) : |(degreesF x : ℝ) - (x : ℝ) * (180 / Real.pi)| ≤ 240 / 2 ^ 53 * b := by
  have h1 := rounded_degrees x
  unfold Rounded at h1
  obtain ⟨d1, d2⟩ := degree_bounds
  refine h1.trans ?_
  rw [abs_mul, abs_of_pos d1]
  have h2 : |(x : ℝ)| * (180 / Real.pi) ≤ b * 60 := mul_le_mul h d2 d1.le (le_trans (abs_nonneg _) h)
  have h3 : ((1 + 1 / 2 ^ 53 : ℝ) ^ (1 + (1 + 1)) - 1) ≤ 4 / 2 ^ 53 := by norm_num
  have h4 : 0 ≤ |(x : ℝ)| * (180 / Real.pi) := mul_nonneg (abs_nonneg _) d1.le
  calc _ ≤ 4 / 2 ^ 53 * (|(x : ℝ)| * (180 / Real.pi)) := mul_le_mul_of_nonneg_right h3 h4
    _ ≤ 4 / 2 ^ 53 * (b * 60) := mul_le_mul_of_nonneg_left h2 (by norm_num)
    _ = _ := by ring

/-- the unwrapped phases against the angles of the impedances -/
theorem unwrapped_close (m : AngleMath) (hm : m.Accurate) (z : ℚ × ℚ) (k : ℕ) (hk : k ≤ 2 ^ 20) (y : ℚ) (j : ℤ) (hj : |j| ≤ k)
    (h : |y - (m.angle z + j * (2 * piF))| ≤ ((k : ℚ) + 1) ^ 2 / 2 ^ 47) :
    |(y : ℝ) - ((asComplex z).arg + j * (2 * Real.pi))| ≤ ((k : ℝ) + 1) ^ 2 / 2 ^ 46 ∧ |(y : ℝ)| ≤ 8 * (k + 1) := by
  have h1 : |(y : ℝ) - (m.angle z + j * (2 * piF))| ≤ ((k : ℝ) + 1) ^ 2 / 2 ^ 47 := by
    have h := (Rat.cast_le (K := ℝ)).2 h
    push_cast at h
    exact h
  have h2 := hm.angle z
  have hpi := pi_near
  have hjR : |(j : ℝ)| ≤ k := by exact_mod_cast hj
  have h3 : |(j : ℝ) * (2 * (piF : ℝ)) - j * (2 * Real.pi)| ≤ k * (1 / 2 ^ 51) := by
    rw [← mul_sub, abs_mul]
    refine mul_le_mul hjR ?_ (abs_nonneg _) (by positivity)
    rw [← mul_sub, abs_mul, abs_sub_comm]
    norm_num at hpi ⊢
    linarith
  have hk0 : (0 : ℝ) ≤ k := by positivity
  have h4 : |(y : ℝ) - ((asComplex z).arg + j * (2 * Real.pi))| ≤ ((k : ℝ) + 1) ^ 2 / 2 ^ 46 := by
    have e : (y : ℝ) - ((asComplex z).arg + j * (2 * Real.pi)) = (y - (m.angle z + j * (2 * piF))) + (m.angle z - (asComplex z).arg) +
        (j * (2 * (piF : ℝ)) - j * (2 * Real.pi)) := by ring
    rw [e]
    refine (abs_add_le _ _).trans ((add_le_add ((abs_add_le _ _).trans (add_le_add h1 h2)) h3).trans ?_)
    norm_num
    nlinarith
  refine ⟨h4, ?_⟩
  have harg := Complex.abs_arg_le_pi (asComplex z)
  have hp : Real.pi < 3.15 := Real.pi_lt_d2
  have h5 : |(j : ℝ) * (2 * Real.pi)| ≤ k * 6.3 := by
    rw [abs_mul, abs_of_pos (by positivity : 0 < 2 * Real.pi)]
    exact mul_le_mul hjR (by linarith) (by positivity) hk0
  have h6 := abs_add_le ((asComplex z).arg) (j * (2 * Real.pi))
  have h7 := abs_add_le ((y : ℝ) - ((asComplex z).arg + j * (2 * Real.pi))) ((asComplex z).arg + j * (2 * Real.pi))
  rw [sub_add_cancel] at h7
  have h8 : ((k : ℝ) + 1) ^ 2 / 2 ^ 46 ≤ 1 := by
    have : (k : ℝ) ≤ 2 ^ 20 := by exact_mod_cast hk
    have : ((k : ℝ) + 1) ^ 2 ≤ (2 ^ 20 + 1) ^ 2 := pow_le_pow_left₀ (by positivity) (by linarith) 2
    norm_num at this ⊢
    linarith
  linarith

/-- the facts about the phases in degrees -/
theorem degrees_spec (m : AngleMath) (hm : m.Accurate) (zs : List (ℚ × ℚ)) (hn : zs.length ≤ 2 ^ 20) :
    ((unwrapF (zs.map m.angle)).map degreesF).length = zs.length ∧
      (∀ (k : ℕ) (z : ℚ × ℚ) (p : ℚ), zs[k]? = some z → ((unwrapF (zs.map m.angle)).map degreesF)[k]? = some p →
        ∃ j : ℤ, |j| ≤ k ∧ |(p : ℝ) - ((asComplex z).arg * (180 / Real.pi) + j * 360)| ≤ ((k : ℝ) + 1) ^ 2 / 2 ^ 39) ∧
      (∀ (k : ℕ) (p p' : ℚ), ((unwrapF (zs.map m.angle)).map degreesF)[k]? = some p → ((unwrapF (zs.map m.angle)).map degreesF)[k + 1]? = some p' →
        |(p' : ℝ) - p| ≤ 180 + ((k : ℝ) + 4) / 2 ^ 39) := by
  obtain ⟨u1, -, u3, u4⟩ := unwrapF_spec (zs.map m.angle) (by simpa using hn) (by
    intro x hx
    obtain ⟨z, -, rfl⟩ := List.mem_map.1 hx
    exact hm.half_turn z)
  obtain ⟨d1, d2⟩ := degree_bounds
  rw [List.length_map] at u1
  have hat : ∀ (k : ℕ) (z : ℚ × ℚ) (y : ℚ), zs[k]? = some z → (unwrapF (zs.map m.angle))[k]? = some y → ∃ j : ℤ, |j| ≤ k ∧
      |(y : ℝ) - ((asComplex z).arg + j * (2 * Real.pi))| ≤ ((k : ℝ) + 1) ^ 2 / 2 ^ 46 ∧ |(y : ℝ)| ≤ 8 * (k + 1) := by
    intro k z y hz hy
    have hk : k < zs.length := (List.getElem?_eq_some_iff.1 hz).1
    obtain ⟨j, j1, j2⟩ := u3 k (m.angle z) y (by rw [List.getElem?_map, hz]; rfl) hy
    obtain ⟨c1, c2⟩ := unwrapped_close m hm z k (by omega) y j j1 j2
    exact ⟨j, j1, c1, c2⟩
  refine ⟨by rw [List.length_map, u1], ?_, ?_⟩
  · intro k z p hz hp
    rw [List.getElem?_map, Option.map_eq_some_iff] at hp
    obtain ⟨y, hy, rfl⟩ := hp
    obtain ⟨j, j1, c1, c2⟩ := hat k z y hz hy
    refine ⟨j, j1, ?_⟩
    have c3 := degrees_close c2
    have e : (degreesF y : ℝ) - ((asComplex z).arg * (180 / Real.pi) + j * 360) = ((degreesF y : ℝ) - y * (180 / Real.pi)) +
        ((y : ℝ) - ((asComplex z).arg + j * (2 * Real.pi))) * (180 / Real.pi) := by
      have := Real.pi_ne_zero
      field_simp
      ring
    rw [e]
    have c4 : |((y : ℝ) - ((asComplex z).arg + j * (2 * Real.pi))) * (180 / Real.pi)| ≤ ((k : ℝ) + 1) ^ 2 / 2 ^ 46 * 60 := by
      rw [abs_mul, abs_of_pos d1]
      exact mul_le_mul c1 d2 d1.le (by positivity)
    refine (abs_add_le _ _).trans ((add_le_add c3 c4).trans ?_)
    have hk0 : (0 : ℝ) ≤ k := by positivity
    norm_num
    nlinarith
  · intro k p p' hp hp'
    rw [List.getElem?_map, Option.map_eq_some_iff] at hp hp'
    obtain ⟨y, hy, rfl⟩ := hp
    obtain ⟨y', hy', rfl⟩ := hp'
    have hk1 : k + 1 < zs.length := by rw [← u1]; exact (List.getElem?_eq_some_iff.1 hy').1
    obtain ⟨-, -, -, c2⟩ := hat k zs[k] y (List.getElem?_eq_getElem (by omega)) hy
    obtain ⟨-, -, -, c2'⟩ := hat (k + 1) zs[k + 1] y' (List.getElem?_eq_getElem hk1) hy'
    have c3 := abs_le.1 (degrees_close c2)
    have c3' := abs_le.1 (degrees_close c2')
    have h5 : |(y' : ℝ) - y| ≤ piF + ((k : ℝ) + 4) / 2 ^ 47 := by
      have h := (Rat.cast_le (K := ℝ)).2 (u4 k y y' hy hy')
      push_cast at h
      exact h
    have hpi := abs_le.1 pi_near
    have h6 : |(y' : ℝ) - y| ≤ Real.pi + (1 / 2 ^ 52 + ((k : ℝ) + 4) / 2 ^ 47) := by linarith [hpi.1]
    have h7 : |((y' : ℝ) - y) * (180 / Real.pi)| ≤ 180 + (1 / 2 ^ 52 + ((k : ℝ) + 4) / 2 ^ 47) * 60 := by
      rw [abs_mul, abs_of_pos d1]
      refine (mul_le_mul_of_nonneg_right h6 d1.le).trans ?_
      rw [add_mul]
      have e1 : Real.pi * (180 / Real.pi) = 180 := by field_simp
      rw [e1]
      have : (1 / 2 ^ 52 + ((k : ℝ) + 4) / 2 ^ 47) * (180 / Real.pi) ≤ (1 / 2 ^ 52 + ((k : ℝ) + 4) / 2 ^ 47) * 60 :=
        mul_le_mul_of_nonneg_left d2 (by positivity)
      linarith
    have h8 := abs_le.1 h7
    have hk0 : (0 : ℝ) ≤ k := by positivity
    rw [abs_le]
    push_cast at c3'
    norm_num at c3 c3' h8 ⊢
    constructor <;> nlinarith

/-! ## Half a turn -/

theorem remF_spec (a b : ℚ) (hb : 0 < b) : ∃ m : ℤ, remF a b = a + m * b ∧ -b < remF a b ∧ remF a b < b ∧ (0 ≤ a → 0 ≤ remF a b) := by
  unfold remF
  split
  · rename_i h
    have h1 := Int.floor_le (a / b)
    have h2 := Int.lt_floor_add_one (a / b)
    rw [le_div_iff₀ hb] at h1
    rw [div_lt_iff₀ hb] at h2
    exact ⟨-⌊a / b⌋, by push_cast; ring, by nlinarith, by nlinarith, fun _ => by nlinarith⟩
  · rename_i h
    have h1 := Int.le_ceil (a / b)
    have h2 := Int.ceil_lt_add_one (a / b)
    rw [div_le_iff₀ hb] at h1
    have h3 : (⌈a / b⌉ : ℚ) - 1 < a / b := by linarith
    rw [lt_div_iff₀ hb] at h3
    exact ⟨-⌈a / b⌉, by push_cast; ring, by nlinarith, by nlinarith, fun h' => absurd h' h⟩

theorem int_bits (k : ℤ) (h : |k| < 2 ^ 53) : Bits53 (k : ℚ) := bits53_int h

theorem modF_spec (a : ℚ) : 0 ≤ modF a 360 ∧ modF a 360 ≤ 360 ∧ ∃ m : ℤ, |modF a 360 - (a + m * 360)| ≤ 360 / 2 ^ 53 := by
  obtain ⟨m, h1, h2, h3, h4⟩ := remF_spec a 360 (by norm_num)
  unfold modF
  split
  · rename_i h
    refine ⟨fl_nonneg (by linarith), ?_, m + 1, ?_⟩
    · exact_mod_cast fl_le_of_le (bits53_int (k := 360) (by norm_num)) (by push_cast; linarith)
    · have := fl_err (show |remF a 360 + 360| ≤ 360 by rw [abs_of_nonneg (by linarith)]; linarith)
      rw [show a + ((m + 1 : ℤ) : ℚ) * 360 = remF a 360 + 360 by rw [h1]; push_cast; ring]
      exact this
  · rename_i h
    push Not at h
    exact ⟨h, h3.le, m, by rw [h1]; norm_num⟩

theorem halfTurnF_spec (d : ℚ) : -180 ≤ halfTurnF d ∧ halfTurnF d ≤ 180 ∧ ∃ m : ℤ, |halfTurnF d - (d + 180 + m * 360)| ≤ 540 / 2 ^ 53 := by
  obtain ⟨h1, h2, m, h3⟩ := modF_spec d
  unfold halfTurnF
  refine ⟨?_, ?_, m - 1, ?_⟩
  · exact_mod_cast le_fl_of_le (bits53_int (k := -180) (by norm_num)) (by push_cast; linarith)
  · exact_mod_cast fl_le_of_le (bits53_int (k := 180) (by norm_num)) (by push_cast; linarith)
  · have := fl_err (show |modF d 360 - 180| ≤ 180 by rw [abs_le]; constructor <;> linarith)
    have h4 := abs_le.1 this
    have h5 := abs_le.1 h3
    push_cast
    rw [abs_le]
    norm_num at h4 h5 ⊢
    constructor <;> linarith

/-! ## The theorems -/

/-- **C90**. Phases of all components except `ExHx` and `ExHy`: the angle in degrees of each impedance up to whole turns (none for the first one), and no jump from one
period to the next exceeds 180 degrees, up to rounding errors that grow with the number of the period; for up to 2^20 periods. -/
theorem C90_phase (m : AngleMath) (hm : m.Accurate) (key : String) (hk : key ≠ "ExHx" ∧ key ≠ "ExHy") (re im : List ℚ) (hl : re.length = im.length)
    (hn : re.length ≤ 2 ^ 20) :
    ∃ phase, getPhaseF m key re im = .ok phase ∧ phase.length = re.length ∧
      (∀ (k : ℕ) (x y p : ℚ), re[k]? = some x → im[k]? = some y → phase[k]? = some p →
        ∃ j : ℤ, |j| ≤ k ∧ |(p : ℝ) - ((asComplex (x, y)).arg * (180 / Real.pi) + j * 360)| ≤ ((k : ℝ) + 1) ^ 2 / 2 ^ 39) ∧
      (∀ (k : ℕ) (p p' : ℚ), phase[k]? = some p → phase[k + 1]? = some p' → |(p' : ℝ) - p| ≤ 180 + ((k : ℝ) + 4) / 2 ^ 39) := by
  obtain ⟨s1, s2, s3⟩ := degrees_spec m hm (List.zip re im) (by simp; omega)
  refine ⟨_, ?_, s1.trans (by simp [hl]), ?_, s3⟩
  · unfold getPhaseF
    simp only [componentF_ok hl, bind, Except.bind]
    rw [if_neg (by simpa using hk)]
  · intro k x y p hx hy hp
    exact s2 k (x, y) p (by rw [List.getElem?_zip_eq_some]; exact ⟨hx, hy⟩) hp

/-- **C90**. Phases of `ExHx` and `ExHy` are the angles turned by half a turn, between -180 and 180 degrees, up to rounding errors. -/
theorem C90_phase_ex (m : AngleMath) (hm : m.Accurate) (key : String) (hk : key = "ExHx" ∨ key = "ExHy") (re im : List ℚ) (hl : re.length = im.length)
    (hn : re.length ≤ 2 ^ 20) :
    ∃ phase, getPhaseF m key re im = .ok phase ∧ phase.length = re.length ∧
      ∀ (k : ℕ) (x y p : ℚ), re[k]? = some x → im[k]? = some y → phase[k]? = some p → -180 ≤ p ∧ p ≤ 180 ∧
        ∃ j : ℤ, |(p : ℝ) - ((asComplex (x, y)).arg * (180 / Real.pi) + 180 + j * 360)| ≤ ((k : ℝ) + 1) ^ 2 / 2 ^ 38 := by
  obtain ⟨s1, s2, -⟩ := degrees_spec m hm (List.zip re im) (by simp; omega)
  refine ⟨((unwrapF ((List.zip re im).map m.angle)).map degreesF).map halfTurnF, ?_, by rw [List.length_map, s1]; simp [hl], ?_⟩
  · unfold getPhaseF
    simp only [componentF_ok hl, bind, Except.bind]
    rw [if_pos hk]
  · intro k x y p hx hy hp
    rw [List.getElem?_map, Option.map_eq_some_iff] at hp
    obtain ⟨d, hd, rfl⟩ := hp
    obtain ⟨j, -, h1⟩ := s2 k (x, y) d (by rw [List.getElem?_zip_eq_some]; exact ⟨hx, hy⟩) hd
    obtain ⟨h2, h3, j', h4⟩ := halfTurnF_spec d
    refine ⟨h2, h3, j + j', ?_⟩
    have h4' : |(halfTurnF d : ℝ) - (d + 180 + j' * 360)| ≤ 540 / 2 ^ 53 := by
      have h := (Rat.cast_le (K := ℝ)).2 h4
      push_cast at h
      exact h
    have e : (halfTurnF d : ℝ) - ((asComplex (x, y)).arg * (180 / Real.pi) + 180 + ((j + j' : ℤ) : ℝ) * 360) =
        ((halfTurnF d : ℝ) - (d + 180 + j' * 360)) + ((d : ℝ) - ((asComplex (x, y)).arg * (180 / Real.pi) + j * 360)) := by push_cast; ring
    rw [e]
    refine (abs_add_le _ _).trans ((add_le_add h4' h1).trans ?_)
    have hk0 : (0 : ℝ) ≤ k := by positivity
    norm_num
    nlinarith

/-- **C90**. Arrays of different lengths are refused. -/
theorem C90_lengths (m : AngleMath) (key : String) (periods re im : List ℚ) (h : re.length ≠ im.length) :
    getPhaseF m key re im = .error .value ∧ getResistivityF m periods re im = .error .value := by
  simp [getPhaseF, getResistivityF, componentF, h, bind, Except.bind]

theorem remF_small {d : ℚ} (h1 : -360 < d) (h2 : d < 0) : remF d 360 = d := by
  have hq : ⌈d / 360⌉ = 0 := by
    rw [Int.ceil_eq_iff]
    constructor
    · rw [Int.cast_zero, zero_sub, lt_div_iff₀ (by norm_num)]; linarith
    · rw [Int.cast_zero, div_le_iff₀ (by norm_num)]; linarith
  unfold remF
  rw [if_neg (by linarith), hq]
  norm_num

/-- **C90** (limit of the code). The phase of `ExHx` and `ExHy` reaches 180 degrees, which it does not in exact arithmetic (`C52_phase_ex`): every negative angle of at most
2^-45 degrees gives exactly 180, while an angle of zero gives -180. -/
theorem C90_both_ends (d : ℚ) (h1 : -(1 / 2 ^ 45) ≤ d) (h2 : d < 0) : halfTurnF d = 180 ∧ halfTurnF 0 = -180 := by
  have hd : -(1 : ℚ) ≤ d := by norm_num at h1 ⊢; linarith
  have h360 : fl (d + 360) = 360 := by
    refine le_antisymm ?_ ?_
    · exact_mod_cast fl_le_of_le (bits53_int (k := 360) (by norm_num)) (by push_cast; linarith)
    · have hlog : fl (360 - 1 / 2 ^ 45) = 360 := by decide +kernel
      have := fl_mono (show 360 - 1 / 2 ^ 45 ≤ d + 360 by linarith)
      rwa [hlog] at this
  refine ⟨?_, by decide +kernel⟩
  unfold halfTurnF modF
  rw [remF_small (by linarith) h2, if_pos h2, h360]
  decide +kernel

/-! Examples. -/

/-- Routines that are accurate exist. -/
theorem accurate_exists : ∃ m : AngleMath, m.Accurate := by
  have habs : ∀ z : ℚ × ℚ, ∃ q : ℚ, |(q : ℝ) - ‖asComplex z‖| ≤ 1 / 2 ^ 52 * ‖asComplex z‖ := by
    intro z
    rcases (norm_nonneg (asComplex z)).eq_or_lt with h | h
    · exact ⟨0, by rw [← h]; simp⟩
    · obtain ⟨q, q1, q2⟩ := exists_rat_btwn (show ‖asComplex z‖ - 1 / 2 ^ 52 * ‖asComplex z‖ < ‖asComplex z‖ by linarith [show 0 < 1 / 2 ^ 52 * ‖asComplex z‖ by positivity])
      exact ⟨q, by rw [abs_le]; constructor <;> linarith⟩
  have hang : ∀ z : ℚ × ℚ, ∃ q : ℚ, |(q : ℝ) - (asComplex z).arg| ≤ 1 / 2 ^ 51 ∧ |q| ≤ piF := by
    intro z
    have harg := abs_le.1 (Complex.abs_arg_le_pi (asComplex z))
    have hpi := abs_le.1 pi_near
    have hp := piF_pos
    obtain ⟨q, q1, q2⟩ := exists_rat_btwn (show (asComplex z).arg - 1 / 2 ^ 52 < (asComplex z).arg by linarith [show (0 : ℝ) < 1 / 2 ^ 52 by positivity])
    have e : (2 : ℝ) * (1 / 2 ^ 52) = 1 / 2 ^ 51 := by norm_num
    have e0 : (0 : ℝ) < 1 / 2 ^ 52 := by positivity
    rcases le_total q piF with a | a
    · rcases le_total (-piF) q with b | b
      · exact ⟨q, by rw [abs_le]; constructor <;> linarith, abs_le.2 ⟨b, a⟩⟩
      · have bR : (q : ℝ) ≤ -piF := by exact_mod_cast b
        exact ⟨-piF, by rw [abs_le]; push_cast; constructor <;> linarith [hpi.2, harg.1], by rw [abs_neg, abs_of_pos hp]⟩
    · have aR : (piF : ℝ) ≤ q := by exact_mod_cast a
      exact ⟨piF, by rw [abs_le]; constructor <;> linarith [hpi.2, harg.2], by rw [abs_of_pos hp]⟩
  choose a ha using habs
  choose g hg using hang
  exact ⟨⟨a, fun x => x ^ 2, g⟩, ⟨ha, fun x => by rw [sub_self, abs_zero]; positivity, fun z => (hg z).1, fun z => (hg z).2⟩⟩

/-- A resistivity: 10 mV/km/nT at 4 Hz gives 5 ohm metres up to eleven parts in 2^53; the phase of `EyHx` is 45 degrees up to 1/2^39. -/
example : ∃ m : AngleMath, m.Accurate ∧ (∃ r, getResistivityF m (periodsF [4]) [6] [8] = .ok [r] ∧ |(r : ℝ) - 5| ≤ 11 / 2 ^ 53 * 5) ∧
    ∃ p, getPhaseF m "EyHx" [6] [6] = .ok [p] ∧ |(p : ℝ) - 45| ≤ 1 / 2 ^ 39 := by
  obtain ⟨m, hm⟩ := accurate_exists
  obtain ⟨rho, a1, a2, a3⟩ := C90_resistivity m hm [4] [6] [8] (by norm_num) rfl rfl
  obtain ⟨ph, b1, b2, b3, -⟩ := C90_phase m hm "EyHx" (by decide) [6] [6] rfl (by norm_num)
  refine ⟨m, hm, ?_, ?_⟩
  · match rho, a2 with
    | [r], _ =>
      refine ⟨r, a1, ?_⟩
      have h := (a3 0 4 6 8 r rfl rfl rfl rfl).1
      have e : ‖asComplex (6, 8)‖ ^ 2 / (5 * ((4 : ℚ) : ℝ)) = 5 := by
        rw [← Complex.normSq_eq_norm_sq, Complex.normSq_apply]
        norm_num [asComplex]
      rwa [e] at h
  · match ph, b2 with
    | [p], _ =>
      refine ⟨p, b1, ?_⟩
      obtain ⟨j, j1, j2⟩ := b3 0 6 6 p rfl rfl rfl
      have hj : j = 0 := by simpa using j1
      have e : (asComplex (6, 6)).arg = Real.pi / 4 := by
        have : asComplex (6, 6) = ((6 * √2 : ℝ) : ℂ) * (Complex.cos ((Real.pi / 4 : ℝ) : ℂ) + Complex.sin ((Real.pi / 4 : ℝ) : ℂ) * Complex.I) := by
          rw [← Complex.ofReal_cos, ← Complex.ofReal_sin, Real.cos_pi_div_four, Real.sin_pi_div_four]
          have h2 : √2 * √2 = (2 : ℝ) := Real.mul_self_sqrt (by norm_num)
          apply Complex.ext
          · simp [asComplex]; nlinarith
          · simp [asComplex]; nlinarith
        rw [this, Complex.arg_mul_cos_add_sin_mul_I (by positivity)]
        constructor <;> linarith [Real.pi_pos]
      have e2 : Real.pi / 4 * (180 / Real.pi) = 45 := by
        have := Real.pi_ne_zero
        field_simp
        norm_num
      rw [hj, e, e2] at j2
      norm_num at j2 ⊢
      exact j2

/-- Unwrapping three phases: the jump from 3 to -3 is taken as a small one. -/
example : unwrapF [3, -3, -2] = [3, 462067253937571 / 140737488355328, 602804742292899 / 140737488355328] := by decide +kernel

end Resistics
