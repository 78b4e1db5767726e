import Verif.Props.SetupLadder

/-!
# C79: window sizes and overlaps in double precision
-/

namespace Resistics

/-- **C79 (floor division)**: `x // y` of doubles is the exact quotient rounded down, for quotients below `2 ^ 50`. -/
theorem C79_floor_div (x y : ℚ) (hx : 0 ≤ x) (hy : 0 < y) (hq : x / y < 2 ^ 50) : floorDivF x y = ⌊x / y⌋ := by
  set q := ⌊x / y⌋ with hqd
  have hq0 : 0 ≤ q := Int.floor_nonneg.2 (by positivity)
  have hq0' : (0 : ℚ) ≤ q := by exact_mod_cast hq0
  have hq1 : (q : ℚ) < 2 ^ 50 := lt_of_le_of_lt (Int.floor_le _) hq
  unfold floorDivF
  simp only
  rw [← hqd, show x - (x - y * (q : ℚ)) = y * q by ring]
  have hyq : 0 ≤ y * (q : ℚ) := mul_nonneg hy.le hq0'
  have h1 := fl_near (y * q)
  rw [abs_of_nonneg hyq] at h1
  have h2 : |fl (y * q) / y - q| ≤ q / 2 ^ 53 := by
    rw [show fl (y * q) / y - q = (fl (y * q) - y * q) / y by field_simp, abs_div, abs_of_pos hy, div_le_iff₀ hy]
    unfold unitRoundoff at h1
    exact h1.trans (le_of_eq (by ring))
  have h3 := fl_near (fl (y * q) / y)
  unfold unitRoundoff at h3
  have h0 : 0 ≤ fl (y * q) / y := div_nonneg (fl_nonneg hyq) hy.le
  rw [abs_of_nonneg h0] at h3
  generalize fl (y * q) / y = z at *
  generalize fl z = w at *
  have h4 : |w - q| < 1 / 2 := by
    rw [abs_le] at h2 h3
    rw [abs_lt]
    norm_num at h2 h3 hq1 ⊢
    constructor <;> linarith [h2.1, h2.2, h3.1, h3.2]
  rw [abs_lt] at h4
  by_cases hw : (q : ℚ) ≤ w
  · have e : ⌊w⌋ = q := Int.floor_eq_iff.2 ⟨hw, by linarith⟩
    rw [e, if_neg (by linarith)]
  · have e : ⌊w⌋ = q - 1 := Int.floor_eq_iff.2 ⟨by push_cast; linarith, by push_cast; linarith⟩
    rw [e, if_pos (by push_cast; linarith)]
    ring

example : floorDivF 100 4 = 25 ∧ floorDivF (1 / 10) 3 = 0 ∧ floorDivF 23 4 = 5 := by decide +kernel

/-! ## Overlaps -/

theorem Bits53.below_one {p : ℚ} (hb : Bits53 p) (h : p < 1) : p ≤ 1 - 1 / 2 ^ 53 := by
  obtain ⟨k, e, hk, rfl⟩ := hb
  have h2 : (0 : ℚ) < 2 ^ e := by positivity
  rcases le_or_gt k 0 with hk0 | hk0
  · have : (k : ℚ) ≤ 0 := by exact_mod_cast hk0
    nlinarith
  rcases le_or_gt 0 e with he | he
  · obtain ⟨n, rfl⟩ := Int.eq_ofNat_of_zero_le he
    have h3 : (1 : ℚ) ≤ 2 ^ (n : ℤ) := by rw [zpow_natCast]; exact one_le_pow₀ (by norm_num)
    have : (1 : ℚ) ≤ k := by exact_mod_cast hk0
    nlinarith
  · obtain ⟨n, hn⟩ : ∃ n : ℕ, e = -(n : ℤ) := ⟨e.natAbs, by omega⟩
    subst hn
    rw [zpow_neg, zpow_natCast] at *
    have hN : (0 : ℚ) < 2 ^ n := by positivity
    rw [← div_eq_mul_inv, div_lt_one hN] at h
    rw [← div_eq_mul_inv, div_le_iff₀ hN]
    rw [abs_of_pos hk0] at hk
    rcases le_or_gt n 53 with h53 | h53
    · have hk' : k < 2 ^ n := by exact_mod_cast h
      have hk'' : (k : ℚ) ≤ 2 ^ n - 1 := by
        have : k ≤ 2 ^ n - 1 := by omega
        exact_mod_cast this
      have : (2 : ℚ) ^ n ≤ 2 ^ 53 := pow_le_pow_right₀ (by norm_num) h53
      have e : (1 - 1 / 2 ^ 53 : ℚ) * 2 ^ n = 2 ^ n - 2 ^ n / 2 ^ 53 := by ring
      have e2 : (2 : ℚ) ^ n / 2 ^ 53 ≤ 1 := by rw [div_le_one (by norm_num)]; exact this
      linarith
    · have hk' : (k : ℚ) < 2 ^ 53 := by exact_mod_cast hk
      have : (2 : ℚ) ^ 54 ≤ 2 ^ n := pow_le_pow_right₀ (by norm_num) h53
      norm_num at *
      linarith

theorem bits53_int_le {k : ℤ} (h0 : 0 ≤ k) (h : k ≤ 2 ^ 53) : Bits53 (k : ℚ) := by
  have := bits53_of_le (k := k) (e := 0) (by rw [abs_of_nonneg h0]; exact h)
  simpa using this

theorem overlap_bounds (p : ℚ) (hb : Bits53 p) (h0 : 0 ≤ p) (h1 : p < 1) (w : ℤ) (hw : 1 ≤ w) (hmax : w ≤ 2 ^ 53) :
    (⌊(w : ℚ) * p⌋ : ℚ) ≤ fl (w * p) ∧ fl (w * p) ≤ ⌊(w : ℚ) * p⌋ + 1 ∧ fl (w * p) < w := by
  have hw0 : (0 : ℚ) < w := by exact_mod_cast (by omega : 0 < w)
  have hx0 : 0 ≤ (w : ℚ) * p := by positivity
  have hxw : (w : ℚ) * p < w := by nlinarith
  have f0 : 0 ≤ ⌊(w : ℚ) * p⌋ := Int.floor_nonneg.2 hx0
  have fw : ⌊(w : ℚ) * p⌋ < w := Int.floor_lt.2 hxw
  refine ⟨le_fl_of_le (bits53_int_le f0 (by omega)) (Int.floor_le _), ?_, ?_⟩
  · have := fl_le_of_le (bits53_int_le (k := ⌊(w : ℚ) * p⌋ + 1) (by omega) (by omega)) (x := (w : ℚ) * p)
      (by push_cast; exact (Int.lt_floor_add_one _).le)
    push_cast at this
    exact this
  · by_contra hc
    have hn := (abs_le.1 (fl_near ((w : ℚ) * p))).2
    rw [abs_of_nonneg hx0] at hn
    unfold unitRoundoff at hn
    have hp := hb.below_one h1
    have : (w : ℚ) * p ≤ w * (1 - 1 / 2 ^ 53) := mul_le_mul_of_nonneg_left hp hw0.le
    norm_num at *
    linarith

/-- **C79 (overlaps)**: for any overlap proportion below one and any window of at most `2 ^ 53` samples, the overlap computed is less than
the window, and it is the exact product rounded down or one more than that. -/
theorem C79_overlap (p : ℚ) (hb : Bits53 p) (h0 : 0 ≤ p) (h1 : p < 1) (w : ℤ) (hw : 1 ≤ w) (hmax : w ≤ 2 ^ 53) :
    ⌊(w : ℚ) * p⌋ ≤ pyInt (fl (w * p)) ∧ pyInt (fl (w * p)) ≤ ⌊(w : ℚ) * p⌋ + 1 ∧ pyInt (fl (w * p)) < w := by
  obtain ⟨a, b, c⟩ := overlap_bounds p hb h0 h1 w hw hmax
  have hx0 : 0 ≤ (w : ℚ) * p := mul_nonneg (by exact_mod_cast (by omega : 0 ≤ w)) h0
  have hp : pyInt (fl ((w : ℚ) * p)) = ⌊fl ((w : ℚ) * p)⌋ := by
    unfold pyInt
    exact if_pos (fl_nonneg hx0)
  rw [hp]
  refine ⟨Int.le_floor.2 a, ?_, Int.floor_lt.2 c⟩
  have : (⌊fl ((w : ℚ) * p)⌋ : ℚ) ≤ ⌊(w : ℚ) * p⌋ + 1 := (Int.floor_le _).trans b
  exact_mod_cast this

/-- **C79 (overlaps of a decimal proportion)**: for a proportion written as a decimal, which a double need not represent, the overlap
computed is within one sample of what the decimal means. -/
theorem C79_overlap_decimal (d : ℚ) (h0 : 0 ≤ d) (h1 : d ≤ 1) (w : ℤ) (hw : 1 ≤ w) (hmax : w ≤ 2 ^ 50) :
    |pyInt (fl (w * fl d)) - ⌊(w : ℚ) * d⌋| ≤ 1 := by
  have hw0 : (0 : ℚ) < w := by exact_mod_cast (by omega : 0 < w)
  have hm : (w : ℚ) ≤ 2 ^ 50 := by exact_mod_cast hmax
  have hfd := fl_nonneg h0
  have hx0 : 0 ≤ (w : ℚ) * fl d := by positivity
  have hp : pyInt (fl ((w : ℚ) * fl d)) = ⌊fl ((w : ℚ) * fl d)⌋ := by
    unfold pyInt
    exact if_pos (fl_nonneg hx0)
  rw [hp]
  apply floor_near
  have e1 := fl_near d
  have e2 := fl_near ((w : ℚ) * fl d)
  rw [abs_of_nonneg h0] at e1
  rw [abs_of_nonneg hx0] at e2
  unfold unitRoundoff at e1 e2
  have e3 : |(w : ℚ) * fl d - w * d| ≤ w / 2 ^ 53 := by
    rw [← mul_sub, abs_mul, abs_of_pos hw0, div_eq_mul_one_div]
    refine mul_le_mul_of_nonneg_left (e1.trans ?_) hw0.le
    nlinarith
  have e4 : (w : ℚ) * d ≤ w := by nlinarith
  have e5 : 0 ≤ (w : ℚ) * d := by positivity
  generalize (w : ℚ) * d = a at *
  generalize (w : ℚ) * fl d = b at *
  rw [abs_le] at e2 e3
  rw [abs_lt]
  norm_num at *
  constructor <;> linarith [e2.1, e2.2, e3.1, e3.2]

/-- **C79 (finding)**: a proportion of 0.29 of a window of 100 samples is 28 samples, one less than it means. -/
theorem C79_overlap_rounded : pyInt (fl (100 * fl (29 / 100))) = 28 ∧ ⌊(100 : ℚ) * (29 / 100)⌋ = 29 := by decide +kernel

/-! ## Window setup -/

theorem overlap_exact {k : ℤ} {e : ℕ} (hk : |k| ≤ 8) {w : ℤ} (hw : |w| < 2 ^ 50) : Bits53 ((w : ℚ) * ((k : ℚ) / 2 ^ e)) := by
  have h : |w * k| ≤ 2 ^ 53 := by
    rw [abs_mul]
    calc |w| * |k| ≤ 2 ^ 50 * 8 := mul_le_mul hw.le hk (abs_nonneg _) (by norm_num)
      _ = 2 ^ 53 := by norm_num
  have := bits53_of_le (k := w * k) (e := -(e : ℤ)) h
  rw [zpow_neg, zpow_natCast] at this
  push_cast at this
  rw [div_eq_mul_inv, ← mul_assoc]
  exact this

/-- **C79 (window setup)**: `WindowSetup` computes in double precision exactly what it would with real numbers (C14) when the overlap
proportion is a small multiple of a power of two, such as the default quarter, and the sizes are below `2 ^ 50`. -/
theorem C79_window_setup (s : WindowSetup) (n : ℕ) (decFs : List ℚ) (hf : 0 < s.winFactor)
    (hfs : ∀ fs ∈ decFs, 0 ≤ fs ∧ fs / s.winFactor < 2 ^ 50) (hmin : |s.minSize| < 2 ^ 50)
    (hgiven : ∀ l, s.winSizes = some l → ∀ w ∈ l, |w| < 2 ^ 50) (k : ℤ) (e : ℕ) (hk : |k| ≤ 8) (hp : s.olapProportion = k / 2 ^ e) :
    s.runF n decFs = s.run n decFs := by
  have hwf : (0 : ℚ) < s.winFactor := by exact_mod_cast hf
  have hlev : ∀ i, s.levelWinSizeF decFs i = s.levelWinSize decFs i := by
    intro i
    unfold WindowSetup.levelWinSizeF WindowSetup.levelWinSize
    cases hg : pyIndex decFs (i : ℤ) with
    | error err => rfl
    | ok fs =>
      obtain ⟨a, b⟩ := hfs fs (List.mem_of_getElem? (pyIndex_ok hg))
      simp only [bind, Except.bind]
      rw [C79_floor_div fs s.winFactor a hwf b]
  have hsizes : s.getWinSizesF n decFs = s.getWinSizes n decFs := by
    unfold WindowSetup.getWinSizesF WindowSetup.getWinSizes
    exact mapM_congr_mem fun i _ => hlev i
  have hlt : ∀ ws, s.getWinSizes n decFs = .ok ws → ∀ w ∈ ws, |w| < 2 ^ 50 := by
    intro ws hws w hw
    obtain ⟨i, hi, rfl⟩ := List.mem_iff_getElem.1 hw
    have hlen := mapM_ok_length hws
    have := mapM_ok_getElem hws i (by omega) hi
    unfold WindowSetup.levelWinSize at this
    rw [except_bind_ok] at this
    obtain ⟨fs, hg, this⟩ := this
    rw [if_neg hf.ne'] at this
    have this : max ⌊fs / (s.winFactor : ℚ)⌋ s.minSize = ws[i] := by
      simpa [bind, Except.bind, pure, Except.pure] using this
    rw [← this]
    obtain ⟨a, b⟩ := hfs fs (List.mem_of_getElem? (pyIndex_ok hg))
    have c0 : 0 ≤ ⌊fs / (s.winFactor : ℚ)⌋ := Int.floor_nonneg.2 (by positivity)
    have c1 : ⌊fs / (s.winFactor : ℚ)⌋ < 2 ^ 50 := Int.floor_lt.2 (by push_cast; exact b)
    rw [abs_lt] at hmin ⊢
    rcases max_choice ⌊fs / (s.winFactor : ℚ)⌋ s.minSize with h | h <;> rw [h]
    · constructor <;> omega
    · exact hmin
  have holap : ∀ ws : List ℤ, (∀ w ∈ ws, |w| < 2 ^ 50) → s.getOlapSizesF ws = s.getOlapSizes ws := by
    intro ws hws
    unfold WindowSetup.getOlapSizesF WindowSetup.getOlapSizes
    refine List.map_congr_left fun w hw => ?_
    rw [hp, (overlap_exact hk (hws w hw)).fl_eq]
  have tail : ∀ ws : List ℤ, (∀ w ∈ ws, |w| < 2 ^ 50) →
      (do let winSizes ← fitLevels n ws
          let olapSizes ← fitLevels n (s.olapSizes.getD (s.getOlapSizesF winSizes))
          return ({ nLevels := n, minNWins := s.minNWins, winSizes := winSizes, olapSizes := olapSizes } : WinParams)) =
      (do let winSizes ← fitLevels n ws
          let olapSizes ← fitLevels n (s.olapSizes.getD (s.getOlapSizes winSizes))
          return ({ nLevels := n, minNWins := s.minNWins, winSizes := winSizes, olapSizes := olapSizes } : WinParams)) := by
    intro ws hws
    cases hfit : fitLevels n ws with
    | error err => rfl
    | ok w2 =>
      have := (fitLevels_ok.1 hfit).2
      subst this
      simp only [bind, Except.bind]
      rw [holap _ fun w hw => hws w (List.mem_of_mem_take hw)]
  unfold WindowSetup.runF WindowSetup.run WindowSetup.chosenWinSizesF
  cases hw : s.winSizes with
  | none =>
    simp only [hsizes]
    cases hg : s.getWinSizes n decFs with
    | error err => rfl
    | ok ws => exact tail ws (hlt ws hg)
  | some l => exact tail l (hgiven l hw)

/-- the default setup meets the hypotheses for every sampling frequency below `2 ^ 52` -/
example (n : ℕ) (decFs : List ℚ) (h : ∀ fs ∈ decFs, 0 ≤ fs ∧ fs < 2 ^ 52) : ({} : WindowSetup).runF n decFs = ({} : WindowSetup).run n decFs := by
  refine C79_window_setup {} n decFs (by norm_num) (fun fs hfs => ⟨(h fs hfs).1, ?_⟩) (by norm_num) (fun l hl => by cases hl) 1 2 (by norm_num)
    (by norm_num)
  have := (h fs hfs).2
  norm_num at this ⊢
  linarith

/-! ## Target number of windows -/

theorem floor_quotient {N D : ℕ} (hD : 0 < D) (hN : N < 2 ^ 53) : ⌊fl ((N : ℚ) / D)⌋ = ⌊(N : ℚ) / D⌋ := by
  have hD' : (0 : ℚ) < D := by exact_mod_cast hD
  have hN' : (N : ℚ) < 2 ^ 53 := by exact_mod_cast hN
  have hx0 : 0 ≤ (N : ℚ) / D := by positivity
  have e : ⌊(N : ℚ) / D⌋ = ((N / D : ℕ) : ℤ) := by
    have := Rat.floor_intCast_div_natCast (N : ℤ) D
    push_cast at this ⊢
    exact this
  have hle : N / D ≤ N := Nat.div_le_self _ _
  apply Int.floor_eq_iff.2
  rw [e, Int.cast_natCast]
  have hmod := Nat.div_add_mod N D
  have hlt := Nat.mod_lt N hD
  have hq : (N : ℚ) = D * ((N / D : ℕ) : ℚ) + ((N % D : ℕ) : ℚ) := by exact_mod_cast hmod.symm
  have hr : ((N % D : ℕ) : ℚ) ≤ D - 1 := by
    have : ((N % D : ℕ) : ℚ) + 1 ≤ D := by exact_mod_cast hlt
    linarith
  have hr0 : (0 : ℚ) ≤ ((N % D : ℕ) : ℚ) := by positivity
  generalize hm : N / D = m at *
  generalize N % D = r at *
  constructor
  · refine le_fl_of_le (bits53_nat (by omega)) ?_
    rw [le_div_iff₀ hD', hq]; nlinarith
  · by_contra hc
    push Not at hc
    have hn := (abs_le.1 (fl_near ((N : ℚ) / D))).2
    rw [abs_of_nonneg hx0] at hn
    unfold unitRoundoff at hn
    have h1 : ((m : ℚ) + 1 - (N : ℚ) / D) ≤ (N : ℚ) / D * (1 / 2 ^ 53) := le_trans (sub_le_sub_right hc _) hn
    have h2 : ((m : ℚ) + 1 - (N : ℚ) / D) * D ≤ (N : ℚ) / D * (1 / 2 ^ 53) * D := mul_le_mul_of_nonneg_right h1 hD'.le
    have h3 : ((m : ℚ) + 1 - (N : ℚ) / D) * D = (m + 1) * D - N := by field_simp
    have h4 : (N : ℚ) / D * (1 / 2 ^ 53) * D = N / 2 ^ 53 := by field_simp
    rw [h3, h4] at h2
    have h5 : (N : ℚ) / 2 ^ 53 < 1 := by rw [div_lt_one (by norm_num)]; exact hN'
    linarith

/-- rounding in the division by a rounded divisor -/
theorem target_near {n p T : ℚ} (hn : 0 ≤ n) (hp : p < 1) (hT : 0 < T) (hq : n / ((1 - p) * T) < 2 ^ 50) :
    |fl (n / fl (fl (1 - p) * T)) - n / ((1 - p) * T)| < 1 := by
  have hp1 : 0 < 1 - p := by linarith
  have a0 : 0 < fl (1 - p) := fl_pos hp1
  have b0 : 0 < fl (fl (1 - p) * T) := fl_pos (mul_pos a0 hT)
  have e1 := fl_near (1 - p)
  have e2 := fl_near (fl (1 - p) * T)
  have e3 := fl_near (n / fl (fl (1 - p) * T))
  rw [abs_of_pos hp1] at e1
  rw [abs_of_pos (mul_pos a0 hT)] at e2
  rw [abs_of_nonneg (div_nonneg hn b0.le)] at e3
  unfold unitRoundoff at e1 e2 e3
  have e1' : |fl (1 - p) * T - (1 - p) * T| ≤ (1 - p) * T / 2 ^ 53 := by
    rw [← sub_mul, abs_mul, abs_of_pos hT]
    exact (mul_le_mul_of_nonneg_right e1 hT.le).trans (le_of_eq (by ring))
  have hD : 0 < (1 - p) * T := mul_pos hp1 hT
  have e2' := near_twice hD e2 e1'
  generalize (1 - p) * T = D at *
  generalize fl (fl (1 - p) * T) = d at *
  have hx0 : 0 ≤ n / D := by positivity
  have key : |n / d - n / D| ≤ 4 / 2 ^ 53 * (n / D) := by
    have hd : D * (3 / 4) ≤ d := by
      have := (abs_le.1 e2').1
      norm_num at this
      linarith
    have e : n / d - n / D = n / D * ((D - d) / d) := by field_simp
    rw [e, abs_mul, abs_of_nonneg hx0, mul_comm]
    refine mul_le_mul_of_nonneg_right ?_ hx0
    rw [abs_div, abs_of_pos b0, abs_sub_comm, div_le_iff₀ b0]
    refine e2'.trans ?_
    norm_num
    linarith
  generalize n / D = y at *
  generalize n / d = x at *
  generalize fl x = z at *
  rw [abs_le] at e3 key
  rw [abs_lt]
  norm_num at *
  constructor <;> linarith [e3.1, e3.2, key.1, key.2]

/-- **C79 (target number of windows)**: the window size that `WindowerTarget` chooses is within one sample of the exact size (C15), at least
the minimum, and its overlap is less than the window. -/
theorem C79_target (t : WindowerTarget) (i : ℕ) (lm : LevelMeta) (ht : 1 ≤ t.target) (hb : Bits53 t.olapProportion)
    (hp0 : 0 ≤ t.olapProportion) (hp : t.olapProportion < 1) (hn : 0 ≤ lm.nSamples) (hmin : 1 ≤ t.minSize) (hmax : t.minSize ≤ 2 ^ 53)
    (hq : (lm.nSamples : ℚ) / ((1 - t.olapProportion) * t.target) < 2 ^ 50) :
    ∃ w o, t.sizesF i lm = .ok (w, o) ∧ t.minSize ≤ w ∧
      |w - max ⌊(lm.nSamples : ℚ) / ((1 - t.olapProportion) * t.target)⌋ t.minSize| ≤ 1 ∧
      ⌊t.olapProportion * w⌋ ≤ o ∧ o ≤ ⌊t.olapProportion * w⌋ + 1 ∧ 0 ≤ o ∧ o < w := by
  have hT : (0 : ℚ) < t.target := by exact_mod_cast (by omega : 0 < t.target)
  have hn' : (0 : ℚ) ≤ lm.nSamples := by exact_mod_cast hn
  have hnear := target_near hn' hp hT hq
  have hfn := abs_le.1 (floor_near hnear)
  have hd : fl (fl (1 - t.olapProportion) * (t.target : ℚ)) ≠ 0 := (fl_pos (mul_pos (fl_pos (by linarith)) hT)).ne'
  set W := ⌊fl ((lm.nSamples : ℚ) / fl (fl (1 - t.olapProportion) * (t.target : ℚ)))⌋ with hW
  have hw : t.getWinSizeF lm = .ok (max W t.minSize) := by
    unfold WindowerTarget.getWinSizeF
    simp only [hd, if_false]
    rw [← hW]
    split
    · rename_i h; rw [max_eq_right h.le]
    · rename_i h; rw [max_eq_left (not_lt.mp h)]
  have hfl : ⌊(lm.nSamples : ℚ) / ((1 - t.olapProportion) * t.target)⌋ < 2 ^ 50 := Int.floor_lt.2 (by push_cast; exact hq)
  have hW53 : max W t.minSize ≤ 2 ^ 53 := max_le (by omega) hmax
  have hW1 : 1 ≤ max W t.minSize := le_trans hmin (le_max_right _ _)
  refine ⟨max W t.minSize, ⌊fl (t.olapProportion * ((max W t.minSize : ℤ) : ℚ))⌋, ?_, le_max_right _ _, ?_, ?_⟩
  · unfold WindowerTarget.sizesF
    rw [hw]; rfl
  · rw [abs_le]
    rcases le_total W t.minSize with h1 | h1 <;>
      rcases le_total ⌊(lm.nSamples : ℚ) / ((1 - t.olapProportion) * t.target)⌋ t.minSize with h2 | h2 <;>
      simp only [max_eq_left, max_eq_right, h1, h2] <;> constructor <;> omega
  · generalize max W t.minSize = w at *
    rw [mul_comm t.olapProportion]
    obtain ⟨a, b, c⟩ := overlap_bounds t.olapProportion hb hp0 hp w hW1 hW53
    have hw0 : (0 : ℚ) ≤ w := by exact_mod_cast (by omega : 0 ≤ w)
    refine ⟨Int.le_floor.2 a, ?_, Int.floor_nonneg.2 (fl_nonneg (mul_nonneg hw0 hp0)), Int.floor_lt.2 c⟩
    have : (⌊fl ((w : ℚ) * t.olapProportion)⌋ : ℚ) ≤ ⌊(w : ℚ) * t.olapProportion⌋ + 1 := (Int.floor_le _).trans b
    exact_mod_cast this

/-- **C79 (target number of windows, exact)**: with the default overlap of a quarter, or another proportion `k / 2 ^ e`, the size and the
overlap are exactly those of C15. -/
theorem C79_target_exact (t : WindowerTarget) (i : ℕ) (lm : LevelMeta) (k e n T : ℕ) (hk : k < 2 ^ e) (hp : t.olapProportion = k / 2 ^ e)
    (ht : t.target = T) (hT : 1 ≤ T) (hn : lm.nSamples = n) (he : e ≤ 53) (hN : n * 2 ^ e < 2 ^ 53) (hD : T * 2 ^ e < 2 ^ 53)
    (hmin : 0 ≤ t.minSize) (hmax : t.minSize * k ≤ 2 ^ 53) (hmax' : (n : ℤ) * 2 ^ e * k ≤ 2 ^ 53) :
    t.sizesF i lm = t.sizes i lm := by
  have h2 : (0 : ℚ) < 2 ^ e := by positivity
  have hsub : (1 : ℚ) - k / 2 ^ e = ((2 ^ e - k : ℕ) : ℚ) / 2 ^ e := by
    rw [Nat.cast_sub hk.le]; push_cast; field_simp
  have hb1 : Bits53 ((1 : ℚ) - k / 2 ^ e) := by
    rw [hsub]
    have : Bits53 ((2 ^ e - k : ℕ) : ℚ) := by
      have h53 : 2 ^ e ≤ 2 ^ 53 := Nat.pow_le_pow_right (by norm_num) he
      exact_mod_cast bits53_int_le (k := ((2 ^ e - k : ℕ) : ℤ)) (by positivity) (by exact_mod_cast (by omega : 2 ^ e - k ≤ 2 ^ 53))
    exact this.div_pow e
  set D := (2 ^ e - k) * T with hDd
  have hD0 : 0 < D := Nat.mul_pos (by omega) hT
  have hDle : D ≤ T * 2 ^ e := by
    rw [hDd, mul_comm]; exact Nat.mul_le_mul_left _ (by omega)
  have hprod : ((1 : ℚ) - k / 2 ^ e) * T = (D : ℚ) / 2 ^ e := by rw [hsub, hDd]; push_cast; ring
  have hb2 : Bits53 (((1 : ℚ) - k / 2 ^ e) * T) := by
    rw [hprod]; exact (bits53_nat (by omega)).div_pow e
  have hquot : (n : ℚ) / (((1 : ℚ) - k / 2 ^ e) * T) = ((n * 2 ^ e : ℕ) : ℚ) / (D : ℕ) := by
    rw [hprod]; push_cast; field_simp
  have hsize : t.getWinSizeF lm = t.getWinSize lm := by
    unfold WindowerTarget.getWinSizeF WindowerTarget.getWinSize
    simp only [hp, ht, hn, Int.cast_natCast]
    rw [hb1.fl_eq, hb2.fl_eq, hquot, floor_quotient hD0 hN]
  unfold WindowerTarget.sizesF WindowerTarget.sizes
  rw [hsize]
  cases hw : t.getWinSize lm with
  | error err => rfl
  | ok w =>
    have hwb : 0 ≤ w ∧ w * k ≤ 2 ^ 53 := by
      unfold WindowerTarget.getWinSize at hw
      simp only [hp, ht, hn, Int.cast_natCast] at hw
      rw [hquot] at hw
      split at hw
      · cases hw
      · split at hw
        · cases hw; exact ⟨hmin, hmax⟩
        · cases hw
          have e1 : ⌊((n * 2 ^ e : ℕ) : ℚ) / (D : ℕ)⌋ = ((n * 2 ^ e / D : ℕ) : ℤ) := by
            have := Rat.floor_intCast_div_natCast ((n * 2 ^ e : ℕ) : ℤ) D
            push_cast at this ⊢
            exact this
          rw [e1]
          have e2 : n * 2 ^ e / D ≤ n * 2 ^ e := Nat.div_le_self _ _
          have e3 : ((n * 2 ^ e / D : ℕ) : ℤ) ≤ (n : ℤ) * 2 ^ e := by exact_mod_cast e2
          exact ⟨by positivity, (mul_le_mul_of_nonneg_right e3 (by positivity)).trans hmax'⟩
    have hbo : Bits53 (t.olapProportion * (w : ℚ)) := by
      have h1 : Bits53 ((w * k : ℤ) : ℚ) := bits53_int_le (mul_nonneg hwb.1 (by positivity)) hwb.2
      have h3 := h1.div_pow e
      have h4 : t.olapProportion * (w : ℚ) = ((w * k : ℤ) : ℚ) / 2 ^ e := by rw [hp]; push_cast; ring
      rw [h4]
      exact h3
    show Except.ok (w, ⌊fl (t.olapProportion * (w : ℚ))⌋) = Except.ok (w, ⌊t.olapProportion * (w : ℚ)⌋)
    rw [hbo.fl_eq]

example : ({} : WindowerTarget).sizesF 0 ⟨100, 1000000, 0, 9999⟩ = .ok (1333, 333) := by decide +kernel

/-- the default target windower on a million samples meets the hypotheses -/
example : ({} : WindowerTarget).sizesF 0 ⟨100, 1000000, 0, 9999⟩ = ({} : WindowerTarget).sizes 0 ⟨100, 1000000, 0, 9999⟩ :=
  C79_target_exact {} 0 _ 1 2 1000000 1000 (by norm_num) (by norm_num) rfl (by norm_num) rfl (by norm_num) (by norm_num) (by norm_num)
    (by norm_num) (by norm_num) (by norm_num)

end Resistics
