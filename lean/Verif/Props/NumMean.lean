import Verif.Props.NumTypes

/-!
# Property C80: removing the mean in the arithmetic of the number type, in any order of summation
-/

namespace Resistics

/-! ## Specification -/

/-- The additions use every one of `n` numbers exactly once. -/
def SumTree.Covers (s : SumTree) (n : ℕ) : Prop := s.leaves.Perm (List.range n)

/-- The mean size of the samples. -/
def meanSize (row : List ℚ) : ℚ := (row.map fun x => |x|).sum / row.length

/-! ## Sums -/

/-- multiples of the smallest positive number of the type -/
def OnGrid (t : NumType) (x : ℚ) : Prop := ∃ k : ℤ, x = k * (2 * t.tiny)

theorem OnGrid.add {t : NumType} {x y : ℚ} (hx : OnGrid t x) (hy : OnGrid t y) : OnGrid t (x + y) := by
  obtain ⟨a, rfl⟩ := hx
  obtain ⟨b, rfl⟩ := hy
  exact ⟨a + b, by push_cast; ring⟩

theorem onGrid_zero (t : NumType) : OnGrid t 0 := ⟨0, by simp⟩

theorem zpow_multiple {e g : ℤ} (h : g ≤ e) : ∃ m : ℤ, (2 : ℚ) ^ e = m * 2 ^ g := by
  refine ⟨2 ^ (e - g).toNat, ?_⟩
  push_cast
  rw [← zpow_natCast, ← zpow_add₀ (by norm_num)]
  congr 1
  omega

theorem tiny_single : 2 * NumType.tiny .single = (2 : ℚ) ^ (-149 : ℤ) := by
  simp only [NumType.tiny]
  norm_num

theorem tiny_double : 2 * NumType.tiny .double = (2 : ℚ) ^ (-1074 : ℤ) := by
  simp only [NumType.tiny]
  rw [zpow_neg, show (1074 : ℤ) = ((1074 : ℕ) : ℤ) from rfl, zpow_natCast, pow_succ (2 : ℚ) 1074]
  field_simp

theorem Holds.onGrid {t : NumType} (ht : t.Floating) {x : ℚ} (h : Holds t x) : OnGrid t x := by
  rcases ht with rfl | rfl
  · obtain ⟨k, e, -, he, -, rfl⟩ := h
    obtain ⟨m, hm⟩ := zpow_multiple he
    exact ⟨k * m, by rw [tiny_single, hm]; push_cast; ring⟩
  · obtain ⟨k, e, -, he, -, rfl⟩ := h
    obtain ⟨m, hm⟩ := zpow_multiple he
    exact ⟨k * m, by rw [tiny_double, hm]; push_cast; ring⟩

theorem NumType.Floating.calc_onGrid {t : NumType} (ht : t.Floating) (x : ℚ) : OnGrid t (t.calc x) := by
  rcases ht with rfl | rfl
  · simp only [NumType.calc, nearestSingle]
    split_ifs
    · exact onGrid_zero _
    · obtain ⟨m, hm⟩ := zpow_multiple (le_max_right (Int.log 2 |x| - 23) (-149))
      exact ⟨pyRound (x / 2 ^ lastBitSingle x) * m, by rw [tiny_single, lastBitSingle, hm]; push_cast; ring⟩
  · simp only [NumType.calc, nearestDouble]
    split_ifs
    · exact onGrid_zero _
    · obtain ⟨m, hm⟩ := zpow_multiple (le_max_right (Int.log 2 |x| - 52) (-1074))
      exact ⟨pyRound (x / 2 ^ lastBit x) * m, by rw [tiny_double, lastBit, hm]; push_cast; ring⟩

/-- sums of numbers of the type have no error near zero -/
theorem OnGrid.near {t : NumType} (ht : t.Floating) {x : ℚ} (h : OnGrid t x) : |t.calc x - x| ≤ t.unit * |x| := by
  by_cases hx : x = 0
  · subst hx
    rcases ht with rfl | rfl <;> simp [NumType.calc, nearestSingle, nearestDouble]
  obtain ⟨hb, -⟩ := abs_lt_of_log hx
  rcases ht with rfl | rfl
  · have hd : nearestSingle x = (pyRound (x / 2 ^ lastBitSingle x) : ℚ) * 2 ^ lastBitSingle x := by rw [nearestSingle, if_neg hx]
    simp only [NumType.calc, NumType.unit]
    rcases max_cases (Int.log 2 |x| - 23) (-149) with ⟨hm, -⟩ | ⟨hm, -⟩
    · have h1 := half_bit hx (lastBitSingle x)
      rw [hd]
      refine h1.trans ?_
      unfold lastBitSingle
      rw [hm, zpow_sub₀ (by norm_num)]
      rw [div_div]
      norm_num
      linarith
    · have hl : lastBitSingle x = -149 := hm
      obtain ⟨k, hk⟩ := h
      rw [tiny_single] at hk
      have h1 := nearest_multiple_single hx k
      rw [hl, ← hk, sub_self, abs_zero] at h1
      exact h1.trans (by positivity)
  · have hd : nearestDouble x = (pyRound (x / 2 ^ lastBit x) : ℚ) * 2 ^ lastBit x := by rw [nearestDouble, if_neg hx]
    simp only [NumType.calc, NumType.unit]
    rcases max_cases (Int.log 2 |x| - 52) (-1074) with ⟨hm, -⟩ | ⟨hm, -⟩
    · have h1 := half_bit hx (lastBit x)
      rw [hd]
      refine h1.trans ?_
      unfold lastBit
      rw [hm, zpow_sub₀ (by norm_num)]
      rw [div_div]
      norm_num
      linarith
    · have hl : lastBit x = -1074 := hm
      obtain ⟨k, hk⟩ := h
      rw [tiny_double] at hk
      have h1 := nearest_multiple hx k
      rw [hl, ← hk, sub_self, abs_zero] at h1
      exact h1.trans (by positivity)

theorem growth_mono {u : ℚ} (hu : 0 ≤ u) {a b : ℕ} (h : a ≤ b) : (1 + u) ^ a ≤ (1 + u) ^ b := pow_le_pow_right₀ (by linarith) h

/-- a sum in any order is off by one rounding per addition a number goes through -/
theorem sum_near {t : NumType} (ht : t.Floating) (row : List ℚ) (hrow : ∀ x ∈ row, Holds t x) (s : SumTree) :
    OnGrid t (s.sum t row) ∧ |s.sum t row - (s.leaves.map fun i => row.getD i 0).sum| ≤
      ((1 + t.unit) ^ s.height - 1) * (s.leaves.map fun i => |row.getD i 0|).sum ∧
    |(s.leaves.map fun i => row.getD i 0).sum| ≤ (s.leaves.map fun i => |row.getD i 0|).sum := by
  obtain ⟨hu, -, -, -⟩ := ht.unit_bounds
  induction s with
  | one i =>
    refine ⟨?_, by simp [SumTree.sum, SumTree.leaves, SumTree.height], by simp [SumTree.leaves]⟩
    simp only [SumTree.sum]
    by_cases hi : i < row.length
    · rw [List.getD_eq_getElem?_getD, List.getElem?_eq_getElem hi, Option.getD_some]
      exact (hrow _ (List.getElem_mem hi)).onGrid ht
    · rw [List.getD_eq_getElem?_getD, List.getElem?_eq_none (by omega), Option.getD_none]
      exact onGrid_zero t
  | add l r ihl ihr =>
    obtain ⟨gl, el, al⟩ := ihl
    obtain ⟨gr, er, ar⟩ := ihr
    simp only [SumTree.sum, SumTree.leaves, SumTree.height, List.map_append, List.sum_append]
    generalize (l.leaves.map fun i => row.getD i 0).sum = L at *
    generalize (r.leaves.map fun i => row.getD i 0).sum = R at *
    have hSl : 0 ≤ (l.leaves.map fun i => |row.getD i 0|).sum := (abs_nonneg _).trans al
    have hSr : 0 ≤ (r.leaves.map fun i => |row.getD i 0|).sum := (abs_nonneg _).trans ar
    generalize (l.leaves.map fun i => |row.getD i 0|).sum = Sl at *
    generalize (r.leaves.map fun i => |row.getD i 0|).sum = Sr at *
    generalize l.sum t row = l' at *
    generalize r.sum t row = r' at *
    refine ⟨ht.calc_onGrid _, ?_, (abs_add_le L R).trans (add_le_add al ar)⟩
    have h1 := (gl.add gr).near ht
    have hgl : (1 + t.unit) ^ l.height ≤ (1 + t.unit) ^ max l.height r.height := growth_mono hu.le (le_max_left _ _)
    have hgr : (1 + t.unit) ^ r.height ≤ (1 + t.unit) ^ max l.height r.height := growth_mono hu.le (le_max_right _ _)
    rw [pow_succ]
    generalize (1 + t.unit) ^ max l.height r.height = G at *
    have h2 : |l' - L| ≤ (G - 1) * Sl := el.trans (mul_le_mul_of_nonneg_right (by linarith) hSl)
    have h3 : |r' - R| ≤ (G - 1) * Sr := er.trans (mul_le_mul_of_nonneg_right (by linarith) hSr)
    have h4 : |l' + r' - (L + R)| ≤ (G - 1) * (Sl + Sr) := by
      rw [add_sub_add_comm]
      refine (abs_add_le _ _).trans ?_
      linarith
    have h5 : |l' + r'| ≤ G * (Sl + Sr) := by
      calc |l' + r'| = |(l' + r' - (L + R)) + (L + R)| := by ring_nf
        _ ≤ |l' + r' - (L + R)| + |L + R| := abs_add_le _ _
        _ ≤ (G - 1) * (Sl + Sr) + (Sl + Sr) := add_le_add h4 ((abs_add_le L R).trans (add_le_add al ar))
        _ = G * (Sl + Sr) := by ring
    calc |t.calc (l' + r') - (L + R)| = |(t.calc (l' + r') - (l' + r')) + (l' + r' - (L + R))| := by ring_nf
      _ ≤ |t.calc (l' + r') - (l' + r')| + |l' + r' - (L + R)| := abs_add_le _ _
      _ ≤ t.unit * (G * (Sl + Sr)) + (G - 1) * (Sl + Sr) := add_le_add (h1.trans (mul_le_mul_of_nonneg_left h5 hu.le)) h4
      _ = (G * (1 + t.unit) - 1) * (Sl + Sr) := by ring

theorem range_getD (row : List ℚ) : (List.range row.length).map (fun i => row.getD i 0) = row := by
  apply List.ext_getElem (by simp)
  intro i h1 h2
  simp [List.getElem?_eq_getElem h2]

theorem sum_covers {t : NumType} (ht : t.Floating) (row : List ℚ) (hrow : ∀ x ∈ row, Holds t x) (s : SumTree) (hs : s.Covers row.length) :
    |s.sum t row - row.sum| ≤ ((1 + t.unit) ^ s.height - 1) * (row.map fun x => |x|).sum ∧ |row.sum| ≤ (row.map fun x => |x|).sum := by
  obtain ⟨-, h1, h2⟩ := sum_near ht row hrow s
  have e1 : (s.leaves.map fun i => row.getD i 0).sum = row.sum := by
    rw [(hs.map _).sum_eq, range_getD]
  have e2 : (s.leaves.map fun i => |row.getD i 0|).sum = (row.map fun x => |x|).sum := by
    rw [(hs.map _).sum_eq]
    conv_rhs => rw [← range_getD row]
    rw [List.map_map]
    rfl
  rw [e1, e2] at h1
  rw [e1, e2] at h2
  exact ⟨h1, h2⟩

/-! ## The mean -/

/-- dividing by the rounded number of samples -/
theorem recip_near {u n n' : ℚ} (hu : 0 ≤ u) (hu2 : u ≤ 1 / 2) (hn : 0 < n) (h : |n' - n| ≤ u * n) : 0 < n' ∧ |1 / n' - 1 / n| ≤ 2 * u / n := by
  have hpos : n / 2 ≤ n' := by
    rw [abs_le] at h
    nlinarith
  have h0 : 0 < n' := by linarith
  refine ⟨h0, ?_⟩
  rw [div_sub_div _ _ h0.ne' hn.ne', abs_div, abs_of_pos (mul_pos h0 hn), div_le_div_iff₀ (mul_pos h0 hn) hn]
  have e : |1 * n - n' * 1| = |n' - n| := by rw [abs_sub_comm]; ring_nf
  rw [e]
  have h1 : |n' - n| * n ≤ u * n * n := mul_le_mul_of_nonneg_right h hn.le
  have h2 : u * (n / 2) ≤ u * n' := mul_le_mul_of_nonneg_left hpos hu
  have h3 := mul_le_mul_of_nonneg_right h2 hn.le
  nlinarith

/-- the mean in the arithmetic of the type -/
theorem mean_near (outside : ℕ → ℚ → ℤ) (order : ℕ → SumTree) {t : NumType} (ht : t.Floating) (row : List ℚ) (hrow : ∀ x ∈ row, Holds t x)
    (hne : row ≠ []) (hs : (order row.length).Covers row.length) :
    |typedMean outside order t row - npMean row| ≤ ((1 + t.unit) ^ ((order row.length).height + 3) - 1) * meanSize row + t.tiny ∧
    |npMean row| ≤ meanSize row := by
  obtain ⟨hu, hu1, ht0, htu⟩ := ht.unit_bounds
  obtain ⟨h1, h2⟩ := sum_covers ht row hrow _ hs
  have hn : (1 : ℚ) ≤ row.length := by
    have := List.length_pos_of_ne_nil hne
    exact_mod_cast this
  have hn0 : (0 : ℚ) < row.length := by linarith
  simp only [typedMean, npMean, meanSize, ht.cast_eq]
  have hnear : |t.calc (row.length : ℚ) - row.length| ≤ t.unit * row.length := by
    have hg : OnGrid t (row.length : ℚ) := by
      rcases ht with rfl | rfl
      · obtain ⟨m, hm⟩ := zpow_multiple (show (-149 : ℤ) ≤ 0 by norm_num)
        exact ⟨row.length * m, by rw [tiny_single]; push_cast; rw [mul_assoc, ← hm, zpow_zero, mul_one]⟩
      · obtain ⟨m, hm⟩ := zpow_multiple (show (-1074 : ℤ) ≤ 0 by norm_num)
        exact ⟨row.length * m, by rw [tiny_double]; push_cast; rw [mul_assoc, ← hm, zpow_zero, mul_one]⟩
    have := hg.near ht
    rwa [abs_of_pos hn0] at this
  obtain ⟨hn', hr⟩ := recip_near hu.le (by norm_num at hu1 ⊢; linarith) hn0 hnear
  generalize t.calc (row.length : ℚ) = n' at *
  generalize (row.length : ℚ) = n at *
  have hS : 0 ≤ (row.map fun x => |x|).sum := (abs_nonneg _).trans h2
  generalize (row.map fun x => |x|).sum = S at *
  generalize (order row.length).sum t row = s' at *
  generalize row.sum = s at *
  have hG : 1 ≤ (1 + t.unit) ^ (order row.length).height := one_le_pow₀ (by linarith)
  rw [pow_add]
  generalize (1 + t.unit) ^ (order row.length).height = G at *
  have hmean : |s / n| ≤ S / n := by rw [abs_div, abs_of_pos hn0]; exact div_le_div_of_nonneg_right h2 hn0.le
  refine ⟨?_, hmean⟩
  have hs' : |s'| ≤ G * S := by
    calc |s'| = |(s' - s) + s| := by ring_nf
      _ ≤ |s' - s| + |s| := abs_add_le _ _
      _ ≤ (G - 1) * S + S := add_le_add h1 h2
      _ = G * S := by ring
  have hq : |s' / n' - s / n| ≤ (G * (1 + 2 * t.unit) - 1) * (S / n) := by
    have e : s' / n' - s / n = s' * (1 / n' - 1 / n) + (s' - s) / n := by
      field_simp
      ring
    rw [e]
    refine (abs_add_le _ _).trans ?_
    rw [abs_mul, abs_div, abs_of_pos hn0]
    have a1 : |s'| * |1 / n' - 1 / n| ≤ G * S * (2 * t.unit / n) := mul_le_mul hs' hr (abs_nonneg _) (by positivity)
    have a2 : |s' - s| / n ≤ (G - 1) * S / n := div_le_div_of_nonneg_right h1 hn0.le
    refine (add_le_add a1 a2).trans (le_of_eq ?_)
    field_simp
    ring
  have h3 := ht.step hq hmean
  refine h3.trans ?_
  have hSn : 0 ≤ S / n := by positivity
  generalize S / n = A at *
  have e : (G * (1 + 2 * t.unit) - 1) * A + t.unit * (A + (G * (1 + 2 * t.unit) - 1) * A) = (G * ((1 + 2 * t.unit) * (1 + t.unit)) - 1) * A := by ring
  have h5 : (1 + 2 * t.unit) * (1 + t.unit) ≤ (1 + t.unit) ^ 3 := by nlinarith [sq_nonneg t.unit, hu]
  have h6 : G * ((1 + 2 * t.unit) * (1 + t.unit)) ≤ G * (1 + t.unit) ^ 3 := mul_le_mul_of_nonneg_left h5 (by linarith)
  have h7 : (G * ((1 + 2 * t.unit) * (1 + t.unit)) - 1) * A ≤ (G * (1 + t.unit) ^ 3 - 1) * A := mul_le_mul_of_nonneg_right (by linarith) hSn
  linarith

/-- growth of few roundings -/
theorem growth_small {u : ℚ} (hu : 0 ≤ u) (k : ℕ) (h : (k : ℚ) * u ≤ 1 / 2) : (1 + u) ^ k - 1 ≤ 2 * k * u := by
  induction k with
  | zero => simp
  | succ k ih =>
    push_cast at h ⊢
    have h1 : (k : ℚ) * u ≤ 1 / 2 := by nlinarith
    have h2 := ih h1
    rw [pow_succ]
    have h3 : (1 + u) ^ k ≤ 2 := by linarith
    nlinarith

/-- **C80**. Removing the mean from data of single or double precision (or from integers, in double precision), whatever the order in which
the samples are added: each sample is off from the exact one by a few roundings of the sample and of the mean size of the samples, as many as additions that a
sample goes through. -/
theorem C80_mean_close (outside : ℕ → ℚ → ℤ) (order : ℕ → SumTree) (d : TypedData) (hr : ∀ row ∈ d.td.data, row ≠ [])
    (hok : ∀ row ∈ d.td.data, ∀ x ∈ row, Holds d.type.withFloat x)
    (ho : ∀ row ∈ d.td.data, (order row.length).Covers row.length) (hh : ∀ row ∈ d.td.data, (order row.length).height + 4 ≤ 2 ^ 20) :
    List.Forall₂ (fun row row' => List.Forall₂ (fun x x' => |x' - (x - npMean row)| ≤
        2 * ((order row.length).height + 4) * d.type.withFloat.unit * (|x| + meanSize row) + 3 * d.type.withFloat.tiny) row row')
      d.td.data (removeMeanTyped outside order d).td.data := by
  have ht := withFloat_floating d.type
  simp only [removeMeanTyped, newTimeData, Option.getD_some]
  rw [List.forall₂_map_right_iff]
  apply List.forall₂_same.mpr
  intro row hrow
  have hwide : row.map (d.type.withFloat.cast outside) = row := by
    conv_rhs => rw [← List.map_id row]
    apply List.map_congr_left
    intro x hx
    exact cast_fixed outside (hok row hrow x hx)
  simp only [removeMeanRow, hwide]
  rw [List.forall₂_map_right_iff]
  apply List.forall₂_same.mpr
  intro x hx
  obtain ⟨hm, hma⟩ := mean_near outside order ht row (hok row hrow) (hr row hrow) (ho row hrow)
  obtain ⟨hu, hu1, ht0, htu⟩ := ht.unit_bounds
  have hh := hh row hrow
  generalize typedMean outside order d.type.withFloat row = m' at *
  generalize npMean row = m at *
  have hMS : 0 ≤ meanSize row := (abs_nonneg _).trans hma
  generalize meanSize row = A at *
  generalize (order row.length).height = k at *
  have hk : ((k + 4 : ℕ) : ℚ) ≤ 2 ^ 20 := by exact_mod_cast hh
  have hku : ((k + 4 : ℕ) : ℚ) * d.type.withFloat.unit ≤ 1 / 2 := by
    have := mul_le_mul hk hu1 hu.le (by norm_num)
    refine this.trans (by norm_num)
  have h1 : |x - m' - (x - m)| ≤ ((1 + d.type.withFloat.unit) ^ (k + 3) - 1) * A + d.type.withFloat.tiny := by
    rw [sub_sub_sub_cancel_left, abs_sub_comm]
    exact hm
  have hxa : |x - m| ≤ |x| + A := (abs_sub _ _).trans (by linarith)
  have h2 := ht.step h1 hxa
  refine h2.trans ?_
  have hg := growth_small hu.le (k + 4) hku
  rw [pow_succ] at hg
  have hG : 1 ≤ (1 + d.type.withFloat.unit) ^ (k + 3) := one_le_pow₀ (by linarith)
  generalize (1 + d.type.withFloat.unit) ^ (k + 3) = G at *
  generalize d.type.withFloat.unit = u at *
  generalize d.type.withFloat.tiny = e at *
  push_cast at hg
  have hx0 := abs_nonneg x
  generalize |x| = X at *
  have h4 : (G - 1) * A + e + u * (X + A + ((G - 1) * A + e)) + e = (G * (1 + u) - 1) * A + u * X + (2 + u) * e := by ring
  have hk1 : (1 : ℚ) ≤ 2 * (k + 4) := by have : (0 : ℚ) ≤ k := by positivity
                                         linarith
  have h5 : (G * (1 + u) - 1) * A ≤ 2 * (k + 4) * u * A := mul_le_mul_of_nonneg_right hg hMS
  have h6 : u * X ≤ 2 * (k + 4) * u * X := by
    have := mul_le_mul_of_nonneg_right hk1 (mul_nonneg hu.le hx0)
    linarith
  have h7 : u * e ≤ e := by nlinarith
  rw [h4]
  linarith

theorem abs_sum_le (l : List ℚ) : |l.sum| ≤ (l.map fun x => |x|).sum := by
  induction l with
  | nil => simp
  | cons x l ih =>
    simp only [List.sum_cons, List.map_cons]
    exact (abs_add_le _ _).trans (by linarith)

/-- sums of close numbers are close -/
theorem sum_close {row row' : List ℚ} {f : ℚ → ℚ} {a b : ℚ} (h : List.Forall₂ (fun x x' => |x' - f x| ≤ a * |x| + b) row row') :
    |row'.sum - (row.map f).sum| ≤ a * (row.map fun x => |x|).sum + row.length * b := by
  induction h with
  | nil => simp
  | @cons x x' l l' h _ ih =>
    simp only [List.sum_cons, List.map_cons, List.length_cons]
    push_cast
    rw [add_sub_add_comm]
    refine (abs_add_le _ _).trans ?_
    linarith

/-- **C80**. What is left of the mean: the exact mean of the result is a few roundings of the mean size of the samples. -/
theorem C80_mean_left (outside : ℕ → ℚ → ℤ) (order : ℕ → SumTree) (d : TypedData) (hr : ∀ row ∈ d.td.data, row ≠ [])
    (hok : ∀ row ∈ d.td.data, ∀ x ∈ row, Holds d.type.withFloat x)
    (ho : ∀ row ∈ d.td.data, (order row.length).Covers row.length) (hh : ∀ row ∈ d.td.data, (order row.length).height + 4 ≤ 2 ^ 20) :
    List.Forall₂ (fun row row' => |npMean row'| ≤ 4 * ((order row.length).height + 4) * d.type.withFloat.unit * meanSize row + 3 * d.type.withFloat.tiny)
      d.td.data (removeMeanTyped outside order d).td.data := by
  have h := C80_mean_close outside order d hr hok ho hh
  have key : ∀ row ∈ d.td.data, ∀ row', List.Forall₂ (fun x x' => |x' - (x - npMean row)| ≤
        2 * ((order row.length).height + 4) * d.type.withFloat.unit * (|x| + meanSize row) + 3 * d.type.withFloat.tiny) row row' →
      |npMean row'| ≤ 4 * ((order row.length).height + 4) * d.type.withFloat.unit * meanSize row + 3 * d.type.withFloat.tiny := by
    intro row hrow row' hf
    have hn : (0 : ℚ) < row.length := by exact_mod_cast List.length_pos_of_ne_nil (hr row hrow)
    have hl : row'.length = row.length := hf.length_eq.symm
    have e : 4 * (((order row.length).height : ℚ) + 4) * d.type.withFloat.unit = 2 * (2 * (((order row.length).height : ℚ) + 4) * d.type.withFloat.unit) := by ring
    rw [e]
    generalize 2 * (((order row.length).height : ℚ) + 4) * d.type.withFloat.unit = c at *
    have hs := sum_close (row := row) (row' := row') (f := fun x => x - npMean row) (a := c) (b := c * meanSize row + 3 * d.type.withFloat.tiny)
      (hf.imp fun x x' hx => by linarith)
    rw [sum_map_sub] at hs
    have hz : row.sum - row.length * npMean row = 0 := by
      unfold npMean
      rw [mul_div_cancel₀ _ hn.ne', sub_self]
    rw [hz, sub_zero] at hs
    have hm : (row.map fun x => |x|).sum = row.length * meanSize row := by
      unfold meanSize
      rw [mul_div_cancel₀ _ hn.ne']
    rw [hm] at hs
    unfold npMean
    rw [hl, abs_div, abs_of_pos hn, div_le_iff₀ hn]
    nlinarith
  refine List.forall₂_iff_get.mpr ⟨h.length_eq, fun i h1 h2 => ?_⟩
  have h3 := (List.forall₂_iff_get.mp h).2 i h1 h2
  have h4 := key _ (List.getElem_mem h1) _ h3
  simpa using h4

end Resistics
