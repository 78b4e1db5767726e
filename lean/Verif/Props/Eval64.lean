import Verif.Model.Eval64
import Verif.Lemmas.Fl
import Verif.Lemmas.Interp
import Verif.Props.Spectra
import Verif.Props.NumTypes

/-!
# C83: evaluation frequencies and calibration in floating point numbers
-/

namespace Resistics

/-! ## One interpolation -/

theorem fl_factor (x : ℚ) : ∃ e, |e| ≤ unitRoundoff ∧ fl x = x * (1 + e) := by
  by_cases hx : x = 0
  · exact ⟨0, by rw [abs_zero]; exact unit_pos.le, by rw [hx, fl_zero]; ring⟩
  refine ⟨(fl x - x) / x, ?_, by field_simp; ring⟩
  rw [abs_div, div_le_iff₀ (abs_pos.2 hx), mul_comm]
  exact fl_near x

/-- The value that `np.interp` computes between two points. -/
def lineF (x0 y0 x1 y1 x : ℚ) : ℚ := fl (fl (fl (fl (y1 - y0) / fl (x1 - x0)) * fl (x - x0)) + y0)

theorem factor_bounds {e : ℚ} (h : |e| ≤ unitRoundoff) : 1 - unitRoundoff ≤ 1 + e ∧ 1 + e ≤ 1 + unitRoundoff := by
  have := abs_le.1 h
  constructor <;> linarith [this.1, this.2]

theorem prod_bounds {a b la lb ua ub : ℚ} (ha : la ≤ a ∧ a ≤ ua) (hb : lb ≤ b ∧ b ≤ ub) (h1 : 0 ≤ la) (h2 : 0 ≤ lb) : la * lb ≤ a * b ∧ a * b ≤ ua * ub :=
  ⟨mul_le_mul ha.1 hb.1 h2 (h1.trans ha.1), mul_le_mul ha.2 hb.2 (h2.trans hb.1) (h1.trans (ha.1.trans ha.2))⟩

/-- Between two points the rounded line is near the exact one. -/
theorem lineF_near {x0 x1 x : ℚ} (y0 y1 : ℚ) (h01 : x0 < x1) (h0 : x0 ≤ x) (h1 : x ≤ x1) :
    |lineF x0 y0 x1 y1 x - (y0 + (x - x0) / (x1 - x0) * (y1 - y0))| ≤
      7 * unitRoundoff * |y1 - y0| + unitRoundoff * |y0 + (x - x0) / (x1 - x0) * (y1 - y0)| := by
  obtain ⟨e1, h1', hy⟩ := fl_factor (y1 - y0)
  obtain ⟨e2, h2', hx⟩ := fl_factor (x1 - x0)
  obtain ⟨e4, h4', hd⟩ := fl_factor (x - x0)
  unfold lineF
  rw [hy, hx, hd]
  obtain ⟨e3, h3', hs⟩ := fl_factor ((y1 - y0) * (1 + e1) / ((x1 - x0) * (1 + e2)))
  rw [hs]
  obtain ⟨e5, h5', hm⟩ := fl_factor ((y1 - y0) * (1 + e1) / ((x1 - x0) * (1 + e2)) * (1 + e3) * ((x - x0) * (1 + e4)))
  rw [hm]
  have hX : 0 < x1 - x0 := by linarith
  set t := (x - x0) / (x1 - x0) with ht
  have ht0 : 0 ≤ t := div_nonneg (by linarith) hX.le
  have ht1 : t ≤ 1 := (div_le_one hX).2 (by linarith)
  have b1 := factor_bounds h1'
  have b2 := factor_bounds h2'
  have b3 := factor_bounds h3'
  have b4 := factor_bounds h4'
  have b5 := factor_bounds h5'
  have hu : unitRoundoff = 1 / 2 ^ 53 := rfl
  have hp2 : 0 < 1 + e2 := by rw [hu] at b2; linarith [b2.1, show (1 : ℚ) / 2 ^ 53 < 1 by norm_num]
  set E := (1 + e1) * (1 + e3) * ((1 + e4) * (1 + e5)) / (1 + e2) with hE
  have hm' : (y1 - y0) * (1 + e1) / ((x1 - x0) * (1 + e2)) * (1 + e3) * ((x - x0) * (1 + e4)) * (1 + e5) = (y1 - y0) * t * E := by
    rw [ht, hE]
    field_simp
  rw [hm']
  have hEb : |E - 1| ≤ 6 * unitRoundoff := by
    have n0 : (0 : ℚ) ≤ 1 - unitRoundoff := by rw [hu]; norm_num
    have p1 := prod_bounds (prod_bounds b1 b3 n0 n0) (prod_bounds b4 b5 n0 n0) (mul_nonneg n0 n0) (mul_nonneg n0 n0)
    rw [abs_le, hE]
    constructor
    · rw [neg_le_sub_iff_le_add, ← sub_le_iff_le_add, le_div_iff₀ hp2]
      refine le_trans ?_ p1.1
      calc (1 - 6 * unitRoundoff) * (1 + e2) ≤ (1 - 6 * unitRoundoff) * (1 + unitRoundoff) :=
            mul_le_mul_of_nonneg_left b2.2 (by rw [hu]; norm_num)
        _ ≤ _ := by rw [hu]; norm_num
    · rw [sub_le_iff_le_add, div_le_iff₀ hp2]
      refine p1.2.trans ?_
      calc _ ≤ (6 * unitRoundoff + 1) * (1 - unitRoundoff) := by rw [hu]; norm_num
        _ ≤ _ := mul_le_mul_of_nonneg_left b2.1 (by rw [hu]; norm_num)
  obtain ⟨e6, h6', hr⟩ := fl_factor ((y1 - y0) * t * E + y0)
  rw [hr]
  have hid : ((y1 - y0) * t * E + y0) * (1 + e6) - (y0 + t * (y1 - y0)) =
      (y1 - y0) * (t * (E - 1) * (1 + e6)) + e6 * (y0 + t * (y1 - y0)) := by ring
  rw [hid]
  refine (abs_add_le _ _).trans (add_le_add ?_ ?_)
  · rw [abs_mul, mul_comm]
    refine mul_le_mul_of_nonneg_right ?_ (abs_nonneg _)
    rw [abs_mul, abs_mul, abs_of_nonneg ht0]
    have b6 := factor_bounds h6'
    have h1e : |1 + e6| ≤ 1 + unitRoundoff := by
      rw [abs_le]
      constructor <;> rw [hu] at * <;> linarith [b6.1, b6.2, show (1 : ℚ) / 2 ^ 53 < 1 by norm_num]
    calc t * |E - 1| * |1 + e6| ≤ 1 * (6 * unitRoundoff) * (1 + unitRoundoff) := by
          refine mul_le_mul (mul_le_mul ht1 hEb (abs_nonneg _) (by norm_num)) h1e (abs_nonneg _) ?_
          rw [hu]; norm_num
      _ ≤ 7 * unitRoundoff := by rw [hu]; norm_num
  · rw [abs_mul]
    exact mul_le_mul_of_nonneg_right h6' (abs_nonneg _)

theorem line_between {t y0 y1 : ℚ} (h0 : 0 ≤ t) (h1 : t ≤ 1) : |y0 + t * (y1 - y0)| ≤ |y0| + |y1| := by
  have e : y0 + t * (y1 - y0) = (1 - t) * y0 + t * y1 := by ring
  rw [e]
  refine (abs_add_le _ _).trans ?_
  rw [abs_mul, abs_mul, abs_of_nonneg h0, abs_of_nonneg (by linarith : 0 ≤ 1 - t)]
  have a := abs_nonneg y0
  have b := abs_nonneg y1
  nlinarith

theorem lineF_near_sum {x0 x1 x : ℚ} (y0 y1 : ℚ) (h01 : x0 < x1) (h0 : x0 ≤ x) (h1 : x ≤ x1) :
    |lineF x0 y0 x1 y1 x - (y0 + (x - x0) / (x1 - x0) * (y1 - y0))| ≤ 8 * unitRoundoff * (|y0| + |y1|) := by
  refine (lineF_near y0 y1 h01 h0 h1).trans ?_
  have hX : 0 < x1 - x0 := by linarith
  have a1 : |y1 - y0| ≤ |y0| + |y1| := (abs_sub _ _).trans (by linarith)
  have a2 := line_between (y0 := y0) (y1 := y1) (div_nonneg (by linarith : 0 ≤ x - x0) hX.le) ((div_le_one hX).2 (by linarith : x - x0 ≤ x1 - x0))
  have hu := unit_pos
  have m1 := mul_le_mul_of_nonneg_left a1 (by linarith : 0 ≤ 7 * unitRoundoff)
  have m2 := mul_le_mul_of_nonneg_left a2 hu.le
  linarith

/-! ## The position of a frequency -/

theorem fl_one_plus : fl (1 + unitRoundoff) = 1 := by decide +kernel

/-- The position of a frequency between two bins is between the two positions. -/
theorem lineF_range {x0 x1 x : ℚ} (j : ℕ) (hj : j + 1 ≤ 2 ^ 53) (h01 : x0 < x1) (h0 : x0 ≤ x) (h1 : x ≤ x1) :
    (j : ℚ) ≤ lineF x0 j x1 ((j + 1 : ℕ) : ℚ) x ∧ lineF x0 j x1 ((j + 1 : ℕ) : ℚ) x ≤ ((j + 1 : ℕ) : ℚ) := by
  have one : Bits53 (1 : ℚ) := ⟨1, 0, by norm_num, by norm_num⟩
  have zero : Bits53 (0 : ℚ) := ⟨0, 0, by norm_num, by norm_num⟩
  have hj0 : Bits53 (j : ℚ) := bits53_nat (by omega)
  have hj1 : Bits53 ((j + 1 : ℕ) : ℚ) := by
    have := bits53_of_le (k := ((j + 1 : ℕ) : ℤ)) (e := 0) (by rw [abs_of_nonneg (by positivity)]; exact_mod_cast hj)
    simpa using this
  have hD : 0 < fl (x1 - x0) := fl_pos (by linarith)
  have hd0 : 0 ≤ fl (x - x0) := fl_nonneg (by linarith)
  have hdD : fl (x - x0) ≤ fl (x1 - x0) := fl_mono (by linarith)
  have hone : fl (((j + 1 : ℕ) : ℚ) - (j : ℚ)) = 1 := by
    rw [show ((j + 1 : ℕ) : ℚ) - (j : ℚ) = 1 by push_cast; ring]; exact one.fl_eq
  have hs0 : 0 ≤ fl (1 / fl (x1 - x0)) := fl_nonneg (by positivity)
  have hs1 : fl (1 / fl (x1 - x0)) * fl (x - x0) ≤ 1 + unitRoundoff := by
    have hn := fl_near (1 / fl (x1 - x0))
    rw [abs_of_pos (by positivity : 0 < 1 / fl (x1 - x0))] at hn
    have hub : fl (1 / fl (x1 - x0)) ≤ (1 + unitRoundoff) * (1 / fl (x1 - x0)) := by linarith [(abs_le.1 hn).2]
    calc fl (1 / fl (x1 - x0)) * fl (x - x0) ≤ (1 + unitRoundoff) * (1 / fl (x1 - x0)) * fl (x1 - x0) :=
          mul_le_mul hub hdD hd0 (mul_nonneg (by linarith [unit_pos]) (by positivity))
      _ = 1 + unitRoundoff := by field_simp
  have hp0 : 0 ≤ fl (fl (1 / fl (x1 - x0)) * fl (x - x0)) := fl_nonneg (mul_nonneg hs0 hd0)
  have hp1 : fl (fl (1 / fl (x1 - x0)) * fl (x - x0)) ≤ 1 := by
    have := fl_mono hs1
    rwa [fl_one_plus] at this
  unfold lineF
  rw [hone]
  exact ⟨le_fl_of_le hj0 (by linarith), fl_le_of_le hj1 (by push_cast; linarith)⟩

theorem npInterpFromF_between (p0 : ℚ × ℚ) (l r : List (ℚ × ℚ)) (xp yp xq yq x : ℚ) (hx : xp ≤ x) (hxq : x < xq) (hl : ∀ p ∈ l, p.1 ≤ x) :
    npInterpFromF p0 (l ++ (xp, yp) :: (xq, yq) :: r) x = if x ≤ xp then yp else lineF xp yp xq yq x := by
  induction l generalizing p0 with
  | nil =>
    obtain ⟨a, b⟩ := p0
    simp only [List.nil_append, npInterpFromF]
    rw [if_neg (by linarith), if_pos hxq]
    rfl
  | cons q l ih =>
    obtain ⟨a, b⟩ := p0
    obtain ⟨c, d⟩ := q
    simp only [List.cons_append, npInterpFromF]
    have : c ≤ x := hl (c, d) (by simp)
    rw [if_neg (by linarith)]
    exact ih (c, d) (fun p hp => hl p (by simp [hp]))

theorem npInterpF_between (l r : List (ℚ × ℚ)) (xp yp xq yq x : ℚ) (hx : xp ≤ x) (hxq : x < xq) (hl : ∀ p ∈ l, p.1 ≤ x) :
    npInterpF (l ++ (xp, yp) :: (xq, yq) :: r) x = .ok (if x ≤ xp then yp else lineF xp yp xq yq x) := by
  cases l with
  | nil =>
    simp only [List.nil_append, npInterpF, npInterpFromF]
    rw [if_pos hxq]
    rfl
  | cons q l =>
    simp only [List.cons_append, npInterpF]
    rw [npInterpFromF_between q l r xp yp xq yq x hx hxq (fun p hp => hl p (by simp [hp]))]

theorem npInterpF_before (x0 y0 : ℚ) (r : List (ℚ × ℚ)) (x : ℚ) (hx : x < x0) (hr : ∀ p ∈ r, x0 ≤ p.1) : npInterpF ((x0, y0) :: r) x = .ok y0 := by
  cases r with
  | nil => rfl
  | cons q r =>
    obtain ⟨c, d⟩ := q
    have : x0 ≤ c := hr (c, d) (by simp)
    simp only [npInterpF, npInterpFromF]
    rw [if_pos (by linarith), if_pos hx.le]

theorem npInterpFromF_after (p0 : ℚ × ℚ) (l : List (ℚ × ℚ)) (xp yp x : ℚ) (hx : xp ≤ x) (hl : ∀ p ∈ l, p.1 ≤ x) :
    npInterpFromF p0 (l ++ [(xp, yp)]) x = yp := by
  induction l generalizing p0 with
  | nil =>
    obtain ⟨a, b⟩ := p0
    simp only [List.nil_append, npInterpFromF]
    rw [if_neg (by linarith)]
  | cons q l ih =>
    obtain ⟨a, b⟩ := p0
    obtain ⟨c, d⟩ := q
    simp only [List.cons_append, npInterpFromF]
    have : c ≤ x := hl (c, d) (by simp)
    rw [if_neg (by linarith)]
    exact ih (c, d) (fun p hp => hl p (by simp [hp]))

theorem npInterpF_after (l : List (ℚ × ℚ)) (xp yp x : ℚ) (hx : xp ≤ x) (hl : ∀ p ∈ l, p.1 ≤ x) : npInterpF (l ++ [(xp, yp)]) x = .ok yp := by
  cases l with
  | nil => rfl
  | cons q l =>
    simp only [List.cons_append, npInterpF]
    rw [npInterpFromF_after q l xp yp x hx (fun p hp => hl p (by simp [hp]))]

/-- Specification: a table of points; `v` is what `np.interp` may give at `x`: the value of the nearest point outside, exactly the value on a point, and
between two points the value of the line up to eight roundings. -/
structure IsTableF (xs ys : List ℚ) (x v : ℚ) : Prop where
  on_point : ∀ (j : ℕ) (y : ℚ), xs[j]? = some x → ys[j]? = some y → v = y
  before : ∀ a y, xs.head? = some a → ys.head? = some y → x ≤ a → v = y
  after : ∀ b y, xs.getLast? = some b → ys.getLast? = some y → b ≤ x → v = y
  between : ∀ (j : ℕ) (a b ya yb : ℚ), xs[j]? = some a → xs[j + 1]? = some b → ys[j]? = some ya → ys[j + 1]? = some yb → a ≤ x → x ≤ b →
    |v - (ya + (x - a) / (b - a) * (yb - ya))| ≤ 8 / 2 ^ 53 * (|ya| + |yb|)

theorem zip_split (xs ys : List ℚ) (hl : xs.length = ys.length) (j : ℕ) (hj : j + 1 < xs.length) :
    xs.zip ys = ((xs.zip ys).take j) ++ (xs[j], ys[j]'(by omega)) :: (xs[j + 1], ys[j + 1]'(by omega)) :: ((xs.zip ys).drop (j + 2)) := by
  have hz : (xs.zip ys).length = xs.length := by simp [hl]
  conv_lhs => rw [← List.take_append_drop j (xs.zip ys)]
  rw [List.drop_eq_getElem_cons (by rw [hz]; omega), List.drop_eq_getElem_cons (by rw [hz]; omega)]
  simp

theorem zip_split_last (xs ys : List ℚ) (hl : xs.length = ys.length) (h0 : 0 < xs.length) :
    xs.zip ys = ((xs.zip ys).take (xs.length - 1)) ++ [(xs[xs.length - 1], ys[xs.length - 1]'(by omega))] := by
  have hz : (xs.zip ys).length = xs.length := by simp [hl]
  conv_lhs => rw [← List.take_append_drop (xs.length - 1) (xs.zip ys)]
  rw [List.drop_eq_getElem_cons (by rw [hz]; omega), List.drop_eq_nil_of_le (by rw [hz]; omega)]
  simp

theorem zip_take_le (xs ys : List ℚ) (hs : xs.Pairwise (· < ·)) (j : ℕ) (hj : j < xs.length) {x : ℚ} (h : xs[j] ≤ x) : ∀ p ∈ (xs.zip ys).take j, p.1 ≤ x := by
  intro p hp
  obtain ⟨i, hi, rfl⟩ := List.mem_iff_getElem.mp hp
  simp only [List.length_take, List.length_zip, lt_min_iff] at hi
  simp only [List.getElem_take, List.getElem_zip]
  exact (pairwise_get_le hs hi.1.le hj).trans h

/-- What `np.interp` computes, case by case. -/
theorem interpF_cases (xs ys : List ℚ) (hs : xs.Pairwise (· < ·)) (h0 : 0 < xs.length) (hl : xs.length = ys.length) (x : ℚ) :
    ∃ v, npInterpF (xs.zip ys) x = .ok v ∧ ((x ≤ xs[0] ∧ v = ys[0]'(by omega)) ∨ (xs[xs.length - 1] ≤ x ∧ v = ys[xs.length - 1]'(by omega)) ∨
      ∃ j, ∃ hj : j + 1 < xs.length, xs[j] ≤ x ∧ x < xs[j + 1] ∧ v = if x ≤ xs[j] then ys[j]'(by omega) else lineF xs[j] (ys[j]'(by omega)) xs[j + 1] (ys[j + 1]'(by omega)) x) := by
  rcases locate xs x h0 with h | h | ⟨j, hj, h1, h2⟩
  · refine ⟨ys[0]'(by omega), ?_, Or.inl ⟨h.le, rfl⟩⟩
    obtain ⟨a, xs', rfl⟩ : ∃ a xs', xs = a :: xs' := by
      cases xs with
      | nil => simp at h0
      | cons a l => exact ⟨a, l, rfl⟩
    obtain ⟨b, ys', rfl⟩ : ∃ b ys', ys = b :: ys' := by
      cases ys with
      | nil => simp at hl
      | cons a l => exact ⟨a, l, rfl⟩
    rw [List.zip_cons_cons]
    refine npInterpF_before _ _ _ _ h fun p hp => ?_
    exact ((List.pairwise_cons.mp hs).1 p.1 (List.of_mem_zip hp).1).le
  · refine ⟨ys[xs.length - 1]'(by omega), ?_, Or.inr (Or.inl ⟨h, rfl⟩)⟩
    rw [zip_split_last xs ys hl h0, npInterpF_after _ _ _ _ h (zip_take_le xs ys hs _ (by omega) h)]
  · refine ⟨_, ?_, Or.inr (Or.inr ⟨j, hj, h1, h2, rfl⟩)⟩
    rw [zip_split xs ys hl j hj, npInterpF_between _ _ _ _ _ _ _ h1 h2 (zip_take_le xs ys hs _ (by omega) h1)]

theorem isTableF_of_cases (xs ys : List ℚ) (hs : xs.Pairwise (· < ·)) (h0 : 0 < xs.length) (hl : xs.length = ys.length) (x v : ℚ)
    (h : (x ≤ xs[0] ∧ v = ys[0]'(by omega)) ∨ (xs[xs.length - 1] ≤ x ∧ v = ys[xs.length - 1]'(by omega)) ∨
      ∃ j, ∃ hj : j + 1 < xs.length, xs[j] ≤ x ∧ x < xs[j + 1] ∧ v = if x ≤ xs[j] then ys[j]'(by omega) else lineF xs[j] (ys[j]'(by omega)) xs[j + 1] (ys[j + 1]'(by omega)) x) :
    IsTableF xs ys x v := by
  have hon : ∀ (j : ℕ) (y : ℚ), xs[j]? = some x → ys[j]? = some y → v = y := by
    intro i y hi hy
    obtain ⟨hi', rfl⟩ := List.getElem?_eq_some_iff.mp hi
    obtain ⟨_, rfl⟩ := List.getElem?_eq_some_iff.mp hy
    rcases h with ⟨h1, rfl⟩ | ⟨h1, rfl⟩ | ⟨j, hj, h1, h2, rfl⟩
    · have : i = 0 := by
        by_contra hne
        have := pairwise_get hs (show 0 < i by omega) hi'
        linarith
      subst this; rfl
    · have : xs.length - 1 = i := by
        by_contra hne
        have := pairwise_get hs (show i < xs.length - 1 by omega) (by omega)
        linarith
      simp only [this]
    · have : j = i := by
        rcases lt_trichotomy i j with hij | hij | hij
        · have := pairwise_get hs hij (by omega)
          linarith
        · exact hij.symm
        · have := pairwise_get_le hs (show j + 1 ≤ i by omega) hi'
          linarith
      subst this
      rw [if_pos le_rfl]
  refine ⟨hon, ?_, ?_, ?_⟩
  · intro a y ha hy hle
    rw [List.head?_eq_getElem?] at ha hy
    obtain ⟨_, rfl⟩ := List.getElem?_eq_some_iff.mp ha
    obtain ⟨_, rfl⟩ := List.getElem?_eq_some_iff.mp hy
    rcases h with ⟨h1, rfl⟩ | ⟨h1, rfl⟩ | ⟨j, hj, h1, h2, rfl⟩
    · rfl
    · have : xs.length - 1 = 0 := by
        by_contra hne
        have := pairwise_get hs (show 0 < xs.length - 1 by omega) (by omega)
        linarith
      simp only [this]
    · have : j = 0 := by
        by_contra hne
        have := pairwise_get hs (show 0 < j by omega) (by omega)
        linarith
      subst this
      rw [if_pos hle]
  · intro b y hb hy hle
    rw [List.getLast?_eq_getElem?] at hb hy
    obtain ⟨_, rfl⟩ := List.getElem?_eq_some_iff.mp hb
    obtain ⟨_, rfl⟩ := List.getElem?_eq_some_iff.mp hy
    rcases h with ⟨h1, rfl⟩ | ⟨h1, rfl⟩ | ⟨j, hj, h1, h2, rfl⟩
    · have : ys.length - 1 = 0 := by
        by_contra hne
        have := pairwise_get hs (show 0 < xs.length - 1 by omega) (by omega)
        linarith
      simp only [this]
    · simp only [hl]
    · have := pairwise_get_le hs (show j + 1 ≤ xs.length - 1 by omega) (by omega)
      linarith
  · intro i a b ya yb ha hb hya hyb h1 h2
    have pos : ∀ y z : ℚ, 0 ≤ (8 : ℚ) / 2 ^ 53 * (|y| + |z|) := fun y z => by positivity
    obtain ⟨hi, ea⟩ := List.getElem?_eq_some_iff.mp ha
    obtain ⟨hi1, eb⟩ := List.getElem?_eq_some_iff.mp hb
    have hlt := pairwise_get hs (Nat.lt_succ_self i) hi1
    rw [ea, eb] at hlt
    rcases eq_or_lt_of_le h1 with heq | hgt
    · subst heq
      rw [hon i ya ha hya]
      simpa using pos ya yb
    rcases eq_or_lt_of_le h2 with heq | hlt2
    · subst heq
      rw [hon (i + 1) yb hb hyb, div_self (by linarith)]
      simpa using pos ya yb
    rcases h with ⟨h3, -⟩ | ⟨h3, -⟩ | ⟨j, hj, h3, h4, hv⟩
    · have := pairwise_get_le hs (Nat.zero_le i) hi
      linarith
    · have := pairwise_get_le hs (show i + 1 ≤ xs.length - 1 by omega) (by omega)
      linarith
    · have : j = i := by
        rcases lt_trichotomy i j with hij | hij | hij
        · have := pairwise_get_le hs (show i + 1 ≤ j by omega) (by omega)
          linarith
        · exact hij.symm
        · have := pairwise_get_le hs (show j + 1 ≤ i by omega) hi
          linarith
      subst this
      obtain ⟨_, rfl⟩ := List.getElem?_eq_some_iff.mp hya
      obtain ⟨_, rfl⟩ := List.getElem?_eq_some_iff.mp hyb
      rw [if_neg (by linarith)] at hv
      have := lineF_near_sum (x := x) (ys[j]'(by omega)) (ys[j + 1]'(by omega)) hlt h1 h2
      rw [ea, eb] at hv
      rw [← hv] at this
      unfold unitRoundoff at this
      rw [show (8 : ℚ) * (1 / 2 ^ 53) = 8 / 2 ^ 53 by norm_num] at this
      exact this

/-- C83: the magnitude and the phase of a sensor are interpolated: a frequency of the calibration file gets exactly the value in the file, frequencies outside the
file the value at its end, and between two frequencies of the file it is the line up to eight roundings. -/
theorem C83_calibration (xs ys : List ℚ) (hs : xs.Pairwise (· < ·)) (h0 : 0 < xs.length) (hl : xs.length = ys.length) (f : ℚ) :
    ∃ v, calInterpF xs ys f = .ok v ∧ IsTableF xs ys f v := by
  obtain ⟨v, h1, h2⟩ := interpF_cases xs ys hs h0 hl f
  refine ⟨v, ?_, isTableF_of_cases xs ys hs h0 hl f v h2⟩
  unfold calInterpF
  rw [if_neg (by rw [hl]; simp)]
  exact h1

/-- C83: a positive magnitude stays positive, so that the spectra are never divided by zero, as long as neighbouring values of the file do not differ by a factor of
more than 2^48. -/
theorem C83_magnitude_positive (xs ys : List ℚ) (hs : xs.Pairwise (· < ·)) (h0 : 0 < xs.length) (hl : xs.length = ys.length) (hpos : ∀ y ∈ ys, 0 < y)
    (hratio : ∀ (j : ℕ) (a b : ℚ), ys[j]? = some a → ys[j + 1]? = some b → a ≤ 2 ^ 48 * b ∧ b ≤ 2 ^ 48 * a) (f v : ℚ) (hv : calInterpF xs ys f = .ok v) : 0 < v := by
  obtain ⟨w, h1, h2⟩ := C83_calibration xs ys hs h0 hl f
  rw [hv, Except.ok.injEq] at h1
  subst h1
  have hy0 : 0 < ys.length := by omega
  rcases locate xs f h0 with h | h | ⟨j, hj, h3, h4⟩
  · rw [h2.before xs[0] ys[0] (by rw [List.head?_eq_getElem?]; exact List.getElem?_eq_getElem h0) (by rw [List.head?_eq_getElem?]; exact List.getElem?_eq_getElem hy0) h.le]
    exact hpos _ (List.getElem_mem _)
  · rw [h2.after _ (ys[ys.length - 1]'(by omega)) (by rw [List.getLast?_eq_getElem?]; exact List.getElem?_eq_getElem (by omega))
      (by rw [List.getLast?_eq_getElem?]; exact List.getElem?_eq_getElem (by omega)) h]
    exact hpos _ (List.getElem_mem _)
  · have ha : ys[j]? = some (ys[j]'(by omega)) := List.getElem?_eq_getElem _
    have hb : ys[j + 1]? = some (ys[j + 1]'(by omega)) := List.getElem?_eq_getElem _
    have hbt := h2.between j _ _ _ _ (List.getElem?_eq_getElem (by omega)) (List.getElem?_eq_getElem hj) ha hb h3 h4.le
    obtain ⟨r1, r2⟩ := hratio j _ _ ha hb
    have pa := hpos _ (List.getElem_mem (show j < ys.length by omega))
    have pb := hpos _ (List.getElem_mem (show j + 1 < ys.length by omega))
    generalize ys[j]'(by omega) = a at *
    generalize ys[j + 1]'(by omega) = b at *
    have hX := pairwise_get hs (Nat.lt_succ_self j) hj
    have hX' : 0 < xs[j + 1] - xs[j] := by linarith
    generalize ht : (f - xs[j]) / (xs[j + 1] - xs[j]) = t at *
    have ht0 : 0 ≤ t := by rw [← ht]; exact div_nonneg (by linarith) hX'.le
    have ht1 : t ≤ 1 := by rw [← ht]; exact (div_le_one hX').2 (by linarith)
    rw [abs_of_pos pa, abs_of_pos pb] at hbt
    have hlow := (abs_le.1 hbt).1
    have hmin : (a + b) * (1 / 2 ^ 49) ≤ a + t * (b - a) := by
      rcases le_total a b with hab | hab
      · have : 0 ≤ t * (b - a) := mul_nonneg ht0 (by linarith)
        norm_num at r1 r2 ⊢
        linarith
      · have : t * (b - a) ≥ b - a := by nlinarith
        norm_num at r1 r2 ⊢
        linarith
    have hsmall : (8 : ℚ) / 2 ^ 53 * (a + b) < (a + b) * (1 / 2 ^ 49) := by
      rw [mul_comm]
      refine mul_lt_mul_of_pos_left (by norm_num) (by linarith)
    linarith

/-! ## Evaluation frequencies -/

theorem zipIdx_eq_zip (freqs : List ℚ) : (freqs.zipIdx.map fun (p : ℚ × ℕ) => (p.1, (p.2 : ℚ))) = freqs.zip ((List.range freqs.length).map fun (i : ℕ) => (i : ℚ)) := by
  apply List.ext_getElem
  · simp
  · intro i h1 h2
    simp

/-- The position of a frequency: exact on the bins and outside, between two bins between their positions and near the exact one. -/
theorem evalIndexF_spec (freqs : List ℚ) (hs : freqs.Pairwise (· < ·)) (h0 : 0 < freqs.length) (hn : freqs.length ≤ 2 ^ 53) (f : ℚ) :
    ∃ idx, evalIndexF freqs f = .ok idx ∧ ((f ≤ freqs[0] ∧ idx = 0) ∨ (freqs[freqs.length - 1] ≤ f ∧ idx = ((freqs.length - 1 : ℕ) : ℚ)) ∨
      ∃ j, ∃ hj : j + 1 < freqs.length, freqs[j] ≤ f ∧ f < freqs[j + 1] ∧ Bits53 idx ∧ (f = freqs[j] → idx = j) ∧ (j : ℚ) ≤ idx ∧ idx ≤ ((j + 1 : ℕ) : ℚ) ∧
        |idx - (j + (f - freqs[j]) / (freqs[j + 1] - freqs[j]))| ≤ ((j : ℚ) + 8) / 2 ^ 53) := by
  obtain ⟨idx, h1, h2⟩ := interpF_cases freqs ((List.range freqs.length).map fun (i : ℕ) => (i : ℚ)) hs h0 (by simp) f
  refine ⟨idx, by unfold evalIndexF; rw [zipIdx_eq_zip]; exact h1, ?_⟩
  simp only [List.getElem_map, List.getElem_range] at h2
  rcases h2 with ⟨h3, h4⟩ | ⟨h3, h4⟩ | ⟨j, hj, h3, h4, h5⟩
  · exact Or.inl ⟨h3, by rw [h4]; simp⟩
  · exact Or.inr (Or.inl ⟨h3, h4⟩)
  · refine Or.inr (Or.inr ⟨j, hj, h3, h4, ?_⟩)
    have hlt := pairwise_get hs (Nat.lt_succ_self j) hj
    by_cases hle : f ≤ freqs[j]
    · rw [if_pos hle] at h5
      have hfe : f = freqs[j] := le_antisymm hle h3
      subst h5
      refine ⟨bits53_nat (by omega), fun _ => rfl, le_refl _, by push_cast; linarith, ?_⟩
      rw [hfe]
      simp
      positivity
    · rw [if_neg hle] at h5
      have hr := lineF_range (x := f) j (by omega) hlt h3 h4.le
      have hX : 0 < freqs[j + 1] - freqs[j] := by linarith
      have hnear := lineF_near (x := f) (j : ℚ) ((j + 1 : ℕ) : ℚ) hlt h3 h4.le
      rw [← h5] at hr hnear
      refine ⟨by rw [h5]; exact fl_bits53 _, fun h => absurd h.le hle, hr.1, hr.2, ?_⟩
      rw [show ((j + 1 : ℕ) : ℚ) - (j : ℚ) = 1 by push_cast; ring, abs_one, mul_one, mul_one] at hnear
      refine hnear.trans ?_
      have ht0 : 0 ≤ (f - freqs[j]) / (freqs[j + 1] - freqs[j]) := div_nonneg (by linarith) hX.le
      have ht1 : (f - freqs[j]) / (freqs[j + 1] - freqs[j]) ≤ 1 := (div_le_one hX).2 (by linarith)
      rw [abs_of_nonneg (by positivity)]
      unfold unitRoundoff
      rw [show ((j : ℚ) + 8) / 2 ^ 53 = 7 * (1 / 2 ^ 53) + 1 / 2 ^ 53 * ((j : ℚ) + 1) by ring]
      have := mul_le_mul_of_nonneg_left (add_le_add (le_refl (j : ℚ)) ht1) (by norm_num : (0 : ℚ) ≤ 1 / 2 ^ 53)
      linarith

/-- The floating point types hold zero and one. -/
theorem NumType.Floating.holds_one {t : NumType} (h : t.Floating) : Holds t 1 := by
  rcases h with rfl | rfl
  · exact ⟨1, 0, by norm_num, by norm_num, by norm_num⟩
  · exact ⟨1, 0, by norm_num, by norm_num, by norm_num⟩

theorem NumType.Floating.zero {t : NumType} (h : t.Floating) : t.calc 0 = 0 := by
  rcases h with rfl | rfl <;> decide +kernel

theorem evalPart_zero {t : NumType} (ht : t.Floating) {lo : ℚ} (hlo : Holds t lo) (hi : ℚ) : evalPart t 0 lo hi = lo := by
  unfold evalPart
  rw [mul_zero, ht.zero, add_zero, ht.fixed hlo]

theorem evalPart_same {t : NumType} (ht : t.Floating) {lo : ℚ} (hlo : Holds t lo) (p : ℚ) : evalPart t p lo lo = lo := by
  unfold evalPart
  rw [sub_self, ht.zero, zero_mul, ht.zero, add_zero, ht.fixed hlo]

/-- One part of a value between two bins. -/
theorem evalPart_near {t : NumType} (ht : t.Floating) {p : ℚ} (h0 : 0 ≤ p) (h1 : p ≤ 1) (lo hi : ℚ) :
    |evalPart t (t.calc p) lo hi - (lo + p * (hi - lo))| ≤ 8 * t.unit * (|lo| + |hi|) + 4 * t.tiny := by
  obtain ⟨hu, hu1, ht0, htu⟩ := ht.unit_bounds
  have hD : |hi - lo| ≤ |lo| + |hi| := (abs_sub _ _).trans (by linarith)
  have hlo : |lo| ≤ |lo| + |hi| := by linarith [abs_nonneg hi]
  have hS : 0 ≤ |lo| + |hi| := by positivity
  have q1 : t.calc p ≤ 1 := by
    have := ht.nearest p 1 ht.holds_one
    rw [abs_of_nonneg (by linarith : 0 ≤ 1 - p)] at this
    linarith [(abs_le.1 this).2]
  have hp := ht.near p
  rw [abs_of_nonneg h0] at hp
  have q0 : 0 ≤ t.calc p := by
    have hz : t.calc 0 = 0 := ht.zero
    have hh := ht.nearest p 0 (by rw [← hz]; exact ht.holds (by rw [hz, abs_zero]; rcases ht with rfl | rfl <;> simp only [NumType.largest] <;> decide +kernel))
    rw [zero_sub, abs_neg, abs_of_nonneg h0] at hh
    linarith [(abs_le.1 hh).1]
  have hp' : |t.calc p - p| ≤ 2 * t.unit := by
    have := mul_le_mul_of_nonneg_left h1 hu.le
    linarith
  unfold evalPart
  set S := |lo| + |hi|
  set u := t.unit
  set e := t.tiny
  have d1 := ht.near (hi - lo)
  have d1' : |t.calc (hi - lo) - (hi - lo)| ≤ u * S + e := d1.trans (by
    have := mul_le_mul_of_nonneg_left hD hu.le
    linarith)
  set D' := t.calc (hi - lo)
  set p' := t.calc p
  have d2 : |D' * p' - p * (hi - lo)| ≤ 3 * u * S + e := by
    have e1 : D' * p' - p * (hi - lo) = (D' - (hi - lo)) * p' + (hi - lo) * (p' - p) := by ring
    rw [e1]
    refine (abs_add_le _ _).trans ?_
    rw [abs_mul, abs_mul, abs_of_nonneg q0]
    have m1 : |D' - (hi - lo)| * p' ≤ (u * S + e) * 1 := mul_le_mul d1' q1 q0 (by positivity)
    have m2 : |hi - lo| * |p' - p| ≤ S * (2 * u) := mul_le_mul hD hp' (abs_nonneg _) hS
    linarith
  have hpD : |p * (hi - lo)| ≤ S := by
    rw [abs_mul, abs_of_nonneg h0]
    calc p * |hi - lo| ≤ 1 * S := mul_le_mul h1 hD (abs_nonneg _) (by norm_num)
      _ = S := one_mul S
  have d3 := ht.step d2 hpD
  have u3 : u * (3 * u * S + e) ≤ 1 / 4 * u * S + 1 / 4 * e := by
    have a1 : u * (3 * u * S) ≤ 1 / 4 * u * S := by
      have : (3 * u) * (u * S) ≤ 1 / 4 * (u * S) := mul_le_mul_of_nonneg_right (by norm_num at hu1; linarith) (by positivity)
      linarith
    have a2 : u * e ≤ 1 / 4 * e := mul_le_mul_of_nonneg_right (by norm_num at hu1; linarith) ht0.le
    linarith
  have d4 : |lo + t.calc (D' * p') - (lo + p * (hi - lo))| ≤ 17 / 4 * u * S + 9 / 4 * e := by
    rw [add_sub_add_left_eq_sub]
    refine d3.trans ?_
    linarith
  have hs : |lo + p * (hi - lo)| ≤ S := line_between h0 h1
  refine (ht.step d4 hs).trans ?_
  have u4 : u * (17 / 4 * u * S + 9 / 4 * e) ≤ 1 / 4 * u * S + 1 / 4 * e := by
    have a1 : (17 / 4 * u) * (u * S) ≤ 1 / 4 * (u * S) := mul_le_mul_of_nonneg_right (by norm_num at hu1; linarith) (by positivity)
    have a2 : (9 / 4 * u) * e ≤ 1 / 4 * e := mul_le_mul_of_nonneg_right (by norm_num at hu1; linarith) ht0.le
    linarith
  have : 0 ≤ u * S := by positivity
  linarith

theorem bits53_sub_floor {x : ℚ} (h : Bits53 x) (h0 : 0 ≤ x) : Bits53 (x - (⌊x⌋ : ℚ)) := by
  obtain ⟨k, e, hk, rfl⟩ := h
  rcases le_total 0 e with he | he
  · obtain ⟨n, rfl⟩ := Int.eq_ofNat_of_zero_le he
    have : ((k : ℚ) * 2 ^ ((n : ℤ))) = ((k * 2 ^ n : ℤ) : ℚ) := by push_cast; rw [zpow_natCast]
    rw [this, Int.floor_intCast, sub_self]
    exact ⟨0, 0, by norm_num, by norm_num⟩
  · obtain ⟨n, hn⟩ := Int.eq_ofNat_of_zero_le (neg_nonneg.2 he)
    have hen : e = -(n : ℤ) := by omega
    subst hen
    set m := ⌊(k : ℚ) * 2 ^ (-(n : ℤ))⌋ with hm
    have h2 : (0 : ℚ) < 2 ^ (-(n : ℤ)) := by positivity
    have hfl : (m : ℚ) ≤ (k : ℚ) * 2 ^ (-(n : ℤ)) := Int.floor_le _
    have hm0 : 0 ≤ m := Int.floor_nonneg.2 h0
    have hnn : (2 : ℚ) ^ (-(n : ℤ)) * 2 ^ n = 1 := by rw [zpow_neg, zpow_natCast]; exact inv_mul_cancel₀ (by positivity)
    refine ⟨k - m * 2 ^ n, -(n : ℤ), ?_, ?_⟩
    · have hk0 : 0 ≤ k := by
        by_contra hneg
        have : (k : ℚ) < 0 := by exact_mod_cast not_le.1 hneg
        have := mul_neg_of_neg_of_pos this h2
        linarith
      have hmk : m * 2 ^ n ≤ k := by
        have := mul_le_mul_of_nonneg_right hfl (by positivity : (0 : ℚ) ≤ 2 ^ n)
        rw [mul_assoc, hnn, mul_one] at this
        exact_mod_cast this
      have hmn : 0 ≤ m * 2 ^ n := by positivity
      rw [abs_of_nonneg (by omega)]
      rw [abs_of_nonneg hk0] at hk
      omega
    · push_cast
      rw [sub_mul, mul_assoc (m : ℚ), mul_comm ((2 : ℚ) ^ n), hnn, mul_one]

/-- Specification: `v` is the value at the frequency `f`: exactly the value of a bin on the bin, that of the first or last bin outside, and between two bins
the value on the line, up to the rounding of the position of the frequency (a multiple of the number of the bin) and of the number type of the spectra. -/
structure IsEvalF (t : NumType) (freqs : List ℚ) (row : List (ℚ × ℚ)) (f : ℚ) (v : ℚ × ℚ) : Prop where
  on_bin : ∀ (j : ℕ) (r : ℚ × ℚ), freqs[j]? = some f → row[j]? = some r → v = r
  before : ∀ a r, freqs.head? = some a → row.head? = some r → f ≤ a → v = r
  after : ∀ b r, freqs.getLast? = some b → row.getLast? = some r → b ≤ f → v = r
  between : ∀ (j : ℕ) (a b : ℚ) (lo hi : ℚ × ℚ), freqs[j]? = some a → freqs[j + 1]? = some b → row[j]? = some lo → row[j + 1]? = some hi → a ≤ f → f ≤ b →
    |v.1 - (lo.1 + (f - a) / (b - a) * (hi.1 - lo.1))| ≤ (j + 8) / 2 ^ 53 * |hi.1 - lo.1| + 8 * t.unit * (|lo.1| + |hi.1|) + 4 * t.tiny ∧
    |v.2 - (lo.2 + (f - a) / (b - a) * (hi.2 - lo.2))| ≤ (j + 8) / 2 ^ 53 * |hi.2 - lo.2| + 8 * t.unit * (|lo.2| + |hi.2|) + 4 * t.tiny ∧
    (lo = hi → v = lo)

theorem evalAtF_nat {t : NumType} (ht : t.Floating) (row : List (ℚ × ℚ)) (hrow : ∀ r ∈ row, Holds t r.1 ∧ Holds t r.2) (j : ℕ) (hj : j < row.length) :
    evalAtF t row (j : ℚ) = .ok row[j] := by
  unfold evalAtF
  rw [show ((j : ℚ)) = ((j : ℤ) : ℚ) by push_cast; rfl, Int.floor_intCast, Int.ceil_intCast, pyIndex_natCast row j hj]
  obtain ⟨r1, r2⟩ := hrow _ (List.getElem_mem hj)
  simp only [bind, Except.bind, pure, Except.pure, evalPart_same ht r1, evalPart_same ht r2]

/-- The value at a position between two bins. -/
theorem evalAtF_between {t : NumType} (ht : t.Floating) (row : List (ℚ × ℚ)) (hrow : ∀ r ∈ row, Holds t r.1 ∧ Holds t r.2) (j : ℕ) (hj : j + 1 < row.length) (idx : ℚ)
    (hb : Bits53 idx) (h0 : (j : ℚ) ≤ idx) (h1 : idx ≤ ((j + 1 : ℕ) : ℚ)) :
    ∃ v, evalAtF t row idx = .ok v ∧
      |v.1 - (row[j].1 + (idx - j) * (row[j + 1].1 - row[j].1))| ≤ 8 * t.unit * (|row[j].1| + |row[j + 1].1|) + 4 * t.tiny ∧
      |v.2 - (row[j].2 + (idx - j) * (row[j + 1].2 - row[j].2))| ≤ 8 * t.unit * (|row[j].2| + |row[j + 1].2|) + 4 * t.tiny ∧
      (row[j] = row[j + 1] → v = row[j]) := by
  obtain ⟨hu, hu1, ht0, htu⟩ := ht.unit_bounds
  have pos : ∀ y z : ℚ, 0 ≤ 8 * t.unit * (|y| + |z|) + 4 * t.tiny := fun y z => by positivity
  rcases eq_or_lt_of_le h1 with he | hlt
  · subst he
    refine ⟨_, evalAtF_nat ht row hrow (j + 1) hj, ?_, ?_, fun h => h.symm⟩
    · rw [show row[j + 1].1 - (row[j].1 + (((j + 1 : ℕ) : ℚ) - j) * (row[j + 1].1 - row[j].1)) = 0 by push_cast; ring, abs_zero]; exact pos _ _
    · rw [show row[j + 1].2 - (row[j].2 + (((j + 1 : ℕ) : ℚ) - j) * (row[j + 1].2 - row[j].2)) = 0 by push_cast; ring, abs_zero]; exact pos _ _
  rcases eq_or_lt_of_le h0 with he | hgt
  · subst he
    refine ⟨_, evalAtF_nat ht row hrow j (by omega), ?_, ?_, fun _ => rfl⟩
    · rw [show row[j].1 - (row[j].1 + ((j : ℚ) - j) * (row[j + 1].1 - row[j].1)) = 0 by ring, abs_zero]; exact pos _ _
    · rw [show row[j].2 - (row[j].2 + ((j : ℚ) - j) * (row[j + 1].2 - row[j].2)) = 0 by ring, abs_zero]; exact pos _ _
  push_cast at hlt
  have hf : ⌊idx⌋ = (j : ℤ) := by rw [Int.floor_eq_iff]; push_cast; constructor <;> linarith
  have hc : ⌈idx⌉ = ((j + 1 : ℕ) : ℤ) := by rw [Int.ceil_eq_iff]; push_cast; constructor <;> linarith
  have hex : fl (idx - (j : ℚ)) = idx - j := by
    have := (bits53_sub_floor hb (le_trans (by positivity) h0)).fl_eq
    rw [hf] at this
    simpa using this
  have hv : evalAtF t row idx = .ok (evalPart t (t.calc (idx - j)) row[j].1 row[j + 1].1, evalPart t (t.calc (idx - j)) row[j].2 row[j + 1].2) := by
    unfold evalAtF
    rw [hf, hc, pyIndex_natCast row j (by omega), pyIndex_natCast row (j + 1) hj]
    simp only [bind, Except.bind, pure, Except.pure, Int.cast_natCast, hex]
  refine ⟨_, hv, evalPart_near ht (by linarith) (by linarith) _ _, evalPart_near ht (by linarith) (by linarith) _ _, fun hsame => ?_⟩
  obtain ⟨r1, r2⟩ := hrow _ (List.getElem_mem (show j < row.length by omega))
  rw [← hsame, evalPart_same ht r1, evalPart_same ht r2]

theorem part_total {v lo hi idx x E F : ℚ} (h1 : |v - (lo + idx * (hi - lo))| ≤ E) (h2 : |idx - x| ≤ F) : |v - (lo + x * (hi - lo))| ≤ F * |hi - lo| + E := by
  have e : v - (lo + x * (hi - lo)) = (idx - x) * (hi - lo) + (v - (lo + idx * (hi - lo))) := by ring
  rw [e]
  refine (abs_add_le _ _).trans (add_le_add ?_ h1)
  rw [abs_mul]
  exact mul_le_mul_of_nonneg_right h2 (abs_nonneg _)

/-- The value at one frequency. -/
theorem evalF_value {t : NumType} (ht : t.Floating) (freqs : List ℚ) (hs : freqs.Pairwise (· < ·)) (h0 : 0 < freqs.length) (hn : freqs.length ≤ 2 ^ 53)
    (row : List (ℚ × ℚ)) (hrow : row.length = freqs.length) (hh : ∀ r ∈ row, Holds t r.1 ∧ Holds t r.2) (f : ℚ) :
    ∃ idx v, evalIndexF freqs f = .ok idx ∧ evalAtF t row idx = .ok v ∧ IsEvalF t freqs row f v := by
  obtain ⟨hu, hu1, ht0, htu⟩ := ht.unit_bounds
  obtain ⟨idx, hidx, hc⟩ := evalIndexF_spec freqs hs h0 hn f
  refine ⟨idx, ?_⟩
  have key : ∀ v, ((f ≤ freqs[0] ∧ v = row[0]) ∨ (freqs[freqs.length - 1] ≤ f ∧ v = row[freqs.length - 1]) ∨
      ∃ j, ∃ hj : j + 1 < freqs.length, freqs[j] ≤ f ∧ f < freqs[j + 1] ∧ (f = freqs[j] → v = row[j]) ∧
        |v.1 - (row[j].1 + (f - freqs[j]) / (freqs[j + 1] - freqs[j]) * (row[j + 1].1 - row[j].1))| ≤
          (j + 8) / 2 ^ 53 * |row[j + 1].1 - row[j].1| + (8 * t.unit * (|row[j].1| + |row[j + 1].1|) + 4 * t.tiny) ∧
        |v.2 - (row[j].2 + (f - freqs[j]) / (freqs[j + 1] - freqs[j]) * (row[j + 1].2 - row[j].2))| ≤
          (j + 8) / 2 ^ 53 * |row[j + 1].2 - row[j].2| + (8 * t.unit * (|row[j].2| + |row[j + 1].2|) + 4 * t.tiny) ∧
        (row[j] = row[j + 1] → v = row[j])) → IsEvalF t freqs row f v := by
    intro v h
    have hon : ∀ (j : ℕ) (y : ℚ × ℚ), freqs[j]? = some f → row[j]? = some y → v = y := by
      intro i y hi hy
      obtain ⟨hi', rfl⟩ := List.getElem?_eq_some_iff.mp hi
      obtain ⟨_, rfl⟩ := List.getElem?_eq_some_iff.mp hy
      rcases h with ⟨h1, rfl⟩ | ⟨h1, rfl⟩ | ⟨j, hj, h1, h2, h3, -⟩
      · have : i = 0 := by
          by_contra hne
          have := pairwise_get hs (show 0 < i by omega) hi'
          linarith
        subst this; rfl
      · have : freqs.length - 1 = i := by
          by_contra hne
          have := pairwise_get hs (show i < freqs.length - 1 by omega) (by omega)
          linarith
        simp only [this]
      · have : j = i := by
          rcases lt_trichotomy i j with hij | hij | hij
          · have := pairwise_get hs hij (by omega)
            linarith
          · exact hij.symm
          · have := pairwise_get_le hs (show j + 1 ≤ i by omega) hi'
            linarith
        subst this
        exact h3 rfl
    refine ⟨hon, ?_, ?_, ?_⟩
    · intro a y ha hy hle
      rw [List.head?_eq_getElem?] at ha hy
      obtain ⟨_, ea⟩ := List.getElem?_eq_some_iff.mp ha
      obtain ⟨_, ey⟩ := List.getElem?_eq_some_iff.mp hy
      subst ea ey
      rcases h with ⟨h1, rfl⟩ | ⟨h1, rfl⟩ | ⟨j, hj, h1, h2, h3, -⟩
      · rfl
      · have : freqs.length - 1 = 0 := by
          by_contra hne
          have := pairwise_get hs (show 0 < freqs.length - 1 by omega) (by omega)
          linarith
        simp only [this]
      · have : j = 0 := by
          by_contra hne
          have := pairwise_get hs (show 0 < j by omega) (by omega)
          linarith
        subst this
        exact h3 (le_antisymm hle h1)
    · intro b y hb hy hle
      rw [List.getLast?_eq_getElem?] at hb hy
      obtain ⟨_, eb⟩ := List.getElem?_eq_some_iff.mp hb
      obtain ⟨_, ey⟩ := List.getElem?_eq_some_iff.mp hy
      subst eb ey
      rcases h with ⟨h1, rfl⟩ | ⟨h1, rfl⟩ | ⟨j, hj, h1, h2, -⟩
      · have : row.length - 1 = 0 := by
          by_contra hne
          have := pairwise_get hs (show 0 < freqs.length - 1 by omega) (by omega)
          linarith
        simp only [this]
      · simp only [hrow]
      · have := pairwise_get_le hs (show j + 1 ≤ freqs.length - 1 by omega) (by omega)
        linarith
    · intro i a b lo hi ha hb hlo hhi h1 h2
      have pos : ∀ y z w : ℚ, 0 ≤ ((i : ℚ) + 8) / 2 ^ 53 * |w| + 8 * t.unit * (|y| + |z|) + 4 * t.tiny := fun y z w => by positivity
      obtain ⟨hi', ea⟩ := List.getElem?_eq_some_iff.mp ha
      obtain ⟨hi1, eb⟩ := List.getElem?_eq_some_iff.mp hb
      have hlt := pairwise_get hs (Nat.lt_succ_self i) hi1
      rw [ea, eb] at hlt
      rcases eq_or_lt_of_le h1 with heq | hgt
      · subst heq
        rw [hon i lo ha hlo]
        refine ⟨?_, ?_, fun _ => rfl⟩ <;> rw [sub_self, zero_div, zero_mul, add_zero, sub_self, abs_zero] <;> exact pos _ _ _
      rcases eq_or_lt_of_le h2 with heq | hlt2
      · subst heq
        rw [hon (i + 1) hi hb hhi, div_self (by linarith)]
        refine ⟨?_, ?_, fun h => h.symm⟩
        · rw [show hi.1 - (lo.1 + 1 * (hi.1 - lo.1)) = 0 by ring, abs_zero]; exact pos _ _ _
        · rw [show hi.2 - (lo.2 + 1 * (hi.2 - lo.2)) = 0 by ring, abs_zero]; exact pos _ _ _
      rcases h with ⟨h3, -⟩ | ⟨h3, -⟩ | ⟨j, hj, h3, h4, -, hv1, hv2, hv3⟩
      · have := pairwise_get_le hs (Nat.zero_le i) hi'
        linarith
      · have := pairwise_get_le hs (show i + 1 ≤ freqs.length - 1 by omega) (by omega)
        linarith
      · have : j = i := by
          rcases lt_trichotomy i j with hij | hij | hij
          · have := pairwise_get_le hs (show i + 1 ≤ j by omega) (by omega)
            linarith
          · exact hij.symm
          · have := pairwise_get_le hs (show j + 1 ≤ i by omega) hi'
            linarith
        subst this
        obtain ⟨_, rfl⟩ := List.getElem?_eq_some_iff.mp hlo
        obtain ⟨_, rfl⟩ := List.getElem?_eq_some_iff.mp hhi
        rw [ea, eb] at hv1 hv2
        exact ⟨by rw [add_assoc]; exact hv1, by rw [add_assoc]; exact hv2, hv3⟩
  rcases hc with ⟨h1, rfl⟩ | ⟨h1, rfl⟩ | ⟨j, hj, h1, h2, hb, hone, hlo, hhi, hnear⟩
  · refine ⟨_, hidx, ?_, key _ (Or.inl ⟨h1, rfl⟩)⟩
    have := evalAtF_nat ht row hh 0 (by omega)
    simpa using this
  · exact ⟨_, hidx, evalAtF_nat ht row hh _ (by omega), key _ (Or.inr (Or.inl ⟨h1, rfl⟩))⟩
  · obtain ⟨v, hv, e1, e2, e3⟩ := evalAtF_between ht row hh j (by omega) idx hb hlo hhi
    have hn2 : |idx - j - (f - freqs[j]) / (freqs[j + 1] - freqs[j])| ≤ ((j : ℚ) + 8) / 2 ^ 53 := by
      rw [sub_sub]; exact hnear
    refine ⟨v, hidx, hv, key v (Or.inr (Or.inr ⟨j, hj, h1, h2, ?_, part_total e1 hn2, part_total e2 hn2, e3⟩))⟩
    intro hf
    have := hone hf
    rw [this, evalAtF_nat ht row hh j (by omega), Except.ok.injEq] at hv
    exact hv.symm

/-- **C83 (no calibration data)**: tables without rows, or with columns of different lengths, are refused. -/
theorem C83_calibration_refused (xs ys : List ℚ) (f : ℚ) (h : xs = [] ∨ xs.length ≠ ys.length) : calInterpF xs ys f = .error .value := by
  unfold calInterpF
  by_cases hl : xs.length = ys.length
  · rcases h with h | h
    · subst h
      rw [if_neg (by simpa using hl)]
      rfl
    · exact absurd hl h
  · rw [if_pos hl]

end Resistics
