import Verif.Model.Smooth64
import Verif.Props.Spectra
import Verif.Props.Robust64

/-!
# C86: smoothing in floating point numbers
-/

namespace Resistics

/-- Specification: the mean of the `2 h + 1` values around position `i`. -/
def meanAround (ext : ℤ → ℚ) (h : ℕ) (i : ℤ) : ℚ := (∑ d ∈ Finset.range (2 * h + 1), ext (i - h + d)) / (2 * h + 1 : ℕ)

theorem meanAround_step (ext : ℤ → ℚ) (h : ℕ) (i : ℤ) :
    meanAround ext h (i + 1) = meanAround ext h i + (ext (i + h + 1) - ext (i - h)) / (2 * h + 1 : ℕ) := by
  unfold meanAround
  have e1 : ∑ d ∈ Finset.range (2 * h + 1), ext (i + 1 - h + d) + ext (i - h) =
      ∑ d ∈ Finset.range (2 * h + 1), ext (i - h + d) + ext (i + h + 1) := by
    have s1 := Finset.sum_range_succ (fun d : ℕ => ext (i - h + d)) (2 * h + 1)
    have s2 := Finset.sum_range_succ' (fun d : ℕ => ext (i - h + d)) (2 * h + 1)
    rw [s1] at s2
    have e2 : i - (h : ℤ) + ((2 * h + 1 : ℕ) : ℤ) = i + h + 1 := by push_cast; ring
    have e3 : ∀ d : ℕ, i + 1 - (h : ℤ) + d = i - h + ((d + 1 : ℕ) : ℤ) := by intro d; push_cast; ring
    simp only [e3]
    rw [e2] at s2
    simp only [Nat.cast_zero, add_zero] at s2
    exact s2.symm
  rw [← add_div]
  congr 1
  linarith

theorem meanAround_abs (ext : ℤ → ℚ) (M : ℚ) (hM : ∀ j, |ext j| ≤ M) (h : ℕ) (i : ℤ) : |meanAround ext h i| ≤ M := by
  unfold meanAround
  have hpos : (0 : ℚ) < (2 * h + 1 : ℕ) := by exact_mod_cast Nat.succ_pos _
  rw [abs_div, abs_of_pos hpos, div_le_iff₀ hpos]
  refine (Finset.abs_sum_le_sum_abs _ _).trans ?_
  refine (Finset.sum_le_sum fun (d : ℕ) _ => hM (i - h + d)).trans ?_
  rw [Finset.sum_const, Finset.card_range, nsmul_eq_mul, mul_comm]

theorem fl_close {a' a E A : ℚ} (h1 : |a' - a| ≤ E) (h2 : |a| ≤ A) : |fl a' - a| ≤ E + unitRoundoff * (A + E) := by
  have h3 := fl_near a'
  have h4 : |a'| ≤ A + E := by
    have := abs_add_le (a' - a) a
    rw [sub_add_cancel] at this
    linarith
  have h5 : |a'| * unitRoundoff ≤ (A + E) * unitRoundoff := mul_le_mul_of_nonneg_right h4 unit_pos.le
  have h6 := abs_sub_le (fl a') a' a
  linarith

/-- the first sum -/
theorem firstSumF_near (f : ℕ → ℚ) (M : ℚ) (hM : ∀ j, |f j| ≤ M) (k : ℕ) (hk : k ≤ 2 ^ 53) :
    |firstSumF ((List.range k).map f) - ∑ d ∈ Finset.range k, f d| ≤ (k : ℚ) ^ 2 * unitRoundoff * M := by
  induction k with
  | zero => simp [firstSumF]
  | succ k ih =>
    have ih := ih (by omega)
    have e1 : firstSumF ((List.range (k + 1)).map f) = fl (firstSumF ((List.range k).map f) + f k) := by
      simp [firstSumF, List.range_succ]
    rw [e1, Finset.sum_range_succ]
    have hs : |∑ d ∈ Finset.range k, f d + f k| ≤ (k + 1) * M := by
      rw [← Finset.sum_range_succ]
      refine (Finset.abs_sum_le_sum_abs _ _).trans ((Finset.sum_le_sum fun d _ => hM d).trans ?_)
      rw [Finset.sum_const, Finset.card_range, nsmul_eq_mul]
      push_cast
      exact le_rfl
    have hd : |firstSumF ((List.range k).map f) + f k - (∑ d ∈ Finset.range k, f d + f k)| ≤ (k : ℚ) ^ 2 * unitRoundoff * M := by
      rw [add_sub_add_right_eq_sub]; exact ih
    refine (fl_close hd hs).trans ?_
    have hM0 : 0 ≤ M := (abs_nonneg _).trans (hM 0)
    have hku : (k : ℚ) * unitRoundoff ≤ 1 := by
      have : (k : ℚ) ≤ 2 ^ 53 := by exact_mod_cast (show k ≤ 2 ^ 53 by omega)
      unfold unitRoundoff
      rw [mul_one_div, div_le_one (by positivity)]
      exact this
    have hu := unit_pos
    have h1 : (k : ℚ) * unitRoundoff * (k * (unitRoundoff * M)) ≤ 1 * (k * (unitRoundoff * M)) :=
      mul_le_mul_of_nonneg_right hku (by positivity)
    push_cast
    nlinarith

/-- One step of the running mean. -/
theorem runningF_step {tmp m a b M E : ℚ} (L : ℕ) (hL : 1 ≤ L) (ha : |a| ≤ M) (hb : |b| ≤ M) (ht : |tmp - m| ≤ E)
    (hm : |m + (b - a) / L| ≤ M) :
    |fl (tmp + fl (fl (b - a) / L)) - (m + (b - a) / L)| ≤ E + unitRoundoff * E + 7 * (unitRoundoff * M) := by
  have hu := unit_pos
  have hu1 : unitRoundoff ≤ 1 / 100 := by unfold unitRoundoff; norm_num
  have hM0 : 0 ≤ M := (abs_nonneg _).trans ha
  have hE0 : 0 ≤ E := (abs_nonneg _).trans ht
  have hL1 : (1 : ℚ) ≤ L := by exact_mod_cast hL
  have hd : |b - a| ≤ 2 * M := by have := abs_sub b a; linarith
  have h1 : |fl (b - a) - (b - a)| ≤ 2 * M * unitRoundoff := (fl_near _).trans (mul_le_mul_of_nonneg_right hd hu.le)
  have h2 : |fl (b - a) / L - (b - a) / L| ≤ 2 * M * unitRoundoff := by
    rw [← sub_div, abs_div, abs_of_pos (show (0 : ℚ) < L by linarith)]
    refine (div_le_self (abs_nonneg _) hL1).trans h1
  have h3 : |(b - a) / (L : ℚ)| ≤ 2 * M := by
    rw [abs_div, abs_of_pos (show (0 : ℚ) < L by linarith)]
    exact (div_le_self (abs_nonneg _) hL1).trans hd
  have h4 := fl_close h2 h3
  have h5 : |tmp + fl (fl (b - a) / L) - (m + (b - a) / L)| ≤
      E + (2 * M * unitRoundoff + unitRoundoff * (2 * M + 2 * M * unitRoundoff)) := by
    have : tmp + fl (fl (b - a) / L) - (m + (b - a) / L) = (tmp - m) + (fl (fl (b - a) / L) - (b - a) / L) := by ring
    rw [this]
    exact (abs_add_le _ _).trans (add_le_add ht h4)
  refine (fl_close h5 hm).trans ?_
  have k1 : unitRoundoff * (unitRoundoff * M) ≤ 1 / 100 * (unitRoundoff * M) := mul_le_mul_of_nonneg_right hu1 (by positivity)
  have k2 : unitRoundoff * (unitRoundoff * (unitRoundoff * M)) ≤ 1 / 100 * (1 / 100 * (unitRoundoff * M)) :=
    mul_le_mul hu1 k1 (by positivity) (by norm_num)
  nlinarith

theorem runningF_length (L : ℕ) (tmp : ℚ) (ps : List (ℚ × ℚ)) : (runningF L tmp ps).length = ps.length + 1 := by
  induction ps generalizing tmp with
  | nil => rfl
  | cons p rest ih => simp [runningF, ih]

/-- All steps of the running mean. -/
theorem runningF_close (ext : ℤ → ℚ) (M : ℚ) (hM : ∀ j, |ext j| ≤ M) (h n : ℕ) (k i0 : ℕ) (hk : i0 + k ≤ n) (hn : 2 * h + 1 + 8 * n ≤ 2 ^ 50) (tmp : ℚ)
    (ht : |tmp - meanAround ext h i0| ≤ (2 * h + 3 + 8 * i0 : ℕ) * (unitRoundoff * M)) (j : ℕ) (v : ℚ)
    (hv : (runningF (2 * h + 1) tmp ((List.range k).map fun (j : ℕ) => (ext ((i0 + j : ℕ) - h), ext ((i0 + j : ℕ) + h + 1))))[j]? = some v) :
    |v - meanAround ext h (i0 + j : ℕ)| ≤ (2 * h + 3 + 8 * (i0 + j) : ℕ) * (unitRoundoff * M) := by
  induction k generalizing i0 tmp j with
  | zero =>
    cases j with
    | zero =>
      simp only [List.range_zero, List.map_nil, runningF, List.getElem?_cons_zero, Option.some.injEq] at hv
      subst hv
      exact ht
    | succ j => simp [runningF] at hv
  | succ k ih =>
    rw [List.range_succ_eq_map, List.map_cons, List.map_map] at hv
    cases j with
    | zero =>
      simp only [runningF, List.getElem?_cons_zero, Option.some.injEq] at hv
      subst hv
      exact ht
    | succ j =>
      simp only [runningF, List.getElem?_cons_succ, add_zero] at hv
      have e1 : ((fun (j : ℕ) => (ext ((i0 + j : ℕ) - h), ext ((i0 + j : ℕ) + h + 1))) ∘ Nat.succ) =
          fun (j : ℕ) => (ext ((i0 + 1 + j : ℕ) - h), ext ((i0 + 1 + j : ℕ) + h + 1)) := by
        funext j
        simp only [Function.comp_apply, Nat.succ_eq_add_one]
        rw [show i0 + (j + 1) = i0 + 1 + j by omega]
      rw [e1] at hv
      have hstep : |fl (tmp + fl (fl (ext ((i0 : ℕ) + h + 1) - ext ((i0 : ℕ) - h)) / (2 * h + 1 : ℕ))) - meanAround ext h ((i0 + 1 : ℕ) : ℤ)| ≤
          (2 * h + 3 + 8 * (i0 + 1) : ℕ) * (unitRoundoff * M) := by
        rw [show ((i0 + 1 : ℕ) : ℤ) = (i0 : ℤ) + 1 by push_cast; rfl, meanAround_step]
        have hm := meanAround_abs ext M hM h ((i0 : ℤ) + 1)
        rw [meanAround_step] at hm
        refine (runningF_step (2 * h + 1) (by omega) (hM _) (hM _) ht hm).trans ?_
        have hM0 : 0 ≤ M := (abs_nonneg _).trans (hM 0)
        have hu := unit_pos
        have hb : unitRoundoff * ((2 * h + 3 + 8 * i0 : ℕ) : ℚ) ≤ 1 := by
          have : ((2 * h + 3 + 8 * i0 : ℕ) : ℚ) ≤ 2 ^ 53 := by exact_mod_cast (show 2 * h + 3 + 8 * i0 ≤ 2 ^ 53 by omega)
          unfold unitRoundoff
          rw [one_div_mul_eq_div, div_le_one (by positivity)]
          exact this
        have h1 : unitRoundoff * ((2 * h + 3 + 8 * i0 : ℕ) : ℚ) * (unitRoundoff * M) ≤ 1 * (unitRoundoff * M) :=
          mul_le_mul_of_nonneg_right hb (by positivity)
        have h2 : ((2 * h + 3 + 8 * (i0 + 1) : ℕ) : ℚ) = ((2 * h + 3 + 8 * i0 : ℕ) : ℚ) + 8 := by push_cast; ring
        rw [h2]
        nlinarith
      have := ih (i0 + 1) (by omega) _ hstep j hv
      rw [show i0 + (j + 1) = i0 + 1 + j by omega]
      exact this

/-- The line of SciPy is the row continued by mirror images. -/
theorem mirrorAt_mirrored {row : List ℚ} {ext : ℤ → ℚ} (hext : Mirrored row ext) (hne : row ≠ []) (back : ℤ) (j : ℕ) :
    mirrorAt row back j = ext (j - back) := by
  unfold mirrorAt
  rw [hext.reflect hne, Option.getD_some]

theorem mirrored_abs {row : List ℚ} {ext : ℤ → ℚ} (hext : Mirrored row ext) (hne : row ≠ []) {M : ℚ} (hM : ∀ x ∈ row, |x| ≤ M) (j : ℤ) :
    |ext j| ≤ M := hM _ (List.mem_of_getElem? (hext.reflect hne j))

theorem uniformFilterF_length (row : List ℚ) (size : ℕ) : (uniformFilterF row size).length = row.length := by
  unfold uniformFilterF
  by_cases h : row.length = 0
  · simp [h]
  · rw [if_neg h]
    simp only [runningF_length, List.length_map, List.length_range]
    omega

theorem uniformFilterF_mirrored {row : List ℚ} {ext : ℤ → ℚ} (hext : Mirrored row ext) (hne : row ≠ []) (h : ℕ) :
    uniformFilterF row (2 * h + 1) =
      runningF (2 * h + 1) (fl (firstSumF ((List.range (2 * h + 1)).map fun (j : ℕ) => ext (-h + j)) / (2 * h + 1 : ℕ)))
        ((List.range (row.length - 1)).map fun (j : ℕ) => (ext ((0 + j : ℕ) - h), ext ((0 + j : ℕ) + h + 1))) := by
  have h0 : row.length ≠ 0 := fun e => hne (List.length_eq_zero_iff.1 e)
  have e2 : (2 * h + 1) / 2 = h := by omega
  unfold uniformFilterF
  rw [if_neg h0]
  simp only [mirrorAt_mirrored hext hne, e2]
  congr 1
  · congr 3
    apply List.map_congr_left
    intro j _
    rw [mirrorAt_mirrored hext hne]
    congr 1
    ring
  · apply List.map_congr_left
    intro j _
    rw [zero_add]
    congr 2
    push_cast
    ring

/-- **C86**. The uniform smoother in floating point numbers keeps the number of frequencies, and its value at position `i` is the mean of the
values around it up to an error that grows with the length of the smoother and with the position, in units of the largest value of the whole row. -/
theorem C86_uniform_close (row : List ℚ) (ext : ℤ → ℚ) (hext : Mirrored row ext) (M : ℚ) (hM : ∀ x ∈ row, |x| ≤ M) (h : ℕ)
    (hn : 2 * h + 1 + 8 * row.length ≤ 2 ^ 50) :
    (uniformFilterF row (2 * h + 1)).length = row.length ∧
    ∀ (i : ℕ) (v : ℚ), (uniformFilterF row (2 * h + 1))[i]? = some v →
      |v - (∑ d ∈ Finset.range (2 * h + 1), ext (i - h + d)) / (2 * h + 1 : ℕ)| ≤ (2 * h + 3 + 8 * i : ℕ) * (M / 2 ^ 53) := by
  refine ⟨uniformFilterF_length _ _, fun i v hv => ?_⟩
  have hne : row ≠ [] := by
    rintro rfl
    simp [uniformFilterF] at hv
  have hb := fun j => mirrored_abs hext hne hM j
  have hM0 : 0 ≤ M := (abs_nonneg _).trans (hb 0)
  rw [uniformFilterF_mirrored hext hne] at hv
  have hu := unit_pos
  have ht : |fl (firstSumF ((List.range (2 * h + 1)).map fun (j : ℕ) => ext (-h + j)) / (2 * h + 1 : ℕ)) - meanAround ext h ((0 : ℕ) : ℤ)| ≤
      (2 * h + 3 + 8 * 0 : ℕ) * (unitRoundoff * M) := by
    have h1 := firstSumF_near (fun j : ℕ => ext (-h + j)) M (fun j => hb _) (2 * h + 1) (by omega)
    have hL : (0 : ℚ) < (2 * h + 1 : ℕ) := by exact_mod_cast Nat.succ_pos _
    have h2 : |firstSumF ((List.range (2 * h + 1)).map fun (j : ℕ) => ext (-h + j)) / (2 * h + 1 : ℕ) - meanAround ext h ((0 : ℕ) : ℤ)| ≤
        (2 * h + 1 : ℕ) * (unitRoundoff * M) := by
      unfold meanAround
      rw [← sub_div, abs_div, abs_of_pos hL, div_le_iff₀ hL]
      have e : ∀ d : ℕ, ((0 : ℕ) : ℤ) - (h : ℤ) + d = -h + d := by intro d; push_cast; ring
      simp only [e]
      refine h1.trans (le_of_eq ?_)
      ring
    refine (fl_close h2 (meanAround_abs ext M hb h _)).trans ?_
    have hbL : unitRoundoff * ((2 * h + 1 : ℕ) : ℚ) ≤ 1 := by
      have : ((2 * h + 1 : ℕ) : ℚ) ≤ 2 ^ 53 := by exact_mod_cast (show 2 * h + 1 ≤ 2 ^ 53 by omega)
      unfold unitRoundoff
      rw [one_div_mul_eq_div, div_le_one (by positivity)]
      exact this
    have h3 : unitRoundoff * ((2 * h + 1 : ℕ) : ℚ) * (unitRoundoff * M) ≤ 1 * (unitRoundoff * M) := mul_le_mul_of_nonneg_right hbL (by positivity)
    have h4 : ((2 * h + 3 + 8 * 0 : ℕ) : ℚ) = ((2 * h + 1 : ℕ) : ℚ) + 2 := by push_cast; ring
    rw [h4]
    nlinarith
  have := runningF_close ext M hb h row.length (row.length - 1) 0 (by omega) (by omega) _ ht i v hv
  rw [zero_add] at this
  have e : unitRoundoff * M = M / 2 ^ 53 := by unfold unitRoundoff; ring
  rw [e] at this
  exact this

/-- **C86**. The length of the uniform smoother, whose product is rounded, is odd and at least one, and is the requested proportion of the
frequencies up to one and the rounding of the product. -/
theorem C86_smooth_length (prop : ℚ) (n : ℕ) :
    getSmoothLengthF prop n % 2 = 1 ∧ 1 ≤ getSmoothLengthF prop n ∧
    (0 ≤ prop → (getSmoothLengthF prop n : ℚ) ≤ prop * n * (1 + 1 / 2 ^ 53) + 1 ∧ prop * n * (1 - 1 / 2 ^ 53) - 1 < getSmoothLengthF prop n) ∧
    (prop ≤ 0 → getSmoothLengthF prop n = 1) := by
  have e : getSmoothLengthF prop n = getSmoothLength (fl (prop * n)) 1 := by
    simp [getSmoothLengthF, getSmoothLength]
  have h := C28_smooth_length (fl (prop * n)) 1
  rw [← e, Nat.cast_one, mul_one] at h
  refine ⟨h.1, h.2.1, fun hp => ?_, fun hp => h.2.2.2 ?_⟩
  · have h0 : 0 ≤ prop * n := by positivity
    have h1 := h.2.2.1 (fl_nonneg h0)
    have h2 := abs_le.1 (fl_near (prop * n))
    rw [abs_of_nonneg h0] at h2
    unfold unitRoundoff at h2
    constructor <;> nlinarith
  · have h0 : prop * n ≤ 0 := mul_nonpos_of_nonpos_of_nonneg hp (by positivity)
    have := fl_mono h0
    rwa [fl_zero] at this

/-- the running mean over one point when all numbers are small multiples of a unit -/
theorem runningF_one (e : ℤ) (k0 : ℤ) (ks : List ℤ) (h0 : |k0| ≤ 2 ^ 52) (hk : ∀ k ∈ ks, |k| ≤ 2 ^ 52) :
    runningF 1 ((k0 : ℚ) * 2 ^ e) (((k0 :: ks).zip ks).map fun p => ((p.1 : ℚ) * 2 ^ e, (p.2 : ℚ) * 2 ^ e)) =
      (k0 :: ks).map fun (k : ℤ) => (k : ℚ) * 2 ^ e := by
  induction ks generalizing k0 with
  | nil => rfl
  | cons k1 ks ih =>
    have h1 := hk k1 (List.mem_cons_self ..)
    have e1 : ((k1 : ℚ) * 2 ^ e - (k0 : ℚ) * 2 ^ e) = ((k1 - k0 : ℤ) : ℚ) * 2 ^ e := by push_cast; ring
    have hb : Bits53 ((k1 : ℚ) * 2 ^ e - (k0 : ℚ) * 2 ^ e) := by
      rw [e1]
      refine bits53_of_le ?_
      have := abs_sub k1 k0
      have e3 : (2 : ℤ) ^ 53 = 2 ^ 52 + 2 ^ 52 := by norm_num
      omega
    have e4 : fl ((k0 : ℚ) * 2 ^ e + fl (fl ((k1 : ℚ) * 2 ^ e - (k0 : ℚ) * 2 ^ e) / (1 : ℕ))) = (k1 : ℚ) * 2 ^ e := by
      rw [hb.fl_eq, Nat.cast_one, div_one, hb.fl_eq, add_sub_cancel]
      exact (bits53_of_le (h1.trans (by norm_num))).fl_eq
    rw [List.zip_cons_cons, List.map_cons, List.map_cons]
    simp only [runningF]
    rw [e4, ih k1 h1 (fun k hk' => hk k (List.mem_cons_of_mem _ hk'))]

/-- The smoother over one point. -/
theorem uniformFilterF_one (x : ℚ) (xs : List ℚ) :
    uniformFilterF (x :: xs) 1 = runningF 1 (fl (fl x)) ((x :: xs).zip xs) := by
  unfold uniformFilterF
  rw [if_neg (by simp)]
  have hm : ∀ j (hj : j < (x :: xs).length), mirrorAt (x :: xs) (((1 / 2 : ℕ)) : ℤ) j = (x :: xs)[j] := by
    intro j hj
    unfold mirrorAt
    rw [show ((j : ℤ) - ((1 / 2 : ℕ) : ℤ)) = (j : ℤ) by simp, reflectIndex_inside _ _ hj, List.getElem?_eq_getElem hj, Option.getD_some]
  refine congrArg₂ (runningF 1) ?_ ?_
  · simp only [List.range_one, List.map_cons, List.map_nil, firstSumF, List.foldl_cons, List.foldl_nil, zero_add, Nat.cast_one, div_one]
    rw [hm 0 (by simp)]
    rfl
  · apply List.ext_getElem
    · simp
    · intro j h1 h2
      simp only [List.length_map, List.length_range, List.length_cons, Nat.add_sub_cancel] at h1
      simp only [List.getElem_map, List.getElem_range, List.getElem_zip]
      rw [hm j (by simp; omega), hm (j + 1) (by simp; omega)]
      rfl

/-- **C86**. Over one point the smoother changes nothing as long as all values are whole multiples of one unit, of at most 2^52 units ... -/
theorem C86_one_point_exact (e : ℤ) (ks : List ℤ) (hk : ∀ k ∈ ks, |k| ≤ 2 ^ 52) :
    uniformFilterF (ks.map fun (k : ℤ) => (k : ℚ) * 2 ^ e) 1 = ks.map fun (k : ℤ) => (k : ℚ) * 2 ^ e := by
  cases ks with
  | nil => rfl
  | cons k0 ks =>
    have h0 := hk k0 (List.mem_cons_self ..)
    have hb : fl ((k0 : ℚ) * 2 ^ e) = (k0 : ℚ) * 2 ^ e := (bits53_of_le (h0.trans (by norm_num))).fl_eq
    rw [List.map_cons, uniformFilterF_one, hb, hb]
    have := runningF_one e k0 ks h0 (fun k h => hk k (List.mem_cons_of_mem _ h))
    rw [List.map_cons] at this
    refine Eq.trans (congrArg (runningF 1 _) ?_) this
    rw [← List.map_cons (f := fun (k : ℤ) => (k : ℚ) * 2 ^ e), List.zip_map]
    rfl

theorem runningF_stays (L : ℕ) (tmp : ℚ) (ht : Bits53 tmp) (n : ℕ) (c : ℚ) :
    runningF L tmp (List.replicate n (c, c)) = List.replicate (n + 1) tmp := by
  induction n with
  | zero => rfl
  | succ n ih =>
    rw [List.replicate_succ, runningF]
    simp only [sub_self, fl_zero, zero_div, add_zero]
    rw [ht.fl_eq, ih, ← List.replicate_succ]

/-- **C86**. ... but a large value erases all small ones at the frequencies above it: one value of 2^60 followed by any number of ones,
smoothed over a single point, is followed by zeros. -/
theorem C86_large_value_erases (n : ℕ) :
    uniformFilterF (2 ^ 60 :: List.replicate n 1) 1 = 2 ^ 60 :: List.replicate n 0 := by
  rw [uniformFilterF_one]
  have e1 : fl (fl (2 ^ 60)) = 2 ^ 60 := by decide +kernel
  rw [e1]
  cases n with
  | zero => rfl
  | succ n =>
    rw [List.replicate_succ, List.zip_cons_cons, runningF]
    have e2 : fl (2 ^ 60 + fl (fl (1 - 2 ^ 60) / (1 : ℕ))) = 0 := by decide +kernel
    have e3 : (List.replicate (n + 1) (1 : ℚ)).zip (List.replicate n 1) = List.replicate n ((1 : ℚ), (1 : ℚ)) := by
      apply List.ext_getElem
      · simp
      · intro j h1 h2
        simp
    rw [List.replicate_succ] at e3
    simp only [e2, e3]
    rw [runningF_stays _ _ bits53_zero]

/-- **C86**. A spectrum that is constant stays constant, if not exactly at its value. -/
theorem C86_constant (n : ℕ) (c : ℚ) (h : ℕ) (hn : 2 * h + 1 + 8 * n ≤ 2 ^ 50) :
    ∃ v, uniformFilterF (List.replicate n c) (2 * h + 1) = List.replicate n v ∧ |v - c| ≤ (2 * h + 3 : ℕ) * (|c| / 2 ^ 53) := by
  cases n with
  | zero => exact ⟨c, rfl, by simp; positivity⟩
  | succ n =>
    have hext : Mirrored (List.replicate (n + 1) c) (fun _ => c) := by
      refine ⟨fun k x hx => ?_, fun _ => rfl, fun _ => rfl⟩
      have := List.mem_of_getElem? hx
      exact (List.eq_of_mem_replicate this).symm
    have hm := uniformFilterF_mirrored hext (by simp) h
    have hs := C86_uniform_close _ _ hext |c| (fun x hx => by rw [List.eq_of_mem_replicate hx]) h (by simpa using hn)
    have e : (List.range ((List.replicate (n + 1) c).length - 1)).map (fun (_ : ℕ) => (c, c)) = List.replicate n (c, c) := by
      rw [List.map_const']
      simp
    rw [e, runningF_stays _ _ (fl_bits53 _)] at hm
    refine ⟨_, hm, ?_⟩
    have h2 := hs.2 0 _ (by rw [hm, List.replicate_succ, List.getElem?_cons_zero])
    rw [Finset.sum_const, Finset.card_range, nsmul_eq_mul, mul_div_cancel_left₀ _ (by positivity)] at h2
    simpa using h2

end Resistics
