import Verif.Props.Smooth64
import Verif.Props.Eval64Run

/-!
# C86: the Gaussian smoother, and whole spectra
-/

namespace Resistics

/-- The weights of the neighbours at the distances 1 to `r`, the farthest first. -/
theorem far_succ (w : ℕ → ℚ) (r : ℕ) :
    (List.range (r + 1)).reverse.map (fun d => w (d + 1)) = w (r + 1) :: (List.range r).reverse.map (fun d => w (d + 1)) := by
  rw [List.range_succ, List.reverse_append]
  rfl

theorem correlateAtF_step {acc A a b w M W : ℚ} {C : ℕ} (hC : 3 ≤ C) (hC1 : C ≤ 2 ^ 53) (ha : |a| ≤ M) (hb : |b| ≤ M) (hw : 0 ≤ w) (hW : 0 ≤ W)
    (hA : |A| ≤ M * W) (hacc : |acc - A| ≤ C * (unitRoundoff * (M * W))) :
    |fl (acc + fl (fl (a + b) * w)) - (A + (a + b) * w)| ≤ ((C + 2 : ℕ) : ℚ) * (unitRoundoff * (M * (W + 2 * w))) := by
  have hu := unit_pos
  have hu1 : unitRoundoff ≤ 1 / 100 := by unfold unitRoundoff; norm_num
  have hM0 : 0 ≤ M := (abs_nonneg _).trans ha
  have hs : |a + b| ≤ 2 * M := by have := abs_add_le a b; linarith
  have h1 : |fl (a + b) - (a + b)| ≤ 2 * M * unitRoundoff := (fl_near _).trans (mul_le_mul_of_nonneg_right hs hu.le)
  have h2 : |fl (a + b) * w - (a + b) * w| ≤ 2 * M * unitRoundoff * w := by
    rw [← sub_mul, abs_mul, abs_of_nonneg hw]
    exact mul_le_mul_of_nonneg_right h1 hw
  have h3 : |(a + b) * w| ≤ 2 * M * w := by
    rw [abs_mul, abs_of_nonneg hw]
    exact mul_le_mul_of_nonneg_right hs hw
  have h4 := fl_close h2 h3
  have k0 : 0 ≤ unitRoundoff * (M * w) := by positivity
  have k1 : unitRoundoff * (unitRoundoff * (M * w)) ≤ 1 / 100 * (unitRoundoff * (M * w)) := mul_le_mul_of_nonneg_right hu1 k0
  have h5 : |fl (fl (a + b) * w) - (a + b) * w| ≤ 6 * (unitRoundoff * (M * w)) := by
    refine h4.trans ?_
    nlinarith
  have hCq : (3 : ℚ) ≤ C := by exact_mod_cast hC
  have h6 : |acc + fl (fl (a + b) * w) - (A + (a + b) * w)| ≤ C * (unitRoundoff * (M * (W + 2 * w))) := by
    have : acc + fl (fl (a + b) * w) - (A + (a + b) * w) = (acc - A) + (fl (fl (a + b) * w) - (a + b) * w) := by ring
    rw [this]
    refine (abs_add_le _ _).trans ((add_le_add hacc h5).trans ?_)
    have : 3 * (unitRoundoff * (M * w)) ≤ C * (unitRoundoff * (M * w)) := mul_le_mul_of_nonneg_right hCq k0
    nlinarith
  have h7 : |A + (a + b) * w| ≤ M * (W + 2 * w) := by
    have := abs_add_le A ((a + b) * w)
    nlinarith
  refine (fl_close h6 h7).trans ?_
  have hCu : unitRoundoff * (C : ℚ) ≤ 1 := by
    have : (C : ℚ) ≤ 2 ^ 53 := by exact_mod_cast hC1
    unfold unitRoundoff
    rw [one_div_mul_eq_div, div_le_one (by positivity)]
    exact this
  have hP : 0 ≤ unitRoundoff * (M * (W + 2 * w)) := by positivity
  have h8 : unitRoundoff * (C : ℚ) * (unitRoundoff * (M * (W + 2 * w))) ≤ 1 * (unitRoundoff * (M * (W + 2 * w))) := mul_le_mul_of_nonneg_right hCu hP
  push_cast
  nlinarith

theorem correlateAtF_close (x : ℤ → ℚ) (M : ℚ) (hM : ∀ j, |x j| ≤ M) (i : ℤ) (w : ℕ → ℚ) (hw : ∀ d, 0 ≤ w d) (r : ℕ) (acc A W : ℚ) (C : ℕ)
    (hC : 3 ≤ C) (hC1 : C + 2 * r ≤ 2 ^ 53) (hW : 0 ≤ W) (hA : |A| ≤ M * W) (hacc : |acc - A| ≤ C * (unitRoundoff * (M * W))) :
    |correlateAtF x i ((List.range r).reverse.map fun d => w (d + 1)) acc -
        (A + ∑ d ∈ Finset.range r, (x (i - (d + 1 : ℕ)) + x (i + (d + 1 : ℕ))) * w (d + 1))| ≤
      ((C + 2 * r : ℕ) : ℚ) * (unitRoundoff * (M * (W + 2 * ∑ d ∈ Finset.range r, w (d + 1)))) := by
  induction r generalizing acc A W C with
  | zero => simpa [correlateAtF] using hacc
  | succ r ih =>
    rw [far_succ, correlateAtF]
    simp only [List.length_map, List.length_reverse, List.length_range]
    have h1 := correlateAtF_step hC (by omega) (hM (i - (r + 1 : ℕ))) (hM (i + (r + 1 : ℕ))) (hw (r + 1)) hW hA hacc
    have hA' : |A + (x (i - (r + 1 : ℕ)) + x (i + (r + 1 : ℕ))) * w (r + 1)| ≤ M * (W + 2 * w (r + 1)) := by
      have k1 := abs_add_le A ((x (i - (r + 1 : ℕ)) + x (i + (r + 1 : ℕ))) * w (r + 1))
      have k2 : |(x (i - (r + 1 : ℕ)) + x (i + (r + 1 : ℕ))) * w (r + 1)| ≤ 2 * M * w (r + 1) := by
        rw [abs_mul, abs_of_nonneg (hw _)]
        refine mul_le_mul_of_nonneg_right ?_ (hw _)
        have := abs_add_le (x (i - (r + 1 : ℕ))) (x (i + (r + 1 : ℕ)))
        have := hM (i - (r + 1 : ℕ))
        have := hM (i + (r + 1 : ℕ))
        linarith
      nlinarith
    have hw' := hw (r + 1)
    have h2 := ih _ _ _ (C + 2) (by omega) (by omega) (by positivity) hA' h1
    rw [Finset.sum_range_succ, Finset.sum_range_succ]
    rw [show C + 2 + 2 * r = C + 2 * (r + 1) by ring] at h2
    convert h2 using 2
    · ring_nf
    · ring_nf

/-- **C86**. The Gaussian smoother in floating point numbers, with weights `w d` for the neighbours at distance `d`: its value is the weighted sum
of the values around the position, up to an error of a few units of the last place of the largest value. -/
theorem C86_gaussian_close (row : List ℚ) (ext : ℤ → ℚ) (hext : Mirrored row ext) (M : ℚ) (hM : ∀ x ∈ row, |x| ≤ M) (w : ℕ → ℚ)
    (hw : ∀ d, 0 ≤ w d) (r : ℕ) (hr : 3 + 2 * r ≤ 2 ^ 53) :
    (gaussFilterF (w 0) ((List.range r).reverse.map fun d => w (d + 1)) row).length = row.length ∧
    ∀ (i : ℕ) (v : ℚ), (gaussFilterF (w 0) ((List.range r).reverse.map fun d => w (d + 1)) row)[i]? = some v →
      |v - (ext i * w 0 + ∑ d ∈ Finset.range r, (ext (i - (d + 1 : ℕ)) + ext (i + (d + 1 : ℕ))) * w (d + 1))| ≤
        (3 + 2 * r : ℕ) * (M * (w 0 + 2 * ∑ d ∈ Finset.range r, w (d + 1)) / 2 ^ 53) := by
  refine ⟨by simp [gaussFilterF], fun i v hv => ?_⟩
  have hi : i < row.length := by
    obtain ⟨h, -⟩ := List.getElem?_eq_some_iff.1 hv
    simpa [gaussFilterF] using h
  have hne : row ≠ [] := by rintro rfl; simp at hi
  have hb := fun j => mirrored_abs hext hne hM j
  simp only [gaussFilterF, List.getElem?_map, List.getElem?_range hi, Option.map_some, Option.some.injEq, hext.reflect hne,
    Option.getD_some] at hv
  subst hv
  have h0 : |ext i * w 0| ≤ M * w 0 := by
    rw [abs_mul, abs_of_nonneg (hw 0)]
    exact mul_le_mul_of_nonneg_right (hb _) (hw 0)
  have h1 : |fl (ext i * w 0) - ext i * w 0| ≤ (3 : ℕ) * (unitRoundoff * (M * w 0)) := by
    refine (fl_near _).trans ?_
    have hu := unit_pos
    have : |ext i * w 0| * unitRoundoff ≤ M * w 0 * unitRoundoff := mul_le_mul_of_nonneg_right h0 hu.le
    have h2 : 0 ≤ unitRoundoff * (M * w 0) := mul_nonneg hu.le ((abs_nonneg _).trans h0)
    push_cast
    linarith
  have := correlateAtF_close ext M hb i w hw r _ _ _ 3 le_rfl hr (hw 0) h0 h1
  refine this.trans (le_of_eq ?_)
  unfold unitRoundoff
  ring

theorem correlateAtF_congr (x y : ℤ → ℚ) (i : ℤ) (far : List ℚ) (acc : ℚ)
    (h : ∀ d : ℕ, d ≤ far.length → x (i - d) = y (i - d) ∧ x (i + d) = y (i + d)) : correlateAtF x i far acc = correlateAtF y i far acc := by
  induction far generalizing acc with
  | nil => rfl
  | cons w rest ih =>
    rw [correlateAtF, correlateAtF]
    obtain ⟨h1, h2⟩ := h (rest.length + 1) (by simp)
    rw [h1, h2]
    exact ih _ fun d hd => h d (by simp; omega)

/-- **C86**. Unlike the uniform smoother, the Gaussian one looks at nothing but the neighbours: spectra that agree up to the distance of the farthest
weight have the same value. -/
theorem C86_gaussian_local (centre : ℚ) (far : List ℚ) (row row' : List ℚ) (hlen : row.length = row'.length) (i : ℕ) (h1 : far.length ≤ i)
    (h2 : i + far.length < row.length) (h : ∀ j, i ≤ j + far.length → j ≤ i + far.length → row[j]? = row'[j]?) :
    (gaussFilterF centre far row)[i]? = (gaussFilterF centre far row')[i]? := by
  have hx : ∀ j : ℕ, i ≤ j + far.length → j ≤ i + far.length →
      row[reflectIndex row.length (j : ℤ)]? = row'[reflectIndex row'.length (j : ℤ)]? := by
    intro j g1 g2
    rw [reflectIndex_inside _ _ (by omega), reflectIndex_inside _ _ (by omega)]
    exact h j g1 g2
  simp only [gaussFilterF, List.getElem?_map]
  rw [List.getElem?_range (by omega), List.getElem?_range (by omega)]
  simp only [Option.map_some, Option.some.injEq]
  rw [hx i (by omega) (by omega)]
  apply correlateAtF_congr
  intro d hd
  have e1 : (i : ℤ) - d = ((i - d : ℕ) : ℤ) := by omega
  have e2 : (i : ℤ) + d = ((i + d : ℕ) : ℤ) := by omega
  rw [e1, e2, hx _ (by omega) (by omega), hx _ (by omega) (by omega)]
  exact ⟨rfl, rfl⟩

/-- what a smoother returns -/
theorem smoothRunF_spec (name : String) (t : ℕ → NumType) (filt : ℕ → List ℚ → List ℚ) (spec : SpecData (ℚ × ℚ)) (hsh : spec.Shaped) :
    ∃ out, smoothRunF name t filt spec = .ok out ∧ out.md = { spec.md with history := spec.md.history ++ [name] } ∧
      ∀ (i : ℕ) (lm : SpecLevelMeta), spec.md.levels[i]? = some lm → ∃ arr, spec.getLevel i = .ok arr ∧
        out.getLevel i = .ok (arr.map fun win => win.map fun row => onParts (t i) (filt lm.nFreqs) row) := by
  have hlev : ∀ i, i < spec.md.nLevels → ∃ lm arr, spec.md.levels[i]? = some lm ∧ spec.getLevel i = .ok arr ∧
      smoothLevelF t filt spec i = .ok (arr.map fun win => win.map fun row => onParts (t i) (filt lm.nFreqs) row) := by
    intro i hi
    have hil : i < spec.md.levels.length := by rw [hsh.n_levels]; exact hi
    obtain ⟨arr, h1, -, -⟩ := hsh.array i _ (List.getElem?_eq_getElem hil)
    refine ⟨_, arr, List.getElem?_eq_getElem hil, getLevel_of_lookup hi h1, ?_⟩
    unfold smoothLevelF
    rw [pyIndex_natCast _ _ hil, getLevel_of_lookup hi h1]; rfl
  obtain ⟨out, hout⟩ : ∃ out, (List.range spec.md.nLevels).mapM (smoothLevelF t filt spec) = .ok out := by
    apply mapM_exists
    intro i hi
    rw [List.mem_range] at hi
    obtain ⟨lm, arr, -, -, h⟩ := hlev i hi
    exact ⟨_, h⟩
  have hlen : out.length = spec.md.nLevels := by simpa using mapM_ok_length hout
  have hpos := hsh.some_level
  have hlook : ∀ i (hi : i < spec.md.nLevels), (out.zipIdx.map fun q => (q.2, q.1)).lookup i = some (out[i]'(by omega)) := by
    intro i hi
    have := lookup_zipIdx out 0 i (by omega)
    simpa using this
  refine ⟨⟨{ spec.md with history := spec.md.history ++ [name] }, out.zipIdx.map fun q => (q.2, q.1)⟩, ?_, rfl, ?_⟩
  · unfold smoothRunF
    rw [hout]
    simp only [bind, Except.bind, mkSpecData]
    simp only [dictGet, hlook 0 (by omega)]
    rfl
  · intro i lm hlm
    obtain ⟨hil, -⟩ := List.getElem?_eq_some_iff.mp hlm
    have hi : i < spec.md.nLevels := by rw [← hsh.n_levels]; exact hil
    obtain ⟨lm2, arr, h1, h2, h3⟩ := hlev i hi
    rw [hlm, Option.some.injEq] at h1
    subst h1
    refine ⟨arr, h2, ?_⟩
    have h4 := mapM_ok_getElem hout i (by simpa using hi) (by omega)
    rw [List.getElem_range, h3, Except.ok.injEq] at h4
    rw [h4]
    exact getLevel_of_lookup (d := ⟨_, _⟩) hi (hlook i hi)

theorem onParts_get (t : NumType) (filt : List ℚ → List ℚ) (row : List (ℚ × ℚ)) (j : ℕ) (z : ℚ × ℚ) (h : (onParts t filt row)[j]? = some z) :
    ∃ a b, (filt (row.map Prod.fst))[j]? = some a ∧ (filt (row.map Prod.snd))[j]? = some b ∧ z = (t.calc a, t.calc b) := by
  unfold onParts at h
  rw [List.getElem?_zip_eq_some] at h
  obtain ⟨h1, h2⟩ := h
  rw [List.getElem?_map, Option.map_eq_some_iff] at h1 h2
  obtain ⟨a, ha, ha'⟩ := h1
  obtain ⟨b, hb, hb'⟩ := h2
  exact ⟨a, b, ha, hb, by rw [ha', hb']⟩

/-- Specification: `z'` is `z` up to an error of `E` and the storing of numbers of at most `M` in the number type. -/
def StoredNear (t : NumType) (M E : ℚ) (z z' : ℚ × ℚ) : Prop :=
  |z'.1 - z.1| ≤ E + t.unit * (M + E) + t.tiny ∧ |z'.2 - z.2| ≤ E + t.unit * (M + E) + t.tiny

/-- Specification: `arr'` has the windows and channels of `arr`, and every row `row'` of it stands in the relation `P` to the row of `arr`. -/
def RowByRow (P : List (ℚ × ℚ) → List (ℚ × ℚ) → Prop) (arr arr' : SpecArr (ℚ × ℚ)) : Prop :=
  arr'.length = arr.length ∧ ∀ (k : ℕ) (win : List (List (ℚ × ℚ))), arr[k]? = some win →
    ∃ win', arr'[k]? = some win' ∧ win'.length = win.length ∧ ∀ (c : ℕ) (row : List (ℚ × ℚ)), win[c]? = some row →
      ∃ row', win'[c]? = some row' ∧ row'.length = row.length ∧ P row row'

theorem rowByRow_map (P : List (ℚ × ℚ) → List (ℚ × ℚ) → Prop) (g : List (ℚ × ℚ) → List (ℚ × ℚ)) (hl : ∀ row, (g row).length = row.length)
    (hP : ∀ row, P row (g row)) (arr : SpecArr (ℚ × ℚ)) : RowByRow P arr (arr.map fun win => win.map fun row => g row) := by
  refine ⟨by simp, fun k win hk => ⟨win.map fun row => g row, by rw [List.getElem?_map, hk]; rfl, by simp, fun c row hc => ?_⟩⟩
  exact ⟨g row, by rw [List.getElem?_map, hc]; rfl, hl row, hP row⟩

theorem Mirrored.fst {row : List (ℚ × ℚ)} {ext : ℤ → ℚ × ℚ} (h : Mirrored row ext) : Mirrored (row.map Prod.fst) (fun j => (ext j).1) := by
  refine ⟨fun k x hx => ?_, fun k => by rw [h.left], fun k => ?_⟩
  · rw [List.getElem?_map, Option.map_eq_some_iff] at hx
    obtain ⟨z, hz, rfl⟩ := hx
    rw [h.inside k z hz]
  · rw [List.length_map, h.right]

theorem Mirrored.snd {row : List (ℚ × ℚ)} {ext : ℤ → ℚ × ℚ} (h : Mirrored row ext) : Mirrored (row.map Prod.snd) (fun j => (ext j).2) := by
  refine ⟨fun k x hx => ?_, fun k => by rw [h.left], fun k => ?_⟩
  · rw [List.getElem?_map, Option.map_eq_some_iff] at hx
    obtain ⟨z, hz, rfl⟩ := hx
    rw [h.inside k z hz]
  · rw [List.length_map, h.right]

theorem onParts_length (t : NumType) (filt : List ℚ → List ℚ) (hf : ∀ r, (filt r).length = r.length) (row : List (ℚ × ℚ)) :
    (onParts t filt row).length = row.length := by
  simp [onParts, hf]

theorem gaussFilterF_length (centre : ℚ) (far row : List ℚ) : (gaussFilterF centre far row).length = row.length := by simp [gaussFilterF]

/-- Specification: the row of a spectrum smoothed over `2 h + 1` points, up to rounding: each value is the mean of the values around it in the row continued by
mirror images. -/
def SmoothedRow (t : NumType) (h : ℕ) (row row' : List (ℚ × ℚ)) : Prop :=
  ∀ (ext : ℤ → ℚ × ℚ), Mirrored row ext → ∀ M : ℚ, (∀ z ∈ row, |z.1| ≤ M ∧ |z.2| ≤ M) → 2 * h + 1 + 8 * row.length ≤ 2 ^ 50 →
    ∀ (j : ℕ) (z' : ℚ × ℚ), row'[j]? = some z' → StoredNear t M ((2 * h + 3 + 8 * j : ℕ) * (M / 2 ^ 53))
      ((1 / ((2 * h + 1 : ℕ) : ℚ)) • ∑ d ∈ Finset.range (2 * h + 1), ext (j - h + d)) z'

/-- Specification: the row of a spectrum smoothed with the weights `w d` for the distances up to `r`, up to rounding. -/
def WeightedRow (t : NumType) (w : ℕ → ℚ) (r : ℕ) (row row' : List (ℚ × ℚ)) : Prop :=
  ∀ (ext : ℤ → ℚ × ℚ), Mirrored row ext → ∀ M : ℚ, (∀ z ∈ row, |z.1| ≤ M ∧ |z.2| ≤ M) →
    ∀ (j : ℕ) (z' : ℚ × ℚ), row'[j]? = some z' →
      StoredNear t (M * (w 0 + 2 * ∑ d ∈ Finset.range r, w (d + 1)))
        ((3 + 2 * r : ℕ) * (M * (w 0 + 2 * ∑ d ∈ Finset.range r, w (d + 1)) / 2 ^ 53))
        (w 0 • ext j + ∑ d ∈ Finset.range r, w (d + 1) • (ext (j - (d + 1 : ℕ)) + ext (j + (d + 1 : ℕ)))) z'

theorem uniform_smoothedRow {t : NumType} (ht : t.Floating) (h : ℕ) (row : List (ℚ × ℚ)) :
    SmoothedRow t h row (onParts t (fun r => uniformFilterF r (2 * h + 1)) row) := by
  intro ext hext M hM hn j z' hz
  obtain ⟨a, b, ha, hb, rfl⟩ := onParts_get _ _ _ _ _ hz
  have hne : row ≠ [] := by rintro rfl; simp [uniformFilterF] at ha
  have hM1 : ∀ x ∈ row.map Prod.fst, |x| ≤ M := by
    intro x hx
    obtain ⟨z, hz, rfl⟩ := List.mem_map.1 hx
    exact (hM z hz).1
  have hM2 : ∀ x ∈ row.map Prod.snd, |x| ≤ M := by
    intro x hx
    obtain ⟨z, hz, rfl⟩ := List.mem_map.1 hx
    exact (hM z hz).2
  have h1 := (C86_uniform_close _ _ hext.fst M hM1 h (by simpa using hn)).2 j a ha
  have h2 := (C86_uniform_close _ _ hext.snd M hM2 h (by simpa using hn)).2 j b hb
  have b1 := meanAround_abs _ M (fun i => mirrored_abs hext.fst (by simpa using hne) hM1 i) h j
  have b2 := meanAround_abs _ M (fun i => mirrored_abs hext.snd (by simpa using hne) hM2 i) h j
  have e1 : ((1 / ((2 * h + 1 : ℕ) : ℚ)) • ∑ d ∈ Finset.range (2 * h + 1), ext (j - h + d)).1 = meanAround (fun i => (ext i).1) h j := by
    rw [Prod.smul_fst, Prod.fst_sum, meanAround, smul_eq_mul, one_div_mul_eq_div]
  have e2 : ((1 / ((2 * h + 1 : ℕ) : ℚ)) • ∑ d ∈ Finset.range (2 * h + 1), ext (j - h + d)).2 = meanAround (fun i => (ext i).2) h j := by
    rw [Prod.smul_snd, Prod.snd_sum, meanAround, smul_eq_mul, one_div_mul_eq_div]
  constructor
  · rw [e1]; exact ht.step h1 b1
  · rw [e2]; exact ht.step h2 b2

theorem weighted_abs (ext : ℤ → ℚ) (M : ℚ) (hM : ∀ j, |ext j| ≤ M) (w : ℕ → ℚ) (hw : ∀ d, 0 ≤ w d) (r : ℕ) (i : ℤ) :
    |ext i * w 0 + ∑ d ∈ Finset.range r, (ext (i - (d + 1 : ℕ)) + ext (i + (d + 1 : ℕ))) * w (d + 1)| ≤
      M * (w 0 + 2 * ∑ d ∈ Finset.range r, w (d + 1)) := by
  have h1 : |ext i * w 0| ≤ M * w 0 := by
    rw [abs_mul, abs_of_nonneg (hw 0)]
    exact mul_le_mul_of_nonneg_right (hM _) (hw 0)
  have h2 : |∑ d ∈ Finset.range r, (ext (i - (d + 1 : ℕ)) + ext (i + (d + 1 : ℕ))) * w (d + 1)| ≤ ∑ d ∈ Finset.range r, 2 * M * w (d + 1) := by
    refine (Finset.abs_sum_le_sum_abs _ _).trans (Finset.sum_le_sum fun d _ => ?_)
    rw [abs_mul, abs_of_nonneg (hw _)]
    refine mul_le_mul_of_nonneg_right ?_ (hw _)
    have := abs_add_le (ext (i - (d + 1 : ℕ))) (ext (i + (d + 1 : ℕ)))
    have := hM (i - (d + 1 : ℕ))
    have := hM (i + (d + 1 : ℕ))
    linarith
  rw [← Finset.mul_sum] at h2
  refine (abs_add_le _ _).trans ((add_le_add h1 h2).trans (le_of_eq ?_))
  ring

theorem gaussian_weightedRow {t : NumType} (ht : t.Floating) (w : ℕ → ℚ) (hw : ∀ d, 0 ≤ w d) (r : ℕ) (hr : 3 + 2 * r ≤ 2 ^ 53)
    (row : List (ℚ × ℚ)) : WeightedRow t w r row (onParts t (fun x => gaussFilterF (w 0) ((List.range r).reverse.map fun d => w (d + 1)) x) row) := by
  intro ext hext M hM j z' hz
  obtain ⟨a, b, ha, hb, rfl⟩ := onParts_get _ _ _ _ _ hz
  have hne : row ≠ [] := by rintro rfl; simp [gaussFilterF] at ha
  have hM1 : ∀ x ∈ row.map Prod.fst, |x| ≤ M := by
    intro x hx
    obtain ⟨z, hz, rfl⟩ := List.mem_map.1 hx
    exact (hM z hz).1
  have hM2 : ∀ x ∈ row.map Prod.snd, |x| ≤ M := by
    intro x hx
    obtain ⟨z, hz, rfl⟩ := List.mem_map.1 hx
    exact (hM z hz).2
  have h1 := (C86_gaussian_close _ _ hext.fst M hM1 w hw r hr).2 j a ha
  have h2 := (C86_gaussian_close _ _ hext.snd M hM2 w hw r hr).2 j b hb
  have b1 := weighted_abs _ M (fun i => mirrored_abs hext.fst (by simpa using hne) hM1 i) w hw r j
  have b2 := weighted_abs _ M (fun i => mirrored_abs hext.snd (by simpa using hne) hM2 i) w hw r j
  constructor
  · simp only [Prod.fst_add, Prod.smul_fst, Prod.fst_sum, smul_eq_mul, mul_comm (w _)]
    exact ht.step h1 b1
  · simp only [Prod.snd_add, Prod.smul_snd, Prod.snd_sum, smul_eq_mul, mul_comm (w _)]
    exact ht.step h2 b2

/-- **C86**. The uniform smoother on whole spectra of single or double precision: the metadata get a record and are otherwise kept, and every row of
every level is smoothed over an odd number of points, the proportion of its number of frequencies, up to rounding. -/
theorem C86_uniform_run (t : ℕ → NumType) (ht : ∀ i, (t i).Floating) (prop : ℚ) (spec : SpecData (ℚ × ℚ)) (hsh : spec.Shaped) :
    ∃ out, smoothUniformRunF t prop spec = .ok out ∧ out.md = { spec.md with history := spec.md.history ++ ["SpectraSmootherUniform"] } ∧
      ∀ (i : ℕ) (lm : SpecLevelMeta), spec.md.levels[i]? = some lm → ∃ arr arr' h, spec.getLevel i = .ok arr ∧ out.getLevel i = .ok arr' ∧
        ((2 * h + 1 : ℕ) : ℤ) = getSmoothLengthF prop lm.freqs.length ∧ RowByRow (SmoothedRow (t i) h) arr arr' := by
  obtain ⟨out, h1, h2, h3⟩ := smoothRunF_spec "SpectraSmootherUniform" t
    (fun n row => uniformFilterF row (getSmoothLengthF prop n).toNat) spec hsh
  refine ⟨out, h1, h2, fun i lm hlm => ?_⟩
  obtain ⟨arr, h4, h5⟩ := h3 i lm hlm
  rw [hsh.n_freqs lm (List.mem_of_getElem? hlm)] at h5
  obtain ⟨hodd, hpos, -, -⟩ := C86_smooth_length prop lm.freqs.length
  generalize getSmoothLengthF prop lm.freqs.length = L at *
  have e : L.toNat = 2 * (L.toNat / 2) + 1 := by omega
  refine ⟨arr, _, L.toNat / 2, h4, h5, by omega, ?_⟩
  apply rowByRow_map
  · intro row
    exact onParts_length _ _ (fun r => uniformFilterF_length _ _) _
  · intro row
    have := uniform_smoothedRow (ht i) (L.toNat / 2) row
    rw [← e] at this
    exact this

/-- **C86**. The Gaussian smoother on whole spectra: whatever its width, the weights are those of the width one, and every row is weighted with them up to
rounding. -/
theorem C86_gaussian_run (t : ℕ → NumType) (ht : ∀ i, (t i).Floating) (weights : ℚ → ℚ × List ℚ) (w : ℕ → ℚ) (r : ℕ)
    (hwts : weights 1 = (w 0, (List.range r).reverse.map fun d => w (d + 1))) (hw : ∀ d, 0 ≤ w d) (hr : 3 + 2 * r ≤ 2 ^ 53) (sigma : ℚ)
    (spec : SpecData (ℚ × ℚ)) (hsh : spec.Shaped) :
    ∃ out, smoothGaussianRunF t weights sigma spec = .ok out ∧ out.md = { spec.md with history := spec.md.history ++ ["SpectraSmootherGaussian"] } ∧
      ∀ (i : ℕ) (lm : SpecLevelMeta), spec.md.levels[i]? = some lm → ∃ arr arr', spec.getLevel i = .ok arr ∧ out.getLevel i = .ok arr' ∧
        RowByRow (WeightedRow (t i) w r) arr arr' := by
  obtain ⟨out, h1, h2, h3⟩ := smoothRunF_spec "SpectraSmootherGaussian" t
    (fun _ row => gaussFilterF (weights 1).1 (weights 1).2 row) spec hsh
  refine ⟨out, h1, h2, fun i lm hlm => ?_⟩
  obtain ⟨arr, h4, h5⟩ := h3 i lm hlm
  refine ⟨arr, _, h4, h5, ?_⟩
  apply rowByRow_map
  · intro row
    exact onParts_length _ _ (fun r => gaussFilterF_length _ _ _) _
  · intro row
    rw [hwts]
    exact gaussian_weightedRow (ht i) w hw r hr row

/-! Examples. -/

example : Mirrored [(1 : ℚ), 4] (fun j => if j % 4 = 1 ∨ j % 4 = 2 then 4 else 1) := by
  refine ⟨fun k x hx => ?_, fun k => ?_, fun k => ?_⟩
  · match k with
    | 0 => simpa using hx
    | 1 => simpa using hx
    | k + 2 => simp at hx
  · congr 1
    apply propext
    omega
  · congr 1
    simp only [List.length_cons, List.length_nil]
    apply propext
    omega

/-- Over three points, a third is rounded; a peak of 2^60 leaves its rest behind, where the exact mean is one. -/
example : uniformFilterF [1, 1, 2] 3 = [1, 6004799503160661 / 2 ^ 52, 3752999689475413 / 2 ^ 51] := by decide +kernel
example : uniformFilterF [2 ^ 60, 1, 1, 1, 1, 1] 3 = [768614336404564608, 384307168202282304, 0, 0, 0, 0] := by decide +kernel
example : uniformFilter [(2 : ℚ) ^ 60, 1, 1, 1, 1, 1] 3 = [(2 ^ 61 + 1) / 3, (2 ^ 60 + 2) / 3, 1, 1, 1, 1] := by decide +kernel
example : (gaussFilterF (1 / 2) [1 / 8, 1 / 8] [2 ^ 60, 1, 1, 1, 1, 1, 1]).drop 3 = [1, 1, 1, 1] := by decide +kernel
/-- The double nearest to 0.29 is a little less than it, but a hundred times it is rounded to 28.999999999999996, cut to 28. -/
example : getSmoothLengthF (fl (29 / 100)) 100 = 29 ∧ getSmoothLengthF (fl (1 / 10)) 30 = 3 := by decide +kernel

example : ∃ out, smoothUniformRunF (fun _ => .single) 1 demoSpecF = .ok out := by
  obtain ⟨out, h, -⟩ := C86_uniform_run (fun _ => .single) (fun _ => Or.inl rfl) 1 demoSpecF demoSpecF_shaped
  exact ⟨out, h⟩

end Resistics
