import Verif.Model.Plot
import Verif.Props.ProjectPaths
import Verif.Props.RegressionSpectra

/-!
# Downsampling for plots (C46)
-/

namespace Resistics

/-! ## Specification -/

/-- Specification: indices of points of a series of `n` values, in order, with the first and the last one. -/
structure PlotSelection (n : ℕ) (sel : List ℕ) : Prop where
  increasing : sel.Pairwise (· < ·)
  first : sel.head? = some 0
  last : sel.getLast? = some (n - 1)

/-! ## Lemmas -/

theorem bestIndex_mem (area : ℕ → ℚ) {a b : ℕ} (h : a < b) : a ≤ bestIndex area a b ∧ bestIndex area a b < b := by
  have key : ∀ (l : List ℕ) (s : ℕ), (∀ k ∈ l, a ≤ k ∧ k < b) → a ≤ s ∧ s < b →
      a ≤ l.foldl (betterIndex area) s ∧ l.foldl (betterIndex area) s < b := by
    intro l
    induction l with
    | nil => intro s _ hs; exact hs
    | cons k l ih =>
      intro s hl hs
      rw [List.foldl_cons]
      refine ih _ (fun j hj => hl j (by simp [hj])) ?_
      unfold betterIndex
      split
      · exact hl k (by simp)
      · exact hs
  refine key _ a ?_ ⟨le_rfl, h⟩
  intro k hk
  obtain ⟨j, hj, rfl⟩ := List.mem_map.1 hk
  rw [List.mem_range] at hj
  omega

theorem bucketStart_zero (n m : ℕ) : bucketStart n m 0 = 1 := by simp [bucketStart]

theorem bucketStart_lt {n m : ℕ} (hm : 3 ≤ m) (hn : m ≤ n) (i : ℕ) : bucketStart n m i < bucketStart n m (i + 1) := by
  unfold bucketStart
  have h1 : 0 < m - 2 := by omega
  have h2 : i * (n - 2) + (m - 2) ≤ (i + 1) * (n - 2) := by
    have : m - 2 ≤ n - 2 := by omega
    nlinarith
  have h3 := Nat.div_le_div_right (c := m - 2) h2
  rw [Nat.add_div_right _ h1] at h3
  omega

theorem bucketStart_end {n m : ℕ} (hm : 3 ≤ m) : bucketStart n m (m - 2) = n - 2 + 1 := by
  unfold bucketStart
  rw [Nat.mul_div_cancel_left _ (by omega)]

theorem chooseBuckets_spec (x y : List ℚ) {n m : ℕ} (hm : 3 ≤ m) (hn : m ≤ n) (count i a : ℕ) (ha : a < bucketStart n m i) :
    (chooseBuckets x y n m count i a).length = count ∧ (a :: chooseBuckets x y n m count i a).Pairwise (· < ·) ∧
      ∀ k ∈ chooseBuckets x y n m count i a, k < bucketStart n m (i + count) := by
  induction count generalizing i a with
  | zero => simp [chooseBuckets]
  | succ count ih =>
    simp only [chooseBuckets]
    generalize hk : bestIndex _ _ _ = k
    have hb := bestIndex_mem (triangleArea x y (rangeMean x (bucketStart n m (i + 1)) (bucketStart n m (i + 2)))
      (rangeMean y (bucketStart n m (i + 1)) (bucketStart n m (i + 2))) a) (bucketStart_lt hm hn i)
    rw [hk] at hb
    obtain ⟨h1, h2, h3⟩ := ih (i + 1) k hb.2
    refine ⟨by simp [h1], ?_, ?_⟩
    · rw [List.pairwise_cons]
      refine ⟨?_, h2⟩
      intro j hj
      rcases List.mem_cons.1 hj with rfl | hj
      · omega
      · have := (List.pairwise_cons.1 h2).1 j hj
        omega
    · intro j hj
      have hmono : ∀ d, bucketStart n m (i + 1) ≤ bucketStart n m (i + 1 + d) := by
        intro d
        induction d with
        | zero => simp
        | succ d ihd =>
          have := bucketStart_lt hm hn (i + 1 + d)
          rw [show i + 1 + (d + 1) = i + 1 + d + 1 by omega]
          omega
      rw [show i + (count + 1) = i + 1 + count by omega]
      rcases List.mem_cons.1 hj with rfl | hj
      · have := hmono count; omega
      · exact h3 j hj

/-- The chosen indices. -/
theorem lttbcIndices_spec (x y : List ℚ) {m : ℕ} (hm : 2 ≤ m) (hn : m < x.length) :
    PlotSelection x.length (lttbcIndices x y m) ∧ (lttbcIndices x y m).length = m := by
  by_cases h3 : 3 ≤ m
  · obtain ⟨h1, h2, h4⟩ := chooseBuckets_spec x y h3 hn.le (m - 2) 0 0 (by rw [bucketStart_zero]; omega)
    rw [Nat.zero_add, bucketStart_end h3] at h4
    refine ⟨⟨?_, rfl, ?_⟩, ?_⟩
    · unfold lttbcIndices
      rw [← List.cons_append, List.pairwise_append]
      refine ⟨h2, by simp, ?_⟩
      intro a ha b hb
      rw [List.mem_singleton] at hb
      rcases List.mem_cons.1 ha with rfl | ha
      · omega
      · have := h4 a ha; omega
    · unfold lttbcIndices
      rw [← List.cons_append, List.getLast?_append]
      simp
    · unfold lttbcIndices
      rw [List.length_cons, List.length_append, h1, List.length_singleton]
      omega
  · have : m = 2 := by omega
    subst this
    unfold lttbcIndices
    simp only [Nat.sub_self, chooseBuckets, List.nil_append]
    refine ⟨⟨?_, rfl, by simp⟩, by simp⟩
    simp
    omega

theorem getD_map_zero (l : List ℚ) (f : ℚ → ℚ) {i : ℕ} (hi : i < l.length) : (l.map f).getD i 0 = f (l.getD i 0) := by
  rw [List.getD_eq_getElem?_getD, List.getD_eq_getElem?_getD, List.getElem?_map, List.getElem?_eq_getElem hi]
  rfl

theorem PlotSelection.lt {n : ℕ} {sel : List ℕ} (h : PlotSelection n sel) (hn : 0 < n) : ∀ i ∈ sel, i < n := by
  intro i hi
  have hne : sel ≠ [] := by rintro rfl; simp at hi
  have hl : sel.getLast hne = n - 1 := by
    have := h.last
    rw [List.getLast?_eq_some_getLast hne, Option.some.injEq] at this
    exact this
  have hle : i ≤ sel.getLast hne := by
    obtain ⟨k, hk, rfl⟩ := List.mem_iff_getElem.1 hi
    rw [List.getLast_eq_getElem]
    by_cases he : k = sel.length - 1
    · simp only [he]; exact le_rfl
    · exact le_of_lt (List.pairwise_iff_getElem.1 h.increasing _ _ _ _ (by omega))
  omega

/-! ## Single precision -/

/-- Numbers with at most 24 significant bits are kept. -/
theorem toFloat32_fixed (k e : ℤ) (hk : |k| < 2 ^ 24) : toFloat32 ((k : ℚ) * 2 ^ e) = (k : ℚ) * 2 ^ e := by
  by_cases h0 : k = 0
  · simp [h0, toFloat32]
  have h2 : (0 : ℚ) < (2 : ℚ) ^ e := by positivity
  have hx : (k : ℚ) * 2 ^ e ≠ 0 := mul_ne_zero (by exact_mod_cast h0) h2.ne'
  unfold toFloat32
  rw [if_neg hx]
  generalize hg : Int.log 2 |(k : ℚ) * 2 ^ e| - 23 = g
  have habs : (0 : ℚ) < |(k : ℚ) * 2 ^ e| := abs_pos.2 hx
  have hlog : Int.log 2 |(k : ℚ) * 2 ^ e| ≤ 23 + e := by
    have h1 : |(k : ℚ) * 2 ^ e| < (2 : ℚ) ^ (24 + e) := by
      rw [abs_mul, abs_of_pos h2, zpow_add₀ (by norm_num)]
      have : |(k : ℚ)| < 2 ^ 24 := by exact_mod_cast hk
      exact mul_lt_mul_of_pos_right (by exact_mod_cast this) h2
    have h3 := Int.zpow_log_le_self (b := 2) (by norm_num) habs
    have h4 : (2 : ℚ) ^ Int.log 2 |(k : ℚ) * 2 ^ e| < (2 : ℚ) ^ (24 + e) := lt_of_le_of_lt (by exact_mod_cast h3) h1
    have := (zpow_lt_zpow_iff_right₀ (by norm_num : (1 : ℚ) < 2)).1 h4
    omega
  obtain ⟨d, hd⟩ := Int.eq_ofNat_of_zero_le (show 0 ≤ e - g by omega)
  have hq : (k : ℚ) * 2 ^ e / 2 ^ g = ((k * 2 ^ d : ℤ) : ℚ) := by
    rw [mul_div_assoc, ← zpow_sub₀ (by norm_num), hd]
    push_cast
    rw [zpow_natCast]
  rw [hq, pyRound_int, ← hq, div_mul_cancel₀]
  positivity

theorem toFloat32_int (k : ℤ) (hk : |k| ≤ 2 ^ 24) : toFloat32 (k : ℚ) = k := by
  rcases lt_or_eq_of_le hk with h | h
  · simpa using toFloat32_fixed k 0 h
  · rcases abs_eq (by norm_num : (0 : ℤ) ≤ 2 ^ 24) |>.1 h with rfl | rfl
    · have := toFloat32_fixed 1 24 (by norm_num)
      norm_num at this ⊢
      exact this
    · have := toFloat32_fixed (-1) 24 (by norm_num)
      norm_num at this ⊢
      exact this

/-- Rounding to single precision changes a number by at most one part in 2^24. -/
theorem toFloat32_near (x : ℚ) : |toFloat32 x - x| ≤ |x| / 2 ^ 24 := by
  by_cases h0 : x = 0
  · simp [h0, toFloat32]
  unfold toFloat32
  rw [if_neg h0]
  set g := Int.log 2 |x| - 23 with hg
  have h2 : (0 : ℚ) < (2 : ℚ) ^ g := by positivity
  have hn := pyRound_near (x / 2 ^ g)
  have e : (pyRound (x / 2 ^ g) : ℚ) * 2 ^ g - x = ((pyRound (x / 2 ^ g) : ℚ) - x / 2 ^ g) * 2 ^ g := by
    rw [sub_mul, div_mul_cancel₀ _ h2.ne']
  rw [e, abs_mul, abs_of_pos h2]
  have h3 := Int.zpow_log_le_self (b := 2) (by norm_num) (abs_pos.2 h0)
  have h4 : (2 : ℚ) ^ Int.log 2 |x| = 2 ^ g * 2 ^ 23 := by
    rw [hg, zpow_sub₀ (by norm_num)]
    norm_num
  have h5 : (2 : ℚ) ^ g * 2 ^ 23 ≤ |x| := by rw [← h4]; exact_mod_cast h3
  have h6 : |(pyRound (x / 2 ^ g) : ℚ) - x / 2 ^ g| * 2 ^ g ≤ 1 / 2 * 2 ^ g := mul_le_mul_of_nonneg_right hn h2.le
  have h7 : (2 : ℚ) ^ 24 = 2 * 2 ^ 23 := by norm_num
  rw [le_div_iff₀ (by positivity), h7]
  nlinarith

/-! ## C46 -/

/-- **C46**. Arrays of different size are refused. -/
theorem C46_refuses_sizes (dx dy : DType) (x y : List ℚ) (maxPts : ℤ) (h : x.length ≠ y.length) :
    lttbDownsample dx dy x y maxPts = .error .value := by
  unfold lttbDownsample
  rw [if_pos h]

/-- **C46**. Series with at most `max_pts` points are returned as they are. -/
theorem C46_unchanged (dx dy : DType) (x y : List ℚ) (maxPts : ℤ) (h : x.length = y.length) (hm : (x.length : ℤ) ≤ maxPts) :
    lttbDownsample dx dy x y maxPts = .ok (x, y) := by
  unfold lttbDownsample
  rw [if_neg (by simp [h]), if_pos hm]

/-- **C46**. Longer series: exactly `max_pts` points of the series, in order, the first and the last among them, with
coordinates rounded to single precision. -/
theorem C46_downsampled (dx dy : DType) (x y : List ℚ) (maxPts : ℤ) (h : x.length = y.length) (h2 : 2 ≤ maxPts)
    (hm : maxPts < (x.length : ℤ)) :
    ∃ sel : List ℕ, PlotSelection x.length sel ∧ (sel.length : ℤ) = maxPts ∧
      lttbDownsample dx dy x y maxPts = .ok (sel.map fun i => dx.fromFloat32 (toFloat32 (x.getD i 0)),
        sel.map fun i => dy.fromFloat32 (toFloat32 (y.getD i 0))) := by
  obtain ⟨h3, h4⟩ := lttbcIndices_spec (x.map toFloat32) (y.map toFloat32) (m := maxPts.toNat) (by omega) (by simp; omega)
  rw [List.length_map] at h3
  refine ⟨_, h3, by omega, ?_⟩
  unfold lttbDownsample lttbcDownsample
  rw [if_neg (by simp [h]), if_neg (by omega), if_neg (by omega)]
  simp only [bind, Except.bind, pure, Except.pure, Except.ok.injEq, Prod.mk.injEq, List.map_map]
  have hlt := h3.lt (by omega)
  constructor
  · refine List.map_congr_left fun i hi => ?_
    rw [Function.comp, getD_map_zero _ _ (hlt i hi)]
  · refine List.map_congr_left fun i hi => ?_
    rw [Function.comp, getD_map_zero _ _ (by rw [← h]; exact hlt i hi)]

/-- **C46**. Without a maximum every sample is plotted at its index. -/
theorem C46_no_limit (d : DType) (data : List ℚ) :
    applyLttb d data none = .ok ((List.range data.length).map fun (i : ℕ) => (i : ℚ), data) := rfl

/-- **C46**. With a maximum the plotted points of up to 2^24 samples are samples at their own index: all of them when there are
at most `max_pts`, else exactly `max_pts` of them, in order, with the first and the last. -/
theorem C46_apply (d : DType) (data : List ℚ) (maxPts : ℤ) (h2 : 2 ≤ maxPts) (hn : data.length ≤ 2 ^ 24) (hpos : 0 < data.length) :
    ∃ (sel : List ℕ) (f : ℚ → ℚ), PlotSelection data.length sel ∧ (sel.length : ℤ) = min maxPts data.length ∧
      (f = id ∨ f = d.fromFloat32 ∘ toFloat32) ∧
      applyLttb d data (some maxPts) = .ok (sel.map fun (i : ℕ) => (i : ℚ), sel.map fun i => f (data.getD i 0)) := by
  by_cases hm : maxPts < (data.length : ℤ)
  · obtain ⟨sel, h1, h3, h4⟩ := C46_downsampled .int d ((List.range data.length).map fun (i : ℕ) => (i : ℚ)) data maxPts (by simp) h2
      (by simpa using hm)
    rw [List.length_map, List.length_range] at h1
    refine ⟨sel, d.fromFloat32 ∘ toFloat32, h1, by omega, Or.inr rfl, ?_⟩
    unfold applyLttb
    simp only [h4, Except.ok.injEq, Prod.mk.injEq]
    refine ⟨?_, rfl⟩
    refine List.map_congr_left fun i hi => ?_
    have hi' := h1.lt hpos i hi
    have hg : ((List.range data.length).map fun i : ℕ => (i : ℚ)).getD i 0 = (i : ℤ) := by
      rw [List.getD_eq_getElem?_getD, List.getElem?_map, List.getElem?_range hi']
      simp
    rw [hg, toFloat32_int (i : ℤ) (by
      rw [abs_of_nonneg (by omega)]
      have : i ≤ 2 ^ 24 := by omega
      exact_mod_cast this)]
    simp [DType.fromFloat32, pyInt]
  · refine ⟨List.range data.length, id, ⟨List.pairwise_lt_range, ?_, ?_⟩, by simp; omega, Or.inl rfl, ?_⟩
    · cases hd : data.length with
      | zero => omega
      | succ n => simp [List.range_succ_eq_map]
    · rw [List.getLast?_range, if_neg (by omega)]
    · unfold applyLttb
      simp only
      rw [C46_unchanged _ _ _ _ _ (by simp) (by simp; omega)]
      simp only [Except.ok.injEq, Prod.mk.injEq, true_and, id]
      exact list_eq_range_map data 0
/-- **C46**. The number of plotted points never exceeds the maximum, and never the number of samples. -/
theorem C46_never_grows (dx dy : DType) (x y : List ℚ) (maxPts : ℤ) (h2 : 2 ≤ maxPts) (nx ny : List ℚ)
    (h : lttbDownsample dx dy x y maxPts = .ok (nx, ny)) :
    nx.length = ny.length ∧ (nx.length : ℤ) = min maxPts x.length := by
  by_cases hl : x.length = y.length
  · by_cases hm : (x.length : ℤ) ≤ maxPts
    · rw [C46_unchanged dx dy x y maxPts hl hm, Except.ok.injEq, Prod.mk.injEq] at h
      obtain ⟨rfl, rfl⟩ := h
      exact ⟨hl, by omega⟩
    · obtain ⟨sel, -, h3, h4⟩ := C46_downsampled dx dy x y maxPts hl h2 (by omega)
      rw [h, Except.ok.injEq, Prod.mk.injEq] at h4
      obtain ⟨rfl, rfl⟩ := h4
      simp
      omega
  · rw [C46_refuses_sizes dx dy x y maxPts hl] at h
    cases h

/-- **C46**. Beyond 2^24 samples the indices pass through single precision and need not be the indices of the samples: the
last one of 2^24 + 2 samples is plotted at the index 2^24, one too early. -/
theorem C46_indices_rounded (d : DType) (data : List ℚ) (hn : data.length = 2 ^ 24 + 2) (maxPts : ℤ) (h2 : 2 ≤ maxPts)
    (hm : maxPts < 2 ^ 24 + 2) :
    ∃ nx ny, applyLttb d data (some maxPts) = .ok (nx, ny) ∧ nx.getLast? = some (2 ^ 24) := by
  obtain ⟨sel, h1, h3, h4⟩ := C46_downsampled .int d ((List.range data.length).map fun (i : ℕ) => (i : ℚ)) data maxPts (by simp) h2
    (by rw [List.length_map, List.length_range, hn]; exact_mod_cast hm)
  refine ⟨_, _, h4, ?_⟩
  rw [List.length_map, List.length_range] at h1
  rw [List.getLast?_map, h1.last, Option.map_some]
  have hg : ((List.range data.length).map fun i : ℕ => (i : ℚ)).getD (data.length - 1) 0 = 2 ^ 24 + 1 := by
    rw [List.getD_eq_getElem?_getD, List.getElem?_map, List.getElem?_range (by omega), hn]
    show ((2 ^ 24 + 2 - 1 : ℕ) : ℚ) = _
    norm_num
  rw [hg]
  have hlog : Int.log 2 |(2 ^ 24 + 1 : ℚ)| = 24 := by
    rw [abs_of_pos (by norm_num)]
    have h1 : (24 : ℤ) ≤ Int.log 2 (2 ^ 24 + 1 : ℚ) := (Int.zpow_le_iff_le_log (by norm_num) (by norm_num)).1 (by norm_num)
    have h2 : Int.log 2 (2 ^ 24 + 1 : ℚ) < 25 := (Int.lt_zpow_iff_log_lt (by norm_num) (by norm_num)).1 (by norm_num)
    omega
  have hf : toFloat32 (2 ^ 24 + 1) = 2 ^ 24 := by
    unfold toFloat32
    rw [if_neg (by norm_num), hlog]
    have : pyRound ((2 ^ 24 + 1 : ℚ) / 2 ^ (24 - 23 : ℤ)) = 2 ^ 23 := by decide +kernel
    rw [this]
    norm_num
  rw [hf]
  have hfl : ((2 : ℚ) ^ 24) = ((2 ^ 24 : ℤ) : ℚ) := by norm_num
  have hpi : DType.fromFloat32 .int ((2 : ℚ) ^ 24) = 2 ^ 24 := by
    show ((pyInt ((2 : ℚ) ^ 24) : ℤ) : ℚ) = 2 ^ 24
    unfold pyInt
    rw [if_pos (by norm_num), hfl, Int.floor_intCast]
  rw [hpi]

/-- a series of six points downsampled to four -/
example : lttbDownsample .int .float64 [0, 1, 2, 3, 4, 5] [0, 7, 1, 0, 9, 1] 4 = .ok ([0, 1, 4, 5], [0, 7, 9, 1]) := by
  decide +kernel

example : applyLttb .float64 [0, 7, 1, 0, 9, 1] (some 2) = .ok ([0, 5], [0, 1]) := by decide +kernel

end Resistics
