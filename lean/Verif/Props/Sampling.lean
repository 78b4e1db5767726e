import Verif.Lemmas.Sampling

/-!
# Properties C01 – C04: samples and datetimes

Specification vocabulary: sample `k` of a recording that starts at `first` with sampling frequency `fs`
is taken at the instant `first + k / fs` (`sampleInstant`).
-/

namespace Resistics

/-- Specification: the instant of sample `k`. -/
def sampleInstant (fs first : ℚ) (k : ℤ) : ℚ := first + k / fs

/-- Specification: the sampling period `1/fs` survives the library's nanosecond splitting, that is, it
has no positive part smaller than 0.0001 ns (documented warning of `to_timedelta`). -/
def PeriodKept (fs : ℚ) : Prop := toTimedelta (1 / fs) = 1 / fs

/-- `PeriodKept` in plain arithmetic: the sub-microsecond part of the period, in nanoseconds, is zero or
at least 0.0001. -/
theorem periodKept_iff (fs : ℚ) :
    PeriodKept fs ↔ Int.fract (Int.fract (1 / fs) * 1000000) = 0 ∨
      1 / 10000000 ≤ Int.fract (Int.fract (1 / fs) * 1000000) := by
  unfold PeriodKept toTimedelta Int.fract
  constructor
  · intro h
    by_contra hc
    push Not at hc
    simp only at h
    rw [if_pos ⟨mul_ne_zero hc.1 (by norm_num), by linarith [hc.2]⟩] at h
    apply hc.1; linarith
  · intro h
    simp only
    split
    · rename_i h'
      rcases h with h | h
      · linarith
      · linarith [h'.2]
    · linarith

/-- Any period that is a whole number of tenths of a picosecond is kept. -/
theorem periodKept_of_multiple (fs : ℚ) (m : ℤ) (h : 1 / fs = m / 10000000000000) :
    PeriodKept fs := by
  rw [periodKept_iff]
  by_contra hc
  push Not at hc
  have hp : 0 < Int.fract (Int.fract (1 / fs) * 1000000) :=
    lt_of_le_of_ne (Int.fract_nonneg _) (Ne.symm hc.1)
  -- the fractional part is a multiple of 1e-7
  have e : Int.fract (Int.fract (1 / fs) * 1000000) * 10000000
      = ((m - 10000000000000 * ⌊1 / fs⌋ - 10000000 * ⌊Int.fract (1 / fs) * 1000000⌋ : ℤ) : ℚ) := by
    push_cast
    have : Int.fract (1 / fs) = 1 / fs - ⌊1 / fs⌋ := rfl
    have h2 : Int.fract (Int.fract (1 / fs) * 1000000)
      = Int.fract (1 / fs) * 1000000 - ⌊Int.fract (1 / fs) * 1000000⌋ := rfl
    rw [h2]
    generalize (⌊Int.fract (1 / fs) * 1000000⌋ : ℤ) = z
    rw [this, h]; ring
  have h1 : (0:ℚ) < ((m - 10000000000000 * ⌊1 / fs⌋ - 10000000 * ⌊Int.fract (1 / fs) * 1000000⌋ : ℤ) : ℚ) := by
    rw [← e]; linarith
  have h2 : ((m - 10000000000000 * ⌊1 / fs⌋ - 10000000 * ⌊Int.fract (1 / fs) * 1000000⌋ : ℤ) : ℚ) < 1 := by
    rw [← e]; linarith [hc.2]
  have h1' : 0 < (m - 10000000000000 * ⌊1 / fs⌋ - 10000000 * ⌊Int.fract (1 / fs) * 1000000⌋ : ℤ) := by
    exact_mod_cast h1
  have h2' : (m - 10000000000000 * ⌊1 / fs⌋ - 10000000 * ⌊Int.fract (1 / fs) * 1000000⌋ : ℤ) < 1 := by
    exact_mod_cast h2
  omega

example : PeriodKept 4096 := by rw [periodKept_iff]; decide +kernel
example : PeriodKept 128 := periodKept_of_multiple _ 78125000000 (by norm_num)
/-- periods that are not a finite decimal can be kept too -/
example : PeriodKept 3 := by rw [periodKept_iff]; decide +kernel

/-! ## C01 sample → datetime → sample -/

/-- **C01**. The datetime of any sample of the recording converts back to that sample, both as a from
time and as a to time. `last` is the time of the last of the `n` samples as reported by the library. -/
theorem C01_sample_datetime_round_trip (fs first last : ℚ) (n k : ℤ) (hfs : 0 < fs)
    (hp : PeriodKept fs) (hk : 0 ≤ k) (hkn : k < n)
    (hlast : sampleToDatetime fs first (n - 1) (some n) = .ok last) :
    ∃ t, sampleToDatetime fs first k (some n) = .ok t ∧ t = sampleInstant fs first k ∧
      fromTimeToSample fs first last t = .ok k ∧ toTimeToSample fs first last t = .ok k := by
  have hs : ∀ j : ℤ, 0 ≤ j → j < n →
      sampleToDatetime fs first j (some n) = .ok (first + j * (1 / fs)) := by
    intro j h1 h2
    have : ¬ (j < 0 ∨ n ≤ j) := by omega
    simp [sampleToDatetime, this, pyRecip_ok hfs.ne']
    left
    rw [← one_div, hp]
  rw [hs _ (by omega) (by omega)] at hlast
  have hl : first + ((n - 1 : ℤ) : ℚ) * (1 / fs) = last := by injection hlast
  have hkq : (k : ℚ) ≤ ((n - 1 : ℤ) : ℚ) := by exact_mod_cast (by omega : k ≤ n - 1)
  have hkq0 : (0:ℚ) ≤ k := by exact_mod_cast hk
  have hr : 0 < 1 / fs := by positivity
  have hkr : (k : ℚ) * (1 / fs) ≤ ((n - 1 : ℤ) : ℚ) * (1 / fs) :=
    mul_le_mul_of_nonneg_right hkq hr.le
  have hk0 : 0 ≤ (k : ℚ) * (1 / fs) := mul_nonneg hkq0 hr.le
  have he : (first + k * (1 / fs) - first) * fs = k := by field_simp; ring
  refine ⟨_, hs k hk hkn, by unfold sampleInstant; ring, ?_, ?_⟩
  · rw [fromTimeToSample_ok (by linarith), max_eq_left (by linarith), he]; simp
  · rw [toTimeToSample_ok (by linarith), min_eq_left (by linarith), he]; simp

example : ∃ t, sampleToDatetime 128 0 77 (some 1000) = .ok t ∧ t = sampleInstant 128 0 77 ∧
    fromTimeToSample 128 0 (999/128) t = .ok 77 ∧ toTimeToSample 128 0 (999/128) t = .ok 77 :=
  C01_sample_datetime_round_trip 128 0 (999/128) 1000 77 (by norm_num)
    (periodKept_of_multiple _ 78125000000 (by norm_num)) (by norm_num) (by norm_num)
    (by decide +kernel)

/-- **C01, the excluded sampling frequencies**. When the period is *not* kept, the datetime of a sample
still converts back as a from time, but as a to time it converts to the *previous* sample (for every
sample below 10^13 / fs, about 10^13 seconds of data at 1 Hz). -/
theorem C01_truncated_period_off_by_one (fs first : ℚ) (k : ℤ) (last : ℚ) (hfs : 0 < fs)
    (hp : ¬ PeriodKept fs) (hk : 1 ≤ k) (hkm : (k : ℚ) * fs ≤ 10000000000000)
    (hlast : first + k * toTimedelta (1 / fs) ≤ last) :
    ∃ t, sampleToDatetime fs first k = .ok t ∧
      fromTimeToSample fs first last t = .ok k ∧ toTimeToSample fs first last t = .ok (k - 1) := by
  have hle := toTimedelta_le (1 / fs)
  have hlt := lt_toTimedelta (1 / fs)
  have hlt' : toTimedelta (1 / fs) < 1 / fs := lt_of_le_of_ne hle hp
  have hr : 0 < 1 / fs := by positivity
  have hnn := toTimedelta_nonneg hr.le
  have hkq : (1:ℚ) ≤ k := by exact_mod_cast hk
  have hk0 : 0 ≤ (k : ℚ) * toTimedelta (1 / fs) := mul_nonneg (by linarith) hnn
  have hup : (k : ℚ) * toTimedelta (1 / fs) * fs < k := by
    have h1 : (k:ℚ) * fs * toTimedelta (1 / fs) < (k:ℚ) * fs * (1 / fs) :=
      mul_lt_mul_of_pos_left hlt' (by positivity)
    have h2 : (k:ℚ) * fs * (1 / fs) = k := by field_simp
    nlinarith
  have hlo : (k : ℚ) - 1 < (k : ℚ) * toTimedelta (1 / fs) * fs := by
    have h1 : (k:ℚ) * fs * (1 / fs - 1 / 10000000000000) < (k:ℚ) * fs * toTimedelta (1 / fs) :=
      mul_lt_mul_of_pos_left hlt (by positivity)
    have h2 : (k:ℚ) * fs * (1 / fs - 1 / 10000000000000) = k - k * fs / 10000000000000 := by
      field_simp
    have h3 : (k:ℚ) * fs / 10000000000000 ≤ 1 := by
      rw [div_le_one (by norm_num)]; exact hkm
    nlinarith
  refine ⟨_, sampleToDatetime_ok hfs.ne' first k, ?_, ?_⟩
  · rw [fromTimeToSample_ok hlast, max_eq_left (by linarith)]
    congr 1
    rw [Int.ceil_eq_iff]
    constructor
    · linarith
    · linarith
  · rw [toTimeToSample_ok (by linarith), min_eq_left hlast]
    congr 1
    rw [Int.floor_eq_iff]
    push_cast
    constructor
    · linarith
    · linarith

/-- such a sampling frequency exists: period 1 s + 5·10⁻¹⁴ s -/
example : ∃ t, sampleToDatetime (20000000000000 / 20000000000001) 0 7 = .ok t ∧
    fromTimeToSample (20000000000000 / 20000000000001) 0 9 t = .ok 7 ∧
    toTimeToSample (20000000000000 / 20000000000001) 0 9 t = .ok 6 :=
  C01_truncated_period_off_by_one _ 0 7 9 (by norm_num)
    (by rw [periodKept_iff]; decide +kernel) (by norm_num) (by norm_num) (by decide +kernel)

/-! ## C02 / C03 time bounds select exactly the enclosed samples -/

/-- **C02, from time**: the sample returned is a sample of the recording at or after the from time, and
the first such. -/
theorem C02_from_time_first_at_or_after (fs first last t : ℚ) (hfs : 0 < fs) (h : t ≤ last) :
    ∃ k, fromTimeToSample fs first last t = .ok k ∧ 0 ≤ k ∧ t ≤ sampleInstant fs first k ∧
      ∀ j : ℤ, 0 ≤ j → t ≤ sampleInstant fs first j → k ≤ j := by
  refine ⟨_, fromTimeToSample_ok h, ?_, ?_, ?_⟩
  · exact Int.ceil_nonneg (mul_nonneg (by linarith [le_max_right t first]) hfs.le)
  · unfold sampleInstant
    have h1 := Int.le_ceil ((max t first - first) * fs)
    have h2 : max t first - first ≤ ⌈(max t first - first) * fs⌉ / fs := by
      rw [le_div_iff₀ hfs]; exact h1
    linarith [le_max_left t first]
  · intro j hj htj
    unfold sampleInstant at htj
    rw [Int.ceil_le, ← le_div_iff₀ hfs]
    have : (0:ℚ) ≤ j / fs := div_nonneg (by exact_mod_cast hj) hfs.le
    have : max t first ≤ first + j / fs := max_le htj (by linarith)
    linarith

/-- **C02, to time**: for a recording of `n` samples, the sample returned is a sample of the recording at
or before the to time, and the last such. -/
theorem C02_to_time_last_at_or_before (fs first t : ℚ) (n : ℤ) (hfs : 0 < fs) (hn : 1 ≤ n)
    (h : first ≤ t) :
    ∃ k, toTimeToSample fs first (sampleInstant fs first (n - 1)) t = .ok k ∧ 0 ≤ k ∧ k < n ∧
      sampleInstant fs first k ≤ t ∧
      ∀ j : ℤ, j < n → sampleInstant fs first j ≤ t → j ≤ k := by
  have hn0 : (0:ℚ) ≤ ((n - 1 : ℤ) : ℚ) / fs := div_nonneg (by exact_mod_cast (by omega)) hfs.le
  refine ⟨_, toTimeToSample_ok h, ?_, ?_, ?_, ?_⟩
  · apply Int.floor_nonneg.mpr
    apply mul_nonneg _ hfs.le
    have : first ≤ min t (sampleInstant fs first (n - 1)) := le_min h (by unfold sampleInstant; linarith)
    linarith
  · rw [Int.floor_lt]
    have h1 : min t (sampleInstant fs first (n - 1)) - first ≤ ((n - 1 : ℤ) : ℚ) / fs := by
      have := min_le_right t (sampleInstant fs first (n - 1))
      unfold sampleInstant at this ⊢; linarith
    have h2 : (min t (sampleInstant fs first (n - 1)) - first) * fs ≤ ((n - 1 : ℤ) : ℚ) := by
      rw [← le_div_iff₀ hfs]; exact h1
    push_cast at h2; linarith
  · have h1 := Int.floor_le ((min t (sampleInstant fs first (n - 1)) - first) * fs)
    rw [← div_le_iff₀ hfs] at h1
    have := min_le_left t (sampleInstant fs first (n - 1))
    show first + _ ≤ t
    linarith
  · intro j hj hjt
    rw [Int.le_floor, ← div_le_iff₀ hfs]
    have hj' : (j : ℚ) / fs ≤ ((n - 1 : ℤ) : ℚ) / fs :=
      div_le_div_of_nonneg_right (by exact_mod_cast (by omega : j ≤ n - 1)) hfs.le
    have : sampleInstant fs first j ≤ min t (sampleInstant fs first (n - 1)) :=
      le_min hjt (by unfold sampleInstant; linarith)
    unfold sampleInstant at this ⊢; linarith

/-- **C02**. Whenever `datetimes_to_samples` returns `(a, b)` for a recording of `n` samples, a sample
`j` of the recording has its timestamp in `[from, to]` exactly when `a ≤ j ≤ b`. -/
theorem C02_range_is_exactly_enclosed_samples (fs first fromT toT : ℚ) (n a b : ℤ) (hfs : 0 < fs)
    (hn : 1 ≤ n)
    (h : datetimesToSamples fs first (sampleInstant fs first (n - 1)) fromT toT = .ok (a, b)) :
    ∀ j : ℤ, 0 ≤ j → j < n →
      ((fromT ≤ sampleInstant fs first j ∧ sampleInstant fs first j ≤ toT) ↔ (a ≤ j ∧ j ≤ b)) := by
  by_cases h1 : fromT ≤ sampleInstant fs first (n - 1)
  swap
  · simp [datetimesToSamples, fromTimeToSample_err (not_le.mp h1), bind, Except.bind] at h
  by_cases h2 : first ≤ toT
  swap
  · simp [datetimesToSamples, fromTimeToSample_ok h1, toTimeToSample_err (not_le.mp h2), bind,
      Except.bind] at h
  obtain ⟨k, hk, hk0, hkt, hkm⟩ := C02_from_time_first_at_or_after fs first _ fromT hfs h1
  obtain ⟨l, hl, hl0, hln, hlt, hlm⟩ := C02_to_time_last_at_or_before fs first toT n hfs hn h2
  simp [datetimesToSamples, hk, hl, bind, Except.bind, pure, Except.pure] at h
  obtain ⟨rfl, rfl⟩ := h
  have mono : ∀ i j : ℤ, i ≤ j → sampleInstant fs first i ≤ sampleInstant fs first j := by
    intro i j hij
    have : (i : ℚ) / fs ≤ j / fs := div_le_div_of_nonneg_right (by exact_mod_cast hij) hfs.le
    unfold sampleInstant; linarith
  intro j hj0 hjn
  constructor
  · rintro ⟨ha, hb⟩; exact ⟨hkm j hj0 ha, hlm j hjn hb⟩
  · rintro ⟨ha, hb⟩; exact ⟨hkt.trans (mono _ _ ha), (mono _ _ hb).trans hlt⟩

example : datetimesToSamples 10 5 (sampleInstant 10 5 (100 - 1)) (5.25) (6.01) = .ok (3, 10) := by
  decide +kernel

/-- **C03**. `datetimes_to_samples` raises exactly when the from time is after the last sample or the to
time is before the first sample, the error is a `ValueError`, and every returned sample is a sample of
the recording. -/
theorem C03_refused_or_in_range (fs first fromT toT : ℚ) (n : ℤ) (hfs : 0 < fs) (hn : 1 ≤ n) :
    ((sampleInstant fs first (n - 1) < fromT ∨ toT < first) ∧
      datetimesToSamples fs first (sampleInstant fs first (n - 1)) fromT toT = .error .value) ∨
    ((fromT ≤ sampleInstant fs first (n - 1) ∧ first ≤ toT) ∧
      ∃ a b, datetimesToSamples fs first (sampleInstant fs first (n - 1)) fromT toT = .ok (a, b) ∧
        checkSample n a = .ok true ∧ checkSample n b = .ok true ∧ 0 ≤ a ∧ a < n ∧ 0 ≤ b ∧ b < n) := by
  by_cases h1 : fromT ≤ sampleInstant fs first (n - 1)
  swap
  · left
    refine ⟨Or.inl (not_le.mp h1), ?_⟩
    simp [datetimesToSamples, fromTimeToSample_err (not_le.mp h1), bind, Except.bind]
  by_cases h2 : first ≤ toT
  swap
  · left
    refine ⟨Or.inr (not_le.mp h2), ?_⟩
    simp [datetimesToSamples, fromTimeToSample_ok h1, toTimeToSample_err (not_le.mp h2), bind,
      Except.bind]
  right
  obtain ⟨k, hk, hk0, hkt, hkm⟩ := C02_from_time_first_at_or_after fs first _ fromT hfs h1
  obtain ⟨l, hl, hl0, hln, hlt, hlm⟩ := C02_to_time_last_at_or_before fs first toT n hfs hn h2
  have hkn := hkm (n - 1) (by omega) h1
  refine ⟨⟨h1, h2⟩, k, l, ?_, ?_, ?_, hk0, by omega, hl0, hln⟩
  · simp [datetimesToSamples, hk, hl, bind, Except.bind, pure, Except.pure]
  · unfold checkSample; rw [if_neg (by omega), if_neg (by omega)]
  · unfold checkSample; rw [if_neg (by omega), if_neg (by omega)]

/-- **C03, clamping**: a from time before the recording selects sample 0, a to time after it selects the
last sample. -/
theorem C03_clamped_to_recording (fs first fromT toT : ℚ) (n : ℤ) (hfs : 0 < fs) (hn : 1 ≤ n)
    (hf : fromT ≤ first) (ht : sampleInstant fs first (n - 1) ≤ toT) :
    datetimesToSamples fs first (sampleInstant fs first (n - 1)) fromT toT = .ok (0, n - 1) := by
  have hn0 : (0:ℚ) ≤ ((n - 1 : ℤ) : ℚ) / fs := div_nonneg (by exact_mod_cast (by omega)) hfs.le
  have hs : first ≤ sampleInstant fs first (n - 1) := by unfold sampleInstant; linarith
  have e : (sampleInstant fs first (n - 1) - first) * fs = ((n - 1 : ℤ) : ℚ) := by
    unfold sampleInstant; field_simp; ring
  simp only [datetimesToSamples, fromTimeToSample_ok (hf.trans hs), toTimeToSample_ok (hs.trans ht),
    max_eq_right hf, min_eq_right ht, e, bind, Except.bind, pure, Except.pure]
  simp

/-- **C03, single bounds**: `check_from_time` / `check_to_time` clamp to the nearest end of the recording
or refuse. -/
theorem C03_check_times (first last t : ℚ) :
    (last < t → checkFromTime first last t = .error .value) ∧
    (t ≤ last → checkFromTime first last t = .ok (max t first)) ∧
    (t < first → checkToTime first last t = .error .value) ∧
    (first ≤ t → checkToTime first last t = .ok (min t last)) := by
  unfold checkFromTime checkToTime
  refine ⟨fun h => by rw [if_pos h], fun h => ?_, fun h => by rw [if_pos h], fun h => ?_⟩
  · rw [if_neg (not_lt.mpr h)]
    split
    · rw [max_eq_right (by linarith)]
    · rw [max_eq_left (by linarith)]
  · rw [if_neg (not_lt.mpr h)]
    split
    · rw [min_eq_right (by linarith)]
    · rw [min_eq_left (by linarith)]

/-! ## C04 number of samples -/

/-- **C04**. `n` samples at `fs` span `(n-1)/fs`; converting the span back gives `n`, whatever the
rounding method. -/
theorem C04_span_to_n_samples (fs : ℚ) (n : ℤ) (m : RoundMethod) (hfs : 0 < fs) :
    toNSamples (((n - 1 : ℤ) : ℚ) / fs) fs m = n := by
  rw [toNSamples_eq, div_mul_cancel₀ _ hfs.ne']
  have : (((n - 1 : ℤ) : ℚ) + 1) = (n : ℤ) := by push_cast; ring
  rw [this, applyRound_int]

/-- **C04**. For any span `d ≥ 0`, "floor" counts the samples `k/fs` with `0 ≤ k/fs ≤ d`: `m` samples fit
in the span iff `m ≤ to_n_samples d`. -/
theorem C04_floor_counts_samples_in_span (fs d : ℚ) (m : ℤ) (hfs : 0 < fs) :
    ((m - 1 : ℤ) : ℚ) / fs ≤ d ↔ m ≤ toNSamples d fs .floor := by
  rw [toNSamples_floor, div_le_iff₀ hfs, ← Int.le_floor]; omega

/-- **C04**. The three methods never differ by more than one sample, floor ≤ round ≤ ceil. -/
theorem C04_methods_ordered (fs d : ℚ) :
    toNSamples d fs .floor ≤ toNSamples d fs .round ∧
    toNSamples d fs .round ≤ toNSamples d fs .ceil ∧
    toNSamples d fs .ceil ≤ toNSamples d fs .floor + 1 := by
  simp only [toNSamples_eq, applyRound_floor, applyRound_ceil]
  generalize d * fs + 1 = x
  have h3 : ⌈x⌉ ≤ ⌊x⌋ + 1 := Int.ceil_le_floor_add_one x
  have h4 : ⌊x⌋ ≤ ⌈x⌉ := Int.floor_le_ceil x
  unfold applyRound
  split
  · exact ⟨le_refl _, h4, h3⟩
  · rename_i hne
    have hc : ⌈x⌉ = ⌊x⌋ + 1 := by
      apply le_antisymm h3
      rw [Int.add_one_le_iff, Int.lt_ceil]
      exact lt_of_le_of_ne (Int.floor_le x) (Ne.symm hne)
    show ⌊x⌋ ≤ pyRound x ∧ pyRound x ≤ _ ∧ _
    unfold pyRound
    simp only
    split
    · omega
    · split
      · omega
      · split <;> omega

/-- **C04**. `datetime_array` gives `n` times, the k-th being the instant of sample k. -/
theorem C04_datetime_array (fs first : ℚ) (n : ℕ) (samples : Option (List ℤ)) (hfs : 0 < fs)
    (hp : PeriodKept fs) :
    ∃ l, datetimeArray first fs (some n) samples = .ok l ∧ l.length = n ∧
      ∀ k, (hk : k < l.length) → l[k] = sampleInstant fs first k := by
  refine ⟨(List.range n).map fun (k : ℕ) => first + (k : ℚ) * toTimedelta (1 / fs), ?_, by simp, ?_⟩
  · simp only [datetimeArray, pyRecip_ok hfs.ne']; rfl
  · intro k hk
    simp only [List.getElem_map, List.getElem_range, sampleInstant]
    rw [hp]; push_cast; ring

/-- **C04**. Without `n_samples` the times of the listed samples are returned; with neither a
`ValueError` is raised. -/
theorem C04_datetime_array_samples (fs first : ℚ) (s : List ℤ) (hfs : 0 < fs) (hp : PeriodKept fs) :
    datetimeArray first fs none (some s) = .ok (s.map (sampleInstant fs first)) ∧
    datetimeArray first fs none none = .error .value := by
  constructor
  · simp only [datetimeArray, pyRecip_ok hfs.ne', bind, Except.bind, pure, Except.pure]
    congr 1
    apply List.map_congr_left
    intro k _
    rw [hp]; unfold sampleInstant; ring
  · rfl

example : datetimeArray 100 4 (some 3) none = .ok [100, 100.25, 100.5] := by decide +kernel

end Resistics
