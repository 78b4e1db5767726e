import Verif.Model.Timestamps
import Verif.Props.Plot
import Verif.Props.Windower
import Verif.Props.TimePoint

/-!
# Estimated timestamps and plots of time data (C57)
-/

namespace Resistics

/-! ## Specification -/

/-- Specification: a whole number of nanoseconds. -/
def WholeNs (t : ℚ) : Prop := ∃ n : ℤ, t = n / 1000000000

/-- Specification: how far the estimated time of sample `k` may be off: a nanosecond, and half a nanosecond for each sample. -/
def estimateError (k : ℚ) : ℚ := (1 + k / 2) / 1000000000

/-- Specification: `times` are estimates of the times of the samples `0, 1, ..., n - 1` of a recording from `first` on. -/
structure Estimates (fs first : ℚ) (n : ℕ) (times : List ℚ) : Prop where
  count : times.length = n
  near : ∀ k (hk : k < times.length), |times[k] - sampleInstant fs first k| ≤ estimateError k
  whole : ∀ t ∈ times, WholeNs t
  exact : WholeNs first → WholeNs (1 / fs) → ∀ k (hk : k < times.length), times[k] = sampleInstant fs first k
  increasing : fs ≤ 1000000000 → times.Pairwise (· < ·)

/-! ## pandas -/

theorem pandasTime_near (t : ℚ) : t - 1 / 1000000000 < pandasTime t ∧ pandasTime t ≤ t := by
  unfold pandasTime
  have h1 := Int.floor_le (t * 1000000000)
  have h2 := Int.lt_floor_add_one (t * 1000000000)
  constructor
  · rw [lt_div_iff₀ (by norm_num)]; linarith
  · rw [div_le_iff₀ (by norm_num)]; linarith

theorem pandasTime_whole (t : ℚ) : WholeNs (pandasTime t) := ⟨_, rfl⟩

theorem pandasTime_exact {t : ℚ} (h : WholeNs t) : pandasTime t = t := by
  obtain ⟨n, rfl⟩ := h
  unfold pandasTime
  rw [div_mul_cancel₀ _ (by norm_num), Int.floor_intCast]

theorem pandasDelta_near (x : ℚ) : |pandasDelta x - x| ≤ 1 / 2 / 1000000000 := by
  unfold pandasDelta
  have h := pyRound_near ((x - ⌊x⌋) * 1000000000)
  have e : (⌊x⌋ : ℚ) + (pyRound ((x - ⌊x⌋) * 1000000000) : ℚ) / 1000000000 - x =
      ((pyRound ((x - ⌊x⌋) * 1000000000) : ℚ) - (x - ⌊x⌋) * 1000000000) / 1000000000 := by ring
  rw [e, abs_div, abs_of_pos (by norm_num : (0 : ℚ) < 1000000000)]
  exact div_le_div_of_nonneg_right h (by norm_num)

theorem pandasDelta_whole (x : ℚ) : WholeNs (pandasDelta x) := by
  refine ⟨⌊x⌋ * 1000000000 + pyRound ((x - ⌊x⌋) * 1000000000), ?_⟩
  unfold pandasDelta
  push_cast
  ring

theorem pandasDelta_exact {x : ℚ} (h : WholeNs x) : pandasDelta x = x := by
  obtain ⟨n, rfl⟩ := h
  unfold pandasDelta
  have e : ((n : ℚ) / 1000000000 - ⌊(n : ℚ) / 1000000000⌋) * 1000000000 =
      ((n - ⌊(n : ℚ) / 1000000000⌋ * 1000000000 : ℤ) : ℚ) := by push_cast; ring
  rw [e, pyRound_int]
  push_cast
  ring

theorem pandasDelta_pos {x : ℚ} (h : 1 / 1000000000 ≤ x) : 0 < pandasDelta x := by
  have := pandasDelta_near x
  rw [abs_le] at this
  linarith [this.1]

theorem WholeNs.add_mul {a b : ℚ} (ha : WholeNs a) (hb : WholeNs b) (k : ℤ) : WholeNs (a + k * b) := by
  obtain ⟨n, rfl⟩ := ha
  obtain ⟨m, rfl⟩ := hb
  exact ⟨n + k * m, by push_cast; ring⟩

/-- the time estimated for a sample -/
def estimateTime (fs first : ℚ) (k : ℤ) : ℚ := pandasTime first + k * pandasDelta (1 / fs)

theorem estimateTime_near (fs first : ℚ) (k : ℤ) (hk : 0 ≤ k) :
    |estimateTime fs first k - sampleInstant fs first k| ≤ estimateError k := by
  obtain ⟨h1, h2⟩ := pandasTime_near first
  have h3 := pandasDelta_near (1 / fs)
  have hk' : (0 : ℚ) ≤ k := by exact_mod_cast hk
  unfold estimateTime sampleInstant estimateError
  have e : pandasTime first + k * pandasDelta (1 / fs) - (first + k / fs) =
      (pandasTime first - first) + k * (pandasDelta (1 / fs) - 1 / fs) := by ring
  rw [e]
  rw [abs_le] at h3 ⊢
  have h4 := mul_le_mul_of_nonneg_left h3.1 hk'
  have h5 := mul_le_mul_of_nonneg_left h3.2 hk'
  constructor <;> linarith

theorem estimateTimes_eq (fs first : ℚ) (s : List ℤ) :
    estimateTimes first (pandasDelta (1 / fs)) s = s.map (estimateTime fs first) := rfl

theorem datetimeArrayEstimate_samples (fs first : ℚ) (hfs : 0 < fs) (s : List ℤ) :
    datetimeArrayEstimate first fs none (some s) = .ok (s.map (estimateTime fs first)) := by
  simp only [datetimeArrayEstimate, pyRecip_ok hfs.ne', bind, Except.bind, estimateTimes_eq]

theorem datetimeArrayEstimate_all (fs first : ℚ) (hfs : 0 < fs) (n : ℕ) (s : Option (List ℤ)) :
    datetimeArrayEstimate first fs (some n) s = .ok ((List.range n).map fun (i : ℕ) => estimateTime fs first i) := by
  simp only [datetimeArrayEstimate, pyRecip_ok hfs.ne', bind, Except.bind, estimateTimes_eq, List.map_map]
  rfl

theorem estimates_range (fs first : ℚ) (hfs : 0 < fs) (n : ℕ) :
    Estimates fs first n ((List.range n).map fun (i : ℕ) => estimateTime fs first i) := by
  refine ⟨by simp, ?_, ?_, ?_, ?_⟩
  · intro k hk
    simp only [List.getElem_map, List.getElem_range]
    have := estimateTime_near fs first k (by omega)
    simpa using this
  · intro t ht
    obtain ⟨k, -, rfl⟩ := List.mem_map.1 ht
    exact (pandasTime_whole first).add_mul (pandasDelta_whole _) _
  · intro h1 h2 k hk
    simp only [List.getElem_map, List.getElem_range]
    unfold estimateTime sampleInstant
    rw [pandasTime_exact h1, pandasDelta_exact h2]
    ring
  · intro h
    have hd : 0 < pandasDelta (1 / fs) := pandasDelta_pos (one_div_le_one_div_of_le hfs h)
    refine List.Pairwise.map _ ?_ List.pairwise_lt_range
    intro a b hab
    unfold estimateTime
    have : ((a : ℤ) : ℚ) < ((b : ℤ) : ℚ) := by exact_mod_cast hab
    have := mul_lt_mul_of_pos_right this hd
    linarith

/-! ## Timestamps -/

/-- **C57**. `datetime_array_estimate` gives as many times as asked for, in whole nanoseconds; the time of sample `k` is off by at
most a nanosecond and half a nanosecond for each sample, and not at all when the first time and the period are whole nanoseconds;
the times increase up to 1 GHz.  The number of samples wins over a list of samples. -/
theorem C57_estimates (fs first : ℚ) (hfs : 0 < fs) (n : ℕ) (samples : Option (List ℤ)) :
    ∃ times, datetimeArrayEstimate first fs (some n) samples = .ok times ∧ Estimates fs first n times :=
  ⟨_, datetimeArrayEstimate_all fs first hfs n samples, estimates_range fs first hfs n⟩

/-- **C57**. With neither a number of samples nor a list of samples, `datetime_array_estimate` raises a `ValueError`. -/
theorem C57_no_samples (fs first : ℚ) (hfs : 0 < fs) : datetimeArrayEstimate first fs none none = .error .value := by
  simp [datetimeArrayEstimate, pyRecip, hfs.ne', bind, Except.bind]

/-- **C57**. The timestamps of listed samples of a recording are those of the samples among all timestamps, estimated or not;
there are as many timestamps as samples. -/
theorem C57_timestamps {V : Type} (td : TimeData V) (hfs : 0 < td.md.fs) (hn : 0 ≤ td.md.nSamples) (estimate : Bool) :
    ∃ times, td.getTimestamps none estimate = .ok times ∧ (times.length : ℤ) = td.md.nSamples ∧
      ∀ sel : List ℕ, (∀ i ∈ sel, i < times.length) →
        td.getTimestamps (some (sel.map fun (i : ℕ) => (i : ℤ))) estimate = .ok (sel.map fun i => times.getD i 0) := by
  unfold TimeData.getTimestamps timestampsOf datetimeArrayBy
  cases estimate with
  | true =>
    refine ⟨_, datetimeArrayEstimate_all _ _ hfs _ none, by simp [hn], ?_⟩
    intro sel hsel
    simp only [if_true]
    rw [datetimeArrayEstimate_samples _ _ hfs, List.map_map]
    congr 1
    refine List.map_congr_left fun i hi => ?_
    have := hsel i hi
    rw [List.length_map, List.length_range] at this
    rw [List.getD_eq_getElem?_getD, List.getElem?_map, List.getElem?_range this]
    rfl
  | false =>
    refine ⟨(List.range td.md.nSamples.toNat).map fun (k : ℕ) => td.md.firstTime + (k : ℚ) * toTimedelta (1 / td.md.fs), ?_,
      by simp [hn], ?_⟩
    · simp only [datetimeArray, pyRecip_ok hfs.ne']
      rfl
    · intro sel hsel
      simp only [datetimeArray, pyRecip_ok hfs.ne', bind, Except.bind, pure, Except.pure, List.map_map]
      simp only [Bool.false_eq_true, if_false, Except.ok.injEq]
      refine List.map_congr_left fun i hi => ?_
      have := hsel i hi
      rw [List.length_map, List.length_range] at this
      rw [List.getD_eq_getElem?_getD, List.getElem?_map, List.getElem?_range this]
      simp

/-- **C57**. By default the timestamps of a recording are estimates of its sample times... -/
theorem C57_default_timestamps {V : Type} (td : TimeData V) (hfs : 0 < td.md.fs) :
    ∃ times, td.getTimestamps = .ok times ∧ Estimates td.md.fs td.md.firstTime td.md.nSamples.toNat times :=
  ⟨_, datetimeArrayEstimate_all _ _ hfs _ none, estimates_range _ _ hfs _⟩

/-- **C57**. ... without estimation they are the sample times themselves. -/
theorem C57_exact_timestamps {V : Type} (td : TimeData V) (hfs : 0 < td.md.fs) (hp : PeriodKept td.md.fs) :
    ∃ times, td.getTimestamps none false = .ok times ∧ times.length = td.md.nSamples.toNat ∧
      ∀ k (hk : k < times.length), times[k] = sampleInstant td.md.fs td.md.firstTime k :=
  C04_datetime_array _ _ _ none hfs hp

/-- **C57**. The timestamps of a decimation level are those of a recording with the sampling frequency, first time and number of
samples of the level; levels from the number of levels on are refused. -/
theorem C57_level_timestamps {V : Type} (d : DecData V) (samples : Option (List ℤ)) (estimate : Bool) :
    (∀ (level : ℕ) (lm : LevelMeta) (td : TimeData V), level < d.md.nLevels → d.md.levels[level]? = some lm →
      td.md.fs = lm.fs → td.md.firstTime = lm.firstTime → td.md.nSamples = lm.nSamples →
      d.getTimestamps level samples estimate = td.getTimestamps samples estimate) ∧
    (∀ level : ℤ, (d.md.nLevels : ℤ) ≤ level → d.getTimestamps level samples estimate = .error .value) := by
  constructor
  · intro level lm td hl hlm e1 e2 e3
    obtain ⟨h1, h2⟩ := List.getElem?_eq_some_iff.mp hlm
    unfold DecData.getTimestamps TimeData.getTimestamps
    rw [if_neg (by omega), pyIndex_natCast _ _ h1, h2, e1, e2, e3]
    rfl
  · intro level h
    unfold DecData.getTimestamps
    rw [if_pos h]

/-- **C57**. The start times of windows: estimates of the start times `get_win_starts` would have with exact times, the error growing
with the number of windows, not of samples; the end times add at most half a nanosecond. -/
theorem C57_window_times (ref : ℚ) (w o : ℤ) (fs : ℚ) (hfs : 0 < fs) (ho : o < w) (n : ℕ) (off : ℤ) :
    ∃ first starts ends, getWinStarts ref w o fs n off =
        .ok ((List.range n).map fun (k : ℕ) => sampleInstant (fs / (w - o : ℤ)) first k) ∧
      winStartsEstimate ref w o fs n off = .ok starts ∧ Estimates (fs / (w - o : ℤ)) first n starts ∧
      winEndsEstimate starts w fs = .ok ends ∧ ends.length = n ∧
      ∀ k (h1 : k < starts.length) (h2 : k < ends.length), |ends[k] - (starts[k] + (w - 1 : ℤ) / fs)| ≤ 1 / 2 / 1000000000 := by
  have hw : (0 : ℚ) < ((w - o : ℤ) : ℚ) := by exact_mod_cast (by omega : 0 < w - o)
  have hpos : 0 < fs / ((w - o : ℤ) : ℚ) := div_pos hfs hw
  generalize hfirst : winToDatetime ref off (toTimedelta (1 / fs) * ((w - o : ℤ) : ℚ)) = first
  obtain ⟨starts, hstarts⟩ : ∃ l, l = (List.range n).map fun (i : ℕ) => estimateTime (fs / ((w - o : ℤ) : ℚ)) first i := ⟨_, rfl⟩
  refine ⟨first, starts, starts.map (· + pandasDelta (((w - 1 : ℤ) : ℚ) * (1 / fs))), ?_, ?_,
    hstarts ▸ estimates_range _ _ hpos n, ?_, ?_, ?_⟩
  · unfold getWinStarts
    rw [incDuration_ok hfs.ne']
    simp only [bind, Except.bind, pure, Except.pure, Except.ok.injEq, hfirst]
    refine List.map_congr_left fun k _ => ?_
    unfold sampleInstant
    push_cast
    ring
  · unfold winStartsEstimate
    rw [incDuration_ok hfs.ne']
    simp only [bind, Except.bind]
    rw [if_neg (by omega), datetimeArrayEstimate_all _ _ hpos, hfirst, hstarts]
  · unfold winEndsEstimate
    rw [pyRecip_ok hfs.ne']
    rfl
  · simp [hstarts]
  · intro k h1 h2
    rw [List.getElem_map]
    refine le_trans (le_of_eq (congrArg abs ?_)) (pandasDelta_near (((w - 1 : ℤ) : ℚ) * (1 / fs)))
    ring

/-- **C57** (finding). At 65536 Hz the estimated times drift by a fifth of a nanosecond for each sample: from sample 75000 on (after
1.2 seconds) the error is more than a sample period. -/
theorem C57_drift (first : ℚ) (h : WholeNs first) (k : ℤ) (hk : 75000 ≤ k) :
    1 / 65536 < |estimateTime 65536 first k - sampleInstant 65536 first k| := by
  have hd : pandasDelta (1 / 65536) = 15259 / 1000000000 := by decide +kernel
  have hk' : (75000 : ℚ) ≤ k := by exact_mod_cast hk
  unfold estimateTime sampleInstant
  rw [pandasTime_exact h, hd]
  rw [show first + (k : ℚ) * (15259 / 1000000000) - (first + k / 65536) = k * (15259 / 1000000000 - 1 / 65536) by ring,
    abs_of_nonneg (mul_nonneg (by linarith) (by norm_num))]
  norm_num
  linarith

example : WholeNs 100 ∧ WholeNs (1 / 128) ∧ ¬ WholeNs (1 / 3) := by
  refine ⟨⟨100000000000, by norm_num⟩, ⟨7812500, by norm_num⟩, ?_⟩
  rintro ⟨n, hn⟩
  rw [div_eq_div_iff (by norm_num) (by norm_num)] at hn
  have : (1000000000 : ℤ) = n * 3 := by exact_mod_cast (by linarith : (1000000000 : ℚ) = n * 3)
  omega

example : datetimeArrayEstimate 100 3 (some 3) none = .ok [100, 100 + 333333333 / 1000000000, 100 + 666666666 / 1000000000] := by
  decide +kernel

/-! ## Plots -/

/-- Specification: a line that shows a channel: points of the channel in order, with the first and the last, at the timestamps of
their samples; the values are those of the channel, perhaps rounded to single precision. -/
def Shows (td : TimeData ℚ) (d : DType) (samples : List ℚ) (t : Trace) : Prop :=
  ∃ (sel : List ℕ) (f : ℚ → ℚ), PlotSelection samples.length sel ∧ (f = id ∨ f = d.fromFloat32 ∘ toFloat32) ∧
    td.getTimestamps (some (sel.map fun (i : ℕ) => (i : ℤ))) = .ok t.times ∧ t.values = sel.map fun i => f (samples.getD i 0)

theorem selected (d : DType) (data : List ℚ) (maxPts : Option ℤ) (h2 : ∀ m, maxPts = some m → 2 ≤ m)
    (hn : data.length ≤ 2 ^ 24) (hpos : 0 < data.length) :
    ∃ (sel : List ℕ) (f : ℚ → ℚ), PlotSelection data.length sel ∧ (f = id ∨ f = d.fromFloat32 ∘ toFloat32) ∧
      applyLttb d data maxPts = .ok (sel.map fun (i : ℕ) => (i : ℚ), sel.map fun i => f (data.getD i 0)) := by
  cases maxPts with
  | some m =>
    obtain ⟨sel, f, h1, -, h3, h4⟩ := C46_apply d data m (h2 m rfl) hn hpos
    exact ⟨sel, f, h1, h3, h4⟩
  | none =>
    refine ⟨List.range data.length, id, ⟨List.pairwise_lt_range, ?_, ?_⟩, Or.inl rfl, ?_⟩
    · cases hd : data.length with
      | zero => omega
      | succ n => simp [List.range_succ_eq_map]
    · rw [List.getLast?_range, if_neg (by omega)]
    · rw [C46_no_limit]
      simp only [Except.ok.injEq, Prod.mk.injEq, true_and, id]
      exact list_eq_range_map data 0

/-- a line is drawn for every channel of a recording, in the row asked for -/
theorem trace_shows (td : TimeData ℚ) (hc : td.Consistent) (hnd : td.md.chans.Nodup) (h1 : 1 ≤ td.md.nSamples)
    (h24 : td.md.nSamples ≤ 2 ^ 24) (d : DType) (maxPts : Option ℤ) (h2 : ∀ m, maxPts = some m → 2 ≤ m) (rows idx j : ℕ)
    (hidx : idx < rows) (hj : j < td.md.chans.length) :
    ∃ t, td.trace d maxPts rows (td.md.chans[j], idx) = .ok t ∧ t.row = idx + 1 ∧
      Shows td d (td.data[j]'(by rw [hc.rows]; exact hj)) t := by
  have hlen := hc.cols _ (List.getElem_mem (by rw [hc.rows]; exact hj : j < td.data.length))
  obtain ⟨sel, f, s1, s2, s3⟩ := selected d (td.data[j]'(by rw [hc.rows]; exact hj)) maxPts h2
    (by zify; rw [hlen]; exact_mod_cast h24) (by omega)
  have hint : ((sel.map fun (i : ℕ) => (i : ℚ)).map pyInt) = sel.map fun (i : ℕ) => (i : ℤ) := by
    rw [List.map_map]
    refine List.map_congr_left fun i _ => ?_
    simp [pyInt]
  have ht : ∃ times, td.getTimestamps (some (sel.map fun (i : ℕ) => (i : ℤ))) true = .ok times :=
    ⟨_, datetimeArrayEstimate_samples _ _ hc.fs_pos _⟩
  obtain ⟨times, ht⟩ := ht
  refine ⟨⟨idx + 1, times, sel.map fun i => f ((td.data[j]'(by rw [hc.rows]; exact hj)).getD i 0)⟩, ?_, rfl, sel, f, s1, s2, ht, rfl⟩
  unfold TimeData.trace
  rw [(C49_get_chan td hc.rows hnd).1 j hj]
  simp only [bind, Except.bind, s3, hint, ht]
  rw [if_pos hidx]

theorem filter_zipIdx {α : Type} (p : α → Bool) (l : List α) (h : ∀ a ∈ l, p a = true) :
    l.zipIdx.filter (fun q => p q.1) = l.zipIdx := by
  rw [List.filter_eq_self]
  intro q hq
  exact h _ (List.fst_mem_of_mem_zipIdx hq)

/-- **C57**. Plotting a recording: one row and one line for each channel, in order, and the line in the row titled by a channel shows
that channel. -/
theorem C57_plot (td : TimeData ℚ) (hc : td.Consistent) (hnd : td.md.chans.Nodup) (h1 : 1 ≤ td.md.nSamples)
    (h24 : td.md.nSamples ≤ 2 ^ 24) (d : DType) (maxPts : Option ℤ) (h2 : ∀ m, maxPts = some m → 2 ≤ m) :
    ∃ traces, td.plot d none none maxPts = .ok (td.md.chans, traces) ∧ traces.length = td.md.chans.length ∧
      ∀ (i : ℕ) (hi : i < traces.length) (hd : i < td.data.length), traces[i].row = i + 1 ∧ Shows td d td.data[i] traces[i] := by
  have key : ∀ p ∈ td.md.chans.zipIdx, ∃ t, td.trace d maxPts td.md.chans.length p = .ok t := by
    rintro ⟨c, i⟩ hp
    have hg : td.md.chans[i]? = some c := List.mem_zipIdx_iff_getElem?.1 hp
    obtain ⟨hi, rfl⟩ := List.getElem?_eq_some_iff.mp hg
    obtain ⟨t, ht, -⟩ := trace_shows td hc hnd h1 h24 d maxPts h2 _ i i hi hi
    exact ⟨t, ht⟩
  obtain ⟨ts, hts⟩ := mapM_total key
  refine ⟨ts, ?_, ?_, ?_⟩
  · unfold TimeData.plot TimeData.figure getTimeFig
    have ha : (td.md.chans.all fun x => decide (x ∈ td.md.chans)) = true := by simp
    simp only [Option.getD_none, ha, if_true, bind, Except.bind, pure, Except.pure]
    rw [filter_zipIdx (fun c => decide (c ∈ td.md.chans)) _ (by simp), hts]
  · have := mapM_ok_length hts
    simpa using this
  · intro i hi hd
    have hl : i < td.md.chans.length := by rw [← hc.rows]; exact hd
    obtain ⟨t, ht, r1, r2⟩ := trace_shows td hc hnd h1 h24 d maxPts h2 _ i i hl hl
    have hg := mapM_ok_getElem hts i (by simpa using hl) hi
    rw [List.getElem_zipIdx] at hg
    simp only [Nat.zero_add] at hg
    rw [ht, Except.ok.injEq] at hg
    rw [← hg]
    exact ⟨r1, r2⟩

/-- **C57** (finding). Asking for some of the channels only raises `KeyError`, unless a figure is given. -/
theorem C57_plot_some_channels (td : TimeData ℚ) (d : DType) (chans : List String) (maxPts : Option ℤ) (c : String)
    (hc : c ∈ td.md.chans) (hn : c ∉ chans) : td.plot d none (some chans) maxPts = .error .key := by
  unfold TimeData.plot TimeData.figure getTimeFig
  simp only [Option.getD_some]
  have : ¬ (td.md.chans.all fun x => decide (x ∈ chans)) = true := by
    intro h
    rw [List.all_eq_true] at h
    exact hn (by simpa using h c hc)
  by_cases h : (chans.all fun x => decide (x ∈ td.md.chans)) = true
  · rw [if_pos h, if_neg this]; rfl
  · rw [if_neg h]; rfl

/-- **C57** (finding). When the channels are asked for in another order, the line of the `i`-th channel asked for is in the row
titled by the `i`-th channel of the recording. -/
theorem C57_plot_reordered (td : TimeData ℚ) (hc : td.Consistent) (hnd : td.md.chans.Nodup) (h1 : 1 ≤ td.md.nSamples)
    (h24 : td.md.nSamples ≤ 2 ^ 24) (d : DType) (maxPts : Option ℤ) (h2 : ∀ m, maxPts = some m → 2 ≤ m) (chans : List String)
    (hp : chans.Perm td.md.chans) :
    ∃ traces, td.plot d none (some chans) maxPts = .ok (td.md.chans, traces) ∧ traces.length = chans.length ∧
      ∀ (i j : ℕ) (hi : i < traces.length) (hic : i < chans.length) (hj : j < td.md.chans.length) (hd : j < td.data.length),
        chans[i] = td.md.chans[j] → traces[i].row = i + 1 ∧ Shows td d td.data[j] traces[i] := by
  have hlen := hp.length_eq
  have key : ∀ p ∈ chans.zipIdx, ∃ t, td.trace d maxPts td.md.chans.length p = .ok t := by
    rintro ⟨c, i⟩ hq
    have hg : chans[i]? = some c := List.mem_zipIdx_iff_getElem?.1 hq
    obtain ⟨hi, rfl⟩ := List.getElem?_eq_some_iff.mp hg
    obtain ⟨j, hj, e⟩ := List.mem_iff_getElem.1 (hp.mem_iff.1 (List.getElem_mem hi))
    obtain ⟨t, ht, -⟩ := trace_shows td hc hnd h1 h24 d maxPts h2 td.md.chans.length i j (by omega) hj
    rw [e] at ht
    exact ⟨t, ht⟩
  obtain ⟨ts, hts⟩ := mapM_total key
  refine ⟨ts, ?_, ?_, ?_⟩
  · unfold TimeData.plot TimeData.figure getTimeFig
    have ha : (chans.all fun x => decide (x ∈ td.md.chans)) = true := by
      rw [List.all_eq_true]; intro x hx; simpa using hp.mem_iff.1 hx
    have hb : (td.md.chans.all fun x => decide (x ∈ chans)) = true := by
      rw [List.all_eq_true]; intro x hx; simpa using hp.mem_iff.2 hx
    simp only [Option.getD_some, ha, hb, if_true, bind, Except.bind, pure, Except.pure]
    rw [filter_zipIdx (fun c => decide (c ∈ td.md.chans)) _ (by intro a ha'; simpa using hp.mem_iff.1 ha'), hts]
  · have := mapM_ok_length hts
    simpa using this
  · intro i j hi hic hj hd e
    obtain ⟨t, ht, r1, r2⟩ := trace_shows td hc hnd h1 h24 d maxPts h2 td.md.chans.length i j (by omega) hj
    have hg := mapM_ok_getElem hts i (by simpa using hic) hi
    rw [List.getElem_zipIdx] at hg
    simp only [Nat.zero_add] at hg
    rw [e, ht, Except.ok.injEq] at hg
    rw [← hg]
    exact ⟨r1, r2⟩

/-- **C57**. A figure needs channels. -/
theorem C57_plot_figure_needs_channels (td : TimeData ℚ) (d : DType) (titles : List String) (maxPts : Option ℤ) :
    td.plot d (some titles) none maxPts = .error .value := rfl

/-- two channels of three samples at 1 Hz -/
def demoPlot : TimeData ℚ := ⟨⟨1, ["Ex", "Hy"], 3, 100, 102, []⟩, [[1, 2, 4], [5, 6, 7]]⟩

example : demoPlot.Consistent ∧ demoPlot.md.chans.Nodup := by
  refine ⟨⟨by decide +kernel, rfl, by decide, by decide +kernel⟩, by decide⟩

example : demoPlot.plot .float64 none none (some 2) =
    .ok (["Ex", "Hy"], [⟨1, [100, 102], [1, 4]⟩, ⟨2, [100, 102], [5, 7]⟩]) := by decide +kernel

/-- the row titled Ex shows Hy -/
example : demoPlot.plot .float64 none (some ["Hy", "Ex"]) none =
    .ok (["Ex", "Hy"], [⟨1, [100, 101, 102], [5, 6, 7]⟩, ⟨2, [100, 101, 102], [1, 2, 4]⟩]) := by decide +kernel

/-! ## Plots of decimated data -/

/-- **C57** (finding). Decimated data of more than ten levels cannot be plotted: there are ten colours. -/
theorem C57_ten_levels (dec : DecData ℚ) (d : DType) (maxPts : Option ℤ) (h : 10 < dec.md.nLevels) :
    ∃ e, dec.plot d maxPts = .error e := by
  cases hp : dec.plot d maxPts with
  | error e => exact ⟨e, rfl⟩
  | ok r =>
    exfalso
    unfold DecData.plot at hp
    rw [except_bind_ok] at hp
    obtain ⟨titles, -, hp⟩ := hp
    rw [except_bind_ok] at hp
    obtain ⟨ts, hts, -⟩ := hp
    have hl := mapM_ok_length hts
    rw [List.length_range] at hl
    have := mapM_ok_getElem hts 10 (by simpa using h) (by omega)
    rw [List.getElem_range] at this
    unfold DecData.plotLevel at this
    rw [except_bind_ok] at this
    obtain ⟨td, -, h2⟩ := this
    rw [if_pos (by decide)] at h2
    cases h2

/-- **C57**. Plotting decimated data of up to ten levels: one row for each channel; for each level a line in each row which shows that
channel of the level. -/
theorem C57_dec_plot (dec : DecData ℚ) (hc : dec.Consistent) (hnd : dec.md.chans.Nodup) (h10 : dec.md.nLevels ≤ 10)
    (h24 : ∀ lm ∈ dec.md.levels, lm.nSamples ≤ 2 ^ 24) (d : DType) (maxPts : Option ℤ) (h2 : ∀ m, maxPts = some m → 2 ≤ m) :
    ∃ levels, dec.plot d maxPts = .ok (dec.md.chans, levels) ∧ levels.length = dec.md.nLevels ∧
      ∀ (l : ℕ) (hl : l < levels.length), ∃ td, dec.levelData l = .ok td ∧ dec.data.lookup l = some td.data ∧
        levels[l].length = dec.md.chans.length ∧
        ∀ (i : ℕ) (hi : i < levels[l].length) (hd : i < td.data.length),
          levels[l][i].row = i + 1 ∧ Shows td d td.data[i] levels[l][i] := by
  have hnl := hc.n_levels
  have lev : ∀ l < dec.md.nLevels, ∃ td ts, dec.levelData l = .ok td ∧ dec.data.lookup l = some td.data ∧
      dec.plotLevel d maxPts dec.md.chans l = .ok ts ∧ ts.length = dec.md.chans.length ∧
        ∀ (i : ℕ) (hi : i < ts.length) (hd : i < td.data.length), ts[i].row = i + 1 ∧ Shows td d td.data[i] ts[i] := by
    intro l hl
    have hl' : l < dec.md.levels.length := by omega
    obtain ⟨rows, r1, r2, r3⟩ := hc.array l _ (List.getElem?_eq_getElem hl')
    have hm := hc.meta_ok _ (List.getElem_mem hl')
    set lm := dec.md.levels[l] with hlm
    let td : TimeData ℚ := ⟨⟨lm.fs, dec.md.chans, lm.nSamples, lm.firstTime, lm.lastTime, []⟩, rows⟩
    have htd : dec.levelData l = .ok td := by
      unfold DecData.levelData dictGet
      rw [pyIndex_natCast _ _ hl', r1]
      rfl
    have hcons : td.Consistent := ⟨hm.fs_pos, r2, r3, hm.last⟩
    obtain ⟨ts, t1, t2, t3⟩ := C57_plot td hcons hnd hm.n_pos (h24 _ (List.getElem_mem hl')) d maxPts h2
    refine ⟨td, ts, htd, r1, ?_, t2, t3⟩
    unfold DecData.plotLevel
    rw [htd]
    simp only [bind, Except.bind]
    rw [if_neg (by unfold plotlyColors; omega)]
    have : td.plot d (some dec.md.chans) (some dec.md.chans) maxPts = td.plot d none none maxPts := by
      unfold TimeData.plot TimeData.figure getTimeFig
      simp [td]
    rw [this, t1]
    rfl
  have tot : ∀ l ∈ List.range dec.md.nLevels, ∃ ts, dec.plotLevel d maxPts dec.md.chans l = .ok ts := by
    intro l hl
    obtain ⟨td, ts, -, -, h3, -⟩ := lev l (List.mem_range.1 hl)
    exact ⟨ts, h3⟩
  obtain ⟨levels, hlv⟩ := mapM_total tot
  have hlen := mapM_ok_length hlv
  rw [List.length_range] at hlen
  refine ⟨levels, ?_, by omega, ?_⟩
  · unfold DecData.plot getTimeFig
    have ha : (dec.md.chans.all fun x => decide (x ∈ dec.md.chans)) = true := by simp
    simp only [ha, if_true, bind, Except.bind, pure, Except.pure, hlv]
  · intro l hl
    obtain ⟨td, ts, e1, e2, e3, e4, e5⟩ := lev l (by omega)
    have hg := mapM_ok_getElem hlv l (by simp; omega) hl
    rw [List.getElem_range, e3, Except.ok.injEq] at hg
    subst hg
    exact ⟨td, e1, e2, e4, e5⟩

end Resistics
