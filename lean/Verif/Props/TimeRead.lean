import Verif.Props.Sampling
import Verif.Lemmas.Time

/-!
# Properties C05 and C06: reading and sub-sectioning time data
-/

namespace Resistics

/-- Specification: time data whose array and metadata agree. `fs` is positive, one row per channel, one
column per sample, and the last time is `n - 1` sample periods (as the library represents a period) after
the first. -/
structure TimeData.Consistent {V : Type} (td : TimeData V) : Prop where
  fs_pos : 0 < td.md.fs
  rows : td.data.length = td.md.chans.length
  cols : ∀ row ∈ td.data, (row.length : ℤ) = td.md.nSamples
  last : td.md.lastTime = td.md.firstTime + ((td.md.nSamples - 1 : ℤ) : ℚ) * toTimedelta (1 / td.md.fs)

/-- **C04**. Metadata adjusted to a new sampling frequency, first time and number of samples say exactly that, and the
last time is the instant of the last sample, so counting the samples of the span gives the number back; channels and
history are kept.  A sampling frequency of zero is refused. -/
theorem C04_adjusted_metadata (md : TimeMeta) (fs first : ℚ) (n : ℤ) (hfs : 0 < fs) (hp : PeriodKept fs) :
    (∃ md', adjustTimeMetadata md fs first n = .ok md' ∧ md'.fs = fs ∧ md'.firstTime = first ∧ md'.nSamples = n ∧
      md'.lastTime = sampleInstant fs first (n - 1) ∧ md'.chans = md.chans ∧ md'.history = md.history ∧
      ∀ m, toNSamples (md'.lastTime - md'.firstTime) fs m = n) ∧
    adjustTimeMetadata md 0 first n = .error .zeroDiv := by
  refine ⟨⟨_, adjust_ok hfs.ne', rfl, rfl, rfl, ?_, rfl, rfl, ?_⟩, by
    simp [adjustTimeMetadata, pyRecip, bind, Except.bind]⟩
  · have := hp; unfold PeriodKept at this
    simp only [this, sampleInstant]; ring
  · intro m
    have := hp; unfold PeriodKept at this
    have h : first + toTimedelta (1 / fs) * ((n - 1 : ℤ) : ℚ) - first = ((n - 1 : ℤ) : ℚ) / fs := by
      rw [this]; ring
    show toNSamples (first + toTimedelta (1 / fs) * ((n - 1 : ℤ) : ℚ) - first) fs m = n
    rw [h]; exact C04_span_to_n_samples fs n m hfs

/-- Concrete case: 50 samples at 20 Hz after 101 samples at 10 Hz. -/
example : PeriodKept 20 ∧ (adjustTimeMetadata { fs := 10, chans := ["Ex"], nSamples := 101, firstTime := 0, lastTime := 10 }
    20 60 50).map (fun m => (m.fs, m.nSamples, m.firstTime, m.lastTime)) = .ok (20, 50, 60, 60 + 49/20) := by
  constructor
  · unfold PeriodKept; decide +kernel
  · decide +kernel

/-- Specification: the samples of one channel together with their index and timestamp. -/
def indexed {V : Type} (md : TimeMeta) (row : List V) : List (ℕ × ℚ × V) :=
  row.zipIdx.map fun p => (p.2, sampleInstant md.fs md.firstTime p.2, p.1)

/-- Specification: the samples of one channel together with their timestamps. -/
def stamped {V : Type} (md : TimeMeta) (row : List V) : List (ℚ × V) :=
  row.zipIdx.map fun p => (sampleInstant md.fs md.firstTime p.2, p.1)

/-- Specification: which samples a read request asks for.  A time bound takes precedence over a sample
bound; a missing bound does not restrict. -/
def ReadReq.Wants (r : ReadReq) (i : ℕ) (t : ℚ) : Prop :=
  (match r.fromTime, r.fromSample with
    | some f, _ => f ≤ t
    | none, some s => s ≤ (i : ℤ)
    | none, none => True) ∧
  (match r.toTime, r.toSample with
    | some f, _ => t ≤ f
    | none, some s => (i : ℤ) ≤ s
    | none, none => True)

instance (r : ReadReq) (i : ℕ) (t : ℚ) : Decidable (r.Wants i t) := by
  unfold ReadReq.Wants
  apply instDecidableAnd (dp := ?_) (dq := ?_) <;> split <;> infer_instance

/-- Specification: a sample number that is used (no time bound overrides it) is outside the recording. -/
def ReadReq.BadSample (r : ReadReq) (n : ℤ) : Prop :=
  (r.fromTime = none ∧ ∃ s, r.fromSample = some s ∧ (s < 0 ∨ n ≤ s)) ∨
  (r.toTime = none ∧ ∃ s, r.toSample = some s ∧ (s < 0 ∨ n ≤ s))

/-- `_get_read_samples`: either it refuses, and then a sample bound is bad or fewer than two samples are
wanted, or it returns the interval of wanted samples. -/
theorem getReadSamples_cases (md : TimeMeta) (r : ReadReq) (hfs : 0 < md.fs) (hn : 1 ≤ md.nSamples)
    (hl : md.lastTime = sampleInstant md.fs md.firstTime (md.nSamples - 1)) :
    (getReadSamples md r = .error .value ∧
      (r.BadSample md.nSamples ∨ ¬ ∃ i j : ℕ, i < j ∧ (j : ℤ) < md.nSamples ∧
        r.Wants i (sampleInstant md.fs md.firstTime i) ∧
        r.Wants j (sampleInstant md.fs md.firstTime j))) ∨
    (∃ a b, getReadSamples md r = .ok (a, b) ∧ 0 ≤ a ∧ a < b ∧ b < md.nSamples ∧
      ¬ r.BadSample md.nSamples ∧
      ∀ i : ℕ, (i : ℤ) < md.nSamples →
        (r.Wants i (sampleInstant md.fs md.firstTime i) ↔ a ≤ i ∧ (i : ℤ) ≤ b)) := by
  have mono : ∀ i j : ℤ, i ≤ j →
      sampleInstant md.fs md.firstTime i ≤ sampleInstant md.fs md.firstTime j := by
    intro i j hij
    have : (i : ℚ) / md.fs ≤ j / md.fs := div_le_div_of_nonneg_right (by exact_mod_cast hij) hfs.le
    unfold sampleInstant; linarith
  -- the lower bound
  have lower :
      (readFromBound md r = (.error .value : Except Err ℤ) ∧
        (r.BadSample md.nSamples ∨ ∀ i : ℕ, (i : ℤ) < md.nSamples →
          ¬ r.Wants i (sampleInstant md.fs md.firstTime i))) ∨
      (∃ a, readFromBound md r = (.ok a : Except Err ℤ) ∧ 0 ≤ a ∧ a < md.nSamples ∧
        ¬ (r.fromTime = none ∧ ∃ s, r.fromSample = some s ∧ (s < 0 ∨ md.nSamples ≤ s)) ∧
        ∀ i : ℕ, (i : ℤ) < md.nSamples → ((match r.fromTime, r.fromSample with
          | some f, _ => f ≤ sampleInstant md.fs md.firstTime i
          | none, some s => s ≤ (i : ℤ)
          | none, none => True) ↔ a ≤ i)) := by
    unfold readFromBound
    cases hft : r.fromTime with
    | some t =>
      simp only
      by_cases h : t ≤ md.lastTime
      · right
        obtain ⟨k, hk, hk0, hkt, hkm⟩ := C02_from_time_first_at_or_after md.fs md.firstTime _ t hfs h
        refine ⟨k, hk, hk0, ?_, by simp, ?_⟩
        · have := hkm (md.nSamples - 1) (by omega) (by rw [← hl]; exact h)
          omega
        · intro i hi
          constructor
          · intro h'; exact hkm i (by omega) h'
          · intro h'; exact hkt.trans (mono _ _ h')
      · left
        refine ⟨fromTimeToSample_err (not_le.mp h), Or.inr ?_⟩
        intro i hi hw
        have h1 := hw.1
        rw [hft] at h1
        simp only at h1
        have := mono i (md.nSamples - 1) (by omega)
        rw [← hl] at this
        linarith [not_le.mp h]
    | none =>
      cases hfs' : r.fromSample with
      | some s =>
        simp only
        by_cases h : s < 0 ∨ md.nSamples ≤ s
        · left
          refine ⟨by rw [checkSample_err h]; rfl, Or.inl (Or.inl ⟨hft, s, hfs', h⟩)⟩
        · right
          push Not at h
          refine ⟨s, by rw [checkSample_ok h.1 h.2]; rfl, h.1, h.2, ?_, fun i _ => Iff.rfl⟩
          rintro ⟨_, s', hs', hh⟩
          simp only [Option.some.injEq] at hs'
          omega
      | none =>
        right
        refine ⟨0, rfl, le_refl _, by omega, by simp, ?_⟩
        intro i _; simp
  have upper :
      (readToBound md r = (.error .value : Except Err ℤ) ∧
        (r.BadSample md.nSamples ∨ ∀ i : ℕ, (i : ℤ) < md.nSamples →
          ¬ r.Wants i (sampleInstant md.fs md.firstTime i))) ∨
      (∃ b, readToBound md r = (.ok b : Except Err ℤ) ∧ 0 ≤ b ∧ b < md.nSamples ∧
        ¬ (r.toTime = none ∧ ∃ s, r.toSample = some s ∧ (s < 0 ∨ md.nSamples ≤ s)) ∧
        ∀ i : ℕ, (i : ℤ) < md.nSamples → ((match r.toTime, r.toSample with
          | some f, _ => sampleInstant md.fs md.firstTime i ≤ f
          | none, some s => (i : ℤ) ≤ s
          | none, none => True) ↔ (i : ℤ) ≤ b)) := by
    unfold readToBound
    cases hft : r.toTime with
    | some t =>
      simp only
      by_cases h : md.firstTime ≤ t
      · right
        obtain ⟨k, hk, hk0, hkn, hkt, hkm⟩ :=
          C02_to_time_last_at_or_before md.fs md.firstTime t md.nSamples hfs hn h
        rw [← hl] at hk
        refine ⟨k, hk, hk0, hkn, by simp, ?_⟩
        intro i hi
        constructor
        · intro h'; exact hkm i hi h'
        · intro h'; exact (mono _ _ h').trans hkt
      · left
        refine ⟨toTimeToSample_err (not_le.mp h), Or.inr ?_⟩
        intro i hi hw
        have h1 := hw.2
        rw [hft] at h1
        simp only at h1
        have := mono 0 i (by omega)
        have e : sampleInstant md.fs md.firstTime 0 = md.firstTime := by simp [sampleInstant]
        rw [e] at this
        linarith [not_le.mp h]
    | none =>
      cases hfs' : r.toSample with
      | some s =>
        simp only
        by_cases h : s < 0 ∨ md.nSamples ≤ s
        · left
          refine ⟨by rw [checkSample_err h]; rfl, Or.inl (Or.inr ⟨hft, s, hfs', h⟩)⟩
        · right
          push Not at h
          refine ⟨s, by rw [checkSample_ok h.1 h.2]; rfl, h.1, h.2, ?_, fun i _ => Iff.rfl⟩
          rintro ⟨_, s', hs', hh⟩
          simp only [Option.some.injEq] at hs'
          omega
      | none =>
        right
        refine ⟨md.nSamples - 1, rfl, by omega, by omega, by simp, ?_⟩
        intro i hi; simp; omega
  rcases lower with ⟨he, hw⟩ | ⟨a, ha, ha0, han, hab, haw⟩
  · left
    refine ⟨by unfold getReadSamples; simp only [he]; rfl, ?_⟩
    rcases hw with hw | hw
    · exact Or.inl hw
    · right
      rintro ⟨i, j, hij, hj, hi', hj'⟩
      exact hw j hj hj'
  rcases upper with ⟨he, hw⟩ | ⟨b, hb, hb0, hbn, hbb, hbw⟩
  · left
    refine ⟨by unfold getReadSamples; simp only [ha, he]; rfl, ?_⟩
    rcases hw with hw | hw
    · exact Or.inl hw
    · right
      rintro ⟨i, j, hij, hj, hi', hj'⟩
      exact hw j hj hj'
  have hwants : ∀ i : ℕ, (i : ℤ) < md.nSamples →
        (r.Wants i (sampleInstant md.fs md.firstTime i) ↔ a ≤ i ∧ (i : ℤ) ≤ b) := by
    intro i hi
    unfold ReadReq.Wants
    exact and_congr (haw i hi) (hbw i hi)
  by_cases hab' : b ≤ a
  · left
    refine ⟨?_, Or.inr ?_⟩
    · unfold getReadSamples
      simp only [ha, hb, bind, Except.bind, if_pos hab']
      rfl
    · rintro ⟨i, j, hij, hj, hi', hj'⟩
      have h1 := (hwants i (by omega)).mp hi'
      have h2 := (hwants j hj).mp hj'
      omega
  · right
    refine ⟨a, b, ?_, ha0, by omega, hbn, ?_, hwants⟩
    · unfold getReadSamples
      simp only [ha, hb, bind, Except.bind, if_neg hab']
      rfl
    · rintro (h | h)
      · exact hab h
      · exact hbb h

/-- **C05 (numpy reader)**. For a consistent recording of at least one sample whose period is kept:
* the reader refuses (always with `ValueError`) exactly when a used sample number is outside the recording
  or fewer than two samples are wanted;
* otherwise the data returned are consistent with their metadata, same fs and channels, and channel by
  channel the returned (timestamp, value) pairs are exactly those of the wanted samples of the recording,
  in order. -/
theorem C05_read_returns_requested_samples {V : Type} (rec : TimeData V) (r : ReadReq)
    (hc : rec.Consistent) (hn : 1 ≤ rec.md.nSamples) (hp : PeriodKept rec.md.fs) :
    ((r.BadSample rec.md.nSamples ∨
        ¬ ∃ i j : ℕ, i < j ∧ (j : ℤ) < rec.md.nSamples ∧
          r.Wants i (sampleInstant rec.md.fs rec.md.firstTime i) ∧
          r.Wants j (sampleInstant rec.md.fs rec.md.firstTime j)) ∧
      readNumpy rec.data rec.md r = .error .value) ∨
    (¬ r.BadSample rec.md.nSamples ∧ ∃ out, readNumpy rec.data rec.md r = .ok out ∧ out.Consistent ∧
      out.md.fs = rec.md.fs ∧ out.md.chans = rec.md.chans ∧ 2 ≤ out.md.nSamples ∧
      out.md.history = rec.md.history ++ ["TimeReaderNumpy"] ∧
      out.data.map (stamped out.md) = rec.data.map fun row =>
        ((indexed rec.md row).filter fun p => decide (r.Wants p.1 p.2.1)).map fun p => p.2) := by
  have hl : rec.md.lastTime = sampleInstant rec.md.fs rec.md.firstTime (rec.md.nSamples - 1) := by
    rw [hc.last, hp]; unfold sampleInstant; ring
  rcases getReadSamples_cases rec.md r hc.fs_pos hn hl with ⟨he, hw⟩ | ⟨a, b, hab, ha0, hlt, hbn, hbad, hw⟩
  · left
    exact ⟨hw, by unfold readNumpy; simp only [he]; rfl⟩
  · right
    have hne := hc.fs_pos.ne'
    refine ⟨hbad, slicedTD rec a b "TimeReaderNumpy", ?_⟩
    · refine ⟨?_, ?_, rfl, rfl, ?_, rfl, ?_⟩
      · unfold readNumpy readDataNumpy
        simp only [hab, bind, Except.bind, getReturnMetadata_ok hne, pure, Except.pure, slicedTD]
      · refine ⟨hc.fs_pos, by simpa [slicedTD] using hc.rows, ?_, ?_⟩
        · simp only [slicedTD, List.mem_map]
          rintro _ ⟨row, hr, rfl⟩
          rw [pySlice_length row ha0 (by omega) (by have := hc.cols row hr; omega)]
          ring
        · simp only [slicedTD]; ring
      · simp only [slicedTD]; omega
      · simp only [slicedTD]
        rw [List.map_map]
        apply List.map_congr_left
        intro row hr
        have hlen := hc.cols row hr
        simp only [Function.comp, stamped, indexed]
        rw [List.filter_map, List.map_map]
        have := filter_zipIdx_eq_slice row
          (fun i => decide (r.Wants i (sampleInstant rec.md.fs rec.md.firstTime i)))
          ha0 hlt.le (by omega) (fun j hj => by rw [decide_eq_true_iff]; exact hw j (by omega))
        simp only [Function.comp_def, Int.cast_natCast] at this ⊢
        rw [this]
        rw [zipIdx_shift_map (pySlice row a (b + 1)) a.toNat
          (fun v i => (sampleInstant rec.md.fs rec.md.firstTime (i : ℤ), v))]
        apply List.map_congr_left
        rintro ⟨v, i⟩ _
        simp only [Prod.mk.injEq, and_true]
        unfold sampleInstant
        rw [hp]
        have : ((a.toNat : ℕ) : ℚ) = (a : ℚ) := by
          exact_mod_cast Int.toNat_of_nonneg ha0
        push_cast
        rw [this]
        ring

/-- A concrete recording meeting the hypotheses: 2 channels, 6 samples at 2 Hz. -/
def demoRec : TimeData ℚ :=
  { md := { fs := 2, chans := ["Ex", "Hy"], nSamples := 6, firstTime := 10, lastTime := 25 / 2 },
    data := [[1, 2, 3, 4, 5, 6], [10, 20, 30, 40, 50, 60]] }

theorem demoRec_consistent : demoRec.Consistent :=
  ⟨by decide, by decide, by decide, by decide +kernel⟩

example : demoRec.Consistent ∧ 1 ≤ demoRec.md.nSamples ∧ PeriodKept demoRec.md.fs :=
  ⟨demoRec_consistent, by decide, by unfold PeriodKept; decide +kernel⟩

/-- times win over samples: from time 10.6 (sample 2), to sample 4 -/
example : (readNumpy demoRec.data demoRec.md
    { fromTime := some (106 / 10), fromSample := some 0, toSample := some 4 }).map (·.data)
    = .ok [[3, 4, 5], [30, 40, 50]] := by decide +kernel

/-! ## C06 Subsection -/

/-- **C06**. Sub-sectioning consistent time data either refuses (`ValueError`), exactly when fewer than
two samples have their timestamp in `[from, to]`, or returns consistent data whose (timestamp, value) pairs
are, channel by channel, exactly those with timestamp in `[from, to]`. -/
theorem C06_subsection_exact {V : Type} (td : TimeData V) (fromT toT : ℚ)
    (hc : td.Consistent) (hn : 1 ≤ td.md.nSamples) (hp : PeriodKept td.md.fs) :
    ((¬ ∃ i j : ℕ, i < j ∧ (j : ℤ) < td.md.nSamples ∧
        fromT ≤ sampleInstant td.md.fs td.md.firstTime i ∧
        sampleInstant td.md.fs td.md.firstTime j ≤ toT) ∧
      subsection fromT toT td = .error .value) ∨
    (∃ out, subsection fromT toT td = .ok out ∧ out.Consistent ∧
      out.md.fs = td.md.fs ∧ out.md.chans = td.md.chans ∧ 2 ≤ out.md.nSamples ∧
      (∃ a : ℕ, out.md.firstTime = sampleInstant td.md.fs td.md.firstTime a ∧
        (a : ℤ) + out.md.nSamples ≤ td.md.nSamples ∧
        ∀ i : ℕ, (i : ℤ) < td.md.nSamples →
          ((fromT ≤ sampleInstant td.md.fs td.md.firstTime i ∧
            sampleInstant td.md.fs td.md.firstTime i ≤ toT) ↔
            (a ≤ i ∧ (i : ℤ) < a + out.md.nSamples))) ∧
      out.md.history = td.md.history ++ ["Subsection"] ∧
      out.data.map (stamped out.md) = td.data.map fun row =>
        (stamped td.md row).filter fun p => decide (fromT ≤ p.1 ∧ p.1 ≤ toT)) := by
  have hl : td.md.lastTime = sampleInstant td.md.fs td.md.firstTime (td.md.nSamples - 1) := by
    rw [hc.last, hp]; unfold sampleInstant; ring
  have hne := hc.fs_pos.ne'
  have mono : ∀ i j : ℤ, i ≤ j →
      sampleInstant td.md.fs td.md.firstTime i ≤ sampleInstant td.md.fs td.md.firstTime j := by
    intro i j hij
    have : (i : ℚ) / td.md.fs ≤ j / td.md.fs :=
      div_le_div_of_nonneg_right (by exact_mod_cast hij) hc.fs_pos.le
    unfold sampleInstant; linarith
  rcases C03_refused_or_in_range td.md.fs td.md.firstTime fromT toT td.md.nSamples hc.fs_pos hn with
    ⟨hbad, he⟩ | ⟨⟨h1, h2⟩, a, b, hab, -, -, ha0, han, hb0, hbn⟩
  · left
    refine ⟨?_, ?_⟩
    · rintro ⟨i, j, hij, hj, hi', hj'⟩
      rcases hbad with hbad | hbad
      · have := mono i (td.md.nSamples - 1) (by omega)
        linarith
      · have := mono 0 j (by omega)
        have e : sampleInstant td.md.fs td.md.firstTime 0 = td.md.firstTime := by simp [sampleInstant]
        rw [e] at this
        linarith
    · unfold subsection
      simp only [hl, he]; rfl
  · have hw := C02_range_is_exactly_enclosed_samples td.md.fs td.md.firstTime fromT toT
      td.md.nSamples a b hc.fs_pos hn hab
    by_cases hlt : b ≤ a
    · left
      refine ⟨?_, ?_⟩
      · rintro ⟨i, j, hij, hj, hi', hj'⟩
        have e1 := (hw i (by omega) (by omega)).mp
          ⟨hi', (mono i j (by omega)).trans hj'⟩
        have e2 := (hw j (by omega) (by omega)).mp
          ⟨hi'.trans (mono i j (by omega)), hj'⟩
        omega
      · unfold subsection
        simp only [hl, hab, samplesToDatetimes, bind, Except.bind, if_pos hlt]
        rfl
    · right
      have hwn : ∀ i : ℕ, (i : ℤ) < td.md.nSamples →
          ((fromT ≤ sampleInstant td.md.fs td.md.firstTime i ∧
            sampleInstant td.md.fs td.md.firstTime i ≤ toT) ↔ (a ≤ i ∧ (i : ℤ) ≤ b)) :=
        fun i hi => hw i (by omega) hi
      refine ⟨slicedTD td a b "Subsection", ?_, ?_, rfl, rfl, ?_, ?_, rfl, ?_⟩
      · unfold subsection
        simp only [hl, hab, samplesToDatetimes, sampleToDatetime_ok hne, adjust_ok hne, bind,
          Except.bind, if_neg hlt, pure, Except.pure, newTimeData, Option.getD_some, slicedTD]
      · refine ⟨hc.fs_pos, by simpa [slicedTD] using hc.rows, ?_, ?_⟩
        · simp only [slicedTD, List.mem_map]
          rintro _ ⟨row, hr, rfl⟩
          rw [pySlice_length row ha0 (by omega) (by have := hc.cols row hr; omega)]
          ring
        · simp only [slicedTD]; ring
      · simp only [slicedTD]; omega
      · refine ⟨a.toNat, ?_, ?_, ?_⟩
        · have : ((a.toNat : ℕ) : ℚ) = (a : ℚ) := by exact_mod_cast Int.toNat_of_nonneg ha0
          simp only [sampleInstant, slicedTD]
          rw [hp]; push_cast; rw [this]; ring
        · simp only [slicedTD]; omega
        · intro i hi
          rw [hwn i hi]
          simp only [slicedTD]; omega
      · simp only [slicedTD]
        rw [List.map_map]
        apply List.map_congr_left
        intro row hr
        have hlen := hc.cols row hr
        simp only [Function.comp, stamped]
        rw [List.filter_map]
        have := filter_zipIdx_eq_slice row
          (fun i => decide (fromT ≤ sampleInstant td.md.fs td.md.firstTime i ∧
            sampleInstant td.md.fs td.md.firstTime i ≤ toT))
          ha0 (not_le.mp hlt).le (by omega)
          (fun j hj => by rw [decide_eq_true_iff]; exact hwn j (by omega))
        simp only [Function.comp_def] at this ⊢
        rw [this]
        rw [zipIdx_shift_map (pySlice row a (b + 1)) a.toNat
          (fun v i => (sampleInstant td.md.fs td.md.firstTime (i : ℤ), v))]
        apply List.map_congr_left
        rintro ⟨v, i⟩ _
        simp only [Prod.mk.injEq, and_true]
        unfold sampleInstant
        rw [hp]
        have : ((a.toNat : ℕ) : ℚ) = (a : ℚ) := by
          exact_mod_cast Int.toNat_of_nonneg ha0
        push_cast
        rw [this]
        ring

example : (subsection (21 / 2) (118 / 10) demoRec).map (fun o => (o.md.firstTime, o.md.lastTime, o.data))
    = .ok (21 / 2, 23 / 2, [[2, 3, 4], [20, 30, 40]]) := by decide +kernel

/-- Specification: time data without the processing history. -/
def TimeData.core {V : Type} (td : TimeData V) : ℚ × List String × ℤ × ℚ × ℚ × List (List V) :=
  (td.md.fs, td.md.chans, td.md.nSamples, td.md.firstTime, td.md.lastTime, td.data)

theorem map_stamped_values {V : Type} (md : TimeMeta) (data : List (List V)) :
    (data.map (stamped md)).map (fun l => l.map Prod.snd) = data := by
  rw [List.map_map]
  conv_rhs => rw [← List.map_id data]
  apply List.map_congr_left
  intro row _
  simp only [Function.comp, stamped, List.map_map, id]
  have : (Prod.snd ∘ fun (p : V × ℕ) => (sampleInstant md.fs md.firstTime p.2, p.1)) = Prod.fst := rfl
  rw [this, List.zipIdx_map_fst]

/-- **C06, composition**. A subsection of a subsection is the subsection of the intersection of the two
intervals: same refusals, same metadata, same data (only the history differs, by one record). -/
theorem C06_subsection_compose {V : Type} (td : TimeData V) (f1 t1 f2 t2 : ℚ)
    (hc : td.Consistent) (hn : 1 ≤ td.md.nSamples) (hp : PeriodKept td.md.fs) :
    (do let s ← subsection f1 t1 td; subsection f2 t2 s).map TimeData.core
      = (subsection (max f1 f2) (min t1 t2) td).map TimeData.core := by
  have mono : ∀ i j : ℤ, i ≤ j →
      sampleInstant td.md.fs td.md.firstTime i ≤ sampleInstant td.md.fs td.md.firstTime j := by
    intro i j hij
    have : (i : ℚ) / td.md.fs ≤ j / td.md.fs :=
      div_le_div_of_nonneg_right (by exact_mod_cast hij) hc.fs_pos.le
    unfold sampleInstant; linarith
  have hd := C06_subsection_exact td (max f1 f2) (min t1 t2) hc hn hp
  rcases C06_subsection_exact td f1 t1 hc hn hp with ⟨hno, he⟩ | ⟨o, ho, hoc, hofs, hoch, hon, ⟨a1, ha1, han1, hw1⟩, -, hod⟩
  · rcases hd with ⟨-, hde⟩ | ⟨d, -, -, -, -, hdn, ⟨a, -, han, hw⟩, -, -⟩
    · rw [he, hde]; rfl
    · exfalso
      apply hno
      have h1 := (hw a (by omega)).mpr ⟨le_refl _, by omega⟩
      have h2 := (hw (a + 1) (by push_cast; omega)).mpr ⟨by omega, by push_cast; omega⟩
      exact ⟨a, a + 1, by omega, by push_cast; omega, (le_max_left _ _).trans h1.1,
        h2.2.trans (min_le_left _ _)⟩
  · rw [ho]
    change (subsection f2 t2 o).map _ = _
    -- instants of the intermediate data are instants of the input
    have hinst : ∀ i : ℕ, sampleInstant o.md.fs o.md.firstTime i
        = sampleInstant td.md.fs td.md.firstTime ((a1 + i : ℕ) : ℤ) := by
      intro i
      rw [ha1, hofs]; unfold sampleInstant; push_cast; ring
    rcases C06_subsection_exact o f2 t2 hoc (by omega) (by rw [hofs]; exact hp) with
      ⟨hno2, he2⟩ | ⟨o2, ho2, ho2c, ho2fs, ho2ch, ho2n, ⟨a2, ha2, han2, hw2⟩, -, ho2d⟩
    · rcases hd with ⟨-, hde⟩ | ⟨d, -, -, -, -, hdn, ⟨a, -, han, hw⟩, -, -⟩
      · rw [he2, hde]
      · exfalso
        apply hno2
        have h1 := (hw a (by omega)).mpr ⟨le_refl _, by omega⟩
        have h2 := (hw (a + 1) (by push_cast; omega)).mpr ⟨by omega, by push_cast; omega⟩
        have g1 := (hw1 a (by omega)).mp ⟨(le_max_left _ _).trans h1.1, h1.2.trans (min_le_left _ _)⟩
        have g2 := (hw1 (a + 1) (by push_cast; omega)).mp
          ⟨(le_max_left _ _).trans h2.1, h2.2.trans (min_le_left _ _)⟩
        refine ⟨a - a1, a + 1 - a1, by omega, by push_cast at g2; omega, ?_, ?_⟩
        · rw [hinst, show a1 + (a - a1) = a by omega]
          exact (le_max_right _ _).trans h1.1
        · rw [hinst, show a1 + (a + 1 - a1) = a + 1 by omega]
          exact h2.2.trans (min_le_right _ _)
    · have key : ∀ i : ℕ, (i : ℤ) < td.md.nSamples →
          ((max f1 f2 ≤ sampleInstant td.md.fs td.md.firstTime i ∧
            sampleInstant td.md.fs td.md.firstTime i ≤ min t1 t2) ↔
            (a1 + a2 ≤ i ∧ (i : ℤ) < a1 + a2 + o2.md.nSamples)) := by
        intro i hi
        rw [max_le_iff, le_min_iff]
        constructor
        · rintro ⟨⟨x1, x2⟩, y1, y2⟩
          have g1 := (hw1 i hi).mp ⟨x1, y1⟩
          have := (hw2 (i - a1) (by omega)).mp
            ⟨by rw [hinst, show a1 + (i - a1) = i by omega]; exact x2,
             by rw [hinst, show a1 + (i - a1) = i by omega]; exact y2⟩
          omega
        · rintro ⟨x, y⟩
          have g := (hw2 (i - a1) (by omega)).mpr ⟨by omega, by omega⟩
          rw [hinst, show a1 + (i - a1) = i by omega] at g
          have g1 := (hw1 i hi).mpr ⟨by omega, by omega⟩
          exact ⟨⟨g1.1, g.1⟩, g1.2, g.2⟩
      rcases hd with ⟨hdno, -⟩ | ⟨d, hdo, hdc, hdfs, hdch, hdn, ⟨a, ha, han, hw⟩, -, hdd⟩
      · exfalso
        apply hdno
        have h1 := (key (a1 + a2) (by push_cast; omega)).mpr ⟨le_refl _, by push_cast; omega⟩
        have h2 := (key (a1 + a2 + 1) (by push_cast; omega)).mpr ⟨by omega, by push_cast; omega⟩
        exact ⟨a1 + a2, a1 + a2 + 1, by omega, by push_cast; omega, h1.1, h2.2⟩
      · -- the two intervals of samples coincide
        have haa : a = a1 + a2 := by
          have h1 := (key a (by omega)).mp ((hw a (by omega)).mpr ⟨le_refl _, by omega⟩)
          have h2 := (hw (a1 + a2) (by push_cast; omega)).mp
            ((key (a1 + a2) (by push_cast; omega)).mpr ⟨le_refl _, by push_cast; omega⟩)
          omega
        have hnn : d.md.nSamples = o2.md.nSamples := by
          obtain ⟨m, hm⟩ : ∃ m : ℕ, (m : ℤ) = a + d.md.nSamples - 1 :=
            ⟨(a + d.md.nSamples - 1).toNat, by omega⟩
          obtain ⟨m2, hm2⟩ : ∃ m : ℕ, (m : ℤ) = a + o2.md.nSamples - 1 :=
            ⟨(a + o2.md.nSamples - 1).toNat, by omega⟩
          have h1 := (key m (by omega)).mp ((hw m (by omega)).mpr ⟨by omega, by omega⟩)
          have h2 := (hw m2 (by omega)).mp ((key m2 (by omega)).mpr ⟨by omega, by omega⟩)
          omega
        have hff : d.md.firstTime = o2.md.firstTime := by
          rw [ha, ha2, hinst, haa]
        have hll : d.md.lastTime = o2.md.lastTime := by
          rw [hdc.last, ho2c.last, hff, hnn, hdfs, ho2fs, hofs]
        have hdata : d.data = o2.data := by
          rw [← map_stamped_values d.md d.data, ← map_stamped_values o2.md o2.data, hdd, ho2d]
          congr 1
          have e : o.data.map (fun row => (stamped o.md row).filter
                fun p => decide (f2 ≤ p.1 ∧ p.1 ≤ t2))
              = (o.data.map (stamped o.md)).map
                (fun l => l.filter fun p => decide (f2 ≤ p.1 ∧ p.1 ≤ t2)) := by
            rw [List.map_map]; rfl
          rw [e, hod, List.map_map]
          apply List.map_congr_left
          intro row _
          simp only [Function.comp, List.filter_filter]
          apply List.filter_congr
          rintro ⟨t, v⟩ _
          rw [← Bool.decide_and, decide_eq_decide, max_le_iff, le_min_iff]
          tauto
        rw [ho2, hdo]
        simp only [Except.map, TimeData.core, hdfs, hdch, hnn, hff, hll, hdata, ho2fs, ho2ch, hofs, hoch]

/-! ## C05 for the ASCII reader -/

/-- **C05 (ASCII reader)**. For a text file of `nHeader` header lines followed by one line per sample with
one value per channel, and at least two channels, the ASCII reader returns exactly what the numpy reader
returns for the transposed table (same refusals, same times, same array). -/
theorem C05_ascii_agrees_with_numpy {V : Type} (rows : List (List V)) (nHeader : ℕ) (md : TimeMeta)
    (r : ReadReq) (hfs : 0 < md.fs) (hn : md.nSamples = rows.length) (hn1 : 1 ≤ md.nSamples)
    (hch : 2 ≤ md.chans.length) (hrows : ∀ x ∈ rows, x.length = md.chans.length)
    (hl : md.lastTime = sampleInstant md.fs md.firstTime (md.nSamples - 1)) :
    (readAscii (List.replicate nHeader .header ++ rows.map .row) nHeader md r).map
        (fun p => ({ p.1 with history := [] }, p.2))
      = (readNumpy (transposeN md.chans.length rows) md r).map
        (fun td => ({ td.md with history := [] }, NDArr.d2 td.data)) := by
  rcases getReadSamples_cases md r hfs hn1 hl with ⟨he, -⟩ | ⟨a, b, hab, ha0, hlt, hbn, -, -⟩
  · simp only [readAscii, readNumpy, he]; rfl
  · simp only [readAscii, readNumpy, hab, bind, Except.bind, readDataAscii, readDataNumpy]
    have hsub : loadtxtT (List.replicate nHeader .header ++ rows.map .row) (a.toNat + nHeader)
        (b - a + 1).toNat = .ok (NDArr.d2 (transposeN md.chans.length
          ((rows.drop a.toNat).take (b - a + 1).toNat))) := by
      unfold loadtxtT
      have e1 : (List.replicate nHeader AsciiLine.header ++ rows.map AsciiLine.row).drop
          (a.toNat + nHeader) = (rows.drop a.toNat).map AsciiLine.row := by
        rw [List.drop_append, List.drop_of_length_le (by simp)]
        simp
      rw [e1, ← List.map_take]
      have e2 : ∀ l : List (List V), (List.mapM parseAsciiLine (l.map AsciiLine.row)) = .ok l := by
        intro l
        induction l with
        | nil => rfl
        | cons x l ih => rw [List.map_cons, List.mapM_cons, ih]; rfl
      rw [e2]
      have hlen : 2 ≤ ((rows.drop a.toNat).take (b - a + 1).toNat).length := by
        simp; omega
      have hall : ∀ x ∈ (rows.drop a.toNat).take (b - a + 1).toNat, x.length = md.chans.length :=
        fun x hx => hrows x (List.mem_of_mem_drop (List.mem_of_mem_take hx))
      match hm : (rows.drop a.toNat).take (b - a + 1).toNat, hlen, hall with
      | x :: y :: l, _, hall =>
        have hx : x.length = md.chans.length := hall x (by simp)
        have : ((y :: l).all fun z => decide (z.length = x.length)) = true := by
          rw [List.all_eq_true]
          intro z hz
          rw [decide_eq_true_iff, hx]; exact hall z (List.mem_cons_of_mem _ hz)
        simp only [bind, Except.bind, loadtxtArray, this, if_true]
        match x, hx with
        | _ :: _ :: _, hx => rw [← hx]
        | [_], hx => simp at hx; omega
        | [], hx => simp at hx; omega
    simp only [hsub, getReturnMetadata_ok hfs.ne', pure, Except.pure, Except.map]
    congr 3
    -- transposing a block of lines is slicing the transposed table
    unfold transposeN
    rw [List.map_map]
    apply List.map_congr_left
    intro c hc
    rw [List.mem_range] at hc
    have hsome : ∀ x ∈ rows, (x[c]?).isSome := by
      intro x hx; simp [hrows x hx, hc]
    have hd : ∀ (l : List (List V)), (∀ x ∈ l, (x[c]?).isSome) → ∀ k,
        (l.drop k).filterMap (fun x => x[c]?) = (l.filterMap fun x => x[c]?).drop k ∧
        (l.take k).filterMap (fun x => x[c]?) = (l.filterMap fun x => x[c]?).take k ∧
        (l.filterMap fun x => x[c]?).length = l.length := by
      intro l
      induction l with
      | nil => simp
      | cons x l ih =>
        intro h k
        obtain ⟨v, hv⟩ := Option.isSome_iff_exists.mp (h x (by simp))
        have ih' := ih (fun y hy => h y (by simp [hy]))
        rw [List.filterMap_cons_some (f := fun x : List V => x[c]?) hv]
        cases k with
        | zero => simp [hv, (ih' 0).2.2]
        | succ k =>
          simp only [List.drop_succ_cons, List.take_succ_cons, List.length_cons]
          rw [List.filterMap_cons_some (f := fun x : List V => x[c]?) hv]
          exact ⟨(ih' k).1, by rw [(ih' k).2.1], by rw [(ih' k).2.2]⟩
    simp only [Function.comp]
    rw [pySlice_eq _ ha0 (by omega) (by rw [(hd rows hsome 0).2.2]; omega)]
    rw [(hd (rows.drop a.toNat) (fun x hx => hsome x (List.mem_of_mem_drop hx)) _).2.1,
      (hd rows hsome a.toNat).1]
    congr 1
    omega

/-- **C05, where the ASCII reader breaks it**: a one-channel text recording is returned as a
one-dimensional array (the `np.loadtxt` squeeze), so it has no row for its only channel. -/
theorem C05_ascii_single_channel_squeezed {V : Type} (vals : List V) (nHeader : ℕ) (md : TimeMeta)
    (r : ReadReq) (hfs : 0 < md.fs) (hn : md.nSamples = vals.length) (hn1 : 1 ≤ md.nSamples)
    (hl : md.lastTime = sampleInstant md.fs md.firstTime (md.nSamples - 1)) (out : TimeMeta × NDArr V)
    (h : readAscii (List.replicate nHeader .header ++ vals.map fun v => .row [v]) nHeader md r = .ok out) :
    ∃ xs, out.2 = NDArr.d1 xs := by
  rcases getReadSamples_cases md r hfs hn1 hl with ⟨he, -⟩ | ⟨a, b, hab, ha0, hlt, hbn, -, -⟩
  · simp [readAscii, he, bind, Except.bind] at h
  · simp only [readAscii, hab, bind, Except.bind, readDataAscii] at h
    have hsub : ∃ xs, loadtxtT (List.replicate nHeader .header ++ vals.map fun v => .row [v])
        (a.toNat + nHeader) (b - a + 1).toNat = .ok (NDArr.d1 xs) := by
      unfold loadtxtT
      have e1 : (List.replicate nHeader AsciiLine.header ++ vals.map fun v => AsciiLine.row [v]).drop
          (a.toNat + nHeader) = (vals.drop a.toNat).map fun v => AsciiLine.row [v] := by
        rw [List.drop_append, List.drop_of_length_le (by simp)]
        simp
      rw [e1, ← List.map_take]
      have e2 : ∀ l : List V, (List.mapM parseAsciiLine (l.map fun v => AsciiLine.row [v])) = .ok (l.map fun v => [v]) := by
        intro l
        induction l with
        | nil => rfl
        | cons x l ih => rw [List.map_cons, List.mapM_cons, ih]; rfl
      rw [e2]
      have hlen : 2 ≤ ((vals.drop a.toNat).take (b - a + 1).toNat).length := by
        simp; omega
      match (vals.drop a.toNat).take (b - a + 1).toNat, hlen with
      | x :: y :: l, _ =>
        have : (((y :: l).map fun v => [v]).all fun z => decide (z.length = [x].length)) = true := by
          rw [List.all_eq_true]
          intro z hz
          rw [List.mem_map] at hz
          obtain ⟨w, -, rfl⟩ := hz
          simp
        rw [List.map_cons]
        simp only [bind, Except.bind, loadtxtArray]
        rw [if_pos this]
        exact ⟨_, rfl⟩
    obtain ⟨xs, hxs⟩ := hsub
    simp only [hxs, getReturnMetadata_ok hfs.ne', pure, Except.pure, Except.ok.injEq] at h
    exact ⟨xs, by rw [← h]⟩

/-- two-channel text file, header skipped, samples 1..3 -/
example : (readAscii [.header, .row [1, 10], .row [2, 20], .row [3, 30], .row [4, 40]] 1
    { fs := 1, chans := ["Ex", "Hy"], nSamples := 4, firstTime := 0, lastTime := 3 }
    { fromSample := some 1 }).map Prod.snd = .ok (NDArr.d2 [[2, 3, 4], [20, 30, 40]]) := by decide +kernel
/-- one-channel text file -/
example : (readAscii [.row [1], .row [2], .row [3]] 0
    { fs := 1, chans := ["Ex"], nSamples := 3, firstTime := 0, lastTime := 2 } {}).map Prod.snd
    = .ok (NDArr.d1 [1, 2, 3]) := by decide +kernel

end Resistics
