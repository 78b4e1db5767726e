import Verif.Model.Window
import Verif.Props.Sampling
import Verif.Lemmas.Except
import Verif.Lemmas.Lists

/-!
# Properties C07-C11: windows of a recording
-/

namespace Resistics

/-- Specification: level metadata that agree with themselves: positive sampling frequency, a period that does
not vanish, at least one sample, and a last time `n - 1` periods after the first. -/
structure LevelMeta.Consistent (md : LevelMeta) : Prop where
  fs_pos : 0 < md.fs
  period_pos : 0 < toTimedelta (1 / md.fs)
  n_pos : 1 ≤ md.nSamples
  last : md.lastTime = md.firstTime + ((md.nSamples - 1 : ℤ) : ℚ) * toTimedelta (1 / md.fs)

/-- Specification: the instant at which global window `g` starts: `g` increments of `win_size - olap_size`
sample periods after the reference time. -/
def winInstant (fs refTime : ℚ) (winSize olapSize g : ℤ) : ℚ :=
  refTime + g * ((winSize - olapSize : ℤ) * toTimedelta (1 / fs))

/-- Specification: global window `g` lies completely in the recording. -/
def WinFits (md : LevelMeta) (refTime : ℚ) (winSize olapSize g : ℤ) : Prop :=
  md.firstTime ≤ winInstant md.fs refTime winSize olapSize g ∧
  winInstant md.fs refTime winSize olapSize g + (winSize - 1 : ℤ) * toTimedelta (1 / md.fs) ≤ md.lastTime

/-! ## C11 -/

theorem datetimeToWin_ok {ref t inc : ℚ} (m : RoundMethod) (hinc : 0 < inc) (h : ref ≤ t) :
    datetimeToWin ref t inc m = .ok (applyRound ((t - ref) / inc) m) := by
  unfold datetimeToWin
  rw [if_neg (not_lt.mpr h)]
  simp only [toSeconds_sum]
  rw [if_neg hinc.ne']

theorem incDuration_ok {fs : ℚ} (h : fs ≠ 0) (w o : ℤ) :
    incDuration w o fs = .ok (toTimedelta (1 / fs) * ((w - o : ℤ) : ℚ)) := by
  simp [incDuration, pyRecip_ok h, bind, Except.bind, pure, Except.pure]

theorem winDuration_ok {fs : ℚ} (h : fs ≠ 0) (w : ℤ) :
    winDuration w fs = .ok (toTimedelta (1 / fs) * ((w - 1 : ℤ) : ℚ)) := by
  simp [winDuration, pyRecip_ok h, bind, Except.bind, pure, Except.pure]

/-- **C11**. The start time of a window converts back to that window with every rounding method. -/
theorem C11_round_trip (ref inc : ℚ) (g : ℤ) (m : RoundMethod) (hinc : 0 < inc) (hg : 0 ≤ g) :
    datetimeToWin ref (winToDatetime ref g inc) inc m = .ok g := by
  have hg' : (0 : ℚ) ≤ g := by exact_mod_cast hg
  have : ref ≤ winToDatetime ref g inc := by
    unfold winToDatetime; nlinarith
  rw [datetimeToWin_ok m hinc this]
  have e : (winToDatetime ref g inc - ref) / inc = (g : ℚ) := by
    unfold winToDatetime; field_simp; ring
  rw [e, applyRound_int]

/-- **C11**. "floor" gives the last window starting at or before the time, "ceil" the first window starting at or
after it, rounding a window whose start is at most half an increment away. -/
theorem C11_floor_ceil_round (ref inc t : ℚ) (hinc : 0 < inc) (h : ref ≤ t) :
    (∃ g, datetimeToWin ref t inc .floor = .ok g ∧ 0 ≤ g ∧ winToDatetime ref g inc ≤ t ∧
      ∀ g', winToDatetime ref g' inc ≤ t → g' ≤ g) ∧
    (∃ g, datetimeToWin ref t inc .ceil = .ok g ∧ 0 ≤ g ∧ t ≤ winToDatetime ref g inc ∧
      ∀ g', t ≤ winToDatetime ref g' inc → g ≤ g') ∧
    (∃ g, datetimeToWin ref t inc .round = .ok g ∧ |t - winToDatetime ref g inc| ≤ inc / 2) := by
  have hq : 0 ≤ (t - ref) / inc := div_nonneg (by linarith) hinc.le
  have hle : ∀ g : ℤ, winToDatetime ref g inc ≤ t ↔ (g : ℚ) ≤ (t - ref) / inc := by
    intro g; unfold winToDatetime; rw [le_div_iff₀ hinc]; constructor <;> intro h <;> linarith
  have hge : ∀ g : ℤ, t ≤ winToDatetime ref g inc ↔ (t - ref) / inc ≤ (g : ℚ) := by
    intro g; unfold winToDatetime; rw [div_le_iff₀ hinc]; constructor <;> intro h <;> linarith
  refine ⟨⟨_, datetimeToWin_ok .floor hinc h, ?_, ?_, ?_⟩, ⟨_, datetimeToWin_ok .ceil hinc h, ?_, ?_, ?_⟩,
    ⟨_, datetimeToWin_ok .round hinc h, ?_⟩⟩
  · rw [applyRound_floor]; exact Int.floor_nonneg.mpr hq
  · rw [hle, applyRound_floor]; exact Int.floor_le _
  · intro g'; rw [hle, applyRound_floor]; exact fun h => Int.le_floor.mpr h
  · rw [applyRound_ceil]; exact Int.ceil_nonneg hq
  · rw [hge, applyRound_ceil]; exact Int.le_ceil _
  · intro g'; rw [hge, applyRound_ceil]; exact fun h => Int.ceil_le.mpr h
  · have key : |(t - ref) / inc - (applyRound ((t - ref) / inc) .round : ℚ)| ≤ 1 / 2 := by
      generalize (t - ref) / inc = x
      unfold applyRound
      split
      · rename_i hx; rw [← hx]; simp
      · have h1 := Int.floor_le x
        have h2 := Int.lt_floor_add_one x
        simp only [pyRound]
        split
        · rename_i h3; rw [abs_le]; constructor <;> linarith
        · rename_i h3
          split
          · rename_i h4; push_cast; rw [abs_le]; constructor <;> linarith
          · rename_i h4
            have h5 : x - ⌊x⌋ = 1 / 2 := le_antisymm (not_lt.mp h4) (not_lt.mp h3)
            split
            · rw [h5]; norm_num
            · push_cast; rw [abs_le]; constructor <;> linarith
    have e : t - winToDatetime ref (applyRound ((t - ref) / inc) .round) inc
        = ((t - ref) / inc - (applyRound ((t - ref) / inc) .round : ℚ)) * inc := by
      unfold winToDatetime; field_simp; ring
    rw [e, abs_mul, abs_of_pos hinc]
    nlinarith

/-- **C11**. A time before the reference time is refused. -/
theorem C11_before_reference_refused (ref inc t : ℚ) (m : RoundMethod) (h : t < ref) :
    datetimeToWin ref t inc m = .error .value := by
  simp [datetimeToWin, h]

/-- **C11**. Window starts are spaced by the increment duration, which is `(win_size - olap_size) / fs` when the
sample period is kept, and a window lasts `(win_size - 1) / fs`. -/
theorem C11_spacing (ref fs : ℚ) (w o g : ℤ) (hfs : 0 < fs) (hp : PeriodKept fs) :
    ∃ inc dur, incDuration w o fs = .ok inc ∧ winDuration w fs = .ok dur ∧
      winToDatetime ref (g + 1) inc - winToDatetime ref g inc = (w - o : ℤ) / fs ∧
      dur = (w - 1 : ℤ) / fs := by
  refine ⟨_, _, incDuration_ok hfs.ne' w o, winDuration_ok hfs.ne' w, ?_, ?_⟩
  · unfold winToDatetime; rw [hp]; push_cast; field_simp; ring
  · rw [hp]; field_simp

example : (0 : ℚ) < 1 / 2 ∧ datetimeToWin 0 (7/4) (1/2) .floor = .ok 3 ∧ datetimeToWin 0 (7/4) (1/2) .ceil = .ok 4 := by
  refine ⟨by norm_num, by decide +kernel, by decide +kernel⟩

/-! ## C09 -/

theorem adjustLastWin_ok {ref last dur inc : ℚ} {n : ℕ} {l0 l : ℤ}
    (h : adjustLastWin ref last dur inc n l0 = .ok l) :
    l ≤ l0 ∧ winToDatetime ref l inc + dur ≤ last ∧
      ∀ g, l < g → g ≤ l0 → last < winToDatetime ref g inc + dur := by
  induction n generalizing l0 with
  | zero =>
    unfold adjustLastWin at h
    split at h
    · cases h
    · rename_i hn
      injection h with h; subst h
      exact ⟨le_refl _, not_lt.mp hn, fun g h1 h2 => by omega⟩
  | succ n ih =>
    unfold adjustLastWin at h
    split at h
    · rename_i hn
      injection h with h; subst h
      exact ⟨le_refl _, hn, fun g h1 h2 => by omega⟩
    · rename_i hn
      obtain ⟨a, b, c⟩ := ih h
      refine ⟨by omega, b, ?_⟩
      intro g h1 h2
      rcases lt_or_ge g l0 with h3 | h3
      · exact c g h1 (by omega)
      · have : g = l0 := by omega
        subst this; exact not_le.mp hn

theorem adjustLastWin_err {ref last dur inc : ℚ} {n : ℕ} {l0 : ℤ} {e : Err}
    (h : adjustLastWin ref last dur inc n l0 = .error e) :
    e = .value ∧ last < winToDatetime ref (l0 - n) inc + dur := by
  induction n generalizing l0 with
  | zero =>
    unfold adjustLastWin at h
    split at h
    · rename_i hn; injection h with h; exact ⟨h.symm, by simpa using hn⟩
    · cases h
  | succ n ih =>
    unfold adjustLastWin at h
    split at h
    · cases h
    · obtain ⟨a, b⟩ := ih h
      refine ⟨a, ?_⟩
      have : l0 - ((n + 1 : ℕ) : ℤ) = l0 - 1 - (n : ℤ) := by push_cast; ring
      rw [this]; exact b

theorem winInstant_eq (fs ref : ℚ) (w o g : ℤ) :
    winToDatetime ref g (toTimedelta (1 / fs) * ((w - o : ℤ) : ℚ)) = winInstant fs ref w o g := by
  unfold winToDatetime winInstant; ring

theorem inc_pos {md : LevelMeta} (hc : md.Consistent) {w o : ℤ} (ho : o < w) :
    0 < toTimedelta (1 / md.fs) * ((w - o : ℤ) : ℚ) := by
  have : (0 : ℚ) < ((w - o : ℤ) : ℚ) := by exact_mod_cast (by omega : 0 < w - o)
  exact mul_pos hc.period_pos this

theorem first_le_last {md : LevelMeta} (hc : md.Consistent) : md.firstTime ≤ md.lastTime := by
  rw [hc.last]
  have h1 : (0 : ℚ) ≤ ((md.nSamples - 1 : ℤ) : ℚ) := by exact_mod_cast (by have := hc.n_pos; omega)
  have := mul_nonneg h1 hc.period_pos.le
  linarith

/-- what `get_first_and_last_win` computes on a recording that starts at or after the reference time -/
theorem getFirstAndLastWin_eq {md : LevelMeta} (hc : md.Consistent) {ref : ℚ} {w o : ℤ} (ho : o < w)
    (href : ref ≤ md.firstTime) :
    getFirstAndLastWin ref md w o =
      (adjustLastWin ref md.lastTime (toTimedelta (1 / md.fs) * ((w - 1 : ℤ) : ℚ))
        (toTimedelta (1 / md.fs) * ((w - o : ℤ) : ℚ)) 2
        ⌊(md.lastTime - ref) / (toTimedelta (1 / md.fs) * ((w - o : ℤ) : ℚ))⌋).map
      (fun l => (⌈(md.firstTime - ref) / (toTimedelta (1 / md.fs) * ((w - o : ℤ) : ℚ))⌉, l)) := by
  unfold getFirstAndLastWin
  rw [winDuration_ok hc.fs_pos.ne', incDuration_ok hc.fs_pos.ne']
  simp only [bind, Except.bind]
  rw [datetimeToWin_ok .ceil (inc_pos hc ho) href,
    datetimeToWin_ok .floor (inc_pos hc ho) (href.trans (first_le_last hc))]
  simp only [applyRound_floor, applyRound_ceil]
  cases adjustLastWin ref md.lastTime (toTimedelta (1 / md.fs) * ((w - 1 : ℤ) : ℚ))
        (toTimedelta (1 / md.fs) * ((w - o : ℤ) : ℚ)) 2
        ⌊(md.lastTime - ref) / (toTimedelta (1 / md.fs) * ((w - o : ℤ) : ℚ))⌋ <;> rfl

/-- **C09**. When a pair is returned, the windows between first and last are exactly the global windows that lie
completely in the recording: none is lost and none is added. -/
theorem C09_no_window_lost (md : LevelMeta) (hc : md.Consistent) (ref : ℚ) (w o : ℤ) (ho : o < w)
    (href : ref ≤ md.firstTime) (hw : 1 ≤ w) (f l : ℤ) (h : getFirstAndLastWin ref md w o = .ok (f, l)) :
    ∀ g, WinFits md ref w o g ↔ f ≤ g ∧ g ≤ l := by
  rw [getFirstAndLastWin_eq hc ho href] at h
  have hinc := inc_pos hc ho
  have hτ := hc.period_pos
  have hd0 : (0 : ℚ) ≤ ((w - 1 : ℤ) : ℚ) := by exact_mod_cast (by omega : (0 : ℤ) ≤ w - 1)
  cases ha : adjustLastWin ref md.lastTime (toTimedelta (1 / md.fs) * ((w - 1 : ℤ) : ℚ))
        (toTimedelta (1 / md.fs) * ((w - o : ℤ) : ℚ)) 2
        ⌊(md.lastTime - ref) / (toTimedelta (1 / md.fs) * ((w - o : ℤ) : ℚ))⌋ with
  | error e => rw [ha] at h; cases h
  | ok l' =>
    rw [ha] at h
    simp only [Except.map, Except.ok.injEq, Prod.mk.injEq] at h
    obtain ⟨rfl, rfl⟩ := h
    obtain ⟨h1, h2, h3⟩ := adjustLastWin_ok ha
    have mono : ∀ g g' : ℤ, g ≤ g' → winInstant md.fs ref w o g ≤ winInstant md.fs ref w o g' := by
      intro g g' hgg
      rw [← winInstant_eq, ← winInstant_eq]
      unfold winToDatetime
      have : (g : ℚ) ≤ g' := by exact_mod_cast hgg
      nlinarith
    have hfirst : ∀ g : ℤ, md.firstTime ≤ winInstant md.fs ref w o g ↔
        ⌈(md.firstTime - ref) / (toTimedelta (1 / md.fs) * ((w - o : ℤ) : ℚ))⌉ ≤ g := by
      intro g
      rw [← winInstant_eq, Int.ceil_le, div_le_iff₀ hinc]
      unfold winToDatetime
      constructor <;> intro h <;> linarith
    intro g
    unfold WinFits
    rw [hfirst g]
    refine and_congr_right (fun _ => ?_)
    rw [winInstant_eq] at h2
    constructor
    · intro hfit
      by_contra hgl
      push Not at hgl
      have hgl0 : g ≤ ⌊(md.lastTime - ref) / (toTimedelta (1 / md.fs) * ((w - o : ℤ) : ℚ))⌋ := by
        rw [Int.le_floor, le_div_iff₀ hinc]
        have : winInstant md.fs ref w o g ≤ md.lastTime := by
          have := mul_nonneg hd0 hτ.le; linarith
        rw [← winInstant_eq] at this
        unfold winToDatetime at this
        linarith
      have := h3 g hgl hgl0
      rw [winInstant_eq] at this
      linarith
    · intro hgl
      have := mono g l' hgl
      linarith

/-- **C09**. When no pair is returned the exception is `ValueError`, and the window three before the end of the
recording does not fit. -/
theorem C09_failure (md : LevelMeta) (hc : md.Consistent) (ref : ℚ) (w o : ℤ) (ho : o < w)
    (e : Err) (h : getFirstAndLastWin ref md w o = .error e) :
    e = .value ∧ (md.firstTime < ref ∨ ∃ g, winInstant md.fs ref w o (g + 3) ≤ md.lastTime + 
        ((w - o : ℤ) : ℚ) * toTimedelta (1 / md.fs) ∧ md.lastTime < winInstant md.fs ref w o (g + 3) ∧
      md.lastTime < winInstant md.fs ref w o g + (w - 1 : ℤ) * toTimedelta (1 / md.fs)) := by
  by_cases href : ref ≤ md.firstTime
  · rw [getFirstAndLastWin_eq hc ho href] at h
    have hinc := inc_pos hc ho
    cases ha : adjustLastWin ref md.lastTime (toTimedelta (1 / md.fs) * ((w - 1 : ℤ) : ℚ))
        (toTimedelta (1 / md.fs) * ((w - o : ℤ) : ℚ)) 2
        ⌊(md.lastTime - ref) / (toTimedelta (1 / md.fs) * ((w - o : ℤ) : ℚ))⌋ with
    | ok l => rw [ha] at h; cases h
    | error e' =>
      rw [ha] at h
      simp only [Except.map, Except.error.injEq] at h
      subst h
      obtain ⟨h1, h2⟩ := adjustLastWin_err ha
      refine ⟨h1, Or.inr ⟨⌊(md.lastTime - ref) / (toTimedelta (1 / md.fs) * ((w - o : ℤ) : ℚ))⌋ - 2, ?_, ?_, ?_⟩⟩
      · rw [← winInstant_eq]
        have := Int.floor_le ((md.lastTime - ref) / (toTimedelta (1 / md.fs) * ((w - o : ℤ) : ℚ)))
        rw [le_div_iff₀ hinc] at this
        unfold winToDatetime
        push_cast at this ⊢
        linarith
      · rw [← winInstant_eq]
        have := Int.lt_floor_add_one ((md.lastTime - ref) / (toTimedelta (1 / md.fs) * ((w - o : ℤ) : ℚ)))
        rw [div_lt_iff₀ hinc] at this
        unfold winToDatetime
        push_cast at this ⊢
        linarith
      · rw [winInstant_eq] at h2
        have e2 : (((2 : ℕ) : ℤ)) = 2 := rfl
        rw [e2] at h2
        linarith
  · push Not at href
    refine ⟨?_, Or.inl href⟩
    unfold getFirstAndLastWin at h
    rw [winDuration_ok hc.fs_pos.ne', incDuration_ok hc.fs_pos.ne'] at h
    simp only [bind, Except.bind] at h
    rw [C11_before_reference_refused _ _ _ _ href] at h
    injection h with h
    exact h.symm

/-- **C09**. For a recording starting at or after the reference time and an overlap of at most half a window (more
precisely `2 * olap_size ≤ win_size + 1`, which includes the default quarter), a pair is always returned. -/
theorem C09_succeeds (md : LevelMeta) (hc : md.Consistent) (ref : ℚ) (w o : ℤ) (ho : o < w)
    (href : ref ≤ md.firstTime) (hhalf : 2 * o ≤ w + 1) :
    ∃ f l, getFirstAndLastWin ref md w o = .ok (f, l) := by
  cases h : getFirstAndLastWin ref md w o with
  | ok p => exact ⟨p.1, p.2, rfl⟩
  | error e =>
    exfalso
    obtain ⟨-, h1 | ⟨g, h2, -, h3⟩⟩ := C09_failure md hc ref w o ho e h
    · linarith
    · have hτ := hc.period_pos
      have : winInstant md.fs ref w o (g + 3) = winInstant md.fs ref w o g + 3 * (((w - o : ℤ) : ℚ) * toTimedelta (1 / md.fs)) := by
        unfold winInstant; push_cast; ring
      rw [this] at h2
      have h4 : ((w - 1 : ℤ) : ℚ) ≤ 2 * ((w - o : ℤ) : ℚ) := by exact_mod_cast (by omega)
      have h5 := mul_le_mul_of_nonneg_right h4 hτ.le
      linarith

/-- **C09** (limit). For larger overlaps the search gives up although complete windows exist: 12 samples at 1 Hz,
windows of 10 samples overlapping by 9; windows 0, 1 and 2 fit. -/
theorem C09_gives_up_on_large_overlaps :
    ∃ md : LevelMeta, md.Consistent ∧ WinFits md 0 10 9 0 ∧ WinFits md 0 10 9 2 ∧
      getFirstAndLastWin 0 md 10 9 = .error .value := by
  refine ⟨⟨1, 12, 0, 11⟩, ⟨by norm_num, by decide +kernel, by norm_num, by decide +kernel⟩, ?_, ?_,
    by decide +kernel⟩ <;> unfold WinFits winInstant <;> constructor <;> decide +kernel

/-! ## C07, C08 -/

/-- the table, row by row -/
theorem getWinTable_ok {ref : ℚ} {md : LevelMeta} {w o : ℤ} {table : List WinRow} (hfs : md.fs ≠ 0)
    (h : getWinTable ref md w o = .ok table) :
    ∃ f l, getFirstAndLastWin ref md w o = .ok (f, l) ∧ 0 ≤ l - f + 1 ∧
      (table.length : ℤ) = l - f + 1 ∧
      ∀ k (hk : k < table.length), table[k].globalWin = f + k ∧ table[k].localWin = k ∧
        table[k].fromSample = ⌊(winInstant md.fs ref w o f - md.firstTime) * md.fs⌋ + k * (w - o) ∧
        table[k].toSample = table[k].fromSample + (w - 1) ∧
        table[k].winStart = winInstant md.fs ref w o f + (k : ℚ) * ((w - o : ℤ) / md.fs) ∧
        table[k].winEnd = table[k].winStart + ((w - 1 : ℤ) : ℚ) / md.fs := by
  unfold getWinTable at h
  rw [incDuration_ok hfs] at h
  simp only [bind, Except.bind] at h
  cases hfl : getFirstAndLastWin ref md w o with
  | error e => rw [hfl] at h; cases h
  | ok p =>
    obtain ⟨f, l⟩ := p
    rw [hfl] at h
    simp only at h
    by_cases hn : l - f + 1 < 0
    · rw [if_pos hn] at h; cases h
    · rw [if_neg hn] at h
      injection h with h
      subst h
      refine ⟨f, l, rfl, by omega, by simp; omega, ?_⟩
      intro k hk
      simp only [List.getElem_map, List.getElem_range, winInstant_eq, toNSamples_floor]
      refine ⟨trivial, trivial, by ring, by ring, ?_, ?_⟩
      · congr 2; field_simp
      · congr 1; ring

/-- **C07**. Every window in the table starts at or after the first sample, ends at or before the last sample, and
holds exactly `win_size` samples, for every reference time, recording, window size and overlap. -/
theorem C07_windows_inside (md : LevelMeta) (hc : md.Consistent) (ref : ℚ) (w o : ℤ) (ho : o < w) (hw : 1 ≤ w)
    (table : List WinRow) (h : getWinTable ref md w o = .ok table) :
    ∀ r ∈ table, 0 ≤ r.fromSample ∧ r.fromSample ≤ r.toSample ∧ r.toSample < md.nSamples ∧
      r.toSample - r.fromSample + 1 = w := by
  obtain ⟨f, l, hfl, hn, hlen, hrows⟩ := getWinTable_ok hc.fs_pos.ne' h
  have href : ref ≤ md.firstTime := by
    by_contra hlt
    unfold getFirstAndLastWin at hfl
    rw [winDuration_ok hc.fs_pos.ne', incDuration_ok hc.fs_pos.ne'] at hfl
    simp only [bind, Except.bind] at hfl
    rw [C11_before_reference_refused _ _ _ _ (not_le.mp hlt)] at hfl
    cases hfl
  have hfits := C09_no_window_lost md hc ref w o ho href hw f l hfl
  intro r hr
  obtain ⟨k, hk, rfl⟩ := List.mem_iff_getElem.mp hr
  obtain ⟨hg, hloc, hfrom, hto, -, -⟩ := hrows k hk
  have hfs := hc.fs_pos
  have hτ := hc.period_pos
  have hfit1 := (hfits f).mpr ⟨le_refl _, by omega⟩
  have hfit2 := (hfits (f + k)).mpr ⟨by omega, by omega⟩
  have hnn : 0 ≤ (winInstant md.fs ref w o f - md.firstTime) * md.fs :=
    mul_nonneg (by linarith [hfit1.1]) hfs.le
  have h0 : 0 ≤ ⌊(winInstant md.fs ref w o f - md.firstTime) * md.fs⌋ := Int.floor_nonneg.mpr hnn
  have hkI : (0 : ℤ) ≤ k * (w - o) := mul_nonneg (by omega) (by omega)
  refine ⟨by rw [hfrom]; omega, by omega, ?_, by omega⟩
  -- the last sample
  have hs : md.fs * toTimedelta (1 / md.fs) ≤ 1 := by
    have := mul_le_mul_of_nonneg_left (toTimedelta_le (1 / md.fs)) hfs.le
    rwa [mul_one_div_cancel hfs.ne'] at this
  have hle := hfit2.2
  have hsplit : winInstant md.fs ref w o (f + k) = winInstant md.fs ref w o f + k * ((w - o : ℤ) * toTimedelta (1 / md.fs)) := by
    unfold winInstant; push_cast; ring
  rw [hsplit, hc.last] at hle
  -- (start - first) ≤ (n - 1 - (w-1) - k (w-o)) τ
  have hA : winInstant md.fs ref w o f - md.firstTime ≤
      ((md.nSamples - 1 - (w - 1) - k * (w - o) : ℤ) : ℚ) * toTimedelta (1 / md.fs) := by
    push_cast at hle ⊢; linarith
  have hA0 : 0 ≤ winInstant md.fs ref w o f - md.firstTime := by linarith [hfit1.1]
  have hM : (0 : ℚ) ≤ ((md.nSamples - 1 - (w - 1) - k * (w - o) : ℤ) : ℚ) := by
    by_contra hneg
    push Not at hneg
    have := mul_neg_of_neg_of_pos hneg hτ
    linarith
  have hB : (winInstant md.fs ref w o f - md.firstTime) * md.fs ≤
      ((md.nSamples - 1 - (w - 1) - k * (w - o) : ℤ) : ℚ) := by
    have h1 := mul_le_mul_of_nonneg_right hA hfs.le
    have h2 := mul_le_mul_of_nonneg_left hs hM
    nlinarith
  have hfl' : ⌊(winInstant md.fs ref w o f - md.firstTime) * md.fs⌋ ≤ md.nSamples - 1 - (w - 1) - k * (w - o) := by
    have := Int.floor_le_floor hB
    rwa [Int.floor_intCast] at this
  rw [hto, hfrom]
  omega

/-- **C09**. When a table is returned it lists exactly the global windows that lie completely in the recording. -/
theorem C09_table_complete (md : LevelMeta) (hc : md.Consistent) (ref : ℚ) (w o : ℤ) (ho : o < w) (hw : 1 ≤ w)
    (href : ref ≤ md.firstTime) (table : List WinRow) (h : getWinTable ref md w o = .ok table) :
    ∀ g, WinFits md ref w o g ↔ g ∈ table.map WinRow.globalWin := by
  obtain ⟨f, l, hfl, -, hlen, hrows⟩ := getWinTable_ok hc.fs_pos.ne' h
  intro g
  rw [C09_no_window_lost md hc ref w o ho href hw f l hfl g]
  constructor
  · rintro ⟨h1, h2⟩
    have hk : (g - f).toNat < table.length := by omega
    refine List.mem_map.mpr ⟨table[(g - f).toNat], List.getElem_mem hk, ?_⟩
    rw [(hrows _ hk).1]; omega
  · intro hg
    obtain ⟨r, hr, rfl⟩ := List.mem_map.mp hg
    obtain ⟨k, hk, rfl⟩ := List.mem_iff_getElem.mp hr
    rw [(hrows k hk).1]; omega

/-- **C09**. For a recording that starts at or after the reference time and is at least one window long, with an overlap
of at most half a window, a table is always returned (it is empty when no window fits). -/
theorem C09_table_succeeds (md : LevelMeta) (hc : md.Consistent) (ref : ℚ) (w o : ℤ) (ho : o < w)
    (href : ref ≤ md.firstTime) (hhalf : 2 * o ≤ w + 1) (hlong : w ≤ md.nSamples) :
    ∃ table, getWinTable ref md w o = .ok table := by
  obtain ⟨f, l, hfl⟩ := C09_succeeds md hc ref w o ho href hhalf
  have hn : ¬ (l - f + 1 < 0) := by
    intro hneg
    have h := hfl
    rw [getFirstAndLastWin_eq hc ho href] at h
    have hinc := inc_pos hc ho
    have hτ := hc.period_pos
    cases ha : adjustLastWin ref md.lastTime (toTimedelta (1 / md.fs) * ((w - 1 : ℤ) : ℚ))
        (toTimedelta (1 / md.fs) * ((w - o : ℤ) : ℚ)) 2
        ⌊(md.lastTime - ref) / (toTimedelta (1 / md.fs) * ((w - o : ℤ) : ℚ))⌋ with
    | error e => rw [ha] at h; cases h
    | ok l' =>
      rw [ha] at h
      simp only [Except.map, Except.ok.injEq, Prod.mk.injEq] at h
      obtain ⟨hf, rfl⟩ := h
      obtain ⟨h1, h2, h3⟩ := adjustLastWin_ok ha
      have hlt : ((f - 1 : ℤ) : ℚ) < (md.firstTime - ref) / (toTimedelta (1 / md.fs) * ((w - o : ℤ) : ℚ)) := by
        rw [← Int.lt_ceil, hf]; omega
      rw [lt_div_iff₀ hinc] at hlt
      have hle := first_le_last hc
      have h4 : f - 1 ≤ ⌊(md.lastTime - ref) / (toTimedelta (1 / md.fs) * ((w - o : ℤ) : ℚ))⌋ := by
        rw [Int.le_floor, le_div_iff₀ hinc]; linarith
      have h5 := h3 (f - 1) (by omega) h4
      unfold winToDatetime at h5
      rw [hc.last] at h5
      have h6 : ((w - 1 : ℤ) : ℚ) ≤ ((md.nSamples - 1 : ℤ) : ℚ) := by exact_mod_cast (by omega)
      have h7 := mul_le_mul_of_nonneg_right h6 hτ.le
      linarith
  unfold getWinTable
  rw [incDuration_ok hc.fs_pos.ne', hfl]
  simp only [bind, Except.bind]
  rw [if_neg hn]
  exact ⟨_, rfl⟩

/-- **C09** (limit). A recording shorter than a window can make the table fail instead of being empty: one sample at
1 Hz, one second after the reference time, windows of 10 samples overlapping by 2. -/
theorem C09_short_recording_refused :
    ∃ md : LevelMeta, md.Consistent ∧ (∀ g, ¬ WinFits md 0 10 2 g) ∧ getWinTable 0 md 10 2 = .error .value := by
  have hc : (⟨1, 1, 1, 1⟩ : LevelMeta).Consistent := ⟨by norm_num, by decide +kernel, by norm_num, by decide +kernel⟩
  refine ⟨⟨1, 1, 1, 1⟩, hc, ?_, by decide +kernel⟩
  have h : getFirstAndLastWin 0 ⟨1, 1, 1, 1⟩ 10 2 = .ok (1, -1) := by decide +kernel
  intro g hg
  have := (C09_no_window_lost _ hc 0 10 2 (by norm_num) (by norm_num) (by norm_num) 1 (-1) h g).mp hg
  omega

/-- **C08**. Local indices count from zero, global indices are consecutive from the first window that fits to the
last, and consecutive windows share exactly `olap_size` samples. -/
theorem C08_windows_consecutive (md : LevelMeta) (hfs : 0 < md.fs) (ref : ℚ) (w o : ℤ)
    (table : List WinRow) (h : getWinTable ref md w o = .ok table) :
    (∃ f l, getFirstAndLastWin ref md w o = .ok (f, l) ∧ (table.length : ℤ) = l - f + 1 ∧
      table.map WinRow.globalWin = (List.range table.length).map fun (k : ℕ) => f + (k : ℤ)) ∧
    table.map WinRow.localWin = List.range table.length ∧
    ∀ (k : ℕ) (r r' : WinRow), table[k]? = some r → table[k + 1]? = some r' →
      r.toSample - r'.fromSample + 1 = o ∧ r'.fromSample = r.fromSample + (w - o) ∧
      r'.globalWin = r.globalWin + 1 := by
  obtain ⟨f, l, hfl, hn, hlen, hrows⟩ := getWinTable_ok hfs.ne' h
  refine ⟨⟨f, l, hfl, hlen, ?_⟩, ?_, ?_⟩
  · apply List.ext_getElem
    · simp
    · intro k h1 h2
      simp only [List.length_map] at h1
      simp [(hrows k h1).1]
  · apply List.ext_getElem
    · simp
    · intro k h1 h2
      simp only [List.length_map] at h1
      simp [(hrows k h1).2.1]
  · intro k r r' h1 h2
    obtain ⟨hk1, rfl⟩ := List.getElem?_eq_some_iff.mp h1
    obtain ⟨hk2, rfl⟩ := List.getElem?_eq_some_iff.mp h2
    obtain ⟨a1, -, a3, a4, -⟩ := hrows k hk1
    obtain ⟨b1, -, b3, b4, -⟩ := hrows (k + 1) hk2
    have e : ((k + 1 : ℕ) : ℤ) * (w - o) = k * (w - o) + (w - o) := by push_cast; ring
    refine ⟨by omega, by omega, by rw [a1, b1]; push_cast; ring⟩

/-- **C08**. When the sample period is kept, the start time listed for a window is the instant of that global
window, and the end time is `(win_size - 1)/fs` later. -/
theorem C08_window_times (md : LevelMeta) (hfs : 0 < md.fs) (hp : PeriodKept md.fs) (ref : ℚ) (w o : ℤ)
    (table : List WinRow) (h : getWinTable ref md w o = .ok table) :
    ∀ r ∈ table, r.winStart = ref + r.globalWin * ((w - o : ℤ) / md.fs) ∧
      r.winEnd = r.winStart + (w - 1 : ℤ) / md.fs := by
  obtain ⟨f, l, hfl, hn, hlen, hrows⟩ := getWinTable_ok hfs.ne' h
  intro r hr
  obtain ⟨k, hk, rfl⟩ := List.mem_iff_getElem.mp hr
  obtain ⟨a1, -, -, -, a5, a6⟩ := hrows k hk
  refine ⟨?_, a6⟩
  rw [a5, a1]
  unfold winInstant
  rw [hp]
  push_cast
  field_simp
  ring

/-- a table on concrete data: 20 samples at 2 Hz starting 1.25 s after the reference time, windows of 6
overlapping by 2 -/
def demoLevel : LevelMeta := ⟨2, 20, 5/4, 43/4⟩
theorem demoLevel_consistent : demoLevel.Consistent :=
  ⟨by decide +kernel, by decide +kernel, by decide +kernel, by decide +kernel⟩
example : (getWinTable 0 demoLevel 6 2).map (fun t => t.map fun r => (r.globalWin, r.localWin, r.fromSample, r.toSample))
    = .ok [(1, 0, 1, 6), (2, 1, 5, 10), (3, 2, 9, 14), (4, 3, 13, 18)] := by decide +kernel

/-! ## C10 -/

/-- **C10**. The first sample of a window is at or before the instant of the global window, by less than one
sample period; it is exactly at that instant when the first sample of the recording lies on the sample grid
through the reference time. -/
theorem C10_window_start_near_instant (md : LevelMeta) (hfs : 0 < md.fs) (hp : PeriodKept md.fs) (ref : ℚ)
    (w o : ℤ) (table : List WinRow) (h : getWinTable ref md w o = .ok table) :
    ∀ r ∈ table,
      sampleInstant md.fs md.firstTime r.fromSample ≤ winInstant md.fs ref w o r.globalWin ∧
      winInstant md.fs ref w o r.globalWin < sampleInstant md.fs md.firstTime r.fromSample + 1 / md.fs ∧
      ((∃ m : ℤ, md.firstTime = sampleInstant md.fs ref m) →
        sampleInstant md.fs md.firstTime r.fromSample = winInstant md.fs ref w o r.globalWin) := by
  obtain ⟨f, l, hfl, hn, hlen, hrows⟩ := getWinTable_ok hfs.ne' h
  intro r hr
  obtain ⟨k, hk, rfl⟩ := List.mem_iff_getElem.mp hr
  obtain ⟨a1, -, a3, -, -, -⟩ := hrows k hk
  have hsplit : winInstant md.fs ref w o (f + k) = winInstant md.fs ref w o f + k * ((w - o : ℤ) / md.fs) := by
    unfold winInstant; rw [hp]; push_cast; ring
  have key : sampleInstant md.fs md.firstTime (⌊(winInstant md.fs ref w o f - md.firstTime) * md.fs⌋ + k * (w - o))
      = md.firstTime + (⌊(winInstant md.fs ref w o f - md.firstTime) * md.fs⌋ : ℚ) / md.fs + k * ((w - o : ℤ) / md.fs) := by
    unfold sampleInstant; push_cast; ring
  rw [a1, a3, hsplit, key]
  have h1 := Int.floor_le ((winInstant md.fs ref w o f - md.firstTime) * md.fs)
  have h2 := Int.lt_floor_add_one ((winInstant md.fs ref w o f - md.firstTime) * md.fs)
  rw [← div_le_iff₀ hfs] at h1
  rw [← lt_div_iff₀ hfs, add_div] at h2
  refine ⟨by linarith, by linarith, ?_⟩
  rintro ⟨m, hm⟩
  have hint : (winInstant md.fs ref w o f - md.firstTime) * md.fs = ((f * (w - o) - m : ℤ) : ℚ) := by
    rw [hm]; unfold winInstant sampleInstant; rw [hp]; push_cast; field_simp; ring
  rw [hint, Int.floor_intCast, ← hint]
  field_simp
  ring

/-- **C10**. Two recordings at the same sampling frequency, windowed against the same reference time: the samples
of the same global window start less than one sample period apart, and at the same instant when both
recordings lie on the sample grid through the reference time. -/
theorem C10_recordings_align (a b : LevelMeta) (hab : a.fs = b.fs) (hfs : 0 < a.fs) (hp : PeriodKept a.fs)
    (ref : ℚ) (w o : ℤ) (ta tb : List WinRow) (ha : getWinTable ref a w o = .ok ta)
    (hb : getWinTable ref b w o = .ok tb) (ra rb : WinRow) (hra : ra ∈ ta) (hrb : rb ∈ tb)
    (hg : ra.globalWin = rb.globalWin) :
    |sampleInstant a.fs a.firstTime ra.fromSample - sampleInstant b.fs b.firstTime rb.fromSample| < 1 / a.fs ∧
    ((∃ m : ℤ, a.firstTime = sampleInstant a.fs ref m) → (∃ m : ℤ, b.firstTime = sampleInstant b.fs ref m) →
      sampleInstant a.fs a.firstTime ra.fromSample = sampleInstant b.fs b.firstTime rb.fromSample) := by
  obtain ⟨a1, a2, a3⟩ := C10_window_start_near_instant a hfs hp ref w o ta ha ra hra
  obtain ⟨b1, b2, b3⟩ := C10_window_start_near_instant b (hab ▸ hfs) (hab ▸ hp) ref w o tb hb rb hrb
  rw [← hg, ← hab] at b1 b2 b3
  rw [← hab]
  constructor
  · rw [abs_lt]; constructor <;> linarith
  · intro h1 h2
    rw [a3 h1, b3 h2]

example : PeriodKept 2 ∧ ∃ m : ℤ, (5 : ℚ) / 2 = sampleInstant 2 0 m := by
  refine ⟨by unfold PeriodKept; decide +kernel, 5, by unfold sampleInstant; norm_num⟩

end Resistics
