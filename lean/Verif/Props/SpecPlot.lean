import Verif.Model.SpecPlot
import Verif.Props.Timestamps
import Verif.Props.Spectra

/-!
# Plots of spectra (C64)
-/

namespace Resistics

/-! ## Specification -/

/-- Specification: increasing times are grouped into consecutive intervals of the length `step`, one of which starts at `origin`:
from the interval of the first time to that of the last one. -/
structure IsGrouping (step origin : ℚ) (times : List ℚ) (groups : List (ℚ × List ℕ)) : Prop where
  aligned : ∃ m : ℤ, ∀ (k : ℕ) (g : ℚ × List ℕ), groups[k]? = some g → g.1 = origin + (m + k : ℤ) * step
  members : ∀ g ∈ groups, ∀ i : ℕ, i ∈ g.2 ↔ ∃ t, times[i]? = some t ∧ g.1 ≤ t ∧ t < g.1 + step
  every : (groups.map (·.2)).flatten = List.range times.length
  first : ∀ g, groups.head? = some g → g.2 ≠ []
  last : ∀ g, groups.getLast? = some g → g.2 ≠ []

/-- Specification: the number of the interval of the length `step` that holds a time, counted from `origin`. -/
def slot (step origin t : ℚ) : ℤ := ⌊(t - origin) / step⌋

/-- Specification: the value of a window for a channel and a frequency. -/
def valueAt {V : Type} [Zero V] (win : List (List V)) (c k : ℕ) : V := (win.getD c []).getD k 0

/-- Specification: the mean magnitude of some windows for a channel and a frequency. -/
def meanAt {V : Type} [Zero V] (mag : V → ℚ) (wins : SpecArr V) (c k : ℕ) : ℚ :=
  (wins.map fun win => mag (valueAt win c k)).sum / (wins.length : ℚ)

/-- Specification: a line shows values at frequencies: points in order, with the first and the last, and the values perhaps rounded
to single precision. -/
def ShowsRow (d : DType) (freqs : List ℚ) (value : ℕ → ℚ) (line : StackLine) : Prop :=
  ∃ (sel : List ℕ) (f : ℚ → ℚ), PlotSelection freqs.length sel ∧ (f = id ∨ f = d.fromFloat32 ∘ toFloat32) ∧
    line.freqs = sel.map (fun i => freqs.getD i 0) ∧ line.values = sel.map fun i => some (f (value i))

/-- Specification: lines that show the mean magnitudes of windows: one for each channel, in the row of the channel; the first one
has the legend.  No windows have no values. -/
def LinesShow {V : Type} [Zero V] (mag : V → ℚ) (d : DType) (chans : ℕ) (freqs : List ℚ) (wins : SpecArr V)
    (lines : List StackLine) : Prop :=
  lines.length = chans ∧ ∀ (c : ℕ) (line : StackLine), lines[c]? = some line →
    line.row = c + 1 ∧ (line.legend = true ↔ c = 0) ∧ (wins ≠ [] → ShowsRow d freqs (meanAt mag wins c) line) ∧
    (wins = [] → line.freqs = freqs ∧ line.values = List.replicate freqs.length none)

/-- the windows of a group -/
def pickWins {V : Type} (arr : SpecArr V) (members : List ℕ) : SpecArr V := members.map fun i => arr.getD i []

/-! ## Groups -/

theorem groupFirst_eq (step offset : ℚ) (times : List ℚ) :
    groupFirst step offset times = groupOrigin offset times + (⌊(times.headD 0 - groupOrigin offset times) / step⌋ : ℚ) * step := by
  unfold groupFirst restOf; ring

theorem groupLast_eq (step offset : ℚ) (times : List ℚ) :
    groupLast step offset times =
      groupOrigin offset times + ((⌊(times.getLastD 0 - groupOrigin offset times) / step⌋ : ℚ) + 1) * step := by
  unfold groupLast restOf; ring

theorem slot_iff {step : ℚ} (hs : 0 < step) (origin t : ℚ) (m : ℤ) :
    slot step origin t = m ↔ origin + m * step ≤ t ∧ t < origin + m * step + step := by
  unfold slot
  rw [Int.floor_eq_iff, le_div_iff₀ hs, div_lt_iff₀ hs]
  constructor
  · rintro ⟨h1, h2⟩; constructor <;> linarith
  · rintro ⟨h1, h2⟩; constructor <;> linarith

theorem slot_mono {step : ℚ} (hs : 0 < step) (origin : ℚ) {a b : ℚ} (h : a ≤ b) : slot step origin a ≤ slot step origin b := by
  unfold slot
  apply Int.floor_le_floor
  exact div_le_div_of_nonneg_right (by linarith) hs.le

theorem groupStarts_eq {step : ℚ} (hs : 0 < step) (offset : ℚ) (times : List ℚ) :
    groupStarts step offset times =
      (List.range (slot step (groupOrigin offset times) (times.getLastD 0) + 1 - slot step (groupOrigin offset times) (times.headD 0)).toNat).map
        fun (k : ℕ) => groupOrigin offset times + ((slot step (groupOrigin offset times) (times.headD 0) + k : ℤ) : ℚ) * step := by
  unfold groupStarts
  have hlen : (groupLast step offset times - groupFirst step offset times) / step =
      ((slot step (groupOrigin offset times) (times.getLastD 0) + 1 - slot step (groupOrigin offset times) (times.headD 0) : ℤ) : ℚ) := by
    rw [groupLast_eq, groupFirst_eq, div_eq_iff hs.ne']
    unfold slot
    push_cast
    ring
  rw [hlen, Int.floor_intCast]
  refine List.map_congr_left fun k _ => ?_
  rw [groupFirst_eq]
  unfold slot
  push_cast
  ring

theorem eq_range_of_sorted {l : List ℕ} {n : ℕ} (h1 : l.Pairwise (· < ·)) (h2 : ∀ i, i ∈ l ↔ i < n) : l = List.range n := by
  apply List.Perm.eq_of_pairwise (le := (· < ·)) (by intro a b _ _ h h'; omega) h1 List.pairwise_lt_range
  rw [List.perm_ext_iff_of_nodup h1.nodup List.nodup_range]
  intro a
  rw [h2, List.mem_range]

/-- **C64**. Windows in increasing order are grouped into consecutive intervals of the length asked for, one of which starts at
midnight of the day of the first window plus the offset; every window is in exactly one group, that of its start. -/
theorem C64_groups (step offset : ℚ) (times : List ℚ) (hs : 0 < step) (hne : times ≠ []) (hinc : times.Pairwise (· < ·)) :
    ∃ groups, grouper step offset times = .ok groups ∧
      IsGrouping step (dayStart (times.headD 0) + offset) times groups ∧
      (groups.length : ℤ) = slot step (dayStart (times.headD 0) + offset) (times.getLastD 0) -
        slot step (dayStart (times.headD 0) + offset) (times.headD 0) + 1 := by
  set o := dayStart (times.headD 0) + offset with ho
  have ho' : groupOrigin offset times = o := rfl
  have hpos : 0 < times.length := List.length_pos_of_ne_nil hne
  have hhead : times.headD 0 = times.getD 0 0 := by cases times with
    | nil => simp at hne
    | cons x xs => rfl
  have hlast : times.getLastD 0 = times.getD (times.length - 1) 0 := by
    rw [List.getLastD_eq_getLast?, List.getLast?_eq_getElem?, List.getD_eq_getElem?_getD]
  have hmono : ∀ i j, i ≤ j → j < times.length → times.getD i 0 ≤ times.getD j 0 := by
    intro i j hij hj
    rw [List.getD_eq_getElem?_getD, List.getD_eq_getElem?_getD, List.getElem?_eq_getElem hj,
      List.getElem?_eq_getElem (by omega), Option.getD_some, Option.getD_some]
    rcases Nat.lt_or_eq_of_le hij with h | rfl
    · exact (List.pairwise_iff_getElem.1 hinc i j _ hj h).le
    · exact le_refl _
  set F := slot step o (times.headD 0) with hF
  set L := slot step o (times.getLastD 0) with hL
  have hFL : F ≤ L := by
    rw [hF, hL]
    apply slot_mono hs
    rw [hhead, hlast]
    exact hmono _ _ (by omega) (by omega)
  have hin : ∀ i, i < times.length → F ≤ slot step o (times.getD i 0) ∧ slot step o (times.getD i 0) ≤ L := by
    intro i hi
    constructor
    · rw [hF, hhead]; exact slot_mono hs _ (hmono _ _ (by omega) hi)
    · rw [hL, hlast]; exact slot_mono hs _ (hmono _ _ (by omega) (by omega))
  have hmem : ∀ (m : ℤ) (i : ℕ), i ∈ groupMembers step times (o + (m : ℚ) * step) ↔ i < times.length ∧ slot step o (times.getD i 0) = m := by
    intro m i
    unfold groupMembers
    rw [List.mem_filter, List.mem_range, slot_iff hs]
    simp
  have hgr : grouper step offset times = .ok ((List.range (L + 1 - F).toNat).map fun (k : ℕ) =>
      (o + ((F + k : ℤ) : ℚ) * step, groupMembers step times (o + ((F + k : ℤ) : ℚ) * step))) := by
    unfold grouper
    rw [if_neg (not_le.2 hs), if_neg hne, groupStarts_eq hs, List.map_map, ho', ← hF, ← hL]
    rfl
  refine ⟨_, hgr, ⟨⟨F, ?_⟩, ?_, ?_, ?_, ?_⟩, ?_⟩
  · intro k g hg
    rw [List.getElem?_map, Option.map_eq_some_iff] at hg
    obtain ⟨j, hj, rfl⟩ := hg
    obtain ⟨h1, rfl⟩ := List.getElem?_eq_some_iff.1 hj
    rw [List.getElem_range]
  · intro g hg i
    obtain ⟨k, -, rfl⟩ := List.mem_map.1 hg
    rw [hmem, slot_iff hs]
    constructor
    · rintro ⟨h1, h2, h3⟩
      refine ⟨times.getD i 0, ?_, h2, h3⟩
      rw [List.getD_eq_getElem?_getD, List.getElem?_eq_getElem h1, Option.getD_some]
    · rintro ⟨t, h1, h2, h3⟩
      have : times.getD i 0 = t := by rw [List.getD_eq_getElem?_getD, h1, Option.getD_some]
      rw [this]
      exact ⟨(List.getElem?_eq_some_iff.1 h1).1, h2, h3⟩
  · rw [List.map_map]
    apply eq_range_of_sorted
    · rw [List.pairwise_flatten]
      constructor
      · intro l hl
        obtain ⟨k, -, rfl⟩ := List.mem_map.1 hl
        exact List.pairwise_lt_range.filter _
      · rw [List.pairwise_map]
        refine List.pairwise_lt_range.imp ?_
        intro a b hab x hx y hy
        simp only [Function.comp] at hx hy
        rw [hmem] at hx hy
        by_contra hle
        have := slot_mono hs o (hmono y x (by omega) hx.1)
        rw [hx.2, hy.2] at this
        omega
    · intro i
      rw [List.mem_flatten]
      constructor
      · rintro ⟨l, hl, hi⟩
        obtain ⟨k, -, rfl⟩ := List.mem_map.1 hl
        simp only [Function.comp] at hi
        rw [hmem] at hi
        exact hi.1
      · intro hi
        obtain ⟨h1, h2⟩ := hin i hi
        refine ⟨_, List.mem_map.2 ⟨(slot step o (times.getD i 0) - F).toNat, List.mem_range.2 (by omega), rfl⟩, ?_⟩
        simp only [Function.comp]
        rw [hmem]
        exact ⟨hi, by omega⟩
  · intro g hg
    have h0 : 0 < (L + 1 - F).toNat := by omega
    rw [List.head?_map, List.head?_eq_getElem?, List.getElem?_range h0, Option.map_some, Option.some.injEq] at hg
    subst hg
    apply List.ne_nil_of_mem (a := 0)
    rw [hmem]
    exact ⟨hpos, by rw [← hhead, ← hF]; simp⟩
  · intro g hg
    rw [List.getLast?_map, List.getLast?_range, if_neg (by omega), Option.map_some, Option.some.injEq] at hg
    subst hg
    apply List.ne_nil_of_mem (a := times.length - 1)
    rw [hmem]
    exact ⟨by omega, by rw [← hlast, ← hL]; omega⟩
  · rw [List.length_map, List.length_range]
    omega

theorem sorted_ends {times : List ℚ} (hne : times ≠ []) (hinc : times.Pairwise (· < ·)) :
    ∀ t ∈ times, times.headD 0 ≤ t ∧ t ≤ times.getLastD 0 := by
  intro t ht
  obtain ⟨i, hi, rfl⟩ := List.mem_iff_getElem.1 ht
  have h0 : times.headD 0 = times[0]'(by omega) := by
    cases times with
    | nil => simp at hne
    | cons x xs => rfl
  have hl : times.getLastD 0 = times[times.length - 1]'(by omega) := by
    rw [List.getLastD_eq_getLast?, List.getLast?_eq_getElem?, List.getElem?_eq_getElem (by omega), Option.getD_some]
  rw [h0, hl]
  constructor
  · rcases Nat.eq_zero_or_pos i with rfl | h
    · exact le_refl _
    · exact (List.pairwise_iff_getElem.1 hinc 0 i _ hi h).le
  · rcases Nat.lt_or_eq_of_le (by omega : i ≤ times.length - 1) with h | h
    · exact (List.pairwise_iff_getElem.1 hinc i _ hi (by omega) h).le
    · simp [h]

/-- **C64**. Windows that span ten group lengths or more are in more than ten groups, those that span nine or less in at most
ten. -/
theorem C64_span (step offset : ℚ) (times : List ℚ) (hs : 0 < step) (hne : times ≠ []) (hinc : times.Pairwise (· < ·))
    (groups : List (ℚ × List ℕ)) (hg : grouper step offset times = .ok groups) :
    (10 * step ≤ times.getLastD 0 - times.headD 0 → 10 < groups.length) ∧
    (times.getLastD 0 - times.headD 0 ≤ 9 * step → groups.length ≤ 10) := by
  obtain ⟨groups', h1, -, h2⟩ := C64_groups step offset times hs hne hinc
  rw [hg, Except.ok.injEq] at h1
  subst h1
  set o := dayStart (times.headD 0) + offset
  set a := (times.getLastD 0 - o) / step with ha
  set b := (times.headD 0 - o) / step with hb
  have hab : (a - b) * step = times.getLastD 0 - times.headD 0 := by
    rw [ha, hb]; field_simp; ring
  have e1 : slot step o (times.getLastD 0) = ⌊a⌋ := rfl
  have e2 : slot step o (times.headD 0) = ⌊b⌋ := rfl
  rw [e1, e2] at h2
  have a1 := Int.floor_le a
  have a2 := Int.lt_floor_add_one a
  have b1 := Int.floor_le b
  have b2 := Int.lt_floor_add_one b
  constructor
  · intro h
    rw [← hab] at h
    have h10 : 10 ≤ a - b := by
      by_contra hlt
      have := mul_lt_mul_of_pos_right (not_le.1 hlt) hs
      linarith
    have : ((9 : ℤ) : ℚ) < ((⌊a⌋ - ⌊b⌋ : ℤ) : ℚ) := by push_cast; linarith
    have := Int.cast_lt.1 this
    omega
  · intro h
    rw [← hab] at h
    have h9 : a - b ≤ 9 := by
      by_contra hlt
      have := mul_lt_mul_of_pos_right (not_le.1 hlt) hs
      linarith
    have : ((⌊a⌋ - ⌊b⌋ : ℤ) : ℚ) < ((10 : ℤ) : ℚ) := by push_cast; linarith
    have := Int.cast_lt.1 this
    omega

theorem dayStart_le (t : ℚ) : dayStart t ≤ t ∧ t < dayStart t + 86400 := by
  unfold dayStart
  have h1 := Int.floor_le (t / 86400)
  have h2 := Int.lt_floor_add_one (t / 86400)
  constructor <;> linarith

theorem le_dayCeil (t : ℚ) : t ≤ dayCeil t ∧ dayCeil t < t + 86400 := by
  unfold dayCeil
  have h1 := Int.le_ceil (t / 86400)
  have h2 := Int.ceil_lt_add_one (t / 86400)
  constructor <;> linarith

theorem dayStart_mono {a b : ℚ} (h : a ≤ b) : dayStart a ≤ dayStart b := by
  unfold dayStart
  have : ⌊a / 86400⌋ ≤ ⌊b / 86400⌋ := Int.floor_le_floor (by linarith)
  have : (⌊a / 86400⌋ : ℚ) ≤ ⌊b / 86400⌋ := by exact_mod_cast this
  linarith

/-- **C64**. Without a grouping, all windows between the first and the last time of the spectra are in one group. -/
theorem C64_one_group {V : Type} (s : SpecData V) (times : List ℚ) (hne : times ≠ []) (hinc : times.Pairwise (· < ·))
    (hin : ∀ t ∈ times, pandasTime s.md.firstTime ≤ t ∧ t < pandasTime s.md.lastTime) :
    grouper (s.groupLength none) 0 times = .ok [(dayStart (times.headD 0), List.range times.length)] := by
  set first := pandasTime s.md.firstTime with hfirst
  set last := pandasTime s.md.lastTime with hlast
  set t0 := times.headD 0 with ht0
  set t1 := times.getLastD 0 with ht1
  have hstep : s.groupLength none = dayCeil last - dayStart first := rfl
  have m0 : t0 ∈ times := by
    rw [ht0]
    cases times with
    | nil => simp at hne
    | cons x xs => simp
  have m1 : t1 ∈ times := by
    rw [ht1, List.getLastD_eq_getLast?, List.getLast?_eq_some_getLast hne, Option.getD_some]
    exact List.getLast_mem hne
  have h01 := (sorted_ends hne hinc t0 m0).2
  have hs : 0 < s.groupLength none := by
    rw [hstep]
    have := (dayStart_le first).1
    have := (le_dayCeil last).1
    have := hin t0 m0
    linarith
  obtain ⟨groups, h1, h2, h3⟩ := C64_groups (s.groupLength none) 0 times hs hne hinc
  have hslot : ∀ t ∈ times, slot (s.groupLength none) (dayStart t0 + 0) t = 0 := by
    intro t ht
    rw [slot_iff hs, hstep]
    have e1 := (sorted_ends hne hinc t ht).1
    have e2 := (dayStart_le t0).1
    have e3 := (le_dayCeil last).1
    have e4 := (hin t ht).2
    have e5 := dayStart_mono (hin t0 m0).1
    push_cast
    constructor <;> linarith
  rw [hslot t0 m0, hslot t1 m1] at h3
  obtain ⟨g, rfl⟩ := List.length_eq_one_iff.1 (by omega : groups.length = 1)
  have he := h2.every
  simp only [List.map_cons, List.map_nil, List.flatten_cons, List.flatten_nil, List.append_nil] at he
  obtain ⟨m, hm⟩ := h2.aligned
  have hg := hm 0 g rfl
  have hmem := (h2.members g (by simp) 0).1 (by rw [he, List.mem_range]; exact List.length_pos_of_ne_nil hne)
  obtain ⟨t, q1, q2, q3⟩ := hmem
  have ht := hslot t (List.mem_of_getElem? q1)
  have : slot (s.groupLength none) (dayStart t0 + 0) t = m + (0 : ℕ) := by
    rw [slot_iff hs, ← hg]; exact ⟨q2, q3⟩
  have hm0 : m = 0 := by rw [ht] at this; simpa using this.symm
  rw [h1, Except.ok.injEq, List.cons.injEq]
  refine ⟨Prod.ext ?_ he, rfl⟩
  rw [hg, hm0]
  simp [ht0]

/-! ## Lines -/

theorem meanMag_some {V : Type} [Zero V] (mag : V → ℚ) (chans nf : ℕ) (wins : SpecArr V) (hne : wins ≠ []) :
    meanMag mag chans nf wins = (List.range chans).map fun c => (List.range nf).map fun k => some (meanAt mag wins c k) := by
  unfold meanMag
  refine List.map_congr_left fun c _ => List.map_congr_left fun k _ => ?_
  rw [if_neg hne]
  rfl

theorem meanMag_none {V : Type} [Zero V] (mag : V → ℚ) (chans nf : ℕ) :
    meanMag mag chans nf ([] : SpecArr V) = (List.range chans).map fun _ => List.replicate nf none := by
  unfold meanMag
  refine List.map_congr_left fun c _ => ?_
  simp

theorem stackLine_some (d : DType) (maxPts : Option ℤ) (h2 : ∀ m, maxPts = some m → 2 ≤ m) (freqs : List ℚ) (hpos : 0 < freqs.length)
    (h24 : freqs.length ≤ 2 ^ 24) (value : ℕ → ℚ) (rows c : ℕ) (hc : c < rows) :
    ∃ line, stackLine d maxPts rows freqs ((List.range freqs.length).map fun k => some (value k), c) = .ok line ∧ line.row = c + 1 ∧
      (line.legend = true ↔ c = 0) ∧ ShowsRow d freqs value line := by
  have hno : (none : Option ℚ) ∉ (List.range freqs.length).map fun k => some (value k) := by simp
  have hget : ((List.range freqs.length).map fun k => some (value k)).map (fun v => v.getD 0) = (List.range freqs.length).map value := by
    rw [List.map_map]; rfl
  obtain ⟨sel, f, s1, s2, s3⟩ := selected d ((List.range freqs.length).map value) maxPts h2 (by simpa using h24) (by simpa using hpos)
  rw [List.length_map, List.length_range] at s1
  have hlt := s1.lt hpos
  have hfs : ((sel.map fun (i : ℕ) => (i : ℚ)).mapM fun i => pyIndex freqs (pyInt i)) = .ok (sel.map fun i => freqs.getD i 0) := by
    rw [List.mapM_map]
    refine mapM_ok_map fun i hi => ?_
    have e : pyInt ((i : ℕ) : ℚ) = (i : ℤ) := by simp [pyInt]
    simp only [Function.comp]
    rw [e, pyIndex_natCast _ _ (hlt i hi), List.getD_eq_getElem?_getD, List.getElem?_eq_getElem (hlt i hi), Option.getD_some]
  refine ⟨⟨c + 1, sel.map fun i => freqs.getD i 0, (sel.map fun i => f (((List.range freqs.length).map value).getD i 0)).map some, c == 0⟩, ?_,
    rfl, by simp, sel, f, s1, s2, rfl, ?_⟩
  · unfold stackLine applyLttbRow
    simp only [if_neg hno, hget, s3, Except.map, bind, Except.bind, hfs, if_pos hc]
  · simp only [List.map_map]
    refine List.map_congr_left fun i hi => ?_
    simp only [Function.comp]
    rw [List.getD_eq_getElem?_getD, List.getElem?_map, List.getElem?_range (hlt i hi), Option.map_some, Option.getD_some]

theorem stackLine_none (d : DType) (maxPts : Option ℤ) (freqs : List ℚ) (hmax : ∀ m, maxPts = some m → (freqs.length : ℤ) ≤ m)
    (hpos : 0 < freqs.length) (rows c : ℕ) (hc : c < rows) :
    stackLine d maxPts rows freqs (List.replicate freqs.length none, c) =
      .ok ⟨c + 1, freqs, List.replicate freqs.length none, c == 0⟩ := by
  have hin : (none : Option ℚ) ∈ List.replicate freqs.length (none : Option ℚ) :=
    List.mem_replicate.2 ⟨by omega, rfl⟩
  have hle : ¬ (maxPts.getD (freqs.length : ℤ)) < (freqs.length : ℤ) := by
    cases maxPts with
    | none => simp
    | some m => simpa using hmax m rfl
  have hfs : (((List.range freqs.length).map fun (i : ℕ) => (i : ℚ)).mapM fun i => pyIndex freqs (pyInt i)) = .ok freqs := by
    rw [List.mapM_map]
    have : freqs = (List.range freqs.length).map fun i => freqs.getD i 0 := list_eq_range_map freqs 0
    conv_rhs => rw [this]
    refine mapM_ok_map fun i hi => ?_
    have hi := List.mem_range.1 hi
    have e : pyInt ((i : ℕ) : ℚ) = (i : ℤ) := by simp [pyInt]
    simp only [Function.comp]
    rw [e, pyIndex_natCast _ _ hi, List.getD_eq_getElem?_getD, List.getElem?_eq_getElem hi, Option.getD_some]
  unfold stackLine applyLttbRow
  simp only [if_pos hin, List.length_replicate, if_neg hle, bind, Except.bind, hfs, if_pos hc]

/-- the lines of some windows -/
theorem addStackData_shows {V : Type} [Zero V] (mag : V → ℚ) (d : DType) (maxPts : Option ℤ) (h2 : ∀ m, maxPts = some m → 2 ≤ m)
    (freqs : List ℚ) (hpos : 0 < freqs.length) (h24 : freqs.length ≤ 2 ^ 24) (wins : SpecArr V)
    (hnan : wins = [] → ∀ m, maxPts = some m → (freqs.length : ℤ) ≤ m) (chans : ℕ) :
    ∃ lines, addStackData d maxPts chans freqs (meanMag mag chans freqs.length wins) = .ok lines ∧
      LinesShow mag d chans freqs wins lines := by
  have hlen : (meanMag mag chans freqs.length wins).length = chans := by simp [meanMag]
  have key : ∀ (c : ℕ) (row : List (Option ℚ)), (meanMag mag chans freqs.length wins)[c]? = some row →
      ∃ line, stackLine d maxPts chans freqs (row, c) = .ok line ∧ line.row = c + 1 ∧ (line.legend = true ↔ c = 0) ∧
        (wins ≠ [] → ShowsRow d freqs (meanAt mag wins c) line) ∧
        (wins = [] → line.freqs = freqs ∧ line.values = List.replicate freqs.length none) := by
    intro c row hrow
    have hc : c < chans := by rw [← hlen]; exact (List.getElem?_eq_some_iff.1 hrow).1
    by_cases hw : wins = []
    · subst hw
      rw [meanMag_none, List.getElem?_map, List.getElem?_range hc, Option.map_some, Option.some.injEq] at hrow
      subst hrow
      exact ⟨_, stackLine_none d maxPts freqs (hnan rfl) hpos chans c hc, rfl, by simp, fun h => absurd rfl h, fun _ => ⟨rfl, rfl⟩⟩
    · rw [meanMag_some mag chans freqs.length wins hw, List.getElem?_map, List.getElem?_range hc, Option.map_some,
        Option.some.injEq] at hrow
      subst hrow
      obtain ⟨line, q1, q2, q3, q4⟩ := stackLine_some d maxPts h2 freqs hpos h24 (meanAt mag wins c) chans c hc
      exact ⟨line, q1, q2, q3, fun _ => q4, fun h => absurd h hw⟩
  unfold addStackData
  obtain ⟨lines, hl⟩ := mapM_exists (f := stackLine d maxPts chans freqs) (l := (meanMag mag chans freqs.length wins).zipIdx) (by
    rintro ⟨row, c⟩ hp
    obtain ⟨line, q, -⟩ := key c row (List.mem_zipIdx_iff_getElem?.1 hp)
    exact ⟨line, q⟩)
  have hll := mapM_ok_length hl
  rw [List.length_zipIdx, hlen] at hll
  refine ⟨lines, hl, hll, ?_⟩
  intro c line hline
  obtain ⟨hc, rfl⟩ := List.getElem?_eq_some_iff.1 hline
  have := mapM_ok_getElem hl c (by rw [List.length_zipIdx, hlen]; omega) hc
  rw [List.getElem_zipIdx, Nat.zero_add] at this
  obtain ⟨line, q1, q2⟩ := key c _ (List.getElem?_eq_getElem (by omega))
  rw [this, Except.ok.injEq] at q1
  rw [q1]
  exact q2

/-! ## Spectra -/

/-- the array of a level has the shape of the metadata -/
theorem shaped_array {V : Type} {s : SpecData V} (hsh : s.Shaped) {level : ℕ} {lm : SpecLevelMeta}
    (hlm : s.md.levels[level]? = some lm) (hw : 1 ≤ lm.nWins) (hch : 1 ≤ s.md.chans.length) :
    ∃ arr, s.getLevel level = .ok arr ∧ dictGet s.data level = .ok arr ∧ levelGet s.data (level : ℤ) = .ok arr ∧
      arrChans arr = s.md.chans.length ∧ arrFreqs arr = lm.freqs.length ∧ (arr.length : ℤ) = lm.nWins ∧ level < s.md.nLevels := by
  obtain ⟨arr, h1, h2, h3⟩ := hsh.array level lm hlm
  have hlt : level < s.md.nLevels := by rw [← hsh.n_levels]; exact (List.getElem?_eq_some_iff.1 hlm).1
  have hd : dictGet s.data level = .ok arr := by unfold dictGet; rw [h1]
  cases arr with
  | nil => simp at h2; omega
  | cons win rest =>
    obtain ⟨q1, q2⟩ := h3 win (by simp)
    refine ⟨_, getLevel_of_lookup hlt h1, hd, ?_, q1, ?_, h2, hlt⟩
    · unfold levelGet; rw [if_neg (by omega), Int.toNat_natCast, hd]
    · cases win with
      | nil => simp at q1; omega
      | cons row rows => exact q2 row (by simp)

/-- Hypotheses on the spectra that are plotted: matching shapes, at least one channel, window and frequency in each level. -/
structure SpecData.Plottable {V : Type} (s : SpecData V) : Prop where
  shaped : s.Shaped
  chans : 1 ≤ s.md.chans.length
  wins : ∀ lm ∈ s.md.levels, 1 ≤ lm.nWins
  freqs : ∀ lm ∈ s.md.levels, 0 < lm.freqs.length ∧ lm.freqs.length ≤ 2 ^ 24

theorem plotLevel_shows {V : Type} [Zero V] (s : SpecData V) (hp : s.Plottable) (mag : V → ℚ) (d : DType) (maxPts : Option ℤ)
    (h2 : ∀ m, maxPts = some m → 2 ≤ m) (level : ℕ) (h10 : level < 10) (lm : SpecLevelMeta) (hlm : s.md.levels[level]? = some lm) :
    ∃ arr lines, s.getLevel level = .ok arr ∧ s.plotLevel mag d maxPts level = .ok lines ∧
      LinesShow mag d s.md.chans.length lm.freqs arr lines := by
  have hmem := List.mem_of_getElem? hlm
  obtain ⟨arr, a1, a2, -, a3, a4, a5, a6⟩ := shaped_array hp.shaped hlm (hp.wins lm hmem) hp.chans
  have hne : arr ≠ [] := by
    rintro rfl
    have := hp.wins lm hmem
    simp at a5
    omega
  obtain ⟨lines, l1, l2⟩ := addStackData_shows mag d maxPts h2 lm.freqs (hp.freqs lm hmem).1 (hp.freqs lm hmem).2 arr
    (fun h => absurd h hne) s.md.chans.length
  refine ⟨arr, lines, a1, ?_, l2⟩
  obtain ⟨hi, he⟩ := List.getElem?_eq_some_iff.1 hlm
  unfold SpecData.plotLevel nextColor
  rw [pyIndex_natCast _ _ hi, he]
  simp only [bind, Except.bind, a2, if_neg (by unfold plotlyColors; omega : ¬ plotlyColors ≤ level), a3, a4, l1]

/-- **C64**. Plotting spectra of up to ten levels: one line for each level and channel, in the row of the channel, that shows the mean
magnitude of all windows at the frequencies of the level. -/
theorem C64_plot {V : Type} [Zero V] (s : SpecData V) (hp : s.Plottable) (mag : V → ℚ) (d : DType) (maxPts : Option ℤ)
    (h2 : ∀ m, maxPts = some m → 2 ≤ m) (h10 : s.md.nLevels ≤ 10) :
    ∃ plots, s.plot mag d maxPts = .ok plots ∧ plots.length = s.md.nLevels ∧
      ∀ (level : ℕ) (lm : SpecLevelMeta), s.md.levels[level]? = some lm → ∃ arr lines, s.getLevel level = .ok arr ∧
        plots[level]? = some lines ∧ LinesShow mag d s.md.chans.length lm.freqs arr lines := by
  have key : ∀ level < s.md.nLevels, ∃ lm, s.md.levels[level]? = some lm := by
    intro level hl
    exact ⟨_, List.getElem?_eq_getElem (by rw [hp.shaped.n_levels]; exact hl)⟩
  obtain ⟨plots, hpl⟩ := mapM_exists (f := s.plotLevel mag d maxPts) (l := List.range s.md.nLevels) (by
    intro level hl
    have hl := List.mem_range.1 hl
    obtain ⟨lm, hlm⟩ := key level hl
    obtain ⟨-, lines, -, q, -⟩ := plotLevel_shows s hp mag d maxPts h2 level (by omega) lm hlm
    exact ⟨lines, q⟩)
  have hlen := mapM_ok_length hpl
  rw [List.length_range] at hlen
  refine ⟨plots, hpl, hlen, ?_⟩
  intro level lm hlm
  have hlt : level < s.md.nLevels := by rw [← hp.shaped.n_levels]; exact (List.getElem?_eq_some_iff.1 hlm).1
  obtain ⟨arr, lines, q1, q2, q3⟩ := plotLevel_shows s hp mag d maxPts h2 level (by omega) lm hlm
  have := mapM_ok_getElem hpl level (by rw [List.length_range]; exact hlt) (by omega)
  rw [List.getElem_range, q2, Except.ok.injEq] at this
  exact ⟨arr, lines, q1, by rw [List.getElem?_eq_getElem (by omega), this], q3⟩

/-- **C64** (finding). Spectra of more than ten levels cannot be plotted: there are ten colours. -/
theorem C64_eleven_levels {V : Type} [Zero V] (s : SpecData V) (mag : V → ℚ) (d : DType) (maxPts : Option ℤ) (h : 10 < s.md.nLevels) :
    ∃ e, s.plot mag d maxPts = .error e := by
  cases hp : s.plot mag d maxPts with
  | error e => exact ⟨e, rfl⟩
  | ok plots =>
    exfalso
    have hl := mapM_ok_length hp
    rw [List.length_range] at hl
    have := mapM_ok_getElem hp 10 (by rw [List.length_range]; exact h) (by omega)
    rw [List.getElem_range] at this
    unfold SpecData.plotLevel nextColor at this
    rw [except_bind_ok] at this
    obtain ⟨lm, -, this⟩ := this
    rw [except_bind_ok] at this
    obtain ⟨arr, -, this⟩ := this
    simp [plotlyColors, bind, Except.bind] at this

/-- Hypotheses on the windows of a level: a positive sampling frequency, less overlap than window and windows at least a nanosecond
apart. -/
structure SpecLevelMeta.Timed (lm : SpecLevelMeta) : Prop where
  fs : 0 < lm.fs
  olap : lm.olapSize < lm.winSize
  apart : lm.fs / ((lm.winSize - lm.olapSize : ℤ) : ℚ) ≤ 1000000000

theorem windowStarts_spec {V : Type} (s : SpecData V) (hp : s.Plottable) (level : ℕ) (lm : SpecLevelMeta)
    (hlm : s.md.levels[level]? = some lm) (ht : lm.Timed) :
    ∃ times first, s.windowStarts level = .ok times ∧ times ≠ [] ∧ (times.length : ℤ) = lm.nWins ∧ times.Pairwise (· < ·) ∧
      getWinStarts s.md.refTime lm.winSize lm.olapSize lm.fs lm.nWins.toNat lm.indexOffset =
        .ok ((List.range lm.nWins.toNat).map fun (k : ℕ) => sampleInstant (lm.fs / (lm.winSize - lm.olapSize : ℤ)) first k) ∧
      Estimates (lm.fs / (lm.winSize - lm.olapSize : ℤ)) first lm.nWins.toNat times := by
  obtain ⟨first, starts, -, w1, w2, w3, -⟩ := C57_window_times s.md.refTime lm.winSize lm.olapSize lm.fs ht.fs ht.olap lm.nWins.toNat
    lm.indexOffset
  have hw := hp.wins lm (List.mem_of_getElem? hlm)
  obtain ⟨hi, he⟩ := List.getElem?_eq_some_iff.1 hlm
  have hlt : level < s.md.nLevels := by rw [← hp.shaped.n_levels]; exact hi
  refine ⟨starts, first, ?_, ?_, ?_, w3.increasing ht.apart, w1, w3⟩
  · unfold SpecData.windowStarts
    rw [if_neg (by omega), pyIndex_natCast _ _ hi, he]
    exact w2
  · intro h
    have := w3.count
    rw [h] at this
    simp at this
    omega
  · rw [w3.count]; omega

/-- the mean of a group -/
theorem groupStack_eq {V : Type} [Zero V] (s : SpecData V) (mag : V → ℚ) (level : ℤ) (arr : SpecArr V) (chans nf : ℕ)
    (ha : levelGet s.data level = .ok arr) (h1 : arrChans arr = chans) (h2 : arrFreqs arr = nf) (members : List ℕ)
    (hm : ∀ i ∈ members, i < arr.length) :
    s.groupStack mag level members = .ok (meanMag mag chans nf (pickWins arr members)) := by
  unfold SpecData.groupStack
  have : (members.mapM fun (i : ℕ) => pyIndex arr (i : ℤ)) = .ok (pickWins arr members) := by
    refine mapM_ok_map fun i hi => ?_
    rw [pyIndex_natCast _ _ (hm i hi), List.getD_eq_getElem?_getD, List.getElem?_eq_getElem (hm i hi), Option.getD_some]
  simp only [bind, Except.bind, ha, this, h1, h2]
  rfl

/-- Specification: what is drawn for a group: lines that show the means of its windows, with the start of the group as legend. -/
def GroupShown {V : Type} [Zero V] (mag : V → ℚ) (d : DType) (chans : ℕ) (freqs : List ℚ) (arr : SpecArr V) (g : ℚ × List ℕ)
    (shown : ℚ × List StackLine) : Prop :=
  shown.1 = g.1 ∧ LinesShow mag d chans freqs (pickWins arr g.2) shown.2

/-- **C64 (a level that is not there)**: the times of the windows of a level that is not there are refused, and so are its stacks and its
section. -/
theorem C64_level_not_there {V : Type} [Zero V] (s : SpecData V) (hp : s.Plottable) (mag : V → ℚ) (d : DType) (maxPts : Option ℤ)
    (level : ℤ) (h : (s.md.nLevels : ℤ) ≤ level) (grouping : Option ℚ) (offset step : ℚ) :
    s.windowStarts level = .error .value ∧ s.plotLevelStack mag d level maxPts grouping offset = .error .index ∧
    s.plotLevelSection mag level step = .error .index := by
  have hl : s.md.levels.length = s.md.nLevels := hp.shaped.n_levels
  obtain ⟨k, rfl⟩ := Int.eq_ofNat_of_zero_le (le_trans (Int.natCast_nonneg _) h)
  have hi : pyIndex s.md.levels (k : ℤ) = .error .index := pyIndex_natCast_ge _ _ (by omega)
  refine ⟨?_, ?_, ?_⟩
  · unfold SpecData.windowStarts
    rw [if_pos h]
  · unfold SpecData.plotLevelStack
    simp only [hi, bind, Except.bind]
  · unfold SpecData.plotLevelSection
    simp only [hi, bind, Except.bind]

/-- **C64**. Plotting a level in groups: the windows are grouped by their starts; up to ten groups are drawn, each as one line for
every channel that shows the mean magnitude of the windows of the group; more than ten groups are an error. -/
theorem C64_level_stack {V : Type} [Zero V] (s : SpecData V) (hp : s.Plottable) (mag : V → ℚ) (d : DType) (maxPts : Option ℤ)
    (h2 : ∀ m, maxPts = some m → 2 ≤ m) (level : ℕ) (lm : SpecLevelMeta) (hlm : s.md.levels[level]? = some lm) (ht : lm.Timed)
    (grouping : Option ℚ) (offset : ℚ) (hs : 0 < s.groupLength grouping) :
    ∃ times arr groups, s.windowStarts level = .ok times ∧ s.getLevel level = .ok arr ∧ times.length = arr.length ∧
      grouper (s.groupLength grouping) offset times = .ok groups ∧ IsGrouping (s.groupLength grouping) (dayStart (times.headD 0) + offset) times groups ∧
      (groups.length ≤ 10 → ((∀ m, maxPts = some m → (lm.freqs.length : ℤ) ≤ m) ∨ ∀ g ∈ groups, g.2 ≠ []) →
        ∃ shown, s.plotLevelStack mag d level maxPts grouping offset = .ok shown ∧
          List.Forall₂ (GroupShown mag d s.md.chans.length lm.freqs arr) groups shown) ∧
      (10 < groups.length → ∃ e, s.plotLevelStack mag d level maxPts grouping offset = .error e) := by
  have hmem := List.mem_of_getElem? hlm
  obtain ⟨times, first, t1, t2, t3, t4, -, -⟩ := windowStarts_spec s hp level lm hlm ht
  obtain ⟨arr, a1, -, a2, a3, a4, a5, a6⟩ := shaped_array hp.shaped hlm (hp.wins lm hmem) hp.chans
  obtain ⟨groups, g1, g2, -⟩ := C64_groups (s.groupLength grouping) offset times hs t2 t4
  obtain ⟨hi, he⟩ := List.getElem?_eq_some_iff.1 hlm
  have hrun : s.plotLevelStack mag d level maxPts grouping offset =
      groups.zipIdx.mapM (s.plotGroup mag d maxPts level lm.freqs) := by
    unfold SpecData.plotLevelStack
    rw [pyIndex_natCast _ _ hi, he]
    simp only [bind, Except.bind, t1, g1]
  have hlt : ∀ g ∈ groups, ∀ i ∈ g.2, i < arr.length := by
    intro g hg i hig
    obtain ⟨t, q, -⟩ := (g2.members g hg i).1 hig
    have := (List.getElem?_eq_some_iff.1 q).1
    omega
  refine ⟨times, arr, groups, t1, a1, by omega, g1, g2, ?_, ?_⟩
  · intro h10 hnan
    rw [hrun]
    have key : ∀ (k : ℕ) (g : ℚ × List ℕ), groups[k]? = some g → ∃ shown, s.plotGroup mag d maxPts level lm.freqs (g, k) = .ok shown ∧
        GroupShown mag d s.md.chans.length lm.freqs arr g shown := by
      intro k g hg
      have hgm := List.mem_of_getElem? hg
      have hk := (List.getElem?_eq_some_iff.1 hg).1
      obtain ⟨lines, l1, l2⟩ := addStackData_shows mag d maxPts h2 lm.freqs (hp.freqs lm hmem).1 (hp.freqs lm hmem).2
        (pickWins arr g.2) (fun h => by
          rcases hnan with h' | h'
          · exact h'
          · exact absurd (List.map_eq_nil_iff.1 h) (h' g hgm)) s.md.chans.length
      refine ⟨(g.1, lines), ?_, rfl, l2⟩
      unfold SpecData.plotGroup nextColor
      simp only [groupStack_eq s mag level arr _ _ a2 a3 a4 g.2 (hlt g hgm), bind, Except.bind,
        if_neg (by unfold plotlyColors; omega : ¬ plotlyColors ≤ k), l1]
      rfl
    obtain ⟨shown, hsh⟩ := mapM_exists (f := s.plotGroup mag d maxPts level lm.freqs) (l := groups.zipIdx) (by
      rintro ⟨g, k⟩ hgk
      obtain ⟨sh, q, -⟩ := key k g (List.mem_zipIdx_iff_getElem?.1 hgk)
      exact ⟨sh, q⟩)
    refine ⟨shown, hsh, ?_⟩
    have hl := mapM_ok_length hsh
    rw [List.length_zipIdx] at hl
    rw [List.forall₂_iff_get]
    refine ⟨hl.symm, ?_⟩
    intro i h1 h2
    have := mapM_ok_getElem hsh i (by rw [List.length_zipIdx]; exact h1) h2
    rw [List.getElem_zipIdx, Nat.zero_add] at this
    obtain ⟨sh, q1, q2⟩ := key i _ (List.getElem?_eq_getElem h1)
    rw [this, Except.ok.injEq] at q1
    simp only [List.get_eq_getElem]
    rw [q1]
    exact q2
  · intro h10
    cases hpl : s.plotLevelStack mag d level maxPts grouping offset with
    | error e => exact ⟨e, rfl⟩
    | ok shown =>
      exfalso
      rw [hrun] at hpl
      have hl := mapM_ok_length hpl
      rw [List.length_zipIdx] at hl
      have := mapM_ok_getElem hpl 10 (by rw [List.length_zipIdx]; exact h10) (by omega)
      rw [List.getElem_zipIdx, Nat.zero_add] at this
      unfold SpecData.plotGroup nextColor at this
      rw [except_bind_ok] at this
      obtain ⟨st, -, this⟩ := this
      simp [plotlyColors, bind, Except.bind] at this

theorem pickWins_range {V : Type} (arr : SpecArr V) : pickWins arr (List.range arr.length) = arr :=
  (list_eq_range_map arr []).symm

/-- **C64**. Without a grouping, the only group of `plot_level_stack` has the lines that `plot` draws for the level. -/
theorem C64_default_stack {V : Type} [Zero V] (s : SpecData V) (hp : s.Plottable) (mag : V → ℚ) (d : DType) (maxPts : Option ℤ)
    (h2 : ∀ m, maxPts = some m → 2 ≤ m) (level : ℕ) (h10 : level < 10) (lm : SpecLevelMeta) (hlm : s.md.levels[level]? = some lm)
    (ht : lm.Timed) (times : List ℚ) (htimes : s.windowStarts level = .ok times)
    (hin : ∀ t ∈ times, pandasTime s.md.firstTime ≤ t ∧ t < pandasTime s.md.lastTime) :
    ∃ lines, s.plotLevel mag d maxPts level = .ok lines ∧
      s.plotLevelStack mag d level maxPts none 0 = .ok [(dayStart (times.headD 0), lines)] := by
  have hmem := List.mem_of_getElem? hlm
  obtain ⟨times', first, t1, t2, t3, t4, -, -⟩ := windowStarts_spec s hp level lm hlm ht
  rw [htimes, Except.ok.injEq] at t1
  subst t1
  obtain ⟨arr, a1, a0, a2, a3, a4, a5, a6⟩ := shaped_array hp.shaped hlm (hp.wins lm hmem) hp.chans
  have g1 := C64_one_group s times t2 t4 hin
  obtain ⟨hi, he⟩ := List.getElem?_eq_some_iff.1 hlm
  obtain ⟨arr', lines, l1, l2, -⟩ := plotLevel_shows s hp mag d maxPts h2 level h10 lm hlm
  refine ⟨lines, l2, ?_⟩
  have hadd : addStackData d maxPts s.md.chans.length lm.freqs (meanMag mag s.md.chans.length lm.freqs.length arr) = .ok lines := by
    unfold SpecData.plotLevel nextColor at l2
    rw [pyIndex_natCast _ _ hi, he] at l2
    simpa only [bind, Except.bind, a0, if_neg (by unfold plotlyColors; omega : ¬ plotlyColors ≤ level), a3, a4] using l2
  have hl : times.length = arr.length := by omega
  unfold SpecData.plotLevelStack
  rw [pyIndex_natCast _ _ hi, he]
  simp only [bind, Except.bind, htimes, g1]
  rw [List.zipIdx_cons, List.zipIdx_nil, List.mapM_cons, List.mapM_nil]
  unfold SpecData.plotGroup nextColor
  simp only [groupStack_eq s mag level arr _ _ a2 a3 a4 (List.range arr.length) (fun i hi => List.mem_range.1 hi),
    hl, pickWins_range, bind, Except.bind, if_neg (by decide : ¬ plotlyColors ≤ 0), hadd, pure, Except.pure]

/-- **C64**. The mean over all windows is the mean of the means of the groups, weighted with their numbers of windows. -/
theorem C64_mean_of_groups {V : Type} [Zero V] (mag : V → ℚ) (arr : SpecArr V) {step origin : ℚ} {times : List ℚ}
    {groups : List (ℚ × List ℕ)} (hg : IsGrouping step origin times groups) (hl : times.length = arr.length) (c k : ℕ) :
    (groups.map fun g => (g.2.length : ℚ) * meanAt mag (pickWins arr g.2) c k).sum = (arr.length : ℚ) * meanAt mag arr c k := by
  have key : ∀ (wins : SpecArr V), (wins.length : ℚ) * meanAt mag wins c k = (wins.map fun win => mag (valueAt win c k)).sum := by
    intro wins
    unfold meanAt
    by_cases h : wins = []
    · subst h; simp
    · have : (wins.length : ℚ) ≠ 0 := by exact_mod_cast (List.length_pos_of_ne_nil h).ne'
      field_simp
  have e : (groups.map fun g => (g.2.length : ℚ) * meanAt mag (pickWins arr g.2) c k) =
      groups.map fun g => (g.2.map fun i => mag (valueAt (arr.getD i []) c k)).sum := by
    refine List.map_congr_left fun g _ => ?_
    have := key (pickWins arr g.2)
    rw [show (pickWins arr g.2).length = g.2.length from by simp [pickWins]] at this
    rw [this]
    unfold pickWins
    rw [List.map_map]
    rfl
  rw [e, key arr]
  have h2 : (groups.map fun g => (g.2.map fun i => mag (valueAt (arr.getD i []) c k)).sum).sum =
      (((groups.map (·.2)).flatten).map fun i => mag (valueAt (arr.getD i []) c k)).sum := by
    rw [List.map_flatten, List.sum_flatten, List.map_map, List.map_map]
    rfl
  rw [h2, hg.every, hl]
  conv_rhs => rw [← pickWins_range arr]
  unfold pickWins
  rw [List.map_map]
  rfl

/-! ## Sections -/

/-- Specification: a map of a section that shows the logarithms of the mean magnitudes of a channel: one for each frequency and group,
at the middle of the group.  The ticks of the colour scale are the powers of ten between two values; the scale ends less than a
decade inside the values. -/
structure MapShows {V : Type} [Zero V] (mag : V → ℚ) (step : ℚ) (freqs : List ℚ) (arr : SpecArr V) (groups : List (ℚ × List ℕ)) (c : ℕ)
    (m : SectionMap) : Prop where
  row : m.row = c + 1
  at_freqs : m.freqs = freqs
  at_times : m.times = groups.map fun g => g.1 + step / 2
  rows : m.z.length = freqs.length
  cols : ∀ r ∈ m.z, r.length = groups.length
  values : ∀ (k j : ℕ) (g : ℚ × List ℕ) (r : List ℝ), groups[j]? = some g → m.z[k]? = some r →
    r[j]? = some (Real.logb 10 (meanAt mag (pickWins arr g.2) c k : ℚ))
  ticks : ∀ t : ℤ, t ∈ m.ticks ↔ (∃ v ∈ m.z.flatten, v ≤ t) ∧ ∃ v ∈ m.z.flatten, (t : ℝ) ≤ v
  scale : ∀ v ∈ m.z.flatten, (m.zMin : ℝ) - 1 < v ∧ v < m.zMax + 1
  ordered : m.zMin ≤ m.zMax ↔ m.ticks ≠ []

theorem leastOf_spec {l : List ℝ} (hne : l ≠ []) : ∃ x, leastOf l = .ok x ∧ x ∈ l ∧ ∀ v ∈ l, x ≤ v := by
  cases l with
  | nil => simp at hne
  | cons a l =>
    refine ⟨_, rfl, ?_⟩
    clear hne
    induction l generalizing a with
    | nil => simp
    | cons b l ih =>
      rw [List.foldl_cons]
      obtain ⟨h1, h2⟩ := ih (min a b)
      have hle := h2 (min a b) (by simp)
      constructor
      · rcases List.mem_cons.1 h1 with h | h
        · rw [h]
          rcases min_choice a b with h' | h' <;> rw [h'] <;> simp
        · simp [h]
      · intro v hv
        rcases List.mem_cons.1 hv with rfl | hv
        · exact hle.trans (min_le_left _ _)
        · rcases List.mem_cons.1 hv with rfl | hv
          · exact hle.trans (min_le_right _ _)
          · exact h2 v (by simp [hv])

theorem greatestOf_spec {l : List ℝ} (hne : l ≠ []) : ∃ x, greatestOf l = .ok x ∧ x ∈ l ∧ ∀ v ∈ l, v ≤ x := by
  cases l with
  | nil => simp at hne
  | cons a l =>
    refine ⟨_, rfl, ?_⟩
    clear hne
    induction l generalizing a with
    | nil => simp
    | cons b l ih =>
      rw [List.foldl_cons]
      obtain ⟨h1, h2⟩ := ih (max a b)
      have hle := h2 (max a b) (by simp)
      constructor
      · rcases List.mem_cons.1 h1 with h | h
        · rw [h]
          rcases max_choice a b with h' | h' <;> rw [h'] <;> simp
        · simp [h]
      · intro v hv
        rcases List.mem_cons.1 hv with rfl | hv
        · exact (le_max_left _ _).trans hle
        · rcases List.mem_cons.1 hv with rfl | hv
          · exact (le_max_right _ _).trans hle
          · exact h2 v (by simp [hv])

theorem mem_decades (a b t : ℤ) : t ∈ decades a b ↔ a ≤ t ∧ t ≤ b := by
  unfold decades
  rw [List.mem_map]
  constructor
  · rintro ⟨i, hi, rfl⟩
    have := List.mem_range.1 hi
    omega
  · rintro ⟨h1, h2⟩
    exact ⟨(t - a).toNat, List.mem_range.2 (by omega), by omega⟩

/-- the map of a channel -/
theorem sectionMap_shows {V : Type} [Zero V] (mag : V → ℚ) (step : ℚ) (freqs : List ℚ) (hf : 0 < freqs.length) (arr : SpecArr V)
    (groups : List (ℚ × List ℕ)) (hg : groups ≠ []) (hne : ∀ g ∈ groups, g.2 ≠ []) (chans c : ℕ) (hc : c < chans)
    (hpos : ∀ g ∈ groups, ∀ k < freqs.length, 0 < meanAt mag (pickWins arr g.2) c k) :
    ∃ m, sectionMap step freqs (groups.map (·.1)) (groups.map fun g => meanMag mag chans freqs.length (pickWins arr g.2)) c = .ok m ∧
      MapShows mag step freqs arr groups c m := by
  have hz : sectionValues (groups.map fun g => meanMag mag chans freqs.length (pickWins arr g.2)) c freqs.length =
      .ok ((List.range freqs.length).map fun k => groups.map fun g => Real.logb 10 (meanAt mag (pickWins arr g.2) c k : ℚ)) := by
    unfold sectionValues
    refine mapM_ok_map fun k hk => ?_
    have hk := List.mem_range.1 hk
    rw [List.mapM_map]
    refine mapM_ok_map fun g hgm => ?_
    have hw : pickWins arr g.2 ≠ [] := fun h => hne g hgm (List.map_eq_nil_iff.1 h)
    simp only [Function.comp]
    rw [meanMag_some mag chans _ _ hw]
    simp only [List.getD_eq_getElem?_getD, List.getElem?_map, List.getElem?_range hc, List.getElem?_range hk, Option.map_some,
      Option.getD_some]
    unfold logMag
    simp only [if_neg (not_le.2 (hpos g hgm k hk))]
  set z := (List.range freqs.length).map fun k => groups.map fun g => Real.logb 10 (meanAt mag (pickWins arr g.2) c k : ℚ) with hzdef
  have hflat : z.flatten ≠ [] := by
    intro h
    rw [List.flatten_eq_nil_iff] at h
    have h0 := h (groups.map fun g => Real.logb 10 (meanAt mag (pickWins arr g.2) c 0 : ℚ))
      (List.mem_map.2 ⟨0, List.mem_range.2 hf, rfl⟩)
    exact hg (List.map_eq_nil_iff.1 h0)
  obtain ⟨lo, l1, l2, l3⟩ := leastOf_spec hflat
  obtain ⟨hi, h1, h2, h3⟩ := greatestOf_spec hflat
  refine ⟨⟨c + 1, z, (groups.map (·.1)).map (· + step / 2), freqs, ⌈lo⌉, ⌊hi⌋, decades ⌈lo⌉ ⌊hi⌋⟩, ?_, ?_⟩
  · unfold sectionMap
    simp only [bind, Except.bind, hz, l1, h1]
    rfl
  · refine ⟨rfl, rfl, by rw [List.map_map]; rfl, by simp [hzdef], ?_, ?_, ?_, ?_, ?_⟩
    · intro r hr
      obtain ⟨k, -, rfl⟩ := List.mem_map.1 hr
      simp
    · intro k j g r hgj hr
      simp only [hzdef, List.getElem?_map, Option.map_eq_some_iff] at hr
      obtain ⟨k', hk', rfl⟩ := hr
      obtain ⟨hk, rfl⟩ := List.getElem?_eq_some_iff.1 hk'
      rw [List.getElem_range, List.getElem?_map, hgj, Option.map_some]
    · intro t
      rw [mem_decades, Int.ceil_le, Int.le_floor]
      constructor
      · rintro ⟨q1, q2⟩
        exact ⟨⟨lo, l2, q1⟩, ⟨hi, h2, q2⟩⟩
      · rintro ⟨⟨v, hv, q1⟩, ⟨w, hw, q2⟩⟩
        exact ⟨(l3 v hv).trans q1, q2.trans (h3 w hw)⟩
    · intro v hv
      have a1 := Int.ceil_lt_add_one lo
      have a2 := Int.lt_floor_add_one hi
      have a3 := l3 v hv
      have a4 := h3 v hv
      constructor <;> simp only <;> linarith
    · constructor
      · intro h hnil
        have := (mem_decades ⌈lo⌉ ⌊hi⌋ ⌈lo⌉).2 ⟨le_refl _, h⟩
        simp only at hnil
        rw [hnil] at this
        simp at this
      · intro h
        obtain ⟨t, ht⟩ := List.exists_mem_of_ne_nil _ h
        have := (mem_decades ⌈lo⌉ ⌊hi⌋ t).1 ht
        exact this.1.trans this.2

/-- what a section is computed from -/
theorem section_run {V : Type} [Zero V] (s : SpecData V) (hp : s.Plottable) (mag : V → ℚ) (level : ℕ) (lm : SpecLevelMeta)
    (hlm : s.md.levels[level]? = some lm) (ht : lm.Timed) (hch : 2 ≤ s.md.chans.length) (grouping : ℚ) (hs : 0 < grouping) :
    ∃ times arr groups, s.windowStarts level = .ok times ∧ s.getLevel level = .ok arr ∧ times.length = arr.length ∧ groups ≠ [] ∧
      times.Pairwise (· < ·) ∧ grouper grouping 0 times = .ok groups ∧ IsGrouping grouping (dayStart (times.headD 0)) times groups ∧
      s.plotLevelSection mag level grouping = (List.range s.md.chans.length).mapM
        (sectionMap grouping lm.freqs (groups.map (·.1))
          (groups.map fun g => meanMag mag s.md.chans.length lm.freqs.length (pickWins arr g.2))) := by
  have hmem := List.mem_of_getElem? hlm
  obtain ⟨times, first, t1, t2, t3, t4, -, -⟩ := windowStarts_spec s hp level lm hlm ht
  obtain ⟨arr, a1, -, a2, a3, a4, a5, a6⟩ := shaped_array hp.shaped hlm (hp.wins lm hmem) hp.chans
  obtain ⟨groups, g1, g2, -⟩ := C64_groups grouping 0 times hs t2 t4
  rw [add_zero] at g2
  obtain ⟨hi, he⟩ := List.getElem?_eq_some_iff.1 hlm
  refine ⟨times, arr, groups, t1, a1, by omega, ?_, t4, g1, g2, ?_⟩
  · rintro rfl
    have := g2.every
    simp only [List.map_nil, List.flatten_nil] at this
    have h0 := congrArg List.length this
    simp at h0
    exact t2 (List.length_eq_zero_iff.1 h0.symm)
  · have hst : (groups.mapM fun g => s.groupStack mag level g.2) =
        .ok (groups.map fun g => meanMag mag s.md.chans.length lm.freqs.length (pickWins arr g.2)) := by
      refine mapM_ok_map fun g hg => groupStack_eq s mag level arr _ _ a2 a3 a4 g.2 fun i hig => ?_
      obtain ⟨t, q, -⟩ := (g2.members g hg i).1 hig
      have := (List.getElem?_eq_some_iff.1 q).1
      omega
    unfold SpecData.plotLevelSection
    rw [pyIndex_natCast _ _ hi, he]
    simp only [bind, Except.bind, t1, if_neg (by omega : ¬ s.md.chans.length ≤ 1), g1, hst]

/-- **C64**. The section of a level with two channels or more, a window in every group and no mean magnitude of zero: one map for each
channel that shows the logarithms of the mean magnitudes. -/
theorem C64_section {V : Type} [Zero V] (s : SpecData V) (hp : s.Plottable) (mag : V → ℚ) (level : ℕ) (lm : SpecLevelMeta)
    (hlm : s.md.levels[level]? = some lm) (ht : lm.Timed) (hch : 2 ≤ s.md.chans.length) (grouping : ℚ) (hs : 0 < grouping) :
    ∃ times arr groups, s.windowStarts level = .ok times ∧ s.getLevel level = .ok arr ∧
      grouper grouping 0 times = .ok groups ∧ IsGrouping grouping (dayStart (times.headD 0)) times groups ∧
      ((∀ g ∈ groups, g.2 ≠ [] ∧ ∀ c < s.md.chans.length, ∀ k < lm.freqs.length, 0 < meanAt mag (pickWins arr g.2) c k) →
        ∃ maps, s.plotLevelSection mag level grouping = .ok maps ∧ maps.length = s.md.chans.length ∧
          ∀ (c : ℕ) (m : SectionMap), maps[c]? = some m → MapShows mag grouping lm.freqs arr groups c m) ∧
      ((∃ g ∈ groups, g.2 = [] ∨ ∃ c < s.md.chans.length, ∃ k < lm.freqs.length, meanAt mag (pickWins arr g.2) c k ≤ 0) →
        s.plotLevelSection mag level grouping = .error .value) := by
  have hmem := List.mem_of_getElem? hlm
  obtain ⟨times, arr, groups, q1, q2, q3, q4, -, q0, q5, q6⟩ := section_run s hp mag level lm hlm ht hch grouping hs
  refine ⟨times, arr, groups, q1, q2, q0, q5, ?_, ?_⟩
  · intro hall
    rw [q6]
    have key : ∀ c < s.md.chans.length, ∃ m, sectionMap grouping lm.freqs (groups.map (·.1))
          (groups.map fun g => meanMag mag s.md.chans.length lm.freqs.length (pickWins arr g.2)) c = .ok m ∧
        MapShows mag grouping lm.freqs arr groups c m := fun c hc =>
      sectionMap_shows mag grouping lm.freqs (hp.freqs lm hmem).1 arr groups q4 (fun g hg => (hall g hg).1) _ c hc
        fun g hg k hk => (hall g hg).2 c hc k hk
    obtain ⟨maps, hmaps⟩ := mapM_exists (f := sectionMap grouping lm.freqs (groups.map (·.1))
          (groups.map fun g => meanMag mag s.md.chans.length lm.freqs.length (pickWins arr g.2))) (l := List.range s.md.chans.length) (by
      intro c hc
      obtain ⟨m, hm, -⟩ := key c (List.mem_range.1 hc)
      exact ⟨m, hm⟩)
    have hl := mapM_ok_length hmaps
    rw [List.length_range] at hl
    refine ⟨maps, hmaps, hl, ?_⟩
    intro c m hm
    obtain ⟨hc, rfl⟩ := List.getElem?_eq_some_iff.1 hm
    have := mapM_ok_getElem hmaps c (by rw [List.length_range]; omega) hc
    rw [List.getElem_range] at this
    obtain ⟨m, m1, m2⟩ := key c (by omega)
    rw [this, Except.ok.injEq] at m1
    rw [m1]
    exact m2
  · rintro ⟨g, hg, hbad⟩
    have hf := (hp.freqs lm hmem).1
    -- a value that is not a number
    obtain ⟨c, hc, k, hk, hval⟩ : ∃ c < s.md.chans.length, ∃ k < lm.freqs.length,
        logMag (((meanMag mag s.md.chans.length lm.freqs.length (pickWins arr g.2)).getD c []).getD k none) = .error .value := by
      by_cases hw : g.2 = []
      · refine ⟨0, by omega, 0, hf, ?_⟩
        have : pickWins arr g.2 = [] := by rw [hw]; rfl
        rw [this, meanMag_none]
        simp only [List.getD_eq_getElem?_getD, List.getElem?_map, List.getElem?_range (by omega : 0 < s.md.chans.length),
          Option.map_some, Option.getD_some, List.getElem?_replicate, if_pos hf]
        rfl
      · rcases hbad with h | ⟨c, hc, k, hk, hle⟩
        · exact absurd h hw
        · refine ⟨c, hc, k, hk, ?_⟩
          have hw' : pickWins arr g.2 ≠ [] := fun h => hw (List.map_eq_nil_iff.1 h)
          rw [meanMag_some mag _ _ _ hw']
          simp only [List.getD_eq_getElem?_getD, List.getElem?_map, List.getElem?_range hc, List.getElem?_range hk, Option.map_some,
            Option.getD_some]
          unfold logMag
          simp only [if_pos hle]
    have herr : ∀ v, (∃ x : Option ℚ, logMag x = .error v) → v = .value := by
      rintro v ⟨x, hx⟩
      unfold logMag at hx
      split at hx
      · exact (Except.error.inj hx).symm
      · split at hx
        · exact (Except.error.inj hx).symm
        · cases hx
    have herr2 : ∀ c e, sectionValues (groups.map fun g => meanMag mag s.md.chans.length lm.freqs.length (pickWins arr g.2)) c
        lm.freqs.length = .error e → e = .value := by
      intro c e he
      obtain ⟨k, -, he⟩ := mapM_error he
      obtain ⟨st, -, he⟩ := mapM_error he
      exact herr e ⟨_, he⟩
    have hbad' : ∃ e, sectionValues (groups.map fun g => meanMag mag s.md.chans.length lm.freqs.length (pickWins arr g.2)) c
        lm.freqs.length = .error e := by
      cases hz : sectionValues (groups.map fun g => meanMag mag s.md.chans.length lm.freqs.length (pickWins arr g.2)) c
        lm.freqs.length with
      | error e => exact ⟨e, rfl⟩
      | ok z =>
        exfalso
        unfold sectionValues at hz
        have hl := mapM_ok_length hz
        rw [List.length_range] at hl
        have h1 := mapM_ok_getElem hz k (by rw [List.length_range]; exact hk) (by omega)
        rw [List.getElem_range] at h1
        obtain ⟨j, hj, hgj⟩ := List.mem_iff_getElem.1 hg
        have hl2 := mapM_ok_length h1
        rw [List.length_map] at hl2
        have h2 := mapM_ok_getElem h1 j (by rw [List.length_map]; exact hj) (by omega)
        rw [List.getElem_map, hgj, hval] at h2
        cases h2
    have herr3 : ∀ c e, sectionMap grouping lm.freqs (groups.map (·.1))
        (groups.map fun g => meanMag mag s.md.chans.length lm.freqs.length (pickWins arr g.2)) c = .error e → e = .value := by
      intro c e he
      unfold sectionMap at he
      cases hz : sectionValues (groups.map fun g => meanMag mag s.md.chans.length lm.freqs.length (pickWins arr g.2)) c
        lm.freqs.length with
      | error e' =>
        simp only [bind, Except.bind, hz] at he
        rw [← Except.error.inj he]
        exact herr2 c e' hz
      | ok z =>
        simp only [bind, Except.bind, hz] at he
        cases hfl : z.flatten with
        | nil =>
          rw [hfl] at he
          exact (Except.error.inj he).symm
        | cons x xs =>
          rw [hfl] at he
          cases he
    rw [q6]
    cases hm : (List.range s.md.chans.length).mapM (sectionMap grouping lm.freqs (groups.map (·.1))
        (groups.map fun g => meanMag mag s.md.chans.length lm.freqs.length (pickWins arr g.2))) with
    | error e =>
      obtain ⟨c', -, he⟩ := mapM_error hm
      rw [herr3 c' e he]
    | ok maps =>
      exfalso
      have hl := mapM_ok_length hm
      rw [List.length_range] at hl
      have h1 := mapM_ok_getElem hm c (by rw [List.length_range]; exact hc) (by omega)
      rw [List.getElem_range] at h1
      obtain ⟨e, he⟩ := hbad'
      unfold sectionMap at h1
      simp only [bind, Except.bind, he] at h1
      cases h1

/-- **C64** (finding). The section of spectra of a single channel is a division by zero. -/
theorem C64_section_one_channel {V : Type} [Zero V] (s : SpecData V) (hp : s.Plottable) (mag : V → ℚ) (level : ℕ) (lm : SpecLevelMeta)
    (hlm : s.md.levels[level]? = some lm) (ht : lm.Timed) (hch : s.md.chans.length = 1) (grouping : ℚ) :
    s.plotLevelSection mag level grouping = .error .zeroDiv := by
  obtain ⟨times, first, t1, -⟩ := windowStarts_spec s hp level lm hlm ht
  obtain ⟨hi, he⟩ := List.getElem?_eq_some_iff.1 hlm
  unfold SpecData.plotLevelSection
  rw [pyIndex_natCast _ _ hi, he]
  simp only [bind, Except.bind, t1, if_pos (by omega : s.md.chans.length ≤ 1)]

/-- **C64** (finding). When two successive windows start two group lengths or more apart, a group has no windows, and the section of
the level is a `ValueError`: the default length of half an hour fails for low sampling frequencies. -/
theorem C64_section_sparse {V : Type} [Zero V] (s : SpecData V) (hp : s.Plottable) (mag : V → ℚ) (level : ℕ) (lm : SpecLevelMeta)
    (hlm : s.md.levels[level]? = some lm) (ht : lm.Timed) (hch : 2 ≤ s.md.chans.length) (grouping : ℚ) (hs : 0 < grouping)
    (times : List ℚ) (htimes : s.windowStarts level = .ok times) (i : ℕ) (hi : i + 1 < times.length)
    (hsparse : times[i] + 2 * grouping ≤ times[i + 1]) : s.plotLevelSection mag level grouping = .error .value := by
  obtain ⟨times', arr, groups, q1, -, -, h3, h4⟩ := C64_section s hp mag level lm hlm ht hch grouping hs
  obtain ⟨-, t5, t6, q1'⟩ := windowStarts_spec s hp level lm hlm ht
  rw [htimes, Except.ok.injEq] at q1
  subst q1
  apply h4.2
  have hinc : times.Pairwise (· < ·) := by
    obtain ⟨t, f, w1, -, -, w2, -⟩ := windowStarts_spec s hp level lm hlm ht
    rw [htimes, Except.ok.injEq] at w1
    rw [w1]; exact w2
  have hfind : ∀ k < times.length, ∃ g ∈ groups, k ∈ g.2 := by
    intro k hk
    have : k ∈ (groups.map (·.2)).flatten := by rw [h3.every]; exact List.mem_range.2 hk
    obtain ⟨l, hl, hkl⟩ := List.mem_flatten.1 this
    obtain ⟨g, hg, rfl⟩ := List.mem_map.1 hl
    exact ⟨g, hg, hkl⟩
  obtain ⟨ga, hga, ia⟩ := hfind i (by omega)
  obtain ⟨gb, hgb, ib⟩ := hfind (i + 1) hi
  obtain ⟨ta, a1, a2, a3⟩ := (h3.members ga hga i).1 ia
  obtain ⟨tb, b1, b2, b3⟩ := (h3.members gb hgb (i + 1)).1 ib
  rw [List.getElem?_eq_getElem (by omega), Option.some.injEq] at a1 b1
  subst a1 b1
  obtain ⟨m, hm⟩ := h3.aligned
  obtain ⟨ja, hja⟩ := List.getElem?_of_mem hga
  obtain ⟨jb, hjb⟩ := List.getElem?_of_mem hgb
  have ea := hm ja ga hja
  have eb := hm jb gb hjb
  have hjb' := (List.getElem?_eq_some_iff.1 hjb).1
  have hlt : ja + 1 < jb := by
    by_contra hge
    have : ((m + jb : ℤ) : ℚ) ≤ ((m + ja + 1 : ℤ) : ℚ) := by exact_mod_cast (by omega : (m + jb : ℤ) ≤ m + ja + 1)
    have := mul_le_mul_of_nonneg_right this hs.le
    push_cast at this ea eb
    nlinarith
  refine ⟨groups[ja + 1]'(by omega), List.getElem_mem _, Or.inl ?_⟩
  by_contra hne
  obtain ⟨x, hx⟩ := List.exists_mem_of_ne_nil _ hne
  obtain ⟨t, c1, c2, c3⟩ := (h3.members _ (List.getElem_mem _) x).1 hx
  obtain ⟨hxl, rfl⟩ := List.getElem?_eq_some_iff.1 c1
  have ec := hm (ja + 1) _ (List.getElem?_eq_getElem (by omega))
  have h1 : times[i] < times[x] := by
    push_cast at ea ec
    nlinarith
  have h2 : times[x] < times[i + 1] := by
    have : ((m + (ja + 1 + 1 : ℕ) : ℤ) : ℚ) ≤ ((m + jb : ℤ) : ℚ) := by exact_mod_cast (by omega : (m + (ja + 1 + 1 : ℕ) : ℤ) ≤ m + jb)
    have := mul_le_mul_of_nonneg_right this hs.le
    push_cast at this eb ec
    nlinarith
  have hx1 : i < x := by
    by_contra hle
    rcases Nat.lt_or_eq_of_le (not_lt.1 hle) with h | h
    · exact absurd (List.pairwise_iff_getElem.1 hinc x i hxl (by omega) h) (not_lt.2 h1.le)
    · subst h; exact lt_irrefl _ h1
  have hx2 : x < i + 1 := by
    by_contra hle
    rcases Nat.lt_or_eq_of_le (not_lt.1 hle) with h | h
    · exact absurd (List.pairwise_iff_getElem.1 hinc (i + 1) x (by omega) hxl h) (not_lt.2 h2.le)
    · subst h; exact lt_irrefl _ h2
  omega

/-! ## A concrete case -/

/-- the level of the demonstration: windows that start every hour -/
def demoHours : SpecLevelMeta where
  fs := 1
  nWins := 3
  winSize := 4000
  olapSize := 400
  indexOffset := 0
  nFreqs := 2
  freqs := [1 / 8, 1 / 4]

/-- spectra of two channels with windows that start every hour -/
def demoHourly : SpecData ℚ where
  md := { fs := [1], chans := ["Ex", "Hy"], nLevels := 1, firstTime := 0, lastTime := 11199, levels := [demoHours], refTime := 0,
          history := [] }
  data := [(0, [[[1, -2], [10, 20]], [[3, 4], [30, 40]], [[-5, 6], [50, 60]]])]

theorem demoHourly_plottable : demoHourly.Plottable where
  shaped := {
    n_levels := rfl
    some_level := by decide
    n_freqs := by decide
    keys := by decide
    array := by
      intro i lm h
      have hi : i = 0 := by
        have := (List.getElem?_eq_some_iff.1 h).1
        simp [demoHourly] at this
        exact this
      subst hi
      have : lm = demoHours := (Option.some.inj h).symm
      subst this
      exact ⟨_, rfl, by decide, by decide⟩ }
  chans := by decide
  wins := by decide
  freqs := by decide

theorem demoHours_timed : demoHours.Timed where
  fs := by decide +kernel
  olap := by decide
  apart := by decide +kernel

example : demoHourly.windowStarts 0 = .ok [0, 3600, 7200] := by decide +kernel

example : demoHourly.windowStarts 1 = .error .value := by decide +kernel

example : grouper 7200 0 [0, 3600, 7200] = .ok [(0, [0, 1]), (7200, [2])] := by decide +kernel

/-- night and day from six o'clock -/
example : grouper 43200 21600 [0, 3600, 21600, 90000] = .ok [(-21600, [0, 1]), (21600, [2]), (64800, [3])] := by decide +kernel

example : demoHourly.plot (fun v => |v|) .float64 (some 10000) =
    .ok [[⟨1, [1 / 8, 1 / 4], [some 3, some 4], true⟩, ⟨2, [1 / 8, 1 / 4], [some 30, some 40], false⟩]] := by decide +kernel

example : demoHourly.plotLevelStack (fun v => |v|) .float64 0 (some 10000) (some 7200) 0 =
    .ok [(0, [⟨1, [1 / 8, 1 / 4], [some 2, some 3], true⟩, ⟨2, [1 / 8, 1 / 4], [some 20, some 30], false⟩]),
      (7200, [⟨1, [1 / 8, 1 / 4], [some 5, some 6], true⟩, ⟨2, [1 / 8, 1 / 4], [some 50, some 60], false⟩])] := by decide +kernel

/-- a group without windows -/
example : demoHourly.plotLevelStack (fun v => |v|) .float64 0 (some 10000) (some 1800) 0 =
    .ok [(0, [⟨1, [1 / 8, 1 / 4], [some 1, some 2], true⟩, ⟨2, [1 / 8, 1 / 4], [some 10, some 20], false⟩]),
      (1800, [⟨1, [1 / 8, 1 / 4], [none, none], true⟩, ⟨2, [1 / 8, 1 / 4], [none, none], false⟩]),
      (3600, [⟨1, [1 / 8, 1 / 4], [some 3, some 4], true⟩, ⟨2, [1 / 8, 1 / 4], [some 30, some 40], false⟩]),
      (5400, [⟨1, [1 / 8, 1 / 4], [none, none], true⟩, ⟨2, [1 / 8, 1 / 4], [none, none], false⟩]),
      (7200, [⟨1, [1 / 8, 1 / 4], [some 5, some 6], true⟩, ⟨2, [1 / 8, 1 / 4], [some 50, some 60], false⟩])] := by decide +kernel

/-- thirteen groups of ten minutes -/
example : ∃ e, demoHourly.plotLevelStack (fun v => |v|) .float64 0 (some 10000) (some 600) 0 = .error e := ⟨.other, by decide +kernel⟩

example : 0 < demoHourly.groupLength none ∧
    ∀ t ∈ ([0, 3600, 7200] : List ℚ), pandasTime demoHourly.md.firstTime ≤ t ∧ t < pandasTime demoHourly.md.lastTime := by
  decide +kernel

/-- **C64** on the demonstration: maps of both channels. -/
example : ∃ maps, demoHourly.plotLevelSection (fun v => |v|) (0 : ℕ) 7200 = .ok maps ∧ maps.length = 2 := by
  obtain ⟨times, arr, groups, h1, h2, h0, -, h4, -⟩ := C64_section demoHourly demoHourly_plottable (fun v => |v|) 0 demoHours rfl
    demoHours_timed (by decide) 7200 (by norm_num)
  have e1 : demoHourly.windowStarts ((0 : ℕ) : ℤ) = .ok [0, 3600, 7200] := by decide +kernel
  rw [e1, Except.ok.injEq] at h1
  have e2 : demoHourly.getLevel ((0 : ℕ) : ℤ) = .ok [[[1, -2], [10, 20]], [[3, 4], [30, 40]], [[-5, 6], [50, 60]]] := by decide +kernel
  rw [e2, Except.ok.injEq] at h2
  subst h1 h2
  have e0 : grouper 7200 0 [0, 3600, 7200] = .ok [(0, [0, 1]), (7200, [2])] := by decide +kernel
  rw [e0, Except.ok.injEq] at h0
  subst h0
  have hpos : ∀ g ∈ ([(0, [0, 1]), (7200, [2])] : List (ℚ × List ℕ)), g.2 ≠ [] ∧ ∀ c < 2, ∀ k < 2,
      0 < meanAt (fun v => |v|) (pickWins [[[1, -2], [10, 20]], [[3, 4], [30, 40]], [[-5, 6], [50, 60]]] g.2) c k := by decide +kernel
  obtain ⟨maps, m1, m2, -⟩ := h4 hpos
  exact ⟨maps, m1, m2⟩

/-- **C64** on the demonstration: half hours without windows. -/
example : demoHourly.plotLevelSection (fun v => |v|) (0 : ℕ) 1800 = .error .value :=
  C64_section_sparse demoHourly demoHourly_plottable (fun v => |v|) 0 demoHours rfl demoHours_timed (by decide) 1800 (by norm_num)
    [0, 3600, 7200] (by decide +kernel) 0 (by decide) (by decide +kernel)

end Resistics
