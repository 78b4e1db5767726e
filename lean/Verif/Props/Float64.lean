import Verif.Model.Float64
import Verif.Props.Window
import Verif.Lemmas.Sampling
import Verif.Props.Plot
import Mathlib.Tactic.Linarith
import Mathlib.Tactic.FieldSimp
import Mathlib.Tactic.NormNum
import Mathlib.Tactic.Positivity

/-!
# C56: sample and window indices in double precision arithmetic
-/

namespace Resistics

/-! ## Rounding errors -/

/-- the unit roundoff of double precision -/
def unitRoundoff : ℚ := 1 / 2 ^ 53

theorem fl_near (x : ℚ) : |fl x - x| ≤ |x| * unitRoundoff := by
  by_cases h0 : x = 0
  · simp [h0, fl]
  unfold fl unitRoundoff
  rw [if_neg h0]
  set g := Int.log 2 |x| - 52 with hg
  have h2 : (0 : ℚ) < (2 : ℚ) ^ g := by positivity
  have hn := pyRound_near (x / 2 ^ g)
  have e : (pyRound (x / 2 ^ g) : ℚ) * 2 ^ g - x = ((pyRound (x / 2 ^ g) : ℚ) - x / 2 ^ g) * 2 ^ g := by
    rw [sub_mul, div_mul_cancel₀ _ h2.ne']
  rw [e, abs_mul, abs_of_pos h2]
  have h3 := Int.zpow_log_le_self (b := 2) (by norm_num) (abs_pos.2 h0)
  have h4 : (2 : ℚ) ^ Int.log 2 |x| = 2 ^ g * 2 ^ 52 := by
    rw [show Int.log 2 |x| = g + 52 by omega, zpow_add₀ (by norm_num)]
    norm_num
  push_cast at h3
  rw [h4] at h3
  have h5 : |(pyRound (x / 2 ^ g) : ℚ) - x / 2 ^ g| * 2 ^ g ≤ 1 / 2 * 2 ^ g := mul_le_mul_of_nonneg_right hn h2.le
  have h6 : (2 : ℚ) ^ g ≤ |x| / 2 ^ 52 := by rw [le_div_iff₀ (by norm_num)]; exact h3
  calc _ ≤ 1 / 2 * 2 ^ g := h5
    _ ≤ 1 / 2 * (|x| / 2 ^ 52) := by linarith
    _ = _ := by ring

theorem fl_zero : fl 0 = 0 := by simp [fl]

/-- numbers of at most 53 bits are not changed -/
theorem fl_fixed (k e : ℤ) (hk : |k| < 2 ^ 53) : fl ((k : ℚ) * 2 ^ e) = (k : ℚ) * 2 ^ e := by
  by_cases h0 : k = 0
  · simp [h0, fl]
  have h2 : (0 : ℚ) < (2 : ℚ) ^ e := by positivity
  have hx : (k : ℚ) * 2 ^ e ≠ 0 := mul_ne_zero (by exact_mod_cast h0) h2.ne'
  unfold fl
  rw [if_neg hx]
  generalize hg : Int.log 2 |(k : ℚ) * 2 ^ e| - 52 = g
  have habs : (0 : ℚ) < |(k : ℚ) * 2 ^ e| := abs_pos.2 hx
  have hlog : Int.log 2 |(k : ℚ) * 2 ^ e| ≤ 52 + e := by
    have h1 : |(k : ℚ) * 2 ^ e| < (2 : ℚ) ^ (53 + e) := by
      rw [abs_mul, abs_of_pos h2, zpow_add₀ (by norm_num)]
      have : |(k : ℚ)| < 2 ^ 53 := by exact_mod_cast hk
      have h3 := mul_lt_mul_of_pos_right this h2
      norm_num at h3 ⊢
      exact h3
    have h3 := (Int.lt_zpow_iff_log_lt (b := 2) (by norm_num) habs).1 (by exact_mod_cast h1)
    omega
  have hge : 0 ≤ e - g := by omega
  have e1 : (k : ℚ) * 2 ^ e / 2 ^ g = ((k * 2 ^ (e - g).toNat : ℤ) : ℚ) := by
    rw [mul_div_assoc, ← zpow_sub₀ (by norm_num)]
    push_cast
    rw [← zpow_natCast, Int.toNat_of_nonneg hge]
  rw [e1, pyRound_int, ← e1, div_mul_cancel₀ _ (by positivity)]

/-- `a'` is `a` up to `c` units of relative error -/
def Near (c a' a : ℚ) : Prop := |a' - a| ≤ c * unitRoundoff * a

theorem unit_pos : 0 < unitRoundoff := by unfold unitRoundoff; norm_num

theorem Near.refl {a : ℚ} (ha : 0 ≤ a) {c : ℚ} (hc : 0 ≤ c) : Near c a a := by
  unfold Near
  rw [sub_self, abs_zero]
  exact mul_nonneg (mul_nonneg hc unit_pos.le) ha

theorem Near.mono {c d a' a : ℚ} (h : Near c a' a) (hcd : c ≤ d) (ha : 0 ≤ a) : Near d a' a := by
  unfold Near at *
  have := mul_le_mul_of_nonneg_right (mul_le_mul_of_nonneg_right hcd unit_pos.le) ha
  linarith

theorem Near.bounds {c a' a : ℚ} (h : Near c a' a) : a - c * unitRoundoff * a ≤ a' ∧ a' ≤ a + c * unitRoundoff * a := by
  unfold Near at h
  rw [abs_le] at h
  constructor <;> linarith [h.1, h.2]

theorem Near.nonneg {c a' a : ℚ} (h : Near c a' a) (ha : 0 ≤ a) (hc : c ≤ 1000) : 0 ≤ a' := by
  have h1 := h.bounds.1
  have h2 : c * unitRoundoff ≤ 1 := by
    have : c * unitRoundoff ≤ 1000 * unitRoundoff := mul_le_mul_of_nonneg_right hc unit_pos.le
    unfold unitRoundoff at this ⊢
    norm_num at this ⊢
    linarith
  have := mul_le_mul_of_nonneg_right h2 ha
  linarith

theorem Near.fl {c a' a : ℚ} (h : Near c a' a) (ha : 0 ≤ a) (hc : c ≤ 1000) : Near (c + 2) (Resistics.fl a') a := by
  have h0 := h.nonneg ha hc
  have h1 := fl_near a'
  rw [abs_of_nonneg h0] at h1
  have h2 := h.bounds.2
  have h3 : a' ≤ 2 * a := by
    have h4 : c * unitRoundoff ≤ 1 := by
      have : c * unitRoundoff ≤ 1000 * unitRoundoff := mul_le_mul_of_nonneg_right hc unit_pos.le
      unfold unitRoundoff at this ⊢
      norm_num at this ⊢
      linarith
    have := mul_le_mul_of_nonneg_right h4 ha
    linarith
  unfold Near at *
  have h5 : a' * unitRoundoff ≤ 2 * a * unitRoundoff := mul_le_mul_of_nonneg_right h3 unit_pos.le
  calc |Resistics.fl a' - a| = |(Resistics.fl a' - a') + (a' - a)| := by ring_nf
    _ ≤ |Resistics.fl a' - a'| + |a' - a| := abs_add_le _ _
    _ ≤ _ := by linarith

theorem Near.add {c a' a b' b : ℚ} (h : Near c a' a) (g : Near c b' b) : Near c (a' + b') (a + b) := by
  unfold Near at *
  calc |a' + b' - (a + b)| = |(a' - a) + (b' - b)| := by ring_nf
    _ ≤ |a' - a| + |b' - b| := abs_add_le _ _
    _ ≤ _ := by linarith

theorem Near.mul_right {c a' a s : ℚ} (h : Near c a' a) (hs : 0 ≤ s) : Near c (a' * s) (a * s) := by
  unfold Near at *
  rw [← sub_mul, abs_mul, abs_of_nonneg hs]
  have := mul_le_mul_of_nonneg_right h hs
  linarith

/-! ## Time deltas in seconds -/

theorem deltaNanos_bounds (d : ℚ) : 0 ≤ deltaNanos d ∧ deltaNanos d < 1000 := by
  unfold deltaNanos deltaMicros
  have h1 := Int.floor_le ((d - ⌊d⌋) * 1000000)
  have h2 := Int.lt_floor_add_one ((d - ⌊d⌋) * 1000000)
  constructor <;> linarith

theorem delta_parts (d : ℚ) :
    d = ⌊d / 86400⌋ * (3600 * 24) + deltaSeconds d + deltaMicros d / 1000000 + deltaNanos d / 1000000000 := by
  have h : deltaSeconds d = ⌊d⌋ - ⌊d / 86400⌋ * 86400 := by
    unfold deltaSeconds
    have : d - ⌊d / 86400⌋ * 86400 = d - ((⌊d / 86400⌋ * 86400 : ℤ) : ℚ) := by push_cast; ring
    rw [this, Int.floor_sub_intCast]
  rw [h]
  unfold deltaNanos
  push_cast
  ring

/-- Converting a time delta to seconds makes an error of at most 8 units. -/
theorem totalSecondsF_near (d : ℚ) (hd : 0 ≤ d) : Near 8 (totalSecondsF d) d := by
  have hday : (0 : ℚ) ≤ ⌊d / 86400⌋ := by exact_mod_cast Int.floor_nonneg.2 (by positivity : (0 : ℚ) ≤ d / 86400)
  have hsec : (0 : ℚ) ≤ deltaSeconds d := by
    have : (0 : ℤ) ≤ deltaSeconds d := by
      unfold deltaSeconds
      refine Int.floor_nonneg.2 ?_
      have := Int.floor_le (d / 86400)
      rw [le_div_iff₀ (by norm_num)] at this
      linarith
    exact_mod_cast this
  have hmic : (0 : ℚ) ≤ deltaMicros d := by
    have : (0 : ℤ) ≤ deltaMicros d := by
      unfold deltaMicros
      refine Int.floor_nonneg.2 (mul_nonneg ?_ (by norm_num))
      have := Int.floor_le d
      linarith
    exact_mod_cast this
  obtain ⟨hn0, _⟩ := deltaNanos_bounds d
  have n1 : Near 2 (fl (deltaMicros d / 1000000)) (deltaMicros d / 1000000) := by
    have := (Near.refl (c := 0) (show (0 : ℚ) ≤ deltaMicros d / 1000000 by positivity) le_rfl).fl (by positivity) (by norm_num)
    simpa using this
  have n2 : Near 4 (fl (fl (deltaNanos d) / 1000000000)) (deltaNanos d / 1000000000) := by
    have h1 : Near 2 (fl (deltaNanos d)) (deltaNanos d) := by
      simpa using (Near.refl (c := 0) hn0 le_rfl).fl hn0 (by norm_num)
    have h2 := h1.mul_right (s := 1 / 1000000000) (by norm_num)
    rw [mul_one_div, mul_one_div] at h2
    have := h2.fl (by positivity) (by norm_num)
    norm_num at this
    exact this
  have n3 : Near 4 (fl (deltaSeconds d + fl (deltaMicros d / 1000000))) (deltaSeconds d + deltaMicros d / 1000000) := by
    have := ((Near.refl hsec (show (0 : ℚ) ≤ 2 by norm_num)).add n1).fl (by positivity) (by norm_num)
    norm_num at this
    exact this
  have n4 : Near 6 (fl (fl (deltaSeconds d + fl (deltaMicros d / 1000000)) + fl (fl (deltaNanos d) / 1000000000)))
      (deltaSeconds d + deltaMicros d / 1000000 + deltaNanos d / 1000000000) := by
    have := (n3.add n2).fl (by positivity) (by norm_num)
    norm_num at this
    exact this
  have n5 : Near 6 (fl (⌊d / 86400⌋ * (3600 * 24))) (⌊d / 86400⌋ * (3600 * 24)) := by
    have h0 : (0 : ℚ) ≤ ⌊d / 86400⌋ * (3600 * 24) := by positivity
    exact ((Near.refl (c := 0) h0 le_rfl).fl h0 (by norm_num)).mono (by norm_num) h0
  have n6 := (n5.add n4).fl (by positivity) (by norm_num)
  have e := delta_parts d
  have : (⌊d / 86400⌋ * (3600 * 24) + (deltaSeconds d + deltaMicros d / 1000000 + deltaNanos d / 1000000000) : ℚ) = d := by
    linarith
  rw [this] at n6
  norm_num at n6
  unfold totalSecondsF
  simp only
  norm_num
  exact n6

/-- **C56**. The number of samples in a time delta, before it is made an integer, has a relative error of at most
12 * 2^-53. -/
theorem C56_count_error (d fs : ℚ) (hd : 0 ≤ d) (hfs : 0 ≤ fs) :
    |countSamplesF d fs - (d * fs + 1)| ≤ 12 / 2 ^ 53 * (d * fs + 1) := by
  have hm : 0 ≤ d * fs := mul_nonneg hd hfs
  have n1 := ((totalSecondsF_near d hd).mul_right hfs).fl hm (by norm_num)
  have n2 := (n1.add (Near.refl (show (0 : ℚ) ≤ 1 by norm_num) (by norm_num))).fl (by positivity) (by norm_num)
  unfold countSamplesF
  unfold Near unitRoundoff at n2
  norm_num at n2 ⊢
  exact n2

/-! ## Rounding to integers -/

theorem applyRound_round_of_near {x : ℚ} {k : ℤ} (h : |x - k| < 1 / 2) : applyRound x .round = k := by
  rw [abs_lt] at h
  unfold applyRound
  split
  · rename_i hx
    have h1 : (⌊x⌋ : ℚ) < k + 1 := by rw [← hx]; linarith
    have h2 : (k : ℚ) - 1 < ⌊x⌋ := by rw [← hx]; linarith
    have h1' : ⌊x⌋ < k + 1 := by exact_mod_cast h1
    have h2' : k - 1 < ⌊x⌋ := by exact_mod_cast h2
    omega
  · show pyRound x = k
    have hn := pyRound_near x
    rw [abs_le] at hn
    have h1 : (pyRound x : ℚ) < k + 1 := by linarith
    have h2 : (k : ℚ) - 1 < pyRound x := by linarith
    have h1' : pyRound x < k + 1 := by exact_mod_cast h1
    have h2' : k - 1 < pyRound x := by exact_mod_cast h2
    omega

theorem ceil_near {x y : ℚ} (h : |x - y| < 1) : |⌈x⌉ - ⌈y⌉| ≤ 1 := by
  rw [abs_lt] at h
  have h1 : ⌈x⌉ ≤ ⌈y⌉ + 1 := by
    rw [Int.ceil_le]; push_cast; linarith [Int.le_ceil y]
  have h2 : ⌈y⌉ ≤ ⌈x⌉ + 1 := by
    rw [Int.ceil_le]; push_cast; linarith [Int.le_ceil x]
  rw [abs_le]; constructor <;> omega

theorem floor_near {x y : ℚ} (h : |x - y| < 1) : |⌊x⌋ - ⌊y⌋| ≤ 1 := by
  rw [abs_lt] at h
  have h1 : ⌊y⌋ - 1 ≤ ⌊x⌋ := by
    rw [Int.le_floor]; push_cast; linarith [Int.floor_le y]
  have h2 : ⌊x⌋ - 1 ≤ ⌊y⌋ := by
    rw [Int.le_floor]; push_cast; linarith [Int.floor_le x]
  rw [abs_le]; constructor <;> omega

/-- **C56**. With the default rounding, a time delta within a quarter of a period of `k` periods counts as `k + 1` samples,
for up to 2^47 samples. -/
theorem C56_n_samples (d fs : ℚ) (k : ℤ) (hd : 0 ≤ d) (hfs : 0 ≤ fs) (hk : k + 2 ≤ 2 ^ 47) (h : |d * fs - k| ≤ 1 / 4) :
    toNSamplesF d fs = k + 1 := by
  unfold toNSamplesF
  refine applyRound_round_of_near ?_
  have he := C56_count_error d fs hd hfs
  have hkq : (k : ℚ) + 2 ≤ 2 ^ 47 := by exact_mod_cast hk
  rw [abs_le] at h he
  have : d * fs + 1 ≤ 2 ^ 47 := by linarith
  have : 12 / 2 ^ 53 * (d * fs + 1) ≤ 12 / 2 ^ 53 * 2 ^ 47 := mul_le_mul_of_nonneg_left this (by norm_num)
  norm_num at this
  rw [abs_lt]
  push_cast
  norm_num at he
  constructor <;> linarith

/-! ## The period -/

/-- the nanoseconds of a period before tiny ones are dropped -/
def rawNanos (delta : ℚ) : ℚ :=
  let m := fl (fl (delta - ⌊delta⌋) * 1000000)
  fl (fl (m - ⌊m⌋) * 1000)

/-- the period before tiny nanoseconds are dropped -/
def rawPeriod (delta : ℚ) : ℚ :=
  let m := fl (fl (delta - ⌊delta⌋) * 1000000)
  ⌊delta⌋ + ⌊m⌋ / 1000000 + rawNanos delta / 1000000000

theorem fl_nonneg {x : ℚ} (h : 0 ≤ x) : 0 ≤ fl x := by
  have := fl_near x
  rw [abs_of_nonneg h, abs_le] at this
  have hu : unitRoundoff ≤ 1 := by unfold unitRoundoff; norm_num
  have := mul_le_mul_of_nonneg_left hu h
  linarith

theorem rawNanos_nonneg (delta : ℚ) : 0 ≤ rawNanos delta := by
  unfold rawNanos
  simp only
  refine fl_nonneg (mul_nonneg (fl_nonneg ?_) (by norm_num))
  linarith [Int.floor_le (fl (fl (delta - ⌊delta⌋) * 1000000))]

theorem rawPeriod_near (x : ℚ) (hx : 0 < x) : Near 18 (rawPeriod (fl x)) x := by
  have r1 : Near 2 (fl x) x := by simpa using (Near.refl (c := 0) hx.le le_rfl).fl hx.le (by norm_num)
  have rb := r1.bounds
  have hr0 : 0 ≤ fl x := fl_nonneg hx.le
  set r := fl x with hr
  set d := r - ⌊r⌋ with hdd
  have hd0 : 0 ≤ d := by rw [hdd]; linarith [Int.floor_le r]
  have hdr : d ≤ r := by
    have : (0 : ℚ) ≤ ⌊r⌋ := by exact_mod_cast Int.floor_nonneg.2 hr0
    rw [hdd]; linarith
  have m1 : Near 2 (fl d) d := by simpa using (Near.refl (c := 0) hd0 le_rfl).fl hd0 (by norm_num)
  have m2 : Near 4 (fl (fl d * 1000000)) (d * 1000000) := by
    have := (m1.mul_right (s := 1000000) (by norm_num)).fl (by positivity) (by norm_num)
    norm_num at this
    exact this
  have mb := m2.bounds
  set m := fl (fl d * 1000000) with hm
  have hm0 : 0 ≤ m := m2.nonneg (by positivity) (by norm_num)
  set q := m - ⌊m⌋ with hq
  have hq0 : 0 ≤ q := by rw [hq]; linarith [Int.floor_le m]
  have hqm : q ≤ m := by
    have : (0 : ℚ) ≤ ⌊m⌋ := by exact_mod_cast Int.floor_nonneg.2 hm0
    rw [hq]; linarith
  have q1 : Near 2 (fl q) q := by simpa using (Near.refl (c := 0) hq0 le_rfl).fl hq0 (by norm_num)
  have q2 : Near 4 (fl (fl q * 1000)) (q * 1000) := by
    have := (q1.mul_right (s := 1000) (by norm_num)).fl (by positivity) (by norm_num)
    norm_num at this
    exact this
  have qb := q2.bounds
  have e : rawPeriod r = ⌊r⌋ + ⌊m⌋ / 1000000 + fl (fl q * 1000) / 1000000000 := rfl
  rw [e]
  set n := fl (fl q * 1000) with hn
  unfold Near
  unfold unitRoundoff at *
  norm_num at rb mb qb ⊢
  have e1 : (⌊r⌋ : ℚ) = r - d := by rw [hdd]; ring
  have e2 : (⌊m⌋ : ℚ) = m - q := by rw [hq]; ring
  rw [e1, e2, abs_le]
  constructor <;> linarith

/-- **C56**. The period used for sample times is right up to 18 * 2^-53 of it, and up to the nanoseconds below 0.0001 that are
dropped. -/
theorem C56_period (fs : ℚ) (hfs : 0 < fs) :
    |toTimedeltaF (fl (1 / fs)) - 1 / fs| ≤ 18 / 2 ^ 53 * (1 / fs) + 101 / 100 * (1 / 10 ^ 13) := by
  have hp : (0 : ℚ) < 1 / fs := by positivity
  have hn := rawPeriod_near (1 / fs) hp
  unfold Near unitRoundoff at hn
  have h0 := rawNanos_nonneg (fl (1 / fs))
  have hd : toTimedeltaF (fl (1 / fs)) = rawPeriod (fl (1 / fs)) ∨
      (toTimedeltaF (fl (1 / fs)) = rawPeriod (fl (1 / fs)) - rawNanos (fl (1 / fs)) / 1000000000 ∧
        rawNanos (fl (1 / fs)) < fl (1 / 10000)) := by
    by_cases hc : rawNanos (fl (1 / fs)) ≠ 0 ∧ rawNanos (fl (1 / fs)) < fl (1 / 10000)
    · right
      refine ⟨?_, hc.2⟩
      have hc' := hc
      unfold rawNanos at hc'
      unfold toTimedeltaF rawPeriod
      simp only at hc' ⊢
      rw [if_pos hc']
      ring
    · left
      unfold rawNanos at hc
      unfold toTimedeltaF rawPeriod rawNanos
      simp only at hc ⊢
      rw [if_neg hc]
  have hf : fl (1 / 10000) ≤ 101 / 100 * (1 / 10000) := by
    have := fl_near (1 / 10000)
    rw [abs_le] at this
    have h2 := this.2
    rw [abs_of_pos (by norm_num)] at h2
    unfold unitRoundoff at h2
    norm_num at h2 ⊢
    linarith
  rw [abs_le] at hn ⊢
  generalize (1 : ℚ) / fs = p at *
  norm_num at hn hf ⊢
  rcases hd with h | ⟨h, h'⟩
  · rw [h]; constructor <;> linarith
  · rw [h]; constructor <;> linarith

/-- the period is right up to rounding errors -/
def PeriodKeptF (fs : ℚ) : Prop := |toTimedeltaF (fl (1 / fs)) - 1 / fs| ≤ 18 / 2 ^ 53 * (1 / fs)

/-- It is when the code does not drop nanoseconds... -/
theorem periodKeptF_of_not_dropped (fs : ℚ) (hfs : 0 < fs)
    (h : rawNanos (fl (1 / fs)) = 0 ∨ fl (1 / 10000) ≤ rawNanos (fl (1 / fs))) : PeriodKeptF fs := by
  have hn := rawPeriod_near (1 / fs) (by positivity)
  have hd : toTimedeltaF (fl (1 / fs)) = rawPeriod (fl (1 / fs)) := by
    have hc : ¬ (rawNanos (fl (1 / fs)) ≠ 0 ∧ rawNanos (fl (1 / fs)) < fl (1 / 10000)) := by
      rintro ⟨h1, h2⟩
      rcases h with h | h
      · exact h1 h
      · exact absurd h2 (not_lt.2 h)
    unfold rawNanos at hc
    unfold toTimedeltaF rawPeriod rawNanos
    simp only at hc ⊢
    rw [if_neg hc]
  unfold PeriodKeptF
  rw [hd]
  unfold Near unitRoundoff at hn
  have e : 18 * (1 / 2 ^ 53) * (1 / fs) = 18 / 2 ^ 53 * (1 / fs) := by ring
  rw [e] at hn
  exact hn

theorem toTimedeltaF_raw (x : ℚ) : toTimedeltaF x = rawPeriod x ∨
    (toTimedeltaF x = rawPeriod x - rawNanos x / 1000000000 ∧ rawNanos x < fl (1 / 10000) ∧
      ∃ N : ℤ, toTimedeltaF x = N / 1000000) := by
  by_cases hc : rawNanos x ≠ 0 ∧ rawNanos x < fl (1 / 10000)
  · right
    have hc' := hc
    unfold rawNanos at hc'
    refine ⟨?_, hc.2, ⌊x⌋ * 1000000 + ⌊fl (fl (x - ⌊x⌋) * 1000000)⌋, ?_⟩
    · unfold toTimedeltaF rawPeriod
      simp only at hc' ⊢
      rw [if_pos hc']
      ring
    · unfold toTimedeltaF
      simp only at hc' ⊢
      rw [if_pos hc']
      push_cast
      ring
  · left
    unfold rawNanos at hc
    unfold toTimedeltaF rawPeriod rawNanos
    simp only at hc ⊢
    rw [if_neg hc]

/-- ... and when the period is a whole number of microseconds (of up to 10^8 seconds). -/
theorem periodKeptF_of_micros (fs : ℚ) (hfs : 0 < fs) (M : ℤ) (hM : 1 / fs = M / 1000000) (hmax : 1 / fs ≤ 10 ^ 8) :
    PeriodKeptF fs := by
  have hp : (0 : ℚ) < 1 / fs := by positivity
  have hn := rawPeriod_near (1 / fs) hp
  have h0 := rawNanos_nonneg (fl (1 / fs))
  unfold PeriodKeptF
  rcases toTimedeltaF_raw (fl (1 / fs)) with h | ⟨h1, h2, N, h3⟩
  · rw [h]
    unfold Near unitRoundoff at hn
    have e : 18 * (1 / 2 ^ 53) * (1 / fs) = 18 / 2 ^ 53 * (1 / fs) := by ring
    rw [e] at hn
    exact hn
  · have hb := C56_period fs hfs
    rw [h3] at hb
    generalize (1 : ℚ) / fs = p at *
    have : N = M := by
      have hlt : |((N : ℚ) - M)| < 1 := by
        have e : ((N : ℚ) - M) = (N / 1000000 - p) * 1000000 := by rw [hM]; ring
        rw [e, abs_mul, abs_of_pos (by norm_num : (0 : ℚ) < 1000000)]
        norm_num at hb hmax ⊢
        linarith
      have : |N - M| < 1 := by exact_mod_cast hlt
      have := Int.abs_lt_one_iff.1 this
      omega
    rw [h3, this, hM, sub_self, abs_zero]
    rw [← hM]
    positivity

/-! ## Samples and times -/

/-- **C56**. The time of sample `k` is `k` periods after the start up to rounding errors... -/
theorem C56_sample_time (fs first : ℚ) (k : ℤ) (hfs : 0 < fs) (hk : 0 ≤ k) (hm : k ≤ 2 ^ 46)
    (hp : PeriodKeptF fs ∨ k * fs ≤ 9 * 10 ^ 11) :
    |(sampleToDatetimeF fs first k - first) * fs - k| ≤ 1 / 4 := by
  have hkq : (0 : ℚ) ≤ k := by exact_mod_cast hk
  have hmq : (k : ℚ) ≤ 2 ^ 46 := by exact_mod_cast hm
  have e : (sampleToDatetimeF fs first k - first) * fs - k = k * fs * (toTimedeltaF (fl (1 / fs)) - 1 / fs) := by
    unfold sampleToDatetimeF
    field_simp
    ring
  rw [e, abs_mul, abs_of_nonneg (by positivity)]
  rcases hp with hp | hp
  · have h1 := mul_le_mul_of_nonneg_left hp (show (0 : ℚ) ≤ k * fs by positivity)
    have h2 : (k : ℚ) * fs * (18 / 2 ^ 53 * (1 / fs)) = 18 / 2 ^ 53 * k := by field_simp
    rw [h2] at h1
    norm_num at h1 hmq ⊢
    linarith
  · have h1 := mul_le_mul_of_nonneg_left (C56_period fs hfs) (show (0 : ℚ) ≤ k * fs by positivity)
    have h2 : (k : ℚ) * fs * (18 / 2 ^ 53 * (1 / fs) + 101 / 100 * (1 / 10 ^ 13)) =
        18 / 2 ^ 53 * k + k * fs * (101 / 100 * (1 / 10 ^ 13)) := by field_simp
    rw [h2] at h1
    norm_num at h1 hmq hp ⊢
    linarith

theorem toTimedeltaF_nonneg (x : ℚ) (hx : 0 ≤ x) : 0 ≤ toTimedeltaF x := by
  unfold toTimedeltaF
  simp only
  have h1 : (0 : ℚ) ≤ ⌊x⌋ := by exact_mod_cast Int.floor_nonneg.2 hx
  have h2 : (0 : ℚ) ≤ ⌊fl (fl (x - ⌊x⌋) * 1000000)⌋ := by
    have : 0 ≤ fl (fl (x - ⌊x⌋) * 1000000) :=
      fl_nonneg (mul_nonneg (fl_nonneg (by linarith [Int.floor_le x])) (by norm_num))
    exact_mod_cast Int.floor_nonneg.2 this
  have h3 := rawNanos_nonneg x
  unfold rawNanos at h3
  simp only at h3
  split
  · positivity
  · positivity

/-- **C56**. ... so counting samples with the default rounding finds the sample again, for up to 2^46 samples. -/
theorem C56_round_trip (fs first : ℚ) (k : ℤ) (hfs : 0 < fs) (hk : 0 ≤ k) (hm : k ≤ 2 ^ 46)
    (hp : PeriodKeptF fs ∨ k * fs ≤ 9 * 10 ^ 11) :
    toNSamplesF (sampleToDatetimeF fs first k - first) fs = k + 1 := by
  refine C56_n_samples _ fs k ?_ hfs.le (by omega) (C56_sample_time fs first k hfs hk hm hp)
  unfold sampleToDatetimeF
  have h1 := toTimedeltaF_nonneg (fl (1 / fs)) (fl_nonneg (by positivity))
  have hkq : (0 : ℚ) ≤ k := by exact_mod_cast hk
  have := mul_nonneg hkq h1
  linarith

/-- the count of samples is within a sample of the exact count, for up to 2^47 samples -/
theorem countSamplesF_near (d fs : ℚ) (hd : 0 ≤ d) (hfs : 0 ≤ fs) (hmax : d * fs + 1 ≤ 2 ^ 47) :
    |countSamplesF d fs - (d * fs + 1)| < 1 := by
  have he := C56_count_error d fs hd hfs
  have : 12 / 2 ^ 53 * (d * fs + 1) ≤ 12 / 2 ^ 53 * 2 ^ 47 := mul_le_mul_of_nonneg_left hmax (by norm_num)
  norm_num at this he ⊢
  linarith

/-- **C56**. For recordings of up to 2^47 samples, the sample of a from time is at most one away from the one exact
arithmetic gives, and it is refused in the same cases. -/
theorem C56_from_time (fs first last t : ℚ) (hfs : 0 < fs) (hfl : first ≤ last) (hmax : (last - first) * fs + 1 ≤ 2 ^ 47) :
    match fromTimeToSampleF fs first last t, fromTimeToSample fs first last t with
    | .ok a, .ok b => |a - b| ≤ 1
    | .error e, .error e' => e = e'
    | _, _ => False := by
  unfold fromTimeToSampleF fromTimeToSample checkFromTime
  have key : ∀ u, 0 ≤ u - first → u ≤ last →
      |toNSamplesF (u - first) fs .ceil - 1 - (toNSamples (u - first) fs .ceil - 1)| ≤ 1 := by
    intro u h1 h2
    have hle : (u - first) * fs + 1 ≤ 2 ^ 47 := by
      have := mul_le_mul_of_nonneg_right (show u - first ≤ last - first by linarith) hfs.le
      linarith
    have := ceil_near (countSamplesF_near (u - first) fs h1 hfs.le hle)
    rw [toNSamples_ceil]
    unfold toNSamplesF
    rw [applyRound_ceil, Int.ceil_add_one] at *
    rw [show ⌈countSamplesF (u - first) fs⌉ - 1 - (⌈(u - first) * fs⌉ + 1 - 1) =
      ⌈countSamplesF (u - first) fs⌉ - (⌈(u - first) * fs⌉ + 1) by ring]
    exact this
  by_cases h1 : last < t
  · simp [h1, bind, Except.bind]
  · by_cases h2 : t - first < 0
    · simp only [h1, h2, if_true, if_false, bind, Except.bind, pure, Except.pure]
      exact key first (by simp) hfl
    · simp only [h1, h2, if_false, bind, Except.bind, pure, Except.pure]
      exact key t (by linarith) (by linarith)

/-- **C56**. The same for to times. -/
theorem C56_to_time (fs first last t : ℚ) (hfs : 0 < fs) (hfl : first ≤ last) (hmax : (last - first) * fs + 1 ≤ 2 ^ 47) :
    match toTimeToSampleF fs first last t, toTimeToSample fs first last t with
    | .ok a, .ok b => |a - b| ≤ 1
    | .error e, .error e' => e = e'
    | _, _ => False := by
  unfold toTimeToSampleF toTimeToSample checkToTime
  have key : ∀ u, 0 ≤ u - first → u ≤ last →
      |toNSamplesF (u - first) fs .floor - 1 - (toNSamples (u - first) fs .floor - 1)| ≤ 1 := by
    intro u h1 h2
    have hle : (u - first) * fs + 1 ≤ 2 ^ 47 := by
      have := mul_le_mul_of_nonneg_right (show u - first ≤ last - first by linarith) hfs.le
      linarith
    have := floor_near (countSamplesF_near (u - first) fs h1 hfs.le hle)
    rw [toNSamples_floor]
    unfold toNSamplesF
    rw [applyRound_floor, Int.floor_add_one] at *
    rw [show ⌊countSamplesF (u - first) fs⌋ - 1 - (⌊(u - first) * fs⌋ + 1 - 1) =
      ⌊countSamplesF (u - first) fs⌋ - (⌊(u - first) * fs⌋ + 1) by ring]
    exact this
  by_cases h1 : t < first
  · simp [h1, bind, Except.bind]
  · by_cases h2 : last - t < 0
    · simp only [h1, h2, if_true, if_false, bind, Except.bind, pure, Except.pure]
      exact key last (by linarith) le_rfl
    · simp only [h1, h2, if_false, bind, Except.bind, pure, Except.pure]
      exact key t (by linarith) (by linarith)

/-- **C56** (finding). A from time exactly on sample 14 of a 100 Hz recording gives sample 15, and a to time exactly on sample 29
gives sample 28: a sample of the requested range is lost. -/
theorem C56_range_loses_samples :
    fromTimeToSampleF 100 0 1000 (14 / 100) = .ok 15 ∧ fromTimeToSample 100 0 1000 (14 / 100) = .ok 14 ∧
    toTimeToSampleF 100 0 1000 (29 / 100) = .ok 28 ∧ toTimeToSample 100 0 1000 (29 / 100) = .ok 29 := by
  decide +kernel

/-! ## Windows -/

theorem Near.div {a' a b' b : ℚ} (h : Near 8 a' a) (g : Near 8 b' b) (ha : 0 ≤ a) (hb : 0 < b) :
    Near 17 (a' / b') (a / b) := by
  have gb := g.bounds
  have hb' : 0 < b' := by
    have := gb.1
    unfold unitRoundoff at this
    norm_num at this
    linarith
  have hq : 0 ≤ a / b := div_nonneg ha hb.le
  unfold Near at *
  have e : a' / b' - a / b = ((a' - a) - (a / b) * (b' - b)) / b' := by
    field_simp
    ring
  rw [e, abs_div, abs_of_pos hb', div_le_iff₀ hb']
  have h1 : |(a' - a) - (a / b) * (b' - b)| ≤ |a' - a| + (a / b) * |b' - b| := by
    refine (abs_sub _ _).trans ?_
    rw [abs_mul, abs_of_nonneg hq]
  have h2 : (a / b) * |b' - b| ≤ (a / b) * (8 * unitRoundoff * b) := mul_le_mul_of_nonneg_left g hq
  have h3 : (a / b) * (8 * unitRoundoff * b) = 8 * unitRoundoff * a := by field_simp
  have h4 : 17 * unitRoundoff * (a / b) * (b - 8 * unitRoundoff * b) ≤ 17 * unitRoundoff * (a / b) * b' :=
    mul_le_mul_of_nonneg_left gb.1 (mul_nonneg (mul_nonneg (by norm_num) unit_pos.le) hq)
  have h5 : 17 * unitRoundoff * (a / b) * (b - 8 * unitRoundoff * b) = 17 * unitRoundoff * a * (1 - 8 * unitRoundoff) := by
    field_simp
  have h6 : 16 * unitRoundoff * a ≤ 17 * unitRoundoff * a * (1 - 8 * unitRoundoff) := by
    have : 0 ≤ unitRoundoff * a := mul_nonneg unit_pos.le ha
    have h7 : (16 : ℚ) ≤ 17 * (1 - 8 * unitRoundoff) := by unfold unitRoundoff; norm_num
    have := mul_le_mul_of_nonneg_right h7 this
    linarith
  linarith

/-- **C56**. The number of increments before it is made an integer has a relative error of at most 19 * 2^-53. -/
theorem C56_increments_error (d inc : ℚ) (hd : 0 ≤ d) (hinc : 0 < inc) :
    |countIncrementsF d inc - d / inc| ≤ 19 / 2 ^ 53 * (d / inc) := by
  have n := ((totalSecondsF_near d hd).div (totalSecondsF_near inc hinc.le) hd hinc).fl (div_nonneg hd hinc.le) (by norm_num)
  unfold countIncrementsF
  unfold Near unitRoundoff at n
  norm_num at n ⊢
  exact n

theorem countIncrementsF_near (d inc : ℚ) (hd : 0 ≤ d) (hinc : 0 < inc) (hmax : d / inc ≤ 2 ^ 47) :
    |countIncrementsF d inc - d / inc| < 1 / 2 := by
  have he := C56_increments_error d inc hd hinc
  have : 19 / 2 ^ 53 * (d / inc) ≤ 19 / 2 ^ 53 * 2 ^ 47 := mul_le_mul_of_nonneg_left hmax (by norm_num)
  norm_num at this he ⊢
  linarith

/-- **C56**. With the default rounding, the start time of a window converts back to that window, for up to 2^47 windows after
the reference time. -/
theorem C56_window_round_trip (ref inc : ℚ) (g : ℤ) (hinc : 0 < inc) (hg : 0 ≤ g) (hm : g ≤ 2 ^ 47) :
    datetimeToWinF ref (winToDatetime ref g inc) inc = .ok g := by
  have hgq : (0 : ℚ) ≤ g := by exact_mod_cast hg
  have hmq : (g : ℚ) ≤ 2 ^ 47 := by exact_mod_cast hm
  have e : winToDatetime ref g inc - ref = g * inc := by unfold winToDatetime; ring
  have hd : 0 ≤ (g : ℚ) * inc := mul_nonneg hgq hinc.le
  have eq : (g : ℚ) * inc / inc = g := mul_div_cancel_right₀ _ hinc.ne'
  unfold datetimeToWinF
  rw [if_neg (by linarith), e]
  have := countIncrementsF_near (g * inc) inc hd hinc (by rw [eq]; exact hmq)
  rw [eq] at this
  rw [applyRound_round_of_near this]

/-- **C56**. With "floor" and "ceil" the window is at most one away from the one exact arithmetic gives, and a time before the
reference time is refused in the same way. -/
theorem C56_window_within_one (ref t inc : ℚ) (method : RoundMethod) (hm : method ≠ .round) (hinc : 0 < inc)
    (hmax : (t - ref) / inc ≤ 2 ^ 47) :
    match datetimeToWinF ref t inc method, datetimeToWin ref t inc method with
    | .ok a, .ok b => |a - b| ≤ 1
    | .error e, .error e' => e = e'
    | _, _ => False := by
  by_cases h : t < ref
  · simp [datetimeToWinF, datetimeToWin, h]
  · have h' : ref ≤ t := not_lt.1 h
    have hn := countIncrementsF_near (t - ref) inc (by linarith) hinc hmax
    rw [datetimeToWin_ok method hinc h']
    unfold datetimeToWinF
    rw [if_neg h]
    simp only
    cases method with
    | round => exact absurd rfl hm
    | floor => rw [applyRound_floor, applyRound_floor]; exact floor_near (by linarith)
    | ceil => rw [applyRound_ceil, applyRound_ceil]; exact ceil_near (by linarith)

/-- Specification: window `g` lies completely in the recording, in terms of the period the program uses. -/
def WinFitsF (md : LevelMeta) (refTime : ℚ) (winSize olapSize g : ℤ) : Prop :=
  md.firstTime ≤ refTime + g * ((winSize - olapSize : ℤ) * toTimedeltaF (fl (1 / md.fs))) ∧
  refTime + g * ((winSize - olapSize : ℤ) * toTimedeltaF (fl (1 / md.fs)))
    + (winSize - 1 : ℤ) * toTimedeltaF (fl (1 / md.fs)) ≤ md.lastTime

/-- **C56**. Rounding errors only matter for the first window: every window after the first one found lies completely in the
recording, and every window that does is found, but perhaps the one just before the first.  For at most 2^47 samples since the
reference time. -/
theorem C56_windows (md : LevelMeta) (ref : ℚ) (w o f l : ℤ) (hp : 0 < toTimedeltaF (fl (1 / md.fs))) (ho : o < w) (hw : 2 ≤ w)
    (href : ref ≤ md.firstTime) (hfl : md.firstTime ≤ md.lastTime)
    (hmax : (md.lastTime - ref) / toTimedeltaF (fl (1 / md.fs)) ≤ 2 ^ 47)
    (h : getFirstAndLastWinF ref md w o = .ok (f, l)) (g : ℤ) :
    (WinFitsF md ref w o g → f - 1 ≤ g ∧ g ≤ l) ∧ (f + 1 ≤ g → g ≤ l → WinFitsF md ref w o g) := by
  unfold getFirstAndLastWinF incDurationF winDurationF datetimeToWinF at h
  have hlt1 : ¬ md.firstTime < ref := by linarith
  have hlt2 : ¬ md.lastTime < ref := by linarith
  simp only [hlt1, hlt2, if_false, bind, Except.bind, pure, Except.pure, applyRound_floor, applyRound_ceil] at h
  set τ := toTimedeltaF (fl (1 / md.fs)) with hτ
  have hn : (1 : ℚ) ≤ ((w - o : ℤ) : ℚ) := by exact_mod_cast (by omega : (1 : ℤ) ≤ w - o)
  have hw1 : (1 : ℚ) ≤ ((w - 1 : ℤ) : ℚ) := by exact_mod_cast (by omega : (1 : ℤ) ≤ w - 1)
  set n : ℚ := ((w - o : ℤ) : ℚ) with hnn
  set m : ℚ := ((w - 1 : ℤ) : ℚ) with hmm
  have hinc : 0 < τ * n := mul_pos hp (by linarith)
  have hq : ∀ x, 0 ≤ x → x ≤ md.lastTime - ref → x / (τ * n) ≤ 2 ^ 47 / n := by
    intro x _ hx
    rw [div_le_div_iff₀ hinc (by linarith)]
    have h1 : x / τ ≤ 2 ^ 47 := (div_le_div_of_nonneg_right hx hp.le).trans hmax
    rw [div_le_iff₀ hp] at h1
    have := mul_le_mul_of_nonneg_right h1 (show (0 : ℚ) ≤ n by linarith)
    linarith
  have hq' : ∀ x, 0 ≤ x → x ≤ md.lastTime - ref → x / (τ * n) ≤ 2 ^ 47 := by
    intro x h0 hx
    refine (hq x h0 hx).trans ?_
    rw [div_le_iff₀ (by linarith)]
    linarith [mul_le_mul_of_nonneg_left hn (show (0 : ℚ) ≤ 2 ^ 47 by norm_num)]
  have nf := countIncrementsF_near (md.firstTime - ref) (τ * n) (by linarith) hinc (hq' _ (by linarith) (by linarith))
  have nl := C56_increments_error (md.lastTime - ref) (τ * n) (by linarith) hinc
  have nlq := hq (md.lastTime - ref) (by linarith) le_rfl
  cases ha : adjustLastWin ref md.lastTime (τ * m) (τ * n) 2 ⌊countIncrementsF (md.lastTime - ref) (τ * n)⌋ with
  | error e => rw [ha] at h; simp at h
  | ok l' =>
    rw [ha] at h
    simp only [Except.ok.injEq, Prod.mk.injEq] at h
    obtain ⟨hf, rfl⟩ := h
    obtain ⟨h1, h2, h3⟩ := adjustLastWin_ok ha
    have hfb := ceil_near (lt_trans nf (by norm_num : (1 : ℚ) / 2 < 1))
    rw [hf] at hfb
    rw [abs_le] at hfb
    have mono : ∀ g g' : ℤ, g ≤ g' → ref + g * (n * τ) ≤ ref + g' * (n * τ) := by
      intro g g' hgg
      have : (g : ℚ) ≤ g' := by exact_mod_cast hgg
      have := mul_le_mul_of_nonneg_right this (show 0 ≤ n * τ by linarith)
      linarith
    unfold WinFitsF
    rw [← hτ, ← hnn, ← hmm]
    constructor
    · rintro ⟨c1, c2⟩
      refine ⟨?_, ?_⟩
      · have : ⌈(md.firstTime - ref) / (τ * n)⌉ ≤ g := by
          rw [Int.ceil_le, div_le_iff₀ hinc]
          linarith
        omega
      · by_contra hgl
        push Not at hgl
        have hle : g ≤ ⌊countIncrementsF (md.lastTime - ref) (τ * n)⌋ := by
          rw [Int.le_floor]
          have c3 : (g : ℚ) + m / n ≤ (md.lastTime - ref) / (τ * n) := by
            rw [le_div_iff₀ hinc, add_mul]
            have : m / n * (τ * n) = m * τ := by field_simp
            rw [this]
            linarith
          have c4 : 1 / n ≤ m / n := div_le_div_of_nonneg_right hw1 (by linarith)
          have c5 : 19 / 2 ^ 53 * ((md.lastTime - ref) / (τ * n)) ≤ 19 / 2 ^ 53 * (2 ^ 47 / n) :=
            mul_le_mul_of_nonneg_left nlq (by norm_num)
          have c6 : 19 / 2 ^ 53 * (2 ^ 47 / n) ≤ 1 / n := by
            rw [mul_div_assoc', div_le_div_iff_of_pos_right (by linarith)]
            norm_num
          rw [abs_le] at nl
          linarith [nl.1]
        have := h3 g hgl hle
        unfold winToDatetime at this
        linarith
    · intro hg1 hg2
      refine ⟨?_, ?_⟩
      · have : ⌈(md.firstTime - ref) / (τ * n)⌉ ≤ g := by omega
        rw [Int.ceil_le, div_le_iff₀ hinc] at this
        linarith
      · have := mono g l' hg2
        unfold winToDatetime at h2
        linarith

/-- **C56**. The samples of a window: the first sample of the table is at most one sample (and rounding errors) before the time of
the first window, and never more than rounding errors after it; windows advance by the increment size and are a window size
long. -/
theorem C56_window_samples (md : LevelMeta) (ref : ℚ) (w o f l : ℤ) (rows : List (ℤ × ℤ × ℤ)) (hfs : 0 < md.fs)
    (h : getFirstAndLastWinF ref md w o = .ok (f, l)) (hr : getWinSamplesF ref md w o = .ok rows) :
    ∃ s : ℤ, (∀ k (hk : k < rows.length), rows[k] = (f + k, s + k * (w - o), s + k * (w - o) + (w - 1))) ∧
      (rows.length : ℤ) = l - f + 1 ∧
      ∀ d, d = winToDatetime ref f (incDurationF w o md.fs) - md.firstTime → 0 ≤ d → d * md.fs + 1 ≤ 2 ^ 47 →
        d * md.fs - 1 - 1 / 4 ≤ s ∧ s ≤ d * md.fs + 1 / 4 := by
  unfold getWinSamplesF at hr
  rw [h] at hr
  simp only [bind, Except.bind] at hr
  split at hr
  · cases hr
  rename_i hneg
  injection hr with hr
  subst hr
  refine ⟨toNSamplesF (winToDatetime ref f (incDurationF w o md.fs) - md.firstTime) md.fs .floor - 1, ?_, ?_, ?_⟩
  · intro k hk
    simp only [List.getElem_map, List.getElem_range]
    refine Prod.ext rfl (Prod.ext rfl ?_)
    simp only
    ring
  · simp only [List.length_map, List.length_range]
    omega
  · rintro d rfl h0 hmax
    have he := C56_count_error _ md.fs h0 hfs.le
    have hb := mul_le_mul_of_nonneg_left hmax (show (0 : ℚ) ≤ 12 / 2 ^ 53 by norm_num)
    unfold toNSamplesF
    rw [applyRound_floor]
    set c := countSamplesF (winToDatetime ref f (incDurationF w o md.fs) - md.firstTime) md.fs
    have f1 := Int.floor_le c
    have f2 := Int.lt_floor_add_one c
    rw [abs_le] at he
    push_cast
    norm_num at hb he ⊢
    constructor <;> linarith

/-- **C56** (finding). Two recordings at 100 Hz, one from the reference time and one from 2.27 s later, in windows of 256 samples
without overlap.  Window 1 starts 2.56 s after the reference time: this is sample 256 of the first recording, and sample 29 of the
second, but the program takes sample 28: the same window of the two recordings is not from the same time. -/
theorem C56_windows_misaligned :
    getWinSamplesF 0 ⟨100, 600, 0, 599 / 100⟩ 256 0 = .ok [(0, 0, 255), (1, 256, 511)] ∧
    getWinSamplesF 0 ⟨100, 600, 227 / 100, 227 / 100 + 599 / 100⟩ 256 0 = .ok [(1, 28, 283), (2, 284, 539)] ∧
    sampleToDatetimeF 100 0 256 = 256 / 100 ∧ sampleToDatetimeF 100 (227 / 100) 29 = 256 / 100 := by
  decide +kernel

/-- the hypotheses are met: a 128 Hz and a 10 Hz recording -/
example : PeriodKeptF 128 ∧ PeriodKeptF 10 ∧ PeriodKeptF 3 ∧ 0 < toTimedeltaF (fl (1 / 10)) := by
  unfold PeriodKeptF
  decide +kernel

example : getFirstAndLastWinF 0 ⟨10, 600, 1, 1 + 599 / 10⟩ 100 25 = .ok (1, 6) := by
  decide +kernel

example : toNSamplesF (sampleToDatetimeF 3 5 1000000 - 5) 3 = 1000001 :=
  C56_round_trip 3 5 1000000 (by norm_num) (by norm_num) (by norm_num) (Or.inr (by norm_num))

end Resistics
