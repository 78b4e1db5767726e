import Mathlib.Tactic.Linarith
import Mathlib.Tactic.FieldSimp
import Mathlib.Tactic.Ring
import Mathlib.Tactic.Positivity
import Mathlib.Tactic.NormNum
import Mathlib.Tactic.Push
import Verif.Model.Sampling

/-! Helper lemmas about the sampling model (no property statements here). -/

namespace Resistics

theorem toSeconds_sum (d : ℚ) : (toSeconds d).1 + (toSeconds d).2 = d := by
  simp [toSeconds]

theorem applyRound_int (k : ℤ) (m : RoundMethod) : applyRound (k : ℚ) m = k := by
  simp [applyRound]

theorem applyRound_floor (n : ℚ) : applyRound n .floor = ⌊n⌋ := by
  unfold applyRound; split <;> rfl

theorem applyRound_ceil (n : ℚ) : applyRound n .ceil = ⌈n⌉ := by
  unfold applyRound
  split
  · rename_i h
    conv_rhs => rw [h]
    simp
  · rfl

theorem toNSamples_eq (d fs : ℚ) (m : RoundMethod) :
    toNSamples d fs m = applyRound (d * fs + 1) m := by
  have := toSeconds_sum d
  simp only [toNSamples]
  rw [this]

theorem toNSamples_floor (d fs : ℚ) : toNSamples d fs .floor = ⌊d * fs⌋ + 1 := by
  rw [toNSamples_eq, applyRound_floor, Int.floor_add_one]

theorem toNSamples_ceil (d fs : ℚ) : toNSamples d fs .ceil = ⌈d * fs⌉ + 1 := by
  rw [toNSamples_eq, applyRound_ceil, Int.ceil_add_one]

theorem toTimedelta_le (x : ℚ) : toTimedelta x ≤ x := by
  have h1 := Int.floor_le x
  have h2 := Int.floor_le ((x - ⌊x⌋) * 1000000)
  simp only [toTimedelta]
  split <;> linarith

theorem lt_toTimedelta (x : ℚ) : x - 1 / 10000000000000 < toTimedelta x := by
  simp only [toTimedelta]
  split
  · rename_i h
    linarith [h.2]
  · linarith

theorem toTimedelta_int (k : ℤ) : toTimedelta (k : ℚ) = k := by
  simp [toTimedelta]

theorem toTimedelta_nonneg {x : ℚ} (hx : 0 ≤ x) : 0 ≤ toTimedelta x := by
  have h1 : (0:ℤ) ≤ ⌊x⌋ := Int.floor_nonneg.mpr hx
  have h1' : (0:ℚ) ≤ ⌊x⌋ := by exact_mod_cast h1
  have h1'' := Int.floor_le x
  have h2 : (0:ℤ) ≤ ⌊(x - ⌊x⌋) * 1000000⌋ := Int.floor_nonneg.mpr (by linarith)
  have h2' : (0:ℚ) ≤ ⌊(x - ⌊x⌋) * 1000000⌋ := by exact_mod_cast h2
  have h3 := Int.floor_le ((x - ⌊x⌋) * 1000000)
  simp only [toTimedelta]
  split
  · have := div_nonneg h2' (by norm_num : (0:ℚ) ≤ 1000000)
    linarith
  · have := div_nonneg h2' (by norm_num : (0:ℚ) ≤ 1000000)
    linarith

theorem pyRecip_ok {fs : ℚ} (h : fs ≠ 0) : pyRecip fs = .ok (1 / fs) := by simp [pyRecip, h]

theorem sampleToDatetime_ok {fs : ℚ} (h : fs ≠ 0) (t : ℚ) (k : ℤ) :
    sampleToDatetime fs t k = .ok (t + k * toTimedelta (1 / fs)) := by
  simp [sampleToDatetime, pyRecip_ok h]

theorem fromTimeToSample_ok {fs first last t : ℚ} (h : t ≤ last) :
    fromTimeToSample fs first last t = .ok ⌈(max t first - first) * fs⌉ := by
  unfold fromTimeToSample checkFromTime
  rw [if_neg (not_lt.mpr h)]
  split
  · rename_i h1
    rw [max_eq_right (by linarith)]
    simp [toNSamples_ceil, bind, Except.bind, pure, Except.pure]
  · rename_i h1
    rw [max_eq_left (by linarith)]
    simp [toNSamples_ceil, bind, Except.bind, pure, Except.pure]

theorem fromTimeToSample_err {fs first last t : ℚ} (h : last < t) :
    fromTimeToSample fs first last t = .error .value := by
  unfold fromTimeToSample checkFromTime
  rw [if_pos h]; rfl

theorem toTimeToSample_ok {fs first last t : ℚ} (h : first ≤ t) :
    toTimeToSample fs first last t = .ok ⌊(min t last - first) * fs⌋ := by
  unfold toTimeToSample checkToTime
  rw [if_neg (not_lt.mpr h)]
  split
  · rename_i h1
    rw [min_eq_right (by linarith)]
    simp [toNSamples_floor, bind, Except.bind, pure, Except.pure]
  · rename_i h1
    rw [min_eq_left (by linarith)]
    simp [toNSamples_floor, bind, Except.bind, pure, Except.pure]

theorem toTimeToSample_err {fs first last t : ℚ} (h : t < first) :
    toTimeToSample fs first last t = .error .value := by
  unfold toTimeToSample checkToTime
  rw [if_pos h]; rfl

theorem pyRound_int (k : ℤ) : pyRound (k : ℚ) = k := by
  simp [pyRound]

theorem pyRound_near (x : ℚ) : |(pyRound x : ℚ) - x| ≤ 1 / 2 := by
  have h1 := Int.floor_le x
  have h2 := Int.lt_floor_add_one x
  unfold pyRound
  simp only
  split
  · rw [abs_le]
    constructor <;> linarith
  · split
    · push_cast
      rw [abs_le]
      constructor <;> linarith
    · split
      · rw [abs_le]
        constructor <;> linarith
      · push_cast
        rw [abs_le]
        constructor <;> linarith

end Resistics
