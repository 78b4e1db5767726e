import Verif.Lemmas.Lists
import Verif.Lemmas.Sampling
import Verif.Model.Time

/-! Helper lemmas about the time data model. -/

namespace Resistics

theorem adjust_ok {md : TimeMeta} {fs first : ℚ} {n : ℤ} (h : fs ≠ 0) :
    adjustTimeMetadata md fs first n = .ok { md with
      fs := fs, firstTime := first, nSamples := n,
      lastTime := first + toTimedelta (1 / fs) * ((n - 1 : ℤ) : ℚ) } := by
  simp only [adjustTimeMetadata, pyRecip_ok h, bind, Except.bind, pure, Except.pure]

theorem getReturnMetadata_ok {md : TimeMeta} {a b : ℤ} (h : md.fs ≠ 0) :
    getReturnMetadata md a b = .ok { md with
      firstTime := md.firstTime + a * toTimedelta (1 / md.fs), nSamples := b - a + 1,
      lastTime := md.firstTime + a * toTimedelta (1 / md.fs)
        + toTimedelta (1 / md.fs) * ((b - a + 1 - 1 : ℤ) : ℚ) } := by
  simp only [getReturnMetadata, sampleToDatetime_ok h, bind, Except.bind, adjust_ok h]

/-- The time data made of samples `a..b` of `td` (used in proofs only). -/
def slicedTD {V : Type} (td : TimeData V) (a b : ℤ) (name : String) : TimeData V where
  md :=
    { fs := td.md.fs
      chans := td.md.chans
      nSamples := b - a + 1
      firstTime := td.md.firstTime + a * toTimedelta (1 / td.md.fs)
      lastTime := td.md.firstTime + a * toTimedelta (1 / td.md.fs)
        + toTimedelta (1 / td.md.fs) * ((b - a + 1 - 1 : ℤ) : ℚ)
      history := td.md.history ++ [name] }
  data := td.data.map fun row => pySlice row a (b + 1)

theorem checkSample_ok {n s : ℤ} (h0 : 0 ≤ s) (h1 : s < n) : checkSample n s = .ok true := by
  unfold checkSample; rw [if_neg (by omega), if_neg (by omega)]

theorem checkSample_err {n s : ℤ} (h : s < 0 ∨ n ≤ s) : checkSample n s = .error .value := by
  unfold checkSample
  split
  · rfl
  · rw [if_pos (by omega)]

end Resistics
