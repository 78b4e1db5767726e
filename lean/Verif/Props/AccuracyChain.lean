import Verif.Props.AccuracyRobust
import Verif.Props.EndToEndDemo

/-!
# C89: noise in a recording, through the whole chain
-/

namespace Resistics

open scoped ComplexConjugate
open Finset (range)

/-- Specification: the number of windows at the evaluation frequency number `k`, counted through the decimation levels. -/
def winsAt (p : DecParams ℚ) (evals : SpecData ℂ) (k : ℕ) : ℕ := ((evals.md.levels[k / p.perLevel]?).map fun lm => lm.nWins.toNat).getD 0

/-- Specification: the spectrum of a channel in the window `w` at the evaluation frequency number `k`. -/
noncomputable def spectrumAt (p : DecParams ℚ) (evals : SpecData ℂ) (k w : ℕ) (chan : String) : ℂ :=
  cellVal evals (k / p.perLevel) w chan (k % p.perLevel)

/-- Specification: in the recording, the samples of the channel `out` are those of the input channels times `z`, plus those of the channel `noise`. -/
def TimeData.Noisy (td : TimeData ℚ) (inC : List String) (z : ℕ → ℝ) (noise out : String) : Prop :=
  td.Exact (inC ++ [noise]) (fun i => if i < inC.length then z i else 1) out

/-- **C89**. Noise in the recording: an output channel holds a fixed real combination `z` of the input channels plus a noise (known from another channel of the recording, for example
because it is simulated).  After the time data processors, decimation, windowing, Fourier transform, spectra processors, evaluation frequencies, gathering and least
squares, the transfer function of `quick_tf` has at every evaluation frequency an error whose product with the gain of the inputs is at most the size of the spectra
of the noise times those of the cross channels. -/
theorem C89_noisy_recording (c : Config) (hc : c.LinearChain) (hls : LeastSquares c.getCoef) (hk : KeysDistinct c.tf)
    (hi : c.tf.inChans ≠ []) (hx : c.tf.crossChans ≠ []) (fs : FS ℂ) (dir : Path) (td : TimeData ℚ) (hread : c.quickRead fs dir = .ok td)
    (hs : c.Suits td) (p : DecParams ℚ) (evals : SpecData ℂ) (h : c.toEvals td.md.firstTime td = .ok (p, evals))
    (hwin : ∀ lm ∈ evals.md.levels, 0 < lm.nWins) :
    ∃ s Zh, c.quickTf fs dir none = .ok s ∧ s.Holds c.tf (evals.md.levels.map (·.freqs)).flatten Zh ∧
      ∀ (o : ℕ) (out noise : String) (z : ℕ → ℝ), c.tf.outChans[o]? = some out → noise ∈ td.md.chans → td.Noisy c.tf.inChans z noise out →
        ∀ k < s.freqs.length, ∀ σ : ℝ,
          Gain (winsAt p evals k) c.tf.crossChans.length c.tf.inChans.length
            (fun w i x => spectrumAt p evals k w (c.tf.inChans.getD i "") * conj (spectrumAt p evals k w (c.tf.crossChans.getD x ""))) σ →
          σ * size (range c.tf.inChans.length) (fun i => Zh k o i - z i) ≤
            size (equations (winsAt p evals k) c.tf.crossChans.length) fun q =>
              spectrumAt p evals k q.1 noise * conj (spectrumAt p evals k q.1 (c.tf.crossChans.getD q.2 "")) := by
  obtain ⟨a1, a2, a3, a4⟩ := exact_toEvals hc hs.consistent hs.two hs.rate h
  obtain ⟨g, nw, b1, b2, b3, b4⟩ := quick_gathered (pathName dir) p evals a1 (by rw [a2]; exact hs.chans) c.tf
    (by rw [a2]; exact hs.out) (by rw [a2]; exact hs.inp) (by rw [a2]; exact hs.cross) hs.counts.n_in hs.n_cross a3
  obtain ⟨r, s, Zh, e1, e2, e3, e4⟩ := C89_noise c.getCoef hls c.tf hs.counts hk hs.nodup hi hx g nw _ _ _ b3 (by
    intro k hk'
    obtain ⟨lm, l1, l2, -⟩ := b4 k hk'
    have := hwin lm (List.mem_of_getElem? l1)
    omega)
  rw [b2] at e3 b4 e4
  refine ⟨s, Zh, ?_, e3, ?_⟩
  · unfold Config.quickTf Config.solve Config.calibrateOpt
    simp only [hread, h, b1, e1, e2, bind, Except.bind]
  intro o out noise z ho hnoise hz k hk' σ hσ
  rw [e3.at_freqs] at hk'
  obtain ⟨lm, l1, l2, l3⟩ := b4 k hk'
  have hw : winsAt p evals k = nw k := by simp [winsAt, l1, l2]
  rw [hw] at hσ ⊢
  have ho' : o < c.tf.outChans.length := (List.getElem?_eq_some_iff.1 ho).1
  have hget : c.tf.outChans.getD o "" = out := by rw [List.getD_eq_getElem?_getD, ho]; rfl
  have hout : out ∈ td.md.chans := hs.out out (List.mem_of_getElem? ho)
  have hin : ∀ a ∈ c.tf.inChans ++ [noise], a ∈ td.md.chans := by
    intro a ha
    rcases List.mem_append.1 ha with ha | ha
    · exact hs.inp a ha
    · rw [List.mem_singleton.1 ha]; exact hnoise
  have key : ∀ w < nw k, spectrumAt p evals k w out - ∑ i ∈ range c.tf.inChans.length, (z i : ℂ) * spectrumAt p evals k w (c.tf.inChans.getD i "") =
      spectrumAt p evals k w noise := by
    intro w hw'
    have := cells_of_exact a1 (by rw [a2]; exact hout)
      (a4 _ _ _ hin hout ((exact_rows td hs.consistent hs.chans _ _ out hin hout).1 hz)) l1 (w := w) (by omega) l3
    rw [spectrumAt, this, List.length_append, List.length_singleton, Finset.sum_range_succ, add_comm, add_sub_assoc]
    have e0 : ∑ i ∈ range c.tf.inChans.length, (((if i < c.tf.inChans.length then z i else 1 : ℝ)) : ℂ) *
        cellVal evals (k / p.perLevel) w ((c.tf.inChans ++ [noise]).getD i "") (k % p.perLevel) =
        ∑ i ∈ range c.tf.inChans.length, (z i : ℂ) * spectrumAt p evals k w (c.tf.inChans.getD i "") := by
      refine Finset.sum_congr rfl fun i hi' => ?_
      have hi'' := Finset.mem_range.1 hi'
      rw [if_pos hi'', spectrumAt, List.getD_eq_getElem?_getD, List.getElem?_append_left hi'', ← List.getD_eq_getElem?_getD]
    rw [e0, sub_self, add_zero, if_neg (lt_irrefl _)]
    simp [spectrumAt]
  refine (e4 k hk' o ho' (fun i => (z i : ℂ)) σ hσ).trans (le_of_eq ?_)
  unfold size
  congr 1
  refine Finset.sum_congr rfl fun q hq => ?_
  rw [equations, Finset.mem_product, Finset.mem_range, Finset.mem_range] at hq
  show ‖(cellVal _ _ _ (c.tf.outChans.getD o "") _ - _) * _‖ ^ 2 = ‖spectrumAt p evals k q.1 noise * _‖ ^ 2
  rw [← key q.1 hq.1, hget]
  rfl

/-! Example: the output is three times the input plus a noise that is present in the first and the last sample. -/

def demoNoise : TimeData ℚ where
  md := { fs := 2, chans := ["Hx", "Ex", "N"], nSamples := 8, firstTime := 10, lastTime := 27 / 2 }
  data := [[1, 2, 3, 4, 5, 6, 7, 8], [4, 6, 9, 12, 15, 18, 21, 23], [1, 0, 0, 0, 0, 0, 0, -1]]

/-- a reader that finds the recording in every directory -/
def demoNoiseReader : TReader ℂ where
  name := "Demo"
  readMeta := fun _ _ => .ok demoNoise.md
  readData := fun _ _ _ _ => .ok demoNoise

noncomputable def demoNoiseConfig : Config := { demoConfig with readers := [demoNoiseReader] }

theorem demoNoiseConfig_linear : demoNoiseConfig.LinearChain where
  lawful := demoConfig_linear.lawful
  scipy := demoConfig_linear.scipy
  procs := demoConfig_linear.procs
  maxSingle := demoConfig_linear.maxSingle
  freqs := demoConfig_linear.freqs
  windower := demoConfig_linear.windower
  minNWins := demoConfig_linear.minNWins
  ft_length := demoConfig_linear.ft_length
  ft_linear := demoConfig_linear.ft_linear
  specProcs := demoConfig_linear.specProcs

theorem demoNoiseConfig_suits : demoNoiseConfig.Suits demoNoise where
  consistent := ⟨by decide, by decide, by decide, by decide +kernel⟩
  chans := by decide
  two := by decide
  out := by decide
  inp := by decide
  cross := by decide
  nodup := by decide
  counts := ⟨rfl, rfl⟩
  n_cross := rfl
  rate := by
    intro tdp h
    simp only [demoNoiseConfig, demoConfig, runTimeProcessors, List.foldlM_cons, List.foldlM_nil, Proc.run, bind, Except.bind, except_pure_ok] at h
    subst h
    show (2 : ℚ) ≤ 10 ^ 13
    norm_num

theorem demoNoise_noisy : demoNoise.Noisy demoTf.inChans (fun _ => 3) "N" "Ex" := by
  refine ⟨fun i => if i = 0 then [1, 2, 3, 4, 5, 6, 7, 8] else [1, 0, 0, 0, 0, 0, 0, -1], [4, 6, 9, 12, 15, 18, 21, 23], ?_, by decide +kernel, ?_⟩
  · intro i hi
    have : i = 0 ∨ i = 1 := by simp [demoTf] at hi; omega
    rcases this with rfl | rfl <;> decide +kernel
  · refine ⟨fun i _ => by by_cases h : i = 0 <;> simp [h, complexRow], fun k hk => ?_⟩
    have hk8 : k < 8 := by simpa [complexRow] using hk
    simp only [complexRow_getD, demoTf, List.length_append, List.length_singleton, Finset.sum_range_succ, Finset.sum_range_zero]
    interval_cases k <;> norm_num

/-- the windows of the demonstration -/
def demoNoiseWin : WinData ℚ where
  md := {
    fs := [2]
    chans := ["Hx", "Ex", "N"]
    nLevels := 1
    firstTime := 10
    lastTime := 27 / 2
    levels := [⟨2, 3, 4, 2, 0⟩]
    refTime := 10
    history := ["RemoveMean", "Decimator", "Windower"] }
  data := [(0, .d3 [[[-7/2, -5/2, -3/2, -1/2], [-19/2, -15/2, -9/2, -3/2], [1, 0, 0, 0]],
    [[-3/2, -1/2, 1/2, 3/2], [-9/2, -3/2, 3/2, 9/2], [0, 0, 0, 0]],
    [[1/2, 3/2, 5/2, 7/2], [3/2, 9/2, 15/2, 19/2], [0, 0, 0, -1]]])]

/-- time data to windows -/
def demoNoiseToWindows : Except Err (DecParams ℚ × WinData ℚ) := do
  let td ← runTimeProcessors demoSciPy [.removeMean] demoNoise
  let p ← DecSetup.run (K := ℚ) { nLevels := 1, perLevel := 1, minSamples := 1, evalFreqs := some [1 / 2] }
    (fun _ n => List.replicate n 1) td.md.fs
  let dec ← Decimator.run demoSciPy false 3 p td
  let wp ← WindowSetup.run { minNWins := 2, winSizes := some [4], olapSizes := some [2] } dec.md.nLevels dec.md.fs
  let win ← windowerRun 10 wp dec
  return (p, win)

theorem demoNoiseToWindows_eq : demoNoiseToWindows = .ok (demoLinParams, demoNoiseWin) := by decide +kernel

theorem demoNoiseWin_shaped : demoNoiseWin.Shaped := by
  refine ⟨rfl, by decide, ?_⟩
  intro i lm h
  cases i with
  | zero =>
    rw [show demoNoiseWin.md.levels[0]? = some ⟨2, 3, 4, 2, 0⟩ from rfl, Option.some.injEq] at h
    subst h
    exact ⟨_, rfl, rfl, by decide⟩
  | succ i => simp [demoNoiseWin] at h

/-- the chain succeeds; the spectra are -8, 0 and 8 of the input and 1, 0 and -1 of the noise -/
theorem demoNoise_evals : ∃ evals lm, demoNoiseConfig.toEvals 10 demoNoise = .ok (demoLinParams, evals) ∧
    evals.md.levels = [lm] ∧ lm.nWins = 3 ∧ lm.freqs = [1 / 2] ∧
    (∀ w < 3, cellVal evals 0 w "Hx" 0 = 8 * (w : ℂ) - 8) ∧ (∀ w < 3, cellVal evals 0 w "N" 0 = 1 - (w : ℂ)) := by
  obtain ⟨spec, a1, a2, a3, a4, -, a5⟩ := C51_fourier_run id sumTransform (fun n row => by simp [sumTransform]) demoNoiseWin
    demoNoiseWin_shaped
  obtain ⟨wins, slm, b1, b2, b3, b4, -, b5, -⟩ := a5 0 ⟨2, 3, 4, 2, 0⟩ rfl
  have hfreq : rfftfreq 4 2 = [0, 1 / 2, 1] := by decide +kernel
  have b4' : slm.freqs = [0, 1 / 2, 1] := b4.trans hfreq
  have hgrid : ∀ lm ∈ spec.md.levels, lm.freqs.Pairwise (· < ·) ∧ 0 < lm.freqs.length := by
    intro lm hlm
    obtain ⟨i, hi, rfl⟩ := List.mem_iff_getElem.1 hlm
    have : i = 0 := by
      rw [a2.n_levels, a4] at hi
      change i < 1 at hi
      omega
    subst this
    rw [List.getElem?_eq_getElem hi, Option.some.injEq] at b3
    rw [b3, b4']
    constructor
    · norm_num
    · simp
  obtain ⟨evals, c1, c2, c3, c4, -, c5⟩ := C27_evaluation demoLinParams spec a2 hgrid (by rw [a4]; decide)
  obtain ⟨ef, arr, arr', lm, d1, d2, d3, d4, d5, d6, -, -, -, -, d7⟩ := c5 0 slm b3
  have hef : ef = [1 / 2] := by
    have : demoLinParams.getEvalFreqs 0 = .ok [1 / 2] := by decide +kernel
    rw [show ((0 : ℕ) : ℤ) = 0 from rfl, this, Except.ok.injEq] at d1
    exact d1.symm
  rw [b2, Except.ok.injEq] at d2
  rw [show demoNoiseWin.getLevel ((0 : ℕ) : ℤ) = .ok (.d3 _) from rfl, Except.ok.injEq, WinArr.d3.injEq] at b1
  have hcell : ∀ (w c : ℕ) (chan : String) (win : List (List ℂ)) (row : List ℚ), demoNoiseWin.md.chans.idxOf chan = c → arr[w]? = some win →
      win[c]? = some (sumTransform 4 row) → cellVal evals 0 w chan 0 = ((row.sum : ℚ) : ℂ) := by
    intro w c chan win row hchan hw hc
    obtain ⟨w', r', v, e1, e2, e3, e4⟩ := d7 w c 0 win (sumTransform 4 row) (1 / 2) hw hc (by rw [hef]; rfl)
    have hv : v = ((row.sum : ℚ) : ℂ) := by
      have := e4.1 0 0 (1 / 2) ((row.sum : ℚ) : ℂ) ((row.sum : ℚ) : ℂ) (by rw [b4']; rfl) (by rw [b4']; rfl)
        (by simp [sumTransform]) (by simp [sumTransform]) (by norm_num) (by norm_num)
      rw [this]
      simp
    unfold cellVal
    rw [lookup_of_getLevel d3, c3, a3, hchan]
    simp only [Option.getD_some, List.getD_eq_getElem?_getD, e1, e2, e3, hv]
  have hl : evals.md.levels.length = 1 := by rw [c2.n_levels, c4, a4]; rfl
  refine ⟨evals, lm, ?_, ?_, by rw [d6, b5], by rw [d5, hef], ?_, ?_⟩
  · have hw := demoNoiseToWindows_eq
    unfold demoNoiseToWindows at hw
    simp only [except_bind_ok, except_pure_ok, Prod.mk.injEq] at hw
    obtain ⟨td, h1, p, h2, dec, h3, wp, h4, win, h5, h6, h7⟩ := hw
    subst h6 h7
    unfold Config.toEvals Config.toSpectra Config.processSpectra Config.window Config.decimate
    simp only [except_bind_ok, except_pure_ok]
    refine ⟨(demoLinParams, spec), ⟨td, h1, demoLinParams, h2, dec, h3, demoNoiseWin, ⟨wp, h4, h5⟩, spec, a1, rfl⟩, spec, rfl, evals, c1, rfl⟩
  · obtain ⟨hi, he⟩ := List.getElem?_eq_some_iff.1 d4
    match hE : evals.md.levels, hl with
    | [x], _ => simp [hE] at he; rw [he]
  · intro w hw
    interval_cases w
    · rw [hcell 0 0 "Hx" _ [-7/2, -5/2, -3/2, -1/2] (by decide) (by rw [← d2, ← b1]; rfl) rfl]; norm_num
    · rw [hcell 1 0 "Hx" _ [-3/2, -1/2, 1/2, 3/2] (by decide) (by rw [← d2, ← b1]; rfl) rfl]; norm_num
    · rw [hcell 2 0 "Hx" _ [1/2, 3/2, 5/2, 7/2] (by decide) (by rw [← d2, ← b1]; rfl) rfl]; norm_num
  · intro w hw
    interval_cases w
    · rw [hcell 0 2 "N" _ [1, 0, 0, 0] (by decide) (by rw [← d2, ← b1]; rfl) rfl]; norm_num
    · rw [hcell 1 2 "N" _ [0, 0, 0, 0] (by decide) (by rw [← d2, ← b1]; rfl) rfl]; norm_num
    · rw [hcell 2 2 "N" _ [0, 0, 0, -1] (by decide) (by rw [← d2, ← b1]; rfl) rfl]; norm_num

/-- The estimate is within 1/8 of the true factor 3 (and no nearer: least squares gives 23/8). -/
example (fs : FS ℂ) (dir : Path) : ∃ s Zh, demoNoiseConfig.quickTf fs dir none = .ok s ∧ s.freqs = [1 / 2] ∧
    s.getComponent "ExHx" = .ok [Zh] ∧ ‖Zh - 3‖ ≤ 1 / 8 := by
  obtain ⟨evals, lm, h, hlm, hw, hf, hv, hn⟩ := demoNoise_evals
  have hread : demoNoiseConfig.quickRead fs dir = .ok demoNoise := rfl
  obtain ⟨s, Zh, h1, h2, h3⟩ := C89_noisy_recording demoNoiseConfig demoNoiseConfig_linear someLeastSquares_spec (by
      intro o o' i i' a a' b b' h1 h2 h3 h4 _
      have e1 := (List.getElem?_eq_some_iff.1 h1).1
      have e2 := (List.getElem?_eq_some_iff.1 h2).1
      have e3 := (List.getElem?_eq_some_iff.1 h3).1
      have e4 := (List.getElem?_eq_some_iff.1 h4).1
      simp [demoNoiseConfig, demoConfig, demoTf] at e1 e2 e3 e4
      omega) (by decide) (by decide) fs dir demoNoise hread demoNoiseConfig_suits demoLinParams evals h (by simp [hlm, hw])
  have hfr : s.freqs = [1 / 2] := by rw [h2.at_freqs, hlm]; simp [hf]
  have hwins : winsAt demoLinParams evals 0 = 3 := by simp [winsAt, hlm, hw]
  have hH : ∀ w < 3, spectrumAt demoLinParams evals 0 w "Hx" = 8 * (w : ℂ) - 8 := hv
  have hN : ∀ w < 3, spectrumAt demoLinParams evals 0 w "N" = 1 - (w : ℂ) := hn
  have hb := h3 0 "Ex" "N" (fun _ => 3) rfl (by decide) demoNoise_noisy 0 (by rw [hfr]; decide) (√8192) (by
    rw [hwins]
    intro W
    refine Real.le_sqrt_of_sq_le ?_
    have e1 : size (range (demoNoiseConfig.tf.inChans.length)) W ^ 2 = ‖W 0‖ ^ 2 := by
      rw [size, Real.sq_sqrt (Finset.sum_nonneg fun _ _ => sq_nonneg _)]
      show ∑ p ∈ range 1, ‖W p‖ ^ 2 = _
      simp
    rw [mul_pow, Real.sq_sqrt (by norm_num), e1]
    show _ ≤ ∑ p ∈ equations 3 1, ‖∑ i ∈ range 1, W i * (spectrumAt demoLinParams evals 0 p.1 (["Hx"].getD i "") *
      conj (spectrumAt demoLinParams evals 0 p.1 (["Hx"].getD p.2 "")))‖ ^ 2
    simp only [equations, Finset.sum_product, Finset.sum_range_succ, Finset.sum_range_zero, List.getD_cons_zero, zero_add]
    rw [hH 0 (by norm_num), hH 1 (by norm_num), hH 2 (by norm_num)]
    simp only [norm_mul, mul_pow, Complex.norm_conj]
    norm_num
    nlinarith [sq_nonneg ‖W 0‖])
  rw [hwins] at hb
  have e2 : (size (equations 3 demoNoiseConfig.tf.crossChans.length) fun q => spectrumAt demoLinParams evals 0 q.1 "N" *
      conj (spectrumAt demoLinParams evals 0 q.1 (demoNoiseConfig.tf.crossChans.getD q.2 ""))) = √128 := by
    unfold size
    congr 1
    show ∑ p ∈ equations 3 1, ‖spectrumAt demoLinParams evals 0 p.1 "N" * conj (spectrumAt demoLinParams evals 0 p.1 (["Hx"].getD p.2 ""))‖ ^ 2 = _
    simp only [equations, Finset.sum_product, Finset.sum_range_succ, Finset.sum_range_zero, List.getD_cons_zero, zero_add]
    rw [hH 0 (by norm_num), hH 1 (by norm_num), hH 2 (by norm_num), hN 0 (by norm_num), hN 1 (by norm_num), hN 2 (by norm_num)]
    simp only [norm_mul, mul_pow, Complex.norm_conj]
    norm_num
  have e3 : (size (range demoNoiseConfig.tf.inChans.length) fun i => Zh 0 0 i - ((3 : ℝ) : ℂ)) = ‖Zh 0 0 0 - 3‖ := by
    show √(∑ p ∈ range 1, ‖Zh 0 0 p - ((3 : ℝ) : ℂ)‖ ^ 2) = _
    rw [Finset.sum_range_one, Real.sqrt_sq (norm_nonneg _)]
    norm_num
  rw [e2, e3] at hb
  refine ⟨s, Zh 0 0 0, h1, hfr, ?_, ?_⟩
  · have := h2.component 0 0 "Ex" "Hx" rfl rfl
    rw [hlm] at this
    simpa [hf] using this
  · have h8 : √(8192 : ℝ) = 8 * √128 := by
      rw [show (8192 : ℝ) = 8 ^ 2 * 128 by norm_num, Real.sqrt_mul (by norm_num), Real.sqrt_sq (by norm_num)]
    rw [h8] at hb
    have hpos : 0 < √(128 : ℝ) := by positivity
    by_contra hcon
    push Not at hcon
    nlinarith

end Resistics
