import Verif.Props.EndToEnd

/-!
# A concrete run of the whole chain (C50)

The recording has an input channel and an output channel three times as large.  The configuration removes the mean,
decimates, windows, transforms (with a simple linear transform), evaluates, gathers and solves.
-/

namespace Resistics

open Finset (range)

theorem linear_of_functional {f : List ℚ → Except Err (List ℚ)} (m : ℕ → ℕ) (φ : ℕ → ℕ → ℕ)
    (h : ∀ row row', f row = .ok row' → row' = (List.range (m row.length)).map fun k => (row[φ row.length k]?).getD 0) :
    LinearOnRows f := by
  intro n z ins out ins' out' hc hi ho
  refine IsCombo.linear hc (m := m out.length) (fun k => LinearMap.proj (φ out.length k)) ?_ ?_
  · intro i hin
    have hl : (ins i).length = out.length := by simpa [complexRow] using hc.len i hin
    rw [h _ _ (hi i hin), hl]
    refine ⟨by simp [complexRow], fun k hk => ?_⟩
    simp only [complexRow_getD, LinearMap.proj_apply]
    rw [List.getD_eq_getElem?_getD, List.getElem?_map, List.getElem?_range hk, List.getD_eq_getElem?_getD]
    rfl
  · rw [h _ _ ho]
    refine ⟨by simp [complexRow], fun k hk => ?_⟩
    simp only [complexRow_getD, LinearMap.proj_apply]
    rw [List.getD_eq_getElem?_getD, List.getElem?_map, List.getElem?_range hk, List.getD_eq_getElem?_getD]
    rfl

/-- the routines of the demonstration are linear -/
theorem demoSciPy_linear : demoSciPy.Linear where
  sosfilt := fun _ _ _ => LinearOnRows.id
  decimate := fun q => linear_of_functional (fun l => (l + q - 1) / q) (fun _ i => i * q) fun row row' h => by
    simp only [demoSciPy, Except.ok.injEq] at h
    exact h.symm
  resample := fun u d => linear_of_functional (fun l => (l * u + d - 1) / d) (fun _ i => i * d / u) fun row row' h => by
    simp only [demoSciPy, Except.ok.injEq] at h
    exact h.symm

/-- a linear transform: the sum of the row at every frequency -/
noncomputable def sumTransform (n : ℕ) (row : List ℚ) : List ℂ := List.replicate (n / 2 + 1) ((row.sum : ℚ) : ℂ)

theorem sumTransform_linear (n : ℕ) : LinearTransform (sumTransform n) := by
  intro m z ins out h
  have hsum : ∀ l : List ℚ, ((l.sum : ℚ) : ℂ) = ∑ j ∈ range l.length, (complexRow l).getD j 0 := by
    intro l
    induction l with
    | nil => simp
    | cons x l ih =>
      rw [List.sum_cons, List.length_cons, Finset.sum_range_succ', Rat.cast_add, ih]
      simp [complexRow, add_comm]
  refine ⟨fun i _ => by simp [sumTransform], fun k hk => ?_⟩
  simp only [sumTransform, List.length_replicate] at hk
  have hg : ∀ l : List ℚ, (sumTransform n l).getD k 0 = ((l.sum : ℚ) : ℂ) := by
    intro l
    rw [getD_get (by simpa [sumTransform] using hk)]
    simp [sumTransform]
  simp only [hg]
  rw [hsum out]
  simp only [h.all]
  rw [Finset.sum_comm]
  refine Finset.sum_congr rfl fun i hi => ?_
  have hl : (ins i).length = out.length := by simpa [complexRow] using h.len i (Finset.mem_range.1 hi)
  rw [hsum (ins i), hl, Finset.mul_sum]

/-- a recording in which the output is three times the input -/
def demoLin : TimeData ℚ where
  md := { fs := 2, chans := ["Hx", "Ex"], nSamples := 8, firstTime := 10, lastTime := 27 / 2 }
  data := [[1, 2, 3, 4, 5, 6, 7, 8], [3, 6, 9, 12, 15, 18, 21, 24]]

/-- one input and one output channel -/
def demoTf : TransFunc where
  name := "Demo"
  variation := "default"
  outChans := ["Ex"]
  inChans := ["Hx"]
  crossChans := ["Hx"]
  nOut := 1
  nIn := 1
  nCross := 1

/-- a reader that finds the recording in every directory -/
def demoLinReader : TReader ℂ where
  name := "Demo"
  readMeta := fun _ _ => .ok demoLin.md
  readData := fun _ _ _ _ => .ok demoLin

/-- the configuration of the demonstration -/
noncomputable def demoConfig : Config where
  name := "demo"
  readers := [demoLinReader]
  sp := demoSciPy
  timeProcs := [.removeMean]
  decSetup := { nLevels := 1, perLevel := 1, minSamples := 1, evalFreqs := some [1 / 2] }
  defaultFreqs := fun _ n => List.replicate n 1
  useResample := false
  maxSingle := 3
  winSetup := { minNWins := 2, winSizes := some [4], olapSizes := some [2] }
  windower := windowerRun
  nfl := id
  ft := sumTransform
  specProcs := []
  calibrate := fun _ _ s => .ok s
  tf := demoTf
  getCoef := someLeastSquares

theorem demoConfig_linear : demoConfig.LinearChain where
  lawful := demoSciPy_lawful
  scipy := demoSciPy_linear
  procs := by
    intro p hp
    simp only [demoConfig, List.mem_singleton] at hp
    subst hp
    exact ⟨trivial, trivial⟩
  maxSingle := by decide
  freqs := fun _ n => by simp [demoConfig]
  windower := Or.inl rfl
  minNWins := by decide
  ft_length := fun n row => by simp [demoConfig, sumTransform]
  ft_linear := sumTransform_linear
  specProcs := by simp [demoConfig]

theorem demoConfig_suits : demoConfig.Suits demoLin where
  consistent := ⟨by decide, by decide, by decide, by decide +kernel⟩
  chans := by decide
  two := by decide
  out := by decide
  inp := by decide
  cross := by decide
  nodup := by decide
  counts := ⟨rfl, rfl⟩
  n_cross := rfl
  rate := by
    intro tdp h
    simp only [demoConfig, runTimeProcessors, List.foldlM_cons, List.foldlM_nil, Proc.run, bind, Except.bind, except_pure_ok] at h
    subst h
    show (2 : ℚ) ≤ 10 ^ 13
    norm_num

theorem demoLin_exact : demoLin.Exact demoTf.inChans (fun _ => 3) "Ex" := by
  refine ⟨fun _ => [1, 2, 3, 4, 5, 6, 7, 8], [3, 6, 9, 12, 15, 18, 21, 24], ?_, by decide +kernel, ?_⟩
  · intro i hi
    have : i = 0 := by simp [demoTf] at hi; omega
    subst this
    decide +kernel
  · refine ⟨fun i _ => by simp [complexRow], fun k hk => ?_⟩
    have hk8 : k < 8 := by simpa [complexRow] using hk
    simp only [complexRow_getD, demoTf, List.length_singleton, Finset.sum_range_one]
    interval_cases k <;> norm_num

/-- the windows of the demonstration -/
def demoLinWin : WinData ℚ where
  md := {
    fs := [2]
    chans := ["Hx", "Ex"]
    nLevels := 1
    firstTime := 10
    lastTime := 27 / 2
    levels := [⟨2, 3, 4, 2, 0⟩]
    refTime := 10
    history := ["RemoveMean", "Decimator", "Windower"] }
  data := [(0, .d3 [[[-7/2, -5/2, -3/2, -1/2], [-21/2, -15/2, -9/2, -3/2]], [[-3/2, -1/2, 1/2, 3/2], [-9/2, -3/2, 3/2, 9/2]],
    [[1/2, 3/2, 5/2, 7/2], [3/2, 9/2, 15/2, 21/2]]])]

/-- the decimation parameters of the demonstration -/
def demoLinParams : DecParams ℚ where
  fs := 2
  nLevels := 1
  perLevel := 1
  minSamples := 1
  evalFreqs := [1 / 2]
  decFactors := [1]
  decIncrements := [1]
  decFs := [2]

/-- time data to windows -/
def demoToWindows : Except Err (DecParams ℚ × WinData ℚ) := do
  let td ← runTimeProcessors demoSciPy [.removeMean] demoLin
  let p ← DecSetup.run (K := ℚ) { nLevels := 1, perLevel := 1, minSamples := 1, evalFreqs := some [1 / 2] }
    (fun _ n => List.replicate n 1) td.md.fs
  let dec ← Decimator.run demoSciPy false 3 p td
  let wp ← WindowSetup.run { minNWins := 2, winSizes := some [4], olapSizes := some [2] } dec.md.nLevels dec.md.fs
  let win ← windowerRun 10 wp dec
  return (p, win)

theorem demoToWindows_eq : demoToWindows = .ok (demoLinParams, demoLinWin) := by decide +kernel

theorem demoLinWin_shaped : demoLinWin.Shaped := by
  refine ⟨rfl, by decide, ?_⟩
  intro i lm h
  cases i with
  | zero =>
    rw [show demoLinWin.md.levels[0]? = some ⟨2, 3, 4, 2, 0⟩ from rfl, Option.some.injEq] at h
    subst h
    exact ⟨_, rfl, rfl, by decide⟩
  | succ i => simp [demoLinWin] at h

/-- the chain succeeds, and the first window of the input channel has the value -8 -/
theorem demo_evals : ∃ evals lm, demoConfig.toEvals 10 demoLin = .ok (demoLinParams, evals) ∧
    evals.md.levels[0]? = some lm ∧ evals.md.nLevels = 1 ∧ lm.nWins = 3 ∧ lm.freqs = [1 / 2] ∧
    cellVal evals 0 0 "Hx" 0 = -8 := by
  obtain ⟨spec, a1, a2, a3, a4, -, a5⟩ := C51_fourier_run id sumTransform (fun n row => by simp [sumTransform]) demoLinWin
    demoLinWin_shaped
  obtain ⟨wins, slm, b1, b2, b3, b4, -, b5, -⟩ := a5 0 ⟨2, 3, 4, 2, 0⟩ rfl
  have hfreq : rfftfreq 4 2 = [0, 1 / 2, 1] := by decide +kernel
  have b4' : slm.freqs = [0, 1 / 2, 1] := b4.trans hfreq
  have hgrid : ∀ lm ∈ spec.md.levels, lm.freqs.Pairwise (· < ·) ∧ 0 < lm.freqs.length := by
    intro lm hlm
    obtain ⟨i, hi, rfl⟩ := List.mem_iff_getElem.1 hlm
    have : i = 0 := by
      rw [a2.n_levels, a4] at hi
      change i < 1 at hi
      omega
    subst this
    rw [List.getElem?_eq_getElem hi, Option.some.injEq] at b3
    rw [b3, b4']
    constructor
    · norm_num
    · simp
  obtain ⟨evals, c1, c2, c3, c4, -, c5⟩ := C27_evaluation demoLinParams spec a2 hgrid (by rw [a4]; decide)
  obtain ⟨ef, arr, arr', lm, d1, d2, d3, d4, d5, d6, -, -, -, -, d7⟩ := c5 0 slm b3
  have hef : ef = [1 / 2] := by
    have : demoLinParams.getEvalFreqs 0 = .ok [1 / 2] := by decide +kernel
    rw [show ((0 : ℕ) : ℤ) = 0 from rfl, this, Except.ok.injEq] at d1
    exact d1.symm
  rw [b2, Except.ok.injEq] at d2
  rw [show demoLinWin.getLevel ((0 : ℕ) : ℤ) = .ok (.d3 _) from rfl, Except.ok.injEq, WinArr.d3.injEq] at b1
  refine ⟨evals, lm, ?_, d4, by rw [c4, a4]; rfl, by rw [d6, b5], by rw [d5, hef], ?_⟩
  · have hw := demoToWindows_eq
    unfold demoToWindows at hw
    simp only [except_bind_ok, except_pure_ok, Prod.mk.injEq] at hw
    obtain ⟨td, h1, p, h2, dec, h3, wp, h4, win, h5, h6, h7⟩ := hw
    subst h6 h7
    unfold Config.toEvals Config.toSpectra Config.processSpectra Config.window Config.decimate
    simp only [except_bind_ok, except_pure_ok]
    refine ⟨(demoLinParams, spec), ⟨td, h1, demoLinParams, h2, dec, h3, demoLinWin, ⟨wp, h4, h5⟩, spec, a1, rfl⟩, spec, rfl, evals, c1, rfl⟩
  · obtain ⟨w', r', v, e1, e2, e3, e4⟩ := d7 0 0 0 _ (sumTransform 4 [-7/2, -5/2, -3/2, -1/2]) (1 / 2)
      (by rw [← d2, ← b1]; rfl) rfl (by rw [hef]; rfl)
    have hv : v = -8 := by
      have := e4.1 0 0 (1 / 2) (-8) (-8) (by rw [b4']; rfl) (by rw [b4']; rfl)
        (by simp [sumTransform]; norm_num) (by simp [sumTransform]; norm_num) (by norm_num) (by norm_num)
      rw [this]
      simp
    unfold cellVal
    rw [lookup_of_getLevel d3, c3, a3]
    rw [show demoLinWin.md.chans.idxOf "Hx" = 0 from rfl]
    simp only [Option.getD_some, List.getD_eq_getElem?_getD, e1, e2, e3, hv]

/-- the predictors determine the transfer function -/
theorem demo_determined (evals : SpecData ℂ) (lm : SpecLevelMeta) (h : demoConfig.toEvals 10 demoLin = .ok (demoLinParams, evals))
    (hlm : evals.md.levels[0]? = some lm) (hn : evals.md.nLevels = 1) (hw : lm.nWins = 3) (hf : lm.freqs = [1 / 2])
    (hv : cellVal evals 0 0 "Hx" 0 = -8) (name : String) :
    ∀ g r, quickGather name demoLinParams demoTf.gatherChans evals = .ok g → prepareGathered demoTf g = .ok r →
      ∀ k < r.freqs.length, ∀ out ∈ demoTf.outChans, ∀ obs preds, r.getInputs k out = .ok (obs, preds) →
        Determined demoTf.inChans.length preds := by
  obtain ⟨a1, a2, a3, -⟩ := exact_toEvals demoConfig_linear demoConfig_suits.consistent demoConfig_suits.two
    demoConfig_suits.rate h
  obtain ⟨g, nw, b1, b2, b3, b4⟩ := quick_gathered name demoLinParams evals a1 (by rw [a2]; exact demoConfig_suits.chans) demoTf
    (by rw [a2]; exact demoConfig_suits.out) (by rw [a2]; exact demoConfig_suits.inp) (by rw [a2]; exact demoConfig_suits.cross)
    rfl rfl a3
  obtain ⟨r, hr, -, hrf, hrows⟩ := C33_rows demoTf demoConfig_suits.nodup g nw _ _ _ b3
  intro g' r' hg hr' k hk out hout obs preds hin
  rw [b1, Except.ok.injEq] at hg
  subst hg
  rw [hr, Except.ok.injEq] at hr'
  subst hr'
  have hlen : r.freqs.length = 1 := by
    rw [hrf, b2, flatten_freqs_length _ 1 a3, a1.n_levels, hn]
  have hk0 : k = 0 := by omega
  subst hk0
  have hout' : demoTf.outChans[0]? = some out := by
    have : out = "Ex" := by simpa [demoTf] using hout
    rw [this]; rfl
  obtain ⟨obs', preds', e1, -, e3, -⟩ := hrows 0 (by rw [← hrf]; exact hk) 0 out hout'
  rw [hin, Except.ok.injEq, Prod.mk.injEq] at e1
  obtain ⟨rfl, rfl⟩ := e1
  obtain ⟨lm', f1, f2, -⟩ := b4 0 (by rw [← hrf]; exact hk)
  rw [show 0 / demoLinParams.perLevel = 0 from rfl, hlm, Option.some.injEq] at f1
  subst f1
  intro W W' hWW i hi
  have hi0 : i = 0 := by simp [demoTf] at hi; omega
  subst hi0
  rw [e3, e3, complexRows_inj] at hWW
  have := hWW 0 (by rw [f2, hw]; decide) 0 (by decide)
  have hcell : cellVal evals (0 / demoLinParams.perLevel) 0 (demoTf.inChans.getD 0 "") (0 % demoLinParams.perLevel) = -8 := hv
  have hcell' : cellVal evals (0 / demoLinParams.perLevel) 0 (demoTf.crossChans.getD 0 "") (0 % demoLinParams.perLevel) = -8 := hv
  rw [show demoTf.inChans.length = 1 from rfl, Finset.sum_range_one, Finset.sum_range_one, hcell, hcell'] at this
  simpa using this

/-- **C50** on the demonstration: `quick_tf` estimates the factor three. -/
example (fs : FS ℂ) (dir : Path) : ∃ s, demoConfig.quickTf fs dir none = .ok s ∧ s.freqs = [1 / 2] ∧
    s.getComponent "ExHx" = .ok [3] := by
  obtain ⟨evals, lm, h, hlm, hn, hw, hf, hv⟩ := demo_evals
  have hread : demoConfig.quickRead fs dir = .ok demoLin := rfl
  obtain ⟨s, s1, s2, s3, -⟩ := C50_recovered demoConfig demoConfig_linear (C33_least_squares_fits someLeastSquares_spec) (by
      intro o o' i i' a a' b b' h1 h2 h3 h4 _
      have e1 := (List.getElem?_eq_some_iff.1 h1).1
      have e2 := (List.getElem?_eq_some_iff.1 h2).1
      have e3 := (List.getElem?_eq_some_iff.1 h3).1
      have e4 := (List.getElem?_eq_some_iff.1 h4).1
      simp [demoConfig, demoTf] at e1 e2 e3 e4
      omega) (by decide) fs dir demoLin hread demoConfig_suits demoLinParams evals h
    (demo_determined evals lm h hlm hn hw hf hv (pathName dir)) (fun _ _ => 3) (by
      intro o out ho
      have hout : out = "Ex" := by simpa [demoConfig, demoTf] using List.mem_of_getElem? ho
      rw [hout]
      exact demoLin_exact)
  have hfr : s.freqs = [1 / 2] := by
    rw [s2]
    obtain ⟨a1, -⟩ := exact_toEvals demoConfig_linear demoConfig_suits.consistent demoConfig_suits.two demoConfig_suits.rate h
    have hl : evals.md.levels.length = 1 := by rw [a1.n_levels, hn]
    have : evals.md.levels = [lm] := by
      obtain ⟨hi, he⟩ := List.getElem?_eq_some_iff.1 hlm
      match hE : evals.md.levels, hl with
      | [x], _ => simp [hE] at he; rw [he]
    rw [this]
    simp [hf]
  refine ⟨s, s1, hfr, ?_⟩
  have := s3 0 0 "Ex" "Hx" rfl rfl
  rw [hfr] at this
  simpa using this

end Resistics
