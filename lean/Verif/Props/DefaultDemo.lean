import Verif.Props.Default
import Verif.Props.EndToEndDemo

/-!
# A concrete run of the default configuration (C63)
-/

namespace Resistics

open Finset (range)
open scoped ComplexConjugate

/-- **C63**. The transfer function of the default configuration is the built-in impedance tensor. -/
theorem C63_transfer_function : mkTransFunc tfImpedance {} = .ok impedanceTensor := C37_builtin.1

/-- evaluation frequencies with three quarters in place of the square root of one half -/
def demoLadder (fs : ℚ) (n : ℕ) : List ℚ :=
  (List.range n).map fun j => fs / 4 / 2 ^ (j / 2) * if j % 2 = 0 then 1 else 3 / 4

theorem demoDefaultEnv : DefaultEnv demoSciPy demoLadder id where
  lawful := demoSciPy_lawful
  small := fun x _ => rfl
  length := fun fs n => by simp [demoLadder]
  ladder := by
    intro fs n hfs
    constructor
    · intro i f h
      simp only [demoLadder, List.getElem?_map, Option.map_eq_some_iff] at h
      obtain ⟨j, hj, rfl⟩ := h
      obtain ⟨hlt, rfl⟩ := List.getElem?_eq_some_iff.1 hj
      simp
    · intro i f h
      simp only [demoLadder, List.getElem?_map, Option.map_eq_some_iff] at h
      obtain ⟨j, hj, rfl⟩ := h
      obtain ⟨hlt, rfl⟩ := List.getElem?_eq_some_iff.1 hj
      have e1 : (2 * i + 1) / 2 = i := by omega
      have e2 : (2 * i + 1) % 2 = 1 := by omega
      simp only [List.getElem_range, e1, e2, one_ne_zero, if_false]
      have : 0 < fs / 4 / 2 ^ i := by positivity
      rw [pow_succ, ← div_div]
      constructor <;> linarith
  fast := fun n => le_refl n

/-- a recording of 76 seconds at 8 Hz with a disturbance of `Hx` at the start and one of `Hy` twelve seconds later -/
def demoField : TimeData ℚ where
  md := { fs := 8, chans := ["Ex", "Ey", "Hx", "Hy"], nSamples := 608, firstTime := 10, lastTime := 10 + 607 / 8 }
  data := [
    [2, -4, 2] ++ List.replicate 93 0 ++ [3, -6, 3] ++ List.replicate 509 0,
    [-1, 2, -1] ++ List.replicate 93 0 ++ [4, -8, 4] ++ List.replicate 509 0,
    [1, -2, 1] ++ List.replicate 93 0 ++ [0, 0, 0] ++ List.replicate 509 0,
    [0, 0, 0] ++ List.replicate 93 0 ++ [1, -2, 1] ++ List.replicate 509 0]

theorem demoField_recording : Recording demoField where
  consistent := ⟨by decide, by decide +kernel, by decide +kernel, by decide +kernel⟩
  two := by decide
  rate := by decide +kernel

/-- **C63** on the demonstration: it is processed, whatever the window function. -/
example (kaiser : ℕ → List ℝ) (sk : Sklearn) (readers : List (TReader ℂ)) (calibrate : FS ℂ → Path → SpecData ℂ → Except Err (SpecData ℂ)) :
    ∃ p evals, (defaultConfig readers demoSciPy demoLadder id kaiser calibrate sk).toEvals 10 demoField = .ok (p, evals) ∧
      evals.md.nLevels = 1 := by
  obtain ⟨p, evals, h1, -, -, -, h2, -, -, -, h4, -⟩ := C63_processed demoDefaultEnv (readers := readers) (kaiser := kaiser)
    (calibrate := calibrate) (sk := sk) demoField_recording (le_refl _) (by decide) (by decide +kernel)
  refine ⟨p, evals, h1, ?_⟩
  by_contra hne
  have := h4 1 (by omega)
  revert this
  decide

/-- a window function that keeps the first sample only -/
def demoKaiser (n : ℕ) : List ℝ := 1 :: List.replicate (n - 1) 0

/-- A row without mean and trend is transformed to its first sample at every frequency. -/
theorem demo_transform (row : List ℚ) (hlen : row.length = 128) (h0 : row.sum = 0)
    (h1 : (row.zipIdx.map fun (p : ℚ × ℕ) => (p.2 : ℚ) * p.1).sum = 0) (k : ℕ) (hk : k < 65) :
    (fourierRow .linear demoKaiser 128 (row.map fun (q : ℚ) => (q : ℝ))).getD k 0 = ((row.getD 0 0 : ℚ) : ℂ) / (Real.sqrt 128 : ℂ) := by
  set r : List ℝ := row.map fun (q : ℚ) => (q : ℝ) with hr
  have hrl : r.length = 128 := by simp [hr, hlen]
  have hsum : r.sum = 0 := by
    have : r.sum = ((row.sum : ℚ) : ℝ) := by
      rw [hr]; exact (map_list_sum (Rat.castHom ℝ) row).symm
    rw [this, h0]; norm_num
  have hmean : realMean r = 0 := by unfold realMean; rw [hsum, zero_div]
  have hslope : lsSlope r = 0 := by
    unfold lsSlope
    have e : (r.zipIdx.map fun (p : ℝ × ℕ) => ((p.2 : ℝ) - ((r.length : ℝ) - 1) / 2) * p.1) =
        r.zipIdx.map fun (p : ℝ × ℕ) => (p.2 : ℝ) * p.1 + (-((r.length : ℝ) - 1) / 2) * p.1 := by
      refine List.map_congr_left fun p _ => ?_
      ring
    have e2 : (r.zipIdx.map fun (p : ℝ × ℕ) => (p.2 : ℝ) * p.1).sum = 0 := by
      have : (r.zipIdx.map fun (p : ℝ × ℕ) => (p.2 : ℝ) * p.1) =
          (row.zipIdx.map fun (p : ℚ × ℕ) => (p.2 : ℚ) * p.1).map fun (q : ℚ) => (q : ℝ) := by
        rw [hr, List.zipIdx_map, List.map_map, List.map_map]
        refine List.map_congr_left fun p _ => ?_
        simp
      rw [this]
      have := (map_list_sum (Rat.castHom ℝ) (row.zipIdx.map fun (p : ℚ × ℕ) => (p.2 : ℚ) * p.1)).symm
      rw [h1] at this
      simpa using this
    have e3 : (r.zipIdx.map fun (p : ℝ × ℕ) => (-((r.length : ℝ) - 1) / 2) * p.1).sum = 0 := by
      rw [List.sum_map_mul_left, List.zipIdx_map_fst, hsum, mul_zero]
    rw [e, List.sum_map_add, e2, e3]
    simp
  have hdet : detrendRow .linear r = r := by
    simp only [detrendRow, hmean, hslope, zero_mul, add_zero, sub_zero]
    exact List.zipIdx_map_fst 0 r
  unfold fourierRow
  rw [hdet, hrl]
  obtain ⟨x, xs, hx⟩ : ∃ x xs, row = x :: xs := by
    cases row with
    | nil => simp at hlen
    | cons x xs => exact ⟨x, xs, rfl⟩
  have hz : List.zipWith (fun x c => x * c) r (demoKaiser 128) = (x : ℝ) :: List.replicate 127 0 := by
    have hxs : xs.length = 127 := by rw [hx] at hlen; simpa using hlen
    rw [hr, hx]
    simp only [List.map_cons, demoKaiser, List.zipWith_cons_cons, mul_one]
    congr 1
    apply List.ext_getElem
    · simp [hxs]
    · intro i h1 h2
      rw [List.getElem_zipWith, List.getElem_replicate, mul_zero]
  rw [hz, List.getD_eq_getElem?_getD, rfftOrtho, List.getElem?_map, List.getElem?_range hk]
  simp only [Option.map_some, Option.getD_some]
  rw [List.take_of_length_le (by simp), hx, List.zipIdx_cons, List.map_cons, List.sum_cons]
  have hzero : (((List.replicate 127 (0 : ℝ)).zipIdx (0 + 1)).map fun (p : ℝ × ℕ) =>
      (p.1 : ℂ) * Complex.exp (-(2 * Real.pi * k * p.2 / (128 : ℕ) : ℝ) * Complex.I)).sum = 0 := by
    apply List.sum_eq_zero
    intro v hv
    obtain ⟨p, hp, rfl⟩ := List.mem_map.1 hv
    have : p.1 = 0 := by
      have h2 := List.fst_mem_of_mem_zipIdx hp
      exact List.eq_of_mem_replicate h2
    rw [this]; simp
  rw [hzero]
  simp

/-! ## The windows -/

/-- the decimation parameters at 8 Hz -/
def demoFieldParams : DecParams ℚ where
  fs := 8
  nLevels := 8
  perLevel := 5
  minSamples := 256
  evalFreqs := demoLadder 8 40
  decFactors := [1, 4, 32, 128, 1024, 4096, 32768, 131072]
  decIncrements := [1, 4, 8, 4, 8, 4, 8, 4]
  decFs := (List.range 8).map fun level => 8 / (defaultFactor level : ℚ)

/-- the first two windows -/
def firstTwo : WinArr ℚ → List (List (List ℚ))
  | .d3 wins => wins.take 2
  | _ => []

/-- time data to the first two windows -/
def demoFieldWindows : Except Err (ℕ × List (List (List ℚ))) := do
  let td ← runTimeProcessors demoSciPy [.interpolateNans, .removeMean] demoField
  let dec ← Decimator.run demoSciPy true 3 demoFieldParams td
  let wp ← ({} : WindowSetup).run dec.md.nLevels dec.md.fs
  let win ← windowerRun 10 wp dec
  let arr ← win.getLevel 0
  return (win.md.nLevels, firstTwo arr)

/-- the disturbance at the start of a window -/
def demoPulse (a : ℚ) : List ℚ := [a, -2 * a, a] ++ List.replicate 125 0

/-- the disturbances at the start and after 96 samples -/
def demoPulses (a b : ℚ) : List ℚ := [a, -2 * a, a] ++ List.replicate 93 0 ++ [b, -2 * b, b] ++ List.replicate 29 0

set_option maxRecDepth 100000 in
theorem demoFieldWindows_eq : demoFieldWindows = .ok (1, [[demoPulses 2 3, demoPulses (-1) 4, demoPulses 1 0, demoPulses 0 1],
    [demoPulse 3, demoPulse 4, demoPulse 0, demoPulse 1]]) := by decide +kernel

/-- a scikit-learn that draws the equations of the first cross channel in the first window and of the second one in the second -/
noncomputable def demoDrawing : Sklearn where
  fit
    | .theilSen f _ _, preds, obs, _ => .ok (someRowsFit f preds obs [0, 1, 6, 7])
    | e, preds, obs, w => demoSklearn.fit e preds obs w

/-- the default configuration of the demonstration -/
noncomputable def demoDefault (readers : List (TReader ℂ)) : Config :=
  defaultConfig readers demoSciPy demoLadder id demoKaiser (fun _ _ s => .ok s) demoDrawing

theorem demo_pulses (a b : ℚ) : (demoPulses a b).length = 128 ∧ (demoPulses a b).sum = 0 ∧
    ((demoPulses a b).zipIdx.map fun (p : ℚ × ℕ) => (p.2 : ℚ) * p.1).sum = 0 ∧ (demoPulses a b).getD 0 0 = a := by
  refine ⟨rfl, ?_, ?_, rfl⟩
  · simp only [demoPulses, List.sum_append, List.sum_cons, List.sum_nil, List.sum_replicate, smul_zero]
    ring
  · simp [demoPulses, List.zipIdx_append, List.zipIdx_cons]
    ring

theorem demo_pulse (a : ℚ) : (demoPulse a).length = 128 ∧ (demoPulse a).sum = 0 ∧
    ((demoPulse a).zipIdx.map fun (p : ℚ × ℕ) => (p.2 : ℚ) * p.1).sum = 0 ∧ (demoPulse a).getD 0 0 = a := by
  have : demoPulse a = demoPulses a 0 := by
    simp [demoPulse, demoPulses]
  rw [this]
  exact demo_pulses a 0

/-- The values of the magnetic channels in the first two windows at the evaluation frequencies. -/
theorem demo_cells (readers : List (TReader ℂ)) {p : DecParams ℚ} {evals : SpecData ℂ}
    (h : (demoDefault readers).toEvals 10 demoField = .ok (p, evals)) :
    evals.Shaped ∧ evals.md.chans = demoField.md.chans ∧ evals.md.nLevels = 1 ∧ p.perLevel = 5 ∧
      (∀ lm ∈ evals.md.levels, lm.freqs.length = 5 ∧ 5 ≤ lm.nWins) ∧ ∀ j < 5,
        cellVal evals 0 0 "Hx" j = 1 / (Real.sqrt 128 : ℂ) ∧ cellVal evals 0 0 "Hy" j = 0 ∧
        cellVal evals 0 1 "Hx" j = 0 ∧ cellVal evals 0 1 "Hy" j = 1 / (Real.sqrt 128 : ℂ) := by
  obtain ⟨p', evals', h1, h2, h3, -, h5, -, h6, -, h7, h8⟩ := C63_processed demoDefaultEnv (readers := readers) (kaiser := demoKaiser)
    (calibrate := fun _ _ s => .ok s) (sk := demoDrawing) demoField_recording (le_refl _) (by decide) (by decide +kernel)
  change (demoDefault readers).toEvals 10 demoField = _ at h1
  rw [h, Except.ok.injEq, Prod.mk.injEq] at h1
  obtain ⟨rfl, rfl⟩ := h1
  have hone : evals.md.nLevels = 1 := by
    by_contra hne
    have := h7 1 (by omega)
    revert this
    decide
  have hlen : ∀ lm ∈ evals.md.levels, lm.freqs.length = 5 ∧ 5 ≤ lm.nWins := by
    intro lm hlm
    obtain ⟨i, hi⟩ := List.getElem?_of_mem hlm
    have hlt : i < evals.md.nLevels := by rw [← h2.n_levels]; exact (List.getElem?_eq_some_iff.1 hi).1
    have hi0 : i = 0 := by omega
    subst hi0
    refine ⟨?_, (h8 0 lm hi).2.1⟩
    rw [(h8 0 lm hi).2.2.2.2, List.length_take, List.length_drop, demoDefaultEnv.length]
    norm_num
  refine ⟨h2, h3, hone, h6, hlen, ?_⟩
  -- the stages
  obtain ⟨tdp, p', dec, wp, win, a1, a2, ap1, ap2, ap3, a3, a4, a5, a6, -, -, -, -, -, a7⟩ := default_to_windows demoDefaultEnv
    demoField_recording (ref := 10) (le_refl _) (by decide) (by decide +kernel)
  obtain ⟨spec, s1, s2, s3, s4, s5, s6⟩ := C51_fourier_run id
    (fun n row => fourierRow .linear demoKaiser n (row.map fun (q : ℚ) => (q : ℝ)))
    (fun n row => by unfold fourierRow; rw [rfftOrtho_length]) win a6
  have hev : evalFreqsRun p' spec = .ok evals ∧ p' = p := by
    unfold demoDefault Config.toEvals Config.toSpectra Config.processSpectra Config.window Config.decimate defaultConfig at h
    simp only [a1, a2, a3, a4, a5, bind, Except.bind, pure, Except.pure, List.foldlM_nil] at h
    rw [s1] at h
    simp only at h
    cases he : evalFreqsRun p' spec with
    | error e => rw [he] at h; cases h
    | ok v =>
      rw [he] at h
      simp only [Except.ok.injEq, Prod.mk.injEq] at h
      exact ⟨by rw [h.2], h.1⟩
  obtain ⟨hev, rfl⟩ := hev
  -- the windows
  have htdp : tdp.md.fs = 8 := by
    obtain ⟨t, b1, b2, -⟩ := default_procs demoSciPy demoField
    rw [a1, Except.ok.injEq] at b1
    subst b1
    exact b2
  have hp' : p' = demoFieldParams := by
    rw [htdp, C63_decimation demoLadder 8 (by norm_num) (demoDefaultEnv.length _ _) (demoDefaultEnv.ladder _ _ (by norm_num)),
      Except.ok.injEq] at a2
    rw [← a2]
    rfl
  have hw := demoFieldWindows_eq
  unfold demoFieldWindows at hw
  rw [hp'] at a3
  simp only [a1, a3, a4, a5, bind, Except.bind, pure, Except.pure] at hw
  cases harr : win.getLevel 0 with
  | error e => rw [harr] at hw; cases hw
  | ok arr =>
    rw [harr] at hw
    simp only [Except.ok.injEq, Prod.mk.injEq] at hw
    obtain ⟨hn, hw⟩ := hw
    obtain ⟨wlm, hwlm⟩ : ∃ wlm, win.md.levels[0]? = some wlm := by
      have : 0 < win.md.levels.length := by rw [a6.n_levels, hn]; norm_num
      exact ⟨_, List.getElem?_eq_getElem this⟩
    obtain ⟨c1, -, c2, -⟩ := a7 0 wlm hwlm
    have hws : wlm.winSize = 128 := by rw [c2]; decide +kernel
    have hwf : wlm.fs = 8 := by rw [c1]; decide +kernel
    obtain ⟨wins, lm, e1, e2, e3, e4, -⟩ := s6 0 wlm hwlm
    change win.getLevel 0 = _ at e1
    rw [harr, Except.ok.injEq] at e1
    subst e1
    simp only [firstTwo] at hw
    rw [hws, hwf] at e4
    change lm.freqs = rfftfreq 128 8 at e4
    have hgrid : rfftfreq 128 8 = (List.range 65).map fun (k : ℕ) => (k : ℚ) / 16 := by decide +kernel
    have hall : ∀ lm ∈ spec.md.levels, lm.freqs.Pairwise (· < ·) ∧ 0 < lm.freqs.length := by
      intro lm' hlm'
      obtain ⟨i, hi⟩ := List.getElem?_of_mem hlm'
      have hlt : i < 1 := by rw [← hn, ← s4, ← s2.n_levels]; exact (List.getElem?_eq_some_iff.1 hi).1
      have hi0 : i = 0 := by omega
      subst hi0
      rw [e3, Option.some.injEq] at hi
      subst hi
      rw [e4]
      exact rfftfreq_grid 128 (by norm_num)
    obtain ⟨evals', v1, v2, v3, v4, v5, v6⟩ := C27_evaluation p' spec s2 hall (by rw [s4, hn, ap1]; norm_num)
    rw [hev, Except.ok.injEq] at v1
    subst v1
    obtain ⟨ef, arr', arr'', lm', g1, g2, g3, g4, g5, g6, -, -, -, -, g7⟩ := v6 0 lm e3
    rw [e2, Except.ok.injEq] at g2
    subst g2
    have hef : ef = [2, 3 / 2, 1, 3 / 4, 1 / 2] := by
      rw [hp'] at g1
      have : demoFieldParams.getEvalFreqs 0 = .ok [2, 3 / 2, 1, 3 / 4, 1 / 2] := by decide +kernel
      rw [show ((0 : ℕ) : ℤ) = 0 from rfl, this, Except.ok.injEq] at g1
      exact g1.symm
    -- one value
    have key : ∀ (w c j : ℕ) (win : List (List ℚ)) (row : List ℚ), w < 2 → (wins.take 2)[w]? = some win → win[c]? = some row →
        row.length = 128 → row.sum = 0 → (row.zipIdx.map fun (p : ℚ × ℕ) => (p.2 : ℚ) * p.1).sum = 0 → j < 5 → ∀ chan,
        demoField.md.chans.idxOf chan = c → cellVal evals 0 w chan j = ((row.getD 0 0 : ℚ) : ℂ) / (Real.sqrt 128 : ℂ) := by
      intro w c j win row hw2 hwin hrow r1 r2 r3 hj chan hchan
      have hwin' : wins[w]? = some win := by
        rw [List.getElem?_take_of_lt hw2] at hwin; exact hwin
      obtain ⟨f, k, hf, hk, hk1, hk2⟩ : ∃ (f : ℚ) (k : ℕ), ef[j]? = some f ∧ k + 1 < 65 ∧ (k : ℚ) / 16 ≤ f ∧ f ≤ ((k + 1 : ℕ) : ℚ) / 16 := by
        rw [hef]
        interval_cases j
        exacts [⟨2, 32, rfl, by norm_num, by norm_num, by norm_num⟩, ⟨3 / 2, 24, rfl, by norm_num, by norm_num, by norm_num⟩,
          ⟨1, 16, rfl, by norm_num, by norm_num, by norm_num⟩, ⟨3 / 4, 12, rfl, by norm_num, by norm_num, by norm_num⟩,
          ⟨1 / 2, 8, rfl, by norm_num, by norm_num, by norm_num⟩]
      set out := fourierRow .linear demoKaiser 128 (row.map fun (q : ℚ) => (q : ℝ)) with hout
      obtain ⟨win', row', v, q1, q2, q3, q4⟩ := g7 w c j _ out f
        (by rw [List.getElem?_map, hwin']; rfl) (by rw [List.getElem?_map, hrow, hout, hws]; rfl) hf
      have hol : out.length = 65 := by rw [hout]; unfold fourierRow; rw [rfftOrtho_length]
      have hat : ∀ m, m < 65 → out[m]? = some (((row.getD 0 0 : ℚ) : ℂ) / (Real.sqrt 128 : ℂ)) := by
        intro m hm
        have := demo_transform row r1 r2 r3 m hm
        rw [← hout, List.getD_eq_getElem?_getD, List.getElem?_eq_getElem (by omega), Option.getD_some] at this
        rw [List.getElem?_eq_getElem (by omega), this]
      have hgm : ∀ m : ℕ, m < 65 → lm.freqs[m]? = some ((m : ℚ) / 16) := by
        intro m hm
        rw [e4, hgrid, List.getElem?_map, List.getElem?_range hm]; rfl
      have hv : v = ((row.getD 0 0 : ℚ) : ℂ) / (Real.sqrt 128 : ℂ) := by
        have := q4.1 k _ _ _ _ (hgm k (by omega)) (hgm (k + 1) hk) (hat k (by omega)) (hat (k + 1) hk) hk1 hk2
        rw [this, sub_self, smul_zero, add_zero]
      unfold cellVal
      rw [lookup_of_getLevel g3, h3, hchan]
      simp only [Option.getD_some, List.getD_eq_getElem?_getD, q1, q2, q3, hv]
    intro j hj
    rw [hw] at key
    obtain ⟨x1, x2, x3, x4⟩ := demo_pulses 1 0
    obtain ⟨y1, y2, y3, y4⟩ := demo_pulses 0 1
    obtain ⟨z1, z2, z3, z4⟩ := demo_pulse 0
    obtain ⟨t1, t2, t3, t4⟩ := demo_pulse 1
    refine ⟨?_, ?_, ?_, ?_⟩
    · rw [key 0 2 j _ _ (by norm_num) rfl rfl x1 x2 x3 hj "Hx" (by decide), x4]; simp
    · rw [key 0 3 j _ _ (by norm_num) rfl rfl y1 y2 y3 hj "Hy" (by decide), y4]; simp
    · rw [key 1 2 j _ _ (by norm_num) rfl rfl z1 z2 z3 hj "Hx" (by decide), z4]; simp
    · rw [key 1 3 j _ _ (by norm_num) rfl rfl t1 t2 t3 hj "Hy" (by decide), t4]; simp

/-- The sample that is drawn determines the impedance tensor. -/
theorem demo_sample (readers : List (TReader ℂ)) {p : DecParams ℚ} {evals : SpecData ℂ} {g : Gathered ℂ} {r : RegInput} (name : String)
    (h : (demoDefault readers).toEvals 10 demoField = .ok (p, evals))
    (hg : quickGather name p impedanceTensor.gatherChans evals = .ok g) (hr : prepareGathered impedanceTensor g = .ok r) {k : ℕ}
    (hk : k < r.freqs.length) {out : String} (ho : out ∈ ["Ex", "Ey"]) {obs : List ℝ} {preds : List (List ℝ)}
    (hin : r.getInputs k out = .ok (obs, preds)) :
    Problem 4 preds obs ∧ IsSample obs.length 4 [0, 1, 6, 7] ∧ DeterminedBy false 4 (pickRows [0, 1, 6, 7] preds) ∧
      min 4 obs.length = 4 := by
  obtain ⟨h1, h2, h3, h4, h5, h6⟩ := demo_cells readers h
  have hsub : ∀ c ∈ ["Ex", "Ey", "Hx", "Hy"], c ∈ evals.md.chans := by rw [h2]; decide
  obtain ⟨g', nw, b1, b2, b3, b4⟩ := quick_gathered name p evals h1 (by rw [h2]; decide) impedanceTensor
    (fun c hc => hsub c (by simp [impedanceTensor] at hc; rcases hc with rfl | rfl <;> simp))
    (fun c hc => hsub c (by simp [impedanceTensor] at hc; rcases hc with rfl | rfl <;> simp))
    (fun c hc => hsub c (by simp [impedanceTensor] at hc; rcases hc with rfl | rfl <;> simp)) rfl rfl
    (fun lm hlm => by rw [h4]; exact (h5 lm hlm).1)
  rw [hg, Except.ok.injEq] at b1
  subst b1
  obtain ⟨r', hr', -, hrf, hrows⟩ := C33_rows impedanceTensor (by simp [impedanceTensor]) g nw _ _ _ b3
  rw [hr, Except.ok.injEq] at hr'
  subst hr'
  obtain ⟨o, ho'⟩ := List.getElem?_of_mem ho
  obtain ⟨obs', preds', e1, -, e3, e4, e5, e6⟩ := hrows k (by rw [← hrf]; exact hk) o out ho'
  rw [hin, Except.ok.injEq, Prod.mk.injEq] at e1
  obtain ⟨rfl, rfl⟩ := e1
  obtain ⟨lm, f1, f2, -⟩ := b4 k (by rw [← hrf]; exact hk)
  have hlm5 := (h5 lm (List.mem_of_getElem? f1)).2
  rw [h4] at f1 e3
  have hk5 : k / 5 = 0 := by
    have := (List.getElem?_eq_some_iff.1 f1).1
    rw [h1.n_levels, h3] at this
    omega
  rw [hk5] at e3
  have hj : k % 5 < 5 := Nat.mod_lt _ (by norm_num)
  obtain ⟨v1, v2, v3, v4⟩ := h6 _ hj
  have hnw : 5 ≤ nw k := by rw [f2]; omega
  have hobs : 20 ≤ obs.length := by
    rw [e4]
    change 20 ≤ nw k * (2 * 2)
    omega
  have hc : (1 : ℂ) / (Real.sqrt 128 : ℂ) ≠ 0 := by
    have : Real.sqrt 128 ≠ 0 := (Real.sqrt_pos.2 (by norm_num)).ne'
    exact div_ne_zero one_ne_zero (by exact_mod_cast this)
  refine ⟨⟨by norm_num, ?_, e5.symm, e6⟩, ⟨by decide, rfl, ?_⟩, ?_, by omega⟩
  · exact List.ne_nil_of_length_pos (by omega)
  · intro i hi
    simp only [List.mem_cons, List.not_mem_nil, or_false] at hi
    omega
  · refine C62_sample_determines 2 (nw k) 2 preds
      (fun w i => cellVal evals 0 w (["Hx", "Hy"].getD i "") (k % 5)) (fun w c => cellVal evals 0 w (["Hx", "Hy"].getD c "") (k % 5)) e3
      [0, 1, 6, 7] ?_ [(0, 0), (1, 1)] ?_ ?_
    · intro i hi
      simp only [List.mem_cons, List.not_mem_nil, or_false] at hi
      omega
    · intro q hq
      simp only [List.mem_cons, List.not_mem_nil, or_false] at hq
      rcases hq with rfl | rfl
      · exact ⟨by omega, by norm_num, by simp, by simp, by simpa using fun h => hc (v1.symm.trans h)⟩
      · exact ⟨by omega, by norm_num, by simp, by simp, by simpa using fun h => hc (v4.symm.trans h)⟩
    · intro W hW i hi
      have w0 := hW (0, 0) (by simp)
      have w1 := hW (1, 1) (by simp)
      rw [Finset.sum_range_succ, Finset.sum_range_one] at w0 w1
      change W 0 * cellVal evals 0 0 "Hx" (k % 5) + W 1 * cellVal evals 0 0 "Hy" (k % 5) = 0 at w0
      change W 0 * cellVal evals 0 1 "Hx" (k % 5) + W 1 * cellVal evals 0 1 "Hy" (k % 5) = 0 at w1
      rw [v1, v2, mul_zero, add_zero] at w0
      rw [v3, v4, mul_zero, zero_add] at w1
      interval_cases i
      · exact (mul_eq_zero.1 w0).resolve_right hc
      · exact (mul_eq_zero.1 w1).resolve_right hc

/-! ## The estimate -/

/-- the rows of the demonstration -/
def demoFieldRow (c : ℕ) : List ℚ := demoField.data.getD c []

set_option maxRecDepth 100000 in
theorem demoField_combos :
    demoFieldRow 0 = List.zipWith (fun a b => 2 * a + 3 * b) (demoFieldRow 2) (demoFieldRow 3) ∧
    demoFieldRow 1 = List.zipWith (fun a b => -1 * a + 4 * b) (demoFieldRow 2) (demoFieldRow 3) := by decide +kernel

theorem demoField_exact (out : String) (o : ℕ) (a b : ℚ) (hget : demoField.getChan out = .ok (demoFieldRow o)) (hl : (demoFieldRow o).length = 608)
    (h : demoFieldRow o = List.zipWith (fun x y => a * x + b * y) (demoFieldRow 2) (demoFieldRow 3)) :
    demoField.Exact ["Hx", "Hy"] (fun i => if i = 0 then (a : ℝ) else b) out := by
  have h2 : (demoFieldRow 2).length = 608 := by decide +kernel
  have h3 : (demoFieldRow 3).length = 608 := by decide +kernel
  refine ⟨fun i => demoFieldRow (2 + i), demoFieldRow o, ?_, hget, ?_, ?_⟩
  · intro i hi
    have : i < 2 := hi
    interval_cases i <;> rfl
  · intro i hi
    have : i < 2 := hi
    interval_cases i <;> simp [complexRow, hl, h2, h3]
  · intro k hk
    have hk : k < 608 := by simpa [complexRow, hl] using hk
    simp only [complexRow_getD, List.length_cons, List.length_nil, Finset.sum_range_succ, Finset.sum_range_zero, zero_add]
    have : (demoFieldRow o).getD k 0 = a * (demoFieldRow 2).getD k 0 + b * (demoFieldRow 3).getD k 0 := by
      rw [h]
      simp only [List.getD_eq_getElem?_getD, List.getElem?_zipWith]
      rw [List.getElem?_eq_getElem (by omega : k < (demoFieldRow 2).length), List.getElem?_eq_getElem (by omega : k < (demoFieldRow 3).length)]
      rfl
    rw [this]
    push_cast
    simp

open Classical in
/-- **C63** on the demonstration: the impedance tensor is recovered at the five evaluation frequencies. -/
theorem demo_recovered (fs : FS ℂ) (dir : Path) :
    ∃ (sol : Solution) (m : ℕ), (demoDefault [fixedReader demoField]).quickTf fs dir none = .ok sol ∧
      1 ≤ m ∧ m ≤ 8 ∧ sol.freqs = (demoLadder 8 40).take (5 * m) ∧
      ∀ k < 5 * m, sol.getTensor k = .ok [[2, 3], [-1, 4]] := by
  obtain ⟨sol, m, h1, h2, h3, -, h4, h5⟩ := C63_recovered (readers := [fixedReader demoField]) (kaiser := demoKaiser)
    (calibrate := fun _ _ s => .ok s) (sk := demoDrawing) demoDefaultEnv demoSciPy_linear demoField_recording
    (by decide) (by decide) (by decide) (by decide +kernel) fs dir rfl
    (fun o i => if o = 0 then (if i = 0 then ((2 : ℚ) : ℝ) else ((3 : ℚ) : ℝ)) else (if i = 0 then ((-1 : ℚ) : ℝ) else ((4 : ℚ) : ℝ)))
    (demoField_exact "Ex" 0 2 3 rfl (by decide +kernel) demoField_combos.1)
    (demoField_exact "Ey" 1 (-1) 4 rfl (by decide +kernel) demoField_combos.2)
    (by
      intro p evals g r hp hg hr k hk out ho obs preds hin
      obtain ⟨q1, q2, q3, q4⟩ := demo_sample [fixedReader demoField] (pathName dir) hp hg hr hk ho hin
      have hfit := someRowsFit_spec false q1 (idx := [0, 1, 6, 7]) (by simp) q2.2.2
      refine ⟨[[0, 1, 6, 7]], ⟨by simp, ?_, someRowsFit false preds obs [0, 1, 6, 7], [someRowsFit false preds obs [0, 1, 6, 7]],
        rfl, hfit.1, List.Forall₂.cons hfit List.Forall₂.nil, fun m' _ => by simp⟩, ?_⟩
      · intro idx hi
        rw [List.mem_singleton] at hi
        subst hi
        have : sampleSize false 4 obs.length none = 4 := by
          show ((min (unknowns false 4) obs.length : ℕ) : ℤ).toNat = 4
          rw [Int.toNat_natCast]
          exact q4
        rw [this]
        exact q2
      · rw [List.countP_cons_of_pos (by simpa using q3)]
        simp)
  refine ⟨sol, m, h1, h2, h3, h4, fun k hk => ?_⟩
  rw [h5 k hk]
  norm_num

/-- **C63** on the demonstration: whatever the window function, an estimate is made. -/
example (kaiser : ℕ → List ℝ) (fs : FS ℂ) (dir : Path) :
    ∃ sol, (defaultConfig [fixedReader demoField] demoSciPy demoLadder id kaiser (fun _ _ s => .ok s) demoSklearn).quickTf fs dir none =
      .ok sol := by
  obtain ⟨sol, -, h, -⟩ := C63_succeeds (readers := [fixedReader demoField]) (kaiser := kaiser)
    (calibrate := fun _ _ s => .ok s) (sk := demoSklearn) demoDefaultEnv demoSklearn_theilSen demoField_recording
    (by decide) (by decide) (by decide) (by decide +kernel) fs dir rfl
  exact ⟨sol, h⟩

end Resistics
