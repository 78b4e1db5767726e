import Verif.Model.Default
import Verif.Props.EndToEnd
import Verif.Props.Solvers
import Verif.Props.Quick

/-!
# C63: the default configuration
-/

namespace Resistics

/-! ## Evaluation frequencies and decimation -/

section Ladder
variable {K : Type} [Field K] [LinearOrder K] [IsStrictOrderedRing K] [FloorSemiring K]

/-- Specification: half octaves down from a quarter of the sampling frequency, exact at the octaves and rounded in any way in
between. -/
structure IsLadder (fs : K) (freqs : List K) : Prop where
  octave : ∀ (i : ℕ) (f : K), freqs[2 * i]? = some f → f = fs / 4 / 2 ^ i
  between : ∀ (i : ℕ) (f : K), freqs[2 * i + 1]? = some f → fs / 4 / 2 ^ (i + 1) < f ∧ f < fs / 4 / 2 ^ i

/-- Specification: by how much the default configuration decimates for a level. -/
def defaultFactor (level : ℕ) : ℕ := 2 ^ (5 * level / 2)

omit [FloorSemiring K] in
theorem IsLadder.bounds {fs : K} {freqs : List K} (h : IsLadder fs freqs) (hfs : 0 < fs) {j : ℕ} {f : K} (hj : freqs[j]? = some f) :
    fs / 4 / 2 ^ (j / 2 + 1) < f ∧ f ≤ fs / 4 / 2 ^ (j / 2) := by
  rcases Nat.even_or_odd' j with ⟨i, rfl | rfl⟩
  · have := h.octave i f hj
    have e : 2 * i / 2 = i := by omega
    rw [e, this]
    refine ⟨?_, le_refl _⟩
    apply div_lt_div_of_pos_left (by positivity) (by positivity)
    exact pow_lt_pow_right₀ (by norm_num) (by omega)
  · have := h.between i f hj
    have e : (2 * i + 1) / 2 = i := by omega
    rw [e]
    exact ⟨this.1, this.2.le⟩

/-- The factor of a highest frequency in `(fs / 4 / 2 ^ (k + 1), fs / 4 / 2 ^ k]`. -/
theorem factor_of_bounds {fs f : K} {k : ℕ} (hfs : 0 < fs) (h1 : fs / 4 / 2 ^ (k + 1) < f) (h2 : f ≤ fs / 4 / 2 ^ k) :
    getDecimationFactor 2 fs f = 2 ^ k := by
  have hf : 0 < f := lt_trans (by positivity) h1
  obtain ⟨⟨j, hj⟩, a2, a3, -⟩ := C17_decimation_factor 2 (le_refl 2) fs f hf
  have h4 : 4 * f ≤ fs / 2 ^ k := by
    have : fs / 2 ^ k = 4 * (fs / 4 / 2 ^ k) := by field_simp
    rw [this]; linarith
  have hle := a3 k (by exact_mod_cast h4)
  rw [hj] at hle a2 ⊢
  have hkj : k ≤ j := (Nat.pow_le_pow_iff_right (by norm_num)).1 hle
  have h5 : 4 * f ≤ fs := h4.trans (div_le_self hfs.le (one_le_pow₀ (by norm_num)))
  have h6 := a2 h5
  by_contra hne
  have hlt : k + 1 ≤ j := by
    rcases Nat.lt_or_ge k j with h | h
    · exact h
    · exact absurd (by rw [le_antisymm hkj h]) hne
  have h7 : fs / 2 ^ j ≤ fs / 2 ^ (k + 1) :=
    div_le_div_of_nonneg_left hfs.le (by positivity) (pow_le_pow_right₀ (by norm_num) hlt)
  have h8 : fs / 2 ^ (k + 1) = 4 * (fs / 4 / 2 ^ (k + 1)) := by field_simp
  push_cast at h6
  linarith

/-- **C63**. The default decimation setup accepts every sampling frequency and makes eight levels of five evaluation frequencies, the
half octaves down from a quarter of the sampling frequency, decimated by 1, 4, 32, 128, 1024, 4096, 32768 and 131072: by 4 and 8 from
level to level. -/
theorem C63_decimation (deflt : K → ℕ → List K) (fs : K) (hfs : 0 < fs) (hl : (deflt fs 40).length = 40)
    (hd : IsLadder fs (deflt fs 40)) :
    ({} : DecSetup K).run deflt fs = .ok {
      fs := fs, nLevels := 8, perLevel := 5, minSamples := 256, evalFreqs := deflt fs 40,
      decFactors := [1, 4, 32, 128, 1024, 4096, 32768, 131072], decIncrements := [1, 4, 8, 4, 8, 4, 8, 4],
      decFs := (List.range 8).map fun level => fs / (defaultFactor level : K) } := by
  have hrow : ∀ level < 8, levelFactor 2 fs (deflt fs 40) 5 level = .ok (defaultFactor level) := by
    intro level hlev
    have hlt : 5 * level < (deflt fs 40).length := by omega
    have hne : reshapeRow (deflt fs 40) 5 level ≠ [] := by
      intro h0
      have := congrArg List.length h0
      simp [reshapeRow] at this
      omega
    have hmem : (deflt fs 40)[5 * level] ∈ reshapeRow (deflt fs 40) 5 level := by
      refine List.mem_of_getElem? (i := 0) ?_
      simp [reshapeRow, List.getElem?_drop, List.getElem?_eq_getElem hlt]
    obtain ⟨m, hm⟩ : ∃ m, npMax (reshapeRow (deflt fs 40) 5 level) = .ok m := by
      cases hr : reshapeRow (deflt fs 40) 5 level with
      | nil => exact absurd hr hne
      | cons x xs => exact ⟨_, rfl⟩
    obtain ⟨b1, b2⟩ := npMax_spec hm
    have b3 := b2 _ hmem
    obtain ⟨j, hj1, -, hj⟩ := mem_reshapeRow b1
    obtain ⟨-, c2⟩ := hd.bounds hfs hj
    obtain ⟨d1, -⟩ := hd.bounds hfs (List.getElem?_eq_getElem hlt)
    have hmono : fs / 4 / 2 ^ (j / 2) ≤ fs / 4 / 2 ^ (5 * level / 2) :=
      div_le_div_of_nonneg_left (by positivity) (by positivity) (pow_le_pow_right₀ (by norm_num) (by omega))
    unfold levelFactor
    rw [hm]
    show Except.ok (getDecimationFactor 2 fs m) = _
    rw [factor_of_bounds hfs (d1.trans_le b3) (c2.trans hmono)]
    rfl
  have hfac : getFactors 8 5 2 fs (deflt fs 40) = .ok [1, 4, 32, 128, 1024, 4096, 32768, 131072] := by
    unfold getFactors
    rw [mapM_ok_map (g := defaultFactor) (fun level h => hrow level (List.mem_range.1 h))]
    decide
  show DecSetup.run _ _ _ = _
  unfold DecSetup.run
  have hf : ({} : DecSetup K).getEvalFreqs deflt fs = .ok (deflt fs 40) := rfl
  rw [hf]
  show (getFactors 8 5 2 fs (deflt fs 40) >>= _) = _
  rw [hfac]
  change mkDecParams fs 8 5 256 (deflt fs 40) [1, 4, 32, 128, 1024, 4096, 32768, 131072] = _
  unfold mkDecParams
  rw [if_neg (by decide), if_neg (by decide)]
  congr 2
  have he : [1, 4, 32, 128, 1024, 4096, 32768, 131072] = (List.range 8).map defaultFactor := by decide
  unfold decFsList
  rw [he, List.map_map]
  exact List.map_congr_left fun level _ => (div_eq_mul_inv _ _).symm

end Ladder

/-- **C63**. The evaluation frequencies which the default configuration computes are such a ladder. -/
theorem C63_ladder (fs : ℝ) (hfs : 0 < fs) (n : ℕ) : (getEvalFreqsSize fs n).length = n ∧ IsLadder fs (getEvalFreqsSize fs n) := by
  have hr : getEvalFreqsSize fs n = (List.range n).map (rung fs) := by
    have := (C16_eval_freqs_size fs n).1
    simpa [getEvalFreqs] using this
  rw [hr]
  refine ⟨by simp, ?_, ?_⟩
  · intro i f hf
    rw [List.getElem?_map, Option.map_eq_some_iff] at hf
    obtain ⟨a, ha, rfl⟩ := hf
    obtain ⟨-, rfl⟩ := List.getElem?_eq_some_iff.1 ha
    simp [rung, pow_mul]
  · intro i f hf
    rw [List.getElem?_map, Option.map_eq_some_iff] at hf
    obtain ⟨a, ha, rfl⟩ := hf
    obtain ⟨-, rfl⟩ := List.getElem?_eq_some_iff.1 ha
    have h2 : Real.sqrt 2 ^ (2 * i + 1) = 2 ^ i * Real.sqrt 2 := by rw [pow_succ, pow_mul]; simp
    simp only [List.getElem_range, rung]
    rw [h2]
    have g1 := sqrt2_gt
    have g2 : Real.sqrt 2 < 2 := by
      rw [Real.sqrt_lt' (by norm_num)]; norm_num
    have hp : (0 : ℝ) < 2 ^ i := by positivity
    constructor
    · apply div_lt_div_of_pos_left (by positivity) (by positivity)
      rw [pow_succ]
      exact mul_lt_mul_of_pos_left g2 hp
    · apply div_lt_div_of_pos_left (by positivity) hp
      nlinarith

/-! ## Decimated data -/

/-- `Fraction.limit_denominator` keeps fractions with small denominators. -/
def KeepsSmall (sp : SciPy) : Prop := ∀ x : ℚ, x.den ≤ 1000000 → sp.limitDen x = x

theorem ceil_ceil_div (x : ℚ) (b : ℕ) (hb : 0 < b) : ⌈((⌈x⌉ : ℤ) : ℚ) / b⌉ = ⌈x / b⌉ := by
  have hb' : (0 : ℚ) < b := by exact_mod_cast hb
  apply le_antisymm
  · rw [Int.ceil_le, div_le_iff₀ hb']
    have h1 := Int.le_ceil (x / b)
    rw [div_le_iff₀ hb'] at h1
    have : ⌈x⌉ ≤ ⌈x / b⌉ * b := by
      rw [Int.ceil_le]; push_cast; exact h1
    exact_mod_cast this
  · apply Int.ceil_le_ceil
    exact div_le_div_of_nonneg_right (Int.le_ceil x) hb'.le

theorem ceil_natDiv (n f : ℕ) (hf : 0 < f) : ((((n * 1 + f - 1) / f : ℕ)) : ℤ) = ⌈(n : ℚ) / f⌉ := by
  have hf' : (0 : ℚ) < f := by exact_mod_cast hf
  rw [mul_one]
  symm
  rw [Int.ceil_eq_iff]
  have h1 := Nat.div_add_mod (n + f - 1) f
  have h2 := Nat.mod_lt (n + f - 1) hf
  set q := (n + f - 1) / f
  have h3 : (n : ℚ) ≤ f * q := by
    have : n ≤ f * q := by omega
    exact_mod_cast this
  have h4 : (f : ℚ) * q < n + f := by
    have : f * q < n + f := by omega
    exact_mod_cast this
  constructor
  · rw [lt_div_iff₀ hf']; push_cast; nlinarith
  · rw [div_le_iff₀ hf']; push_cast; nlinarith

/-- A step of the decimator by a small factor succeeds and keeps every `f`-th sample. -/
theorem resample_step {sp : SciPy} (hl : sp.Lawful) (hlim : KeepsSmall sp) {td : TimeData ℚ} (hc : td.Consistent)
    (hch : 1 ≤ td.md.chans.length) {f : ℕ} (hf : 0 < f) (hf' : f ≤ 1000000) :
    ∃ td', decimatorResample sp td f = .ok td' ∧ td'.md.nSamples = ⌈(td.md.nSamples : ℚ) / f⌉ := by
  by_cases h1 : f = 1
  · subst h1
    exact ⟨td, rfl, by simp⟩
  · unfold decimatorResample resample
    rw [if_neg h1, if_neg hf.ne']
    have hfs := hc.fs_pos
    have hq : td.md.fs / (f : ℚ) / td.md.fs = 1 / (f : ℚ) := by field_simp
    have hden : (1 / (f : ℚ)).den = f := by
      rw [one_div, Rat.inv_natCast_den]; simp [hf.ne']
    have hnum : (1 / (f : ℚ)).num = 1 := by
      rw [one_div, Rat.inv_natCast_num]; simp [hf]
    simp only
    rw [if_neg hfs.ne', hq, hlim _ (by rw [hden]; exact hf'), hnum, hden, if_neg (by norm_num)]
    have hfs' : td.md.fs / (f : ℚ) ≠ 0 := by positivity
    simp only [adjust_ok hfs', bind, Except.bind, pure, Except.pure]
    refine ⟨_, rfl, ?_⟩
    show ((shape1 (td.data.map (sp.resample (1 : ℤ).toNat f)) : ℕ) : ℤ) = _
    have hne : td.data ≠ [] := by
      intro h0
      have := hc.rows
      rw [h0] at this
      simp only [List.length_nil] at this
      omega
    obtain ⟨row, rows, hd⟩ := List.exists_cons_of_ne_nil hne
    have hcol := hc.cols row (by rw [hd]; simp)
    rw [hd]
    simp only [shape1, List.map_cons, List.head?_cons, Option.map_some, Option.getD_some]
    rw [hl.resample_length _ _ _ hf, ← hcol]
    rw [Int.cast_natCast]
    exact ceil_natDiv row.length f hf

/-- The increments of the default configuration. -/
theorem default_increments (i : ℕ) (inc : ℕ) (h : [1, 4, 8, 4, 8, 4, 8, 4][i]? = some inc) :
    0 < inc ∧ inc ≤ 1000000 ∧ inc * (if i = 0 then 1 else defaultFactor (i - 1)) = defaultFactor i := by
  have hi : i < 8 := by
    by_contra hn
    rw [List.getElem?_eq_none (by simpa using hn)] at h
    cases h
  interval_cases i <;> simp at h <;> subst h <;> decide

theorem default_loop {sp : SciPy} (hl : sp.Lawful) (hlim : KeepsSmall sp) {p : DecParams ℚ}
    (hinc : p.decIncrements = [1, 4, 8, 4, 8, 4, 8, 4]) (hfs : p.decFs.length = 8) (levels : List ℕ) (hlev : ∀ i ∈ levels, i < 8)
    (td : TimeData ℚ) (hc : td.Consistent) (hch : 1 ≤ td.md.chans.length) (acc : DecAcc) :
    ∃ acc', decimatorLoop (decimatorResample sp) p levels td acc = .ok acc' := by
  induction levels generalizing td acc with
  | nil => exact ⟨acc, rfl⟩
  | cons i rest ih =>
    have hi := hlev i (by simp)
    have hil : i < p.decIncrements.length := by rw [hinc]; exact hi
    unfold decimatorLoop
    rw [pyIndex_natCast _ _ hil]
    obtain ⟨f1, f2, -⟩ := default_increments i p.decIncrements[i] (by rw [← hinc]; exact List.getElem?_eq_getElem hil)
    obtain ⟨td', h1, -⟩ := resample_step hl hlim hc hch f1 f2
    obtain ⟨c1, c2, -, -⟩ := decimator_step sp hl true 2 (le_refl 2) td td' _ hc (by simpa using h1)
    simp only [h1, bind, Except.bind]
    split
    · exact ⟨_, rfl⟩
    · rw [pyIndex_natCast _ _ (by rw [hfs]; exact hi)]
      exact ih (fun j hj => hlev j (by simp [hj])) td' c1 (by rw [c2]; exact hch) _

/-- The decimation parameters of the default configuration. -/
structure DefaultParams (p : DecParams ℚ) : Prop where
  n_levels : p.nLevels = 8
  min_samples : p.minSamples = 256
  increments : p.decIncrements = [1, 4, 8, 4, 8, 4, 8, 4]
  n_fs : p.decFs.length = 8

theorem defaultFactor_mono {i j : ℕ} (h : i ≤ j) : defaultFactor i ≤ defaultFactor j :=
  Nat.pow_le_pow_right (by norm_num) (by omega)

theorem defaultFactor_pos (i : ℕ) : 0 < defaultFactor i := Nat.pow_pos (by norm_num)

/-- **C63**. A recording is decimated to the levels at which at least 256 samples are left; a recording of less than 256 samples is
refused (a `KeyError`). -/
theorem C63_levels {sp : SciPy} (hl : sp.Lawful) (hlim : KeepsSmall sp) {p : DecParams ℚ} {td : TimeData ℚ} (hc : td.Consistent)
    (hch : 1 ≤ td.md.chans.length) (hfs : td.md.fs ≤ 10 ^ 13) (hp : DefaultParams p) :
    (td.md.nSamples < 256 → Decimator.run sp true 3 p td = .error .key) ∧
    (256 ≤ td.md.nSamples → ∃ dec, Decimator.run sp true 3 p td = .ok dec ∧ dec.Consistent ∧ dec.md.chans = td.md.chans ∧
      dec.md.fs = dec.md.levels.map (·.fs) ∧ 1 ≤ dec.md.nLevels ∧ dec.md.nLevels ≤ 8 ∧
      (∀ level < 8, level < dec.md.nLevels ↔ 256 ≤ ⌈(td.md.nSamples : ℚ) / defaultFactor level⌉) ∧
      ∀ (level : ℕ) (lm : LevelMeta), dec.md.levels[level]? = some lm → level < 8 ∧ lm.fs = td.md.fs / defaultFactor level ∧
        lm.nSamples = ⌈(td.md.nSamples : ℚ) / defaultFactor level⌉ ∧ lm.firstTime = td.md.firstTime) := by
  obtain ⟨acc, hacc⟩ := default_loop hl hlim hp.increments hp.n_fs (List.range p.nLevels)
    (fun i hi => by rw [hp.n_levels] at hi; exact List.mem_range.1 hi) td hc hch {}
  constructor
  · intro hn
    have : acc = {} := by
      rw [hp.n_levels] at hacc
      simp only [List.range_succ_eq_map, decimatorLoop] at hacc
      rw [hp.increments] at hacc
      have h0 : pyIndex [1, 4, 8, 4, 8, 4, 8, 4] ((0 : ℕ) : ℤ) = .ok 1 := by decide
      rw [h0] at hacc
      simp only [bind, Except.bind, decimatorResample, if_true] at hacc
      rw [if_pos (by rw [hp.min_samples]; exact_mod_cast hn), Except.ok.injEq] at hacc
      exact hacc.symm
    unfold Decimator.run decimatorRun
    simp only [if_true, hacc, this, bind, Except.bind]
    rfl
  · intro hn
    have hex : ∃ dec, Decimator.run sp true 3 p td = .ok dec := by
      unfold Decimator.run decimatorRun
      simp only [if_true, hacc, bind, Except.bind]
      obtain ⟨tds, t1, t2, t3, t4, t5, t6⟩ := decimatorLoop_spec (decimatorResample sp) p p.nLevels 0 td {} acc
        (by rw [← List.range_eq_range']; exact hacc)
      have hne : tds ≠ [] := by
        rintro rfl
        rcases t6 with h | ⟨x, inc, new, h1, h2, h3, h4⟩
        · rw [hp.n_levels] at h; simp at h
        · simp only [List.length_nil, Nat.add_zero, List.getElem?_cons_zero, Option.some.injEq, hp.increments] at h1 h2
          subst h1 h2
          simp only [decimatorResample, if_true, Except.ok.injEq] at h3
          subst h3
          rw [hp.min_samples] at h4
          omega
      obtain ⟨t, ts, rfl⟩ := List.exists_cons_of_ne_nil hne
      have : dictGet acc.data 0 = .ok t.data := by
        rw [t2]; rfl
      rw [this]
      exact ⟨_, rfl⟩
    obtain ⟨dec, hdec⟩ := hex
    refine ⟨dec, hdec, ?_⟩
    obtain ⟨a1, a2, a3, -, -⟩ := decimator_consistent hl (by norm_num) (by rw [hp.min_samples]; norm_num) hc hch hfs hdec
    obtain ⟨tds, b1, b2, b3, b4, b5, b6, b7, b8, b9, b10⟩ := C20_pyramid _ p td dec hdec
    rw [hp.increments] at b8 b10
    rw [hp.n_levels] at b3 b10 a3
    have hns : ∀ (i : ℕ) (hi : i < tds.length), tds[i].md.nSamples = ⌈(td.md.nSamples : ℚ) / defaultFactor i⌉ ∧
        tds[i].md.fs = td.md.fs / defaultFactor i ∧ tds[i].md.firstTime = td.md.firstTime ∧ tds[i].Consistent ∧
        tds[i].md.chans = td.md.chans := by
      intro i
      induction i with
      | zero =>
        intro hi
        obtain ⟨x, inc, g1, g2, g3⟩ := b8 0 hi
        simp only [Nat.add_zero, List.getElem?_cons_zero, Option.some.injEq] at g1 g2
        subst g1 g2
        simp only [if_true, decimatorResample, Except.ok.injEq] at g3
        rw [← g3]
        exact ⟨by simp [defaultFactor], by simp [defaultFactor], rfl, hc, rfl⟩
      | succ i ih =>
        intro hi
        obtain ⟨c1, c2, c3, c4, c5⟩ := ih (by omega)
        obtain ⟨x, inc, g1, g2, g3⟩ := b8 (i + 1) hi
        rw [List.getElem?_cons_succ, List.getElem?_eq_getElem (by omega)] at g1
        injection g1 with g1
        subst g1
        rw [zero_add] at g2
        obtain ⟨f1, f2, f3⟩ := default_increments (i + 1) inc g2
        simp only [Nat.add_one_ne_zero, if_false, Nat.add_sub_cancel] at f3
        obtain ⟨d1, d2, d3, d4⟩ := decimator_step sp hl true 2 (le_refl 2) _ _ inc c4 (by simpa using g3)
        obtain ⟨td', e1, e2⟩ := resample_step hl hlim c4 (by rw [c5]; exact hch) f1 f2
        simp only [if_true] at g3
        rw [g3, Except.ok.injEq] at e1
        subst e1
        have hF : (defaultFactor (i + 1) : ℚ) = inc * defaultFactor i := by exact_mod_cast f3.symm
        refine ⟨?_, ?_, d3.trans c3, d1, d2.trans c5⟩
        · rw [e2, c1, ceil_ceil_div _ _ f1, hF]
          congr 1
          rw [div_div, mul_comm]
        · rw [d4, c2, hF, div_div, mul_comm]
    have hmono : ∀ i j : ℕ, i ≤ j → ⌈(td.md.nSamples : ℚ) / defaultFactor j⌉ ≤ ⌈(td.md.nSamples : ℚ) / defaultFactor i⌉ := by
      intro i j hij
      apply Int.ceil_le_ceil
      have h0 : (0 : ℚ) ≤ td.md.nSamples := by
        have : (0 : ℤ) ≤ td.md.nSamples := by omega
        exact_mod_cast this
      have h1 : (0 : ℚ) < defaultFactor i := by exact_mod_cast defaultFactor_pos i
      exact div_le_div_of_nonneg_left h0 h1 (by exact_mod_cast defaultFactor_mono hij)
    refine ⟨a1, a2, by rw [b6, b7, List.map_map]; rfl, b2, b3, ?_, ?_⟩
    · intro level hlev
      constructor
      · intro h
        have hlt : level < tds.length := by omega
        have := b9 tds[level] (List.getElem_mem hlt)
        rw [(hns level hlt).1, hp.min_samples] at this
        exact_mod_cast this
      · intro h
        by_contra hcon
        obtain ⟨x, inc, new, g1, g2, g3, g4⟩ := b10 (by omega)
        have hpos : 1 ≤ dec.md.nLevels := b2
        obtain ⟨m, hm⟩ : ∃ m, dec.md.nLevels = m + 1 := ⟨dec.md.nLevels - 1, by omega⟩
        rw [hm, List.getElem?_cons_succ, List.getElem?_eq_getElem (by omega)] at g1
        injection g1 with g1
        subst g1
        obtain ⟨c1, c2, c3, c4, c5⟩ := hns m (by omega)
        rw [hm] at g2
        obtain ⟨f1, f2, f3⟩ := default_increments (m + 1) inc g2
        simp only [Nat.add_one_ne_zero, if_false, Nat.add_sub_cancel] at f3
        obtain ⟨td', e1, e2⟩ := resample_step hl hlim c4 (by rw [c5]; exact hch) f1 f2
        simp only [if_true] at g3
        rw [g3, Except.ok.injEq] at e1
        subst e1
        have hF : (defaultFactor (m + 1) : ℚ) = inc * defaultFactor m := by exact_mod_cast f3.symm
        have e3 : new.md.nSamples = ⌈(td.md.nSamples : ℚ) / defaultFactor (m + 1)⌉ := by
          rw [e2, c1, ceil_ceil_div _ _ f1, hF]
          congr 1
          rw [div_div, mul_comm]
        have e4 := hmono (m + 1) level (by omega)
        rw [hp.min_samples] at g4
        push_cast at g4
        omega
    · intro level lm hlm
      rw [b6, List.getElem?_map] at hlm
      have hlt : level < tds.length := by
        by_contra hcon
        rw [List.getElem?_eq_none (by omega)] at hlm
        cases hlm
      rw [List.getElem?_eq_getElem hlt, Option.map_some, Option.some.injEq] at hlm
      subst hlm
      obtain ⟨c1, c2, c3, -, -⟩ := hns level hlt
      exact ⟨by omega, c2, c1, c3⟩

/-! ## Windows -/

/-- Specification: the window size of a level with the given sampling frequency: a quarter of a second, at least 128 samples. -/
def defaultWindow (fs : ℚ) : ℤ := max ⌊fs / 4⌋ 128

/-- **C63**. The default window setup accepts all decimated data: windows are a quarter of a second long but at least 128 samples, and
overlap by a quarter (at least 32 samples). -/
theorem C63_windows (levelFs : List ℚ) :
    ({} : WindowSetup).run levelFs.length levelFs = .ok {
      nLevels := levelFs.length, minNWins := 5, winSizes := levelFs.map defaultWindow,
      olapSizes := levelFs.map fun fs => defaultWindow fs / 4 } := by
  have h1 : ({} : WindowSetup).getWinSizes levelFs.length levelFs = .ok (levelFs.map defaultWindow) := by
    unfold WindowSetup.getWinSizes
    have : levelFs.map defaultWindow = (List.range levelFs.length).map fun i => defaultWindow (levelFs.getD i 0) := by
      apply List.ext_getElem (by simp)
      intro i h1 h2
      simp only [List.length_map] at h1
      simp [List.getElem?_eq_getElem h1]
    rw [this]
    refine mapM_ok_map fun i hi => ?_
    have hi := List.mem_range.1 hi
    unfold WindowSetup.levelWinSize
    rw [pyIndex_natCast _ _ hi, List.getD_eq_getElem?_getD, List.getElem?_eq_getElem hi]
    rfl
  have h2 : ({} : WindowSetup).getOlapSizes (levelFs.map defaultWindow) = levelFs.map fun fs => defaultWindow fs / 4 := by
    unfold WindowSetup.getOlapSizes
    rw [List.map_map]
    refine List.map_congr_left fun fs _ => ?_
    have hw : 128 ≤ defaultWindow fs := le_max_right _ _
    have : pyInt ((defaultWindow fs : ℚ) * (1 / 4)) = defaultWindow fs / 4 := by
      unfold pyInt
      have h0 : (0 : ℚ) ≤ (defaultWindow fs : ℚ) * (1 / 4) := by
        have : (0 : ℚ) ≤ defaultWindow fs := by exact_mod_cast (by omega : (0 : ℤ) ≤ defaultWindow fs)
        positivity
      rw [if_pos h0, show (defaultWindow fs : ℚ) * (1 / 4) = (defaultWindow fs : ℚ) / ((4 : ℕ) : ℚ) by push_cast; ring,
        Rat.floor_intCast_div_natCast]
      rfl
    show max (pyInt ((defaultWindow fs : ℚ) * (1 / 4))) 32 = _
    rw [this]
    omega
  unfold WindowSetup.run
  simp only [h1, fitLevels, bind, Except.bind, Option.getD_none, List.length_map, lt_irrefl, if_false, pure, Except.pure]
  rw [List.take_of_length_le (l := levelFs.map defaultWindow) (by simp), h2, List.length_map, if_neg (lt_irrefl _),
    List.take_of_length_le (by simp)]

/-- At least five windows fit when the recording has the samples of a window and of five increments. -/
theorem five_windows {md : LevelMeta} (hc : md.Consistent) {ref : ℚ} (href : ref ≤ md.firstTime) {w o : ℤ} (ho : o < w) (hw : 1 ≤ w)
    {table : List WinRow} (h : getWinTable ref md w o = .ok table) (hn : 5 * (w - o) + w ≤ md.nSamples) : 5 ≤ table.length := by
  have hτ := hc.period_pos
  set τ := toTimedelta (1 / md.fs) with hτdef
  have hinc : (0 : ℚ) < ((w - o : ℤ) : ℚ) := by
    have : 0 < w - o := by omega
    exact_mod_cast this
  let x : ℤ := ⌈(md.firstTime - ref) / (((w - o : ℤ) : ℚ) * τ)⌉
  have hpos : (0 : ℚ) < ((w - o : ℤ) : ℚ) * τ := mul_pos hinc hτ
  have hx1 : md.firstTime - ref ≤ x * (((w - o : ℤ) : ℚ) * τ) := by
    have := Int.le_ceil ((md.firstTime - ref) / (((w - o : ℤ) : ℚ) * τ))
    rwa [div_le_iff₀ hpos] at this
  have hx2 : (x : ℚ) * (((w - o : ℤ) : ℚ) * τ) < md.firstTime - ref + ((w - o : ℤ) : ℚ) * τ := by
    have := Int.ceil_lt_add_one ((md.firstTime - ref) / (((w - o : ℤ) : ℚ) * τ))
    have h3 : (x : ℚ) - 1 < (md.firstTime - ref) / (((w - o : ℤ) : ℚ) * τ) := by
      have : (x : ℚ) < (md.firstTime - ref) / (((w - o : ℤ) : ℚ) * τ) + 1 := this
      linarith
    rw [lt_div_iff₀ hpos] at h3
    linarith
  have hfit : ∀ k : ℕ, k < 5 → WinFits md ref w o (x + k) := by
    intro k hk
    have hk0 : (0 : ℚ) ≤ k := by positivity
    have hk4 : (k : ℚ) ≤ 4 := by exact_mod_cast (by omega : k ≤ 4)
    unfold WinFits winInstant
    rw [← hτdef]
    constructor
    · push_cast at hx1 ⊢
      push_cast at hpos
      nlinarith
    · rw [hc.last, ← hτdef]
      have hn' : ((5 * (w - o) + w : ℤ) : ℚ) ≤ md.nSamples := by exact_mod_cast hn
      push_cast at hx2 hpos hn' ⊢
      nlinarith
  have hmem : ∀ k : ℕ, k < 5 → (x + k) ∈ table.map WinRow.globalWin := fun k hk =>
    (C09_table_complete md hc ref w o ho hw href table h _).1 (hfit k hk)
  have hsub : ((List.range 5).map fun (k : ℕ) => x + (k : ℤ)) ⊆ table.map WinRow.globalWin := by
    intro g hg
    obtain ⟨k, hk, rfl⟩ := List.mem_map.1 hg
    exact hmem k (List.mem_range.1 hk)
  have hnd : ((List.range 5).map fun (k : ℕ) => x + (k : ℤ)).Nodup :=
    (List.nodup_map_iff (fun a b hab => by simpa using hab)).2 List.nodup_range
  have := (List.subperm_of_subset hnd hsub).length_le
  simpa using this

/-- Five windows need the samples of a window and of four increments. -/
theorem five_windows_need {md : LevelMeta} (hc : md.Consistent) {ref : ℚ} (href : ref ≤ md.firstTime) {w o : ℤ} (ho : o < w) (hw : 1 ≤ w)
    {table : List WinRow} (h : getWinTable ref md w o = .ok table) (h5 : 5 ≤ table.length) : 4 * (w - o) + w ≤ md.nSamples := by
  obtain ⟨⟨f, l, -, -, hg⟩, -, -⟩ := C08_windows_consecutive md hc.fs_pos ref w o table h
  have hmem : ∀ k : ℕ, k < 5 → f + k ∈ table.map WinRow.globalWin := by
    intro k hk
    rw [hg]
    exact List.mem_map.2 ⟨k, List.mem_range.2 (by omega), rfl⟩
  have h0 := (C09_table_complete md hc ref w o ho hw href table h _).2 (hmem 0 (by norm_num))
  have h4 := (C09_table_complete md hc ref w o ho hw href table h _).2 (hmem 4 (by norm_num))
  unfold WinFits winInstant at h0 h4
  rw [hc.last] at h4
  have hτ := hc.period_pos
  set τ := toTimedelta (1 / md.fs)
  have : (((4 * (w - o) + w - 1 : ℤ)) : ℚ) * τ ≤ ((md.nSamples - 1 : ℤ) : ℚ) * τ := by
    have a := h0.1
    have b := h4.2
    push_cast at a b ⊢
    nlinarith
  have := le_of_mul_le_mul_right this hτ
  have : 4 * (w - o) + w - 1 ≤ md.nSamples - 1 := by exact_mod_cast this
  omega

/-! ## Processing -/

/-- What is assumed of scipy (lengths of resampled rows, `limit_denominator`, `next_fast_len`) and of the evaluation frequencies as
computed. -/
structure DefaultEnv (sp : SciPy) (ladder : ℚ → ℕ → List ℚ) (nextFastLen : ℕ → ℕ) : Prop where
  lawful : sp.Lawful
  small : KeepsSmall sp
  length : ∀ fs n, (ladder fs n).length = n
  ladder : ∀ fs n, 0 < fs → IsLadder fs (ladder fs n)
  fast : ∀ n, n ≤ nextFastLen n

/-- A recording that can be processed. -/
structure Recording (td : TimeData ℚ) : Prop where
  consistent : td.Consistent
  two : 2 ≤ td.md.chans.length
  rate : td.md.fs ≤ 10 ^ 13

theorem window_room {fs : ℚ} {n : ℤ} (h1 : 608 ≤ n) (h2 : 6 / 5 * fs ≤ n) :
    5 * (defaultWindow fs - defaultWindow fs / 4) + defaultWindow fs ≤ n := by
  unfold defaultWindow
  rcases le_total ⌊fs / 4⌋ 128 with h | h
  · rw [max_eq_right h]; omega
  · rw [max_eq_left h]
    have h3 := Int.floor_le (fs / 4)
    set w := ⌊fs / 4⌋
    have h4 : (24 : ℚ) * w ≤ 5 * n := by linarith
    have h5 : 24 * w ≤ 5 * n := by exact_mod_cast h4
    omega

theorem window_within {fs : ℚ} {n : ℤ} (h1 : 256 ≤ n) (h2 : fs / 4 ≤ n) : defaultWindow fs ≤ n := by
  unfold defaultWindow
  refine max_le ?_ (by omega)
  have h3 := Int.floor_le (fs / 4)
  have : ((⌊fs / 4⌋ : ℤ) : ℚ) ≤ n := h3.trans h2
  exact_mod_cast this

/-- The default time processors keep everything but the values and the history. -/
theorem default_procs (sp : SciPy) (td : TimeData ℚ) :
    ∃ tdp, runTimeProcessors sp [.interpolateNans, .removeMean] td = .ok tdp ∧ tdp.md.fs = td.md.fs ∧ tdp.md.chans = td.md.chans ∧
      tdp.md.nSamples = td.md.nSamples ∧ tdp.md.firstTime = td.md.firstTime :=
  ⟨_, rfl, rfl, rfl, rfl, rfl⟩

/-- The levels that default windowing keeps. -/
theorem default_windowed {dec : DecData ℚ} (hc : dec.Consistent) (hfs : dec.md.fs = dec.md.levels.map (·.fs)) {fs : ℚ} {n : ℤ}
    {first ref : DateTime} (href : ref ≤ first)
    (hlev : ∀ (level : ℕ) (lm : LevelMeta), dec.md.levels[level]? = some lm → level < 8 ∧ lm.fs = fs / defaultFactor level ∧
      lm.nSamples = ⌈(n : ℚ) / defaultFactor level⌉ ∧ lm.firstTime = first)
    (hcount : ∀ level < 8, level < dec.md.nLevels ↔ 256 ≤ ⌈(n : ℚ) / defaultFactor level⌉) {wp : WinParams}
    (hwp : ({} : WindowSetup).run dec.md.nLevels dec.md.fs = .ok wp) {win : WinData ℚ} (h : windowerRun ref wp dec = .ok win) :
    (∀ level < 8, 608 * (defaultFactor level : ℤ) ≤ n → 6 / 5 * fs ≤ n → level < win.md.nLevels) ∧
    (∀ level < win.md.nLevels, level < 8 ∧ 4 * defaultWindow (fs / defaultFactor level) ≤ ⌈(n : ℚ) / defaultFactor level⌉) ∧
    (∀ (level : ℕ) (wlm : WinLevelMeta), win.md.levels[level]? = some wlm → wlm.fs = fs / defaultFactor level ∧ 5 ≤ wlm.nWins ∧
      wlm.winSize = defaultWindow (fs / defaultFactor level) ∧ wlm.olapSize = defaultWindow (fs / defaultFactor level) / 4) := by
  have hnl : dec.md.nLevels = dec.md.fs.length := by rw [hfs, List.length_map, hc.n_levels]
  rw [hnl, C63_windows, Except.ok.injEq] at hwp
  subst hwp
  have hsize : ∀ (level : ℕ) (lm : LevelMeta), dec.md.levels[level]? = some lm → ∀ w o,
      (dec.md.fs.map defaultWindow)[level]? = some w → (dec.md.fs.map fun fs => defaultWindow fs / 4)[level]? = some o →
      w = defaultWindow (fs / defaultFactor level) ∧ o = defaultWindow (fs / defaultFactor level) / 4 := by
    intro level lm hlm w o hw ho
    rw [hfs, List.map_map, List.getElem?_map, hlm] at hw ho
    simp only [Option.map_some, Option.some.injEq, Function.comp] at hw ho
    obtain ⟨-, e, -⟩ := hlev level lm hlm
    rw [← hw, ← ho, e]
    exact ⟨rfl, rfl⟩
  have hF : ∀ level, (0 : ℚ) < defaultFactor level := fun level => by exact_mod_cast defaultFactor_pos level
  have h128 : ∀ f, 128 ≤ defaultWindow f := fun f => le_max_right _ _
  obtain ⟨a1, a2, a3, a4, a5, a6, a7, a8⟩ := C12_levels ref _ dec hc win h
  refine ⟨?_, ?_, ?_⟩
  · intro level hlev8 hn hsec
    by_contra hcon
    have hle : win.md.nLevels ≤ level := by omega
    set m := win.md.nLevels
    have hm8 : m < 8 := by omega
    have hnm : 608 ≤ ⌈(n : ℚ) / defaultFactor m⌉ := by
      have h1 : (608 : ℚ) * defaultFactor level ≤ n := by exact_mod_cast hn
      have h2 : (defaultFactor m : ℚ) ≤ defaultFactor level := by exact_mod_cast defaultFactor_mono hle
      have h3 : (608 : ℚ) ≤ (n : ℚ) / defaultFactor m := by
        rw [le_div_iff₀ (hF m)]; nlinarith
      have h4 := h3.trans (Int.le_ceil _)
      exact_mod_cast h4
    have hmd : m < dec.md.nLevels := (hcount m hm8).2 (by omega)
    obtain ⟨lm, w, o, table, b1, b2, b3, b4, b5⟩ := a8 hmd
    obtain ⟨rfl, rfl⟩ := hsize m lm b1 w o b2 b3
    obtain ⟨-, c1, c2, c3⟩ := hlev m lm b1
    have hsec' : 6 / 5 * (fs / defaultFactor m) ≤ (⌈(n : ℚ) / defaultFactor m⌉ : ℤ) := by
      refine le_trans ?_ (Int.le_ceil _)
      rw [← mul_div_assoc]
      exact div_le_div_of_nonneg_right hsec (hF m).le
    have hwm := h128 (fs / defaultFactor m)
    have := five_windows (hc.meta_ok lm (List.mem_of_getElem? b1)) (by rw [c3]; exact href) (by omega) (by omega) b4
      (by rw [c2]; exact window_room hnm hsec')
    change (table.length : ℤ) < 5 at b5
    omega
  · intro level hlt
    obtain ⟨lm, w, o, table, wlm, b1, b2, b3, b4, b5, -⟩ := a7 level hlt
    obtain ⟨rfl, rfl⟩ := hsize level lm b1 w o b2 b3
    obtain ⟨c0, c1, c2, c3⟩ := hlev level lm b1
    have hwm := h128 (fs / defaultFactor level)
    have := five_windows_need (hc.meta_ok lm (List.mem_of_getElem? b1)) (by rw [c3]; exact href) (by omega) (by omega) b4
      (by change (5 : ℤ) ≤ table.length at b5; omega)
    rw [c2] at this
    exact ⟨c0, by omega⟩
  · intro level wlm hwlm
    have hlt : level < win.md.nLevels := by
      rw [← a3]
      exact (List.getElem?_eq_some_iff.1 hwlm).1
    obtain ⟨lm, w, o, table, wlm', b1, b2, b3, b4, b5, b6, b7, b8, b9, b10, -⟩ := a7 level hlt
    obtain ⟨rfl, rfl⟩ := hsize level lm b1 w o b2 b3
    obtain ⟨c0, c1, c2, c3⟩ := hlev level lm b1
    rw [hwlm, Option.some.injEq] at b6
    subst b6
    exact ⟨b7.trans c1, by rw [b8]; exact b5, b9, b10⟩

section Processing
variable {readers : List (TReader ℂ)} {sp : SciPy} {ladder : ℚ → ℕ → List ℚ} {nextFastLen : ℕ → ℕ} {kaiser : ℕ → List ℝ}
  {calibrate : FS ℂ → Path → SpecData ℂ → Except Err (SpecData ℂ)} {sk : Sklearn}

/-- The decimated recording with the facts used below. -/
theorem default_decimated (henv : DefaultEnv sp ladder nextFastLen) {td : TimeData ℚ} (htd : Recording td) :
    ∃ tdp p, runTimeProcessors sp [.interpolateNans, .removeMean] td = .ok tdp ∧
      ({} : DecSetup ℚ).run ladder tdp.md.fs = .ok p ∧ p.nLevels = 8 ∧ p.perLevel = 5 ∧ p.evalFreqs = ladder td.md.fs 40 ∧
      (td.md.nSamples < 256 → Decimator.run sp true 3 p tdp = .error .key) ∧
      (256 ≤ td.md.nSamples → ∃ dec, Decimator.run sp true 3 p tdp = .ok dec ∧ dec.Consistent ∧ dec.md.chans = td.md.chans ∧
        dec.md.fs = dec.md.levels.map (·.fs) ∧ 1 ≤ dec.md.nLevels ∧ dec.md.nLevels ≤ 8 ∧
        (∀ level < 8, level < dec.md.nLevels ↔ 256 ≤ ⌈(td.md.nSamples : ℚ) / defaultFactor level⌉) ∧
        ∀ (level : ℕ) (lm : LevelMeta), dec.md.levels[level]? = some lm → level < 8 ∧ lm.fs = td.md.fs / defaultFactor level ∧
          lm.nSamples = ⌈(td.md.nSamples : ℚ) / defaultFactor level⌉ ∧ lm.firstTime = td.md.firstTime) := by
  obtain ⟨tdp, h1, h2, h3, h4, h5⟩ := default_procs sp td
  have hc := (C23_chain_consistent sp henv.lawful _ (by
    intro q hq
    simp only [List.mem_cons, List.not_mem_nil, or_false] at hq
    rcases hq with rfl | rfl <;> trivial) td tdp htd.consistent h1).1
  have hfs := htd.consistent.fs_pos
  have hrun := C63_decimation ladder td.md.fs hfs (henv.length _ _) (henv.ladder _ _ hfs)
  obtain ⟨a, b⟩ := C63_levels henv.lawful henv.small (p := {
      fs := td.md.fs, nLevels := 8, perLevel := 5, minSamples := 256, evalFreqs := ladder td.md.fs 40,
      decFactors := [1, 4, 32, 128, 1024, 4096, 32768, 131072], decIncrements := [1, 4, 8, 4, 8, 4, 8, 4],
      decFs := (List.range 8).map fun level => td.md.fs / (defaultFactor level : ℚ) }) hc
    (by rw [h3]; have := htd.two; omega) (by rw [h2]; exact htd.rate) ⟨rfl, rfl, rfl, by simp⟩
  rw [h2, h3, h4, h5] at b
  rw [h4] at a
  exact ⟨tdp, _, h1, by rw [h2]; exact hrun, rfl, rfl, rfl, a, b⟩

/-- The windows of a recording, with the facts used below. -/
theorem default_to_windows (henv : DefaultEnv sp ladder nextFastLen) {td : TimeData ℚ} (htd : Recording td) {ref : DateTime}
    (href : ref ≤ td.md.firstTime) (hn : 608 ≤ td.md.nSamples) (hsec : 6 / 5 * td.md.fs ≤ td.md.nSamples) :
    ∃ tdp p dec wp win, runTimeProcessors sp [.interpolateNans, .removeMean] td = .ok tdp ∧
      ({} : DecSetup ℚ).run ladder tdp.md.fs = .ok p ∧ p.nLevels = 8 ∧ p.perLevel = 5 ∧ p.evalFreqs = ladder td.md.fs 40 ∧
      Decimator.run sp true 3 p tdp = .ok dec ∧ ({} : WindowSetup).run dec.md.nLevels dec.md.fs = .ok wp ∧
      windowerRun ref wp dec = .ok win ∧ win.Shaped ∧ win.md.chans = td.md.chans ∧ win.md.refTime = ref ∧ 1 ≤ win.md.nLevels ∧
      (∀ level < 8, 608 * (defaultFactor level : ℤ) ≤ td.md.nSamples → level < win.md.nLevels) ∧
      (∀ level < win.md.nLevels, level < 8 ∧ 511 * (defaultFactor level : ℤ) < td.md.nSamples) ∧
      ∀ (level : ℕ) (wlm : WinLevelMeta), win.md.levels[level]? = some wlm → wlm.fs = td.md.fs / defaultFactor level ∧ 5 ≤ wlm.nWins ∧
        wlm.winSize = defaultWindow (td.md.fs / defaultFactor level) ∧ wlm.olapSize = defaultWindow (td.md.fs / defaultFactor level) / 4 := by
  obtain ⟨tdp, p, h1, h2, hp1, hp2, hp3, -, h4⟩ := default_decimated henv htd
  obtain ⟨dec, d1, d2, d3, d4, d5, d6, d7, d8⟩ := h4 (by omega)
  have hF : ∀ level, (0 : ℚ) < defaultFactor level := fun level => by exact_mod_cast defaultFactor_pos level
  have h128 : ∀ f, 128 ≤ defaultWindow f := fun f => le_max_right _ _
  have hfs := htd.consistent.fs_pos
  have hnl : dec.md.nLevels = dec.md.fs.length := by rw [d4, List.length_map, d2.n_levels]
  have hwp := C63_windows dec.md.fs
  rw [← hnl] at hwp
  let wp : WinParams := ⟨dec.md.nLevels, 5, dec.md.fs.map defaultWindow, dec.md.fs.map fun fs => defaultWindow fs / 4⟩
  change _ = Except.ok wp at hwp
  obtain ⟨win, hwin⟩ := C12_succeeds ref wp dec d2 (by show (1 : ℤ) ≤ 5; norm_num) (le_refl _) (by
    intro level lm hlm
    obtain ⟨c0, c1, c2, c3⟩ := d8 level lm hlm
    have hw := h128 lm.fs
    have hc := d2.meta_ok lm (List.mem_of_getElem? hlm)
    have hlt : level < dec.md.nLevels := by
      rw [← d2.n_levels]; exact (List.getElem?_eq_some_iff.1 hlm).1
    have hsec' : 6 / 5 * lm.fs ≤ lm.nSamples := by
      rw [c1, c2]
      refine le_trans ?_ (Int.le_ceil _)
      rw [← mul_div_assoc]
      exact div_le_div_of_nonneg_right hsec (hF level).le
    have h256 : 256 ≤ lm.nSamples := by rw [c2]; exact (d7 level c0).1 hlt
    have hlfs := hc.fs_pos
    obtain ⟨table, ht⟩ := C09_table_succeeds lm hc ref (defaultWindow lm.fs) (defaultWindow lm.fs / 4) (by omega)
      (by rw [c3]; exact href) (by omega) (window_within h256 (by linarith))
    refine ⟨defaultWindow lm.fs, defaultWindow lm.fs / 4, table, ?_, ?_, by omega, by omega, ht, ?_⟩
    · show (dec.md.fs.map defaultWindow)[level]? = _
      rw [d4, List.map_map, List.getElem?_map, hlm]; rfl
    · show (dec.md.fs.map fun fs => defaultWindow fs / 4)[level]? = _
      rw [d4, List.map_map, List.getElem?_map, hlm]; rfl
    · rintro rfl
      have h608 : 608 ≤ lm.nSamples := by
        rw [c2]; simpa [defaultFactor] using hn
      have := five_windows hc (by rw [c3]; exact href) (by omega) (by omega) ht (window_room h608 hsec')
      show (5 : ℤ) ≤ table.length
      exact_mod_cast this) d5
  obtain ⟨w1, w2, w3⟩ := default_windowed d2 d4 href d8 d7 hwp hwin
  obtain ⟨l1, l2, l3, l4, l5, l6, -⟩ := C12_levels ref wp dec d2 win hwin
  have hshaped : win.Shaped := by
    refine C51_windower_output_shaped ref wp dec d2 (by rw [d3]; exact htd.two) (by show (2 : ℤ) ≤ 5; norm_num) ?_ win hwin
    intro i w o hw ho
    change (dec.md.fs.map defaultWindow)[i]? = some w at hw
    change (dec.md.fs.map fun fs => defaultWindow fs / 4)[i]? = some o at ho
    rw [List.getElem?_map, Option.map_eq_some_iff] at hw ho
    obtain ⟨f, hf, rfl⟩ := hw
    obtain ⟨f', hf', rfl⟩ := ho
    rw [hf, Option.some.injEq] at hf'
    subst hf'
    have := h128 f
    omega
  refine ⟨tdp, p, dec, wp, win, h1, h2, hp1, hp2, hp3, d1, hwp, hwin, hshaped, by rw [l6, d3], l5, l1, fun level h8 h608 =>
    w1 level h8 h608 hsec, ?_, w3⟩
  intro level hlt
  obtain ⟨h8, h5⟩ := w2 level hlt
  have h6 := h128 (td.md.fs / defaultFactor level)
  have h7 : 511 < ⌈(td.md.nSamples : ℚ) / defaultFactor level⌉ := by omega
  rw [Int.lt_ceil, lt_div_iff₀ (hF level)] at h7
  exact ⟨h8, by exact_mod_cast h7⟩

/-- **C63**. The default configuration processes every recording with at least two channels that does not start before the reference
time, has at least 608 samples and is at least 1.2 seconds long: the result has the evaluation frequencies of every level that is left
with 608 samples, at least five windows of a quarter of a second (at least 128 samples) per level, and never a level with less than 512
samples. -/
theorem C63_processed (henv : DefaultEnv sp ladder nextFastLen) {td : TimeData ℚ} (htd : Recording td) {ref : DateTime}
    (href : ref ≤ td.md.firstTime) (hn : 608 ≤ td.md.nSamples) (hsec : 6 / 5 * td.md.fs ≤ td.md.nSamples) :
    ∃ p evals, (defaultConfig readers sp ladder nextFastLen kaiser calibrate sk).toEvals ref td = .ok (p, evals) ∧ evals.Shaped ∧
      evals.md.chans = td.md.chans ∧ evals.md.refTime = ref ∧ 1 ≤ evals.md.nLevels ∧ evals.md.nLevels ≤ 8 ∧ p.perLevel = 5 ∧
      (∀ level < 8, 608 * (defaultFactor level : ℤ) ≤ td.md.nSamples → level < evals.md.nLevels) ∧
      (∀ level < evals.md.nLevels, 511 * (defaultFactor level : ℤ) < td.md.nSamples) ∧
      ∀ (level : ℕ) (lm : SpecLevelMeta), evals.md.levels[level]? = some lm → lm.fs = td.md.fs / defaultFactor level ∧ 5 ≤ lm.nWins ∧
        lm.winSize = defaultWindow (td.md.fs / defaultFactor level) ∧ lm.olapSize = defaultWindow (td.md.fs / defaultFactor level) / 4 ∧
        lm.freqs = ((ladder td.md.fs 40).drop (5 * level)).take 5 := by
  obtain ⟨tdp, p, dec, wp, win, h1, h2, hp1, hp2, hp3, d1, hwp, hwin, hshaped, hch, hrt, l1, w1, w2, w3⟩ :=
    default_to_windows henv htd href hn hsec
  have hF : ∀ level, (0 : ℚ) < defaultFactor level := fun level => by exact_mod_cast defaultFactor_pos level
  have h128 : ∀ f, 128 ≤ defaultWindow f := fun f => le_max_right _ _
  have hfs := htd.consistent.fs_pos
  have l3 := hshaped.n_levels
  have hle8 : win.md.nLevels ≤ 8 := by
    have := (w2 (win.md.nLevels - 1) (by omega)).1
    omega
  obtain ⟨spec, s1, s2, s3, s4, s5, s6⟩ := C51_fourier_run nextFastLen
    (fun n row => fourierRow .linear kaiser n (row.map fun (q : ℚ) => (q : ℝ)))
    (fun n row => by unfold fourierRow; rw [rfftOrtho_length]) win hshaped
  have hlevel : ∀ (i : ℕ) (lm : SpecLevelMeta), spec.md.levels[i]? = some lm → ∃ wlm, win.md.levels[i]? = some wlm ∧
      lm.freqs = rfftfreq (nextFastLen wlm.winSize.toNat) wlm.fs ∧ lm.fs = wlm.fs ∧ lm.nWins = wlm.nWins ∧ lm.winSize = wlm.winSize ∧
      lm.olapSize = wlm.olapSize := by
    intro i lm hlm
    have hi : i < win.md.levels.length := by
      rw [l3, ← s4, ← s2.n_levels]; exact (List.getElem?_eq_some_iff.1 hlm).1
    obtain ⟨wins, lm', -, -, e3, e4, e5, e6, e7, e8, -⟩ := s6 i _ (List.getElem?_eq_getElem hi)
    rw [hlm, Option.some.injEq] at e3
    subst e3
    exact ⟨_, List.getElem?_eq_getElem hi, e4, e5, e6, e7, e8⟩
  obtain ⟨evals, v1, v2, v3, v4, v5, v6⟩ := C27_evaluation p spec s2 (by
    intro lm hlm
    obtain ⟨i, hi⟩ := List.getElem?_of_mem hlm
    obtain ⟨wlm, e1, e2, -⟩ := hlevel i lm hi
    obtain ⟨c1, c2, c3, -⟩ := w3 i wlm e1
    have hw := h128 (td.md.fs / defaultFactor i)
    have hfast := henv.fast wlm.winSize.toNat
    obtain ⟨g1, g2, -⟩ := C51_frequency_grid (nextFastLen wlm.winSize.toNat) wlm.fs (by omega) (by
      rw [c1]; exact div_pos hfs (hF i))
    rw [e2]
    exact ⟨g2, by omega⟩) (by rw [s4, hp1]; omega)
  refine ⟨p, evals, ?_, v2, by rw [v3, s3, hch], by rw [v5, s5, hrt], by rw [v4, s4]; exact l1, by rw [v4, s4]; omega, hp2, ?_, ?_, ?_⟩
  · unfold Config.toEvals Config.toSpectra Config.processSpectra Config.window Config.decimate defaultConfig
    simp only [h1, h2, d1, hwp, hwin, bind, Except.bind, pure, Except.pure, List.foldlM_nil]
    rw [s1]
    simp only
    rw [v1]
  · intro level h8 h608
    rw [v4, s4]
    exact w1 level h8 h608
  · intro level hlt
    rw [v4, s4] at hlt
    exact (w2 level hlt).2
  · intro level lm' hlm'
    have hi : level < spec.md.levels.length := by
      rw [s2.n_levels, ← v4, ← v2.n_levels]; exact (List.getElem?_eq_some_iff.1 hlm').1
    obtain ⟨ef, arr, arr', lm'', g1, -, -, g4, g5, g6, g7, g8, g9, g10, -⟩ := v6 level _ (List.getElem?_eq_getElem hi)
    rw [hlm', Option.some.injEq] at g4
    subst g4
    obtain ⟨wlm, e1, -, e3, e4, e5, e6⟩ := hlevel level _ (List.getElem?_eq_getElem hi)
    obtain ⟨c1, c2, c3, c4⟩ := w3 level wlm e1
    refine ⟨by rw [g10, e3, c1], by rw [g6, e4]; exact c2, by rw [g8, e5, c3], by rw [g9, e6, c4], ?_⟩
    rw [g5]
    obtain ⟨h8, -⟩ := w2 level (by rw [← s4, ← s2.n_levels]; exact hi)
    unfold DecParams.getEvalFreqs DecParams.checkLevel at g1
    rw [if_neg (by rw [hp1]; omega)] at g1
    simp only [bind, Except.bind, pure, Except.pure, Except.ok.injEq] at g1
    rw [← g1, hp2, hp3]
    have hlen := henv.length td.md.fs 40
    have := pySlice_eq (ladder td.md.fs 40) (a := 5 * (level : ℤ)) (b := 5 * level + 5) (by omega) (by omega) (by omega)
    push_cast at this ⊢
    rw [this]
    congr 2 <;> omega

/-- **C63**. A recording of less than 512 samples, or of less than a second (but for four samples), is refused. -/
theorem C63_refused (henv : DefaultEnv sp ladder nextFastLen) {td : TimeData ℚ} (htd : Recording td) {ref : DateTime}
    (href : ref ≤ td.md.firstTime) {p : DecParams ℚ} {evals : SpecData ℂ}
    (h : (defaultConfig readers sp ladder nextFastLen kaiser calibrate sk).toEvals ref td = .ok (p, evals)) :
    512 ≤ td.md.nSamples ∧ td.md.fs < td.md.nSamples + 4 := by
  obtain ⟨tdp, p', h1, h2, hp1, hp2, hp3, h3, h4⟩ := default_decimated henv htd
  unfold Config.toEvals Config.toSpectra Config.processSpectra Config.window Config.decimate defaultConfig at h
  simp only [h1, h2, bind, Except.bind] at h
  rcases lt_or_ge td.md.nSamples 256 with hlt | hge
  · rw [h3 hlt] at h; cases h
  · obtain ⟨dec, d1, d2, d3, d4, d5, d6, d7, d8⟩ := h4 hge
    have hnl : dec.md.nLevels = dec.md.fs.length := by rw [d4, List.length_map, d2.n_levels]
    have hwp := C63_windows dec.md.fs
    rw [← hnl] at hwp
    simp only [d1, hwp] at h
    cases hw : windowerRun ref _ dec with
    | error e => rw [hw] at h; cases h
    | ok win =>
      obtain ⟨-, w2, -⟩ := default_windowed d2 d4 href d8 d7 hwp hw
      obtain ⟨l1, -⟩ := C12_levels ref _ dec d2 win hw
      obtain ⟨-, h5⟩ := w2 0 (by omega)
      have e : defaultFactor 0 = 1 := rfl
      rw [e] at h5
      simp only [Nat.cast_one, div_one, Int.ceil_intCast] at h5
      have h6 : 128 ≤ defaultWindow td.md.fs := le_max_right _ _
      have h7 : ⌊td.md.fs / 4⌋ ≤ defaultWindow td.md.fs := le_max_left _ _
      refine ⟨by omega, ?_⟩
      have h8 := Int.lt_floor_add_one (td.md.fs / 4)
      have h9 : (4 : ℚ) * ⌊td.md.fs / 4⌋ ≤ td.md.nSamples := by exact_mod_cast (by omega : 4 * ⌊td.md.fs / 4⌋ ≤ td.md.nSamples)
      linarith

/-! ## Estimation -/

theorem flatten_ladder (l : List ℚ) (m : ℕ) (hm : 5 * m ≤ l.length) (rows : List (List ℚ)) (hr : rows.length = m)
    (h : ∀ (i : ℕ) (row : List ℚ), rows[i]? = some row → row = (l.drop (5 * i)).take 5) : rows.flatten = l.take (5 * m) := by
  have : rows = (List.range m).map fun i => (l.drop (5 * i)).take 5 := by
    apply List.ext_getElem (by simp [hr])
    intro i h1 h2
    rw [h i _ (List.getElem?_eq_getElem h1)]
    simp
  rw [this]
  clear this h hr rows
  induction m with
  | zero => simp
  | succ m ih =>
    rw [List.range_succ, List.map_append, List.flatten_append, ih (by omega), List.map_singleton, List.flatten_singleton,
      ← List.take_add, Nat.mul_succ]

/-- What the default transfer function asks of a recording. -/
theorem default_suits {td : TimeData ℚ} (htd : Recording td) (hnd : td.md.chans.Nodup)
    (hch : ∀ c ∈ ["Ex", "Ey", "Hx", "Hy"], c ∈ td.md.chans) :
    (defaultConfig readers sp ladder nextFastLen kaiser calibrate sk).Suits td where
  consistent := htd.consistent
  chans := hnd
  two := htd.two
  out := fun c hc => hch c (by
    simp only [defaultConfig, impedanceTensor, List.mem_cons, List.not_mem_nil, or_false] at hc
    rcases hc with rfl | rfl <;> simp)
  inp := fun c hc => hch c (by
    simp only [defaultConfig, impedanceTensor, List.mem_cons, List.not_mem_nil, or_false] at hc
    rcases hc with rfl | rfl <;> simp)
  cross := fun c hc => hch c (by
    simp only [defaultConfig, impedanceTensor, List.mem_cons, List.not_mem_nil, or_false] at hc
    rcases hc with rfl | rfl <;> simp)
  nodup := by simp [defaultConfig, impedanceTensor]
  counts := ⟨rfl, rfl⟩
  n_cross := rfl
  rate := by
    intro tdp h
    obtain ⟨tdp', h1, h2, -⟩ := default_procs sp td
    change runTimeProcessors sp [.interpolateNans, .removeMean] td = .ok tdp at h
    rw [h1, Except.ok.injEq] at h
    subst h
    rw [h2]
    exact htd.rate

theorem default_keys : KeysDistinct impedanceTensor := by
  intro o o' i i' a a' b b' h1 h2 h3 h4 h
  have e1 := (List.getElem?_eq_some_iff.1 h1).1
  have e2 := (List.getElem?_eq_some_iff.1 h2).1
  have e3 := (List.getElem?_eq_some_iff.1 h3).1
  have e4 := (List.getElem?_eq_some_iff.1 h4).1
  simp only [impedanceTensor, List.length_cons, List.length_nil] at e1 e2 e3 e4
  have hdec : ∀ o o' i i' : Fin 2,
      getComponentKey (["Ex", "Ey"].getD o "") (["Hx", "Hy"].getD i "") = getComponentKey (["Ex", "Ey"].getD o' "") (["Hx", "Hy"].getD i' "") →
        o = o' ∧ i = i' := by decide
  have := hdec ⟨o, e1⟩ ⟨o', e2⟩ ⟨i, e3⟩ ⟨i', e4⟩
  simp only [Fin.mk.injEq] at this
  refine this ?_
  change ["Ex", "Ey"][o]? = some a at h1
  change ["Ex", "Ey"][o']? = some a' at h2
  change ["Hx", "Hy"][i]? = some b at h3
  change ["Hx", "Hy"][i']? = some b' at h4
  simp only [List.getD_eq_getElem?_getD, h1, h2, h3, h4, Option.getD_some]
  exact h

/-- **C63**. `quick_tf` with the default configuration and without calibration data estimates an impedance tensor from every recording
with the channels `Ex`, `Ey`, `Hx` and `Hy`, of at least 608 samples and 1.2 seconds: at the first 5, 10, … or 40 evaluation
frequencies, among them the five of each level that is left with 608 samples. -/
theorem C63_succeeds (henv : DefaultEnv sp ladder nextFastLen) (hsk : TheilSenSpec sk) {td : TimeData ℚ} (htd : Recording td)
    (hnd : td.md.chans.Nodup) (hch : ∀ c ∈ ["Ex", "Ey", "Hx", "Hy"], c ∈ td.md.chans) (hn : 608 ≤ td.md.nSamples)
    (hsec : 6 / 5 * td.md.fs ≤ td.md.nSamples) (fs : FS ℂ) (dir : Path)
    (hread : (defaultConfig readers sp ladder nextFastLen kaiser calibrate sk).quickRead fs dir = .ok td) :
    ∃ (sol : Solution) (m : ℕ), (defaultConfig readers sp ladder nextFastLen kaiser calibrate sk).quickTf fs dir none = .ok sol ∧
      1 ≤ m ∧ m ≤ 8 ∧ (∀ level < 8, 608 * (defaultFactor level : ℤ) ≤ td.md.nSamples → level < m) ∧
      (∀ level < m, 511 * (defaultFactor level : ℤ) < td.md.nSamples) ∧ sol.freqs = (ladder td.md.fs 40).take (5 * m) ∧
      ∀ k < 5 * m, ∃ exx exy eyx eyy, sol.getTensor k = .ok [[exx, exy], [eyx, eyy]] := by
  obtain ⟨p, evals, hev, hsh, hc, -, h1, h8, hp5, h2, h3, h4⟩ := C63_processed henv (readers := readers) (kaiser := kaiser)
    (calibrate := calibrate) (sk := sk) htd (le_refl _) hn hsec
  have hfl := flatten_ladder (ladder td.md.fs 40) evals.md.nLevels (by rw [henv.length]; omega) (evals.md.levels.map (·.freqs))
    (by rw [List.length_map, hsh.n_levels]) (by
      intro i row hi
      rw [List.getElem?_map, Option.map_eq_some_iff] at hi
      obtain ⟨lm, hlm, rfl⟩ := hi
      exact (h4 i lm hlm).2.2.2.2)
  have hper : ∀ lm ∈ evals.md.levels, lm.freqs.length = p.perLevel := by
    intro lm hlm
    obtain ⟨i, hi⟩ := List.getElem?_of_mem hlm
    have hlt : i < evals.md.nLevels := by rw [← hsh.n_levels]; exact (List.getElem?_eq_some_iff.1 hi).1
    rw [(h4 i lm hi).2.2.2.2, hp5, List.length_take, List.length_drop, henv.length]
    omega
  -- the coefficients, whatever they are
  have hco : ∀ (k o : ℕ), ∃ Z : ℕ → ℂ, ∀ g r, quickGather (pathName dir) p impedanceTensor.gatherChans evals = .ok g →
      prepareGathered impedanceTensor g = .ok r → ∀ (out : String), impedanceTensor.outChans[o]? = some out →
      ∀ obs preds, r.getInputs k out = .ok (obs, preds) → obs.length = preds.length →
        (∀ row ∈ preds, row.length = 4) → 0 < preds.length →
        ∃ coef, (SolverConfig.theilSen false false 2000 none).getCoef sk preds obs = .ok coef ∧ 4 ≤ coef.length ∧
          ∀ i < 2, coefComplex coef i = Z i := by
    intro k o
    by_cases hex : ∃ g r out obs preds, quickGather (pathName dir) p impedanceTensor.gatherChans evals = .ok g ∧
      prepareGathered impedanceTensor g = .ok r ∧ impedanceTensor.outChans[o]? = some out ∧
      r.getInputs k out = .ok (obs, preds) ∧ obs.length = preds.length ∧ (∀ row ∈ preds, row.length = 4) ∧ 0 < preds.length
    · obtain ⟨g, r, out, obs, preds, e1, e2, e3, e4, e5, e6, e7⟩ := hex
      obtain ⟨-, coef, -, c1, c2⟩ := C62_theil_sen_draws sk hsk false false 2000 none 4 preds obs
        ⟨by norm_num, List.ne_nil_of_length_pos e7, e5, e6⟩ (by
          rintro (h | ⟨k, hk, -⟩)
          · norm_num at h
          · simp at hk)
      refine ⟨coefComplex coef, ?_⟩
      intro g' r' q1 q2 out' q3 obs' preds' q4 _ _ _
      rw [e1, Except.ok.injEq] at q1
      subst q1
      rw [e2, Except.ok.injEq] at q2
      subst q2
      rw [e3, Option.some.injEq] at q3
      subst q3
      rw [e4, Except.ok.injEq, Prod.mk.injEq] at q4
      obtain ⟨rfl, rfl⟩ := q4
      exact ⟨coef, c1, by omega, fun _ _ => rfl⟩
    · refine ⟨fun _ => 0, ?_⟩
      intro g r q1 q2 out q3 obs preds q4 q5 q6 q7
      exact absurd ⟨g, r, out, obs, preds, q1, q2, q3, q4, q5, q6, q7⟩ hex
  choose Z hZ using hco
  obtain ⟨sol, s1, s2, s3, s4⟩ := quick_by (defaultConfig readers sp ladder nextFastLen kaiser calibrate sk) default_keys fs dir td hread
    (default_suits htd hnd hch) p evals hev hsh hc hper Z (by
      intro g r hg hr k hk o out ho obs preds hin hol hrow hlm
      obtain ⟨lm, l1, l2⟩ := hlm
      have h5 := (h4 _ lm l1).2.1
      refine hZ k o g r hg hr out ho obs preds hin hol hrow ?_
      rw [l2]
      change 0 < lm.nWins.toNat * (2 * 2)
      omega)
  have hl : sol.freqs.length = 5 * evals.md.nLevels := by
    rw [s2, hfl, List.length_take, henv.length]; omega
  refine ⟨sol, evals.md.nLevels, s1, h1, h8, h2, h3, s2.trans hfl, ?_⟩
  intro k hk
  exact ⟨Z k 0 0, Z k 0 1, Z k 1 0, Z k 1 1, s4 k (by omega)⟩

open Classical in
/-- **C63**. When both electric channels are fixed real combinations of the magnetic channels, and at each evaluation frequency more than
half of the samples of four equations that the regression draws determine an impedance tensor, `quick_tf` with the default configuration
and without calibration data returns exactly that combination at every evaluation frequency. -/
theorem C63_recovered (henv : DefaultEnv sp ladder nextFastLen) (hlin : sp.Linear) {td : TimeData ℚ} (htd : Recording td)
    (hnd : td.md.chans.Nodup) (hch : ∀ c ∈ ["Ex", "Ey", "Hx", "Hy"], c ∈ td.md.chans) (hn : 608 ≤ td.md.nSamples)
    (hsec : 6 / 5 * td.md.fs ≤ td.md.nSamples) (fs : FS ℂ) (dir : Path)
    (hread : (defaultConfig readers sp ladder nextFastLen kaiser calibrate sk).quickRead fs dir = .ok td)
    (Z : ℕ → ℕ → ℝ) (hx : td.Exact ["Hx", "Hy"] (Z 0) "Ex") (hy : td.Exact ["Hx", "Hy"] (Z 1) "Ey")
    (hdraw : ∀ p evals g r, (defaultConfig readers sp ladder nextFastLen kaiser calibrate sk).toEvals td.md.firstTime td = .ok (p, evals) →
      quickGather (pathName dir) p impedanceTensor.gatherChans evals = .ok g → prepareGathered impedanceTensor g = .ok r →
      ∀ k < r.freqs.length, ∀ out ∈ ["Ex", "Ey"], ∀ obs preds, r.getInputs k out = .ok (obs, preds) →
        ∃ samples, Draws sk false 2000 none 4 preds obs samples ∧
          samples.length < 2 * samples.countP fun idx => DeterminedBy false 4 (pickRows idx preds)) :
    ∃ (sol : Solution) (m : ℕ), (defaultConfig readers sp ladder nextFastLen kaiser calibrate sk).quickTf fs dir none = .ok sol ∧
      1 ≤ m ∧ m ≤ 8 ∧ (∀ level < 8, 608 * (defaultFactor level : ℤ) ≤ td.md.nSamples → level < m) ∧
      sol.freqs = (ladder td.md.fs 40).take (5 * m) ∧
      ∀ k < 5 * m, sol.getTensor k = .ok [[(Z 0 0 : ℂ), (Z 0 1 : ℂ)], [(Z 1 0 : ℂ), (Z 1 1 : ℂ)]] := by
  obtain ⟨p, evals, hev, hsh, hc, -, h1, h8, hp5, h2, h3, h4⟩ := C63_processed henv (readers := readers) (kaiser := kaiser)
    (calibrate := calibrate) (sk := sk) htd (le_refl _) hn hsec
  have hfl := flatten_ladder (ladder td.md.fs 40) evals.md.nLevels (by rw [henv.length]; omega) (evals.md.levels.map (·.freqs))
    (by rw [List.length_map, hsh.n_levels]) (by
      intro i row hi
      rw [List.getElem?_map, Option.map_eq_some_iff] at hi
      obtain ⟨lm, hlm, rfl⟩ := hi
      exact (h4 i lm hlm).2.2.2.2)
  have hchain : (defaultConfig readers sp ladder nextFastLen kaiser calibrate sk).LinearChain := {
    lawful := henv.lawful
    scipy := hlin
    procs := by
      intro q hq
      simp only [defaultConfig, List.mem_cons, List.not_mem_nil, or_false] at hq
      rcases hq with rfl | rfl <;> exact ⟨trivial, trivial⟩
    maxSingle := by show 2 ≤ 3; norm_num
    freqs := henv.length
    windower := Or.inl rfl
    minNWins := by show (2 : ℤ) ≤ 5; norm_num
    ft_length := fun n row => by
      show (fourierRow _ _ _ _).length = _
      unfold fourierRow; rw [rfftOrtho_length]
    ft_linear := fun n => linear_fourierRow .linear kaiser n
    specProcs := by simp [defaultConfig] }
  obtain ⟨sol, s1, s2, s3, s4⟩ := recovered_by (defaultConfig readers sp ladder nextFastLen kaiser calibrate sk) hchain default_keys fs dir
    td hread (default_suits htd hnd hch) p evals hev Z (by
      intro o out ho
      have hlt := (List.getElem?_eq_some_iff.1 ho).1
      change o < 2 at hlt
      interval_cases o
      · rw [show out = "Ex" from (Option.some.inj ho).symm]; exact hx
      · rw [show out = "Ey" from (Option.some.inj ho).symm]; exact hy) (by
      intro g r hg hr k hk o out ho obs preds hin hol hrow hpred
      have hmem : out ∈ ["Ex", "Ey"] := List.mem_of_getElem? ho
      obtain ⟨samples, d1, d2⟩ := hdraw p evals g r hev hg hr k hk out hmem obs preds hin
      change ∀ row ∈ preds, row.length = 2 * 2 at hrow
      change predict preds (realCoefs 2 fun i => (Z o i : ℂ)) = obs at hpred
      have hpne : preds ≠ [] := by
        rintro rfl
        have hs : samples ≠ [] := d1.1
        have hol' : obs.length = 0 := by simpa using hol
        have hall : ∀ idx ∈ samples, idx = [] := by
          intro idx hi
          have := (d1.2.1 idx hi).2.1
          rw [hol'] at this
          exact List.length_eq_zero_iff.1 (by simpa [sampleSize] using this)
        have hpos : 0 < samples.countP fun idx => DeterminedBy false 4 (pickRows idx []) := by omega
        obtain ⟨idx, hi, hd⟩ := List.countP_pos_iff.1 hpos
        rw [hall idx hi] at hd
        have hd := of_decide_eq_true hd
        have := hd ⟨[0, 0, 0, 0], 0⟩ ⟨[1, 0, 0, 0], 0⟩ ⟨rfl, fun _ => rfl⟩ ⟨rfl, fun _ => rfl⟩ rfl
        simp at this
      have hadm : Admits false 4 ⟨realCoefs 2 fun i => (Z o i : ℂ), 0⟩ := ⟨by simp [realCoefs, List.length_flatMap], fun _ => rfl⟩
      have hcoef := C62_theil_sen_drawn sk false false 2000 none 4 preds obs ⟨by norm_num, hpne, hol, hrow⟩ (by
          rintro (h | ⟨k, hk, -⟩)
          · norm_num at h
          · simp at hk) samples d1 ⟨realCoefs 2 fun i => (Z o i : ℂ), 0⟩ hadm (by
        refine lt_of_lt_of_le d2 (Nat.mul_le_mul_left 2 ?_)
        refine List.countP_mono_left fun idx hi hd => ?_
        have hd := of_decide_eq_true hd
        refine decide_eq_true ⟨?_, hd⟩
        rw [pick_predict _ _ _ (fun i hi' => by rw [← hol]; exact (d1.2.1 idx hi).2.2 i hi'), fitted_predict_zero, hpred])
      refine ⟨_, hcoef, ?_, ?_⟩
      · change 2 * 2 ≤ (realCoefs 2 fun i => (Z o i : ℂ)).length
        rw [hadm.1]
      · intro i hi
        change i < 2 at hi
        interval_cases i <;> apply Complex.ext <;> simp [coefComplex, realCoefs, List.range_succ])
  have hl : sol.freqs.length = 5 * evals.md.nLevels := by
    rw [s2, hfl, List.length_take, henv.length]; omega
  refine ⟨sol, evals.md.nLevels, s1, h1, h8, h2, s2.trans hfl, ?_⟩
  intro k hk
  exact s4 k (by omega)

end Processing

end Resistics
