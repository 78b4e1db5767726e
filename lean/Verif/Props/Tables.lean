import Verif.Model.Tables
import Verif.Props.Decimate
import Verif.Props.CalText

/-!
# C70: tables of decimation parameters and calibration data
-/

namespace Resistics

/-! ## Specification -/

/-- Decimation parameters whose lists have the lengths that their numbers of levels and of frequencies per level say. -/
structure DecParams.Sized {K : Type} (p : DecParams K) : Prop where
  freqs : p.evalFreqs.length = p.nLevels * p.perLevel
  fs : p.decFs.length = p.nLevels
  factors : p.decFactors.length = p.nLevels
  increments : p.decIncrements.length = p.nLevels

/-! ## Decimation parameters -/

theorem reshapeRow_length {K : Type} (p : DecParams K) (h : p.evalFreqs.length = p.nLevels * p.perLevel) (l : ℕ) (hl : l < p.nLevels) :
    (reshapeRow p.evalFreqs p.perLevel l).length = p.perLevel := by
  unfold reshapeRow
  rw [List.length_take, List.length_drop, h]
  have : p.perLevel * l + p.perLevel ≤ p.nLevels * p.perLevel := by
    calc p.perLevel * l + p.perLevel = p.perLevel * (l + 1) := by ring
      _ ≤ p.perLevel * p.nLevels := Nat.mul_le_mul_left _ hl
      _ = _ := Nat.mul_comm _ _
  omega

theorem getEvalFreqs_row {K : Type} (p : DecParams K) (h : p.evalFreqs.length = p.nLevels * p.perLevel) (l : ℕ) (hl : l < p.nLevels) :
    p.getEvalFreqs (l : ℤ) = .ok (reshapeRow p.evalFreqs p.perLevel l) := by
  have hb : p.perLevel * l + p.perLevel ≤ p.evalFreqs.length := by
    rw [h]
    calc p.perLevel * l + p.perLevel = p.perLevel * (l + 1) := by ring
      _ ≤ p.perLevel * p.nLevels := Nat.mul_le_mul_left _ hl
      _ = _ := Nat.mul_comm _ _
  have e1 : ((p.perLevel : ℤ) * l) = ((p.perLevel * l : ℕ) : ℤ) := by push_cast; ring
  have e2 : (((p.perLevel * l : ℕ) : ℤ) + p.perLevel) = ((p.perLevel * l + p.perLevel : ℕ) : ℤ) := by push_cast; ring
  simp only [DecParams.getEvalFreqs, DecParams.checkLevel]
  rw [if_neg (by omega)]
  simp only [bind, Except.bind, pure, Except.pure, e1, e2]
  unfold pySlice
  rw [pyBound_of_nonneg (by omega) (by exact_mod_cast (by omega : p.perLevel * l ≤ p.evalFreqs.length)),
    pyBound_of_nonneg (by omega) (by exact_mod_cast hb)]
  simp only [Int.toNat_natCast, reshapeRow]
  congr 1
  rw [List.drop_take]
  congr 1
  omega

/-- **C70 (subscripts)**: a subscript with one level is `get_eval_freqs`, one with a level and an index is `get_eval_freq`; both raise
`ValueError` outside the table. -/
theorem C70_subscript {K : Type} (p : DecParams K) (h : p.evalFreqs.length = p.nLevels * p.perLevel) (l idx : ℤ) :
    (0 ≤ l ∧ l < p.nLevels → ∃ row, p.getItem (.level l) = .ok (.inl row) ∧ p.getEvalFreqs l = .ok row ∧ row.length = p.perLevel ∧
      (0 ≤ idx ∧ idx < p.perLevel → ∃ f, p.getItem (.pair l idx) = .ok (.inr f) ∧ p.getEvalFreq l idx = .ok f ∧
        row[idx.toNat]? = some f)) ∧
    (¬(0 ≤ l ∧ l < p.nLevels) → p.getItem (.level l) = .error .value ∧ p.getItem (.pair l idx) = .error .value) ∧
    (¬(0 ≤ idx ∧ idx < p.perLevel) → p.getItem (.pair l idx) = .error .value) := by
  obtain ⟨h1, h2, h3⟩ := C19_eval_freq_lookup p h l idx
  refine ⟨?_, ?_, ?_⟩
  · rintro ⟨ha, hb⟩
    obtain ⟨n, rfl⟩ := Int.eq_ofNat_of_zero_le ha
    have hn : n < p.nLevels := by exact_mod_cast hb
    refine ⟨_, by simp only [DecParams.getItem, getEvalFreqs_row p h n hn, Except.map], getEvalFreqs_row p h n hn,
      reshapeRow_length p h n hn, ?_⟩
    rintro ⟨hc, hd⟩
    obtain ⟨row, f, hr, -, hf, hg, -⟩ := h1 ⟨ha, hb, hc, hd⟩
    rw [getEvalFreqs_row p h n hn, Except.ok.injEq] at hr
    subst hr
    exact ⟨f, by simp only [DecParams.getItem, hf, Except.map], hf, hg⟩
  · intro hl
    obtain ⟨ha, hb⟩ := h2 hl
    exact ⟨by simp only [DecParams.getItem, ha, Except.map], by simp only [DecParams.getItem, hb, Except.map]⟩
  · intro hi
    simp only [DecParams.getItem, h3 hi, Except.map]

/-- **C70 (the array of frequencies)**: there is one exactly when there are as many frequencies as levels times frequencies per level; then
row `l` and column `idx` hold what the subscript `l, idx` gives, and there is nothing else. -/
theorem C70_array {K : Type} (p : DecParams K) :
    (p.evalFreqs.length ≠ p.nLevels * p.perLevel → p.toNumpy = .error .value) ∧
    (p.evalFreqs.length = p.nLevels * p.perLevel → ∃ rows, p.toNumpy = .ok rows ∧ rows.length = p.nLevels ∧
      (∀ row ∈ rows, row.length = p.perLevel) ∧ rows.flatten = p.evalFreqs ∧
      ∀ (l idx : ℕ), l < p.nLevels → idx < p.perLevel → ∃ row f, rows[l]? = some row ∧ row[idx]? = some f ∧
        p.getItem (.pair l idx) = .ok (.inr f)) := by
  constructor
  · intro h; unfold DecParams.toNumpy; rw [if_pos h]
  · intro h
    refine ⟨_, by unfold DecParams.toNumpy; rw [if_neg (by simpa using h)], by simp, ?_, ?_, ?_⟩
    · intro row hr
      obtain ⟨l, hl, rfl⟩ := List.mem_map.1 hr
      exact reshapeRow_length p h l (List.mem_range.1 hl)
    · have key : ∀ n, ((List.range n).map (reshapeRow p.evalFreqs p.perLevel)).flatten = p.evalFreqs.take (n * p.perLevel) := by
        intro n
        induction n with
        | zero => simp
        | succ n ih =>
          rw [List.range_succ, List.map_append, List.flatten_append, ih, List.map_singleton, List.flatten_singleton, reshapeRow,
            Nat.succ_mul, List.take_add, Nat.mul_comm]
      rw [key, ← h, List.take_length]
    · intro l idx hl hi
      obtain ⟨row, h1, h2, -, h3⟩ := (C70_subscript p h l idx).1 ⟨by omega, by exact_mod_cast hl⟩
      obtain ⟨f, h4, -, h5⟩ := h3 ⟨by omega, by exact_mod_cast hi⟩
      rw [getEvalFreqs_row p h l hl, Except.ok.injEq] at h2
      refine ⟨row, f, ?_, by simpa using h5, h4⟩
      rw [List.getElem?_map, List.getElem?_range hl, ← h2]
      rfl

/-- **C70 (the table of decimation parameters)**: for parameters with lists of the right lengths, row `l` of the table holds the evaluation
frequencies, the sampling frequency, the total and the incremental factor of level `l`. -/
theorem C70_dataframe {K : Type} (p : DecParams K) (h : p.Sized) :
    ∃ df, p.toDataframe = .ok df ∧ df.freqs.length = p.nLevels ∧ df.fs.length = p.nLevels ∧ df.factors.length = p.nLevels ∧
      df.increments.length = p.nLevels ∧
      ∀ l < p.nLevels, ∃ row fs factor increment, df.freqs[l]? = some row ∧ df.fs[l]? = some fs ∧ df.factors[l]? = some factor ∧
        df.increments[l]? = some increment ∧ p.getEvalFreqs l = .ok row ∧ p.getFs l = .ok fs ∧ p.getTotalFactor l = .ok factor ∧
        p.getIncrementalFactor l = .ok increment := by
  refine ⟨⟨(List.range p.nLevels).map (reshapeRow p.evalFreqs p.perLevel), p.decFs, p.decFactors, p.decIncrements⟩, ?_, by simp, h.fs,
    h.factors, h.increments, ?_⟩
  · have hn : p.toNumpy = .ok ((List.range p.nLevels).map (reshapeRow p.evalFreqs p.perLevel)) := by
      unfold DecParams.toNumpy; rw [if_neg (by simpa using h.freqs)]
    unfold DecParams.toDataframe
    simp only [hn, bind, Except.bind, setColumn, List.length_map, List.length_range, h.fs, h.factors, h.increments, ne_eq,
      not_true_eq_false, if_false]
    rfl
  · intro l hl
    have h1 : l < p.decFs.length := by rw [h.fs]; exact hl
    have h2 : l < p.decFactors.length := by rw [h.factors]; exact hl
    have h3 : l < p.decIncrements.length := by rw [h.increments]; exact hl
    have hc : p.checkLevel (l : ℤ) = .ok () := by unfold DecParams.checkLevel; rw [if_neg (by omega)]
    refine ⟨reshapeRow p.evalFreqs p.perLevel l, p.decFs[l], p.decFactors[l], p.decIncrements[l], ?_, List.getElem?_eq_getElem h1,
      List.getElem?_eq_getElem h2, List.getElem?_eq_getElem h3, getEvalFreqs_row p h.freqs l hl, ?_, ?_, ?_⟩
    · rw [List.getElem?_map, List.getElem?_range hl]; rfl
    · simp only [DecParams.getFs, hc, bind, Except.bind, pyIndex_natCast _ _ h1]
    · simp only [DecParams.getTotalFactor, hc, bind, Except.bind, pyIndex_natCast _ _ h2]
    · simp only [DecParams.getIncrementalFactor, hc, bind, Except.bind, pyIndex_natCast _ _ h3]

/-- **C70 (columns of other lengths)**: parameters with a list of another length have no table. -/
theorem C70_dataframe_refused {K : Type} (p : DecParams K) (h : ¬p.Sized) : p.toDataframe = .error .value := by
  unfold DecParams.toDataframe
  by_cases h1 : p.evalFreqs.length = p.nLevels * p.perLevel
  · have hn : p.toNumpy = .ok ((List.range p.nLevels).map (reshapeRow p.evalFreqs p.perLevel)) := by
      unfold DecParams.toNumpy; rw [if_neg (by simpa using h1)]
    simp only [hn, bind, Except.bind, setColumn, List.length_map, List.length_range]
    by_cases h2 : p.decFs.length = p.nLevels
    · by_cases h3 : p.decFactors.length = p.nLevels
      · by_cases h4 : p.decIncrements.length = p.nLevels
        · exact absurd ⟨h1, h2, h3, h4⟩ h
        · simp [h2, h3, h4]
      · simp [h2, h3]
    · simp [h2]
  · rw [(C70_array p).1 h1]; rfl

/-- **C70 (parameters of a setup)**: the parameters that a `DecimationSetup` makes always have a table, whatever its frequencies. -/
theorem C70_setup {K : Type} [Field K] [LinearOrder K] [IsStrictOrderedRing K] [FloorSemiring K] (s : DecSetup K)
    (deflt : K → ℕ → List K) (hd : ∀ f n, (deflt f n).length = n) (fs : K) (p : DecParams K) (h : s.run deflt fs = .ok p) : p.Sized := by
  obtain ⟨-, -, -, -, -, -, hfac, hinc, hfs, -⟩ := DecSetup.run_spec s deflt fs p h
  refine ⟨C19_setup_length s deflt hd fs p h, ?_, hfac, ?_⟩
  · rw [hfs, decFsList, List.length_map, hfac]
  · rw [hinc, decIncrements, List.length_zipWith, List.length_cons, List.length_dropLast]
    omega

/-- the hypotheses of `C70_setup`, and with it of `C70_dataframe`, are met; the frequencies need not decrease -/
example : ∃ p, (DecSetup.run (K := ℚ) ⟨2, 2, 1, 2, some [4, 2, 16, 8]⟩ (fun _ n => List.replicate n 1) 64) = .ok p ∧ p.Sized ∧
    p.toNumpy = .ok [[4, 2], [16, 8]] := by
  have h : (DecSetup.run (K := ℚ) ⟨2, 2, 1, 2, some [4, 2, 16, 8]⟩ (fun _ n => List.replicate n 1) 64) =
      .ok ⟨64, 2, 2, 1, [4, 2, 16, 8], [4, 1], [4, 0], [16, 64]⟩ := by decide +kernel
  exact ⟨_, h, C70_setup _ _ (by simp) _ _ h, by decide +kernel⟩

/-- the hypotheses of `C70_dataframe_refused` are met: parameters made by hand with a wrong number of frequencies -/
example : (DecParams.toDataframe (K := ℚ) ⟨64, 2, 2, 1, [4, 2, 16], [4, 1], [4, 0], [16, 64]⟩) = .error .value :=
  C70_dataframe_refused _ fun h => absurd h.freqs (by decide)

/-! ## Calibration data -/

/-- **C70 (columns of calibration data)**: the three names give the three columns and any other name is a `ValueError`. -/
theorem C70_cal_columns (cal : CalData) (n : Option ℤ) :
    (mkCalTable cal n).getItem "frequency" = .ok cal.frequency ∧ (mkCalTable cal n).getItem "magnitude" = .ok cal.magnitude ∧
      (mkCalTable cal n).getItem "phase" = .ok cal.phase ∧
      ∀ arg, arg ≠ "frequency" → arg ≠ "magnitude" → arg ≠ "phase" → (mkCalTable cal n).getItem arg = .error .value := by
  refine ⟨rfl, rfl, rfl, ?_⟩
  intro arg h1 h2 h3
  unfold CalTable.getItem
  rw [if_neg h1, if_neg h2, if_neg h3]

/-- **C70 (number of samples)**: without a number of samples, calibration data have that of the frequencies; a number that is given is
kept, even if it is another. -/
theorem C70_cal_samples (cal : CalData) :
    (mkCalTable cal none).nSamples = cal.frequency.length ∧ ∀ n, (mkCalTable cal (some n)).nSamples = n := ⟨rfl, fun _ => rfl⟩

/-- **C70 (the table of calibration data)**: there is a table exactly when there are as many magnitudes and phases as frequencies; row `i` is
then frequency, magnitude and phase `i`. -/
theorem C70_cal_dataframe (cal : CalData) (n : Option ℤ) :
    (cal.magnitude.length = cal.frequency.length → cal.phase.length = cal.frequency.length →
      ∃ rows, (mkCalTable cal n).toDataframe = .ok rows ∧ rows.length = cal.frequency.length ∧
        ∀ (i : ℕ) (f m p : ℚ), rows[i]? = some (f, m, p) ↔
          cal.frequency[i]? = some f ∧ cal.magnitude[i]? = some m ∧ cal.phase[i]? = some p) ∧
    (cal.magnitude.length ≠ cal.frequency.length ∨ cal.phase.length ≠ cal.frequency.length →
      (mkCalTable cal n).toDataframe = .error .value) := by
  constructor
  · intro h1 h2
    refine ⟨_, by unfold CalTable.toDataframe; rw [if_neg (by simp [mkCalTable, h1, h2])], by simp [mkCalTable, h1, h2], ?_⟩
    intro i f m p
    simp only [mkCalTable, List.zip, List.getElem?_zipWith]
    cases cal.frequency[i]? <;> cases cal.magnitude[i]? <;> cases cal.phase[i]? <;> simp
  · intro h
    unfold CalTable.toDataframe
    rw [if_pos (by simpa [mkCalTable] using h)]

theorem zip_columns (rows : List (ℚ × ℚ × ℚ)) :
    (rows.map (·.1)).zip ((rows.map (·.2.1)).zip (rows.map (·.2.2))) = rows := by
  induction rows with
  | nil => rfl
  | cons r l ih => simp only [List.map_cons, List.zip_cons_cons, ih]

/-- **C70 (calibration data of a text file)**: calibration data read from a text file have a table; it has at least one row, as many rows as
samples, and increasing frequencies. -/
theorem C70_cal_text (toNum : String → Except Err ℚ) (deg : ℚ) (lines : List String) (t : CalTable)
    (h : readCalTable toNum deg lines = .ok t) :
    ∃ rows, t.toDataframe = .ok rows ∧ (rows.length : ℤ) = t.nSamples ∧ rows ≠ [] ∧ (rows.map (·.1)).Pairwise (· ≤ ·) := by
  unfold readCalTable at h
  obtain ⟨d, hd, h⟩ := except_bind_ok.1 h
  cases h
  unfold readCalText at hd
  obtain ⟨_, -, hd⟩ := except_bind_ok.1 hd
  obtain ⟨_, -, hd⟩ := except_bind_ok.1 hd
  obtain ⟨_, -, hd⟩ := except_bind_ok.1 hd
  obtain ⟨units, -, hd⟩ := except_bind_ok.1 hd
  obtain ⟨rows, hr, hd⟩ := except_bind_ok.1 hd
  cases hd
  refine ⟨rows, ?_, by simp [mkCalTable], ?_, ?_⟩
  · unfold CalTable.toDataframe
    rw [if_neg (by simp [mkCalTable])]
    congr 1
    exact zip_columns rows
  · unfold readCalRows at hr
    obtain ⟨_, -, hr⟩ := except_bind_ok.1 hr
    obtain ⟨rs, -, hr⟩ := except_bind_ok.1 hr
    split at hr
    · cases hr
    · rename_i hne
      cases hr
      intro h0
      have := congrArg List.length h0
      rw [List.length_insertionSort] at this
      unfold toRadians at this
      apply hne
      rw [← List.length_eq_zero_iff]
      split at this
      · simpa using this
      · simpa using this
  · unfold readCalRows at hr
    obtain ⟨_, -, hr⟩ := except_bind_ok.1 hr
    obtain ⟨rs, -, hr⟩ := except_bind_ok.1 hr
    split at hr
    · cases hr
    · cases hr
      rw [List.pairwise_map]
      have := List.pairwise_insertionSort (fun a b : ℚ × ℚ × ℚ => a.1 ≤ b.1) (toRadians deg units.2 rs)
      exact this

/-- the hypotheses of `C70_cal_text` are met: the file of the calibration demo -/
example : ∃ t, readCalTable digitNum (1 / 57) demoText = .ok t ∧ t.nSamples = 2 ∧ t.toDataframe = .ok [(1, 4, 0), (3, 5, 90 / 57)] := by
  refine ⟨⟨{ sensor := "lemi120", serial := "710", staticGain := 1, magnitudeUnit := "mV/nT", frequency := [1, 3],
             magnitude := [4, 5], phase := [0, 90 / 57] }, 2⟩, by decide +kernel, rfl, by decide +kernel⟩

/-- **C70 (plot of calibration data)**: a plot keeps the lines of the figure it is given and adds two: the magnitudes above and the phases
below, both against the frequencies and with the name and color given, and only the first with an entry in the legend. -/
theorem C70_cal_plot (cal : CalData) (n : Option ℤ) (fig : Option (List CalLine)) (color legend : String) :
    ∃ a b, (mkCalTable cal n).plot fig color legend = fig.getD [] ++ [a, b] ∧ a.row = 1 ∧ b.row = 2 ∧ a.x = cal.frequency ∧
      b.x = cal.frequency ∧ a.y = cal.magnitude ∧ b.y = cal.phase ∧ a.name = legend ∧ b.name = legend ∧ a.color = color ∧
      b.color = color ∧ a.inLegend = true ∧ b.inLegend = false :=
  ⟨_, _, rfl, rfl, rfl, rfl, rfl, rfl, rfl, rfl, rfl, rfl, rfl, rfl, rfl⟩

end Resistics
