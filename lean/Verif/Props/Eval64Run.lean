import Verif.Props.Eval64

/-!
# C83: all evaluation frequencies of a run in floating point numbers
-/

namespace Resistics

/-- one level: shapes and values -/
theorem evalLevelDataF_spec {t : NumType} (ht : t.Floating) (freqs : List ℚ) (hs : freqs.Pairwise (· < ·)) (h0 : 0 < freqs.length) (hn : freqs.length ≤ 2 ^ 53)
    (arr : SpecArr (ℚ × ℚ)) (hrows : ∀ win ∈ arr, ∀ row ∈ win, row.length = freqs.length)
    (hh : ∀ win ∈ arr, ∀ row ∈ win, ∀ r ∈ row, Holds t r.1 ∧ Holds t r.2) (evalFreqs : List ℚ) :
    ∃ out, evalLevelDataF t freqs arr evalFreqs = .ok out ∧ out.length = arr.length ∧
      ∀ (k : ℕ) (win : List (List (ℚ × ℚ))), arr[k]? = some win → ∃ win', out[k]? = some win' ∧ win'.length = win.length ∧
        ∀ (c : ℕ) (row : List (ℚ × ℚ)), win[c]? = some row → ∃ row', win'[c]? = some row' ∧
          row'.length = evalFreqs.length ∧
          ∀ (m : ℕ) (f : ℚ), evalFreqs[m]? = some f → ∃ v, row'[m]? = some v ∧ IsEvalF t freqs row f v := by
  -- positions
  obtain ⟨idxs, hidx⟩ : ∃ idxs, evalFreqs.mapM (evalIndexF freqs) = .ok idxs := by
    have : ∀ f ∈ evalFreqs, evalIndexF freqs f = .ok ((evalIndexF freqs f).toOption.getD 0) := by
      intro f _
      obtain ⟨idx, h1, -⟩ := evalIndexF_spec freqs hs h0 hn f
      rw [h1]; rfl
    exact ⟨_, mapM_ok_map this⟩
  have hidxlen := mapM_ok_length hidx
  have hval : ∀ row : List (ℚ × ℚ), row.length = freqs.length → (∀ r ∈ row, Holds t r.1 ∧ Holds t r.2) → ∃ row', idxs.mapM (evalAtF t row) = .ok row' ∧
      row'.length = evalFreqs.length ∧
      ∀ (m : ℕ) (f : ℚ), evalFreqs[m]? = some f → ∃ v, row'[m]? = some v ∧ IsEvalF t freqs row f v := by
    intro row hrow hr
    have hpt : ∀ m (hm : m < evalFreqs.length), ∃ v, evalAtF t row (idxs[m]'(by omega)) = .ok v ∧ IsEvalF t freqs row evalFreqs[m] v := by
      intro m hm
      obtain ⟨idx, v, h1, h2, h3⟩ := evalF_value ht freqs hs h0 hn row hrow hr evalFreqs[m]
      have := mapM_ok_getElem hidx m hm (by omega)
      rw [h1, Except.ok.injEq] at this
      exact ⟨v, by rw [← this]; exact h2, h3⟩
    have hok : ∀ idx ∈ idxs, evalAtF t row idx = .ok ((evalAtF t row idx).toOption.getD 0) := by
      intro idx hmem
      obtain ⟨m, hm, rfl⟩ := List.mem_iff_getElem.mp hmem
      obtain ⟨v, h1, -⟩ := hpt m (by omega)
      rw [h1]; rfl
    refine ⟨_, mapM_ok_map hok, by simp [hidxlen], ?_⟩
    intro m f hf
    obtain ⟨hm, rfl⟩ := List.getElem?_eq_some_iff.mp hf
    obtain ⟨v, h1, h2⟩ := hpt m hm
    refine ⟨v, ?_, h2⟩
    rw [List.getElem?_map, List.getElem?_eq_getElem (by omega), Option.map_some, h1]; rfl
  have hwin : ∀ win : List (List (ℚ × ℚ)), (∀ row ∈ win, row.length = freqs.length) → (∀ row ∈ win, ∀ r ∈ row, Holds t r.1 ∧ Holds t r.2) → ∃ win',
      win.mapM (fun row => idxs.mapM (evalAtF t row)) = .ok win' ∧ win'.length = win.length ∧
        ∀ (c : ℕ) (row : List (ℚ × ℚ)), win[c]? = some row → ∃ row', win'[c]? = some row' ∧
          row'.length = evalFreqs.length ∧
          ∀ (m : ℕ) (f : ℚ), evalFreqs[m]? = some f → ∃ v, row'[m]? = some v ∧ IsEvalF t freqs row f v := by
    intro win hw hw2
    have hok : ∀ row ∈ win, idxs.mapM (evalAtF t row) = .ok ((idxs.mapM (evalAtF t row)).toOption.getD []) := by
      intro row hr
      obtain ⟨row', h1, -⟩ := hval row (hw row hr) (hw2 row hr)
      rw [h1]; rfl
    refine ⟨_, mapM_ok_map hok, by simp, ?_⟩
    intro c row hc
    obtain ⟨hc', rfl⟩ := List.getElem?_eq_some_iff.mp hc
    obtain ⟨row', h1, h2, h3⟩ := hval win[c] (hw _ (List.getElem_mem hc')) (hw2 _ (List.getElem_mem hc'))
    refine ⟨row', ?_, h2, h3⟩
    rw [List.getElem?_map, hc, Option.map_some, h1]; rfl
  have hok : ∀ win ∈ arr, win.mapM (fun row => idxs.mapM (evalAtF t row))
      = .ok ((win.mapM (fun row => idxs.mapM (evalAtF t row))).toOption.getD []) := by
    intro win hw
    obtain ⟨win', h1, -⟩ := hwin win (hrows win hw) (hh win hw)
    rw [h1]; rfl
  refine ⟨arr.map fun win => (win.mapM (fun row => idxs.mapM (evalAtF t row))).toOption.getD [], ?_, by simp, ?_⟩
  · unfold evalLevelDataF
    rw [hidx]
    simp only [bind, Except.bind]
    exact mapM_ok_map hok
  · intro k win hk
    obtain ⟨hk', rfl⟩ := List.getElem?_eq_some_iff.mp hk
    obtain ⟨win', h1, h2, h3⟩ := hwin arr[k] (hrows _ (List.getElem_mem hk')) (hh _ (List.getElem_mem hk'))
    refine ⟨win', ?_, h2, h3⟩
    rw [List.getElem?_map, hk, Option.map_some, h1]; rfl

/-- C83: for spectra of single or double precision on increasing frequencies, evaluation succeeds, and at every level, window, channel and evaluation
frequency the result is the value on the line between the two bins next to the frequency, up to rounding, and exactly the value of a bin on the bin.  Number of
windows, sizes, offsets, channels and reference time are kept. -/
theorem C83_evaluation (t : ℕ → NumType) (ht : ∀ i, (t i).Floating) (p : DecParams ℚ) (spec : SpecData (ℚ × ℚ)) (hsh : spec.Shaped)
    (hh : ∀ (i : ℕ) arr, spec.getLevel i = .ok arr → ∀ win ∈ arr, ∀ row ∈ win, ∀ r ∈ row, Holds (t i) r.1 ∧ Holds (t i) r.2)
    (hgrid : ∀ lm ∈ spec.md.levels, lm.freqs.Pairwise (· < ·) ∧ 0 < lm.freqs.length ∧ lm.freqs.length ≤ 2 ^ 53)
    (hn : spec.md.nLevels ≤ p.nLevels) :
    ∃ out, evalFreqsRunF t p spec = .ok out ∧ out.Shaped ∧ out.md.chans = spec.md.chans ∧
      out.md.nLevels = spec.md.nLevels ∧ out.md.refTime = spec.md.refTime ∧
      ∀ (i : ℕ) (lm : SpecLevelMeta), spec.md.levels[i]? = some lm → ∃ evalFreqs arr arr' lm',
        p.getEvalFreqs i = .ok evalFreqs ∧ spec.getLevel i = .ok arr ∧ out.getLevel i = .ok arr' ∧
        out.md.levels[i]? = some lm' ∧ lm'.freqs = evalFreqs ∧ lm'.nWins = lm.nWins ∧
        lm'.indexOffset = lm.indexOffset ∧ lm'.winSize = lm.winSize ∧ lm'.olapSize = lm.olapSize ∧ lm'.fs = lm.fs ∧
        ∀ (k c m : ℕ) (win : List (List (ℚ × ℚ))) (row : List (ℚ × ℚ)) (f : ℚ), arr[k]? = some win → win[c]? = some row →
          evalFreqs[m]? = some f → ∃ win' row' v, arr'[k]? = some win' ∧ win'[c]? = some row' ∧
            row'[m]? = some v ∧ IsEvalF (t i) lm.freqs row f v := by
  have hlev : ∀ i (hi : i < spec.md.nLevels), ∃ lm evalFreqs arr arr', spec.md.levels[i]? = some lm ∧
      p.getEvalFreqs i = .ok evalFreqs ∧ spec.data.lookup i = some arr ∧
      evalLevelDataF (t i) lm.freqs arr evalFreqs = .ok arr' ∧ evalLevelF t p spec i = .ok (arr', evalLevelMeta lm evalFreqs) := by
    intro i hi
    have hil : i < spec.md.levels.length := by rw [hsh.n_levels]; exact hi
    have hlm := List.getElem?_eq_getElem hil
    obtain ⟨arr, h1, h2, h3⟩ := hsh.array i _ hlm
    have hmem := List.getElem_mem hil
    obtain ⟨g1, g2, g3⟩ := hgrid _ hmem
    have hev : p.getEvalFreqs i = .ok (pySlice p.evalFreqs (p.perLevel * i) (p.perLevel * i + p.perLevel)) := by
      unfold DecParams.getEvalFreqs DecParams.checkLevel
      rw [if_neg (by omega)]; rfl
    obtain ⟨arr', h4, -⟩ := evalLevelDataF_spec (ht i) (spec.md.levels[i]).freqs g1 g2 g3 arr (fun w hw => (h3 w hw).2)
      (hh i arr (getLevel_of_lookup hi h1))
      (pySlice p.evalFreqs (p.perLevel * i) (p.perLevel * i + p.perLevel))
    refine ⟨_, _, arr, arr', hlm, hev, h1, h4, ?_⟩
    unfold evalLevelF
    rw [pyIndex_natCast _ _ hil, hev, getLevel_of_lookup hi h1]
    simp only [bind, Except.bind, h4, pure, Except.pure]
  obtain ⟨out, hout⟩ : ∃ out, (List.range spec.md.nLevels).mapM (evalLevelF t p spec) = .ok out := by
    apply mapM_exists
    intro i hi
    rw [List.mem_range] at hi
    obtain ⟨lm, ef, arr, arr', -, -, -, -, h⟩ := hlev i hi
    exact ⟨_, h⟩
  have hlen : out.length = spec.md.nLevels := by simpa using mapM_ok_length hout
  have hget : ∀ i (hi : i < spec.md.nLevels), evalLevelF t p spec i = .ok (out[i]'(by omega)) := by
    intro i hi
    have := mapM_ok_getElem hout i (by simpa using hi) (by omega)
    rw [List.getElem_range] at this
    exact this
  have hpos := hsh.some_level
  let res : SpecData (ℚ × ℚ) := ⟨{ spec.md with levels := out.map Prod.snd, history := spec.md.history ++ ["EvaluationFreqs"] },
    (out.map Prod.fst).zipIdx.map fun q => (q.2, q.1)⟩
  have hlook : ∀ i (hi : i < spec.md.nLevels), res.data.lookup i = some (out[i]'(by omega)).1 := by
    intro i hi
    have := lookup_zipIdx (out.map Prod.fst) 0 i (by simp [hlen]; exact hi)
    simpa [res] using this
  have hres : evalFreqsRunF t p spec = .ok res := by
    unfold evalFreqsRunF
    rw [hout]
    simp only [bind, Except.bind, mkSpecData]
    have := hlook 0 (by omega)
    simp only [res] at this
    simp only [dictGet, this]
    rfl
  have hmain : ∀ (i : ℕ) (lm : SpecLevelMeta), spec.md.levels[i]? = some lm → ∃ evalFreqs arr arr' lm',
        p.getEvalFreqs i = .ok evalFreqs ∧ spec.data.lookup i = some arr ∧ res.data.lookup i = some arr' ∧
        res.md.levels[i]? = some lm' ∧ lm' = evalLevelMeta lm evalFreqs ∧
        evalLevelDataF (t i) lm.freqs arr evalFreqs = .ok arr' := by
    intro i lm hlm
    obtain ⟨hil, hlm'⟩ := List.getElem?_eq_some_iff.mp hlm
    have hi : i < spec.md.nLevels := by rw [← hsh.n_levels]; exact hil
    obtain ⟨lm2, ef, arr, arr', h1, h2, h3, h4, h5⟩ := hlev i hi
    rw [hlm, Option.some.injEq] at h1
    subst h1
    have h6 := hget i hi
    rw [h5, Except.ok.injEq] at h6
    refine ⟨ef, arr, arr', _, h2, h3, ?_, ?_, rfl, h4⟩
    · rw [hlook i hi, ← h6]
    · simp only [res, List.getElem?_map, List.getElem?_eq_getElem (show i < out.length by omega), Option.map_some, ← h6]
  refine ⟨res, hres, ⟨?_, hpos, ?_, ?_, ?_⟩, rfl, rfl, rfl, ?_⟩
  · simp [res, hlen]
  · intro lm' hlm'
    obtain ⟨q, hq, rfl⟩ := List.mem_map.mp (show lm' ∈ out.map Prod.snd from hlm')
    obtain ⟨i, hi, rfl⟩ := List.mem_iff_getElem.mp hq
    obtain ⟨lm2, ef, arr, arr', h1, h2, h3, h4, h5⟩ := hlev i (by omega)
    have h6 := hget i (by omega)
    rw [h5, Except.ok.injEq] at h6
    rw [← h6]; rfl
  · have : (Prod.fst ∘ fun (q : SpecArr (ℚ × ℚ) × ℕ) => (q.2, q.1)) = Prod.snd := rfl
    simp only [res, List.map_map, this, List.zipIdx_map_snd, List.length_map, hlen, List.range_eq_range']
  · intro i lm' hlm'
    have hi : i < spec.md.nLevels := by
      obtain ⟨h, -⟩ := List.getElem?_eq_some_iff.mp hlm'
      simpa [res, hlen] using h
    have hil : i < spec.md.levels.length := by rw [hsh.n_levels]; exact hi
    obtain ⟨ef, arr, arr', lm2, h1, h2, h3, h4, h5, h6⟩ := hmain i _ (List.getElem?_eq_getElem hil)
    rw [hlm', Option.some.injEq] at h4
    subst h4
    obtain ⟨a2, b1, b2, b3⟩ := hsh.array i _ (List.getElem?_eq_getElem hil)
    rw [h2, Option.some.injEq] at b1
    subst b1
    obtain ⟨g1, g2, g3⟩ := hgrid _ (List.getElem_mem hil)
    obtain ⟨o2, c1, c2, c3⟩ := evalLevelDataF_spec (ht i) _ g1 g2 g3 arr (fun w hw => (b3 w hw).2) (hh i arr (getLevel_of_lookup hi h2)) ef
    rw [h6, Except.ok.injEq] at c1
    subst c1
    refine ⟨arr', h3, by rw [h5, c2]; exact b2, ?_⟩
    intro win' hwin'
    obtain ⟨k, hk, rfl⟩ := List.mem_iff_getElem.mp hwin'
    have hk' : k < arr.length := by omega
    obtain ⟨w2, d1, d2, d3⟩ := c3 k _ (List.getElem?_eq_getElem hk')
    rw [List.getElem?_eq_getElem hk, Option.some.injEq] at d1
    subst d1
    refine ⟨by rw [d2]; exact (b3 _ (List.getElem_mem hk')).1, ?_⟩
    intro row' hrow'
    obtain ⟨c, hc, rfl⟩ := List.mem_iff_getElem.mp hrow'
    obtain ⟨r2, e1, e2, -⟩ := d3 c _ (List.getElem?_eq_getElem (by omega))
    rw [List.getElem?_eq_getElem hc, Option.some.injEq] at e1
    subst e1
    rw [h5]; exact e2
  · intro i lm hlm
    obtain ⟨hil, hlm'⟩ := List.getElem?_eq_some_iff.mp hlm
    have hi : i < spec.md.nLevels := by rw [← hsh.n_levels]; exact hil
    obtain ⟨ef, arr, arr', lm2, h1, h2, h3, h4, h5, h6⟩ := hmain i lm hlm
    refine ⟨ef, arr, arr', lm2, h1, getLevel_of_lookup hi h2, getLevel_of_lookup hi h3, h4, by rw [h5]; rfl, by rw [h5]; rfl,
      by rw [h5]; rfl, by rw [h5]; rfl, by rw [h5]; rfl, by rw [h5]; rfl, ?_⟩
    intro k c m win row f hk hc hm
    obtain ⟨a2, b1, b2, b3⟩ := hsh.array i lm hlm
    rw [h2, Option.some.injEq] at b1
    subst b1
    obtain ⟨g1, g2, g3⟩ := hgrid lm (List.mem_of_getElem? hlm)
    obtain ⟨o2, c1, c2, c3⟩ := evalLevelDataF_spec (ht i) _ g1 g2 g3 arr (fun w hw => (b3 w hw).2) (hh i arr (getLevel_of_lookup hi h2)) ef
    rw [h6, Except.ok.injEq] at c1
    subst c1
    obtain ⟨w2, d1, d2, d3⟩ := c3 k win hk
    obtain ⟨r2, e1, e2, e3⟩ := d3 c row hc
    obtain ⟨v, f1, f2⟩ := e3 m f hm
    exact ⟨w2, r2, v, d1, e1, f1, f2⟩

/-! A concrete case: one level, two windows, one channel, three frequencies. -/

def demoSpecF : SpecData (ℚ × ℚ) :=
  ⟨⟨[8], ["Ex"], 1, 0, 1, [⟨8, 2, 4, 2, 5, 3, [0, 2, 4]⟩], 0, []⟩, [(0, [[[(0, 1), (10, 2), (14, 5)]], [[(1, 0), (2, 0), (3, 0)]]])]⟩

theorem demoSpecF_shaped : demoSpecF.Shaped := by
  refine ⟨by decide, by decide, by decide, by decide, ?_⟩
  intro i lm h
  cases i with
  | zero =>
    simp only [demoSpecF, List.getElem?_cons_zero, Option.some.injEq] at h
    subst h
    exact ⟨_, rfl, by decide, by decide⟩
  | succ i => simp [demoSpecF] at h

theorem holds_small (k : ℤ) (h : |k| < 2 ^ 24) : Holds .single (k : ℚ) := ⟨k, 0, h, by norm_num, by norm_num, by norm_num⟩

theorem demoSpecF_holds (i : ℕ) (arr : SpecArr (ℚ × ℚ)) (h : demoSpecF.getLevel i = .ok arr) :
    ∀ win ∈ arr, ∀ row ∈ win, ∀ r ∈ row, Holds .single r.1 ∧ Holds .single r.2 := by
  match i with
  | 0 =>
    have : arr = [[[(0, 1), (10, 2), (14, 5)]], [[(1, 0), (2, 0), (3, 0)]]] := by
      have e : demoSpecF.getLevel 0 = .ok [[[(0, 1), (10, 2), (14, 5)]], [[(1, 0), (2, 0), (3, 0)]]] := by decide +kernel
      rw [Nat.cast_zero, e, Except.ok.injEq] at h
      exact h.symm
    subst this
    have key : ∀ k : ℕ, k < 20 → Holds .single (k : ℚ) := fun k hk => by
      have := holds_small k (by rw [abs_of_nonneg (by positivity)]; norm_num; omega)
      exact_mod_cast this
    have k0 := key 0 (by norm_num)
    have k1 := key 1 (by norm_num)
    have k2 := key 2 (by norm_num)
    have k3 := key 3 (by norm_num)
    have k5 := key 5 (by norm_num)
    have k10 := key 10 (by norm_num)
    have k14 := key 14 (by norm_num)
    norm_num at k0 k1 k2 k3 k5 k10 k14
    simp only [List.forall_mem_cons, List.not_mem_nil, false_imp_iff, implies_true, and_true]
    exact ⟨⟨⟨k0, k1⟩, ⟨k10, k2⟩, k14, k5⟩, ⟨k1, k0⟩, ⟨k2, k0⟩, k3, k0⟩
  | i + 1 =>
    unfold SpecData.getLevel at h
    rw [if_pos (by show ((1 : ℕ) : ℤ) ≤ _; push_cast; omega)] at h
    cases h

example : ∃ out, evalFreqsRunF (fun _ => .single) ⟨8, 1, 2, 1, [2, 1], [1], [1], [8]⟩ demoSpecF = .ok out ∧ out.Shaped := by
  obtain ⟨out, h1, h2, -⟩ := C83_evaluation (fun _ => .single) (fun _ => Or.inl rfl) ⟨8, 1, 2, 1, [2, 1], [1], [1], [8]⟩ demoSpecF demoSpecF_shaped demoSpecF_holds
    (by decide +kernel) (by decide)
  exact ⟨out, h1, h2⟩

example : (evalFreqsRunF (fun _ => .single) ⟨8, 1, 2, 1, [2, 1], [1], [1], [8]⟩ demoSpecF).map (fun d => (d.data.map fun p => p.2.flatten)) =
    .ok [[[(10, 2), (5, 3 / 2)], [(2, 0), (3 / 2, 0)]]] := by decide +kernel

/-- A third of the way between two bins is not exact, in double precision or in single precision. -/
example : (evalIndexF [0, 3] 1).map (decide <| · = 1 / 3) = .ok false ∧ (evalAtF .single [(0, 0), (1, 0)] (1 / 3)).map (fun v => decide (v.1 = fl (1 / 3))) = .ok false := by decide +kernel

example : calInterpF [1, 2, 4] [10, 20, 30] 3 = .ok 25 ∧ calInterpF [1, 2, 4] [10, 20, 30] 2 = .ok 20 ∧ calInterpF [1, 2, 4] [10, 20, 30] 9 = .ok 30 := by decide +kernel

end Resistics
