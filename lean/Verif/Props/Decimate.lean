import Verif.Model.Decimate
import Verif.Props.TimeProc
import Verif.Lemmas.Lists
import Mathlib.Tactic.Positivity

/-!
# Properties C16-C20: evaluation frequencies, decimation parameters, the decimator
-/

namespace Resistics

/-! ## C16 the ladder of evaluation frequencies -/

/-- Specification: rung `i` (from 0) of the half-octave ladder below a quarter of the sampling frequency. -/
noncomputable def rung (fs : ℝ) (i : ℕ) : ℝ := fs / 4 / Real.sqrt 2 ^ i

theorem two_rpow_half (i : ℕ) : (2 : ℝ) ^ ((i : ℝ) / 2) = Real.sqrt 2 ^ i := by
  rw [Real.sqrt_eq_rpow, ← Real.rpow_natCast, ← Real.rpow_mul (by norm_num)]
  congr 1; ring

theorem ladderFreq_eq (fs : ℝ) (i : ℕ) : ladderFreq (fs / 4) (i + 1) = rung fs i := by
  unfold ladderFreq rung
  rw [← two_rpow_half]
  congr 3; push_cast; ring

theorem rung_succ (fs : ℝ) (i : ℕ) : rung fs (i + 1) = rung fs i / Real.sqrt 2 := by
  unfold rung; rw [pow_succ]; field_simp

theorem sqrt2_gt : 1 < Real.sqrt 2 := by
  rw [show (1 : ℝ) = Real.sqrt 1 by simp]
  exact Real.sqrt_lt_sqrt (by norm_num) (by norm_num)

theorem rung_anti {fs : ℝ} (hfs : 0 < fs) {i j : ℕ} (h : i < j) : rung fs j < rung fs i := by
  unfold rung
  exact div_lt_div_of_pos_left (by positivity) (by positivity) (pow_lt_pow_right₀ sqrt2_gt h)

theorem evalFreqsLoop_eq (fs fMin : ℝ) (fuel i : ℕ) (acc : List ℝ) :
    ∃ n, n ≤ fuel ∧ evalFreqsLoop (fs / 4) fMin fuel (i + 1) acc
        = acc ++ (List.range n).map (fun k => rung fs (i + k)) ∧
      (∀ k, k < n → fMin ≤ rung fs (i + k)) ∧ (n < fuel → rung fs (i + n) < fMin) := by
  induction fuel generalizing i acc with
  | zero => exact ⟨0, le_refl _, by simp [evalFreqsLoop], by simp, by simp⟩
  | succ fuel ih =>
    unfold evalFreqsLoop
    simp only [ladderFreq_eq]
    split
    · rename_i h
      exact ⟨0, by omega, by simp, by simp, fun _ => by simpa using h⟩
    · rename_i h
      obtain ⟨n, h1, h2, h3, h4⟩ := ih (i + 1) (acc ++ [rung fs i])
      refine ⟨n + 1, by omega, ?_, ?_, ?_⟩
      · rw [h2, List.range_succ_eq_map]
        simp [Function.comp_def, Nat.add_comm, Nat.add_left_comm]
      · intro k hk
        cases k with
        | zero => simpa using not_lt.mp h
        | succ k => have := h3 k (by omega); rwa [show i + (k + 1) = i + 1 + k by omega]
      · intro hn
        have := h4 (by omega)
        rwa [show i + (n + 1) = i + 1 + n by omega]

/-- The squared ladder falls below any bound after enough rungs. -/
theorem rung_lt {fs fMin : ℝ} (hf : 0 < fMin) (h : fMin ≤ fs / 4) (n : ℕ)
    (hn : (fs / 4 / fMin) ^ 2 < n) : rung fs n < fMin := by
  have h0 : 0 < fs / 4 := by linarith
  have h1 : rung fs n ^ 2 < fMin ^ 2 := by
    unfold rung
    have hs : (Real.sqrt 2 ^ n) ^ 2 = 2 ^ n := by
      rw [← pow_mul, mul_comm, pow_mul, Real.sq_sqrt (by norm_num)]
    rw [div_pow, hs, div_lt_iff₀ (by positivity)]
    rw [div_pow, div_lt_iff₀ (by positivity)] at hn
    have h2 : (n : ℝ) ≤ 2 ^ n := by exact_mod_cast Nat.lt_two_pow_self.le
    nlinarith [sq_nonneg fMin, pow_pos hf 2]
  exact lt_of_pow_lt_pow_left₀ 2 hf.le h1

/-- **C16**. With a minimum frequency the result is exactly the rungs of the ladder that are not below it, in
order; an invalid minimum is refused. -/
theorem C16_eval_freqs_min (fs fMin : ℝ) (n : Option ℕ) :
    (0 < fMin → fMin ≤ fs / 4 → ∃ freqs, getEvalFreqs fs (some fMin) n = .ok freqs ∧
      ∀ (i : ℕ) (f : ℝ), freqs[i]? = some f ↔ f = rung fs i ∧ fMin ≤ f) ∧
    ((fMin ≤ 0 ∨ fs / 4 < fMin) → getEvalFreqs fs (some fMin) n = .error .value) := by
  constructor
  · intro hf h
    have hfs : 0 < fs := by linarith
    obtain ⟨m, h1, h2, h3, h4⟩ := evalFreqsLoop_eq fs fMin (⌈(fs / 4 / fMin) ^ 2⌉₊ + 2) 0 []
    refine ⟨[] ++ List.map (fun k => rung fs (0 + k)) (List.range m), ?_, ?_⟩
    · cases n <;> simp only [getEvalFreqs, getEvalFreqsMin] <;>
        rw [if_neg (not_le.mpr hf), if_neg (not_lt.mpr h), h2]
    · have hm : rung fs m < fMin := by
        rcases Nat.lt_or_ge m (⌈(fs / 4 / fMin) ^ 2⌉₊ + 2) with hlt | hge
        · simpa using h4 hlt
        · apply rung_lt hf h
          have := Nat.le_ceil ((fs / 4 / fMin) ^ 2)
          have h5 : ((⌈(fs / 4 / fMin) ^ 2⌉₊ + 2 : ℕ) : ℝ) ≤ m := by exact_mod_cast hge
          push_cast at h5; linarith
      intro i f
      simp only [List.nil_append, List.getElem?_map, Nat.zero_add]
      constructor
      · intro hi
        rcases Nat.lt_or_ge i m with him | him
        · rw [List.getElem?_range him] at hi
          simp only [Option.map_some, Option.some.injEq] at hi
          subst hi
          exact ⟨rfl, by simpa using h3 i him⟩
        · rw [List.getElem?_eq_none (by simpa using him)] at hi
          simp at hi
      · rintro ⟨rfl, hle⟩
        have him : i < m := by
          by_contra hc
          rcases Nat.lt_or_ge m i with h' | h'
          · linarith [rung_anti hfs h']
          · have : i = m := by omega
            subst this; linarith
        rw [List.getElem?_range him]
        rfl
  · intro h
    cases n <;> simp only [getEvalFreqs, getEvalFreqsMin] <;>
    · rcases h with h | h
      · rw [if_pos h]
      · rw [if_pos h]; split <;> rfl

/-- **C16**. With a number of frequencies the result is the first `n` rungs; giving neither is refused. -/
theorem C16_eval_freqs_size (fs : ℝ) (n : ℕ) :
    getEvalFreqs fs none (some n) = .ok ((List.range n).map (rung fs)) ∧
    getEvalFreqs fs none none = .error .value := by
  refine ⟨?_, rfl⟩
  simp only [getEvalFreqs, getEvalFreqsSize]
  congr 1
  apply List.map_congr_left
  intro i _
  exact ladderFreq_eq fs i

/-- **C16**. The ladder starts at a quarter of the sampling frequency, each rung is `1/√2` of the one before,
and it is strictly decreasing and positive. -/
theorem C16_ladder (fs : ℝ) (hfs : 0 < fs) (n : ℕ) :
    rung fs 0 = fs / 4 ∧ (∀ i, rung fs (i + 1) = rung fs i / Real.sqrt 2) ∧
    ((List.range n).map (rung fs)).Pairwise (· > ·) ∧ ∀ i, 0 < rung fs i := by
  refine ⟨by simp [rung], rung_succ fs, ?_, fun i => by unfold rung; positivity⟩
  rw [List.pairwise_map]
  exact List.Pairwise.imp (fun h => rung_anti hfs h) List.pairwise_lt_range

/-- two rungs down is half the frequency -/
example (fs : ℝ) : rung fs 2 = fs / 8 := by
  unfold rung
  rw [Real.sq_sqrt (by norm_num)]; ring

/-! ## C17 the decimation factor -/

section Factor
variable {K : Type} [Field K] [LinearOrder K] [IsStrictOrderedRing K] [FloorSemiring K]

omit [IsStrictOrderedRing K] [FloorSemiring K] in
theorem decLoop_eq (div : ℕ) (target : K) (fuel : ℕ) (fs : K) (factor : ℕ) :
    ∃ k, k ≤ fuel ∧ decLoop div target fuel fs factor = factor * div ^ k ∧
      (∀ j, 1 ≤ j → j ≤ k → target ≤ fs / (div : K) ^ j) ∧ (k < fuel → fs / (div : K) ^ (k + 1) < target) := by
  induction fuel generalizing fs factor with
  | zero => exact ⟨0, le_refl _, by simp [decLoop], by intro j h1 h2; omega, by simp⟩
  | succ fuel ih =>
    unfold decLoop
    simp only
    split
    · rename_i h
      obtain ⟨k, h1, h2, h3, h4⟩ := ih (fs / div) (factor * div)
      refine ⟨k + 1, by omega, by rw [h2, pow_succ]; ring, ?_, ?_⟩
      · intro j hj1 hj2
        rcases Nat.lt_or_ge 1 j with h' | h'
        · have := h3 (j - 1) (by omega) (by omega)
          rw [div_div, ← pow_succ'] at this
          rwa [show j - 1 + 1 = j by omega] at this
        · have : j = 1 := by omega
          subst this; simpa using h
      · intro hk
        have := h4 (by omega)
        rwa [div_div, ← pow_succ'] at this
    · rename_i h
      exact ⟨0, by omega, by simp, by intro j h1 h2; omega, fun _ => by simpa using h⟩

/-- **C17**. For a positive highest frequency and a division factor of at least two, the chosen factor is the
largest power of the division factor that leaves at least four samples per period of the highest frequency;
it is 1 when there is no room. -/
theorem C17_decimation_factor (div : ℕ) (hdiv : 2 ≤ div) (fs fMax : K) (hf : 0 < fMax) :
    (∃ k, getDecimationFactor div fs fMax = div ^ k) ∧
    (4 * fMax ≤ fs → 4 * fMax ≤ fs / (getDecimationFactor div fs fMax : K)) ∧
    (∀ j : ℕ, 4 * fMax ≤ fs / (div : K) ^ j → div ^ j ≤ getDecimationFactor div fs fMax) ∧
    (fs < 4 * fMax → getDecimationFactor div fs fMax = 1) := by
  unfold getDecimationFactor
  simp only
  have hd0 : (0 : K) < div := by exact_mod_cast (by omega : 0 < div)
  have hd1 : (1 : K) ≤ div := by exact_mod_cast (by omega : 1 ≤ div)
  rw [mul_comm fMax 4]
  by_cases h : fs < 4 * fMax
  · rw [if_pos h]
    refine ⟨⟨0, by simp⟩, fun h' => absurd h' (not_le.mpr h), ?_, fun _ => rfl⟩
    intro j hj
    exfalso
    rcases le_or_gt 0 fs with h0 | h0
    · have : fs / (div : K) ^ j ≤ fs := div_le_self h0 (one_le_pow₀ hd1)
      linarith
    · have : fs / (div : K) ^ j < 0 := div_neg_of_neg_of_pos h0 (by positivity)
      linarith
  · rw [if_neg h]
    push Not at h
    have hT : 0 < 4 * fMax := by positivity
    have hfs : 0 < fs := by linarith
    obtain ⟨k, h1, h2, h3, h4⟩ := decLoop_eq div (4 * fMax) (⌊fs / (4 * fMax)⌋₊ + 1) fs 1
    rw [one_mul] at h2
    have hk : fs / (div : K) ^ (k + 1) < 4 * fMax := by
      rcases Nat.lt_or_ge k (⌊fs / (4 * fMax)⌋₊ + 1) with hlt | hge
      · exact h4 hlt
      · have h5 := Nat.lt_floor_add_one (fs / (4 * fMax))
        have h6 : ((⌊fs / (4 * fMax)⌋₊ + 1 : ℕ) : K) ≤ k := by exact_mod_cast hge
        push_cast at h6
        have h7 : (k : K) < (div : K) ^ (k + 1) := by
          have : k < div ^ (k + 1) := lt_of_lt_of_le (Nat.lt_pow_self (by omega)) (Nat.pow_le_pow_right (by omega) (by omega))
          exact_mod_cast this
        rw [div_lt_iff₀ (by positivity)]
        have h8 : fs / (4 * fMax) < (div : K) ^ (k + 1) := by linarith
        rw [div_lt_iff₀ hT] at h8
        linarith
    refine ⟨⟨k, h2⟩, ?_, ?_, fun h' => absurd h' (not_lt.mpr h)⟩
    · intro _
      rw [h2]
      push_cast
      rcases Nat.eq_zero_or_pos k with rfl | hk0
      · simpa using h
      · exact h3 k hk0 (le_refl _)
    · intro j hj
      rw [h2]
      apply Nat.pow_le_pow_right (by omega)
      by_contra hc
      have : fs / (div : K) ^ j ≤ fs / (div : K) ^ (k + 1) :=
        div_le_div_of_nonneg_left hfs.le (by positivity) (pow_le_pow_right₀ hd1 (by omega))
      linarith

/-- **C17**. Lower frequencies are never decimated less: the factor of the higher frequency divides that of the
lower one. -/
theorem C17_factor_monotone (div : ℕ) (hdiv : 2 ≤ div) (fs f g : K) (hf : 0 < f) (hfg : f ≤ g) :
    getDecimationFactor div fs g ∣ getDecimationFactor div fs f := by
  obtain ⟨⟨k, hk⟩, ha, -, hone⟩ := C17_decimation_factor div hdiv fs g (by linarith)
  obtain ⟨⟨l, hl⟩, -, hb, -⟩ := C17_decimation_factor div hdiv fs f hf
  by_cases h : 4 * g ≤ fs
  · have h1 := ha h
    rw [hk] at h1
    push_cast at h1
    have h2 := hb k (by linarith)
    rw [hk, hl]
    rw [hl] at h2
    exact pow_dvd_pow _ ((Nat.pow_le_pow_iff_right (by omega)).mp h2)
  · rw [hone (not_le.mp h)]
    exact one_dvd _

theorem getDecimationFactor_pos (div : ℕ) (hdiv : 2 ≤ div) (fs f : K) (hf : 0 < f) :
    1 ≤ getDecimationFactor div fs f := by
  obtain ⟨⟨k, hk⟩, -⟩ := C17_decimation_factor div hdiv fs f hf
  rw [hk]; exact Nat.one_le_pow _ _ (by omega)

end Factor

/-- 128 Hz data with evaluation frequencies up to 3 Hz: factor 8 -/
example : getDecimationFactor 2 (128 : ℚ) 3 = 8 := by decide +kernel

/-! ## C18 parameters are self consistent -/

theorem foldl_max_mem {K : Type} [LinearOrder K] (xs : List K) (x : K) : xs.foldl max x ∈ x :: xs := by
  induction xs generalizing x with
  | nil => simp
  | cons y ys ih =>
    have := ih (max x y)
    rw [List.foldl_cons]
    rcases List.mem_cons.mp this with h | h
    · rw [h]
      rcases max_choice x y with h' | h' <;> rw [h'] <;> simp
    · simp [h]

theorem le_foldl_max {K : Type} [LinearOrder K] (xs : List K) (x y : K) (h : y ∈ x :: xs) :
    y ≤ xs.foldl max x := by
  induction xs generalizing x y with
  | nil => simp at h; simp [h]
  | cons z zs ih =>
    rw [List.foldl_cons]
    rcases List.mem_cons.mp h with h' | h'
    · rw [h']; exact (le_max_left x z).trans (ih (max x z) (max x z) (by simp))
    · rcases List.mem_cons.mp h' with h'' | h''
      · rw [h'']; exact (le_max_right x z).trans (ih (max x z) (max x z) (by simp))
      · exact ih _ _ (by simp [h''])

theorem npMax_spec {K : Type} [LinearOrder K] {l : List K} {m : K} (h : npMax l = .ok m) :
    m ∈ l ∧ ∀ y ∈ l, y ≤ m := by
  cases l with
  | nil => cases h
  | cons x xs =>
    simp only [npMax, Except.ok.injEq] at h
    subst h
    exact ⟨foldl_max_mem xs x, fun y hy => le_foldl_max xs x y hy⟩

theorem mem_reshapeRow {K : Type} {freqs : List K} {per i : ℕ} {x : K} (h : x ∈ reshapeRow freqs per i) :
    ∃ j, per * i ≤ j ∧ j < per * (i + 1) ∧ freqs[j]? = some x := by
  unfold reshapeRow at h
  obtain ⟨k, hk, rfl⟩ := List.mem_iff_getElem.mp h
  simp only [List.length_take, List.length_drop] at hk
  refine ⟨per * i + k, by omega, ?_, ?_⟩
  · have : per * (i + 1) = per * i + per := by ring
    omega
  · rw [List.getElem?_eq_getElem (by omega)]
    simp

theorem decIncrements_chain (factors : List ℕ) (d i : ℕ) (hi : i < factors.length)
    (hd : ∀ x ∈ factors.head?, d ∣ x) (hpos : ∀ x ∈ factors, 0 < x) (hd0 : 0 < d)
    (hch : ∀ j (h : j + 1 < factors.length), factors[j] ∣ factors[j + 1]) :
    ((List.zipWith (fun f d => f / d) factors (d :: factors.dropLast)).take (i + 1)).prod * d = factors[i] ∧
    ∀ x ∈ List.zipWith (fun f d => f / d) factors (d :: factors.dropLast), 1 ≤ x := by
  induction factors generalizing d i with
  | nil => simp at hi
  | cons f fs ih =>
    have hdf : d ∣ f := hd f (by simp)
    have hf0 : 0 < f := hpos f (by simp)
    cases fs with
    | nil =>
      have : i = 0 := by simpa using hi
      subst this
      simp only [List.dropLast_singleton, List.zipWith_cons_cons, List.zipWith_nil_left]
      refine ⟨by simpa using Nat.div_mul_cancel hdf, ?_⟩
      intro x hx
      simp only [List.mem_singleton] at hx
      rw [hx]
      exact Nat.div_pos (Nat.le_of_dvd hf0 hdf) hd0
    | cons g gs =>
      rw [List.dropLast_cons_of_ne_nil (by simp), List.zipWith_cons_cons]
      have hfg : f ∣ g := hch 0 (by simp)
      have h1 : ∀ j (hj : j < (g :: gs).length), _ := fun j hj => ih f j hj (by simpa using hfg)
        (fun x hx => hpos x (by simp [hx])) hf0
        (fun j h => hch (j + 1) (by simpa using h))
      constructor
      · cases i with
        | zero => simpa using Nat.div_mul_cancel hdf
        | succ i =>
          have := (h1 i (by simpa using hi)).1
          rw [List.take_succ_cons, List.prod_cons]
          simp only [List.getElem_cons_succ]
          rw [← this, mul_comm, ← mul_assoc, mul_comm d, Nat.div_mul_cancel hdf, mul_comm]
      · intro x hx
        rcases List.mem_cons.mp hx with h | h
        · rw [h]; exact Nat.div_pos (Nat.le_of_dvd hf0 hdf) hd0
        · exact (h1 0 (by simp)).2 x h

section Params
variable {K : Type} [Field K] [LinearOrder K] [IsStrictOrderedRing K] [FloorSemiring K]

omit [IsStrictOrderedRing K] in
/-- what the setup produces, level by level -/
theorem DecSetup.run_spec (s : DecSetup K) (deflt : K → ℕ → List K) (fs : K) (p : DecParams K)
    (h : s.run deflt fs = .ok p) :
    p.fs = fs ∧ p.nLevels = s.nLevels ∧ p.perLevel = s.perLevel ∧ 0 < p.minSamples ∧
      p.minSamples = s.minSamples ∧
      s.getEvalFreqs deflt fs = .ok p.evalFreqs ∧ p.decFactors.length = p.nLevels ∧
      p.decIncrements = decIncrements p.decFactors ∧ p.decFs = decFsList fs p.decFactors ∧
      ∀ i (hi : i < p.decFactors.length), ∃ m, npMax (reshapeRow p.evalFreqs p.perLevel i) = .ok m ∧
        p.decFactors[i] = getDecimationFactor s.divFactor fs m := by
  unfold DecSetup.run at h
  simp only [except_bind_ok] at h
  obtain ⟨freqs, hf, factors, hfac, h⟩ := h
  unfold mkDecParams at h
  split at h
  · cases h
  · rename_i hms
    split at h
    · cases h
    · rename_i hlen
      push Not at hlen
      injection h with h
      subst h
      refine ⟨rfl, rfl, rfl, Nat.pos_of_ne_zero hms, rfl, hf, hlen, rfl, rfl, ?_⟩
      intro i hi
      simp only at hi ⊢
      have := mapM_ok_getElem hfac i (by simpa [← hlen] using hi) hi
      rw [List.getElem_range] at this
      unfold levelFactor at this
      simp only [except_bind_ok, except_pure_ok] at this
      obtain ⟨m, hm, he⟩ := this
      exact ⟨m, hm, he.symm⟩

/-- **C18**. For the parameters produced from positive frequencies in non-increasing order, there is one factor,
increment and sampling frequency per level, the product of the increments up to a level is the level's factor,
every increment is at least one, and the level's sampling frequency is `fs / factor`. -/
theorem C18_parameters_consistent (s : DecSetup K) (deflt : K → ℕ → List K) (fs : K) (p : DecParams K)
    (hdiv : 2 ≤ s.divFactor) (h : s.run deflt fs = .ok p)
    (hpos : ∀ f ∈ p.evalFreqs, 0 < f) (hdesc : p.evalFreqs.Pairwise (· ≥ ·)) :
    p.decFactors.length = p.nLevels ∧ p.decIncrements.length = p.nLevels ∧ p.decFs.length = p.nLevels ∧
    ∀ (i : ℕ) (f inc : ℕ) (g : K), p.decFactors[i]? = some f → p.decIncrements[i]? = some inc →
      p.decFs[i]? = some g →
      (p.decIncrements.take (i + 1)).prod = f ∧ 1 ≤ inc ∧ g = fs / f := by
  obtain ⟨-, -, -, -, -, -, hlen, hinc, hdfs, hlev⟩ := DecSetup.run_spec s deflt fs p h
  have hmem : ∀ i (hi : i < p.decFactors.length) m, npMax (reshapeRow p.evalFreqs p.perLevel i) = .ok m → 0 < m := by
    intro i hi m hm
    obtain ⟨j, -, -, hj⟩ := mem_reshapeRow (npMax_spec hm).1
    exact hpos m (List.mem_of_getElem? hj)
  have hfpos : ∀ x ∈ p.decFactors, 0 < x := by
    intro x hx
    obtain ⟨i, hi, rfl⟩ := List.mem_iff_getElem.mp hx
    obtain ⟨m, hm, he⟩ := hlev i hi
    rw [he]
    exact getDecimationFactor_pos _ hdiv _ _ (hmem i hi m hm)
  have hch : ∀ j (hj : j + 1 < p.decFactors.length), p.decFactors[j] ∣ p.decFactors[j + 1] := by
    intro j hj
    obtain ⟨m, hm, he⟩ := hlev j (by omega)
    obtain ⟨m', hm', he'⟩ := hlev (j + 1) hj
    rw [he, he']
    apply C17_factor_monotone _ hdiv
    · exact hmem _ hj _ hm'
    · obtain ⟨a, ha1, ha2, ha⟩ := mem_reshapeRow (npMax_spec hm).1
      obtain ⟨b, hb1, hb2, hb⟩ := mem_reshapeRow (npMax_spec hm').1
      obtain ⟨hal, ha⟩ := List.getElem?_eq_some_iff.mp ha
      obtain ⟨hbl, hb⟩ := List.getElem?_eq_some_iff.mp hb
      rw [← ha, ← hb]
      exact List.pairwise_iff_getElem.mp hdesc a b hal hbl (by omega)
  have hinclen : p.decIncrements.length = p.decFactors.length := by
    rw [hinc, decIncrements]
    cases hdf : p.decFactors with
    | nil => simp
    | cons a l => simp
  refine ⟨hlen, by rw [hinclen, hlen], by rw [hdfs, decFsList, List.length_map, hlen], ?_⟩
  intro i f inc g hf hi hg
  obtain ⟨hil, hf⟩ := List.getElem?_eq_some_iff.mp hf
  obtain ⟨hc1, hc2⟩ := decIncrements_chain p.decFactors 1 i hil (by simp) hfpos (by omega) hch
  refine ⟨?_, ?_, ?_⟩
  · rw [hinc, decIncrements, ← hf, ← hc1, mul_one]
  · rw [hinc] at hi
    exact hc2 inc (List.mem_of_getElem? hi)
  · rw [hdfs, decFsList, List.getElem?_map, List.getElem?_eq_getElem hil] at hg
    simp only [Option.map_some, Option.some.injEq] at hg
    rw [← hg, hf, div_eq_mul_inv]

/-- **C18**. Whatever the order of the frequencies, every evaluation frequency of a level is at most half the
sampling frequency of that level (provided none exceeds half of `fs`, which the setup enforces for given
frequencies), so it can be evaluated on that level's spectra. -/
theorem C18_freqs_below_level_nyquist (s : DecSetup K) (deflt : K → ℕ → List K) (fs : K) (p : DecParams K)
    (hdiv : 2 ≤ s.divFactor) (h : s.run deflt fs = .ok p)
    (hpos : ∀ f ∈ p.evalFreqs, 0 < f ∧ f ≤ fs / 2) (i : ℕ) (hi : i < p.nLevels) (g f : K)
    (hg : p.decFs[i]? = some g) (hf : f ∈ reshapeRow p.evalFreqs p.perLevel i) :
    f ≤ g / 2 := by
  obtain ⟨-, -, -, -, -, -, hlen, hinc, hdfs, hlev⟩ := DecSetup.run_spec s deflt fs p h
  obtain ⟨m, hm, he⟩ := hlev i (by omega)
  obtain ⟨j, -, -, hj⟩ := mem_reshapeRow (npMax_spec hm).1
  have hm0 := hpos m (List.mem_of_getElem? hj)
  have hfm := (npMax_spec hm).2 f hf
  rw [hdfs, decFsList, List.getElem?_map, List.getElem?_eq_getElem (by omega)] at hg
  simp only [Option.map_some, Option.some.injEq] at hg
  obtain ⟨-, ha, -, hone⟩ := C17_decimation_factor s.divFactor hdiv fs m hm0.1
  by_cases h4 : 4 * m ≤ fs
  · have := ha h4
    rw [he] at hg
    rw [← hg, ← div_eq_mul_inv]
    linarith
  · rw [he, hone (not_le.mp h4)] at hg
    rw [← hg]
    simp
    linarith [hm0.2]

end Params

/-- **C18** for the default ladder: no assumption on the frequencies is needed. -/
theorem C18_default_setup (s : DecSetup ℝ) (fs : ℝ) (p : DecParams ℝ) (hfs : 0 < fs) (hdiv : 2 ≤ s.divFactor)
    (hdef : s.evalFreqs = none) (h : s.run getEvalFreqsSize fs = .ok p) :
    p.evalFreqs = (List.range (s.nLevels * s.perLevel)).map (rung fs) ∧
    ∀ (i : ℕ) (f inc : ℕ) (g : ℝ), p.decFactors[i]? = some f → p.decIncrements[i]? = some inc →
      p.decFs[i]? = some g →
      (p.decIncrements.take (i + 1)).prod = f ∧ 1 ≤ inc ∧ g = fs / f := by
  have hev := (DecSetup.run_spec s _ fs p h).2.2.2.2.2.1
  simp only [DecSetup.getEvalFreqs, hdef, Except.ok.injEq] at hev
  have hev' : p.evalFreqs = (List.range (s.nLevels * s.perLevel)).map (rung fs) := by
    rw [← hev]
    have := (C16_eval_freqs_size fs (s.nLevels * s.perLevel)).1
    simpa [getEvalFreqs] using this
  refine ⟨hev', (C18_parameters_consistent s _ fs p hdiv h ?_ ?_).2.2.2⟩
  · intro f hf
    rw [hev'] at hf
    obtain ⟨i, -, rfl⟩ := List.mem_map.mp hf
    exact (C16_ladder fs hfs 0).2.2.2 i
  · rw [hev']
    exact (C16_ladder fs hfs _).2.2.1.imp (fun h => le_of_lt h)

/-- **C18** (the order matters). With user frequencies in increasing order the increments are wrong: the
increment of level 1 is 0 although its factor is 1. -/
theorem C18_increasing_frequencies_break_increments :
    ∃ p, (DecSetup.run (K := ℚ) ⟨2, 1, 1, 2, some [1, 16]⟩ (fun _ _ => []) 64) = .ok p ∧
      p.decFactors = [16, 1] ∧ p.decIncrements = [16, 0] := by
  exact ⟨⟨64, 2, 1, 1, [1, 16], [16, 1], [16, 0], [4, 64]⟩, by decide +kernel, rfl, rfl⟩

/-- the hypotheses of C18 are met by a concrete setup -/
example : ∃ p, (DecSetup.run (K := ℚ) ⟨2, 2, 1, 2, some [16, 8, 4, 2]⟩ (fun _ _ => []) 64) = .ok p ∧
    p.decFactors = [1, 4] ∧ p.decIncrements = [1, 4] ∧ p.decFs = [64, 16] := by
  exact ⟨⟨64, 2, 2, 1, [16, 8, 4, 2], [1, 4], [1, 4], [64, 16]⟩, by decide +kernel, rfl, rfl, rfl⟩

/-! ## C19 every evaluation frequency belongs to exactly one level and index -/

/-- **C19**. `get_eval_freq(level, idx)` is item `idx` of `get_eval_freqs(level)`, and both are item
`per_level * level + idx` of the frequency list; other levels and indices are refused. -/
theorem C19_eval_freq_lookup {K : Type} (p : DecParams K) (hlen : p.evalFreqs.length = p.nLevels * p.perLevel)
    (level idx : ℤ) :
    (0 ≤ level ∧ level < p.nLevels ∧ 0 ≤ idx ∧ idx < p.perLevel →
      ∃ row f, p.getEvalFreqs level = .ok row ∧ row.length = p.perLevel ∧ p.getEvalFreq level idx = .ok f ∧
        row[idx.toNat]? = some f ∧ p.evalFreqs[p.perLevel * level.toNat + idx.toNat]? = some f) ∧
    (¬ (0 ≤ level ∧ level < p.nLevels) →
      p.getEvalFreqs level = .error .value ∧ p.getEvalFreq level idx = .error .value) ∧
    (¬ (0 ≤ idx ∧ idx < p.perLevel) → p.getEvalFreq level idx = .error .value) := by
  refine ⟨?_, ?_, ?_⟩
  · rintro ⟨h1, h2, h3, h4⟩
    obtain ⟨l, rfl⟩ := Int.eq_ofNat_of_zero_le h1
    obtain ⟨j, rfl⟩ := Int.eq_ofNat_of_zero_le h3
    have hl : l < p.nLevels := by exact_mod_cast h2
    have hj : j < p.perLevel := by exact_mod_cast h4
    have hb : p.perLevel * l + p.perLevel ≤ p.evalFreqs.length := by
      rw [hlen]
      calc p.perLevel * l + p.perLevel = p.perLevel * (l + 1) := by ring
        _ ≤ p.perLevel * p.nLevels := Nat.mul_le_mul_left _ hl
        _ = _ := Nat.mul_comm _ _
    have hsl : pySlice p.evalFreqs ((p.perLevel : ℤ) * l) ((p.perLevel : ℤ) * l + p.perLevel)
        = (p.evalFreqs.take (p.perLevel * l + p.perLevel)).drop (p.perLevel * l) := by
      have e1 : ((p.perLevel : ℤ) * l) = ((p.perLevel * l : ℕ) : ℤ) := by push_cast; ring
      have e2 : (((p.perLevel * l : ℕ) : ℤ) + p.perLevel) = ((p.perLevel * l + p.perLevel : ℕ) : ℤ) := by push_cast; ring
      rw [e1, e2]
      unfold pySlice
      rw [pyBound_of_nonneg (by omega) (by
        exact_mod_cast (by omega : p.perLevel * l ≤ p.evalFreqs.length)),
        pyBound_of_nonneg (by omega) (by exact_mod_cast hb)]
      simp only [Int.toNat_natCast]
    refine ⟨(p.evalFreqs.take (p.perLevel * l + p.perLevel)).drop (p.perLevel * l),
      p.evalFreqs[p.perLevel * l + j]'(by omega), ?_, ?_, ?_, ?_, ?_⟩
    · simp only [DecParams.getEvalFreqs, DecParams.checkLevel]
      rw [if_neg (by omega)]
      simp [bind, Except.bind, pure, Except.pure, hsl]
    · rw [List.length_drop, List.length_take]; omega
    · simp only [DecParams.getEvalFreq, DecParams.checkLevel, DecParams.checkEvalIdx]
      rw [if_neg (by omega), if_neg (by omega)]
      simp only [bind, Except.bind]
      have e1 : ((p.perLevel : ℤ) * (l : ℤ) + (j : ℤ)) = ((p.perLevel * l + j : ℕ) : ℤ) := by push_cast; ring
      have := pyIndex_natCast p.evalFreqs (p.perLevel * l + j) (by omega)
      rw [← e1] at this
      exact this
    · simp only [Int.toNat_natCast]
      rw [List.getElem?_drop, List.getElem?_take, if_pos (by omega), List.getElem?_eq_getElem]
    · simp only [Int.toNat_natCast]
      rw [List.getElem?_eq_getElem]
  · intro h
    have : level < 0 ∨ (p.nLevels : ℤ) ≤ level := by omega
    simp [DecParams.getEvalFreqs, DecParams.getEvalFreq, DecParams.checkLevel, this, bind, Except.bind]
  · intro h
    have h' : idx < 0 ∨ (p.perLevel : ℤ) ≤ idx := by omega
    simp only [DecParams.getEvalFreq, DecParams.checkLevel, DecParams.checkEvalIdx, if_pos h']
    split <;> rfl

/-- **C19**. Every position of the frequency list belongs to exactly one pair of a legal level and a legal
index. -/
theorem C19_level_index_unique {K : Type} (p : DecParams K)
    (hlen : p.evalFreqs.length = p.nLevels * p.perLevel) (k : ℕ) (hk : k < p.evalFreqs.length) :
    ∃! li : ℕ × ℕ, li.1 < p.nLevels ∧ li.2 < p.perLevel ∧ p.perLevel * li.1 + li.2 = k := by
  have hp : 0 < p.perLevel := by
    rcases Nat.eq_zero_or_pos p.perLevel with h | h
    · rw [h] at hlen; omega
    · exact h
  refine ⟨(k / p.perLevel, k % p.perLevel), ⟨?_, Nat.mod_lt _ hp, Nat.div_add_mod k p.perLevel⟩, ?_⟩
  · exact (Nat.div_lt_iff_lt_mul hp).mpr (by omega)
  · rintro ⟨l, i⟩ ⟨_, h2, h3⟩
    simp only at h2 h3
    have e : l = k / p.perLevel := by
      rw [← h3, Nat.mul_add_div hp, Nat.div_eq_of_lt h2]; rfl
    have e2 : i = k % p.perLevel := by
      rw [← h3, Nat.mul_add_mod, Nat.mod_eq_of_lt h2]
    rw [e, e2]

/-- the parameters built by the setup have the length the lookup theorems need -/
theorem C19_setup_length {K : Type} [Field K] [LinearOrder K] [IsStrictOrderedRing K] [FloorSemiring K]
    (s : DecSetup K) (deflt : K → ℕ → List K)
    (hd : ∀ f n, (deflt f n).length = n) (fs : K) (p : DecParams K) (h : s.run deflt fs = .ok p) :
    p.evalFreqs.length = p.nLevels * p.perLevel := by
  obtain ⟨-, h1, h2, -, -, hev, -⟩ := DecSetup.run_spec s deflt fs p h
  rw [h1, h2]
  unfold DecSetup.getEvalFreqs at hev
  cases he : s.evalFreqs with
  | none => simp only [he, Except.ok.injEq] at hev; rw [← hev, hd]
  | some fr =>
    simp only [he] at hev
    split at hev
    · cases hev
    · rename_i hl
      split at hev
      · cases hev
      · injection hev with hev
        rw [← hev]; push Not at hl; exact hl

/-! ## C20 the pyramid of decimated levels -/

/-- Specification: `tds` are the successive decimations of `td` by the increments: each is obtained from the
one before it (the first from the input). -/
def Pyramid (step : TimeData ℚ → ℕ → Except Err (TimeData ℚ)) (incs : List ℕ) (a : ℕ) (td : TimeData ℚ)
    (tds : List (TimeData ℚ)) : Prop :=
  ∀ i (h : i < tds.length), ∃ x inc, (td :: tds)[i]? = some x ∧ incs[a + i]? = some inc ∧
    step x inc = .ok tds[i]

theorem decimatorLoop_spec (step : TimeData ℚ → ℕ → Except Err (TimeData ℚ)) (p : DecParams ℚ) (m a : ℕ)
    (td : TimeData ℚ) (acc acc' : DecAcc)
    (h : decimatorLoop step p (List.range' a m) td acc = .ok acc') :
    ∃ tds : List (TimeData ℚ), tds.length ≤ m ∧
      acc'.data = acc.data ++ (tds.zipIdx a).map (fun q => (q.2, q.1.data)) ∧
      acc'.levels = acc.levels ++ tds.map (fun t => levelMetaOf t.md) ∧
      Pyramid step p.decIncrements a td tds ∧ (∀ t ∈ tds, (p.minSamples : ℤ) ≤ t.md.nSamples) ∧
      (tds.length = m ∨ ∃ x inc new, (td :: tds)[tds.length]? = some x ∧
        p.decIncrements[a + tds.length]? = some inc ∧ step x inc = .ok new ∧
        new.md.nSamples < p.minSamples) := by
  induction m generalizing a td acc with
  | zero =>
    simp only [List.range'_zero, decimatorLoop, Except.ok.injEq] at h
    subst h
    exact ⟨[], by simp, by simp, by simp, by intro i h; simp at h, by simp, Or.inl rfl⟩
  | succ m ih =>
    rw [List.range'_succ] at h
    unfold decimatorLoop at h
    simp only [except_bind_ok] at h
    obtain ⟨inc, hinc, new, hnew, h⟩ := h
    have hinc' := pyIndex_ok hinc
    split at h
    · rename_i hlt
      injection h with h
      subst h
      refine ⟨[], by simp, by simp, by simp, by intro i h; simp at h, by simp, Or.inr ?_⟩
      exact ⟨td, inc, new, by simp, by simpa using hinc', hnew, hlt⟩
    · rename_i hge
      simp only [except_bind_ok] at h
      obtain ⟨-, -, h⟩ := h
      obtain ⟨tds, h1, h2, h3, h4, h5, h6⟩ := ih (a + 1) new _ h
      refine ⟨new :: tds, by simpa using h1, ?_, ?_, ?_, ?_, ?_⟩
      · rw [h2]; simp [List.zipIdx_cons]
      · rw [h3]; simp
      · intro i hi
        cases i with
        | zero => exact ⟨td, inc, by simp, by simpa using hinc', by simpa using hnew⟩
        | succ i =>
          obtain ⟨x, inc2, g1, g2, g3⟩ := h4 i (by simpa using hi)
          exact ⟨x, inc2, by simpa using g1, by rw [← g2]; congr 1; omega, by simpa using g3⟩
      · intro t ht
        rcases List.mem_cons.mp ht with rfl | ht
        · exact not_lt.mp hge
        · exact h5 t ht
      · rcases h6 with h6 | ⟨x, inc2, new2, g1, g2, g3, g4⟩
        · left; simp [h6]
        · right
          exact ⟨x, inc2, new2, by simpa using g1, by rw [← g2]; congr 1; simp; omega, g3, g4⟩

/-- **C20**. `Decimator.run` returns levels `0 .. k-1` without gaps and as many level metadata as arrays; level
`i` is the decimation of level `i-1` (of the input for level 0) by increment `i`; every level has the minimum
number of samples; and it stops early only because the next level would have too few samples. -/
theorem C20_pyramid (step : TimeData ℚ → ℕ → Except Err (TimeData ℚ)) (p : DecParams ℚ) (td : TimeData ℚ)
    (out : DecData ℚ) (h : decimatorRun step p td = .ok out) :
    ∃ tds : List (TimeData ℚ), tds.length = out.md.nLevels ∧ 1 ≤ out.md.nLevels ∧
      out.md.nLevels ≤ p.nLevels ∧ out.data.map Prod.fst = List.range out.md.nLevels ∧
      out.data.map Prod.snd = tds.map (·.data) ∧
      out.md.levels = tds.map (fun t => levelMetaOf t.md) ∧
      out.md.fs = tds.map (·.md.fs) ∧
      Pyramid step p.decIncrements 0 td tds ∧ (∀ t ∈ tds, (p.minSamples : ℤ) ≤ t.md.nSamples) ∧
      (out.md.nLevels < p.nLevels → ∃ x inc new, (td :: tds)[out.md.nLevels]? = some x ∧
        p.decIncrements[out.md.nLevels]? = some inc ∧ step x inc = .ok new ∧
        new.md.nSamples < p.minSamples) := by
  unfold decimatorRun at h
  simp only [except_bind_ok, except_pure_ok] at h
  obtain ⟨acc, hacc, x, hx, rfl⟩ := h
  rw [List.range_eq_range'] at hacc
  obtain ⟨tds, h1, h2, h3, h4, h5, h6⟩ := decimatorLoop_spec step p p.nLevels 0 td _ acc hacc
  simp only [List.nil_append] at h2 h3
  have hlen : acc.levels.length = tds.length := by rw [h3, List.length_map]
  refine ⟨tds, by simp [hlen], ?_, by simpa [hlen] using h1, ?_, ?_, h3, ?_, h4, h5, ?_⟩
  · simp only [hlen]
    cases htd : tds with
    | nil => rw [h2, htd] at hx; simp [dictGet] at hx
    | cons a l => simp
  · simp only [h2, hlen, List.map_map]
    rw [List.range_eq_range']
    have : (Prod.fst ∘ fun (q : TimeData ℚ × ℕ) => (q.2, q.1.data)) = Prod.snd := rfl
    rw [this, List.zipIdx_map_snd]
  · simp only [h2, List.map_map]
    have : (Prod.snd ∘ fun (q : TimeData ℚ × ℕ) => (q.2, q.1.data)) = (fun t : TimeData ℚ => t.data) ∘ Prod.fst := rfl
    rw [this, ← List.map_map, List.zipIdx_map_fst]
  · simp only [h3, List.map_map]
    rfl
  · intro hlt
    simp only [hlen] at hlt ⊢
    rcases h6 with h6 | h6
    · omega
    · simpa using h6

/-- **C20**. An increment of one leaves the data and metadata of the level before unchanged. -/
theorem C20_increment_one (sp : SciPy) (m : ℕ) (td : TimeData ℚ) :
    decimatorDecimate sp m td 1 = .ok td ∧ decimatorResample sp td 1 = .ok td := ⟨rfl, rfl⟩

/-- one decimation step: consistent data, same channels, same first time, frequency divided by the increment -/
theorem decimator_step (sp : SciPy) (hl : sp.Lawful) (useResample : Bool) (m : ℕ) (hm : 2 ≤ m)
    (td new : TimeData ℚ) (inc : ℕ) (hc : td.Consistent)
    (h : (if useResample then decimatorResample sp else decimatorDecimate sp m) td inc = .ok new) :
    new.Consistent ∧ new.md.chans = td.md.chans ∧ new.md.firstTime = td.md.firstTime ∧
      new.md.fs = td.md.fs / inc := by
  cases useResample with
  | true =>
    simp only [if_true, decimatorResample] at h
    split at h
    · rename_i h1
      injection h with h
      subst h; subst h1
      exact ⟨hc, rfl, rfl, by simp⟩
    · split at h
      · cases h
      · have hc' := Proc.run_consistent sp hl (.resample (td.md.fs / inc)) trivial td new hc h
        refine ⟨hc'.1, hc'.2.1, ?_⟩
        unfold resample at h
        rw [if_neg hc.fs_pos.ne'] at h
        simp only at h
        split at h
        · cases h
        · simp only [except_bind_ok, except_pure_ok] at h
          obtain ⟨md, hmd, rfl⟩ := h
          unfold adjustTimeMetadata at hmd
          simp only [except_bind_ok, except_pure_ok] at hmd
          obtain ⟨r, -, rfl⟩ := hmd
          exact ⟨rfl, rfl⟩
  | false =>
    simp only [Bool.false_eq_true, if_false, decimatorDecimate] at h
    split at h
    · rename_i h1
      injection h with h
      subst h; subst h1
      exact ⟨hc, rfl, rfl, by simp⟩
    · split at h
      · cases h
      · rename_i h0
        have hc' := Proc.run_consistent sp hl (.decimate m inc) ⟨hm, by omega⟩ td new hc h
        refine ⟨hc'.1, hc'.2.1, ?_⟩
        unfold decimateProc at h
        simp only [except_bind_ok] at h
        obtain ⟨data, -, h⟩ := h
        rw [if_neg h0] at h
        simp only [except_bind_ok, except_pure_ok] at h
        obtain ⟨md, hmd, rfl⟩ := h
        unfold adjustTimeMetadata at hmd
        simp only [except_bind_ok, except_pure_ok] at hmd
        obtain ⟨r, -, rfl⟩ := hmd
        exact ⟨rfl, rfl⟩

/-- **C20**. Every level of the decimator's result starts at the recording's first time, has the recording's
channels, is consistent (columns = samples, last time), and has the recording's sampling frequency divided by
the product of the increments so far. -/
theorem C20_levels_consistent (sp : SciPy) (hl : sp.Lawful) (useResample : Bool) (m : ℕ) (hm : 2 ≤ m)
    (p : DecParams ℚ) (td : TimeData ℚ) (hc : td.Consistent) (out : DecData ℚ)
    (h : Decimator.run sp useResample m p td = .ok out) :
    ∃ tds : List (TimeData ℚ), out.data = tds.zipIdx.map (fun q => (q.2, q.1.data)) ∧
      out.md.levels = tds.map (fun t => levelMetaOf t.md) ∧ out.md.nLevels = tds.length ∧
      ∀ i (hi : i < tds.length), tds[i].Consistent ∧ tds[i].md.chans = td.md.chans ∧
        tds[i].md.firstTime = td.md.firstTime ∧
        tds[i].md.fs = td.md.fs / ((p.decIncrements.take (i + 1)).prod : ℕ) := by
  obtain ⟨tds, h1, h2, -, h3, h4, h5, -, h6, -, -⟩ := C20_pyramid _ p td out h
  refine ⟨tds, ?_, h5, h1.symm, ?_⟩
  · have e : ∀ l : List (ℕ × List (List ℚ)), l = List.zip (l.map Prod.fst) (l.map Prod.snd) := by
      intro l; rw [List.zip_map']; simp
    rw [e out.data, h3, h4, ← h1, e (tds.zipIdx.map _), List.map_map, List.map_map, List.range_eq_range']
    have e1 : (Prod.fst ∘ fun (q : TimeData ℚ × ℕ) => (q.2, q.1.data)) = Prod.snd := rfl
    have e2 : (Prod.snd ∘ fun (q : TimeData ℚ × ℕ) => (q.2, q.1.data)) = (fun t : TimeData ℚ => t.data) ∘ Prod.fst := rfl
    rw [e1, e2, List.zipIdx_map_snd, ← List.map_map, List.zipIdx_map_fst]
  · intro i
    induction i with
    | zero =>
      intro hi
      obtain ⟨x, inc, g1, g2, g3⟩ := h6 0 hi
      simp only [List.getElem?_cons_zero, Option.some.injEq] at g1
      subst g1
      obtain ⟨a, b, c, d⟩ := decimator_step sp hl useResample m hm _ _ inc hc g3
      refine ⟨a, b, c, ?_⟩
      rw [d]
      cases hp : p.decIncrements with
      | nil => rw [hp] at g2; simp at g2
      | cons y ys => rw [hp] at g2; simp at g2; simp [g2]
    | succ i ih =>
      intro hi
      obtain ⟨c0, c1, c2, c3⟩ := ih (by omega)
      obtain ⟨x, inc, g1, g2, g3⟩ := h6 (i + 1) hi
      rw [List.getElem?_cons_succ, List.getElem?_eq_getElem (by omega)] at g1
      injection g1 with g1
      subst g1
      obtain ⟨a, b, c, d⟩ := decimator_step sp hl useResample m hm _ _ inc c0 g3
      refine ⟨a, b.trans c1, c.trans c2, ?_⟩
      rw [d, c3, div_div]
      congr 1
      rw [Nat.zero_add] at g2
      rw [List.take_add_one (i := i + 1), g2]
      simp

/-- three levels are asked for, two are long enough -/
example : (Decimator.run demoSciPy false 3 ⟨2, 3, 1, 2, [1/4, 1/8, 1/16], [1, 2, 6], [1, 2, 3], [2, 1, 1/3]⟩
    demoRec).map (fun o => (o.md.nLevels, o.data.map Prod.fst, o.md.fs)) = .ok (2, [0, 1], [2, 1]) := by
  decide +kernel

end Resistics
