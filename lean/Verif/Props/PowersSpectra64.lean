import Verif.Props.Powers64
import Verif.Props.RegressionSpectra

/-!
# C87: regression input from spectra and from gathered data agree in floating point numbers
-/

namespace Resistics

open scoped ComplexConjugate
open Finset (range)

theorem specPowersF_cells (t : NumType) (nw n m nf : ℕ) (f g : ℕ → ℕ → ℕ → ℚ × ℚ) :
    specPowersF t ((List.range nw).map fun w => (List.range n).map fun i => (List.range nf).map fun j => f w i j)
      ((List.range nw).map fun w => (List.range m).map fun c => (List.range nf).map fun j => g w c j) =
      .ok ((List.range nw).map fun w => (List.range n).map fun i => (List.range m).map fun c => (List.range nf).map fun j =>
        asComplex (mulF t (f w i j) (conjF (g w c j)))) := by
  unfold specPowersF
  rw [if_neg (by simp)]
  simp only [List.zipWith_map, List.zipWith_self, List.map_map, Function.comp_def]

/-- **C87**. Evaluation data of one site: preparing the spectra directly, and gathering them first and preparing the
gathered data, give the same regression input. -/
theorem C87_preparers_agree (t : ℕ → NumType) (name : String) (p : DecParams ℚ) (d : SpecData (ℚ × ℚ)) (hsh : d.Shaped) (hnd : d.md.chans.Nodup)
    (tf : TransFunc) (hndo : tf.outChans.Nodup) (ho : ∀ c ∈ tf.outChans, c ∈ d.md.chans)
    (hi : ∀ c ∈ tf.inChans, c ∈ d.md.chans) (hx : ∀ c ∈ tf.crossChans, c ∈ d.md.chans)
    (hni : tf.nIn = tf.inChans.length) (hnc : tf.nCross = tf.crossChans.length)
    (hper : ∀ lm ∈ d.md.levels, lm.freqs.length = p.perLevel) :
    ∃ g r, quickGather name p tf.chans d = .ok g ∧ prepareGatheredF (fun k => t (k / p.perLevel)) tf g = .ok r ∧ prepareSpectraF t tf d = .ok r := by
  obtain ⟨g, hg, q1, q2, q3, q4⟩ := C32_quick_gather name p d hsh hnd tf.chans ho hi hx hper
  let nwOf : ℕ → ℕ := fun k => ((d.md.levels[k / p.perLevel]?).map fun lm => lm.nWins.toNat).getD 0
  have hlen : g.outData.evalFreqs.length = d.md.nLevels * p.perLevel := by
    rw [q4, flatten_freqs_length _ _ hper, hsh.n_levels]
  have hat : ∀ k < g.outData.evalFreqs.length, ∃ lm : SpecLevelMeta, d.md.levels[k / p.perLevel]? = some lm ∧
      k % p.perLevel < p.perLevel ∧ nwOf k = lm.nWins.toNat ∧ p.perLevel * (k / p.perLevel) + k % p.perLevel = k := by
    intro k hk
    rw [hlen] at hk
    have hp : 0 < p.perLevel := Nat.pos_of_ne_zero (by intro h; rw [h] at hk; omega)
    have hlt : k / p.perLevel < d.md.levels.length := by
      rw [hsh.n_levels]; exact Nat.div_lt_of_lt_mul (by rwa [mul_comm])
    refine ⟨d.md.levels[k / p.perLevel], List.getElem?_eq_getElem hlt, Nat.mod_lt _ hp, ?_, Nat.div_add_mod _ _⟩
    simp [nwOf, List.getElem?_eq_getElem hlt]
  have hgi : GatheredPairs tf g nwOf
      (fun k w o => cellVal d (k / p.perLevel) w (tf.outChans.getD o "") (k % p.perLevel))
      (fun k w o => cellVal d (k / p.perLevel) w (tf.inChans.getD o "") (k % p.perLevel))
      (fun k w o => cellVal d (k / p.perLevel) w (tf.crossChans.getD o "") (k % p.perLevel)) := by
    refine ⟨hni, hnc, ?_, ?_, ?_⟩
    · intro k hk
      obtain ⟨lm, h1, h2, h3, h4⟩ := hat k hk
      have := quick_rows d hnd p.perLevel tf.outChans _ q1 _ _ lm h1 h2
      rw [h4] at this
      rw [this, h3]
      rfl
    · intro k hk
      obtain ⟨lm, h1, h2, h3, h4⟩ := hat k hk
      have := quick_rows d hnd p.perLevel tf.inChans _ q2 _ _ lm h1 h2
      rw [h4] at this
      rw [this, h3]
      rfl
    · intro k hk
      obtain ⟨lm, h1, h2, h3, h4⟩ := hat k hk
      have := quick_rows d hnd p.perLevel tf.crossChans _ q3 _ _ lm h1 h2
      rw [h4] at this
      rw [this, h3]
      rfl
  -- the result at every evaluation frequency
  have hv : ∀ k, ∃ v, k < g.outData.evalFreqs.length → prepareEvalF (fun k => t (k / p.perLevel)) tf g k = .ok v := by
    intro k
    by_cases hk : k < g.outData.evalFreqs.length
    · obtain ⟨obs, preds, h, -⟩ := prepareEvalF_spec (fun k => t (k / p.perLevel)) tf hndo g _ _ _ _ hgi k hk
      exact ⟨_, fun _ => h⟩
    · exact ⟨([], []), fun h => absurd h hk⟩
  choose v hv using hv
  refine ⟨g, ⟨tf, g.outData.evalFreqs, ((List.range g.outData.evalFreqs.length).map v).map (·.1),
    ((List.range g.outData.evalFreqs.length).map v).map (·.2)⟩, hg, ?_, ?_⟩
  · unfold prepareGatheredF
    rw [mapM_ok_map (g := v) fun k hk => hv k (List.mem_range.mp hk)]
    rfl
  · have hlevel : ∀ i ∈ List.range d.md.nLevels, prepareSpecLevelF t tf d i =
        .ok ((((d.md.levels[i]?).map (·.freqs)).getD []).zipIdx.map fun f => (f.1, v (p.perLevel * i + f.2))) := by
      intro i hi'
      rw [List.mem_range] at hi'
      have hil : i < d.md.levels.length := by rw [hsh.n_levels]; exact hi'
      have hlm : d.md.levels[i]? = some d.md.levels[i] := List.getElem?_eq_getElem hil
      have hfl : d.md.levels[i].freqs.length = p.perLevel := hper _ (List.getElem_mem hil)
      unfold prepareSpecLevelF
      simp only [pyIndex_natCast _ _ hil, bind, Except.bind, getChans_cells d hsh hnd tf.outChans ho i _ hlm,
        getChans_cells d hsh hnd tf.inChans hi i _ hlm, getChans_cells d hsh hnd tf.crossChans hx i _ hlm, specPowersF_cells,
        hlm, Option.map_some, Option.getD_some]
      refine mapM_ok_map fun f hf => ?_
      have hj : f.2 < d.md.levels[i].freqs.length := by
        have := List.mem_zipIdx hf; omega
      have hk : p.perLevel * i + f.2 < g.outData.evalFreqs.length := by
        rw [hlen]
        calc p.perLevel * i + f.2 < p.perLevel * i + p.perLevel := by omega
          _ = p.perLevel * (i + 1) := by ring
          _ ≤ p.perLevel * d.md.nLevels := Nat.mul_le_mul_left _ hi'
          _ = _ := by ring
      have hev := hv _ hk
      obtain ⟨hd, hm⟩ := div_mod_level (p := p.perLevel) (i := i) (by omega : f.2 < p.perLevel)
      have hnw : nwOf (p.perLevel * i + f.2) = d.md.levels[i].nWins.toNat := by simp [nwOf, hd, hlm]
      unfold prepareEvalF at hev
      simp only [siteRows_some _ _ _ (hgi.out _ hk), siteRows_some _ _ _ (hgi.inp _ hk), siteRows_some _ _ _ (hgi.cross _ hk),
        bind, Except.bind, crossPowersF_arr, hd, hm, hnw] at hev
      unfold prepareSpecFreq
      simp only [bind, Except.bind, powersAt_cells _ _ _ _ _ hj]
      split at hev
      · simp at hev
      · rename_i obs hobs
        split at hev
        · simp at hev
        · rename_i preds hpreds
          simp only [pure, Except.pure, Except.ok.injEq] at hev ⊢
          rw [← hev]
    unfold prepareSpectraF
    rw [mapM_ok_map hlevel]
    simp only [bind, Except.bind, pure, Except.pure, Except.ok.injEq, RegInput.mk.injEq, true_and]
    have hlv : ∀ {β : Type} (F : ℚ × (List (String × List ℝ) × List (List ℝ)) → β),
        ((List.range d.md.nLevels).map fun i =>
          ((((d.md.levels[i]?).map (·.freqs)).getD []).zipIdx.map fun f => (f.1, v (p.perLevel * i + f.2)))).flatten.map F =
        (List.range d.md.nLevels).flatMap fun i => ((((d.md.levels[i]?).map (·.freqs)).getD []).zipIdx.map fun f =>
          F (f.1, v (p.perLevel * i + f.2))) := by
      intro β F
      rw [List.map_flatten, List.map_map, List.flatMap_def]
      congr 1
      refine List.map_congr_left fun i _ => ?_
      simp only [Function.comp, List.map_map]
      rfl
    have hidx : ∀ {β : Type} (G : ℕ → β), ((List.range d.md.nLevels).flatMap fun i =>
        ((((d.md.levels[i]?).map (·.freqs)).getD []).zipIdx.map fun f => G (p.perLevel * i + f.2))) =
        (List.range g.outData.evalFreqs.length).map G := by
      intro β G
      rw [hlen, ← range_flatMap_mul]
      apply flatMap_congr'
      intro i hi'
      rw [List.mem_range] at hi'
      have hil : i < d.md.levels.length := by rw [hsh.n_levels]; exact hi'
      rw [List.getElem?_eq_getElem hil]
      simp only [Option.map_some, Option.getD_some]
      have := hper _ (List.getElem_mem hil)
      rw [← this]
      have : ∀ (l : List ℚ) (H : ℕ → β), (l.zipIdx.map fun f => H f.2) = (List.range l.length).map H := by
        intro l H
        have e : l.zipIdx.map Prod.snd = List.range l.length := by rw [List.zipIdx_map_snd, List.range_eq_range']
        rw [← e, List.map_map]; rfl
      exact this _ fun j => G (d.md.levels[i].freqs.length * i + j)
    refine ⟨?_, ?_, ?_⟩
    · rw [hlv, q4]
      have : ∀ (l : List ℚ), (l.zipIdx.map fun f => f.1) = l := fun l => by
        have := List.zipIdx_map_fst 0 l; exact this
      simp only [this]
      rw [List.flatMap_def]
      congr 1
      apply List.ext_getElem
      · simp [hsh.n_levels]
      · intro i h1 h2
        have hil : i < d.md.levels.length := by simpa using h2
        simp [List.getElem?_eq_getElem hil]
    · rw [hlv, List.map_map]
      exact hidx fun k => (v k).1
    · rw [hlv, List.map_map]
      exact hidx fun k => (v k).2

/-! Example: two levels of different number types, one frequency each. -/

def demoSpecPairs : SpecData (ℚ × ℚ) :=
  ⟨⟨[8, 4], ["Ex", "Hx"], 2, 0, 1, [⟨8, 2, 4, 2, 5, 1, [2]⟩, ⟨4, 1, 4, 2, 3, 1, [1]⟩], 0, []⟩,
    [(0, [[[(1, 2)], [(3, 1)]], [[(0, 1)], [(2, 5)]]]), (1, [[[(1 / 2, 1)], [(1, -1)]]])]⟩

theorem demoSpecPairs_shaped : demoSpecPairs.Shaped := by
  refine ⟨by decide, by decide, by decide, by decide, ?_⟩
  intro i lm h
  match i with
  | 0 =>
    simp only [demoSpecPairs, List.getElem?_cons_zero, Option.some.injEq] at h
    subst h
    exact ⟨_, rfl, by decide, by decide⟩
  | 1 =>
    simp only [demoSpecPairs, List.getElem?_cons_succ, List.getElem?_cons_zero, Option.some.injEq] at h
    subst h
    exact ⟨_, rfl, by decide, by decide⟩
  | i + 2 => simp [demoSpecPairs] at h

example : ∃ r, prepareSpectraF (fun i => if i = 0 then .single else .double) demoPairsTf demoSpecPairs = .ok r := by
  obtain ⟨g, r, -, -, h⟩ := C87_preparers_agree (fun i => if i = 0 then .single else .double) "x" ⟨8, 2, 1, 1, [2, 1], [1, 2], [1, 2], [8, 4]⟩
    demoSpecPairs demoSpecPairs_shaped (by decide) demoPairsTf (by decide) (by decide) (by decide) (by decide) rfl rfl (by decide)
  exact ⟨r, h⟩

end Resistics
