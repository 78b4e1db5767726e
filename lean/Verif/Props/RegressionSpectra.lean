import Verif.Props.Regression

/-!
# Regression input from spectra and from gathered data agree (C33)
-/

namespace Resistics

open scoped ComplexConjugate
open Finset (range)

/-- The value of spectra at a level, window, channel and frequency index (zero where there is none). -/
def cellVal {V : Type} [Zero V] (d : SpecData V) (i r : ℕ) (chan : String) (j : ℕ) : V :=
  ((((d.data.lookup i).getD []).getD r []).getD (d.md.chans.idxOf chan) []).getD j 0

theorem list_eq_range_map {α : Type} (l : List α) (d : α) : l = (List.range l.length).map fun i => l.getD i d := by
  apply List.ext_getElem
  · simp
  · intro i h1 h2
    simp [List.getD_eq_getElem?_getD, List.getElem?_eq_getElem h1]

theorem getChans_cells {V : Type} [Zero V] (d : SpecData V) (hsh : d.Shaped) (hnd : d.md.chans.Nodup) (chans : List String)
    (hc : ∀ c ∈ chans, c ∈ d.md.chans) (i : ℕ) (lm : SpecLevelMeta) (hlm : d.md.levels[i]? = some lm) :
    d.getChans i chans = .ok ((List.range lm.nWins.toNat).map fun r => (List.range chans.length).map fun c =>
      (List.range lm.freqs.length).map fun j => cellVal d i r (chans.getD c "") j) := by
  obtain ⟨arr, h1, h2, h3⟩ := hsh.array i lm hlm
  have hidx : ∀ c ∈ chans, listIndex d.md.chans c = .ok ((d.md.chans.idxOf c : ℕ) : ℤ) := by
    intro c hcm
    have hlt := List.idxOf_lt_length_of_mem (hc c hcm)
    have := listIndex_get d.md.chans hnd _ hlt
    rwa [List.getElem_idxOf] at this
  have hm := mapM_ok_map (g := fun c => ((d.md.chans.idxOf c : ℕ) : ℤ)) hidx
  unfold SpecData.getChans
  rw [if_neg (by push Not; exact hc), hm]
  simp only [bind, Except.bind]
  have : levelGet d.data (i : ℤ) = .ok arr := by unfold levelGet; rw [if_neg (by omega)]; simp [dictGet, h1]
  rw [this]
  have hw : ∀ win ∈ arr, (chans.map fun c => ((d.md.chans.idxOf c : ℕ) : ℤ)).mapM (fun i => pyIndex win i) =
      .ok (chans.map fun c => win.getD (d.md.chans.idxOf c) []) := by
    intro win hwin
    rw [List.mapM_map]
    refine mapM_ok_map fun c hcm => ?_
    have hlt : d.md.chans.idxOf c < win.length := by
      rw [(h3 win hwin).1]; exact List.idxOf_lt_length_of_mem (hc c hcm)
    rw [Function.comp, pyIndex_natCast _ _ hlt, List.getD_eq_getElem?_getD, List.getElem?_eq_getElem hlt]
    rfl
  show arr.mapM _ = _
  rw [mapM_ok_map hw]
  congr 1
  have hlen : lm.nWins.toNat = arr.length := by omega
  rw [hlen]
  conv_lhs => rw [list_eq_range_map arr []]
  rw [List.map_map]
  refine List.map_congr_left fun r hr => ?_
  rw [List.mem_range] at hr
  conv_lhs => rw [list_eq_range_map chans ""]
  simp only [Function.comp, List.map_map]
  refine List.map_congr_left fun c hcr => ?_
  rw [List.mem_range] at hcr
  have hmemr : arr.getD r [] ∈ arr := by
    rw [List.getD_eq_getElem?_getD, List.getElem?_eq_getElem hr]; exact List.getElem_mem hr
  have hmemc : chans.getD c "" ∈ chans := by
    rw [List.getD_eq_getElem?_getD, List.getElem?_eq_getElem hcr]; exact List.getElem_mem hcr
  have hlt : d.md.chans.idxOf (chans.getD c "") < (arr.getD r []).length := by
    rw [(h3 _ hmemr).1]; exact List.idxOf_lt_length_of_mem (hc _ hmemc)
  have hrow : (arr.getD r []).getD (d.md.chans.idxOf (chans.getD c "")) [] ∈ arr.getD r [] := by
    rw [List.getD_eq_getElem?_getD (l := arr.getD r []), List.getElem?_eq_getElem hlt]; exact List.getElem_mem hlt
  have hfl := (h3 _ hmemr).2 _ hrow
  rw [Function.comp]
  conv_lhs => rw [list_eq_range_map ((arr.getD r []).getD (d.md.chans.idxOf (chans.getD c "")) []) 0]
  rw [hfl]
  simp only [cellVal, h1, Option.getD_some]

theorem isCell_cellVal {V : Type} [Zero V] (d : SpecData V) (hnd : d.md.chans.Nodup) (i r : ℕ) (chan : String) (j : ℕ) (v : V) (lm : SpecLevelMeta)
    (hlm : d.md.levels[i]? = some lm) (h : IsCell d i (lm.indexOffset + r) chan j v) : cellVal d i r chan j = v := by
  obtain ⟨lm', arr, win, row, c, h1, h2, h3, h4, h5, h6, h7⟩ := h
  rw [hlm, Option.some.injEq] at h1
  subst h1
  have hc : d.md.chans.idxOf chan = c := by
    obtain ⟨hlt, he⟩ := List.getElem?_eq_some_iff.mp h5
    rw [← he]; exact List.Nodup.idxOf_getElem hnd c hlt
  have hr : (lm.indexOffset + (r : ℤ) - lm.indexOffset).toNat = r := by omega
  rw [hr] at h4
  unfold cellVal
  simp only [h2, hc, List.getD_eq_getElem?_getD, Option.getD_some, h4, h6, h7]

/-- The rows that quick gathering collects. -/
theorem quick_rows {V : Type} [Zero V] (d : SpecData V) (hnd : d.md.chans.Nodup) (perLevel : ℕ) (chans : List String)
    (data : List (ℕ × List (Option (List V)))) (h : IsQuick d perLevel chans data) (i j : ℕ) (lm : SpecLevelMeta)
    (hlm : d.md.levels[i]? = some lm) (hj : j < perLevel) :
    data.lookup (perLevel * i + j) = some ((arr2 lm.nWins.toNat chans.length fun w c =>
      cellVal d i w (chans.getD c "") j).map some) := by
  obtain ⟨rows, h1, h2, h3⟩ := h.2 i j lm hlm hj
  rw [h1]
  congr 1
  apply List.ext_getElem
  · simp [arr2]; omega
  · intro r hr hr2
    obtain ⟨vals, e1, e2, e3⟩ := h3 r (by omega)
    rw [List.getElem?_eq_getElem hr, Option.some.injEq] at e1
    rw [e1]
    simp only [arr2, List.getElem_map, List.getElem_range, Option.some.injEq]
    apply List.ext_getElem
    · simp [e2]
    · intro c hc hc2
      have hcl : c < chans.length := by omega
      obtain ⟨v, g1, g2⟩ := e3 c chans[c] (List.getElem?_eq_getElem hcl)
      rw [List.getElem?_eq_getElem hc, Option.some.injEq] at g1
      rw [g1, List.getElem_map, List.getElem_range, List.getD_eq_getElem?_getD, List.getElem?_eq_getElem hcl]
      exact (isCell_cellVal d hnd i r _ j v lm hlm g2).symm

theorem specPowers_cells (nw n m nf : ℕ) (f g : ℕ → ℕ → ℕ → ℂ) :
    specPowers ((List.range nw).map fun w => (List.range n).map fun i => (List.range nf).map fun j => f w i j)
      ((List.range nw).map fun w => (List.range m).map fun c => (List.range nf).map fun j => g w c j) =
      .ok ((List.range nw).map fun w => (List.range n).map fun i => (List.range m).map fun c => (List.range nf).map fun j =>
        f w i j * conj (g w c j)) := by
  unfold specPowers
  rw [if_neg (by simp)]
  simp only [List.zipWith_map, List.zipWith_self, List.map_map, Function.comp_def]

theorem powersAt_cells (nw n m nf j : ℕ) (hj : j < nf) (v : ℕ → ℕ → ℕ → ℕ → ℂ) :
    powersAt ((List.range nw).map fun w => (List.range n).map fun i => (List.range m).map fun c => (List.range nf).map fun j =>
        v w i c j) j =
      .ok ((List.range nw).map fun w => (List.range n).map fun i => (List.range m).map fun c => v w i c j) := by
  unfold powersAt
  rw [List.mapM_map]
  refine mapM_ok_map fun w _ => ?_
  rw [Function.comp, List.mapM_map]
  refine mapM_ok_map fun i _ => ?_
  rw [Function.comp, List.mapM_map]
  refine mapM_ok_map fun c _ => ?_
  rw [Function.comp, pyIndex_natCast _ _ (by simpa using hj)]
  simp

theorem range_flatMap_mul (n p : ℕ) {β : Type} (f : ℕ → β) :
    ((List.range n).flatMap fun i => (List.range p).map fun j => f (p * i + j)) = (List.range (n * p)).map f := by
  induction n with
  | zero => simp
  | succ n ih =>
    rw [List.range_succ, List.flatMap_append, ih, List.flatMap_singleton, Nat.succ_mul, List.range_add, List.map_append,
      List.map_map, mul_comm n p]
    rfl

theorem div_mod_level {p i j : ℕ} (hj : j < p) : (p * i + j) / p = i ∧ (p * i + j) % p = j := by
  constructor
  · rw [Nat.mul_add_div (by omega), Nat.div_eq_of_lt hj, add_zero]
  · rw [Nat.mul_add_mod, Nat.mod_eq_of_lt hj]

theorem flatten_freqs_length (levels : List SpecLevelMeta) (p : ℕ) (hper : ∀ lm ∈ levels, lm.freqs.length = p) :
    (levels.map (·.freqs)).flatten.length = levels.length * p := by
  induction levels with
  | nil => simp
  | cons lm levels ih =>
    rw [List.map_cons, List.flatten_cons, List.length_append, ih fun l hl => hper l (by simp [hl]), hper lm (by simp),
      List.length_cons]
    ring

/-- **C33**. Evaluation data of one site: preparing the spectra directly, and gathering them first and preparing the
gathered data, give the same regression input. -/
theorem C33_preparers_agree (name : String) (p : DecParams ℚ) (d : SpecData ℂ) (hsh : d.Shaped) (hnd : d.md.chans.Nodup)
    (tf : TransFunc) (hndo : tf.outChans.Nodup) (ho : ∀ c ∈ tf.outChans, c ∈ d.md.chans)
    (hi : ∀ c ∈ tf.inChans, c ∈ d.md.chans) (hx : ∀ c ∈ tf.crossChans, c ∈ d.md.chans)
    (hni : tf.nIn = tf.inChans.length) (hnc : tf.nCross = tf.crossChans.length)
    (hper : ∀ lm ∈ d.md.levels, lm.freqs.length = p.perLevel) :
    ∃ g r, quickGather name p tf.chans d = .ok g ∧ prepareGathered tf g = .ok r ∧ prepareSpectra tf d = .ok r := by
  obtain ⟨g, hg, q1, q2, q3, q4⟩ := C32_quick_gather name p d hsh hnd tf.chans ho hi hx hper
  let nwOf : ℕ → ℕ := fun k => ((d.md.levels[k / p.perLevel]?).map fun lm => lm.nWins.toNat).getD 0
  have hlen : g.outData.evalFreqs.length = d.md.nLevels * p.perLevel := by
    rw [q4, flatten_freqs_length _ _ hper, hsh.n_levels]
  have hat : ∀ k < g.outData.evalFreqs.length, ∃ lm : SpecLevelMeta, d.md.levels[k / p.perLevel]? = some lm ∧
      k % p.perLevel < p.perLevel ∧ nwOf k = lm.nWins.toNat ∧ p.perLevel * (k / p.perLevel) + k % p.perLevel = k := by
    intro k hk
    rw [hlen] at hk
    have hp : 0 < p.perLevel := Nat.pos_of_ne_zero (by intro h; rw [h] at hk; omega)
    have hlt : k / p.perLevel < d.md.levels.length := by
      rw [hsh.n_levels]; exact Nat.div_lt_of_lt_mul (by rwa [mul_comm])
    refine ⟨d.md.levels[k / p.perLevel], List.getElem?_eq_getElem hlt, Nat.mod_lt _ hp, ?_, Nat.div_add_mod _ _⟩
    simp [nwOf, List.getElem?_eq_getElem hlt]
  have hgi : GatheredIs tf g nwOf
      (fun k w o => cellVal d (k / p.perLevel) w (tf.outChans.getD o "") (k % p.perLevel))
      (fun k w o => cellVal d (k / p.perLevel) w (tf.inChans.getD o "") (k % p.perLevel))
      (fun k w o => cellVal d (k / p.perLevel) w (tf.crossChans.getD o "") (k % p.perLevel)) := by
    refine ⟨hni, hnc, ?_, ?_, ?_⟩
    · intro k hk
      obtain ⟨lm, h1, h2, h3, h4⟩ := hat k hk
      have := quick_rows d hnd p.perLevel tf.outChans _ q1 _ _ lm h1 h2
      rw [h4] at this
      rw [this, h3]
    · intro k hk
      obtain ⟨lm, h1, h2, h3, h4⟩ := hat k hk
      have := quick_rows d hnd p.perLevel tf.inChans _ q2 _ _ lm h1 h2
      rw [h4] at this
      rw [this, h3]
    · intro k hk
      obtain ⟨lm, h1, h2, h3, h4⟩ := hat k hk
      have := quick_rows d hnd p.perLevel tf.crossChans _ q3 _ _ lm h1 h2
      rw [h4] at this
      rw [this, h3]
  -- the result at every evaluation frequency
  have hv : ∀ k, ∃ v, k < g.outData.evalFreqs.length → prepareEval tf g k = .ok v := by
    intro k
    by_cases hk : k < g.outData.evalFreqs.length
    · obtain ⟨obs, preds, h, -⟩ := prepareEval_spec tf hndo g _ _ _ _ hgi k hk
      exact ⟨_, fun _ => h⟩
    · exact ⟨([], []), fun h => absurd h hk⟩
  choose v hv using hv
  refine ⟨g, ⟨tf, g.outData.evalFreqs, ((List.range g.outData.evalFreqs.length).map v).map (·.1),
    ((List.range g.outData.evalFreqs.length).map v).map (·.2)⟩, hg, ?_, ?_⟩
  · unfold prepareGathered
    rw [mapM_ok_map (g := v) fun k hk => hv k (List.mem_range.mp hk)]
    rfl
  · have hlevel : ∀ i ∈ List.range d.md.nLevels, prepareSpecLevel tf d i =
        .ok ((((d.md.levels[i]?).map (·.freqs)).getD []).zipIdx.map fun f => (f.1, v (p.perLevel * i + f.2))) := by
      intro i hi'
      rw [List.mem_range] at hi'
      have hil : i < d.md.levels.length := by rw [hsh.n_levels]; exact hi'
      have hlm : d.md.levels[i]? = some d.md.levels[i] := List.getElem?_eq_getElem hil
      have hfl : d.md.levels[i].freqs.length = p.perLevel := hper _ (List.getElem_mem hil)
      unfold prepareSpecLevel
      simp only [pyIndex_natCast _ _ hil, bind, Except.bind, getChans_cells d hsh hnd tf.outChans ho i _ hlm,
        getChans_cells d hsh hnd tf.inChans hi i _ hlm, getChans_cells d hsh hnd tf.crossChans hx i _ hlm, specPowers_cells,
        hlm, Option.map_some, Option.getD_some]
      refine mapM_ok_map fun f hf => ?_
      have hj : f.2 < d.md.levels[i].freqs.length := by
        have := List.mem_zipIdx hf; omega
      have hk : p.perLevel * i + f.2 < g.outData.evalFreqs.length := by
        rw [hlen]
        calc p.perLevel * i + f.2 < p.perLevel * i + p.perLevel := by omega
          _ = p.perLevel * (i + 1) := by ring
          _ ≤ p.perLevel * d.md.nLevels := Nat.mul_le_mul_left _ hi'
          _ = _ := by ring
      have hev := hv _ hk
      obtain ⟨hd, hm⟩ := div_mod_level (p := p.perLevel) (i := i) (by omega : f.2 < p.perLevel)
      have hnw : nwOf (p.perLevel * i + f.2) = d.md.levels[i].nWins.toNat := by simp [nwOf, hd, hlm]
      unfold prepareEval at hev
      simp only [siteRows_some _ _ _ (hgi.out _ hk), siteRows_some _ _ _ (hgi.inp _ hk), siteRows_some _ _ _ (hgi.cross _ hk),
        bind, Except.bind, crossPowers_arr2, hd, hm, hnw] at hev
      unfold prepareSpecFreq
      simp only [bind, Except.bind, powersAt_cells _ _ _ _ _ hj]
      split at hev
      · simp at hev
      · rename_i obs hobs
        split at hev
        · simp at hev
        · rename_i preds hpreds
          simp only [pure, Except.pure, Except.ok.injEq] at hev ⊢
          rw [← hev]
    unfold prepareSpectra
    rw [mapM_ok_map hlevel]
    simp only [bind, Except.bind, pure, Except.pure, Except.ok.injEq, RegInput.mk.injEq, true_and]
    have hlv : ∀ {β : Type} (F : ℚ × (List (String × List ℝ) × List (List ℝ)) → β),
        ((List.range d.md.nLevels).map fun i =>
          ((((d.md.levels[i]?).map (·.freqs)).getD []).zipIdx.map fun f => (f.1, v (p.perLevel * i + f.2)))).flatten.map F =
        (List.range d.md.nLevels).flatMap fun i => ((((d.md.levels[i]?).map (·.freqs)).getD []).zipIdx.map fun f =>
          F (f.1, v (p.perLevel * i + f.2))) := by
      intro β F
      rw [List.map_flatten, List.map_map, List.flatMap_def]
      congr 1
      refine List.map_congr_left fun i _ => ?_
      simp only [Function.comp, List.map_map]
      rfl
    have hidx : ∀ {β : Type} (G : ℕ → β), ((List.range d.md.nLevels).flatMap fun i =>
        ((((d.md.levels[i]?).map (·.freqs)).getD []).zipIdx.map fun f => G (p.perLevel * i + f.2))) =
        (List.range g.outData.evalFreqs.length).map G := by
      intro β G
      rw [hlen, ← range_flatMap_mul]
      apply flatMap_congr'
      intro i hi'
      rw [List.mem_range] at hi'
      have hil : i < d.md.levels.length := by rw [hsh.n_levels]; exact hi'
      rw [List.getElem?_eq_getElem hil]
      simp only [Option.map_some, Option.getD_some]
      have := hper _ (List.getElem_mem hil)
      rw [← this]
      have : ∀ (l : List ℚ) (H : ℕ → β), (l.zipIdx.map fun f => H f.2) = (List.range l.length).map H := by
        intro l H
        have e : l.zipIdx.map Prod.snd = List.range l.length := by rw [List.zipIdx_map_snd, List.range_eq_range']
        rw [← e, List.map_map]; rfl
      exact this _ fun j => G (d.md.levels[i].freqs.length * i + j)
    refine ⟨?_, ?_, ?_⟩
    · rw [hlv, q4]
      have : ∀ (l : List ℚ), (l.zipIdx.map fun f => f.1) = l := fun l => by
        have := List.zipIdx_map_fst 0 l; exact this
      simp only [this]
      rw [List.flatMap_def]
      congr 1
      apply List.ext_getElem
      · simp [hsh.n_levels]
      · intro i h1 h2
        have hil : i < d.md.levels.length := by simpa using h2
        simp [List.getElem?_eq_getElem hil]
    · rw [hlv, List.map_map]
      exact hidx fun k => (v k).1
    · rw [hlv, List.map_map]
      exact hidx fun k => (v k).2

end Resistics
