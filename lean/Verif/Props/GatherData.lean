import Verif.Props.Gather

/-!
# Properties C31 and C32: gathered data
-/

namespace Resistics

/-- Specification: `v` is the value of spectra `d` at a level, global window `g`, channel `chan` and frequency index
`j`. -/
def IsCell {V : Type} (d : SpecData V) (level : ℕ) (g : ℤ) (chan : String) (j : ℕ) (v : V) : Prop :=
  ∃ (lm : SpecLevelMeta) (arr : SpecArr V) (win : List (List V)) (row : List V) (c : ℕ), d.md.levels[level]? = some lm ∧ d.data.lookup level = some arr ∧ lm.indexOffset ≤ g ∧
    arr[(g - lm.indexOffset).toNat]? = some win ∧ d.md.chans[c]? = some chan ∧ win[c]? = some row ∧ row[j]? = some v

/-! ## helper lemmas -/

/-- a loop whose body never fails and keeps an invariant about what has been done -/
theorem foldlM_total {ε α σ : Type _} {f : σ → α → Except ε σ} (P : List α → σ → Prop) (l : List α) (s : σ)
    (h0 : P [] s) (hstep : ∀ done a s, a ∈ l → P done s → ∃ s', f s a = .ok s' ∧ P (done ++ [a]) s') :
    ∃ s', l.foldlM f s = .ok s' ∧ P l s' := by
  have : ∀ (l' done : List α) (s : σ), (∀ a ∈ l', a ∈ l) → P done s → ∃ s', l'.foldlM f s = .ok s' ∧ P (done ++ l') s' := by
    intro l'
    induction l' with
    | nil => intro done s _ h; exact ⟨s, rfl, by simpa using h⟩
    | cons a l' ih =>
      intro done s hm h
      obtain ⟨s1, h1, h2⟩ := hstep done a s (hm a (by simp)) h
      obtain ⟨s2, h3, h4⟩ := ih (done ++ [a]) s1 (fun x hx => hm x (by simp [hx])) h2
      refine ⟨s2, ?_, by simpa using h4⟩
      rw [List.foldlM_cons, h1]; exact h3
  simpa using this l [] s (fun _ h => h) h0

theorem dictSet_lookup {α β : Type} [DecidableEq α] (d : List (α × β)) (k k' : α) (v : β) :
    (dictSet d k v).lookup k' = if k' = k then some v else d.lookup k' := by
  unfold dictSet
  split
  · rename_i h
    induction d with
    | nil => simp at h
    | cons x d ih =>
      obtain ⟨x1, x2⟩ := x
      by_cases hx : x1 = k
      · subst hx
        simp only [List.map_cons, if_true, List.lookup_cons]
        by_cases hk : k' = x1
        · subst hk; simp
        · have hb : (k' == x1) = false := by simpa using hk
          simp only [hb, if_neg hk]
          have : ∀ l : List (α × β), (l.map fun q => if q.1 = x1 then (x1, v) else q).lookup k' = l.lookup k' := by
            intro l
            induction l with
            | nil => rfl
            | cons y l ih2 =>
              obtain ⟨y1, y2⟩ := y
              by_cases hy : y1 = x1
              · subst hy; simp [List.lookup_cons, hb, ih2]
              · simp [List.lookup_cons, hy, ih2]
          exact this d
      · have hd : (d.any fun q => q.1 = k) = true := by simpa [hx] using h
        rw [List.map_cons, if_neg hx, List.lookup_cons, List.lookup_cons, ih hd]
        by_cases hk : k' = k
        · subst hk
          have : (k' == x1) = false := by simpa using fun h => hx h.symm
          simp [this]
        · simp only [if_neg hk]
  · rename_i h
    rw [List.lookup_append]
    by_cases hk : k' = k
    · subst hk
      have : d.lookup k' = none := by
        rw [List.lookup_eq_none_iff]
        intro p hp
        rw [bne_iff_ne]
        rintro rfl
        exact h (List.any_eq_true.mpr ⟨p, hp, by simp⟩)
      simp [this]
    · have hb : (k' == k) = false := by simpa using hk
      simp [hk, List.lookup_cons, hb]

theorem dictSet_keys {α β : Type} [DecidableEq α] (d : List (α × β)) (k : α) (v : β) (h : k ∈ d.map Prod.fst) :
    (dictSet d k v).map Prod.fst = d.map Prod.fst := by
  unfold dictSet
  rw [if_pos]
  · rw [List.map_map]
    apply List.map_congr_left
    intro q _
    simp only [Function.comp_apply]
    split
    · rename_i hq; exact hq.symm
    · rfl
  · obtain ⟨q, hq, rfl⟩ := List.mem_map.mp h
    exact List.any_eq_true.mpr ⟨q, hq, by simp⟩

theorem dictSet_new {α β : Type} [DecidableEq α] (d : List (α × β)) (k : α) (v : β) (h : k ∉ d.map Prod.fst) :
    dictSet d k v = d ++ [(k, v)] := by
  unfold dictSet
  rw [if_neg]
  intro hany
  obtain ⟨q, hq, he⟩ := List.any_eq_true.mp hany
  exact h (List.mem_map.mpr ⟨q, hq, by simpa using he⟩)

theorem foldl_dictSet_new {α β : Type} [DecidableEq α] (parts d : List (α × β))
    (h : ((d ++ parts).map Prod.fst).Nodup) :
    parts.foldl (fun d q => dictSet d q.1 q.2) d = d ++ parts := by
  induction parts generalizing d with
  | nil => simp
  | cons q parts ih =>
    rw [List.foldl_cons, dictSet_new, ih]
    · simp
    · simpa using h
    · intro hm
      rw [List.map_append, List.map_cons, List.nodup_append] at h
      exact h.2.2 _ hm _ (by simp) rfl

theorem assignRows_spec {V : Type} (new : List (ℕ × List V)) (rows : List (Option (List V)))
    (hnd : (new.map Prod.fst).Nodup) :
    (assignRows rows new).length = rows.length ∧
    (∀ q ∈ new, q.1 < rows.length → (assignRows rows new)[q.1]? = some (some q.2)) ∧
    (∀ r, r ∉ new.map Prod.fst → (assignRows rows new)[r]? = rows[r]?) := by
  induction new generalizing rows with
  | nil => simp [assignRows]
  | cons q new ih =>
    rw [List.map_cons, List.nodup_cons] at hnd
    obtain ⟨h1, h2, h3⟩ := ih (rows.set q.1 (some q.2)) hnd.2
    have e : assignRows rows (q :: new) = assignRows (rows.set q.1 (some q.2)) new := rfl
    rw [e]
    refine ⟨by rw [h1, List.length_set], ?_, ?_⟩
    · intro x hx hlt
      rcases List.mem_cons.mp hx with rfl | hx
      · rw [h3 _ hnd.1, List.getElem?_set_self hlt]
      · exact h2 x hx (by rw [List.length_set]; exact hlt)
    · intro r hr
      rw [List.map_cons, List.mem_cons, not_or] at hr
      rw [h3 r hr.2, List.getElem?_set_ne (fun h => hr.1 h.symm)]

theorem mapM_pyIndex_list {α : Type} (l : List α) (idxs : List ℕ) (h : ∀ i ∈ idxs, i < l.length) :
    ∃ out, (idxs.map fun (i : ℕ) => (i : ℤ)).mapM (fun i => pyIndex l i) = .ok out ∧ out.length = idxs.length ∧
      ∀ (k i : ℕ), idxs[k]? = some i → out[k]? = l[i]? := by
  induction idxs with
  | nil => exact ⟨[], rfl, rfl, by simp⟩
  | cons a idxs ih =>
    obtain ⟨out, h1, h2, h3⟩ := ih fun i hi => h i (by simp [hi])
    have ha := h a (by simp)
    refine ⟨l[a] :: out, ?_, by simp [h2], ?_⟩
    · rw [List.map_cons, List.mapM_cons, pyIndex_natCast l a ha, h1]; rfl
    · intro k i hk
      cases k with
      | zero =>
        simp only [List.getElem?_cons_zero, Option.some.injEq] at hk
        subst hk
        simp [List.getElem?_eq_getElem ha]
      | succ k => simpa using h3 k i (by simpa using hk)

/-- the values of chosen channels of a window -/
theorem getChans_values {V : Type} (d : SpecData V) (hsh : d.Shaped) (hnd : d.md.chans.Nodup) (chans : List String)
    (hc : ∀ c ∈ chans, c ∈ d.md.chans) (i : ℕ) (lm : SpecLevelMeta) (hlm : d.md.levels[i]? = some lm) :
    ∃ levelData, d.getChans i chans = .ok levelData ∧ (levelData.length : ℤ) = lm.nWins ∧
      ∀ (g : ℤ) (j : ℕ), lm.indexOffset ≤ g → g < lm.indexOffset + lm.nWins → j < lm.freqs.length →
        ∃ vals, windowValues levelData j (g - lm.indexOffset) = .ok vals ∧ vals.length = chans.length ∧
          ∀ (ci : ℕ) (chan : String), chans[ci]? = some chan → ∃ v, vals[ci]? = some v ∧ IsCell d i g chan j v := by
  obtain ⟨arr, h1, h2, h3⟩ := hsh.array i lm hlm
  have hidx : ∀ c ∈ chans, listIndex d.md.chans c = .ok ((d.md.chans.idxOf c : ℕ) : ℤ) := by
    intro c hcm
    have hlt := List.idxOf_lt_length_of_mem (hc c hcm)
    have := listIndex_get d.md.chans hnd _ hlt
    rwa [List.getElem_idxOf] at this
  let idxs : List ℕ := chans.map fun c => d.md.chans.idxOf c
  have hm : chans.mapM (listIndex d.md.chans) = .ok (idxs.map fun (i : ℕ) => (i : ℤ)) := by
    rw [mapM_ok_map (g := fun c => ((d.md.chans.idxOf c : ℕ) : ℤ)) hidx]
    simp [idxs]
  have hidlt : ∀ win ∈ arr, ∀ k ∈ idxs, k < win.length := by
    intro win hw k hk
    obtain ⟨c, hcm, rfl⟩ := List.mem_map.mp hk
    rw [(h3 win hw).1]
    exact List.idxOf_lt_length_of_mem (hc c hcm)
  obtain ⟨ld, hld⟩ := mapM_exists (f := fun win : List (List V) => (idxs.map fun (i : ℕ) => (i : ℤ)).mapM fun i => pyIndex win i)
    (l := arr) (by
      intro win hw
      obtain ⟨o, ho, -⟩ := mapM_pyIndex_list win idxs (hidlt win hw)
      exact ⟨o, ho⟩)
  have hll := mapM_ok_length hld
  refine ⟨ld, ?_, by rw [hll]; exact h2, ?_⟩
  · unfold SpecData.getChans
    rw [if_neg (by push Not; exact hc), hm]
    simp only [bind, Except.bind]
    have : levelGet d.data (i : ℤ) = .ok arr := by unfold levelGet; rw [if_neg (by omega)]; simp [dictGet, h1]
    rw [this]
    exact hld
  · intro g j hg1 hg2 hj
    have hw : (g - lm.indexOffset).toNat < arr.length := by omega
    have hcast : g - lm.indexOffset = ((g - lm.indexOffset).toNat : ℤ) := by omega
    generalize hwn : (g - lm.indexOffset).toNat = w at hw hcast
    have hw' : w < ld.length := by omega
    have e := mapM_ok_getElem hld w hw hw'
    obtain ⟨o, ho1, ho2, ho3⟩ := mapM_pyIndex_list arr[w] idxs (hidlt _ (List.getElem_mem hw))
    rw [ho1, Except.ok.injEq] at e
    have hrows : ∀ row ∈ o, row.length = lm.freqs.length := by
      intro row hr
      obtain ⟨k, hk, rfl⟩ := List.mem_iff_getElem.mp hr
      have := ho3 k (idxs[k]'(by omega)) (List.getElem?_eq_getElem _)
      rw [List.getElem?_eq_getElem hk] at this
      exact (h3 _ (List.getElem_mem hw)).2 _ (List.mem_of_getElem? this.symm)
    obtain ⟨vals, hv1, hv2, hv3⟩ := mapM_pyIndex o j (fun x hx => by rw [hrows x hx]; exact hj)
    refine ⟨vals, ?_, ?_, ?_⟩
    · unfold windowValues
      rw [hcast, pyIndex_natCast _ _ hw', ← e]
      exact hv1
    · rw [hv2, ho2]; simp [idxs]
    · intro ci chan hci
      have hidc : idxs[ci]? = some (d.md.chans.idxOf chan) := by simp [idxs, hci]
      have hlt := List.idxOf_lt_length_of_mem (hc chan (List.mem_of_getElem? hci))
      have hwin : d.md.chans.idxOf chan < arr[w].length := by rw [(h3 _ (List.getElem_mem hw)).1]; exact hlt
      have h5 := ho3 ci _ hidc
      rw [List.getElem?_eq_getElem hwin] at h5
      have h6 := hv3 ci _ h5
      have hlen : j < (arr[w][d.md.chans.idxOf chan]).length := by
        rw [(h3 _ (List.getElem_mem hw)).2 _ (List.getElem_mem hwin)]; exact hj
      rw [List.getElem?_eq_getElem hlen] at h6
      refine ⟨_, h6, lm, arr, arr[w], arr[w][d.md.chans.idxOf chan], d.md.chans.idxOf chan, hlm, h1, hg1, ?_, ?_, ?_, ?_⟩
      · rw [hwn, List.getElem?_eq_getElem hw]
      · rw [List.getElem?_eq_getElem hlt, List.getElem_idxOf]
      · rw [List.getElem?_eq_getElem hwin]
      · rw [List.getElem?_eq_getElem hlen]

theorem isCell_unique {V : Type} {d : SpecData V} (hnd : d.md.chans.Nodup) {i : ℕ} {g : ℤ} {chan : String} {j : ℕ}
    {v v' : V} (h : IsCell d i g chan j v) (h' : IsCell d i g chan j v') : v = v' := by
  obtain ⟨lm, arr, win, row, c, a1, a2, a3, a4, a5, a6, a7⟩ := h
  obtain ⟨lm', arr', win', row', c', b1, b2, b3, b4, b5, b6, b7⟩ := h'
  rw [a1, Option.some.injEq] at b1; subst b1
  rw [a2, Option.some.injEq] at b2; subst b2
  rw [a4, Option.some.injEq] at b4; subst b4
  obtain ⟨hc, rfl⟩ := List.getElem?_eq_some_iff.mp a5
  obtain ⟨hc', h2⟩ := List.getElem?_eq_some_iff.mp b5
  have := (List.Nodup.getElem_inj_iff hnd).mp h2
  subst this
  rw [a6, Option.some.injEq] at b6; subst b6
  rw [a7, Option.some.injEq] at b7; exact b7

theorem key_inj {p i j i' j' : ℕ} (hj : j < p) (hj' : j' < p) (h : p * i + j = p * i' + j') : i = i' ∧ j = j' := by
  have h1 : (p * i + j) / p = i := by rw [Nat.mul_add_div (by omega), Nat.div_eq_of_lt hj]; omega
  have h2 : (p * i' + j') / p = i' := by rw [Nat.mul_add_div (by omega), Nat.div_eq_of_lt hj']; omega
  have h3 : i = i' := by rw [← h1, ← h2, h]
  subst h3
  exact ⟨rfl, by omega⟩

/-- the keys of the gathered data, in order -/
def gatherKeys (nLevels perLevel : ℕ) : List ℕ := (levelFreqs nLevels perLevel).map fun q => perLevel * q.1 + q.2

theorem mem_levelFreqs {n p : ℕ} {q : ℕ × ℕ} : q ∈ levelFreqs n p ↔ q.1 < n ∧ q.2 < p := by
  unfold levelFreqs
  simp only [List.mem_flatMap, List.mem_range, List.mem_map]
  constructor
  · rintro ⟨i, hi, j, hj, rfl⟩; exact ⟨hi, hj⟩
  · rintro ⟨hi, hj⟩; exact ⟨q.1, hi, q.2, hj, rfl⟩

theorem gatherKeys_eq (n p : ℕ) : gatherKeys n p = List.range (n * p) := by
  unfold gatherKeys levelFreqs
  induction n with
  | zero => simp
  | succ n ih =>
    rw [List.range_succ, List.flatMap_append, List.map_append, ih, Nat.succ_mul, List.range_add]
    simp [Nat.mul_comm]

theorem key_mem {n p i j : ℕ} (hi : i < n) (hj : j < p) : p * i + j ∈ gatherKeys n p := by
  unfold gatherKeys
  exact List.mem_map.mpr ⟨(i, j), mem_levelFreqs.mpr ⟨hi, hj⟩, rfl⟩

/-! ## C31 -/

/-- Specification: two metadata describe the same levels; they may differ in their histories, as the metadata read alone and
those read with the data do. -/
def SpecMeta.SameLevels (a b : SpecMeta) : Prop := a.nLevels = b.nLevels ∧ a.levels = b.levels

theorem SpecMeta.SameLevels.holds {a b : SpecMeta} (h : a.SameLevels b) (level : ℕ) (g : ℤ) :
    a.Holds level g ↔ b.Holds level g := by
  unfold SpecMeta.Holds
  rw [h.1, h.2]

/-- the history plays no part in the shape -/
theorem SpecData.Shaped.history {V : Type} {d : SpecData V} (h : d.Shaped) (hist : List String) :
    ({ md := { d.md with history := hist }, data := d.data } : SpecData V).Shaped :=
  ⟨h.n_levels, h.some_level, h.n_freqs, h.keys, h.array⟩

/-- Specification: the data of every measurement of the site can be read, agree with their metadata, have the
requested channels and at least `perLevel` frequencies per level. -/
def SiteReadable {V : Type} (store : EvalStore V) (proj : GProject) (fs : ℚ) (perLevel : ℕ) (site : String)
    (chans : List String) : Prop :=
  ∀ name md, HasMeas store proj fs site name md → ∃ d, store.readData site name = .ok d ∧ d.md.SameLevels md ∧
    d.Shaped ∧ d.md.chans.Nodup ∧ (∀ c ∈ chans, c ∈ d.md.chans) ∧ ∀ lm ∈ d.md.levels, perLevel ≤ lm.freqs.length

/-- Specification: `vals` are the values of the channels in window `g`, frequency `j`, of measurement `meas` of the
site. -/
def IsRow {V : Type} (store : EvalStore V) (site meas : String) (chans : List String) (level : ℕ) (g : ℤ) (j : ℕ)
    (vals : List V) : Prop :=
  vals.length = chans.length ∧ ∃ d, store.readData site meas = .ok d ∧
    ∀ (ci : ℕ) (chan : String), chans[ci]? = some chan → ∃ v, vals[ci]? = some v ∧ IsCell d level g chan j v

/-- Specification: the combined data of a site for a selection: one array per level and evaluation frequency of the
level, and its row `r` holds the values of the `r`-th selected window, read from the measurement that the selection
names for the site (in column `k`). -/
def IsGathered {V : Type} (store : EvalStore V) (sel : Selection) (k : ℕ) (site : String) (chans : List String)
    (data : List (ℕ × List (Option (List V)))) : Prop :=
  data.map Prod.fst = List.range (sel.nLevels * sel.decParams.perLevel) ∧
  ∀ (i j : ℕ) (t : List SelRow), sel.tables[i]? = some t → j < sel.decParams.perLevel →
    ∃ rows, data.lookup (sel.decParams.perLevel * i + j) = some rows ∧ rows.length = t.length ∧
      ∀ (r : ℕ) (row : SelRow), t[r]? = some row →
        ∃ vals, rows[r]? = some (some vals) ∧ IsRow store site (row.measOf k) chans i row.win j vals

/-- what holds while the loops run: rows already done are right -/
def GatherInv {V : Type} (store : EvalStore V) (sel : Selection) (k : ℕ) (site : String) (chans : List String)
    (S : ℕ → ℕ → String → Prop) (data : List (ℕ × List (Option (List V)))) : Prop :=
  data.map Prod.fst = gatherKeys sel.nLevels sel.decParams.perLevel ∧
  ∀ (i j : ℕ) (t : List SelRow), sel.tables[i]? = some t → j < sel.decParams.perLevel →
    ∃ rows, data.lookup (sel.decParams.perLevel * i + j) = some rows ∧ rows.length = t.length ∧
      ∀ (r : ℕ) (row : SelRow), t[r]? = some row → S i j (row.measOf k) →
        ∃ vals, rows[r]? = some (some vals) ∧ IsRow store site (row.measOf k) chans i row.win j vals

theorem GatherInv.mono {V : Type} {store : EvalStore V} {sel : Selection} {k : ℕ} {site : String} {chans : List String}
    {S S' : ℕ → ℕ → String → Prop} {data : List (ℕ × List (Option (List V)))}
    (h : GatherInv store sel k site chans S data) (hs : ∀ i j m, S' i j m → S i j m) :
    GatherInv store sel k site chans S' data := by
  refine ⟨h.1, ?_⟩
  intro i j t ht hj
  obtain ⟨rows, h1, h2, h3⟩ := h.2 i j t ht hj
  exact ⟨rows, h1, h2, fun r row hr hS => h3 r row hr (hs _ _ _ hS)⟩

/-- what the loops need to know about the selection -/
structure SelOk (sel : Selection) (k : ℕ) (site : String) : Prop where
  col : sel.siteCol site = .ok k
  wins : ∀ (i j : ℕ) (t : List SelRow), sel.tables[i]? = some t → j < sel.decParams.perLevel →
    sel.getNWins i j = .ok t.length ∧ sel.getEvalWins i j = .ok t

theorem populateFreq_spec {V : Type} (store : EvalStore V) (sel : Selection) (k : ℕ) (site : String)
    (hne : site ≠ "combined_index") (hsel : SelOk sel k site) (chans : List String)
    (meas : String) (d : SpecData V) (hd : store.readData site meas = .ok d) (i : ℕ) (lm : SpecLevelMeta)
    (t : List SelRow) (hit : sel.tables[i]? = some t)
    (levelData : SpecArr V)
    (hval : ∀ (g : ℤ) (j : ℕ), lm.indexOffset ≤ g → g < lm.indexOffset + lm.nWins → j < lm.freqs.length →
      ∃ vals, windowValues levelData j (g - lm.indexOffset) = .ok vals ∧ vals.length = chans.length ∧
        ∀ (ci : ℕ) (chan : String), chans[ci]? = some chan → ∃ v, vals[ci]? = some v ∧ IsCell d i g chan j v)
    (hhold : ∀ row ∈ t, row.measOf k = meas → lm.indexOffset ≤ row.win ∧ row.win < lm.indexOffset + lm.nWins)
    (hper : sel.decParams.perLevel ≤ lm.freqs.length)
    (S : ℕ → ℕ → String → Prop) (data : List (ℕ × List (Option (List V))))
    (hinv : GatherInv store sel k site chans S data) (j : ℕ) (hj : j < sel.decParams.perLevel) :
    ∃ data', populateFreq sel site meas i lm levelData data j = .ok data' ∧
      GatherInv store sel k site chans (fun i' j' m => S i' j' m ∨ (i' = i ∧ j' = j ∧ m = meas)) data' := by
  obtain ⟨rows, hr1, hr2, hr3⟩ := hinv.2 i j t hit hj
  have hilt : i < sel.nLevels := (List.getElem?_eq_some_iff.mp hit).1
  -- the indices
  let filt := t.zipIdx.filter fun q => q.1.measOf k = meas
  have hind : getIndices t site k meas lm = filt.map fun q => (q.1.win - lm.indexOffset, q.2) := by
    unfold getIndices; rw [if_neg hne]
  have hfm : ∀ q ∈ filt, t[q.2]? = some q.1 ∧ q.1.measOf k = meas := by
    intro q hq
    rw [List.mem_filter] at hq
    exact ⟨by simpa using (List.mk_mem_zipIdx_iff_getElem?.mp hq.1), by simpa using hq.2⟩
  obtain ⟨values, hv⟩ := mapM_exists (f := fun q : ℤ × ℕ => windowValues levelData j q.1)
    (l := getIndices t site k meas lm) (by
      intro q hq
      rw [hind] at hq
      obtain ⟨x, hx, rfl⟩ := List.mem_map.mp hq
      obtain ⟨hx1, hx2⟩ := hfm x hx
      obtain ⟨a, b⟩ := hhold x.1 (List.mem_of_getElem? hx1) hx2
      obtain ⟨vals, e, -⟩ := hval x.1.win j a b (by omega)
      exact ⟨vals, e⟩)
  have hvl := mapM_ok_length hv
  refine ⟨dictSet data (sel.decParams.perLevel * i + j)
    (assignRows rows (((getIndices t site k meas lm).map Prod.snd).zip values)), ?_, ?_, ?_⟩
  · unfold populateFreq
    rw [(hsel.wins i j t hit hj).2, hsel.col]
    simp only [bind, Except.bind]
    rw [hv]
    simp only [dictGet, hr1]; rfl
  · rw [dictSet_keys _ _ _ (by rw [hinv.1]; exact key_mem hilt hj)]
    exact hinv.1
  · intro i' j' t' ht' hj'
    by_cases hkey : sel.decParams.perLevel * i' + j' = sel.decParams.perLevel * i + j
    · obtain ⟨rfl, rfl⟩ := key_inj hj' hj hkey
      rw [hit, Option.some.injEq] at ht'
      subst ht'
      have hnd : ((((getIndices t site k meas lm).map Prod.snd).zip values).map Prod.fst).Nodup := by
        rw [List.map_fst_zip (by rw [List.length_map, hvl]), hind, List.map_map]
        have : (Prod.snd ∘ fun q : SelRow × ℕ => (q.1.win - lm.indexOffset, q.2)) = Prod.snd := rfl
        rw [this]
        refine List.Nodup.sublist (List.Sublist.map _ List.filter_sublist) ?_
        simp only [List.zipIdx_map_snd]
        exact List.nodup_range'
      obtain ⟨g1, g2, g3⟩ := assignRows_spec (((getIndices t site k meas lm).map Prod.snd).zip values) rows hnd
      refine ⟨_, by rw [dictSet_lookup, if_pos rfl], by rw [g1, hr2], ?_⟩
      intro r row hr hS
      by_cases hm : row.measOf k = meas
      · -- assigned now
        have hmem : (row, r) ∈ filt := by
          rw [List.mem_filter]
          exact ⟨List.mk_mem_zipIdx_iff_getElem?.mpr hr, by simpa using hm⟩
        obtain ⟨n, hn, hnr⟩ := List.mem_iff_getElem.mp hmem
        have hn' : n < (getIndices t site k meas lm).length := by rw [hind, List.length_map]; exact hn
        have hnv : n < values.length := by omega
        have hin : (getIndices t site k meas lm)[n] = (row.win - lm.indexOffset, r) := by
          simp only [hind, List.getElem_map, hnr]
        have e := mapM_ok_getElem hv n hn' hnv
        rw [hin] at e
        obtain ⟨a, b⟩ := hhold row (List.mem_of_getElem? hr) hm
        obtain ⟨vals, e1, e2, e3⟩ := hval row.win j' a b (by omega)
        rw [e1, Except.ok.injEq] at e
        refine ⟨vals, ?_, e2, d, by rw [hm]; exact hd, e3⟩
        have hq : (r, vals) ∈ ((getIndices t site k meas lm).map Prod.snd).zip values := by
          rw [List.mem_iff_getElem]
          refine ⟨n, by simp [hn', hnv], ?_⟩
          rw [List.getElem_zip, List.getElem_map, hin, e]
        refine g2 (r, vals) hq ?_
        rw [hr2]
        exact (List.getElem?_eq_some_iff.mp hr).1
      · -- untouched
        have hS' : S i' j' (row.measOf k) := by
          rcases hS with h | h
          · exact h
          · exact absurd h.2.2 hm
        obtain ⟨vals, f1, f2⟩ := hr3 r row hr hS'
        refine ⟨vals, ?_, f2⟩
        rw [g3 r, f1]
        rw [List.map_fst_zip (by rw [List.length_map, hvl]), hind, List.map_map]
        intro hmem
        obtain ⟨q, hq, rfl⟩ := List.mem_map.mp hmem
        obtain ⟨q1, q2⟩ := hfm q hq
        simp only [Function.comp_apply] at hr
        rw [hr, Option.some.injEq] at q1
        exact hm (by rw [q1]; exact q2)
    · obtain ⟨rows', f1, f2, f3⟩ := hinv.2 i' j' t' ht' hj'
      refine ⟨rows', by rw [dictSet_lookup, if_neg hkey]; exact f1, f2, ?_⟩
      intro r row hr hS
      refine f3 r row hr ?_
      rcases hS with h | ⟨rfl, rfl, -⟩
      · exact h
      · exact absurd rfl hkey

theorem takeWhile_range (n m : ℕ) : ((List.range n).takeWhile fun i => decide (i < m)) = List.range (min n m) := by
  induction n with
  | zero => simp
  | succ n ih =>
    rw [List.range_succ]
    by_cases h : m ≤ n
    · have hle : ((List.range n).takeWhile fun i => decide (i < m)).length = m := by rw [ih]; simp [h]
      by_cases hlt : m < n
      · rw [List.takeWhile_append, if_neg (by rw [hle, List.length_range]; omega), ih]
        congr 1; omega
      · have : m = n := by omega
        subst this
        rw [List.takeWhile_append, if_pos (by rw [hle, List.length_range])]
        simp
    · rw [List.takeWhile_append, if_pos (by rw [ih]; simp; omega), List.takeWhile_cons_of_pos (by simp; omega)]
      rw [show min (n + 1) m = n + 1 by omega, List.range_succ]; simp

theorem populateData_spec {V : Type} (store : EvalStore V) (sel : Selection) (k : ℕ) (site : String)
    (hne : site ≠ "combined_index") (hsel : SelOk sel k site) (chans : List String)
    (meas : String) (d : SpecData V) (hd : store.readData site meas = .ok d) (hsh : d.Shaped) (hnd : d.md.chans.Nodup)
    (hch : ∀ c ∈ chans, c ∈ d.md.chans) (hper : ∀ lm ∈ d.md.levels, sel.decParams.perLevel ≤ lm.freqs.length)
    (hhold : ∀ (i : ℕ) (t : List SelRow), sel.tables[i]? = some t → ∀ row ∈ t, row.measOf k = meas → d.md.Holds i row.win)
    (S : ℕ → ℕ → String → Prop) (data : List (ℕ × List (Option (List V))))
    (hinv : GatherInv store sel k site chans S data) :
    ∃ data', populateData sel site meas d chans data = .ok data' ∧
      GatherInv store sel k site chans
        (fun i j m => j < sel.decParams.perLevel ∧ (S i j m ∨ (i < d.md.nLevels ∧ i < sel.nLevels ∧ m = meas))) data' := by
  unfold populateData
  rw [takeWhile_range]
  obtain ⟨data', h1, h2⟩ := foldlM_total (f := populateLevel sel site meas d chans)
    (P := fun done data => GatherInv store sel k site chans
      (fun i j m => j < sel.decParams.perLevel ∧ (S i j m ∨ (i ∈ done ∧ m = meas))) data)
    (List.range (min sel.nLevels d.md.nLevels)) data
    (hinv.mono (by rintro i j m ⟨-, h | ⟨h, -⟩⟩; exact h; simp at h)) (by
      intro done i data hi hP
      rw [List.mem_range] at hi
      have hil : i < d.md.levels.length := by rw [hsh.n_levels]; omega
      have hlm : d.md.levels[i]? = some d.md.levels[i] := List.getElem?_eq_getElem hil
      have his : i < sel.tables.length := by have : sel.nLevels = sel.tables.length := rfl; omega
      have hit : sel.tables[i]? = some sel.tables[i] := List.getElem?_eq_getElem his
      generalize sel.tables[i] = t at hit
      obtain ⟨ld, e1, -, e2⟩ := getChans_values d hsh hnd chans hch i _ hlm
      have hpl : populateLevel sel site meas d chans data i =
          (List.range sel.decParams.perLevel).foldlM (populateFreq sel site meas i d.md.levels[i] ld) data := by
        unfold populateLevel
        rw [e1, pyIndex_natCast _ _ hil]; rfl
      rw [hpl]
      obtain ⟨data', g1, g2⟩ := foldlM_total (f := populateFreq sel site meas i d.md.levels[i] ld)
        (P := fun doneJ data => GatherInv store sel k site chans
          (fun i' j m => (j < sel.decParams.perLevel ∧ (S i' j m ∨ (i' ∈ done ∧ m = meas))) ∨
            (i' = i ∧ j ∈ doneJ ∧ m = meas)) data)
        (List.range sel.decParams.perLevel) data
        (hP.mono (by rintro i' j m (h | ⟨-, h, -⟩); exact h; simp at h)) (by
          intro doneJ j data hj hQ
          rw [List.mem_range] at hj
          obtain ⟨data', f1, f2⟩ := populateFreq_spec store sel k site hne hsel chans meas d hd i _ t hit ld e2
            (by
              intro row hrow hm
              obtain ⟨-, lm', q1, q2, q3⟩ := hhold i t hit row hrow hm
              rw [hlm, Option.some.injEq] at q1
              subst q1
              exact ⟨q2, q3⟩)
            (hper _ (List.getElem_mem hil)) _ data hQ j hj
          refine ⟨data', f1, f2.mono ?_⟩
          rintro i' j' m (h | ⟨rfl, h, rfl⟩)
          · exact Or.inl (Or.inl h)
          · rcases List.mem_append.mp h with h | h
            · exact Or.inl (Or.inr ⟨rfl, h, rfl⟩)
            · simp only [List.mem_singleton] at h
              exact Or.inr ⟨rfl, h, rfl⟩)
      refine ⟨data', g1, g2.mono ?_⟩
      rintro i' j m ⟨hj, h | ⟨h, rfl⟩⟩
      · exact Or.inl ⟨hj, Or.inl h⟩
      · rcases List.mem_append.mp h with h | h
        · exact Or.inl ⟨hj, Or.inr ⟨h, rfl⟩⟩
        · simp only [List.mem_singleton] at h
          exact Or.inr ⟨h, List.mem_range.mpr hj, rfl⟩)
  refine ⟨data', h1, h2.mono ?_⟩
  rintro i j m ⟨hj, h | ⟨ha, hb, rfl⟩⟩
  · exact ⟨hj, Or.inl h⟩
  · exact ⟨hj, Or.inr ⟨List.mem_range.mpr (by omega), rfl⟩⟩

theorem getEmptyData_spec {V : Type} (store : EvalStore V) (sel : Selection) (k : ℕ) (site : String)
    (hsel : SelOk sel k site) (chans : List String) :
    ∃ data : List (ℕ × List (Option (List V))), getEmptyData sel = .ok data ∧
      GatherInv store sel k site chans (fun _ _ _ => False) data := by
  have hnw : ∀ q ∈ levelFreqs sel.nLevels sel.decParams.perLevel, emptyRows (V := V) sel q =
      .ok (sel.decParams.perLevel * q.1 + q.2, List.replicate ((sel.tables[q.1]?).getD []).length none) := by
    intro q hq
    obtain ⟨h1, h2⟩ := mem_levelFreqs.mp hq
    have hl : q.1 < sel.tables.length := h1
    obtain ⟨e, -⟩ := hsel.wins q.1 q.2 _ (List.getElem?_eq_getElem hl) h2
    unfold emptyRows
    rw [e, List.getElem?_eq_getElem hl]; rfl
  have hparts := mapM_ok_map hnw
  generalize hp : (levelFreqs sel.nLevels sel.decParams.perLevel).map (fun q =>
    (sel.decParams.perLevel * q.1 + q.2, List.replicate ((sel.tables[q.1]?).getD []).length (none : Option (List V)))) = parts at hparts
  have hkeys : parts.map Prod.fst = gatherKeys sel.nLevels sel.decParams.perLevel := by
    rw [← hp, List.map_map]; rfl
  have hnd : (parts.map Prod.fst).Nodup := by rw [hkeys, gatherKeys_eq]; exact List.nodup_range
  refine ⟨parts, ?_, hkeys, ?_⟩
  · unfold getEmptyData
    rw [hparts]
    simp only [bind, Except.bind, pure, Except.pure]
    rw [foldl_dictSet_new parts [] (by simpa using hnd)]
    rfl
  · intro i j t hit hj
    have hi : i < sel.nLevels := (List.getElem?_eq_some_iff.mp hit).1
    refine ⟨List.replicate t.length none, ?_, by simp, fun _ _ _ h => h.elim⟩
    rw [lookup_of_mem hnd, ← hp]
    refine List.mem_map.mpr ⟨(i, j), mem_levelFreqs.mpr ⟨hi, hj⟩, ?_⟩
    simp [hit]

theorem siteCol_spec (sel : Selection) (hnd : sel.sites.Nodup) (k : ℕ) (site : String) (hk : sel.sites[k]? = some site) :
    sel.siteCol site = .ok k := by
  obtain ⟨hkl, rfl⟩ := List.getElem?_eq_some_iff.mp hk
  unfold Selection.siteCol
  have : sel.sites.findIdx? (· == sel.sites[k]) = some k := by
    rw [List.findIdx?_eq_some_iff_getElem]
    refine ⟨hkl, by simp, ?_⟩
    intro j hj
    have : sel.sites[j] ≠ sel.sites[k] := fun heq => by
      have := (List.Nodup.getElem_inj_iff hnd).mp heq; omega
    simpa using this
  rw [this]

/-- **C31**. Gathering one site of a selection: the data are those of the selection (every row filled, row `r` with
the values of the `r`-th selected window from the measurement the selection names), with the measurements named in
the selection, the requested channels, and one evaluation frequency array per level and frequency. -/
theorem C31_site_data {V : Type} (store : EvalStore V) (hst : StoreWf store) (proj : GProject) (names : List String)
    (p : DecParams ℚ) (hall : ∀ s ∈ names, ∃ name md, HasMeas store proj p.fs s name md) (site : String)
    (hs : site ∈ names) (hci : site ≠ "combined_index") (chans : List String)
    (hread : SiteReadable store proj p.fs p.perLevel site chans) (sel : Selection)
    (hsel : selectorRun store proj names p = .ok sel) (hlev : sel.nLevels ≤ p.nLevels)
    (hwin : ∃ t ∈ sel.tables, t ≠ []) :
    ∃ c k, getSiteData store proj sel site chans = .ok c ∧ sel.sites[k]? = some site ∧
      IsGathered store sel k site chans c.data ∧
      c.siteName = site ∧ c.fs = p.fs ∧ c.chans = chans ∧ c.nEvals = sel.nLevels * p.perLevel ∧
      sel.getEvalFreqs = .ok c.evalFreqs ∧
      (∀ m, m ∈ c.measurements ↔ ∃ t ∈ sel.tables, ∃ row ∈ t, row.measOf k = m) := by
  have hne : names ≠ [] := by rintro rfl; simp at hs
  obtain ⟨sel', h1, h2, h3, h4, h5, h6⟩ := C30_selection store hst proj names p hne hall
  rw [hsel, Except.ok.injEq] at h1
  subst h1
  obtain ⟨sel', c1, c2, -, -⟩ := C30_counts store hst proj names p hne hall
  rw [hsel, Except.ok.injEq] at c1
  subst c1
  obtain ⟨k, hkl, hk⟩ := List.mem_iff_getElem.mp ((h4 site).mpr hs)
  have hk? : sel.sites[k]? = some site := by rw [List.getElem?_eq_getElem hkl, hk]
  have hok : SelOk sel k site := ⟨siteCol_spec sel h3 k site hk?, by rw [h2]; exact c2⟩
  -- every row of a table names a measurement of the site
  have hrowm : ∀ (i : ℕ) (t : List SelRow), sel.tables[i]? = some t → ∀ row ∈ t, ∃ md,
      HasMeas store proj p.fs site (row.measOf k) md ∧ md.Holds i row.win := by
    intro i t hit row hrow
    exact ((h6 i t hit).2.2 row hrow).2.2 k site hk?
  let ms := sortedSet (sel.tables.flatten.map fun row => row.measOf k)
  have hms : ∀ m, m ∈ ms ↔ ∃ t ∈ sel.tables, ∃ row ∈ t, row.measOf k = m := by
    intro m
    rw [mem_sortedSet, List.mem_map]
    constructor
    · rintro ⟨row, hrow, rfl⟩
      obtain ⟨t, ht, hr⟩ := List.mem_flatten.mp hrow
      exact ⟨t, ht, row, hr, rfl⟩
    · rintro ⟨t, ht, row, hr, rfl⟩
      exact ⟨row, List.mem_flatten.mpr ⟨t, ht, hr⟩, rfl⟩
  have hgm : sel.getMeasurements site = .ok ms := by
    unfold Selection.getMeasurements
    rw [hok.col]; rfl
  have hsite : proj.getSite site = .ok ((proj.sites.lookup site).getD []) := by
    obtain ⟨name, md, l, hl, -⟩ := hall site hs
    unfold GProject.getSite
    rw [hl]; rfl
  obtain ⟨empty, he1, he2⟩ := getEmptyData_spec store sel k site hok chans
  -- the loop over measurements
  have hmeas : ∀ m ∈ ms, ∃ d, store.readData site m = .ok d ∧ d.Shaped ∧ d.md.chans.Nodup ∧
      (∀ c ∈ chans, c ∈ d.md.chans) ∧ (∀ lm ∈ d.md.levels, sel.decParams.perLevel ≤ lm.freqs.length) ∧
      ∀ (i : ℕ) (t : List SelRow), sel.tables[i]? = some t → ∀ row ∈ t, row.measOf k = m → d.md.Holds i row.win := by
    intro m hm
    obtain ⟨t, ht, row, hr, rfl⟩ := (hms m).mp hm
    obtain ⟨i, hi, rfl⟩ := List.mem_iff_getElem.mp ht
    obtain ⟨md, hmd, -⟩ := hrowm i _ (List.getElem?_eq_getElem hi) row hr
    obtain ⟨d, q1, q2, q3, q4, q5, q6⟩ := hread _ _ hmd
    refine ⟨d, q1, q3, q4, q5, by rw [h2]; exact q6, ?_⟩
    intro i' t' hit' row' hr' heq
    obtain ⟨md', hmd', hh⟩ := hrowm i' t' hit' row' hr'
    obtain ⟨_, _, _, r1⟩ := hmd
    obtain ⟨_, _, _, r2⟩ := hmd'
    rw [heq, r1, Except.ok.injEq] at r2
    rw [q2.holds, r2]; exact hh
  obtain ⟨acc, ha1, ha2, ha3⟩ := foldlM_total (f := gatherMeas store sel site chans)
    (P := fun done (acc : GatherAcc V) => (done ≠ [] → acc.found = true) ∧ GatherInv store sel k site chans
      (fun i j m => j < sel.decParams.perLevel ∧ i < sel.nLevels ∧ m ∈ done ∧
        ∀ d, store.readData site m = .ok d → i < d.md.nLevels) acc.data)
    ms { data := empty, histories := [], found := false }
    ⟨fun h => absurd rfl h, he2.mono (by rintro i j m ⟨-, -, h, -⟩; simp at h)⟩ (by
      rintro done m acc hm ⟨-, hP⟩
      obtain ⟨d, q1, q2, q3, q4, q5, q6⟩ := hmeas m hm
      obtain ⟨data', g1, g2⟩ := populateData_spec store sel k site hci hok chans m d q1 q2 q3 q4 q5 q6 _ acc.data hP
      refine ⟨⟨data', dictSet acc.histories m d.md.history, true⟩, ?_, fun _ => rfl, g2.mono ?_⟩
      · unfold gatherMeas
        rw [q1]
        simp only [bind, Except.bind, g1]; rfl
      · rintro i j m' ⟨r1, r2, r3, r4⟩
        refine ⟨r1, ?_⟩
        rcases List.mem_append.mp r3 with h | h
        · exact Or.inl ⟨r1, r2, h, r4⟩
        · simp only [List.mem_singleton] at h
          subst h
          exact Or.inr ⟨r4 d q1, r2, rfl⟩)
  have hmsne : ms ≠ [] := by
    obtain ⟨t, ht, htn⟩ := hwin
    obtain ⟨row, rest, rfl⟩ := List.exists_cons_of_ne_nil htn
    intro h
    have := (hms (row.measOf k)).mpr ⟨_, ht, row, by simp, rfl⟩
    rw [h] at this; simp at this
  obtain ⟨fr, hfr⟩ : ∃ fr, sel.getEvalFreqs = .ok fr := by
    obtain ⟨parts, hp⟩ := mapM_exists (f := fun (i : ℕ) => sel.decParams.getEvalFreqs (i : ℤ)) (l := List.range sel.nLevels) (by
      intro i hi
      rw [List.mem_range] at hi
      refine ⟨pySlice p.evalFreqs (p.perLevel * (i : ℤ)) (p.perLevel * (i : ℤ) + p.perLevel), ?_⟩
      unfold DecParams.getEvalFreqs DecParams.checkLevel
      rw [h2, if_neg (by omega)]; rfl)
    exact ⟨_, by unfold Selection.getEvalFreqs; rw [hp]; rfl⟩
  have hkeys : acc.data.map Prod.fst = List.range (sel.nLevels * sel.decParams.perLevel) := by
    rw [ha3.1, gatherKeys_eq]
  refine ⟨⟨site, sel.decParams.fs, ms, chans, acc.data.length, fr, acc.histories, acc.data⟩, k, ?_, hk?,
    ⟨hkeys, ?_⟩, rfl, ?_, rfl, ?_, hfr, hms⟩
  · unfold getSiteData
    rw [hsite, hgm, he1]
    simp only [bind, Except.bind, ha1]
    rw [if_neg (by rw [ha2 hmsne]; simp)]
    simp only [pure, Except.pure, hfr]
  · intro i j t hit hj
    obtain ⟨rows, r1, r2, r3⟩ := ha3.2 i j t hit hj
    refine ⟨rows, r1, r2, ?_⟩
    intro r row hr
    refine r3 r row hr ⟨hj, (List.getElem?_eq_some_iff.mp hit).1, ?_, ?_⟩
    · exact (hms _).mpr ⟨t, List.mem_of_getElem? hit, row, List.mem_of_getElem? hr, rfl⟩
    · intro d hd
      have hm := (hms (row.measOf k)).mpr ⟨t, List.mem_of_getElem? hit, row, List.mem_of_getElem? hr, rfl⟩
      obtain ⟨d', q1, -, -, -, -, q6⟩ := hmeas _ hm
      rw [hd, Except.ok.injEq] at q1
      subst q1
      exact (q6 i t hit row (List.mem_of_getElem? hr) rfl).1
  · simp only; rw [h2]
  · simp only
    have := congrArg List.length hkeys
    rw [List.length_map, List.length_range, h2] at this
    exact this

/-- **C31**. Gathering for a transfer function: output, input and cross data refer to the same selected windows, row by
row, each read from its own site (the input site defaults to the output site, the cross site to the input site) and
for its own channels. -/
theorem C31_project_gather {V : Type} (store : EvalStore V) (hst : StoreWf store) (proj : GProject)
    (names : List String) (p : DecParams ℚ) (hall : ∀ s ∈ names, ∃ name md, HasMeas store proj p.fs s name md)
    (tf : TfChans) (outName : String) (inName crossName : Option String)
    (ho : outName ∈ names) (hi : inName.getD outName ∈ names) (hx : crossName.getD (inName.getD outName) ∈ names)
    (hci : "combined_index" ∉ names)
    (hread1 : SiteReadable store proj p.fs p.perLevel outName tf.outChans)
    (hread2 : SiteReadable store proj p.fs p.perLevel (inName.getD outName) tf.inChans)
    (hread3 : SiteReadable store proj p.fs p.perLevel (crossName.getD (inName.getD outName)) tf.crossChans)
    (sel : Selection) (hsel : selectorRun store proj names p = .ok sel) (hlev : sel.nLevels ≤ p.nLevels)
    (hwin : ∃ t ∈ sel.tables, t ≠ []) :
    ∃ gd k1 k2 k3, projectGather store proj sel tf outName inName crossName = .ok gd ∧
      sel.sites[k1]? = some outName ∧ IsGathered store sel k1 outName tf.outChans gd.outData.data ∧
      sel.sites[k2]? = some (inName.getD outName) ∧
      IsGathered store sel k2 (inName.getD outName) tf.inChans gd.inData.data ∧
      sel.sites[k3]? = some (crossName.getD (inName.getD outName)) ∧
      IsGathered store sel k3 (crossName.getD (inName.getD outName)) tf.crossChans gd.crossData.data := by
  have hci' : ∀ s ∈ names, s ≠ "combined_index" := fun s hs h => hci (h ▸ hs)
  obtain ⟨c1, k1, a1, a2, a3, -⟩ := C31_site_data store hst proj names p hall outName ho (hci' _ ho) tf.outChans hread1 sel hsel hlev hwin
  obtain ⟨c2, k2, b1, b2, b3, -⟩ := C31_site_data store hst proj names p hall _ hi (hci' _ hi) tf.inChans hread2 sel hsel hlev hwin
  obtain ⟨c3, k3, d1, d2, d3, -⟩ := C31_site_data store hst proj names p hall _ hx (hci' _ hx) tf.crossChans hread3 sel hsel hlev hwin
  refine ⟨⟨c1, c2, c3⟩, k1, k2, k3, ?_, a2, a3, b2, b3, d2, d3⟩
  unfold projectGather
  simp only [a1, b1, d1, bind, Except.bind]; rfl

/-- **C31**. When no window is shared at any level there is nothing to gather and the call fails. -/
theorem C31_no_windows {V : Type} (store : EvalStore V) (hst : StoreWf store) (proj : GProject) (names : List String)
    (p : DecParams ℚ) (hall : ∀ s ∈ names, ∃ name md, HasMeas store proj p.fs s name md) (site : String)
    (hs : site ∈ names) (chans : List String) (sel : Selection)
    (hsel : selectorRun store proj names p = .ok sel) (hwin : ∀ t ∈ sel.tables, t = []) :
    getSiteData store proj sel site chans = .error .attribute := by
  have hne : names ≠ [] := by rintro rfl; simp at hs
  obtain ⟨sel', h1, h2, h3, h4, h5, h6⟩ := C30_selection store hst proj names p hne hall
  rw [hsel, Except.ok.injEq] at h1
  subst h1
  obtain ⟨sel', c1, c2, -, -⟩ := C30_counts store hst proj names p hne hall
  rw [hsel, Except.ok.injEq] at c1
  subst c1
  obtain ⟨k, hkl, hk⟩ := List.mem_iff_getElem.mp ((h4 site).mpr hs)
  have hk? : sel.sites[k]? = some site := by rw [List.getElem?_eq_getElem hkl, hk]
  have hok : SelOk sel k site := ⟨siteCol_spec sel h3 k site hk?, by rw [h2]; exact c2⟩
  have hfl : sel.tables.flatten = [] := by
    rw [List.flatten_eq_nil_iff]; exact hwin
  have hgm : sel.getMeasurements site = .ok [] := by
    unfold Selection.getMeasurements
    rw [hok.col, hfl]; rfl
  have hsite : proj.getSite site = .ok ((proj.sites.lookup site).getD []) := by
    obtain ⟨name, md, l, hl, -⟩ := hall site hs
    unfold GProject.getSite
    rw [hl]; rfl
  obtain ⟨empty, he1, -⟩ := getEmptyData_spec store sel k site hok chans
  unfold getSiteData
  rw [hsite, hgm, he1]; rfl

/-! a concrete case: two sites, the first with two measurements -/

/-- metadata of one level with two evaluation frequencies -/
def demoEvalMeta (chans : List String) (offset n : ℤ) : SpecMeta :=
  ⟨[8], chans, 1, 0, 1, [⟨8, n, 4, 2, offset, 2, [2, 1]⟩], 0, []⟩

def demoEvals (chans : List String) (offset : ℤ) (arr : SpecArr ℚ) : SpecData ℚ :=
  ⟨demoEvalMeta chans offset arr.length, [(0, arr)]⟩

def demoStoreData (site meas : String) : Except Err (SpecData ℚ) :=
  if site = "A" ∧ meas = "m1" then .ok (demoEvals ["Ex", "Hy"] 3 [[[10, 11], [12, 13]], [[20, 21], [22, 23]]])
  else if site = "A" ∧ meas = "m2" then .ok (demoEvals ["Ex", "Hy"] 5 [[[30, 31], [32, 33]]])
  else if site = "R" ∧ meas = "r1" then .ok (demoEvals ["Hx"] 4 [[[40, 41]], [[50, 51]], [[60, 61]]])
  else .error .metaRead

def demoStore : EvalStore ℚ :=
  ⟨fun s m => (demoStoreData s m).map fun d => d.md,
   fun s m => (demoStoreData s m).map fun d => { md := { d.md with history := d.md.history ++ ["SpectraDataReader"] }, data := d.data }⟩

def demoProj : GProject := ⟨[("A", [("m1", 8), ("m2", 8), ("broken", 8)]), ("R", [("r1", 8)])]⟩

def demoDecP : DecParams ℚ := ⟨8, 1, 2, 1, [2, 1], [1], [1], [8]⟩

/-- windows 4 (from m1) and 5 (from m2) are shared -/
theorem demo_selection : selectorRun demoStore demoProj ["R", "A", "R"] demoDecP =
    .ok ⟨["A", "R"], demoDecP, [[⟨4, ["m1", "r1"], [true, true]⟩, ⟨5, ["m2", "r1"], [true, true]⟩]]⟩ := by
  decide +kernel

def demoSel : Selection :=
  ⟨["A", "R"], demoDecP, [[⟨4, ["m1", "r1"], [true, true]⟩, ⟨5, ["m2", "r1"], [true, true]⟩]]⟩

example :
    (projectGather demoStore demoProj demoSel ⟨["Ex"], ["Hy"], ["Hx"]⟩ "A" none (some "R")).map (·.outData.data) =
      .ok [(0, [some [20], some [30]]), (1, [some [21], some [31]])] ∧
    (projectGather demoStore demoProj demoSel ⟨["Ex"], ["Hy"], ["Hx"]⟩ "A" none (some "R")).map (·.inData.data) =
      .ok [(0, [some [22], some [32]]), (1, [some [23], some [33]])] ∧
    (projectGather demoStore demoProj demoSel ⟨["Ex"], ["Hy"], ["Hx"]⟩ "A" none (some "R")).map (·.crossData.data) =
      .ok [(0, [some [40], some [50]]), (1, [some [41], some [51]])] := by
  refine ⟨?_, ?_, ?_⟩ <;> decide +kernel

theorem demoEvals_shaped (chans : List String) (offset : ℤ) (arr : SpecArr ℚ)
    (h : ∀ win ∈ arr, win.length = chans.length ∧ ∀ row ∈ win, row.length = 2) : (demoEvals chans offset arr).Shaped := by
  refine ⟨rfl, Nat.le_refl _, ?_, rfl, ?_⟩
  · intro lm hlm
    simp only [demoEvals, demoEvalMeta, List.mem_singleton] at hlm
    subst hlm; rfl
  · intro i lm hlm
    cases i with
    | zero =>
      simp only [demoEvals, demoEvalMeta, List.getElem?_cons_zero, Option.some.injEq] at hlm
      subst hlm
      exact ⟨arr, rfl, rfl, h⟩
    | succ i => simp [demoEvals, demoEvalMeta] at hlm

/-- the hypotheses of C29, C30 and C31 hold in the concrete case -/
example : StoreWf demoStore ∧ (∀ s ∈ ["R", "A", "R"], ∃ name md, HasMeas demoStore demoProj demoDecP.fs s name md) ∧
    SiteReadable demoStore demoProj demoDecP.fs demoDecP.perLevel "A" ["Ex"] := by
  have hcases : ∀ site name d, demoStoreData site name = .ok d →
      ∃ chans offset arr, d = demoEvals chans offset arr ∧ chans.Nodup ∧ (site = "A" → chans = ["Ex", "Hy"]) ∧
        ∀ win ∈ arr, win.length = chans.length ∧ ∀ row ∈ win, row.length = 2 := by
    intro site name d h
    unfold demoStoreData at h
    split at h
    · simp only [Except.ok.injEq] at h; exact ⟨_, _, _, h.symm, by decide, fun _ => rfl, by decide⟩
    · split at h
      · simp only [Except.ok.injEq] at h; exact ⟨_, _, _, h.symm, by decide, fun _ => rfl, by decide⟩
      · split at h
        · rename_i h3
          simp only [Except.ok.injEq] at h
          refine ⟨_, _, _, h.symm, by decide, ?_, by decide⟩
          intro hA; rw [hA] at h3; simp at h3
        · simp at h
  have hmeta : ∀ site name md, demoStore.readMeta site name = .ok md →
      ∃ d, demoStoreData site name = .ok d ∧ d.md = md := by
    intro site name md h
    simp only [demoStore] at h
    cases hd : demoStoreData site name with
    | error e => rw [hd] at h; simp [Except.map] at h
    | ok d => rw [hd] at h; simp only [Except.map, Except.ok.injEq] at h; exact ⟨d, rfl, h⟩
  refine ⟨?_, ?_, ?_⟩
  · intro site name md h
    obtain ⟨d, h1, rfl⟩ := hmeta _ _ _ h
    obtain ⟨chans, offset, arr, rfl, -, -, h2⟩ := hcases _ _ _ h1
    exact (demoEvals_shaped _ _ _ h2).n_levels
  · intro s hs
    simp only [List.mem_cons, List.not_mem_nil, or_false] at hs
    rcases hs with rfl | rfl | rfl
    · exact ⟨"r1", _, _, rfl, by decide +kernel, rfl⟩
    · exact ⟨"m1", _, _, rfl, by decide +kernel, rfl⟩
    · exact ⟨"r1", _, _, rfl, by decide +kernel, rfl⟩
  · intro name md h
    obtain ⟨ms, -, -, h⟩ := h
    obtain ⟨d, h1, rfl⟩ := hmeta _ _ _ h
    obtain ⟨chans, offset, arr, rfl, hnd, hA, h2⟩ := hcases _ _ _ h1
    refine ⟨{ md := { (demoEvals chans offset arr).md with history := (demoEvals chans offset arr).md.history ++ ["SpectraDataReader"] },
              data := (demoEvals chans offset arr).data }, by simp only [demoStore, h1]; rfl, ⟨rfl, rfl⟩,
            (demoEvals_shaped _ _ _ h2).history _, hnd, ?_, ?_⟩
    · intro c hc
      simp only [List.mem_singleton] at hc
      subst hc
      show "Ex" ∈ chans
      rw [hA rfl]; simp
    · intro lm hlm
      simp only [demoEvals, demoEvalMeta, List.mem_singleton] at hlm
      subst hlm
      exact Nat.le_refl 2

/-- a project whose site has the name of the helper column of `_get_indices` -/
def demoReserved : EvalStore ℚ :=
  ⟨fun _ _ => .ok (demoEvalMeta ["Ex"] 3 2), fun _ _ => .ok (demoEvals ["Ex"] 3 [[[10, 11]], [[20, 21]]])⟩

/-- **C31**. The exclusion of the name is needed: a site called `combined_index` is gathered without error but no row
of its data is ever assigned. -/
theorem C31_reserved_site_name :
    (selectorRun demoReserved ⟨[("combined_index", [("m1", 8)])]⟩ ["combined_index"] demoDecP >>= fun sel =>
      (getSiteData demoReserved ⟨[("combined_index", [("m1", 8)])]⟩ sel "combined_index" ["Ex"]).map (·.data)) =
    .ok [(0, [none, none]), (1, [none, none])] := by
  decide +kernel

/-! ## C32 -/

theorem foldlM_total_prefix {ε α σ : Type _} {f : σ → α → Except ε σ} (P : List α → σ → Prop) (l : List α) (s : σ)
    (h0 : P [] s)
    (hstep : ∀ done a s, (done ++ [a]).IsPrefix l → P done s → ∃ s', f s a = .ok s' ∧ P (done ++ [a]) s') :
    ∃ s', l.foldlM f s = .ok s' ∧ P l s' := by
  have : ∀ (l' done : List α) (s : σ), l = done ++ l' → P done s → ∃ s', l'.foldlM f s = .ok s' ∧ P (done ++ l') s' := by
    intro l'
    induction l' with
    | nil => intro done s _ h; exact ⟨s, rfl, by simpa using h⟩
    | cons a l' ih =>
      intro done s hl h
      obtain ⟨s1, h1, h2⟩ := hstep done a s ⟨l', by rw [hl]; simp⟩ h
      obtain ⟨s2, h3, h4⟩ := ih (done ++ [a]) s1 (by rw [hl]; simp) h2
      refine ⟨s2, ?_, by simpa using h4⟩
      rw [List.foldlM_cons, h1]; exact h3
  simpa using this l [] s rfl h0

theorem prefix_nodup {α : Type} {l done : List α} {a : α} (hnd : l.Nodup) (h : (done ++ [a]).IsPrefix l) :
    a ∉ done ∧ a ∈ l := by
  obtain ⟨r, rfl⟩ := h
  constructor
  · rw [List.append_assoc, List.nodup_append] at hnd
    intro ha
    exact hnd.2.2 a ha a (by simp) rfl
  · simp

/-- Specification: data gathered from one data set alone: one array per level and frequency, its row `r` holds the
values of the `r`-th window of the level. -/
def IsQuick {V : Type} (d : SpecData V) (perLevel : ℕ) (chans : List String)
    (data : List (ℕ × List (Option (List V)))) : Prop :=
  data.map Prod.fst = List.range (d.md.nLevels * perLevel) ∧
  ∀ (i j : ℕ) (lm : SpecLevelMeta), d.md.levels[i]? = some lm → j < perLevel →
    ∃ rows, data.lookup (perLevel * i + j) = some rows ∧ (rows.length : ℤ) = lm.nWins ∧
      ∀ r : ℕ, (r : ℤ) < lm.nWins → ∃ vals, rows[r]? = some (some vals) ∧ vals.length = chans.length ∧
        ∀ (ci : ℕ) (chan : String), chans[ci]? = some chan →
          ∃ v, vals[ci]? = some v ∧ IsCell d i (lm.indexOffset + r) chan j v

theorem freqRows_spec {V : Type} (ld : SpecArr V) (j : ℕ)
    (h : ∀ r : ℕ, r < ld.length → ∃ vals, windowValues ld j (r : ℤ) = .ok vals) :
    ∃ rows, freqRows ld j = .ok rows ∧ rows.length = ld.length ∧
      ∀ (r : ℕ) (vals : List V), windowValues ld j (r : ℤ) = .ok vals → r < ld.length → rows[r]? = some (some vals) := by
  have key : ∀ r (hr : r < ld.length), windowValues ld j (r : ℤ) = ld[r].mapM fun row => pyIndex row (j : ℤ) := by
    intro r hr
    unfold windowValues
    rw [pyIndex_natCast _ _ hr]; rfl
  obtain ⟨rows, hrows⟩ := mapM_exists (f := fun win : List (List V) =>
      ((win.mapM fun row => pyIndex row (j : ℤ)).map some : Except Err (Option (List V)))) (l := ld) (by
    intro win hw
    obtain ⟨r, hr, rfl⟩ := List.mem_iff_getElem.mp hw
    obtain ⟨vals, hv⟩ := h r hr
    rw [key r hr] at hv
    exact ⟨some vals, by rw [hv]; rfl⟩)
  have hlen := mapM_ok_length hrows
  refine ⟨rows, hrows, hlen, ?_⟩
  intro r vals hv hr
  have := mapM_ok_getElem hrows r hr (by omega)
  rw [key r hr] at hv
  rw [hv] at this
  simp only [Except.map, Except.ok.injEq] at this
  rw [List.getElem?_eq_getElem (by omega), ← this]

/-- **C32**. Quick gathering of evaluation data with `perLevel` frequencies on each level: one array per level and
evaluation frequency, whose rows are the windows of the level in order, for the requested channels; the index
`perLevel * level + frequency` belongs to one level and frequency only. -/
theorem C32_quick_site {V : Type} (name : String) (p : DecParams ℚ) (d : SpecData V) (hsh : d.Shaped)
    (hnd : d.md.chans.Nodup) (chans : List String) (hch : ∀ c ∈ chans, c ∈ d.md.chans)
    (hper : ∀ lm ∈ d.md.levels, lm.freqs.length = p.perLevel) :
    ∃ c, quickSite name p d chans = .ok c ∧ IsQuick d p.perLevel chans c.data ∧ c.chans = chans ∧
      c.evalFreqs = (d.md.levels.map (·.freqs)).flatten ∧ c.nEvals = d.md.nLevels * p.perLevel ∧
      c.data.length = c.nEvals := by
  -- the rows of a level and frequency
  let Good : ℕ → ℕ → List (Option (List V)) → Prop := fun i j rows => ∀ lm : SpecLevelMeta, d.md.levels[i]? = some lm →
    (rows.length : ℤ) = lm.nWins ∧
      ∀ r : ℕ, (r : ℤ) < lm.nWins → ∃ vals, rows[r]? = some (some vals) ∧ vals.length = chans.length ∧
        ∀ (ci : ℕ) (chan : String), chans[ci]? = some chan →
          ∃ v, vals[ci]? = some v ∧ IsCell d i (lm.indexOffset + r) chan j v
  let keysOf : List ℕ → List ℕ := fun done => done.flatMap fun i => (List.range p.perLevel).map fun j => p.perLevel * i + j
  obtain ⟨data, h1, h2, h3⟩ := foldlM_total_prefix (f := quickLevel p d chans)
    (P := fun done (data : List (ℕ × List (Option (List V)))) => data.map Prod.fst = keysOf done ∧
      ∀ i j, i ∈ done → j < p.perLevel → ∃ rows, data.lookup (p.perLevel * i + j) = some rows ∧ Good i j rows)
    (List.range d.md.nLevels) []
    ⟨rfl, by simp⟩ (by
      rintro done i data hpre ⟨hk, hP⟩
      obtain ⟨hni, hi⟩ := prefix_nodup List.nodup_range hpre
      rw [List.mem_range] at hi
      have hil : i < d.md.levels.length := by rw [hsh.n_levels]; exact hi
      have hlm : d.md.levels[i]? = some d.md.levels[i] := List.getElem?_eq_getElem hil
      generalize hlmeq : d.md.levels[i] = lm at hlm
      have hfl : lm.freqs.length = p.perLevel := by rw [← hlmeq]; exact hper _ (List.getElem_mem hil)
      have hnf : lm.nFreqs = p.perLevel := by
        rw [← hfl, ← hlmeq]; exact hsh.n_freqs _ (List.getElem_mem hil)
      obtain ⟨ld, e1, e2, e3⟩ := getChans_values d hsh hnd chans hch i lm hlm
      have hql : quickLevel p d chans data i = (List.range p.perLevel).foldlM (quickFreq p.perLevel i ld) data := by
        unfold quickLevel
        rw [e1, pyIndex_natCast _ _ hil, hlmeq, ← hnf]; rfl
      rw [hql]
      obtain ⟨data', g1, g2, g3⟩ := foldlM_total_prefix (f := quickFreq p.perLevel i ld)
        (P := fun doneJ (data : List (ℕ × List (Option (List V)))) =>
          data.map Prod.fst = keysOf done ++ doneJ.map (fun j => p.perLevel * i + j) ∧
          ∀ i' j, j < p.perLevel → (i' ∈ done ∨ (i' = i ∧ j ∈ doneJ)) →
            ∃ rows, data.lookup (p.perLevel * i' + j) = some rows ∧ Good i' j rows)
        (List.range p.perLevel) data
        ⟨by simpa using hk, by rintro i' j hj (h | ⟨-, h⟩); exact hP i' j h hj; simp at h⟩ (by
          rintro doneJ j data hpreJ ⟨hkJ, hPJ⟩
          obtain ⟨hnj, hj⟩ := prefix_nodup List.nodup_range hpreJ
          rw [List.mem_range] at hj
          have hval : ∀ r : ℕ, r < ld.length → ∃ vals, windowValues ld j (r : ℤ) = .ok vals ∧ vals.length = chans.length ∧
              ∀ (ci : ℕ) (chan : String), chans[ci]? = some chan →
                ∃ v, vals[ci]? = some v ∧ IsCell d i (lm.indexOffset + r) chan j v := by
            intro r hr
            obtain ⟨vals, f1, f2, f3⟩ := e3 (lm.indexOffset + r) j (by omega) (by omega) (by omega)
            rw [show lm.indexOffset + (r : ℤ) - lm.indexOffset = r by omega] at f1
            exact ⟨vals, f1, f2, f3⟩
          obtain ⟨rows, r1, r2, r3⟩ := freqRows_spec ld j (fun r hr => by
            obtain ⟨v, hv, -⟩ := hval r hr; exact ⟨v, hv⟩)
          have hnew : p.perLevel * i + j ∉ data.map Prod.fst := by
            rw [hkJ, List.mem_append, not_or]
            constructor
            · intro hm
              obtain ⟨i', hi', hm⟩ := List.mem_flatMap.mp hm
              obtain ⟨j', hj', heq⟩ := List.mem_map.mp hm
              rw [List.mem_range] at hj'
              obtain ⟨rfl, -⟩ := key_inj hj' hj heq
              exact hni hi'
            · intro hm
              obtain ⟨j', hj', heq⟩ := List.mem_map.mp hm
              have : j' = j := by omega
              subst this
              exact hnj hj'
          refine ⟨dictSet data (p.perLevel * i + j) rows, ?_, ?_, ?_⟩
          · unfold quickFreq; rw [r1]; rfl
          · rw [dictSet_new _ _ _ hnew, List.map_append, hkJ]; simp
          · intro i' j' hj' hor
            rw [dictSet_lookup]
            by_cases hkey : p.perLevel * i' + j' = p.perLevel * i + j
            · rw [if_pos hkey]
              obtain ⟨rfl, rfl⟩ := key_inj hj' hj hkey
              refine ⟨rows, rfl, ?_⟩
              intro lm' hlm'
              rw [hlm, Option.some.injEq] at hlm'
              subst hlm'
              refine ⟨by rw [r2]; exact e2, ?_⟩
              intro r hr
              have hrl : r < ld.length := by omega
              obtain ⟨vals, v1, v2, v3⟩ := hval r hrl
              exact ⟨vals, r3 r vals v1 hrl, v2, v3⟩
            · rw [if_neg hkey]
              apply hPJ i' j' hj'
              rcases hor with h | ⟨rfl, h⟩
              · exact Or.inl h
              · rcases List.mem_append.mp h with h | h
                · exact Or.inr ⟨rfl, h⟩
                · simp only [List.mem_singleton] at h
                  subst h
                  exact absurd rfl hkey)
      refine ⟨data', g1, ?_, ?_⟩
      · rw [g2]; simp [keysOf]
      · intro i' j hi' hj
        apply g3 i' j hj
        rcases List.mem_append.mp hi' with h | h
        · exact Or.inl h
        · simp only [List.mem_singleton] at h
          exact Or.inr ⟨h, List.mem_range.mpr hj⟩)
  have hkeys : data.map Prod.fst = List.range (d.md.nLevels * p.perLevel) := by
    rw [h2, ← gatherKeys_eq]
    simp only [keysOf, gatherKeys, levelFreqs, List.map_flatMap, List.map_map]
    rfl
  have hfreqs : quickEvalFreqs d = .ok (d.md.levels.map (·.freqs)).flatten := by
    unfold quickEvalFreqs
    have : (List.range d.md.nLevels).mapM (fun (i : ℕ) =>
        ((pyIndex d.md.levels (i : ℤ)).map fun lm => lm.freqs : Except Err (List ℚ))) = .ok (d.md.levels.map (·.freqs)) := by
      rw [mapM_ok_map (g := fun i => ((d.md.levels[i]?).map (·.freqs)).getD [])]
      · congr 1
        apply List.ext_getElem
        · simp [hsh.n_levels]
        · intro n a b
          simp only [List.length_map] at b
          simp [List.getElem?_eq_getElem b]
      · intro i hi
        rw [List.mem_range, ← hsh.n_levels] at hi
        rw [pyIndex_natCast _ _ hi, List.getElem?_eq_getElem hi]; rfl
    rw [this]; rfl
  have hflen : (d.md.levels.map (·.freqs)).flatten.length = d.md.nLevels * p.perLevel := by
    rw [← hsh.n_levels]
    clear hfreqs hkeys h2 h3 h1
    generalize d.md.levels = ls at hper
    induction ls with
    | nil => simp
    | cons l ls ih =>
      rw [List.map_cons, List.flatten_cons, List.length_append, hper l (by simp),
        ih (fun x hx => hper x (by simp [hx])), List.length_cons, Nat.succ_mul, Nat.add_comm]
  refine ⟨⟨name, p.fs, [name], chans, (d.md.levels.map (·.freqs)).flatten.length, (d.md.levels.map (·.freqs)).flatten,
    [(name, d.md.history)], data⟩, ?_, ⟨hkeys, ?_⟩, rfl, rfl, hflen, ?_⟩
  · unfold quickSite
    rw [hfreqs]
    simp only [bind, Except.bind, h1]; rfl
  · intro i j lm hlm hj
    have hi : i < d.md.nLevels := by rw [← hsh.n_levels]; exact (List.getElem?_eq_some_iff.mp hlm).1
    obtain ⟨rows, a, b⟩ := h3 i j (List.mem_range.mpr hi) hj
    exact ⟨rows, a, b lm hlm⟩
  · simp only
    rw [hflen]
    have := congrArg List.length hkeys
    simpa using this

theorem increasing_ext {l l' : List ℤ} (h : l.Pairwise (· < ·)) (h' : l'.Pairwise (· < ·)) (hm : ∀ x, x ∈ l ↔ x ∈ l') :
    l = l' := by
  refine List.Perm.eq_of_pairwise (le := fun x y => x ≤ y) ?_ (h.imp le_of_lt) (h'.imp le_of_lt) ?_
  · intro x y _ _ h1 h2; exact le_antisymm h1 h2
  · rw [List.perm_ext_iff_of_nodup (h.imp ne_of_lt) (h'.imp ne_of_lt)]; exact hm

theorem range_increasing (off : ℤ) (n : ℕ) : ((List.range n).map fun (r : ℕ) => off + (r : ℤ)).Pairwise (· < ·) := by
  rw [List.pairwise_map]
  exact List.pairwise_lt_range.imp fun h => by omega

theorem dict_ext {β : Type} {d d' : List (ℕ × β)} (hk : d.map Prod.fst = d'.map Prod.fst) (hnd : (d.map Prod.fst).Nodup)
    (h : ∀ k ∈ d.map Prod.fst, d.lookup k = d'.lookup k) : d = d' := by
  have hl : d.length = d'.length := by simpa using congrArg List.length hk
  apply List.ext_getElem hl
  intro n h1 h2
  have hkn : d[n].1 = d'[n].1 := by
    have := List.getElem_of_eq hk (by simpa using h1)
    simpa using this
  have e1 : d.lookup d[n].1 = some d[n].2 := (lookup_of_mem hnd).mpr (List.getElem_mem h1)
  have e2 : d'.lookup d'[n].1 = some d'[n].2 := (lookup_of_mem (by rw [← hk]; exact hnd)).mpr (List.getElem_mem h2)
  have := h d[n].1 (List.mem_map.mpr ⟨_, List.getElem_mem h1, rfl⟩)
  rw [e1, hkn, e2, Option.some.injEq] at this
  exact Prod.ext hkn this

/-- **C32**. For a site with just one measurement at the sampling frequency, which has this evaluation data, project
gathering for the site alone gives exactly the data of quick gathering; its evaluation frequencies are those of the
decimation parameters, for as many levels as the data have. -/
theorem C32_agrees {V : Type} (store : EvalStore V) (proj : GProject) (p : DecParams ℚ) (site meas : String)
    (hci : site ≠ "combined_index") (ms : List (String × ℚ)) (hsite : proj.sites.lookup site = some ms)
    (hone : ∀ n, (n, p.fs) ∈ ms ↔ n = meas) (d : SpecData V)
    (hst : StoreWf store) (hrd : store.readData site meas = .ok d) (md : SpecMeta)
    (hrm : store.readMeta site meas = .ok md) (hmd : d.md.SameLevels md) (hsh : d.Shaped) (hnd : d.md.chans.Nodup) (chans : List String) (hch : ∀ c ∈ chans, c ∈ d.md.chans)
    (hper : ∀ lm ∈ d.md.levels, lm.freqs.length = p.perLevel) (hlev : d.md.nLevels ≤ p.nLevels)
    (hwin : ∃ lm ∈ d.md.levels, 0 < lm.nWins) (name : String) :
    ∃ sel c q, selectorRun store proj [site] p = .ok sel ∧ getSiteData store proj sel site chans = .ok c ∧
      quickSite name p d chans = .ok q ∧ c.data = q.data ∧ c.nEvals = q.nEvals ∧ c.chans = q.chans ∧ c.fs = q.fs ∧
      c.measurements = [meas] ∧
      ∃ labels, (List.range d.md.nLevels).mapM (fun (i : ℕ) => p.getEvalFreqs (i : ℤ)) = .ok labels ∧
        c.evalFreqs = labels.flatten := by
  have hhm : HasMeas store proj p.fs site meas md := ⟨_, hsite, (hone meas).2 rfl, hrm⟩
  have hhm' : ∀ n md', HasMeas store proj p.fs site n md' → n = meas ∧ md' = md := by
    rintro n md' ⟨ms, h1, h2, h3⟩
    rw [hsite, Option.some.injEq] at h1
    subst h1
    have h2 := (hone n).1 h2
    subst h2
    rw [hrm, Except.ok.injEq] at h3
    exact ⟨rfl, h3.symm⟩
  have hall : ∀ s ∈ [site], ∃ n md, HasMeas store proj p.fs s n md := by
    intro s hs
    simp only [List.mem_singleton] at hs
    subst hs
    exact ⟨meas, md, hhm⟩
  obtain ⟨sel, h1, h2, h3, h4, h5, h6⟩ := C30_selection store hst proj [site] p (by simp) hall
  have hnl : sel.nLevels = d.md.nLevels := by
    obtain ⟨s, hs, ⟨n, md, hm, e⟩, -⟩ := h5.1
    simp only [List.mem_singleton] at hs
    subst hs
    rw [← e, (hhm' n _ hm).2, hmd.1]
  -- the windows of a level
  have htab : ∀ (i : ℕ) (t : List SelRow) (lm : SpecLevelMeta), sel.tables[i]? = some t → d.md.levels[i]? = some lm →
      t.map SelRow.win = (List.range lm.nWins.toNat).map fun (r : ℕ) => lm.indexOffset + (r : ℤ) := by
    intro i t lm hit hlm
    obtain ⟨a1, a2, -⟩ := h6 i t hit
    refine increasing_ext a1 (range_increasing _ _) ?_
    intro g
    rw [a2]
    constructor
    · intro h
      obtain ⟨n, md, hm, -, lm', e1, e2, e3⟩ := h site (by simp)
      rw [(hhm' n _ hm).2, ← hmd.2, hlm, Option.some.injEq] at e1
      subst e1
      exact List.mem_map.mpr ⟨(g - lm.indexOffset).toNat, List.mem_range.mpr (by omega), by omega⟩
    · intro h s hs
      simp only [List.mem_singleton] at hs
      subst hs
      obtain ⟨r, hr, rfl⟩ := List.mem_map.mp h
      rw [List.mem_range] at hr
      refine ⟨meas, md, hhm, ?_, lm, by rw [← hmd.2]; exact hlm, by omega, by omega⟩
      rw [← hmd.1, ← hnl]
      exact (List.getElem?_eq_some_iff.mp hit).1
  have hread : SiteReadable store proj p.fs p.perLevel site chans := by
    intro n md' hm
    obtain ⟨rfl, rfl⟩ := hhm' n md' hm
    exact ⟨d, hrd, hmd, hsh, hnd, hch, fun lm hlm => by rw [hper lm hlm]⟩
  have hwin' : ∃ t ∈ sel.tables, t ≠ [] := by
    obtain ⟨lm, hlm, hpos⟩ := hwin
    obtain ⟨i, hi, rfl⟩ := List.mem_iff_getElem.mp hlm
    have hi' : i < sel.tables.length := by
      have : sel.tables.length = sel.nLevels := rfl
      rw [this, hnl, ← hsh.n_levels]; exact hi
    refine ⟨sel.tables[i], List.getElem_mem hi', ?_⟩
    intro h
    have := htab i _ _ (List.getElem?_eq_getElem hi') (List.getElem?_eq_getElem hi)
    rw [h] at this
    have := congrArg List.length this
    simp at this
    omega
  obtain ⟨c, k, g1, g2, ⟨g3, g4⟩, g5, g6, g7, g8, g9, g10⟩ := C31_site_data store hst proj [site] p hall site (by simp) hci chans hread
    sel h1 (by rw [hnl]; exact hlev) hwin'
  obtain ⟨q, q1, ⟨q2, q3⟩, q4, q5, q6, q7⟩ := C32_quick_site name p d hsh hnd chans hch hper
  have hmeasOf : ∀ t ∈ sel.tables, ∀ row ∈ t, row.measOf k = meas := by
    intro t ht row hr
    obtain ⟨i, hi, rfl⟩ := List.mem_iff_getElem.mp ht
    obtain ⟨md, hm, -⟩ := ((h6 i _ (List.getElem?_eq_getElem hi)).2.2 row hr).2.2 k site g2
    exact (hhm' _ _ hm).1
  refine ⟨sel, c, q, h1, g1, q1, ?_, by rw [g8, q6, hnl], by rw [g7, q4], ?_, ?_, ?_⟩
  · rw [h2, hnl] at g3
    refine dict_ext (by rw [g3, q2]) (by rw [g3]; exact List.nodup_range) ?_
    intro key hkey
    rw [g3, ← gatherKeys_eq] at hkey
    obtain ⟨⟨i, j⟩, hij, rfl⟩ := List.mem_map.mp hkey
    obtain ⟨hi, hj⟩ := mem_levelFreqs.mp hij
    simp only at hi hj ⊢
    have hi' : i < sel.tables.length := by
      have : sel.tables.length = sel.nLevels := rfl
      rw [this, hnl]; exact hi
    have hil : i < d.md.levels.length := by rw [hsh.n_levels]; exact hi
    have ht? := List.getElem?_eq_getElem hi'
    have hl? := List.getElem?_eq_getElem hil
    generalize sel.tables[i] = t at ht?
    generalize d.md.levels[i] = lm at hl?
    have hw := htab i t lm ht? hl?
    obtain ⟨rows, r1, r2, r3⟩ := g4 i j t ht? (by rw [h2]; exact hj)
    obtain ⟨rows', s1, s2, s3⟩ := q3 i j lm hl? hj
    rw [h2] at r1
    rw [r1, s1, Option.some.injEq]
    have htl : t.length = lm.nWins.toNat := by
      have := congrArg List.length hw
      simpa using this
    apply List.ext_getElem?
    intro r
    by_cases hr : r < t.length
    · obtain ⟨vals, v1, v2, d', v3, v4⟩ := r3 r t[r] (List.getElem?_eq_getElem hr)
      rw [hmeasOf t (List.mem_of_getElem? ht?) _ (List.getElem_mem hr), hrd, Except.ok.injEq] at v3
      subst v3
      obtain ⟨vals', w1, w2, w3⟩ := s3 r (by omega)
      rw [v1, w1, Option.some.injEq, Option.some.injEq]
      have hgr : t[r].win = lm.indexOffset + r := by
        have := List.getElem_of_eq hw (i := r) (by simpa using hr)
        simpa using this
      apply List.ext_getElem (by rw [v2, w2])
      intro ci hci1 hci2
      obtain ⟨x, x1, x2⟩ := v4 ci _ (List.getElem?_eq_getElem (by omega))
      obtain ⟨y, y1, y2⟩ := w3 ci _ (List.getElem?_eq_getElem (by omega))
      rw [hgr] at x2
      have := isCell_unique hnd x2 y2
      rw [List.getElem?_eq_getElem hci1, Option.some.injEq] at x1
      rw [List.getElem?_eq_getElem hci2, Option.some.injEq] at y1
      rw [x1, y1, this]
    · rw [List.getElem?_eq_none (by omega), List.getElem?_eq_none (by omega)]
  · have : q.fs = p.fs := by
      unfold quickSite at q1
      rw [except_bind_ok] at q1
      obtain ⟨_, -, q1⟩ := q1
      rw [except_bind_ok] at q1
      obtain ⟨_, -, q1⟩ := q1
      rw [except_pure_ok] at q1
      rw [← q1]
    rw [this, g6]
  · have hcm : c.measurements = sortedSet [meas] := by
      have hc : ∃ ls, c.measurements = sortedSet ls := by
        unfold getSiteData at g1
        rw [except_bind_ok] at g1
        obtain ⟨_, -, g1⟩ := g1
        rw [except_bind_ok] at g1
        obtain ⟨ms, hms, g1⟩ := g1
        rw [except_bind_ok] at g1
        obtain ⟨_, -, g1⟩ := g1
        rw [except_bind_ok] at g1
        obtain ⟨acc, -, g1⟩ := g1
        split at g1
        · simp [throw, throwThe, MonadExceptOf.throw, bind, Except.bind] at g1
        · simp only [pure_bind] at g1
          rw [except_bind_ok] at g1
          obtain ⟨_, -, g1⟩ := g1
          rw [except_pure_ok] at g1
          unfold Selection.getMeasurements at hms
          rw [except_bind_ok] at hms
          obtain ⟨_, -, hms⟩ := hms
          rw [except_pure_ok] at hms
          rw [← g1]
          exact ⟨_, hms.symm⟩
      obtain ⟨ls, hls⟩ := hc
      rw [hls]
      apply sortedSet_congr
      intro m
      have := g10 m
      rw [hls, mem_sortedSet] at this
      rw [this, List.mem_singleton]
      constructor
      · rintro ⟨t, ht, row, hr, rfl⟩
        exact hmeasOf t ht row hr
      · rintro rfl
        obtain ⟨t, ht, htn⟩ := hwin'
        obtain ⟨row, rest, rfl⟩ := List.exists_cons_of_ne_nil htn
        exact ⟨_, ht, row, by simp, hmeasOf _ ht row (by simp)⟩
    rw [hcm]; rfl
  · unfold Selection.getEvalFreqs at g9
    obtain ⟨labels, l1, l2⟩ := except_bind_ok.1 g9
    rw [h2, hnl] at l1
    rw [except_pure_ok] at l2
    exact ⟨labels, l1, l2.symm⟩

/-- **C32**. Quick gathering for a transfer function: output, input and cross data of the same windows. -/
theorem C32_quick_gather {V : Type} (name : String) (p : DecParams ℚ) (d : SpecData V) (hsh : d.Shaped)
    (hnd : d.md.chans.Nodup) (tf : TfChans) (ho : ∀ c ∈ tf.outChans, c ∈ d.md.chans)
    (hi : ∀ c ∈ tf.inChans, c ∈ d.md.chans) (hx : ∀ c ∈ tf.crossChans, c ∈ d.md.chans)
    (hper : ∀ lm ∈ d.md.levels, lm.freqs.length = p.perLevel) :
    ∃ g, quickGather name p tf d = .ok g ∧ IsQuick d p.perLevel tf.outChans g.outData.data ∧
      IsQuick d p.perLevel tf.inChans g.inData.data ∧ IsQuick d p.perLevel tf.crossChans g.crossData.data ∧
      g.outData.evalFreqs = (d.md.levels.map (·.freqs)).flatten := by
  obtain ⟨a, a1, a2, -, a3, -⟩ := C32_quick_site name p d hsh hnd tf.outChans ho hper
  obtain ⟨b, b1, b2, -⟩ := C32_quick_site name p d hsh hnd tf.inChans hi hper
  obtain ⟨c, c1, c2, -⟩ := C32_quick_site name p d hsh hnd tf.crossChans hx hper
  refine ⟨⟨a, b, c⟩, ?_, a2, b2, c2, a3⟩
  unfold quickGather
  simp only [a1, b1, c1, bind, Except.bind]; rfl

/-- two levels with two frequencies each -/
def demoTwoLevels : SpecData ℚ :=
  ⟨⟨[8, 4], ["Ex"], 2, 0, 1, [⟨8, 1, 4, 2, 0, 2, [2, 1]⟩, ⟨4, 1, 4, 2, 0, 2, [1/2, 1/4]⟩], 0, []⟩,
    [(0, [[[10, 11]]]), (1, [[[20, 21]]])]⟩

/-- **C32**. The frequency count per level matters: when levels hold more frequencies than the parameters say, data of
one level silently replace those of another. -/
theorem C32_too_many_frequencies_collide :
    (quickSite "m" ⟨8, 2, 1, 1, [2, 1/2], [1, 2], [1, 2], [8, 4]⟩ demoTwoLevels ["Ex"]).map (·.data) =
      .ok [(0, [some [10]]), (1, [some [20]]), (2, [some [21]])] := by
  decide +kernel

example : (quickSite "m" ⟨8, 2, 2, 1, [2, 1, 1/2, 1/4], [1, 2], [1, 2], [8, 4]⟩ demoTwoLevels ["Ex"]).map (·.data) =
      .ok [(0, [some [10]]), (1, [some [11]]), (2, [some [20]]), (3, [some [21]])] := by
  decide +kernel

/-- the hypotheses of C32 hold for a concrete site -/
example : ∃ c q, (∃ sel, selectorRun ⟨fun _ _ => .ok (demoEvalMeta ["Ex"] 3 2), fun _ _ => .ok (demoEvals ["Ex"] 3 [[[10, 11]], [[20, 21]]])⟩
      ⟨[("S", [("m1", 8)])]⟩ ["S"] demoDecP = .ok sel ∧
      getSiteData (⟨fun _ _ => .ok (demoEvalMeta ["Ex"] 3 2), fun _ _ => .ok (demoEvals ["Ex"] 3 [[[10, 11]], [[20, 21]]])⟩ : EvalStore ℚ)
        ⟨[("S", [("m1", 8)])]⟩ sel "S" ["Ex"] = .ok c) ∧
      quickSite "m1" demoDecP (demoEvals ["Ex"] 3 [[[10, 11]], [[20, 21]]]) ["Ex"] = .ok q ∧ c.data = q.data := by
  obtain ⟨sel, c, q, h1, h2, h3, h4, -⟩ := C32_agrees
    (⟨fun _ _ => .ok (demoEvalMeta ["Ex"] 3 2), fun _ _ => .ok (demoEvals ["Ex"] 3 [[[10, 11]], [[20, 21]]])⟩ : EvalStore ℚ)
    ⟨[("S", [("m1", 8)])]⟩ demoDecP "S" "m1" (by decide) _ rfl (by simp [demoDecP]) (demoEvals ["Ex"] 3 [[[10, 11]], [[20, 21]]])
    (by
      intro s n md h
      simp only [Except.ok.injEq] at h
      subst h; rfl) rfl _ rfl ⟨rfl, rfl⟩
    (demoEvals_shaped _ _ _ (by decide)) (by simp [demoEvals, demoEvalMeta]) ["Ex"] (by simp [demoEvals, demoEvalMeta])
    (by intro lm hlm; simp only [demoEvals, demoEvalMeta, List.mem_singleton] at hlm; subst hlm; rfl)
    (by decide) ⟨_, List.mem_singleton.mpr rfl, by decide⟩ "m1"
  exact ⟨c, q, ⟨sel, h1, h2⟩, h3, h4⟩

end Resistics
