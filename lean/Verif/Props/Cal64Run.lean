import Verif.Props.Cal64
import Verif.Props.Eval64Run

/-!
# C88: the calibrator in floating point numbers
-/

namespace Resistics

open Complex (I exp)

theorem calResponseAtF_table (cis : ℚ → ℚ × ℚ) {c : CalData} (ht : c.Table) (f : ℚ) :
    ∃ m p, calResponseAtF cis c f = .ok (fl (m * (cis p).1), fl (m * (cis p).2)) ∧ calInterpF c.frequency c.magnitude f = .ok m ∧
      calInterpF c.frequency c.phase f = .ok p ∧ IsTableF c.frequency c.magnitude f m ∧ IsTableF c.frequency c.phase f p := by
  have h0 : 0 < c.frequency.length := List.length_pos_iff.2 ht.ne
  obtain ⟨m, h1, h2⟩ := C83_calibration c.frequency c.magnitude ht.inc h0 ht.mag.symm f
  obtain ⟨p, h3, h4⟩ := C83_calibration c.frequency c.phase ht.inc h0 ht.phs.symm f
  refine ⟨m, p, ?_, h1, h3, h2, h4⟩
  unfold calResponseAtF
  rw [h1, h3]
  rfl

/-- Division of one channel of a level. -/
def divLevelF (t : NumType) (tf : List (ℚ × ℚ)) (i : ℕ) (arr : SpecArr (ℚ × ℚ)) : SpecArr (ℚ × ℚ) :=
  arr.map fun win => win.set i (List.zipWith (fun x h => storeF t (divF x h)) (win.getD i []) tf)

theorem calibrateWinF_ok {t : NumType} {tf : List (ℚ × ℚ)} {i : ℕ} {n : ℕ} {win : List (List (ℚ × ℚ))} (hi : i < win.length)
    (hrow : ∀ row ∈ win, row.length = tf.length) (h1 : tf.length = 1 → n = 1) :
    calibrateWinF t tf (i : ℤ) n win = .ok (win.set i (List.zipWith (fun x h => storeF t (divF x h)) (win.getD i []) tf)) := by
  have hr : (win[i]).length = tf.length := hrow _ (List.getElem_mem hi)
  unfold calibrateWinF
  rw [pyIndex_natCast _ _ hi]
  simp only [bind, Except.bind]
  rw [if_neg (by rintro ⟨h, _⟩; exact h hr.symm), if_neg (by rintro ⟨h, h'⟩; exact h' (h1 (hr ▸ h)))]
  rw [if_pos hr.symm]
  simp only [Int.toNat_natCast, List.getD_eq_getElem?_getD, List.getElem?_eq_getElem hi, Option.getD_some]
  rfl

theorem calibrateLevelF_ok {t : ℕ → NumType} {cis : ℚ → ℚ × ℚ} {c : CalData} {md : SpecMeta} {data : List (ℕ × SpecArr (ℚ × ℚ))}
    (hs : ShapedData md data) {i k : ℕ} (hi : i < md.chans.length) (hk : k < md.nLevels) {lm : SpecLevelMeta}
    (hlm : md.levels[k]? = some lm) {tf : List (ℚ × ℚ)} (htf : calResponseF cis c lm.freqs = .ok tf) :
    calibrateLevelF t cis c md.levels (i : ℤ) data k =
      .ok (data.map fun q => if q.1 = k then (q.1, divLevelF (t k) tf i q.2) else q) := by
  obtain ⟨lm', arr, hlm', hmem, hsh, hone⟩ := hs.level k hk
  rw [hlm] at hlm'
  cases hlm'
  have htl : tf.length = lm.freqs.length := mapM_ok_length htf
  unfold calibrateLevelF
  have hidx : pyIndex md.levels ((k : ℕ) : ℤ) = .ok lm := by
    have hkl := (List.getElem?_eq_some_iff.1 hlm).1
    rw [pyIndex_natCast _ _ hkl, (List.getElem?_eq_some_iff.1 hlm).2]
  have hget : dictGet data k = .ok arr := by
    unfold dictGet
    rw [lookup_of_nodup hs.keys hmem]
  have hmap : arr.mapM (calibrateWinF (t k) tf (i : ℤ) arr.length) = .ok (divLevelF (t k) tf i arr) := by
    unfold divLevelF
    apply mapM_ok_map
    intro win hwin
    obtain ⟨h1, h2⟩ := hsh win hwin
    exact calibrateWinF_ok (by rw [h1]; exact hi) (fun row hr => by rw [h2 row hr, htl])
      (fun h => hone (htl ▸ h))
  rw [hidx]
  simp only [bind, Except.bind, hget, htf, hmap]
  show Except.ok _ = _
  congr 1
  apply List.map_congr_left
  rintro ⟨k', b⟩ hq
  simp only
  split
  · rename_i h
    subst h
    rw [nodup_keys_unique hs.keys hq hmem]
  · rfl

theorem shapedF_map (t : ℕ → NumType) {md : SpecMeta} {data : List (ℕ × SpecArr (ℚ × ℚ))} (hs : ShapedData md data) (i : ℕ)
    (tf : ℕ → List (ℚ × ℚ)) (P : ℕ → Prop) [DecidablePred P]
    (htf : ∀ k lm, P k → md.levels[k]? = some lm → (tf k).length = lm.freqs.length) :
    ShapedData md (data.map fun q => if P q.1 then (q.1, divLevelF (t q.1) (tf q.1) i q.2) else q) := by
  constructor
  · rw [List.map_map]
    have : ((fun x : ℕ × SpecArr (ℚ × ℚ) => x.1) ∘ fun q => if P q.1 then (q.1, divLevelF (t q.1) (tf q.1) i q.2) else q) =
        fun x => x.1 := by
      funext q
      simp only [Function.comp]
      split <;> rfl
    rw [this]
    exact hs.keys
  · intro k hk
    obtain ⟨lm, arr, h1, h2, h3, h4⟩ := hs.level k hk
    by_cases hP : P k
    · refine ⟨lm, divLevelF (t k) (tf k) i arr, h1, List.mem_map.2 ⟨_, h2, by simp [hP]⟩, ?_, ?_⟩
      · intro win hwin
        obtain ⟨w, hw, rfl⟩ := List.mem_map.1 hwin
        obtain ⟨h5, h6⟩ := h3 w hw
        refine ⟨by simpa using h5, ?_⟩
        intro row hrow
        by_cases hi : i < w.length
        · rcases List.mem_or_eq_of_mem_set hrow with h | rfl
          · exact h6 row h
          · rw [List.length_zipWith, List.getD_eq_getElem?_getD, List.getElem?_eq_getElem hi, Option.getD_some,
              h6 _ (List.getElem_mem hi), htf k lm hP h1, Nat.min_self]
        · rw [List.set_eq_of_length_le (by omega)] at hrow
          exact h6 row hrow
      · intro h
        unfold divLevelF
        rw [List.length_map]
        exact h4 h
    · exact ⟨lm, arr, h1, List.mem_map.2 ⟨_, h2, by simp [hP]⟩, h3, h4⟩

theorem calibrateLevelsF_ok {t : ℕ → NumType} {cis : ℚ → ℚ × ℚ} {c : CalData} {md : SpecMeta} {data : List (ℕ × SpecArr (ℚ × ℚ))}
    (hs : ShapedData md data) {i : ℕ} (hi : i < md.chans.length) {tf : ℕ → List (ℚ × ℚ)}
    (htf : ∀ k lm, k < md.nLevels → md.levels[k]? = some lm → calResponseF cis c lm.freqs = .ok (tf k)) (n : ℕ)
    (hn : n ≤ md.nLevels) :
    (List.range n).foldlM (calibrateLevelF t cis c md.levels (i : ℤ)) data =
      .ok (data.map fun q => if q.1 < n then (q.1, divLevelF (t q.1) (tf q.1) i q.2) else q) := by
  induction n with
  | zero => simp only [List.range_zero, List.foldlM_nil, Nat.not_lt_zero, if_false, List.map_id']; rfl
  | succ n ih =>
    rw [List.range_succ, List.foldlM_append, ih (by omega)]
    have hs' := shapedF_map t hs i tf (fun k => k < n) fun k lm hk hlm =>
      mapM_ok_length (htf k lm (by omega) hlm)
    obtain ⟨lm, _, hlm, _⟩ := hs.level n (by omega)
    show (List.foldlM (calibrateLevelF t cis c md.levels (i : ℤ)) _ [n] : Except Err (List (ℕ × SpecArr (ℚ × ℚ)))) = _
    rw [List.foldlM_cons, calibrateLevelF_ok hs' hi (by omega) hlm (htf n lm (by omega) hlm)]
    show Except.ok _ = _
    congr 1
    rw [List.map_map]
    apply List.map_congr_left
    rintro ⟨k, b⟩ _
    simp only [Function.comp]
    by_cases h1 : k < n
    · simp only [h1, if_true]
      rw [if_neg (by omega), if_pos (by omega)]
    · simp only [h1, if_false]
      by_cases h2 : k = n
      · subst h2; simp
      · rw [if_neg h2, if_neg (by omega)]

/-- The response at the frequencies of a level. -/
def respOfF (cis : ℚ → ℚ × ℚ) (md : SpecMeta) (c : CalData) (k : ℕ) : List (ℚ × ℚ) :=
  match md.levels[k]? with
  | some lm => (calResponseF cis c lm.freqs).toOption.getD []
  | none => []

/-- A level after the calibration of one channel. -/
def stepLevelF (t : ℕ → NumType) (cis : ℚ → ℚ × ℚ) (md : SpecMeta) (get : String → Option CalData) (k : ℕ) (arr : SpecArr (ℚ × ℚ))
    (ch : String) : SpecArr (ℚ × ℚ) :=
  match get ch with
  | none => arr
  | some c => divLevelF (t k) (respOfF cis md c k) (md.chans.idxOf ch) arr

theorem table_responseF {cis : ℚ → ℚ × ℚ} {c : CalData} (ht : c.Table) (freqs : List ℚ) :
    ∃ tf, calResponseF cis c freqs = .ok tf := by
  unfold calResponseF
  refine ⟨freqs.map fun f => (calResponseAtF cis c f).toOption.getD (0, 0), mapM_ok_map fun f _ => ?_⟩
  obtain ⟨m, p, hz, -⟩ := calResponseAtF_table cis ht f
  rw [hz]; rfl

theorem respOfF_eq {cis : ℚ → ℚ × ℚ} {md : SpecMeta} {c : CalData} (ht : c.Table) {k : ℕ} {lm : SpecLevelMeta}
    (hlm : md.levels[k]? = some lm) : calResponseF cis c lm.freqs = .ok (respOfF cis md c k) := by
  obtain ⟨tf, htf⟩ := table_responseF (cis := cis) ht lm.freqs
  unfold respOfF
  rw [hlm]
  simp only [htf]
  rfl

theorem calibrateChansF_ok {t : ℕ → NumType} {cis : ℚ → ℚ × ℚ} {md : SpecMeta} (hnd : md.chans.Nodup) {get : String → Option CalData}
    (cs : List String) (hcs : ∀ c ∈ cs, c ∈ md.chans) (ht : ∀ ch ∈ cs, ∀ c, get ch = some c → c.Table)
    (data : List (ℕ × SpecArr (ℚ × ℚ))) (hs : ShapedData md data) :
    cs.foldlM (calibrateChanF t cis md get) data = .ok (data.map fun q =>
      if q.1 < md.nLevels then (q.1, cs.foldl (stepLevelF t cis md get q.1) q.2) else q) := by
  induction cs generalizing data with
  | nil =>
    have : (fun q : ℕ × SpecArr (ℚ × ℚ) => if q.1 < md.nLevels then (q.1, q.2) else q) = fun q => q := by
      funext q; split <;> rfl
    simp only [List.foldlM_nil, List.foldl_nil, this, List.map_id']
    rfl
  | cons ch cs ih =>
    have hcs' : ∀ c ∈ cs, c ∈ md.chans := fun c hc => hcs c (by simp [hc])
    have ht' : ∀ ch ∈ cs, ∀ c, get ch = some c → c.Table := fun x hx => ht x (by simp [hx])
    rw [List.foldlM_cons]
    cases hget : get ch with
    | none =>
      have hstep : calibrateChanF t cis md get data ch = .ok data := by unfold calibrateChanF; rw [hget]
      rw [hstep]
      show (cs.foldlM (calibrateChanF t cis md get) data : Except Err (List (ℕ × SpecArr (ℚ × ℚ)))) = _
      rw [ih hcs' ht' data hs]
      congr 1
      apply List.map_congr_left
      rintro ⟨k, b⟩ _
      simp only [List.foldl_cons]
      have : stepLevelF t cis md get k b ch = b := by unfold stepLevelF; rw [hget]
      rw [this]
    | some c =>
      have htc := ht ch (by simp) c hget
      have hch := hcs ch (by simp)
      have hlt := List.idxOf_lt_length_of_mem hch
      have hstep : calibrateChanF t cis md get data ch = .ok (data.map fun q => if q.1 < md.nLevels then
          (q.1, divLevelF (t q.1) (respOfF cis md c q.1) (md.chans.idxOf ch) q.2) else q) := by
        unfold calibrateChanF
        rw [hget]
        simp only [listIndex_idxOf hnd hch, bind, Except.bind]
        exact calibrateLevelsF_ok hs hlt (tf := respOfF cis md c) (fun k lm _ hlm => respOfF_eq htc hlm) md.nLevels
          (le_refl _)
      rw [hstep]
      show (cs.foldlM (calibrateChanF t cis md get) _ : Except Err (List (ℕ × SpecArr (ℚ × ℚ)))) = _
      have hs' := shapedF_map t hs (md.chans.idxOf ch) (respOfF cis md c) (fun k => k < md.nLevels)
        fun k lm _ hlm => mapM_ok_length (respOfF_eq htc hlm)
      rw [ih hcs' ht' _ hs']
      congr 1
      rw [List.map_map]
      apply List.map_congr_left
      rintro ⟨k, b⟩ _
      simp only [Function.comp, List.foldl_cons]
      by_cases hk : k < md.nLevels
      · simp only [hk, if_true]
        have : stepLevelF t cis md get k b ch = divLevelF (t k) (respOfF cis md c k) (md.chans.idxOf ch) b := by
          unfold stepLevelF; rw [hget]
        rw [this]
      · simp only [hk, if_false]

/-- One row after calibration. -/
def calRowF (t : ℕ → NumType) (cis : ℚ → ℚ × ℚ) (md : SpecMeta) (get : String → Option CalData) (cs : List String) (k : ℕ) (ch : String)
    (row : List (ℚ × ℚ)) : List (ℚ × ℚ) :=
  if ch ∈ cs then (match get ch with
    | none => row
    | some c => List.zipWith (fun x h => storeF (t k) (divF x h)) row (respOfF cis md c k)) else row

theorem foldl_stepLevelF {t : ℕ → NumType} {cis : ℚ → ℚ × ℚ} {md : SpecMeta} (hnd : md.chans.Nodup) {get : String → Option CalData}
    (cs : List String) (hcn : cs.Nodup) (hcs : ∀ c ∈ cs, c ∈ md.chans) (k : ℕ) (arr : SpecArr (ℚ × ℚ)) :
    (cs.foldl (stepLevelF t cis md get k) arr).length = arr.length ∧ ∀ (w : ℕ) (win : List (List (ℚ × ℚ))),
      arr[w]? = some win → ∃ win', (cs.foldl (stepLevelF t cis md get k) arr)[w]? = some win' ∧
        win'.length = win.length ∧ ∀ (i : ℕ) (ch : String) (row : List (ℚ × ℚ)), md.chans[i]? = some ch →
          win[i]? = some row → win'[i]? = some (calRowF t cis md get cs k ch row) := by
  induction cs generalizing arr with
  | nil =>
    refine ⟨rfl, fun w win hw => ⟨win, hw, rfl, fun i ch row _ hr => ?_⟩⟩
    simpa [calRowF] using hr
  | cons c0 cs ih =>
    rw [List.nodup_cons] at hcn
    have hcs' : ∀ c ∈ cs, c ∈ md.chans := fun c hc => hcs c (by simp [hc])
    rw [List.foldl_cons]
    obtain ⟨h1, h2⟩ := ih hcn.2 hcs' (stepLevelF t cis md get k arr c0)
    cases hget : get c0 with
    | none =>
      have hst : stepLevelF t cis md get k arr c0 = arr := by unfold stepLevelF; rw [hget]
      rw [hst] at h1 h2 ⊢
      refine ⟨h1, fun w win hw => ?_⟩
      obtain ⟨win', h3, h4, h5⟩ := h2 w win hw
      refine ⟨win', h3, h4, fun i ch row hch hr => ?_⟩
      rw [h5 i ch row hch hr]
      congr 1
      unfold calRowF
      by_cases he : ch = c0
      · subst he
        simp [hget, hcn.1]
      · simp [he]
    | some c =>
      have hst : stepLevelF t cis md get k arr c0 = divLevelF (t k) (respOfF cis md c k) (md.chans.idxOf c0) arr := by
        unfold stepLevelF; rw [hget]
      rw [hst] at h1 h2 ⊢
      refine ⟨by rw [h1]; simp [divLevelF], fun w win hw => ?_⟩
      have hw' : (divLevelF (t k) (respOfF cis md c k) (md.chans.idxOf c0) arr)[w]? =
          some (win.set (md.chans.idxOf c0) (List.zipWith (fun x h => storeF (t k) (divF x h)) (win.getD (md.chans.idxOf c0) [])
            (respOfF cis md c k))) := by
        unfold divLevelF
        rw [List.getElem?_map, hw]
        rfl
      obtain ⟨win', h3, h4, h5⟩ := h2 w _ hw'
      refine ⟨win', h3, by simpa using h4, fun i ch row hch hr => ?_⟩
      have hmem := hcs c0 (by simp)
      by_cases he : ch = c0
      · subst he
        have hi : md.chans.idxOf ch = i := by
          obtain ⟨hlt, hgi⟩ := List.getElem?_eq_some_iff.1 hch
          rw [← hgi]
          exact List.Nodup.idxOf_getElem hnd i hlt
        have hir : i < win.length := (List.getElem?_eq_some_iff.1 hr).1
        have hrow' : (win.set (md.chans.idxOf ch) (List.zipWith (fun x h => storeF (t k) (divF x h)) (win.getD (md.chans.idxOf ch) [])
            (respOfF cis md c k)))[i]? = some (List.zipWith (fun x h => storeF (t k) (divF x h)) row (respOfF cis md c k)) := by
          rw [hi, List.getElem?_set_self (by omega), List.getD_eq_getElem?_getD, hr]
          rfl
        rw [h5 i ch _ hch hrow']
        congr 1
        unfold calRowF
        simp [hcn.1, hget]
      · have hi : md.chans.idxOf c0 ≠ i := by
          intro h
          subst h
          rw [List.getElem?_eq_getElem (List.idxOf_lt_length_of_mem hmem), List.getElem_idxOf] at hch
          exact he (Option.some.inj hch).symm
        have hrow' : (win.set (md.chans.idxOf c0) (List.zipWith (fun x h => storeF (t k) (divF x h)) (win.getD (md.chans.idxOf c0) [])
            (respOfF cis md c k)))[i]? = some row := by
          rw [List.getElem?_set_ne hi, hr]
        rw [h5 i ch _ hch hrow']
        congr 1
        unfold calRowF
        simp [he]

/-- what the calibrator returns -/
theorem sensorCalibrateF_run (t : ℕ → NumType) (cis : ℚ → ℚ × ℚ) (sel : Option (List String))
    (get : String → Option CalData) (d : SpecData (ℚ × ℚ)) (hs : d.CalShaped) (hnd : d.md.chans.Nodup)
    (hsel : ∀ l, sel = some l → l.Nodup)
    (ht : ∀ ch ∈ d.md.chans, (∀ l, sel = some l → ch ∈ l) → ∀ c, get ch = some c → c.Table)
    (hone : ∀ k < d.md.nLevels, ∀ lm arr, d.md.levels[k]? = some lm → (k, arr) ∈ d.data → lm.freqs.length = 1 →
      arr.length = 1) :
    ∃ out, sensorCalibrateF t cis sel get d = .ok out ∧
      out.md = { d.md with history := d.md.history ++ ["SensorCalibrator"] } ∧
      out.data.map (·.1) = d.data.map (·.1) ∧
      ∀ k arr, (k, arr) ∈ d.data → (d.md.nLevels ≤ k → (k, arr) ∈ out.data) ∧
        (∀ lm, k < d.md.nLevels → d.md.levels[k]? = some lm → ∃ arr', (k, arr') ∈ out.data ∧ arr'.length = arr.length ∧
          ∀ (w : ℕ) (win : List (List (ℚ × ℚ))), arr[w]? = some win → ∃ win', arr'[w]? = some win' ∧
            win'.length = win.length ∧ ∀ (i : ℕ) (ch : String) (row : List (ℚ × ℚ)), d.md.chans[i]? = some ch →
              win[i]? = some row → ∃ row', win'[i]? = some row' ∧ row'.length = row.length ∧
                ((∀ c, (∀ l, sel = some l → ch ∈ l) → get ch = some c → ∀ (j : ℕ) (x : (ℚ × ℚ)) (f : ℚ), row[j]? = some x →
                  lm.freqs[j]? = some f → ∃ m p, calInterpF c.frequency c.magnitude f = .ok m ∧ calInterpF c.frequency c.phase f = .ok p ∧
                    row'[j]? = some (storeF (t k) (divF x (fl (m * (cis p).1), fl (m * (cis p).2))))) ∧
                ((∃ l, sel = some l ∧ ch ∉ l) ∨ get ch = none → row' = row))) := by
  set cs := calChans sel d.md.chans with hcsdef
  have hcsmem : ∀ ch, ch ∈ cs ↔ ch ∈ d.md.chans ∧ ∀ l, sel = some l → ch ∈ l := by
    intro ch
    rw [hcsdef]
    unfold calChans
    cases sel with
    | none => simp
    | some l =>
      simp only [List.mem_filter, decide_eq_true_eq, Option.some.injEq]
      exact ⟨fun h => ⟨h.2, fun l' hl => hl ▸ h.1⟩, fun h => ⟨h.2 l rfl, h.1⟩⟩
  have hcn : cs.Nodup := by
    rw [hcsdef]
    unfold calChans
    cases hse : sel with
    | none => exact hnd
    | some l => exact (hsel l hse).filter _
  have hcs : ∀ c ∈ cs, c ∈ d.md.chans := fun c hc => ((hcsmem c).1 hc).1
  have htab : ∀ ch ∈ cs, ∀ c, get ch = some c → c.Table := fun ch hch c hc =>
    ht ch ((hcsmem ch).1 hch).1 ((hcsmem ch).1 hch).2 c hc
  have hshd : ShapedData d.md d.data := by
    refine ⟨hs.keys, fun k hk => ?_⟩
    obtain ⟨lm, arr, h1, h2, h3⟩ := hs.level k hk
    exact ⟨lm, arr, h1, h2, h3, hone k hk lm arr h1 h2⟩
  have hrun := calibrateChansF_ok (t := t) (cis := cis) hnd (get := get) cs hcs htab d.data hshd
  set data' := d.data.map fun q => if q.1 < d.md.nLevels then
    (q.1, cs.foldl (stepLevelF t cis d.md get q.1) q.2) else q with hdata'
  have hkeys : data'.map (·.1) = d.data.map (·.1) := by
    rw [hdata', List.map_map]
    apply List.map_congr_left
    intro q _
    simp only [Function.comp]
    split <;> rfl
  have h0 : (data'.lookup 0).isSome = true := by
    have : ∀ l : List (ℕ × SpecArr (ℚ × ℚ)), (l.lookup 0).isSome = true ↔ 0 ∈ l.map (·.1) := by
      intro l
      induction l with
      | nil => simp
      | cons q l ih =>
        rw [List.lookup_cons, List.map_cons, List.mem_cons]
        by_cases hq : 0 = q.1
        · have hb : ((0 : ℕ) == q.1) = true := by simpa using hq
          rw [hb]; simp [hq]
        · have hb : ((0 : ℕ) == q.1) = false := by simpa using hq
          rw [hb, ih]; simp [hq]
    rw [this, hkeys, ← this]
    exact hs.zero
  refine ⟨{ md := { d.md with history := d.md.history ++ ["SensorCalibrator"] }, data := data' }, ?_, rfl, hkeys, ?_⟩
  · unfold sensorCalibrateF
    rw [hrun]
    show mkSpecData _ _ = _
    unfold mkSpecData dictGet
    cases hl : data'.lookup 0 with
    | none => rw [hl] at h0; cases h0
    | some x => rfl
  · intro k arr hmem
    refine ⟨fun hk => List.mem_map.2 ⟨_, hmem, by simp only; rw [if_neg (by omega)]⟩, ?_⟩
    intro lm hk hlm
    obtain ⟨hlen, hwin⟩ := foldl_stepLevelF (t := t) (cis := cis) hnd (get := get) cs hcn hcs k arr
    refine ⟨_, List.mem_map.2 ⟨_, hmem, by simp only; rw [if_pos hk]⟩, hlen, ?_⟩
    intro w win hw
    obtain ⟨win', h1, h2, h3⟩ := hwin w win hw
    refine ⟨win', h1, h2, ?_⟩
    intro i ch row hch hr
    have hchm : ch ∈ d.md.chans := List.mem_of_getElem? hch
    have hrl : row.length = lm.freqs.length := by
      obtain ⟨lm', arr', h4, h5, h6⟩ := hs.level k hk
      rw [hlm] at h4
      cases h4
      rw [nodup_keys_unique hs.keys h5 hmem] at h6
      exact (h6 win (List.mem_of_getElem? hw)).2 row (List.mem_of_getElem? hr)
    refine ⟨_, h3 i ch row hch hr, ?_, ?_, ?_⟩
    · unfold calRowF
      split
      · rename_i hin
        cases hg : get ch with
        | none => rfl
        | some c =>
          simp only
          rw [List.length_zipWith, mapM_ok_length (respOfF_eq (cis := cis) (htab ch hin c hg) hlm), hrl, Nat.min_self]
      · rfl
    · intro c hsel' hg j x f hx hf
      have hin : ch ∈ cs := (hcsmem ch).2 ⟨hchm, hsel'⟩
      have hresp := respOfF_eq (cis := cis) (htab ch hin c hg) hlm
      obtain ⟨hjf, hf'⟩ := List.getElem?_eq_some_iff.1 hf
      have hjr : j < (respOfF cis d.md c k).length := by rw [mapM_ok_length hresp]; exact hjf
      have hz := mapM_ok_getElem hresp j hjf hjr
      rw [hf'] at hz
      obtain ⟨m, p, hz1, hm, hp, -⟩ := calResponseAtF_table cis (htab ch hin c hg) f
      rw [hz1] at hz
      rw [Except.ok.injEq] at hz
      refine ⟨m, p, hm, hp, ?_⟩
      rw [hz]
      unfold calRowF
      rw [if_pos hin, hg]
      simp only
      rw [List.getElem?_zipWith, hx, List.getElem?_eq_getElem hjr]
    · intro hno
      unfold calRowF
      rcases hno with ⟨l, hl, hnot⟩ | hg
      · rw [if_neg]
        intro hin
        exact hnot (((hcsmem ch).1 hin).2 l hl)
      · split
        · rw [hg]
        · rfl

theorem calibrateWinF_cases {t : NumType} {tf : List (ℚ × ℚ)} {i : ℕ} {n : ℕ} {win : List (List (ℚ × ℚ))} (hi : i < win.length)
    (hrow : ∀ row ∈ win, row.length = tf.length) :
    calibrateWinF t tf (i : ℤ) n win = .error .value ∨
      calibrateWinF t tf (i : ℤ) n win = .ok (win.set i (List.zipWith (fun x h => storeF t (divF x h)) (win.getD i []) tf)) := by
  by_cases h1 : tf.length = 1 → n = 1
  · exact Or.inr (calibrateWinF_ok hi hrow h1)
  · left
    push Not at h1
    have hr : (win[i]).length = tf.length := hrow _ (List.getElem_mem hi)
    unfold calibrateWinF
    rw [pyIndex_natCast _ _ hi]
    simp only [bind, Except.bind]
    rw [if_neg (by rintro ⟨h, _⟩; exact h hr.symm), if_pos ⟨hr.trans h1.1, h1.2⟩]
    rfl

theorem calibrateWinF_refused {t : NumType} {tf : List (ℚ × ℚ)} {i : ℕ} {n : ℕ} {win : List (List (ℚ × ℚ))} (hi : i < win.length)
    (hrow : ∀ row ∈ win, row.length = tf.length) (h1 : tf.length = 1) (hn : n ≠ 1) :
    calibrateWinF t tf (i : ℤ) n win = .error .value := by
  have hr : (win[i]).length = tf.length := hrow _ (List.getElem_mem hi)
  unfold calibrateWinF
  rw [pyIndex_natCast _ _ hi]
  simp only [bind, Except.bind]
  rw [if_neg (by rintro ⟨h, _⟩; exact h hr.symm), if_pos ⟨hr.trans h1, hn⟩]
  rfl

theorem calibrateLevelF_step {t : ℕ → NumType} {cis : ℚ → ℚ × ℚ} {c : CalData} (ht : c.Table) {md : SpecMeta} {k₀ : ℕ}
    {data : List (ℕ × SpecArr (ℚ × ℚ))} (hs : ShapedBut md k₀ data) {i k : ℕ} (hi : i < md.chans.length)
    (hk : k < md.nLevels) :
    (calibrateLevelF t cis c md.levels (i : ℤ) data k = .error .value ∨
      ∃ data', calibrateLevelF t cis c md.levels (i : ℤ) data k = .ok data' ∧ ShapedBut md k₀ data') ∧
    (k = k₀ → (∀ lm, md.levels[k]? = some lm → lm.freqs.length = 1) →
      calibrateLevelF t cis c md.levels (i : ℤ) data k = .error .value) := by
  obtain ⟨lm, arr, hlm, hmem, hsh⟩ := hs.level k hk
  obtain ⟨tf, htf⟩ := table_responseF (cis := cis) ht lm.freqs
  have htl : tf.length = lm.freqs.length := mapM_ok_length htf
  have hidx : pyIndex md.levels ((k : ℕ) : ℤ) = .ok lm := by
    have hkl := (List.getElem?_eq_some_iff.1 hlm).1
    rw [pyIndex_natCast _ _ hkl, (List.getElem?_eq_some_iff.1 hlm).2]
  have hget : dictGet data k = .ok arr := by
    unfold dictGet
    rw [lookup_of_nodup hs.keys hmem]
  constructor
  · have hmap := mapM_cases (f := calibrateWinF (t k) tf (i : ℤ) arr.length) (e := .value)
      (g := fun win => win.set i (List.zipWith (fun x h => storeF (t k) (divF x h)) (win.getD i []) tf)) (l := arr)
      (fun win hwin => calibrateWinF_cases (by rw [(hsh win hwin).1]; exact hi)
        (fun row hr => by rw [(hsh win hwin).2 row hr, htl]))
    unfold calibrateLevelF
    rcases hmap with hmap | hmap
    · left
      rw [hidx]
      simp only [bind, Except.bind, hget, htf, hmap]
    · right
      refine ⟨data.map fun q => if q.1 = k then (q.1, divLevelF (t k) tf i q.2) else q, ?_, ?_, ?_, ?_⟩
      · rw [hidx]
        simp only [bind, Except.bind, hget, htf, hmap]
        show Except.ok _ = _
        congr 1
        apply List.map_congr_left
        rintro ⟨k', b⟩ hq
        simp only
        split
        · rename_i h
          subst h
          rw [nodup_keys_unique hs.keys hq hmem]
          rfl
        · rfl
      · rw [List.map_map]
        have : ((fun x : ℕ × SpecArr (ℚ × ℚ) => x.1) ∘ fun q => if q.1 = k then (q.1, divLevelF (t k) tf i q.2) else q) =
            fun x => x.1 := by
          funext q
          simp only [Function.comp]
          split <;> rfl
        rw [this]
        exact hs.keys
      · intro k' hk'
        obtain ⟨lm', arr', h1, h2, h3⟩ := hs.level k' hk'
        by_cases hkk : k' = k
        · subst hkk
          refine ⟨lm', divLevelF (t k') tf i arr', h1, List.mem_map.2 ⟨_, h2, by simp⟩, ?_⟩
          intro win hwin
          obtain ⟨w, hw, rfl⟩ := List.mem_map.1 hwin
          obtain ⟨h5, h6⟩ := h3 w hw
          refine ⟨by simpa using h5, ?_⟩
          rw [hlm] at h1
          cases h1
          intro row hrow
          rcases List.mem_or_eq_of_mem_set hrow with h | rfl
          · exact h6 row h
          · have hiw : i < w.length := by omega
            rw [List.length_zipWith, List.getD_eq_getElem?_getD, List.getElem?_eq_getElem hiw, Option.getD_some,
              h6 _ (List.getElem_mem hiw), htl, Nat.min_self]
        · exact ⟨lm', arr', h1, List.mem_map.2 ⟨_, h2, by simp [hkk]⟩, h3⟩
      · intro arr' harr'
        obtain ⟨⟨k', b⟩, hb, he⟩ := List.mem_map.1 harr'
        simp only at he
        split at he
        · cases he
          unfold divLevelF
          rw [List.length_map]
          exact hs.many _ hb
        · cases he
          exact hs.many _ hb
  · rintro rfl hone
    have h1 : tf.length = 1 := by rw [htl]; exact hone lm hlm
    have hlen := hs.many arr hmem
    have hmap : arr.mapM (calibrateWinF (t k) tf (i : ℤ) arr.length) = .error .value := by
      cases harr : arr with
      | nil => rw [harr] at hlen; simp at hlen
      | cons win rest =>
        rw [List.mapM_cons]
        have hw : win ∈ arr := by rw [harr]; simp
        rw [calibrateWinF_refused (by rw [(hsh win hw).1]; exact hi)
          (fun row hr => by rw [(hsh win hw).2 row hr, htl]) h1 (by rw [← harr]; omega)]
        rfl
    unfold calibrateLevelF
    rw [hidx]
    simp only [bind, Except.bind, hget, htf, hmap]

/-- **C88**. The condition on single frequencies is needed: data that fit their metadata but have a level of a
single frequency and more than one window are refused with a `ValueError` as soon as some selected channel has
calibration data. -/
theorem C88_single_frequency_refused (t : ℕ → NumType) (cis : ℚ → ℚ × ℚ) (sel : Option (List String)) (get : String → Option CalData)
    (d : SpecData (ℚ × ℚ)) (hs : d.CalShaped) (hnd : d.md.chans.Nodup)
    (ht : ∀ ch ∈ d.md.chans, (∀ l, sel = some l → ch ∈ l) → ∀ c, get ch = some c → c.Table)
    (ch : String) (hch : ch ∈ d.md.chans) (hsel : ∀ l, sel = some l → ch ∈ l) (hget : get ch ≠ none)
    (k : ℕ) (hk : k < d.md.nLevels) (lm : SpecLevelMeta) (arr : SpecArr (ℚ × ℚ)) (hlm : d.md.levels[k]? = some lm)
    (harr : (k, arr) ∈ d.data) (hone : lm.freqs.length = 1) (hmany : 1 < arr.length) :
    sensorCalibrateF t cis sel get d = .error .value := by
  have hcsmem : ∀ c, c ∈ calChans sel d.md.chans ↔ c ∈ d.md.chans ∧ ∀ l, sel = some l → c ∈ l := by
    intro c
    unfold calChans
    cases sel with
    | none => simp
    | some l =>
      simp only [List.mem_filter, decide_eq_true_eq, Option.some.injEq]
      exact ⟨fun h => ⟨h.2, fun l' hl => hl ▸ h.1⟩, fun h => ⟨h.2 l rfl, h.1⟩⟩
  have hrun : (calChans sel d.md.chans).foldlM (calibrateChanF t cis d.md get) d.data = .error .value := by
    refine foldlM_refused (Inv := ShapedBut d.md k) ?_ ⟨ch, (hcsmem ch).2 ⟨hch, hsel⟩, ?_⟩ d.data
      ⟨hs.keys, hs.level, fun a ha => by rwa [nodup_keys_unique hs.keys ha harr]⟩
    · intro x hx s hs'
      unfold calibrateChanF
      cases hg : get x with
      | none => exact Or.inr ⟨s, rfl, hs'⟩
      | some c =>
        have hxm := (hcsmem x).1 hx
        have htx := ht x hxm.1 hxm.2 c hg
        simp only [listIndex_idxOf hnd hxm.1, bind, Except.bind]
        left
        refine foldlM_refused (Inv := ShapedBut d.md k)
          (fun j hj s hs => (calibrateLevelF_step htx hs (List.idxOf_lt_length_of_mem hxm.1) (List.mem_range.1 hj)).1)
          ⟨k, List.mem_range.2 hk, fun s hs =>
            (calibrateLevelF_step htx hs (List.idxOf_lt_length_of_mem hxm.1) hk).2 rfl ?_⟩ s hs'
        intro lm' hlm'
        rw [hlm] at hlm'
        cases hlm'
        exact hone
    · intro s hs'
      unfold calibrateChanF
      cases hg : get ch with
      | none => exact absurd hg hget
      | some c =>
        have htx := ht ch hch hsel c hg
        simp only [listIndex_idxOf hnd hch, bind, Except.bind]
        refine foldlM_refused (Inv := ShapedBut d.md k)
          (fun j hj s hs => (calibrateLevelF_step htx hs (List.idxOf_lt_length_of_mem hch) (List.mem_range.1 hj)).1)
          ⟨k, List.mem_range.2 hk, fun s hs =>
            (calibrateLevelF_step htx hs (List.idxOf_lt_length_of_mem hch) hk).2 rfl ?_⟩ s hs'
        intro lm' hlm'
        rw [hlm] at hlm'
        cases hlm'
        exact hone
  unfold sensorCalibrateF
  rw [hrun]
  rfl

/-- Specification: what the calibrator does to a value `x` at the frequency `f` with the calibration data `c`: it is divided by the response with the magnitude and the
phase that `np.interp` finds in the tables, up to rounding. -/
def CalibratedValue (t : NumType) (c : CalData) (f : ℚ) (x z : ℚ × ℚ) : Prop :=
  ∃ m p, IsTableF c.frequency c.magnitude f m ∧ IsTableF c.frequency c.phase f p ∧ (m ≠ 0 → CalibratedNear t m p x z)

/-- **C88**. The calibrator on spectra of single or double precision: it succeeds, adds a record, keeps levels, windows and channels; the rows of channels that are
not selected or have no calibration data are kept bit by bit, and every other value is divided by the response, up to a part in 2^47 and the rounding
when it is stored. -/
theorem C88_run (t : ℕ → NumType) (htf : ∀ i, (t i).Floating) (cis : ℚ → ℚ × ℚ) (hcis : CisNear cis) (sel : Option (List String))
    (get : String → Option CalData) (d : SpecData (ℚ × ℚ)) (hs : d.CalShaped) (hnd : d.md.chans.Nodup)
    (hsel : ∀ l, sel = some l → l.Nodup)
    (ht : ∀ ch ∈ d.md.chans, (∀ l, sel = some l → ch ∈ l) → ∀ c, get ch = some c → c.Table)
    (hone : ∀ k < d.md.nLevels, ∀ lm arr, d.md.levels[k]? = some lm → (k, arr) ∈ d.data → lm.freqs.length = 1 → arr.length = 1) :
    ∃ out, sensorCalibrateF t cis sel get d = .ok out ∧
      out.md = { d.md with history := d.md.history ++ ["SensorCalibrator"] } ∧
      out.data.map (·.1) = d.data.map (·.1) ∧
      ∀ k arr, (k, arr) ∈ d.data → (d.md.nLevels ≤ k → (k, arr) ∈ out.data) ∧
        (∀ lm, k < d.md.nLevels → d.md.levels[k]? = some lm → ∃ arr', (k, arr') ∈ out.data ∧ arr'.length = arr.length ∧
          ∀ (w : ℕ) (win : List (List (ℚ × ℚ))), arr[w]? = some win → ∃ win', arr'[w]? = some win' ∧
            win'.length = win.length ∧ ∀ (i : ℕ) (ch : String) (row : List (ℚ × ℚ)), d.md.chans[i]? = some ch →
              win[i]? = some row → ∃ row', win'[i]? = some row' ∧ row'.length = row.length ∧
                (∀ c, (∀ l, sel = some l → ch ∈ l) → get ch = some c → ∀ (j : ℕ) (x : ℚ × ℚ) (f : ℚ), row[j]? = some x →
                  lm.freqs[j]? = some f → ∃ z, row'[j]? = some z ∧ CalibratedValue (t k) c f x z) ∧
                ((∃ l, sel = some l ∧ ch ∉ l) ∨ get ch = none → row' = row)) := by
  obtain ⟨out, h1, h2, h3, h4⟩ := sensorCalibrateF_run t cis sel get d hs hnd hsel ht hone
  refine ⟨out, h1, h2, h3, fun k arr hk => ⟨(h4 k arr hk).1, fun lm hkn hlm => ?_⟩⟩
  obtain ⟨arr', h5, h6, h7⟩ := (h4 k arr hk).2 lm hkn hlm
  refine ⟨arr', h5, h6, fun w win hw => ?_⟩
  obtain ⟨win', h8, h9, h10⟩ := h7 w win hw
  refine ⟨win', h8, h9, fun i ch row hch hr => ?_⟩
  obtain ⟨row', h11, h12, h13, h14⟩ := h10 i ch row hch hr
  refine ⟨row', h11, h12, fun c hsc hg j x f hx hf => ?_, h14⟩
  obtain ⟨m, p, hm, hp, hz⟩ := h13 c hsc hg j x f hx hf
  have htc := ht ch (List.mem_of_getElem? hch) hsc c hg
  obtain ⟨m', p', -, hm', hp', h15, h16⟩ := calResponseAtF_table cis htc f
  rw [hm, Except.ok.injEq] at hm'
  rw [hp, Except.ok.injEq] at hp'
  subst hm' hp'
  exact ⟨_, hz, m, p, h15, h16, fun hm0 => calibrated_close (htf k) hcis m p hm0 x⟩

/-! ## Against the exact response -/

/-- Specification: magnitudes are positive, neighbouring ones within a factor of `R`, and phases at most `B` in size. -/
structure CalData.Gentle (c : CalData) (R B : ℚ) : Prop where
  positive : ∀ y ∈ c.magnitude, 0 < y
  ratio : ∀ (j : ℕ) (a b : ℚ), c.magnitude[j]? = some a → c.magnitude[j + 1]? = some b → a ≤ R * b ∧ b ≤ R * a
  phases : ∀ y ∈ c.phase, |y| ≤ B
  bounds : 0 ≤ R ∧ 0 ≤ B ∧ 1 + R + 2 * B ≤ 2 ^ 48

/-- `np.interp` and the exact line -/
theorem table_polyline {xs ys : List ℚ} {f v w : ℚ} (hl : xs.length = ys.length) (hs : xs.Pairwise (· < ·)) (hv : IsTableF xs ys f v) (hw : OnPolyline (xs.zip ys) f w) :
    (v = w ∧ v ∈ ys) ∨ ∃ (j : ℕ) (ya yb s : ℚ), ys[j]? = some ya ∧ ys[j + 1]? = some yb ∧ 0 ≤ s ∧ s ≤ 1 ∧ w = ya + s * (yb - ya) ∧
      |v - w| ≤ 8 / 2 ^ 53 * (|ya| + |yb|) := by
  cases hw with
  | left p h hx hy =>
    left
    rw [List.head?_eq_getElem?, List.getElem?_zip_eq_some] at h
    rw [hv.before p.1 p.2 (by rw [List.head?_eq_getElem?]; exact h.1) (by rw [List.head?_eq_getElem?]; exact h.2) hx, hy]
    exact ⟨rfl, List.mem_of_getElem? h.2⟩
  | right p h hx hy =>
    left
    rw [List.getLast?_eq_getElem?, List.getElem?_zip_eq_some, List.length_zip, ← hl, Nat.min_self] at h
    rw [hv.after p.1 p.2 (by rw [List.getLast?_eq_getElem?]; exact h.1) (by rw [List.getLast?_eq_getElem?, ← hl]; exact h.2) hx, hy]
    exact ⟨rfl, List.mem_of_getElem? h.2⟩
  | between i p q hp hq hx hx' hy =>
    right
    rw [List.getElem?_zip_eq_some] at hp hq
    have hlt : p.1 < q.1 := by
      obtain ⟨h1, h2⟩ := List.getElem?_eq_some_iff.1 hp.1
      obtain ⟨h3, h4⟩ := List.getElem?_eq_some_iff.1 hq.1
      rw [← h2, ← h4]
      exact pairwise_get hs (Nat.lt_succ_self i) h3
    have hd : 0 < q.1 - p.1 := by linarith
    refine ⟨i, p.2, q.2, (f - p.1) / (q.1 - p.1), hp.2, hq.2, div_nonneg (by linarith) hd.le, (div_le_one hd).2 (by linarith), ?_, ?_⟩
    · rw [hy]; ring
    · have := hv.between i p.1 q.1 p.2 q.2 hp.1 hq.1 hp.2 hq.2 hx hx'
      rw [hy]
      rw [mul_comm (q.2 - p.2)]
      exact this

theorem turn_shift (p q : ℚ) : ‖exp ((p : ℂ) * I) - exp ((q : ℂ) * I)‖ ≤ |((p - q : ℚ) : ℝ)| := by
  have e : exp ((p : ℂ) * I) - exp ((q : ℂ) * I) = exp ((q : ℂ) * I) * (exp (I * ((p - q : ℚ) : ℝ)) - 1) := by
    rw [mul_sub, mul_one, ← Complex.exp_add]
    congr 2
    push_cast
    ring
  rw [e, norm_mul, norm_turn, one_mul]
  exact Real.norm_exp_I_mul_ofReal_sub_one_le

/-- **C88**. Against the exact response of the sensor: for tables of positive magnitudes, neighbours within a factor of `R`, and phases at most `B`, a calibrated value is
the value divided by the exact response, up to `(7 + R + 2 B) / 2^49` of it, and to the rounding when it is stored. -/
theorem C88_exact_response {t : NumType} (htf : t.Floating) (c : CalData) (htab : c.Table) (R B : ℚ) (hg : c.Gentle R B) (f : ℚ) (x z : ℚ × ℚ)
    (hz : CalibratedValue t c f x z) (H : ℂ) (hH : Response (fun p => exp ((p : ℂ) * I)) c f H) :
    H ≠ 0 ∧ ‖asComplex z - asComplex x / H‖ ≤ ((7 + R + 2 * B) / 2 ^ 49 + 3 * t.unit) * ‖asComplex x / H‖ + 2 * t.tiny := by
  obtain ⟨m, p, hm, hp, hz⟩ := hz
  obtain ⟨M, P, hM, hP, rfl⟩ := hH
  obtain ⟨hR0, hB0, hRB⟩ := hg.bounds
  have h1 : 0 < M ∧ |m - M| ≤ (1 + R) / 2 ^ 50 * M := by
    rcases table_polyline htab.mag.symm htab.inc hm hM with ⟨rfl, hmem⟩ | ⟨j, ya, yb, s, ha, hb, hs0, hs1, hw, hd⟩
    · have := hg.positive m hmem
      refine ⟨this, ?_⟩
      rw [sub_self, abs_zero]
      positivity
    · have pa := hg.positive ya (List.mem_of_getElem? ha)
      have pb := hg.positive yb (List.mem_of_getElem? hb)
      obtain ⟨r1, r2⟩ := hg.ratio j ya yb ha hb
      rw [abs_of_pos pa, abs_of_pos pb] at hd
      have hMp : 0 < M := by
        rw [hw]
        nlinarith
      refine ⟨hMp, hd.trans ?_⟩
      have k : ya + yb ≤ (1 + R) * M := by
        rw [hw]
        have e : (1 + R) * (ya + s * (yb - ya)) = (1 - s) * ((1 + R) * ya) + s * ((1 + R) * yb) := by ring
        rw [e]
        have a1 : ya + yb ≤ (1 + R) * ya := by linarith
        have a2 : ya + yb ≤ (1 + R) * yb := by linarith
        nlinarith
      calc 8 / 2 ^ 53 * (ya + yb) ≤ 8 / 2 ^ 53 * ((1 + R) * M) := mul_le_mul_of_nonneg_left k (by norm_num)
        _ = (1 + R) / 2 ^ 50 * M := by ring
  obtain ⟨hMp, hmM⟩ := h1
  have hpP : |p - P| ≤ 2 * B / 2 ^ 50 := by
    rcases table_polyline htab.phs.symm htab.inc hp hP with ⟨rfl, -⟩ | ⟨j, ya, yb, s, ha, hb, hs0, hs1, hw, hd⟩
    · rw [sub_self, abs_zero]
      positivity
    · have pa := hg.phases ya (List.mem_of_getElem? ha)
      have pb := hg.phases yb (List.mem_of_getElem? hb)
      refine hd.trans ?_
      linarith
  have hR1 : (1 + R) / 2 ^ 50 ≤ 1 / 2 := by
    rw [div_le_iff₀ (by norm_num)]; norm_num at hRB ⊢; linarith
  have hm0 : m ≠ 0 := by
    rintro rfl
    rw [zero_sub, abs_neg, abs_of_pos hMp] at hmM
    nlinarith
  have hcal := hz hm0
  unfold CalibratedNear at hcal
  have hMR : (0 : ℝ) < (M : ℝ) := by exact_mod_cast hMp
  have hHn : ‖(M : ℂ) * exp ((P : ℂ) * I)‖ = (M : ℝ) := by
    rw [norm_mul, norm_turn, mul_one, norm_ratCast, abs_of_pos hMR]
  have hH0 : (M : ℂ) * exp ((P : ℂ) * I) ≠ 0 := by
    rw [← norm_pos_iff, hHn]; exact hMR
  refine ⟨hH0, ?_⟩
  have hmMR : |((m - M : ℚ) : ℝ)| ≤ (1 + R) / 2 ^ 50 * M := by
    have := (Rat.cast_le (K := ℝ)).2 hmM
    push_cast at this ⊢
    exact this
  have hpPR : |((p - P : ℚ) : ℝ)| ≤ 2 * B / 2 ^ 50 := by
    have := (Rat.cast_le (K := ℝ)).2 hpP
    push_cast at this ⊢
    exact this
  have hshift : ‖(m : ℂ) * exp ((p : ℂ) * I) - (M : ℂ) * exp ((P : ℂ) * I)‖ ≤ ((1 + R + 2 * B) / 2 ^ 50 : ℝ) * ‖(M : ℂ) * exp ((P : ℂ) * I)‖ := by
    have e : (m : ℂ) * exp ((p : ℂ) * I) - (M : ℂ) * exp ((P : ℂ) * I) =
        ((m - M : ℚ) : ℂ) * exp ((p : ℂ) * I) + (M : ℂ) * (exp ((p : ℂ) * I) - exp ((P : ℂ) * I)) := by
      push_cast
      ring
    rw [e, hHn]
    refine (norm_add_le _ _).trans ?_
    rw [norm_mul, norm_mul, norm_turn, mul_one, norm_ratCast, norm_ratCast, abs_of_pos hMR]
    have k := mul_le_mul_of_nonneg_left ((turn_shift p P).trans hpPR) hMR.le
    have e2 : ((1 + R + 2 * B) / 2 ^ 50 : ℝ) * M = (1 + R) / 2 ^ 50 * M + M * (2 * B / 2 ^ 50) := by ring
    rw [e2]
    exact add_le_add hmMR k
  have hRR : (0 : ℝ) ≤ (R : ℝ) := by exact_mod_cast hR0
  have hBR : (0 : ℝ) ≤ (B : ℝ) := by exact_mod_cast hB0
  have hRBR : (1 + R + 2 * B : ℝ) ≤ 2 ^ 48 := by exact_mod_cast hRB
  have hδ : ((1 + R + 2 * B) / 2 ^ 50 : ℝ) ≤ 1 / 4 := by
    rw [div_le_iff₀ (by norm_num)]; norm_num at hRBR ⊢; linarith
  obtain ⟨-, hq⟩ := quotient_shift (asComplex x) _ _ _ hH0 (by positivity) (by linarith) hshift
  obtain ⟨hu, hu1, hτ, -⟩ := htf.unit_bounds
  have hu' : (0 : ℝ) < (t.unit : ℝ) := by exact_mod_cast hu
  have tri := norm_add_le (asComplex z - asComplex x / ((m : ℂ) * exp ((p : ℂ) * I)))
    (asComplex x / ((m : ℂ) * exp ((p : ℂ) * I)) - asComplex x / ((M : ℂ) * exp ((P : ℂ) * I)))
  rw [sub_add_sub_cancel] at tri
  have n1 := norm_sub_norm_le (asComplex x / ((m : ℂ) * exp ((p : ℂ) * I))) (asComplex x / ((M : ℂ) * exp ((P : ℂ) * I)))
  generalize asComplex x / ((m : ℂ) * exp ((p : ℂ) * I)) = Y at *
  generalize hQ : asComplex x / ((M : ℂ) * exp ((P : ℂ) * I)) = X at *
  have hX : 0 ≤ ‖X‖ := norm_nonneg _
  have hY : ‖Y‖ ≤ 3 / 2 * ‖X‖ := by
    have k := mul_le_mul_of_nonneg_right hδ hX
    linarith
  have k1 : (1 / 2 ^ 47 + 2 * (t.unit : ℝ)) * ‖Y‖ ≤ (1 / 2 ^ 47 + 2 * (t.unit : ℝ)) * (3 / 2 * ‖X‖) :=
    mul_le_mul_of_nonneg_left hY (by positivity)
  have e3 : ((7 + R + 2 * B) / 2 ^ 49 + 3 * (t.unit : ℝ)) * ‖X‖ =
      (1 / 2 ^ 47 + 2 * (t.unit : ℝ)) * (3 / 2 * ‖X‖) + 2 * ((1 + R + 2 * B) / 2 ^ 50) * ‖X‖ := by ring
  rw [e3]
  linarith

/-! ## A flat response -/

theorem calc_bits53 {t : NumType} (ht : t.Floating) {x : ℚ} (hx : Holds t x) : t.calc x = x := ht.fixed hx

theorem holds_bits53 {t : NumType} (ht : t.Floating) {x : ℚ} (hx : Holds t x) : Bits53 x := by
  rcases ht with rfl | rfl
  · obtain ⟨k, e, hk, -, -, rfl⟩ := hx
    exact ⟨k, e, lt_trans hk (by norm_num), rfl⟩
  · obtain ⟨k, e, hk, -, -, rfl⟩ := hx
    exact ⟨k, e, hk, rfl⟩

theorem interpF_constant {xs ys : List ℚ} (hs : xs.Pairwise (· < ·)) (h0 : 0 < xs.length) (hl : xs.length = ys.length) (y : ℚ) (hy : ∀ v ∈ ys, v = y)
    (hb : Bits53 y) (f v : ℚ) (hv : calInterpF xs ys f = .ok v) : v = y := by
  unfold calInterpF at hv
  rw [if_neg (by rw [hl]; simp)] at hv
  obtain ⟨w, h1, h2⟩ := interpF_cases xs ys hs h0 hl f
  rw [hv, Except.ok.injEq] at h1
  subst h1
  have key : ∀ (j : ℕ) (hj : j < ys.length), ys[j] = y := fun j hj => hy _ (List.getElem_mem hj)
  rcases h2 with ⟨-, h⟩ | ⟨-, h⟩ | ⟨j, hj, -, -, h⟩
  · rw [h]; exact key _ _
  · rw [h]; exact key _ _
  · rw [h, key j (by omega), key (j + 1) (by omega)]
    split
    · rfl
    · unfold lineF
      rw [sub_self, fl_zero, zero_div, fl_zero, zero_mul, fl_zero, zero_add, hb.fl_eq]

/-- **C88**. A flat response changes no bit: with magnitude one and phase zero at all frequencies of the tables, calibrated spectra are the spectra. -/
theorem C88_flat_response (t : ℕ → NumType) (htf : ∀ i, (t i).Floating) (cis : ℚ → ℚ × ℚ) (hcis : cis 0 = (1, 0)) (sel : Option (List String))
    (get : String → Option CalData) (d : SpecData (ℚ × ℚ)) (hs : d.CalShaped) (hnd : d.md.chans.Nodup)
    (hsel : ∀ l, sel = some l → l.Nodup)
    (ht : ∀ ch ∈ d.md.chans, (∀ l, sel = some l → ch ∈ l) → ∀ c, get ch = some c →
      c.Table ∧ (∀ m ∈ c.magnitude, m = 1) ∧ ∀ p ∈ c.phase, p = 0)
    (hone : ∀ k < d.md.nLevels, ∀ lm arr, d.md.levels[k]? = some lm → (k, arr) ∈ d.data → lm.freqs.length = 1 → arr.length = 1)
    (hh : ∀ k arr, (k, arr) ∈ d.data → ∀ win ∈ arr, ∀ row ∈ win, ∀ x ∈ row, Holds (t k) x.1 ∧ Holds (t k) x.2) :
    ∃ out, sensorCalibrateF t cis sel get d = .ok out ∧ out.md = { d.md with history := d.md.history ++ ["SensorCalibrator"] } ∧
      out.data.map (·.1) = d.data.map (·.1) ∧ ∀ k arr, (k, arr) ∈ d.data → (k, arr) ∈ out.data := by
  obtain ⟨out, h1, h2, h3, h4⟩ := sensorCalibrateF_run t cis sel get d hs hnd hsel (fun ch hc hs' c hg => (ht ch hc hs' c hg).1) hone
  refine ⟨out, h1, h2, h3, fun k arr hk => ?_⟩
  obtain ⟨h5, h6⟩ := h4 k arr hk
  by_cases hkn : d.md.nLevels ≤ k
  · exact h5 hkn
  push Not at hkn
  obtain ⟨lm, arr0, hlm, hmem, hsh⟩ := hs.level k hkn
  have e0 := nodup_keys_unique hs.keys hmem hk
  subst e0
  obtain ⟨arr', h7, h8, h9⟩ := h6 lm hkn hlm
  have : arr' = arr0 := by
    apply List.ext_getElem? fun w => ?_
    cases hw : arr0[w]? with
    | none =>
      rw [List.getElem?_eq_none_iff] at hw ⊢
      omega
    | some win =>
      obtain ⟨win', g1, g2, g3⟩ := h9 w win hw
      obtain ⟨hwl, hrl⟩ := hsh win (List.mem_of_getElem? hw)
      rw [g1, Option.some.injEq]
      apply List.ext_getElem? fun i => ?_
      cases hi : win[i]? with
      | none =>
        rw [List.getElem?_eq_none_iff] at hi ⊢
        omega
      | some row =>
        have hil : i < d.md.chans.length := by
          have := (List.getElem?_eq_some_iff.1 hi).1
          omega
        obtain ⟨row', g4, g5, g6, g7⟩ := g3 i _ row (List.getElem?_eq_getElem hil) hi
        rw [g4, Option.some.injEq]
        by_cases hsc : ∀ l, sel = some l → d.md.chans[i] ∈ l
        · cases hg : get d.md.chans[i] with
          | none => exact g7 (Or.inr hg)
          | some c =>
            apply List.ext_getElem? fun j => ?_
            cases hj : row[j]? with
            | none =>
              rw [List.getElem?_eq_none_iff] at hj ⊢
              omega
            | some x =>
              have hjl : j < lm.freqs.length := by
                have := (List.getElem?_eq_some_iff.1 hj).1
                rw [← hrl row (List.mem_of_getElem? hi)]
                exact this
              obtain ⟨m, p, hm, hp, hz⟩ := g6 c hsc hg j x _ hj (List.getElem?_eq_getElem hjl)
              obtain ⟨htab, hm1, hp0⟩ := ht _ (List.getElem_mem hil) hsc c hg
              have h0 : 0 < c.frequency.length := List.length_pos_iff.2 htab.ne
              have one : Bits53 (1 : ℚ) := ⟨1, 0, by norm_num, by norm_num⟩
              have zero : Bits53 (0 : ℚ) := ⟨0, 0, by norm_num, by norm_num⟩
              have em := interpF_constant htab.inc h0 htab.mag.symm 1 hm1 one _ _ hm
              have ep := interpF_constant htab.inc h0 htab.phs.symm 0 hp0 zero _ _ hp
              have hx := hh k _ hk win (List.mem_of_getElem? hw) row (List.mem_of_getElem? hi) x (List.mem_of_getElem? hj)
              rw [hz, em, ep, hcis]
              have hd := (C88_power_of_two x ⟨holds_bits53 (htf k) hx.1, holds_bits53 (htf k) hx.2⟩ 1 0 (Or.inl rfl)).1
              simp only [Int.cast_one, zpow_zero, mul_one, one_mul, div_one] at hd
              simp only [mul_one, mul_zero, one.fl_eq, fl_zero, hd, storeF, calc_bits53 (htf k) hx.1, calc_bits53 (htf k) hx.2]
        · push Not at hsc
          exact g7 (Or.inl hsc)
  rw [← this]
  exact h7

/-! Examples. -/

/-- Sine and cosine as exact as asked for exist, with the exact value at zero. -/
theorem cisNear_exists : ∃ cis : ℚ → ℚ × ℚ, CisNear cis ∧ cis 0 = (1, 0) := by
  have key : ∀ p : ℚ, ∃ z : ℚ × ℚ, ‖asComplex z - exp ((p : ℂ) * I)‖ ≤ 1 / 2 ^ 51 ∧ (p = 0 → z = (1, 0)) := by
    intro p
    by_cases hp : p = 0
    · refine ⟨(1, 0), ?_, fun _ => rfl⟩
      subst hp
      have : asComplex (1, 0) = 1 := by apply Complex.ext <;> simp [asComplex]
      rw [this]
      simp
    · obtain ⟨a, ha⟩ := exists_rat_near (exp ((p : ℂ) * I)).re (ε := 1 / 2 ^ 52) (by positivity)
      obtain ⟨b, hb⟩ := exists_rat_near (exp ((p : ℂ) * I)).im (ε := 1 / 2 ^ 52) (by positivity)
      refine ⟨(a, b), ?_, fun h => absurd h hp⟩
      refine (Complex.norm_le_abs_re_add_abs_im _).trans ?_
      rw [Complex.sub_re, Complex.sub_im, abs_sub_comm, abs_sub_comm _ (exp ((p : ℂ) * I)).im]
      simp only [asComplex]
      norm_num at ha hb ⊢
      linarith
  choose cis h1 h2 using key
  exact ⟨cis, h1, h2 0 rfl⟩

theorem demoSpecF_calShaped : demoSpecF.CalShaped ∧ demoSpecF.md.chans.Nodup := by
  refine ⟨⟨by decide, by decide, ?_⟩, by decide⟩
  intro k hk
  have : k = 0 := by simp [demoSpecF] at hk; exact hk
  subst this
  exact ⟨_, _, rfl, List.mem_singleton.2 rfl, by decide⟩

example : demoCal.Gentle 2 1 := by
  refine ⟨by decide +kernel, ?_, by decide +kernel, by norm_num⟩
  intro j a b ha hb
  match j with
  | 0 =>
    simp [demoCal] at ha hb
    subst ha hb
    norm_num
  | j + 1 => simp [demoCal] at hb

example : ∃ cis out, CisNear cis ∧ sensorCalibrateF (fun _ => .single) cis none (fun _ => some demoCal) demoSpecF = .ok out := by
  obtain ⟨cis, hc, -⟩ := cisNear_exists
  obtain ⟨out, h, -⟩ := C88_run (fun _ => .single) (fun _ => Or.inl rfl) cis hc none (fun _ => some demoCal) demoSpecF demoSpecF_calShaped.1
    demoSpecF_calShaped.2 (fun _ h => nomatch h)
    (fun _ _ _ c h => by rw [Option.some.injEq] at h; subst h; exact ⟨rfl, rfl, by decide, by decide +kernel⟩)
    (fun k hk lm arr hl _ h => by
      have : k = 0 := by simp [demoSpecF] at hk; exact hk
      subst this
      simp [demoSpecF] at hl
      subst hl
      simp at h)
  exact ⟨cis, out, hc, h⟩

/-- With a phase that is always zero: the values at the frequencies 0, 2, 4 are divided by 2, 3, 4; a third is rounded to the nearest single. -/
example : (sensorCalibrateF (fun _ => .single) (fun _ => (1, 0)) none (fun _ => some demoCal) demoSpecF).map (fun d => (d.data.map fun p => p.2.flatten)) =
    .ok [[[(0, 1 / 2), (nearestSingle (10 / 3), nearestSingle (2 / 3)), (7 / 2, 5 / 4)],
      [(1 / 2, 0), (nearestSingle (2 / 3), 0), (3 / 4, 0)]]] := by decide +kernel

/-- **C88**. A quotient may miss the nearest double, because a reciprocal is rounded on the way: 49 divided by 49 is less than one. -/
theorem C88_reciprocal_rounded : divF (49, 0) (49, 0) = (1 - 1 / 2 ^ 53, 0) ∧ (divF (19, 0) (3, 4)).1 ≠ fl (57 / 25) := by decide +kernel
example : divF (1, 1) (1, 1) = (1, 0) ∧ divF (0, 2) (1, 1) = (1, 1) := by decide +kernel

end Resistics
