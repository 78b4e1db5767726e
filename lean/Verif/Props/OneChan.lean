import Verif.Model.OneChan
import Verif.Props.ChosenChain
import Verif.Props.Phase

/-!
# Property C73: a recording with one channel

Without the axis of the channels, the processes up to the evaluation frequencies give for a channel alone what they give for it among others;
looking the channel up, calibrating and plotting do not work.
-/

namespace Resistics

/-! ## Specification -/

/-- Specification: of every window, the row of channel `i`. -/
def oneRow {α : Type} (i : ℕ) (arr : List (List α)) : List α := arr.filterMap fun win => win[i]?

/-- Specification: windowed data of channel `i` without an axis for the channels. -/
def WinArr.alone {V : Type} (i : ℕ) : WinArr V → WinArr V
  | .d3 w => .d2 (oneRow i w)
  | a => a

/-- Specification: the windowed data of channel `i` alone. -/
def WinData.alone {V : Type} (i : ℕ) (d : WinData V) : WinData V where
  md := { d.md with chans := chosen [i] d.md.chans }
  data := d.data.map fun q => (q.1, q.2.alone i)

/-- Specification: the spectra of channel `i` alone. -/
def SpecData.alone {V : Type} (i : ℕ) (d : SpecData V) : FlatSpec V where
  md := { d.md with chans := chosen [i] d.md.chans }
  data := d.data.map fun q => (q.1, oneRow i q.2)

/-! ## Rows of one channel -/

theorem oneRow_cons {α : Type} (i : ℕ) (win : List α) (arr : List (List α)) : oneRow i (win :: arr) = (win[i]?).toList ++ oneRow i arr := by
  unfold oneRow
  rw [List.filterMap_cons]
  cases win[i]? <;> rfl

theorem oneRow_map {α β : Type} (f : α → β) (i : ℕ) (arr : List (List α)) :
    oneRow i (arr.map fun win => win.map f) = (oneRow i arr).map f := by
  induction arr with
  | nil => rfl
  | cons win arr ih =>
    rw [List.map_cons, oneRow_cons, oneRow_cons, ih, List.map_append, List.getElem?_map]
    cases win[i]? <;> rfl

theorem oneRow_mapM {α β : Type} {g : α → Except Err β} (i : ℕ) : ∀ {arr : List (List α)} {r : List (List β)},
    arr.mapM (fun win => win.mapM g) = .ok r → (oneRow i arr).mapM g = .ok (oneRow i r)
  | [], r, h => by
    simp only [List.mapM_nil, except_pure_ok] at h
    subst h
    rfl
  | win :: arr, r, h => by
    rw [List.mapM_cons] at h
    simp only [except_bind_ok, except_pure_ok] at h
    obtain ⟨w', h1, r', h2, rfl⟩ := h
    have ih := oneRow_mapM i h2
    rw [oneRow_cons, oneRow_cons]
    have hl := mapM_ok_length h1
    by_cases hi : i < win.length
    · have := mapM_ok_getElem h1 i hi (by omega)
      rw [List.getElem?_eq_getElem hi, List.getElem?_eq_getElem (show i < w'.length by omega), Option.toList_some, Option.toList_some,
        List.singleton_append, List.singleton_append, List.mapM_cons, this, ih]
      rfl
    · rw [List.getElem?_eq_none (by omega), List.getElem?_eq_none (show w'.length ≤ i by omega), Option.toList_none, Option.toList_none,
        List.nil_append, List.nil_append]
      exact ih

theorem oneRow_get {α : Type} {i : ℕ} {arr : List (List α)} (h : ∀ win ∈ arr, i < win.length) (k : ℕ) :
    (oneRow i arr)[k]? = arr[k]?.bind fun win => win[i]? := by
  induction arr generalizing k with
  | nil => rfl
  | cons win arr ih =>
    rw [oneRow_cons, List.getElem?_eq_getElem (h win (by simp)), Option.toList_some, List.singleton_append]
    cases k with
    | zero => simp only [List.getElem?_cons_zero, Option.bind_some]; exact (List.getElem?_eq_getElem _).symm
    | succ k => simpa only [List.getElem?_cons_succ] using ih (fun w hw => h w (by simp [hw])) k

theorem oneRow_length {α : Type} {i : ℕ} {arr : List (List α)} (h : ∀ win ∈ arr, i < win.length) : (oneRow i arr).length = arr.length := by
  induction arr with
  | nil => rfl
  | cons win arr ih =>
    rw [oneRow_cons, List.getElem?_eq_getElem (h win (by simp)), Option.toList_some, List.singleton_append, List.length_cons,
      ih fun w hw => h w (by simp [hw]), List.length_cons]

/-! ## Windows -/

theorem getLevelData_single {V : Type} {ref : ℚ} {md : LevelMeta} {w o : ℤ} {table : List WinRow} {row : List V} (hc : md.Consistent)
    (ho : o < w) (ho1 : 1 ≤ o) (h : getWinTable ref md w o = .ok table) (h2 : 2 ≤ table.length) (hrow : (row.length : ℤ) = md.nSamples) :
    getLevelData [row] table 1 w o = .ok (.d2 (table.map fun r => (row.drop r.fromSample.toNat).take w.toNat)) := by
  have hne : table ≠ [] := by rintro rfl; simp at h2
  obtain ⟨F, h1, h3, h4, h5⟩ := getLevelData_eq hc ho (by omega) h hne (c := 1) (by omega) (rows := [row]) rfl (by simpa using hrow)
  have hs := shape1_cols (rows := [row]) (n := md.nSamples) (by simpa using hrow) (by simp)
  have hinc : 0 < (w - o).toNat := by omega
  have hincZ : (((w - o).toNat : ℕ) : ℤ) = w - o := Int.toNat_of_nonneg (by omega)
  have hm : (1 : ℤ) * 1 ≤ (table.length - 1 : ℕ) * (w - o) := mul_le_mul (by omega) (by omega) (by omega) (by omega)
  have hlenW : (slidingWindows [row] w.toNat).length = shape1 [row] + 1 - w.toNat := by simp [slidingWindows]
  rw [h5]
  unfold squeezeView
  rw [if_neg (by omega), if_pos rfl, if_neg (by omega)]
  have hflat : (slidingWindows [row] w.toNat).flatten
      = (List.range (shape1 [row] + 1 - w.toNat)).map fun j => (row.drop j).take w.toNat := by
    simp only [slidingWindows, List.map_cons, List.map_nil]
    generalize List.range (shape1 [row] + 1 - w.toNat) = r
    induction r with
    | nil => rfl
    | cons a r ih => simp [ih]
  obtain ⟨s, e1, e2, e3⟩ := pySliceStep_eq (slidingWindows [row] w.toNat).flatten F (table.length - 1) (w - o).toNat
        h1 hinc (by rw [hflat]; simp only [List.length_map, List.length_range]; rw [hincZ]; omega)
  show Except.ok (WinArr.d2 (pySliceStep _ _ _ _)) = _
  rw [e1]
  congr 2
  apply List.ext_getElem?
  intro k
  by_cases hk : k < table.length
  · have hle : ((k * (w - o).toNat : ℕ) : ℤ) ≤ (table.length - 1 : ℕ) * (w - o) := by
      push_cast [hincZ]
      exact mul_le_mul_of_nonneg_right (by omega) (by omega)
    rw [e3 k (by omega), List.getElem?_map, List.getElem?_eq_getElem hk, hflat, List.getElem?_map, List.getElem?_range (by omega)]
    have e : ((F.toNat + k * (w - o).toNat : ℕ) : ℤ) = table[k].fromSample := by
      rw [h4 k hk]; push_cast [hincZ]; omega
    simp only [Option.map_some, ← e, Int.toNat_natCast]
  · rw [List.getElem?_eq_none (by omega), List.getElem?_eq_none (by simp; omega)]

/-- The accumulated windows of one channel. -/
def WinAcc.alone {V : Type} (i : ℕ) (acc : WinAcc V) : WinAcc V where
  data := acc.data.map fun q => (q.1, q.2.alone i)
  levels := acc.levels

theorem windowLoop_alone {V : Type} (checked : Bool) (sizes : ℕ → LevelMeta → Except Err (ℤ × ℤ)) (ref : DateTime) (minN : ℤ)
    (hmin : 2 ≤ minN) (dec : DecData V) (hc : dec.Consistent) (hn : 2 ≤ dec.md.chans.length) (c : ℕ) (hcl : c < dec.md.chans.length)
    (ls : List ℕ) (acc acc' : WinAcc V) (h : windowLoop checked sizes ref minN dec ls acc = .ok acc') :
    windowLoop checked sizes ref minN (dec.only [c]) ls (acc.alone c) = .ok (acc'.alone c) := by
  induction ls generalizing acc with
  | nil =>
    simp only [windowLoop, Except.ok.injEq] at h ⊢
    rw [h]
  | cons i ls ih =>
    rw [windowLoop] at h ⊢
    obtain ⟨lm, hlm, h⟩ := except_bind_ok.1 h
    obtain ⟨wo, hwo, h⟩ := except_bind_ok.1 h
    obtain ⟨table, htab, h⟩ := except_bind_ok.1 h
    have hlm' : pyIndex (dec.only [c]).md.levels (i : ℤ) = .ok lm := hlm
    simp only [hlm', hwo, htab, bind, Except.bind]
    by_cases hsm : (table.length : ℤ) < minN
    · rw [if_pos hsm, Except.ok.injEq] at h
      rw [if_pos hsm, h]
    · rw [if_neg hsm] at h ⊢
      obtain ⟨raw, hraw, h⟩ := except_bind_ok.1 h
      obtain ⟨arr, harr, h⟩ := except_bind_ok.1 h
      obtain ⟨u, hchk, h⟩ := except_bind_ok.1 h
      obtain ⟨wlm, hwlm, h⟩ := except_bind_ok.1 h
      obtain ⟨ho, ho1⟩ := levelData_sizes harr hwlm
      have hlm? : dec.md.levels[i]? = some lm := by
        by_cases hi : i < dec.md.levels.length
        · rw [pyIndex_natCast _ _ hi, Except.ok.injEq] at hlm
          rw [List.getElem?_eq_getElem hi, hlm]
        · rw [pyIndex_natCast_ge _ _ (by omega)] at hlm; cases hlm
      obtain ⟨rows, r1, r2, r3⟩ := hc.array i lm hlm?
      have hil : i < dec.md.nLevels := by rw [← hc.n_levels]; exact (List.getElem?_eq_some_iff.1 hlm?).1
      have hraw' : raw = rows := by
        unfold DecData.getLevel dictGet at hraw
        rw [if_neg (by omega), if_neg (by omega), Int.toNat_natCast, r1] at hraw
        injection hraw with hraw
        exact hraw.symm
      subst hraw'
      have hlmc := hc.meta_ok lm (List.mem_of_getElem? hlm?)
      have hcr : c < raw.length := by omega
      have hone : chosen [c] raw = [raw[c]] := by
        rw [chosen_cons, List.getElem?_eq_getElem hcr]; rfl
      have hlen1 : (dec.only [c]).md.chans.length = 1 := by
        show (chosen [c] dec.md.chans).length = 1
        rw [chosen_length (by simpa using hcl)]; rfl
      have a1 := getLevelData_windows hlmc ho ho1 htab (by omega) hn r2 r3
      have a2 := getLevelData_single (row := raw[c]) hlmc ho ho1 htab (by omega) (r3 _ (List.getElem_mem _))
      rw [a1, Except.ok.injEq] at harr
      have hget : (dec.only [c]).getLevel i = .ok (chosen [c] raw) := by
        unfold DecData.getLevel
        rw [if_neg (show ¬ ((dec.only [c]).md.nLevels : ℤ) ≤ i from by show ¬ (dec.md.nLevels : ℤ) ≤ i; omega), if_neg (by omega),
          Int.toNat_natCast]
        refine dictGet_map_snd (chosen [c]) ?_
        unfold dictGet
        rw [r1]
      have ha : WinArr.d2 (table.map fun r => (raw[c].drop r.fromSample.toNat).take wo.1.toNat) = arr.alone c := by
        rw [← harr]
        simp only [WinArr.alone]
        congr 1
        generalize table = t
        induction t with
        | nil => rfl
        | cons r t iht =>
          rw [List.map_cons, List.map_cons, oneRow_cons, ← iht]
          unfold windowAt
          rw [List.getElem?_map, List.getElem?_eq_getElem hcr]
          rfl
      have hchk' : checkShape checked (arr.alone c) table = .ok () := by
        rw [← ha]
        unfold checkShape
        simp [WinArr.shape0]
      have a2' : getLevelData (chosen [c] raw) table (dec.only [c]).md.chans.length wo.1 wo.2 = .ok (arr.alone c) := by
        rw [← ha, hone, hlen1]; exact a2
      simp only [hget, a2', hchk', hwlm]
      have := ih _ h
      rw [← this]
      simp only [WinAcc.alone, List.map_append, List.map_cons, List.map_nil]

theorem windowed_alone {V : Type} (name : String) (dec : DecData V) (ref : DateTime) (acc : WinAcc V) (win : WinData V) (c : ℕ)
    (h : windowedResult name dec ref acc = .ok win) : windowedResult name (dec.only [c]) ref (acc.alone c) = .ok (win.alone c) := by
  unfold windowedResult at h ⊢
  obtain ⟨x, hx, h⟩ := except_bind_ok.1 h
  rw [except_pure_ok] at h
  subst h
  have h2 := dictGet_map_snd (WinArr.alone c) hx
  have h3 : dictGet (acc.alone c).data 0 = .ok (x.alone c) := h2
  simp only [h3, bind, Except.bind, pure, Except.pure]
  rfl

/-- **C73**, windows: the windows of a channel alone are its windows among others, without the axis of the channels. -/
theorem C73_windowed {V : Type} (ref : DateTime) (p : WinParams) (dec : DecData V) (hc : dec.Consistent) (hmin : 2 ≤ p.minNWins)
    (hn : 2 ≤ dec.md.chans.length) (c : ℕ) (hcl : c < dec.md.chans.length) :
    (∀ win, windowerRun ref p dec = .ok win → windowerRun ref p (dec.only [c]) = .ok (win.alone c)) ∧
    (∀ (t : WindowerTarget) win, t.run ref p dec = .ok win → t.run ref p (dec.only [c]) = .ok (win.alone c)) := by
  constructor
  · intro win h
    unfold windowerRun at h ⊢
    obtain ⟨acc, hacc, h⟩ := except_bind_ok.1 h
    have h1 := windowLoop_alone true _ ref _ hmin dec hc hn c hcl _ {} acc hacc
    exact except_bind_ok.2 ⟨_, h1, windowed_alone _ _ _ _ _ c h⟩
  · intro t win h
    unfold WindowerTarget.run at h ⊢
    obtain ⟨acc, hacc, h⟩ := except_bind_ok.1 h
    have h1 := windowLoop_alone false _ ref _ hmin dec hc hn c hcl _ {} acc hacc
    exact except_bind_ok.2 ⟨_, h1, windowed_alone _ _ _ _ _ c h⟩

/-! ## Spectra -/

theorem numbered_alone {V : Type} (c : ℕ) (l : List (SpecArr V)) :
    (l.map (oneRow c)).zipIdx.map (fun q => (q.2, q.1)) = (l.zipIdx.map fun q => (q.2, q.1)).map fun q => (q.1, oneRow c q.2) := by
  rw [List.zipIdx_map, List.map_map, List.map_map]
  rfl

theorem mkFlat_alone {V : Type} (c : ℕ) (md : SpecMeta) (data : List (ℕ × SpecArr V)) (out : SpecData V)
    (h : mkSpecData md data = .ok out) :
    mkFlat { md with chans := chosen [c] md.chans } (data.map fun q => (q.1, oneRow c q.2)) = .ok (out.alone c) := by
  unfold mkSpecData at h
  unfold mkFlat
  obtain ⟨x, hx, h⟩ := except_bind_ok.1 h
  rw [except_pure_ok] at h
  subst h
  have h2 := dictGet_map_snd (oneRow c) hx
  exact except_bind_ok.2 ⟨_, h2, rfl⟩

theorem winLevel_alone {V : Type} (c : ℕ) (win : WinData V) (i : ℕ) (raw : WinArr V) (h : win.getLevel i = .ok raw) :
    (win.alone c).getLevel i = .ok (raw.alone c) := by
  unfold WinData.getLevel at h ⊢
  rw [show (win.alone c).md.nLevels = win.md.nLevels from rfl]
  split at h
  · cases h
  · split at h
    · cases h
    · rename_i h1 h2
      rw [if_neg h1, if_neg h2]
      exact dictGet_map_snd (WinArr.alone c) h

theorem specLevel_alone {V : Type} (c : ℕ) (d : SpecData V) (i : ℤ) (arr : SpecArr V) (h : d.getLevel i = .ok arr) :
    (d.alone c).getLevel i = .ok (oneRow c arr) := by
  unfold SpecData.getLevel levelGet at h
  unfold FlatSpec.getLevel levelGet
  rw [show (d.alone c).md.nLevels = d.md.nLevels from rfl]
  split at h
  · cases h
  · split at h
    · cases h
    · rename_i h1 h2
      rw [if_neg h1, if_neg h2]
      exact dictGet_map_snd (oneRow c) h

/-- **C73**, Fourier transform: the spectra of a channel alone are its spectra among others. -/
theorem C73_fourier {V W : Type} (nfl : ℕ → ℕ) (ft : ℕ → List V → List W) (win : WinData V) (spec : SpecData W) (c : ℕ)
    (h : fourierRun nfl ft win = .ok spec) : flatFourier nfl ft (win.alone c) = .ok (spec.alone c) := by
  unfold fourierRun at h
  unfold flatFourier
  obtain ⟨out, hout, h⟩ := except_bind_ok.1 h
  have h1 : (List.range win.md.nLevels).mapM (flatFourierLevel nfl ft (win.alone c)) = .ok (out.map fun q => (oneRow c q.1, q.2)) := by
    refine mapM_image _ ?_ hout
    intro i b hb
    unfold fourierLevel at hb
    unfold flatFourierLevel
    obtain ⟨lm, hlm, hb⟩ := except_bind_ok.1 hb
    obtain ⟨raw, hraw, hb⟩ := except_bind_ok.1 hb
    obtain ⟨arr, harr, hb⟩ := except_bind_ok.1 hb
    rw [except_pure_ok] at hb
    subst hb
    have hlm' : pyIndex (win.alone c).md.levels (i : ℤ) = .ok lm := hlm
    have hraw' := winLevel_alone c win i raw hraw
    cases raw with
    | d3 w =>
      simp only [winArr3, Except.ok.injEq] at harr
      subst harr
      simp only [hlm', hraw', bind, Except.bind, WinArr.alone, winArr2, pure, Except.pure, Except.ok.injEq, Prod.mk.injEq, and_true]
      exact (oneRow_map _ c w).symm
    | d2 w => cases harr
    | d1 w => cases harr
    | d0 w => cases harr
  rw [show (win.alone c).md.nLevels = win.md.nLevels from rfl, h1]
  simp only [bind, Except.bind, List.map_map]
  have h2 := mkFlat_alone c _ _ _ h
  rw [← numbered_alone] at h2
  rw [← h2]
  simp only [List.map_map]
  rfl

/-- **C73**, evaluation frequencies: the values of a channel alone are its values among others. -/
theorem C73_evals {V : Type} [AddCommGroup V] [Module ℚ V] (p : DecParams ℚ) (spec evals : SpecData V) (c : ℕ)
    (h : evalFreqsRun p spec = .ok evals) : flatEvals p (spec.alone c) = .ok (evals.alone c) := by
  unfold evalFreqsRun at h
  unfold flatEvals
  obtain ⟨out, hout, h⟩ := except_bind_ok.1 h
  have h1 : (List.range spec.md.nLevels).mapM (flatEvalLevel p (spec.alone c)) = .ok (out.map fun q => (oneRow c q.1, q.2)) := by
    refine mapM_image _ ?_ hout
    intro i b hb
    unfold evalLevel at hb
    unfold flatEvalLevel
    obtain ⟨lm, hlm, hb⟩ := except_bind_ok.1 hb
    obtain ⟨fr, hfr, hb⟩ := except_bind_ok.1 hb
    obtain ⟨arr, harr, hb⟩ := except_bind_ok.1 hb
    obtain ⟨res, hres, hb⟩ := except_bind_ok.1 hb
    rw [except_pure_ok] at hb
    subst hb
    have hlm' : pyIndex (spec.alone c).md.levels (i : ℤ) = .ok lm := hlm
    have harr' := specLevel_alone c spec i arr harr
    unfold evalLevelData at hres
    obtain ⟨idxs, hidxs, hres⟩ := except_bind_ok.1 hres
    have hres' : (oneRow c arr).mapM (fun row => idxs.mapM (evalAt row)) = .ok (oneRow c res) := oneRow_mapM c hres
    simp only [hlm', hfr, harr', hidxs, hres', bind, Except.bind, pure, Except.pure]
  rw [show (spec.alone c).md.nLevels = spec.md.nLevels from rfl, h1]
  simp only [bind, Except.bind, List.map_map]
  have h2 := mkFlat_alone c _ _ _ h
  rw [← numbered_alone] at h2
  rw [← h2]
  simp only [List.map_map]
  rfl

/-- **C73**, smoothing: the smoothed spectra of a channel alone are its smoothed spectra among others. -/
theorem C73_smoothed {V : Type} (name : String) (filt : ℕ → List V → List V) (spec out : SpecData V) (c : ℕ)
    (h : smoothRun name filt spec = .ok out) : flatSmooth name filt (spec.alone c) = .ok (out.alone c) := by
  unfold smoothRun at h
  unfold flatSmooth
  obtain ⟨res, hres, h⟩ := except_bind_ok.1 h
  have h1 : (List.range spec.md.nLevels).mapM (flatSmoothLevel filt (spec.alone c)) = .ok (res.map (oneRow c)) := by
    refine mapM_image _ ?_ hres
    intro i b hb
    unfold smoothLevel at hb
    unfold flatSmoothLevel
    obtain ⟨lm, hlm, hb⟩ := except_bind_ok.1 hb
    obtain ⟨arr, harr, hb⟩ := except_bind_ok.1 hb
    rw [except_pure_ok] at hb
    subst hb
    have hlm' : pyIndex (spec.alone c).md.levels (i : ℤ) = .ok lm := hlm
    have harr' := specLevel_alone c spec i arr harr
    simp only [hlm', harr', bind, Except.bind, pure, Except.pure, Except.ok.injEq]
    exact (oneRow_map _ c arr).symm
  rw [show (spec.alone c).md.nLevels = spec.md.nLevels from rfl, h1]
  simp only [bind, Except.bind]
  have h2 := mkFlat_alone c _ _ _ h
  rw [← numbered_alone] at h2
  rw [← h2]
  rfl

theorem smoothers_alone (c : ℕ) (smoothers : List (String × (ℕ → List ℂ → List ℂ))) : ∀ spec out : SpecData ℂ,
    (smoothers.map fun s => smoothRun s.1 s.2).foldlM (fun s f => f s) spec = .ok out →
      smoothers.foldlM (fun s f => flatSmooth f.1 f.2 s) (spec.alone c) = .ok (out.alone c) := by
  induction smoothers with
  | nil =>
    intro spec out h
    simp only [List.map_nil, List.foldlM_nil, except_pure_ok] at h
    subst h
    rfl
  | cons s l ih =>
    intro spec out h
    simp only [List.map_cons, List.foldlM_cons, except_bind_ok] at h
    obtain ⟨mid, h1, h2⟩ := h
    rw [List.foldlM_cons, C73_smoothed _ _ _ _ c h1]
    exact ih mid out h2

/-- **C73**, all processes: from the recording to the evaluation frequencies, a channel alone gives what it gives among others. -/
theorem C73_chain (c : Config) (smoothers : List (String × (ℕ → List ℂ → List ℂ)))
    (hsm : c.specProcs = smoothers.map fun s => smoothRun s.1 s.2) (ref : DateTime) (td : TimeData ℚ) (hc : c.ByChannel td.md.chans)
    (htd : td.Consistent) (hnd : td.md.chans.Nodup) (hn : 2 ≤ td.md.chans.length)
    (hfs : ∀ tdp, runTimeProcessors c.sp c.timeProcs td = .ok tdp → tdp.md.fs ≤ 10 ^ 13) (i : ℕ) (hi : i < td.md.chans.length)
    (p : DecParams ℚ) (evals : SpecData ℂ) (h : c.toEvals ref td = .ok (p, evals)) :
    c.flatToEvals smoothers ref (td.only [i]) = .ok (p, evals.alone i) := by
  have hsel1 : Choice [i] td.md.chans.length 1 := ⟨by simpa using hi, by simp, by simp⟩
  unfold Config.toEvals Config.toSpectra Config.processSpectra Config.window Config.decimate at h
  simp only [except_bind_ok, except_pure_ok, Prod.mk.injEq] at h
  obtain ⟨-, ⟨tdp, h1, p', h2, dec, h3, win, ⟨wp, h4, h5⟩, spec0, h6, rfl⟩, spec, h7, ev, h8, rfl, rfl⟩ := h
  change evalFreqsRun p' spec = .ok ev at h8
  change c.flatToEvals smoothers ref (td.only [i]) = .ok (p', ev.alone i)
  obtain ⟨a1, a2, -⟩ := C23_chain_consistent c.sp hc.lawful c.timeProcs (fun q hq => (hc.procs q hq).1) td tdp htd h1
  obtain ⟨-, -, -, hpos, -⟩ := DecSetup.run_spec _ _ _ _ h2
  obtain ⟨b1, b2, b3, b4, -⟩ := decimator_consistent hc.lawful hc.maxSingle (by omega) a1 (by rw [a2]; omega) (hfs tdp h1) h3
  have hw := (C14_one_size_per_level _ _ _ _ h4).2.1
  have g1 := C72_time c.sp hc.lawful c.timeProcs (fun q hq => (hc.procs q hq).1) [i] td tdp htd hnd hsel1 (fun q hq => (hc.procs q hq).2) h1
  have g3 := C72_decimated c.sp hc.lawful c.useResample c.maxSingle hc.maxSingle p' [i] tdp dec a1 (by rw [a2]; exact hnd)
    (by rw [a2]; exact hsel1) h3
  have g5 : c.windower ref wp (dec.only [i]) = .ok (win.alone i) := by
    have hn2 : 2 ≤ dec.md.chans.length := by rw [b2, a2]; exact hn
    have hi2 : i < dec.md.chans.length := by rw [b2, a2]; exact hi
    have hm : 2 ≤ wp.minNWins := by rw [hw]; exact hc.minNWins
    rcases hc.windower with hwd | ⟨t, hwd⟩
    · rw [hwd] at h5 ⊢
      exact (C73_windowed ref wp dec b1 hm hn2 i hi2).1 win h5
    · rw [hwd] at h5 ⊢
      exact (C73_windowed ref wp dec b1 hm hn2 i hi2).2 t win h5
  have g6 := C73_fourier c.nfl c.ft win spec0 i h6
  rw [hsm] at h7
  have g7 := smoothers_alone i smoothers spec0 spec h7
  have g8 := C73_evals p' spec ev i h8
  unfold Config.flatToEvals Config.window Config.decimate
  have k2 : c.decSetup.run c.defaultFreqs (tdp.only [i]).md.fs = .ok p' := h2
  have k4 : c.winSetup.run (dec.only [i]).md.nLevels (dec.only [i]).md.fs = .ok wp := h4
  simp only [g1, k2, g3, k4, g5, g6, g7, g8, bind, Except.bind, pure, Except.pure]

/-! ## What works and what does not -/

theorem lookup_alone {V : Type} (c : ℕ) (d : SpecData V) (level : ℤ) :
    levelGet (d.alone c).data level = (levelGet d.data level).map (oneRow c) := by
  unfold levelGet
  split
  · rfl
  · unfold dictGet
    have := lookup_image (oneRow c) d.data level.toNat
    rw [show (d.alone c).data = d.data.map fun q => (q.1, oneRow c q.2) from rfl, this]
    cases d.data.lookup level.toNat <;> rfl

theorem levelGet_mem {β : Type} {data : List (ℕ × β)} {level : ℤ} {x : β} (h : levelGet data level = .ok x) : (level.toNat, x) ∈ data := by
  unfold levelGet at h
  split at h
  · cases h
  · unfold dictGet at h
    split at h
    · rename_i y hy
      cases h
      exact lookup_some_mem hy
    · cases h

/-- **C73**, by frequency: `get_freq` of a channel alone is the column of the channel. -/
theorem C73_get_freq {V : Type} (d : SpecData V) (hr : d.Rowed) (c : ℕ) (hc : c < d.md.chans.length) (level idx : ℤ) (vals : List (List V))
    (h : d.getFreq level idx = .ok vals) : (d.alone c).getFreq level idx = .ok (oneRow c vals) ∧ (oneRow c vals).length = vals.length := by
  unfold SpecData.getFreq at h
  simp only [bind, Except.bind, pure, Except.pure, throw, throwThe, MonadExceptOf.throw] at h
  unfold FlatSpec.getFreq
  simp only [bind, Except.bind, pure, Except.pure, throw, throwThe, MonadExceptOf.throw]
  rw [show (d.alone c).md.levels = d.md.levels from rfl]
  cases hl : pyIndex d.md.levels level with
  | error e => rw [hl] at h; cases h
  | ok lm =>
    rw [hl] at h
    simp only at h ⊢
    split at h
    · cases h
    · rename_i hlt
      rw [if_neg hlt]
      rw [lookup_alone]
      cases ha : levelGet d.data level with
      | error e => rw [ha] at h; cases h
      | ok arr =>
        rw [ha] at h
        simp only [Except.map, freqOf] at h ⊢
        refine ⟨oneRow_mapM c h, oneRow_length fun w hw => ?_⟩
        revert w
        refine mapM_all ?_ h
        intro win hwin w hw
        rw [mapM_ok_length hw, hr _ (levelGet_mem ha) win hwin]
        exact hc

/-- **C73**, magnitudes and phases: those of a channel alone are those of the channel among others. -/
theorem C73_mag_phs (d : SpecData ℂ) (c : ℕ) (level : ℤ) (unwrap : Bool) (mag phs : SpecArr ℝ) (h : d.getMagPhs level unwrap = .ok (mag, phs)) :
    (d.alone c).getMagPhs level unwrap = .ok (oneRow c mag, oneRow c phs) := by
  unfold SpecData.getMagPhs at h
  unfold FlatSpec.getMagPhs
  rw [lookup_alone]
  cases ha : levelGet d.data level with
  | error e => rw [ha] at h; cases h
  | ok arr =>
    rw [ha] at h
    simp only [bind, Except.bind, pure, Except.pure, Except.ok.injEq, Prod.mk.injEq] at h
    obtain ⟨rfl, rfl⟩ := h
    simp only [Except.map, bind, Except.bind, pure, Except.pure, oneRow_map]

/-- **C73**, times: the times of the windows are the same. -/
theorem C73_timestamps {V : Type} (d : SpecData V) (c : ℕ) (level : ℤ) : (d.alone c).getTimestamps level = d.getTimestamps level := rfl

/-- **C73**, by channel: asking for the channel gives its first window only; asking for a list of channels (which can only repeat the channel)
gives the first window as often. -/
theorem C73_get_chan_first_window {V : Type} (d : FlatSpec V) (name : String) (hch : d.md.chans = [name]) (level : ℕ) (first : List V)
    (rest : List (List V)) (hd : d.data.lookup level = some (first :: rest)) :
    d.getChan level name = .ok first ∧ (∀ n, d.getChans level (List.replicate n name) = .ok (List.replicate n first)) ∧
      ∀ c, c ≠ name → d.getChan level c = .error .chanNotFound := by
  have h0 : listIndex [name] name = .ok 0 := by simp [listIndex]
  have hl := levelGet_natCast d.data level _ hd
  refine ⟨?_, fun n => ?_, fun c hc => ?_⟩
  · unfold FlatSpec.getChan
    rw [hch, if_neg (by simp)]
    simp only [h0, hl, bind, Except.bind, pure, Except.pure]
    rfl
  · unfold FlatSpec.getChans
    rw [hch, if_neg (by
      rintro ⟨c, hc, hn⟩
      rw [List.eq_of_mem_replicate hc] at hn
      simp at hn)]
    have h1 : (List.replicate n name).mapM (listIndex [name]) = .ok (List.replicate n 0) := by
      rw [mapM_ok_map (g := fun _ => (0 : ℤ))]
      · simp
      · intro a ha
        rw [List.eq_of_mem_replicate ha, h0]
    simp only [h1, hl, bind, Except.bind, pure, Except.pure]
    rw [mapM_ok_map (g := fun _ => first)]
    · simp
    · intro a ha
      rw [List.eq_of_mem_replicate ha]
      rfl
  · unfold FlatSpec.getChan
    rw [hch, if_pos (by simpa using hc)]
    rfl

/-- **C73**, calibration: with calibration data for the channel, calibrating fails; without (or with other channels selected) the spectra are
unchanged. -/
theorem C73_calibration {W : Type} (sel : Option (List String)) (get : String → Option CalData) (d : FlatSpec W) (name : String)
    (hch : d.md.chans = [name]) (hlev : 1 ≤ d.md.nLevels) (arr : List (List W)) (h0 : d.data.lookup 0 = some arr) :
    ((∃ cal, get name = some cal) ∧ (∀ l, sel = some l → name ∈ l) → flatCalibrate sel get d = .error .index) ∧
    (get name = none ∨ (∃ l, sel = some l ∧ name ∉ l) → ∃ out, flatCalibrate sel get d = .ok out ∧ out.data = d.data ∧
      out.md = { d.md with history := d.md.history ++ ["SensorCalibrator"] }) := by
  have hsub : ∀ c ∈ calChans sel d.md.chans, c = name := by
    intro c hc
    unfold calChans at hc
    rw [hch] at hc
    split at hc
    · simpa using hc
    · simpa using (List.mem_filter.1 hc).2
  have hmk : mkFlat { d.md with history := d.md.history ++ ["SensorCalibrator"] } d.data =
      .ok ⟨{ d.md with history := d.md.history ++ ["SensorCalibrator"] }, d.data⟩ := by
    unfold mkFlat dictGet
    rw [h0]
    rfl
  constructor
  · rintro ⟨⟨cal, hcal⟩, hsel⟩
    have hmem : name ∈ calChans sel d.md.chans := by
      unfold calChans
      rw [hch]
      split
      · simp
      · rename_i l
        rw [List.mem_filter]
        exact ⟨hsel l rfl, by simp⟩
    have hbad : flatCalibrateChan d.md get name = .error .index := by
      unfold flatCalibrateChan
      rw [hcal]
      exact if_neg (by omega)
    unfold flatCalibrate
    cases hl : calChans sel d.md.chans with
    | nil => rw [hl] at hmem; simp at hmem
    | cons a l =>
      have := hsub a (by rw [hl]; simp)
      subst this
      rw [List.mapM_cons, hbad]
      rfl
  · intro h
    have hall : ∀ c ∈ calChans sel d.md.chans, flatCalibrateChan d.md get c = .ok () := by
      intro c hc
      have hcn := hsub c hc
      subst hcn
      rcases h with h | ⟨l, rfl, hl⟩
      · unfold flatCalibrateChan
        rw [h]
      · exact absurd (List.mem_filter.1 hc).1 hl
    refine ⟨⟨{ d.md with history := d.md.history ++ ["SensorCalibrator"] }, d.data⟩, ?_, rfl, rfl⟩
    unfold flatCalibrate
    rw [mapM_ok_map (g := fun _ => ()) hall]
    exact hmk

/-- **C73**, plotting: the plot of the spectra fails. -/
theorem C73_plot_fails {V : Type} [Zero V] (mag : V → ℚ) (d : FlatSpec V) (hlev : 1 ≤ d.md.nLevels) (lm : SpecLevelMeta)
    (hlm : d.md.levels[0]? = some lm) (first : List V) (rest : List (List V)) (hd : d.data.lookup 0 = some (first :: rest))
    (hf : 0 < first.length) : d.plot mag = .error .index := by
  have h0 : d.plotLevel mag 0 = .error .index := by
    unfold FlatSpec.plotLevel
    obtain ⟨hl, rfl⟩ := List.getElem?_eq_some_iff.1 hlm
    rw [pyIndex_natCast _ _ hl]
    simp only [bind, Except.bind, dictGet, hd, nextColor]
    rw [if_neg (by decide)]
    simp only
    unfold flatAddStack
    refine if_neg ?_
    intro hnil
    have := congrArg List.length hnil
    rw [flatMeanMag, List.length_map, List.length_range, List.headD_cons, List.length_nil] at this
    omega
  unfold FlatSpec.plot
  obtain ⟨n, hn⟩ : ∃ n, d.md.nLevels = n + 1 := ⟨d.md.nLevels - 1, by omega⟩
  rw [hn, List.range_succ_eq_map, List.mapM_cons, h0]
  rfl

/-! ## A concrete case -/

example : demoWideWin.alone 0 = ⟨{ demoWideWin.md with chans := ["Bz"] }, [(0, .d2 [[4, -1, 1, -1], [1, -1, -1, 0], [-1, 0, -1, -1]])]⟩ := by
  decide +kernel

/-- the third channel of the demonstration alone gives what it gives among others -/
example : ∃ evals, demoWideConfig.toEvals 10 demoWide = .ok (demoLinParams, evals) ∧
    demoWideConfig.flatToEvals [] 10 (demoWide.only [0]) = .ok (demoLinParams, evals.alone 0) := by
  obtain ⟨evals, h⟩ := demoWide_evals
  refine ⟨evals, h, C73_chain demoWideConfig [] rfl 10 demoWide
    ⟨demoSciPy_lawful, (demoConfig_byChannel demoWide.md.chans).procs, by decide, Or.inl rfl, by decide, (demoConfig_byChannel []).specProcs⟩
    ⟨by decide, by decide, by decide, by decide +kernel⟩ (by decide) (by decide) ?_ 0 (by decide) demoLinParams evals h⟩
  intro tdp h
  simp only [demoWideConfig, demoConfig, runTimeProcessors, List.foldlM_cons, List.foldlM_nil, Proc.run, bind, Except.bind,
    except_pure_ok] at h
  subst h
  show (2 : ℚ) ≤ 10 ^ 13
  norm_num

/-- spectra of one channel: one level, two windows, three frequencies -/
def demoFlat : FlatSpec ℚ where
  md := { fs := [2], chans := ["Bz"], nLevels := 1, firstTime := 0, lastTime := 3, levels := [⟨2, 2, 4, 2, 0, 3, [0, 1 / 2, 1]⟩], refTime := 0,
          history := [] }
  data := [(0, [[1, 2, 3], [4, 5, 6]])]

example : demoFlat.getChan 0 "Bz" = .ok [1, 2, 3] := (C73_get_chan_first_window demoFlat "Bz" rfl 0 [1, 2, 3] [[4, 5, 6]] rfl).1

example : demoFlat.getFreq 0 1 = .ok [2, 5] := by decide +kernel

example : demoFlat.plot (fun v => |v|) = .error .index :=
  C73_plot_fails _ demoFlat (by decide) ⟨2, 2, 4, 2, 0, 3, [0, 1 / 2, 1]⟩ rfl [1, 2, 3] [[4, 5, 6]] rfl (by decide)

end Resistics
