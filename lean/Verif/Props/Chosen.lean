import Verif.Props.TimePoint
import Verif.Props.Windower
import Verif.Props.Spectra
import Verif.Props.Calibrate
import Verif.Model.Process

/-!
# Property C72: channels are processed independently of one another

Processing a recording with fewer channels (or the same ones in another order) gives, for the channels that are left, what processing the
whole recording gives for them.
-/

namespace Resistics

/-! ## Specification -/

/-- Specification: the entries at the chosen positions, in the order of the choice. -/
def chosen {α : Type} (sel : List ℕ) (l : List α) : List α := sel.filterMap fun i => l[i]?

/-- Specification: a recording that has only the chosen channels. -/
def TimeData.only {V : Type} (sel : List ℕ) (td : TimeData V) : TimeData V where
  md := { td.md with chans := chosen sel td.md.chans }
  data := chosen sel td.data

/-- Specification: the decimated data of the chosen channels. -/
def DecData.only {V : Type} (sel : List ℕ) (d : DecData V) : DecData V where
  md := { d.md with chans := chosen sel d.md.chans }
  data := d.data.map fun q => (q.1, chosen sel q.2)

/-- Specification: the chosen channels of every window, when the array has windows, channels and samples. -/
def WinArr.only {V : Type} (sel : List ℕ) : WinArr V → WinArr V
  | .d3 w => .d3 (w.map (chosen sel))
  | a => a

/-- Specification: the windowed data of the chosen channels. -/
def WinData.only {V : Type} (sel : List ℕ) (d : WinData V) : WinData V where
  md := { d.md with chans := chosen sel d.md.chans }
  data := d.data.map fun q => (q.1, q.2.only sel)

/-- Specification: the spectra of the chosen channels. -/
def SpecData.only {V : Type} (sel : List ℕ) (d : SpecData V) : SpecData V where
  md := { d.md with chans := chosen sel d.md.chans }
  data := d.data.map fun q => (q.1, q.2.map (chosen sel))

/-- Specification: a choice of different channels among `n`, at least `k` of them. -/
structure Choice (sel : List ℕ) (n k : ℕ) : Prop where
  valid : ∀ i ∈ sel, i < n
  nodup : sel.Nodup
  enough : k ≤ sel.length

/-! ## Choosing -/

theorem Choice.le {sel : List ℕ} {n k : ℕ} (h : Choice sel n k) : sel.length ≤ n := by
  have := (h.nodup.subperm (l₂ := List.range n) fun i hi => List.mem_range.2 (h.valid i hi)).length_le
  simpa using this

theorem chosen_cons {α : Type} (i : ℕ) (sel : List ℕ) (l : List α) : chosen (i :: sel) l = (l[i]?).toList ++ chosen sel l := by
  unfold chosen
  rw [List.filterMap_cons]
  cases l[i]? <;> rfl

theorem chosen_map {α β : Type} (f : α → β) (sel : List ℕ) (l : List α) : chosen sel (l.map f) = (chosen sel l).map f := by
  induction sel with
  | nil => rfl
  | cons i sel ih =>
    rw [chosen_cons, chosen_cons, ih, List.getElem?_map, List.map_append]
    cases l[i]? <;> rfl

theorem chosen_mapM {α β : Type} {f : α → Except Err β} {l : List α} {r : List β} (h : l.mapM f = .ok r) (sel : List ℕ) :
    (chosen sel l).mapM f = .ok (chosen sel r) := by
  have hlen := mapM_ok_length h
  induction sel with
  | nil => rfl
  | cons i sel ih =>
    rw [chosen_cons, chosen_cons]
    by_cases hi : i < l.length
    · have := mapM_ok_getElem h i hi (by omega)
      rw [List.getElem?_eq_getElem hi, List.getElem?_eq_getElem (by omega)]
      simp only [Option.toList_some, List.singleton_append, List.mapM_cons, this, ih, bind, Except.bind, pure, Except.pure]
    · rw [List.getElem?_eq_none (by omega), List.getElem?_eq_none (by omega)]
      simpa using ih

theorem chosen_zipWith {α β γ : Type} (f : α → β → γ) (sel : List ℕ) (a : List α) (b : List β) (h : a.length = b.length) :
    chosen sel (List.zipWith f a b) = List.zipWith f (chosen sel a) (chosen sel b) := by
  induction sel with
  | nil => rfl
  | cons i sel ih =>
    rw [chosen_cons, chosen_cons, chosen_cons, ih]
    by_cases hi : i < a.length
    · have hz : i < (List.zipWith f a b).length := by rw [List.length_zipWith]; omega
      rw [List.getElem?_eq_getElem hz, List.getElem?_eq_getElem hi, List.getElem?_eq_getElem (by omega), List.getElem_zipWith]
      rfl
    · have hz : ¬ i < (List.zipWith f a b).length := by rw [List.length_zipWith]; omega
      rw [List.getElem?_eq_none (by omega), List.getElem?_eq_none (by omega), List.getElem?_eq_none (by omega)]
      rfl

theorem chosen_length {α : Type} {sel : List ℕ} {l : List α} (h : ∀ i ∈ sel, i < l.length) : (chosen sel l).length = sel.length := by
  induction sel with
  | nil => rfl
  | cons i sel ih =>
    rw [chosen_cons, List.getElem?_eq_getElem (h i (by simp)), Option.toList_some, List.singleton_append, List.length_cons,
      ih fun j hj => h j (by simp [hj]), List.length_cons]

theorem chosen_get {α : Type} {sel : List ℕ} {l : List α} (h : ∀ i ∈ sel, i < l.length) (k : ℕ) :
    (chosen sel l)[k]? = sel[k]?.bind fun i => l[i]? := by
  induction sel generalizing k with
  | nil => rfl
  | cons i sel ih =>
    rw [chosen_cons, List.getElem?_eq_getElem (h i (by simp)), Option.toList_some, List.singleton_append]
    cases k with
    | zero => simp only [List.getElem?_cons_zero, Option.bind_some]; exact (List.getElem?_eq_getElem _).symm
    | succ k => simpa only [List.getElem?_cons_succ] using ih (fun j hj => h j (by simp [hj])) k

theorem chosen_mem {α : Type} {sel : List ℕ} {l : List α} {a : α} (h : a ∈ chosen sel l) : a ∈ l := by
  unfold chosen at h
  obtain ⟨i, -, hi⟩ := List.mem_filterMap.1 h
  exact List.mem_of_getElem? hi

theorem chosen_nodup {α : Type} {sel : List ℕ} {l : List α} (hs : sel.Nodup) (hl : l.Nodup) : (chosen sel l).Nodup := by
  unfold chosen
  refine List.Nodup.filterMap ?_ hs
  intro i j a hi hj
  rw [Option.mem_def] at hi hj
  obtain ⟨h1, e1⟩ := List.getElem?_eq_some_iff.1 hi
  exact (List.getElem?_inj h1 hl).1 (by rw [hi, hj])

theorem chosen_shape1 {V : Type} {sel : List ℕ} {rows : List (List V)} {n : ℤ} (hne : sel ≠ []) (hv : ∀ i ∈ sel, i < rows.length)
    (hrows : ∀ row ∈ rows, (row.length : ℤ) = n) : shape1 (chosen sel rows) = shape1 rows := by
  have hl := chosen_length hv
  have hpos : 0 < sel.length := List.length_pos_iff.2 hne
  obtain ⟨i, hi⟩ := List.exists_mem_of_ne_nil _ hne
  have h1 := shape1_cols hrows (by have := hv i hi; omega)
  have h2 := shape1_cols (rows := chosen sel rows) (n := n) (fun row hr => hrows row (chosen_mem hr)) (by omega)
  omega

/-! ## Time data -/

theorem perChanVector_map (p : PerChan) (n : ℚ) (op : ℚ → ℚ → ℚ) (hop : ∀ x, op n x = x) (chans : List String) (hnd : chans.Nodup) :
    perChanVector p n op chans = chans.map (p.amountFor n) := by
  apply List.ext_getElem?
  intro i
  by_cases hi : i < chans.length
  · rw [perChan_get p n op hop chans hnd i hi, List.getElem?_map, List.getElem?_eq_getElem hi]
    rfl
  · rw [List.getElem?_eq_none (by rw [perChanVector_length]; omega), List.getElem?_eq_none (by simp; omega)]

/-- Specification: a function is given for every channel of the recording, and only once. -/
def Proc.Covers (chans : List String) : Proc → Prop
  | .apply _ fncs => (fncs.map Prod.fst).Nodup ∧ ∀ c ∈ chans, c ∈ fncs.map Prod.fst
  | _ => True

theorem only_newTimeData {V : Type} (sel : List ℕ) (td : TimeData V) (name : String) (md : TimeMeta) (data : List (List V)) :
    (newTimeData td name (some md) (some data)).only sel =
      newTimeData (td.only sel) name (some { md with chans := chosen sel md.chans }) (some (chosen sel data)) := rfl

theorem adjust_only {md md' : TimeMeta} {fs first : ℚ} {n : ℤ} (h : adjustTimeMetadata md fs first n = .ok md') (chans : List String) :
    adjustTimeMetadata { md with chans := chans } fs first n = .ok { md' with chans := chans } := by
  unfold adjustTimeMetadata at h ⊢
  obtain ⟨r, hr, h⟩ := except_bind_ok.1 h
  rw [except_pure_ok] at h
  subst h
  simp only [hr, bind, Except.bind, pure, Except.pure]

theorem adjust_meta_chans {md md' : TimeMeta} {fs first : ℚ} {n : ℤ} (h : adjustTimeMetadata md fs first n = .ok md') :
    md'.chans = md.chans := by
  unfold adjustTimeMetadata at h
  obtain ⟨r, hr, h⟩ := except_bind_ok.1 h
  rw [except_pure_ok] at h
  subst h
  rfl

theorem filter_only (sp : SciPy) (kind : String) (order : ℕ) (band : Except Err (List ℚ)) (sel : List ℕ) (td out : TimeData ℚ)
    (h : filterProc sp kind order band td = .ok out) : filterProc sp kind order band (td.only sel) = .ok (out.only sel) := by
  unfold filterProc at h ⊢
  obtain ⟨wn, hwn, h⟩ := except_bind_ok.1 h
  obtain ⟨data, hdata, h⟩ := except_bind_ok.1 h
  rw [except_pure_ok] at h
  subst h
  have := chosen_mapM hdata sel
  simp only [TimeData.only, hwn, this, bind, Except.bind, pure, Except.pure, newTimeData, Option.getD_none, Option.getD_some]

theorem applyStep_only {sel : List ℕ} {td : TimeData ℚ} (hrows : td.data.length = td.md.chans.length) (hnd : td.md.chans.Nodup)
    (hv : ∀ i ∈ sel, i < td.md.chans.length) (hs : sel.Nodup) (q : String × (List ℚ → List ℚ)) (d d1 : List (List ℚ))
    (h : applyStep td d q = .ok d1) (d' : List (List ℚ)) : ∃ d1', applyStep (td.only sel) d' q = .ok d1' := by
  have hv' : ∀ i ∈ sel, i < td.data.length := by rw [hrows]; exact hv
  by_cases hq : q.1 ∈ chosen sel td.md.chans
  · have hmem := chosen_mem hq
    obtain ⟨k, hk⟩ := List.getElem?_of_mem hq
    rw [chosen_get hv] at hk
    obtain ⟨i, hi, hc⟩ := Option.bind_eq_some_iff.1 hk
    obtain ⟨hil, hie⟩ := List.getElem?_eq_some_iff.1 hc
    have hkl : k < (chosen sel td.md.chans).length := by
      rw [chosen_length hv]; exact (List.getElem?_eq_some_iff.1 hi).1
    have hnd' := chosen_nodup hs hnd
    have hke : (chosen sel td.md.chans)[k] = q.1 := by
      have : (chosen sel td.md.chans)[k]? = some q.1 := by rw [chosen_get hv, hk]
      exact (List.getElem?_eq_some_iff.1 this).2
    have hlen' : (td.only sel).data.length = (td.only sel).md.chans.length := by
      show (chosen sel td.data).length = (chosen sel td.md.chans).length
      rw [chosen_length hv, chosen_length hv']
    have g1 := (C49_get_chan td hrows hnd).1 i hil
    have g2 := (C49_get_chan (td.only sel) hlen' hnd').1 k hkl
    have e2 : (td.only sel).md.chans[k]'hkl = q.1 := hke
    rw [hie] at g1
    rw [e2] at g2
    have hrow : (td.only sel).data[k]'(by rw [hlen']; exact hkl) = td.data[i]'(by omega) := by
      have h1 : (chosen sel td.data)[k]? = some (td.data[i]'(by omega)) := by
        rw [chosen_get hv', hi]
        exact List.getElem?_eq_getElem _
      exact (List.getElem?_eq_some_iff.1 h1).2
    rw [hrow] at g2
    have hci : chanIndex (td.only sel).md.chans q.1 = some k := by
      have := chanIndex_nodup hnd' k hkl
      rwa [hke] at this
    unfold applyStep at h ⊢
    rw [if_pos hmem, g1] at h
    rw [if_pos (show q.1 ∈ (td.only sel).md.chans from hq), g2, hci]
    simp only [bind, Except.bind] at h ⊢
    split at h
    · rename_i hl
      rw [if_pos hl]
      exact ⟨_, rfl⟩
    · cases h
  · refine ⟨d', ?_⟩
    unfold applyStep
    exact if_neg hq

theorem applyFold_only {sel : List ℕ} {td : TimeData ℚ} (hrows : td.data.length = td.md.chans.length) (hnd : td.md.chans.Nodup)
    (hv : ∀ i ∈ sel, i < td.md.chans.length) (hs : sel.Nodup) (fncs : List (String × (List ℚ → List ℚ))) (d d1 : List (List ℚ))
    (h : fncs.foldlM (applyStep td) d = .ok d1) (d' : List (List ℚ)) : ∃ d1', fncs.foldlM (applyStep (td.only sel)) d' = .ok d1' := by
  induction fncs generalizing d d' with
  | nil => exact ⟨d', rfl⟩
  | cons q fncs ih =>
    rw [List.foldlM_cons, except_bind_ok] at h
    obtain ⟨d2, h2, h⟩ := h
    obtain ⟨d2', h2'⟩ := applyStep_only hrows hnd hv hs q d d2 h2 d'
    obtain ⟨d3, h3⟩ := ih d2 h d2'
    exact ⟨d3, by rw [List.foldlM_cons, h2']; exact h3⟩

theorem apply_only {sel : List ℕ} {td out : TimeData ℚ} (hrows : td.data.length = td.md.chans.length) (hnd : td.md.chans.Nodup)
    (hv : ∀ i ∈ sel, i < td.md.chans.length) (hs : sel.Nodup) (junk : ℕ → ℕ → ℚ) (fncs : List (String × (List ℚ → List ℚ)))
    (hk : (fncs.map Prod.fst).Nodup) (hcov : ∀ c ∈ td.md.chans, c ∈ fncs.map Prod.fst)
    (h : applyFunction junk fncs td = .ok out) : applyFunction junk fncs (td.only sel) = .ok (out.only sel) := by
  have hv' : ∀ i ∈ sel, i < td.data.length := by rw [hrows]; exact hv
  unfold applyFunction at h ⊢
  obtain ⟨d, hd, h⟩ := except_bind_ok.1 h
  rw [except_pure_ok] at h
  subst h
  obtain ⟨d', hd'⟩ := applyFold_only hrows hnd hv hs fncs _ d hd
    ((td.only sel).data.mapIdx fun i row => row.mapIdx fun j _ => junk i j)
  obtain ⟨hl, hget⟩ := applyFold td hrows fncs _ d (by simp) hd hk hnd
  have hlen' : (td.only sel).data.length = (td.only sel).md.chans.length := by
    show (chosen sel td.data).length = (chosen sel td.md.chans).length
    rw [chosen_length hv, chosen_length hv']
  obtain ⟨hl', hget'⟩ := applyFold (td.only sel) hlen' fncs _ d' (by simp) hd' hk (chosen_nodup hs hnd)
  have hvd : ∀ i ∈ sel, i < d.length := by rw [hl]; exact hv'
  have key : d' = chosen sel d := by
    apply List.ext_getElem?
    intro k
    by_cases hkk : k < sel.length
    · rw [chosen_get hvd, List.getElem?_eq_getElem hkk, Option.bind_some]
      have hi := hv sel[k] (List.getElem_mem hkk)
      have hkc : k < (td.only sel).md.chans.length := by
        show k < (chosen sel td.md.chans).length
        rw [chosen_length hv]; exact hkk
      have hkc? : (chosen sel td.md.chans)[k]? = some (td.md.chans[sel[k]]'hi) := by
        rw [chosen_get hv, List.getElem?_eq_getElem hkk, Option.bind_some, List.getElem?_eq_getElem hi]
      have hke : (td.only sel).md.chans[k]'hkc = td.md.chans[sel[k]]'hi := (List.getElem?_eq_some_iff.1 hkc?).2
      have hkd? : (chosen sel td.data)[k]? = some (td.data[sel[k]]'(by omega)) := by
        rw [chosen_get hv', List.getElem?_eq_getElem hkk, Option.bind_some, List.getElem?_eq_getElem (by omega)]
      have hkd : (td.only sel).data[k]'(by omega) = td.data[sel[k]]'(by omega) := (List.getElem?_eq_some_iff.1 hkd?).2
      obtain ⟨q, hq, hqe⟩ := List.mem_map.1 (hcov _ (List.getElem_mem hi))
      have hq' : (td.md.chans[sel[k]]'hi, q.2) ∈ fncs := by rw [← hqe]; exact hq
      rw [(hget _ hi).1 q.2 hq', (hget' k hkc).1 q.2 (by rw [hke]; exact hq'), hkd]
    · rw [List.getElem?_eq_none, List.getElem?_eq_none]
      · rw [chosen_length hvd]; omega
      · rw [hl', hlen']
        show (chosen sel td.md.chans).length ≤ k
        rw [chosen_length hv]; omega
  rw [hd', key]
  rfl

/-- One processor, on the chosen channels. -/
theorem proc_only (sp : SciPy) (hl : sp.Lawful) (p : Proc) (hp : p.Valid) (sel : List ℕ) (td out : TimeData ℚ) (hc : td.Consistent)
    (hnd : td.md.chans.Nodup) (hsel : Choice sel td.md.chans.length 1) (hcov : p.Covers td.md.chans) (h : p.run sp td = .ok out) :
    p.run sp (td.only sel) = .ok (out.only sel) := by
  have hv := hsel.valid
  have hv' : ∀ i ∈ sel, i < td.data.length := by rw [hc.rows]; exact hv
  have hne : sel ≠ [] := by have := hsel.enough; rintro rfl; simp at this
  cases p with
  | subsection f t =>
    simp only [Proc.run, Resistics.subsection] at h ⊢
    obtain ⟨q, hq, h⟩ := except_bind_ok.1 h
    obtain ⟨fr, to'⟩ := q
    obtain ⟨q2, hq2, h⟩ := except_bind_ok.1 h
    obtain ⟨ft, tt⟩ := q2
    obtain ⟨md, hmd, h⟩ := except_bind_ok.1 h
    rw [except_pure_ok] at h
    subst h
    have := adjust_only hmd (chosen sel td.md.chans)
    simp only [TimeData.only, hq, hq2, this, bind, Except.bind, pure, Except.pure, newTimeData, Option.getD_some, adjust_meta_chans hmd, chosen_map]
  | interpolateNans =>
    simp only [Proc.run, Except.ok.injEq] at h ⊢
    subst h; rfl
  | removeMean =>
    simp only [Proc.run, Except.ok.injEq] at h ⊢
    subst h
    simp only [TimeData.only, removeMean, newTimeData, Option.getD_some, Option.getD_none, chosen_map]
  | add q =>
    simp only [Proc.run, Except.ok.injEq] at h ⊢
    subst h
    have e1 := perChanVector_map q 0 (· + ·) (fun x => zero_add x) _ hnd
    have e2 := perChanVector_map q 0 (· + ·) (fun x => zero_add x) _ (chosen_nodup hsel.nodup hnd)
    simp only [TimeData.only, addProc, newTimeData, Option.getD_some, Option.getD_none, e1, e2]
    rw [chosen_zipWith _ _ _ _ (by rw [List.length_map, hc.rows]), chosen_map]
  | multiply q =>
    simp only [Proc.run, Except.ok.injEq] at h ⊢
    subst h
    have e1 := perChanVector_map q 1 (· * ·) (fun x => one_mul x) _ hnd
    have e2 := perChanVector_map q 1 (· * ·) (fun x => one_mul x) _ (chosen_nodup hsel.nodup hnd)
    simp only [TimeData.only, multiplyProc, newTimeData, Option.getD_some, Option.getD_none, e1, e2]
    rw [chosen_zipWith _ _ _ _ (by rw [List.length_map, hc.rows]), chosen_map]
  | lowPass c o => exact filter_only sp _ o (passBand c td.md) sel td out h
  | highPass c o => exact filter_only sp _ o (passBand c td.md) sel td out h
  | bandPass l h' o => exact filter_only sp _ o (bandPassBand l h' td.md) sel td out h
  | notch f b o => exact filter_only sp _ o (notchBand f b td.md) sel td out h
  | resample f =>
    have hout := (C23_chain_consistent sp hl [.resample f] (by simpa using hp) td out hc (by simp [runTimeProcessors, h, bind, Except.bind, pure, Except.pure])).1
    simp only [Proc.run, Resistics.resample] at h ⊢
    have hfs : ¬ (td.only sel).md.fs = 0 := hc.fs_pos.ne'
    rw [if_neg hc.fs_pos.ne'] at h
    rw [if_neg hfs]
    by_cases hnum : (sp.limitDen (f / td.md.fs)).num < 1
    · simp [hnum, bind, Except.bind, throw, throwThe, MonadExceptOf.throw] at h
    rw [if_neg hnum] at h
    rw [if_neg (show ¬ (sp.limitDen (f / (td.only sel).md.fs)).num < 1 from hnum)]
    simp only [except_bind_ok, except_pure_ok] at h ⊢
    obtain ⟨md, hmd, rfl⟩ := h
    refine ⟨{ md with chans := chosen sel md.chans }, ?_, ?_⟩
    · have e : shape1 ((td.only sel).data.map (sp.resample (sp.limitDen (f / (td.only sel).md.fs)).num.toNat (sp.limitDen (f / (td.only sel).md.fs)).den))
          = shape1 (td.data.map (sp.resample (sp.limitDen (f / td.md.fs)).num.toNat (sp.limitDen (f / td.md.fs)).den)) := by
        show shape1 ((chosen sel td.data).map _) = _
        rw [← chosen_map]
        exact chosen_shape1 hne (by simpa using hv') hout.cols
      rw [e, adjust_meta_chans hmd]
      exact adjust_only hmd _
    · rw [only_newTimeData, chosen_map]
      rfl
  | decimate m f =>
    have hout := (C23_chain_consistent sp hl [.decimate m f] (by simpa using hp) td out hc (by simp [runTimeProcessors, h, bind, Except.bind, pure, Except.pure])).1
    have hf : ¬ f = 0 := by have := hp.2; omega
    simp only [Proc.run, decimateProc, if_neg hf, except_bind_ok, except_pure_ok] at h ⊢
    obtain ⟨data, hdata, md, hmd, rfl⟩ := h
    refine ⟨chosen sel data, chosen_mapM hdata sel, { md with chans := chosen sel md.chans }, ?_, rfl⟩
    rw [chosen_shape1 (rows := data) hne (by rw [mapM_ok_length hdata]; exact hv') hout.cols, adjust_meta_chans hmd]
    exact adjust_only hmd _
  | shift s =>
    simp only [Proc.run, shiftTimestamps] at h ⊢
    rw [if_neg hc.fs_pos.ne'] at h
    rw [if_neg (show ¬ (td.only sel).md.fs = 0 from hc.fs_pos.ne')]
    by_cases h1 : td.md.dt ≤ s
    · simp [h1, bind, Except.bind, throw, throwThe, MonadExceptOf.throw] at h
    by_cases h2 : td.md.nSamples < 1
    · simp [h1, h2, bind, Except.bind, throw, throwThe, MonadExceptOf.throw] at h
    rw [if_neg h1, if_neg h2] at h
    rw [if_neg (show ¬ (td.only sel).md.dt ≤ s from h1), if_neg (show ¬ (td.only sel).md.nSamples < 1 from h2)]
    simp only [except_bind_ok, except_pure_ok] at h ⊢
    obtain ⟨data, hdata, md, hmd, rfl⟩ := h
    refine ⟨chosen sel data, chosen_mapM hdata sel, { md with chans := chosen sel md.chans }, ?_, rfl⟩
    rw [adjust_meta_chans hmd]
    exact adjust_only hmd _
  | apply j f => exact apply_only hc.rows hnd hv hsel.nodup j f hcov.1 hcov.2 h

/-- **C72**, time data processors: processing the chosen channels alone gives what processing the whole recording gives for them, whatever
the processors and their number.  (`ApplyFunction` has to be given a function for every channel.) -/
theorem C72_time (sp : SciPy) (hl : sp.Lawful) (procs : List Proc) (hp : ∀ p ∈ procs, p.Valid) (sel : List ℕ) (td out : TimeData ℚ)
    (hc : td.Consistent) (hnd : td.md.chans.Nodup) (hsel : Choice sel td.md.chans.length 1)
    (hcov : ∀ p ∈ procs, p.Covers td.md.chans) (h : runTimeProcessors sp procs td = .ok out) :
    runTimeProcessors sp procs (td.only sel) = .ok (out.only sel) := by
  induction procs generalizing td with
  | nil =>
    simp only [runTimeProcessors, List.foldlM_nil, except_pure_ok] at h ⊢
    rw [h]
  | cons p procs ih =>
    simp only [runTimeProcessors, List.foldlM_cons, except_bind_ok] at h ⊢
    obtain ⟨t1, h1, h⟩ := h
    have c1 := C23_chain_consistent sp hl [p] (by simpa using hp p (by simp)) td t1 hc
      (by simp [runTimeProcessors, h1, bind, Except.bind, pure, Except.pure])
    refine ⟨t1.only sel, proc_only sp hl p (hp p (by simp)) sel td t1 hc hnd hsel (hcov p (by simp)) h1, ?_⟩
    exact ih (fun q hq => hp q (by simp [hq])) t1 c1.1 (by rw [c1.2.1]; exact hnd) (by rw [c1.2.1]; exact hsel)
      (fun q hq => by rw [c1.2.1]; exact hcov q (by simp [hq])) h

/-! ## Decimation -/

theorem step_only (sp : SciPy) (hl : sp.Lawful) (useResample : Bool) (maxSingle : ℕ) (hm : 2 ≤ maxSingle) (sel : List ℕ)
    (td out : TimeData ℚ) (factor : ℕ) (hc : td.Consistent) (hnd : td.md.chans.Nodup) (hsel : Choice sel td.md.chans.length 1)
    (h : (if useResample then decimatorResample sp else decimatorDecimate sp maxSingle) td factor = .ok out) :
    (if useResample then decimatorResample sp else decimatorDecimate sp maxSingle) (td.only sel) factor = .ok (out.only sel) ∧
      out.Consistent ∧ out.md.chans = td.md.chans := by
  have run : ∀ p : Proc, p.Valid → p.Covers td.md.chans → p.run sp td = .ok out → p.run sp (td.only sel) = .ok (out.only sel) ∧
      out.Consistent ∧ out.md.chans = td.md.chans := by
    intro p hp hcov hr
    have c1 := C23_chain_consistent sp hl [p] (by simpa using hp) td out hc
      (by simp [runTimeProcessors, hr, bind, Except.bind, pure, Except.pure])
    exact ⟨proc_only sp hl p hp sel td out hc hnd hsel hcov hr, c1.1, c1.2.1⟩
  cases useResample with
  | true =>
    simp only [if_true] at h ⊢
    unfold decimatorResample at h ⊢
    by_cases h1 : factor = 1
    · rw [if_pos h1, Except.ok.injEq] at h
      rw [if_pos h1, ← h]
      exact ⟨rfl, hc, rfl⟩
    rw [if_neg h1] at h ⊢
    by_cases h0 : factor = 0
    · rw [if_pos h0] at h; cases h
    rw [if_neg h0] at h ⊢
    exact run (.resample (td.md.fs / factor)) trivial trivial h
  | false =>
    simp only [Bool.false_eq_true, if_false] at h ⊢
    unfold decimatorDecimate at h ⊢
    by_cases h1 : factor = 1
    · rw [if_pos h1, Except.ok.injEq] at h
      rw [if_pos h1, ← h]
      exact ⟨rfl, hc, rfl⟩
    rw [if_neg h1] at h ⊢
    by_cases h0 : factor = 0
    · rw [if_pos h0] at h; cases h
    rw [if_neg h0] at h ⊢
    exact run (.decimate maxSingle factor) ⟨hm, by omega⟩ trivial h

/-- The accumulated levels of the chosen channels. -/
def DecAcc.only (sel : List ℕ) (acc : DecAcc) : DecAcc where
  data := acc.data.map fun q => (q.1, chosen sel q.2)
  levels := acc.levels

theorem decimatorLoop_only (sp : SciPy) (hl : sp.Lawful) (useResample : Bool) (maxSingle : ℕ) (hm : 2 ≤ maxSingle) (p : DecParams ℚ)
    (sel : List ℕ) (ls : List ℕ) (td : TimeData ℚ) (acc acc' : DecAcc) (hc : td.Consistent) (hnd : td.md.chans.Nodup)
    (hsel : Choice sel td.md.chans.length 1)
    (h : decimatorLoop (if useResample then decimatorResample sp else decimatorDecimate sp maxSingle) p ls td acc = .ok acc') :
    decimatorLoop (if useResample then decimatorResample sp else decimatorDecimate sp maxSingle) p ls (td.only sel) (acc.only sel) =
      .ok (acc'.only sel) := by
  induction ls generalizing td acc with
  | nil =>
    simp only [decimatorLoop, Except.ok.injEq] at h ⊢
    rw [h]
  | cons i ls ih =>
    rw [decimatorLoop] at h ⊢
    obtain ⟨factor, hf, h⟩ := except_bind_ok.1 h
    obtain ⟨new, hnew, h⟩ := except_bind_ok.1 h
    obtain ⟨s1, s2, s3⟩ := step_only sp hl useResample maxSingle hm sel td new factor hc hnd hsel hnew
    simp only [hf, s1, bind, Except.bind] at h ⊢
    by_cases hmin : new.md.nSamples < p.minSamples
    · rw [if_pos hmin, Except.ok.injEq] at h
      rw [if_pos (show (new.only sel).md.nSamples < p.minSamples from hmin), h]
    · rw [if_neg hmin] at h
      rw [if_neg (show ¬ (new.only sel).md.nSamples < p.minSamples from hmin)]
      cases hfs : pyIndex p.decFs (i : ℤ) with
      | error e => rw [hfs] at h; cases h
      | ok x =>
        simp only [hfs] at h ⊢
        have := ih new _ s2 (by rw [s3]; exact hnd) (by rw [s3]; exact hsel) h
        rw [← this]
        simp only [DecAcc.only, List.map_append, List.map_cons, List.map_nil]
        rfl

theorem lookup_image {α β γ : Type} [BEq α] (f : β → γ) (l : List (α × β)) (k : α) :
    (l.map fun q => (q.1, f q.2)).lookup k = (l.lookup k).map f := by
  induction l with
  | nil => rfl
  | cons a l ih =>
    obtain ⟨a1, a2⟩ := a
    simp only [List.map_cons, List.lookup_cons]
    cases k == a1 <;> simp [ih]

theorem dictGet_map_snd {β γ : Type} (f : β → γ) {l : List (ℕ × β)} {k : ℕ} {x : β} (h : dictGet l k = .ok x) :
    dictGet (l.map fun q => (q.1, f q.2)) k = .ok (f x) := by
  unfold dictGet at h ⊢
  rw [lookup_image]
  cases hk : l.lookup k with
  | none => rw [hk] at h; cases h
  | some y =>
    rw [hk] at h
    cases h
    rfl

/-- **C72**, decimation: the levels of the chosen channels are the same. -/
theorem C72_decimated (sp : SciPy) (hl : sp.Lawful) (useResample : Bool) (maxSingle : ℕ) (hm : 2 ≤ maxSingle) (p : DecParams ℚ)
    (sel : List ℕ) (td : TimeData ℚ) (dec : DecData ℚ) (hc : td.Consistent) (hnd : td.md.chans.Nodup)
    (hsel : Choice sel td.md.chans.length 1) (h : Decimator.run sp useResample maxSingle p td = .ok dec) :
    Decimator.run sp useResample maxSingle p (td.only sel) = .ok (dec.only sel) := by
  unfold Decimator.run decimatorRun at h ⊢
  obtain ⟨acc, hacc, h⟩ := except_bind_ok.1 h
  obtain ⟨x, hx, h⟩ := except_bind_ok.1 h
  rw [except_pure_ok] at h
  subst h
  have h1 := decimatorLoop_only sp hl useResample maxSingle hm p sel _ td {} acc hc hnd hsel hacc
  have h2 := dictGet_map_snd (chosen sel) hx
  have h0 : DecAcc.only sel {} = {} := rfl
  rw [h0] at h1
  rw [h1]
  simp only [bind, Except.bind, DecAcc.only, h2, pure, Except.pure]
  rfl

/-! ## Windows -/

theorem windowAt_chosen {V : Type} (sel : List ℕ) (rows : List (List V)) (j w : ℤ) :
    windowAt (chosen sel rows) j w = chosen sel (windowAt rows j w) := by
  unfold windowAt
  rw [chosen_map]

/-- The accumulated windows of the chosen channels. -/
def WinAcc.only {V : Type} (sel : List ℕ) (acc : WinAcc V) : WinAcc V where
  data := acc.data.map fun q => (q.1, q.2.only sel)
  levels := acc.levels

/-- One level in the loop of the windowers. -/
theorem levelData_sizes {V : Type} {rows : List (List V)} {table : List WinRow} {n : ℕ} {w o : ℤ} {arr : WinArr V} {lm : LevelMeta}
    {wlm : WinLevelMeta} (h : getLevelData rows table n w o = .ok arr) (hm : getLevelMetadata lm table w o = .ok wlm) :
    o < w ∧ 1 ≤ o := by
  have h1 : 1 ≤ o := by
    unfold getLevelMetadata at hm
    split at hm
    · split at hm
      · cases hm
      · omega
    · cases hm
  refine ⟨?_, h1⟩
  unfold getLevelData at h
  split at h
  · simp only at h
    split at h
    · cases h
    · split at h
      · cases h
      · omega
  · cases h

theorem windowLoop_only {V : Type} (checked : Bool) (sizes : ℕ → LevelMeta → Except Err (ℤ × ℤ)) (ref : DateTime) (minN : ℤ)
    (hmin : 2 ≤ minN) (dec : DecData V) (hc : dec.Consistent) (sel : List ℕ) (hsel : Choice sel dec.md.chans.length 2)
    (ls : List ℕ) (acc acc' : WinAcc V) (h : windowLoop checked sizes ref minN dec ls acc = .ok acc') :
    windowLoop checked sizes ref minN (dec.only sel) ls (acc.only sel) = .ok (acc'.only sel) := by
  have hn : 2 ≤ dec.md.chans.length := hsel.enough.trans hsel.le
  induction ls generalizing acc with
  | nil =>
    simp only [windowLoop, Except.ok.injEq] at h ⊢
    rw [h]
  | cons i ls ih =>
    rw [windowLoop] at h ⊢
    obtain ⟨lm, hlm, h⟩ := except_bind_ok.1 h
    obtain ⟨wo, hwo, h⟩ := except_bind_ok.1 h
    obtain ⟨table, htab, h⟩ := except_bind_ok.1 h
    have hlm' : pyIndex (dec.only sel).md.levels (i : ℤ) = .ok lm := hlm
    simp only [hlm', hwo, htab, bind, Except.bind]
    by_cases hsm : (table.length : ℤ) < minN
    · rw [if_pos hsm, Except.ok.injEq] at h
      rw [if_pos hsm, h]
    · rw [if_neg hsm] at h ⊢
      obtain ⟨raw, hraw, h⟩ := except_bind_ok.1 h
      obtain ⟨arr, harr, h⟩ := except_bind_ok.1 h
      obtain ⟨u, hchk, h⟩ := except_bind_ok.1 h
      obtain ⟨wlm, hwlm, h⟩ := except_bind_ok.1 h
      obtain ⟨ho, ho1⟩ := levelData_sizes harr hwlm
      have hlm? : dec.md.levels[i]? = some lm := by
        by_cases hi : i < dec.md.levels.length
        · rw [pyIndex_natCast _ _ hi, Except.ok.injEq] at hlm
          rw [List.getElem?_eq_getElem hi, hlm]
        · rw [pyIndex_natCast_ge _ _ (by omega)] at hlm; cases hlm
      obtain ⟨rows, r1, r2, r3⟩ := hc.array i lm hlm?
      have hil : i < dec.md.nLevels := by rw [← hc.n_levels]; exact (List.getElem?_eq_some_iff.1 hlm?).1
      have hraw' : raw = rows := by
        unfold DecData.getLevel dictGet at hraw
        rw [if_neg (by omega), if_neg (by omega), Int.toNat_natCast, r1] at hraw
        injection hraw with hraw
        exact hraw.symm
      subst hraw'
      have hlmc := hc.meta_ok lm (List.mem_of_getElem? hlm?)
      have hv : ∀ i ∈ sel, i < raw.length := by rw [r2]; exact hsel.valid
      have hcl : (chosen sel raw).length = (chosen sel dec.md.chans).length := by
        rw [chosen_length hv, chosen_length hsel.valid]
      have a1 := getLevelData_windows hlmc ho ho1 htab (by omega) hn r2 r3
      have a2 := getLevelData_windows (rows := chosen sel raw) (c := (chosen sel dec.md.chans).length) hlmc ho ho1 htab (by omega)
        (by rw [chosen_length hsel.valid]; exact hsel.enough) hcl (fun row hr => r3 row (chosen_mem hr))
      rw [a1, Except.ok.injEq] at harr
      have hget : (dec.only sel).getLevel i = .ok (chosen sel raw) := by
        unfold DecData.getLevel
        rw [if_neg (show ¬ ((dec.only sel).md.nLevels : ℤ) ≤ i from by show ¬ (dec.md.nLevels : ℤ) ≤ i; omega), if_neg (by omega),
          Int.toNat_natCast]
        refine dictGet_map_snd (chosen sel) ?_
        unfold dictGet
        rw [r1]
      have ha : WinArr.d3 (table.map fun r => windowAt (chosen sel raw) r.fromSample wo.1) = arr.only sel := by
        rw [← harr]
        simp only [WinArr.only, List.map_map]
        congr 1
        refine List.map_congr_left fun r _ => ?_
        exact windowAt_chosen sel raw _ _
      have hchk' : checkShape checked (arr.only sel) table = .ok () := by
        rw [← harr] at hchk ⊢
        unfold checkShape at hchk ⊢
        simp only [WinArr.only, WinArr.shape0, List.length_map] at hchk ⊢
        simp
      have a2' : getLevelData (chosen sel raw) table (dec.only sel).md.chans.length wo.1 wo.2 = .ok (arr.only sel) := by
        rw [← ha]; exact a2
      simp only [hget, a2', hchk', hwlm]
      have := ih _ h
      rw [← this]
      simp only [WinAcc.only, List.map_append, List.map_cons, List.map_nil]

theorem windowed_only {V : Type} (name : String) (dec : DecData V) (ref : DateTime) (acc : WinAcc V) (win : WinData V) (sel : List ℕ)
    (h : windowedResult name dec ref acc = .ok win) : windowedResult name (dec.only sel) ref (acc.only sel) = .ok (win.only sel) := by
  unfold windowedResult at h ⊢
  obtain ⟨x, hx, h⟩ := except_bind_ok.1 h
  rw [except_pure_ok] at h
  subst h
  have h2 := dictGet_map_snd (WinArr.only sel) hx
  have h3 : dictGet (acc.only sel).data 0 = .ok (x.only sel) := h2
  simp only [h3, bind, Except.bind, pure, Except.pure]
  rfl

/-- **C72**, windows: for two or more chosen channels the windows of the chosen channels are the same, with either windower. -/
theorem C72_windowed {V : Type} (ref : DateTime) (p : WinParams) (dec : DecData V) (hc : dec.Consistent)
    (hmin : 2 ≤ p.minNWins) (sel : List ℕ) (hsel : Choice sel dec.md.chans.length 2) :
    (∀ win, windowerRun ref p dec = .ok win → windowerRun ref p (dec.only sel) = .ok (win.only sel)) ∧
    (∀ (t : WindowerTarget) win, t.run ref p dec = .ok win → t.run ref p (dec.only sel) = .ok (win.only sel)) := by
  constructor
  · intro win h
    unfold windowerRun at h ⊢
    obtain ⟨acc, hacc, h⟩ := except_bind_ok.1 h
    have h1 := windowLoop_only true _ ref _ hmin dec hc sel hsel _ {} acc hacc
    have h2 := windowed_only _ _ _ _ _ sel h
    exact except_bind_ok.2 ⟨_, h1, h2⟩
  · intro t win h
    unfold WindowerTarget.run at h ⊢
    obtain ⟨acc, hacc, h⟩ := except_bind_ok.1 h
    have h1 := windowLoop_only false _ ref _ hmin dec hc sel hsel _ {} acc hacc
    have h2 := windowed_only _ _ _ _ _ sel h
    exact except_bind_ok.2 ⟨_, h1, h2⟩

/-! ## Spectra -/

theorem mapM_image {α β γ : Type} {f : α → Except Err β} {f' : α → Except Err γ} (g : β → γ)
    (hfg : ∀ a b, f a = .ok b → f' a = .ok (g b)) {l : List α} {r : List β} (h : l.mapM f = .ok r) : l.mapM f' = .ok (r.map g) := by
  rw [mapM_ok_iff] at h ⊢
  induction h with
  | nil => exact .nil
  | cons h1 _ ih => exact .cons (hfg _ _ h1) ih

theorem numbered_only {V : Type} (sel : List ℕ) (l : List (SpecArr V)) :
    (((l.map fun arr => arr.map (chosen sel)).zipIdx).map fun q => (q.2, q.1)) =
      ((l.zipIdx.map fun q => (q.2, q.1)).map fun (q : ℕ × SpecArr V) => (q.1, q.2.map (chosen sel))) := by
  rw [List.zipIdx_map, List.map_map, List.map_map]
  rfl

theorem mkSpec_only {V : Type} (sel : List ℕ) (md : SpecMeta) (data : List (ℕ × SpecArr V)) (out : SpecData V)
    (h : mkSpecData md data = .ok out) :
    mkSpecData { md with chans := chosen sel md.chans } (data.map fun (q : ℕ × SpecArr V) => (q.1, q.2.map (chosen sel))) =
      .ok (out.only sel) := by
  unfold mkSpecData at h ⊢
  obtain ⟨x, hx, h⟩ := except_bind_ok.1 h
  rw [except_pure_ok] at h
  subst h
  have h2 := dictGet_map_snd (fun arr : SpecArr V => arr.map (chosen sel)) hx
  simp only [h2, bind, Except.bind, pure, Except.pure]
  rfl

theorem winLevel_only {V : Type} (sel : List ℕ) (win : WinData V) (i : ℕ) (raw : WinArr V) (h : win.getLevel i = .ok raw) :
    (win.only sel).getLevel i = .ok (raw.only sel) := by
  unfold WinData.getLevel at h ⊢
  have : ((win.only sel).md.nLevels : ℤ) = win.md.nLevels := rfl
  rw [this]
  split at h
  · cases h
  · split at h
    · cases h
    · rename_i h1 h2
      rw [if_neg h1, if_neg h2]
      exact dictGet_map_snd (WinArr.only sel) h

theorem specLevel_only {V : Type} (sel : List ℕ) (d : SpecData V) (i : ℤ) (arr : SpecArr V) (h : d.getLevel i = .ok arr) :
    (d.only sel).getLevel i = .ok (arr.map (chosen sel)) := by
  unfold SpecData.getLevel levelGet at h ⊢
  have : ((d.only sel).md.nLevels : ℤ) = d.md.nLevels := rfl
  rw [this]
  split at h
  · cases h
  · split at h
    · cases h
    · rename_i h1 h2
      rw [if_neg h1, if_neg h2]
      exact dictGet_map_snd (fun arr : SpecArr V => arr.map (chosen sel)) h

/-- **C72**, Fourier transform: the spectra of the chosen channels are the same. -/
theorem C72_fourier {V W : Type} (nfl : ℕ → ℕ) (ft : ℕ → List V → List W) (win : WinData V) (spec : SpecData W) (sel : List ℕ)
    (h : fourierRun nfl ft win = .ok spec) : fourierRun nfl ft (win.only sel) = .ok (spec.only sel) := by
  unfold fourierRun at h ⊢
  obtain ⟨out, hout, h⟩ := except_bind_ok.1 h
  have h1 : (List.range win.md.nLevels).mapM (fourierLevel nfl ft (win.only sel)) =
      .ok (out.map fun q => (q.1.map (chosen sel), q.2)) := by
    refine mapM_image _ ?_ hout
    intro i b hb
    unfold fourierLevel at hb ⊢
    obtain ⟨lm, hlm, hb⟩ := except_bind_ok.1 hb
    obtain ⟨raw, hraw, hb⟩ := except_bind_ok.1 hb
    obtain ⟨arr, harr, hb⟩ := except_bind_ok.1 hb
    rw [except_pure_ok] at hb
    subst hb
    have hlm' : pyIndex (win.only sel).md.levels (i : ℤ) = .ok lm := hlm
    have hraw' := winLevel_only sel win i raw hraw
    cases raw with
    | d3 w =>
      simp only [winArr3, Except.ok.injEq] at harr
      subst harr
      simp only [hlm', hraw', bind, Except.bind, WinArr.only, winArr3, pure, Except.pure, Except.ok.injEq, Prod.mk.injEq, and_true,
        List.map_map]
      refine List.map_congr_left fun x _ => ?_
      show (chosen sel x).map _ = chosen sel (x.map _)
      rw [chosen_map]
    | d2 w => cases harr
    | d1 w => cases harr
    | d0 w => cases harr
  rw [show (win.only sel).md.nLevels = win.md.nLevels from rfl, h1]
  simp only [bind, Except.bind, List.map_map]
  have h2 := mkSpec_only sel _ _ _ h
  rw [← numbered_only] at h2
  rw [← h2]
  simp only [List.map_map]
  rfl

/-- **C72**, evaluation frequencies: the values of the chosen channels are the same. -/
theorem C72_evals {V : Type} [AddCommGroup V] [Module ℚ V] (p : DecParams ℚ) (spec evals : SpecData V) (sel : List ℕ)
    (h : evalFreqsRun p spec = .ok evals) : evalFreqsRun p (spec.only sel) = .ok (evals.only sel) := by
  unfold evalFreqsRun at h ⊢
  obtain ⟨out, hout, h⟩ := except_bind_ok.1 h
  have h1 : (List.range spec.md.nLevels).mapM (evalLevel p (spec.only sel)) =
      .ok (out.map fun q => (q.1.map (chosen sel), q.2)) := by
    refine mapM_image _ ?_ hout
    intro i b hb
    unfold evalLevel at hb ⊢
    obtain ⟨lm, hlm, hb⟩ := except_bind_ok.1 hb
    obtain ⟨fr, hfr, hb⟩ := except_bind_ok.1 hb
    obtain ⟨arr, harr, hb⟩ := except_bind_ok.1 hb
    obtain ⟨res, hres, hb⟩ := except_bind_ok.1 hb
    rw [except_pure_ok] at hb
    subst hb
    have hlm' : pyIndex (spec.only sel).md.levels (i : ℤ) = .ok lm := hlm
    have harr' := specLevel_only sel spec i arr harr
    unfold evalLevelData at hres
    obtain ⟨idxs, hidxs, hres⟩ := except_bind_ok.1 hres
    have hres' : (arr.map (chosen sel)).mapM (fun win => win.mapM fun row => idxs.mapM (evalAt row)) = .ok (res.map (chosen sel)) := by
      rw [List.mapM_map]
      exact mapM_image (chosen sel) (fun win w' hw => chosen_mapM hw sel) hres
    simp only [hlm', hfr, harr', evalLevelData, hidxs, hres', bind, Except.bind, pure, Except.pure]
  rw [show (spec.only sel).md.nLevels = spec.md.nLevels from rfl, h1]
  simp only [bind, Except.bind, List.map_map]
  have h2 := mkSpec_only sel _ _ _ h
  rw [← numbered_only] at h2
  rw [← h2]
  simp only [List.map_map]
  rfl

/-- The loop of the smoothers. -/
theorem smooth_only {V : Type} (name : String) (filt : ℕ → List V → List V) (spec out : SpecData V) (sel : List ℕ)
    (h : smoothRun name filt spec = .ok out) : smoothRun name filt (spec.only sel) = .ok (out.only sel) := by
  unfold smoothRun at h ⊢
  obtain ⟨res, hres, h⟩ := except_bind_ok.1 h
  have h1 : (List.range spec.md.nLevels).mapM (smoothLevel filt (spec.only sel)) = .ok (res.map fun arr => arr.map (chosen sel)) := by
    refine mapM_image _ ?_ hres
    intro i b hb
    unfold smoothLevel at hb ⊢
    obtain ⟨lm, hlm, hb⟩ := except_bind_ok.1 hb
    obtain ⟨arr, harr, hb⟩ := except_bind_ok.1 hb
    rw [except_pure_ok] at hb
    subst hb
    have hlm' : pyIndex (spec.only sel).md.levels (i : ℤ) = .ok lm := hlm
    have harr' := specLevel_only sel spec i arr harr
    simp only [hlm', harr', bind, Except.bind, pure, Except.pure, List.map_map, Except.ok.injEq]
    refine List.map_congr_left fun x _ => ?_
    show (chosen sel x).map _ = chosen sel (x.map _)
    rw [chosen_map]
  rw [show (spec.only sel).md.nLevels = spec.md.nLevels from rfl, h1]
  simp only [bind, Except.bind]
  have h2 := mkSpec_only sel _ _ _ h
  rw [← numbered_only] at h2
  rw [← h2]
  rfl

/-- **C72**, smoothing: the smoothed spectra of the chosen channels are the same, with either smoother. -/
theorem C72_smoothed {V : Type} [AddCommGroup V] [Module ℚ V] (spec out : SpecData V) (sel : List ℕ) :
    (∀ prop, smoothUniformRun prop spec = .ok out → smoothUniformRun prop (spec.only sel) = .ok (out.only sel)) ∧
    (∀ gauss sigma, smoothGaussianRun gauss sigma spec = .ok out → smoothGaussianRun gauss sigma (spec.only sel) = .ok (out.only sel)) :=
  ⟨fun _ h => smooth_only _ _ _ _ _ h, fun _ _ h => smooth_only _ _ _ _ _ h⟩

/-- **C72**, levels: a level of the chosen channels has, window by window, the chosen rows. -/
theorem C72_levels {V : Type} (d : SpecData V) (sel : List ℕ) (level : ℤ) (arr : SpecArr V) (h : d.getLevel level = .ok arr) :
    (d.only sel).getLevel level = .ok (arr.map (chosen sel)) := specLevel_only sel d level arr h

/-! ## Calibration -/

theorem assoc_ext {β : Type} : ∀ (l₁ l₂ : List (ℕ × β)), l₁.map Prod.fst = l₂.map Prod.fst → (l₁.map Prod.fst).Nodup →
    (∀ q ∈ l₁, q ∈ l₂) → l₁ = l₂
  | [], l₂, hk, _, _ => by
    have := congrArg List.length hk
    simp at this
    exact (List.length_eq_zero_iff.1 this.symm).symm
  | a :: l₁, [], hk, _, _ => by simp at hk
  | a :: l₁, b :: l₂, hk, hnd, h => by
    simp only [List.map_cons, List.cons.injEq] at hk
    rw [List.map_cons, List.nodup_cons] at hnd
    have hab : a = b := by
      rcases List.mem_cons.1 (h a (by simp)) with e | e
      · exact e
      · exact absurd (by rw [hk.2]; exact List.mem_map.2 ⟨a, e, rfl⟩) hnd.1
    subst hab
    congr 1
    refine assoc_ext l₁ l₂ hk.2 hnd.2 fun q hq => ?_
    rcases List.mem_cons.1 (h q (by simp [hq])) with e | e
    · subst e
      exact absurd (List.mem_map.2 ⟨q, hq, rfl⟩) hnd.1
    · exact e

/-- **C72**, calibration: the calibrated spectra of the chosen channels are the same (with the conditions of
`C41_calibrates_exactly_the_selected`, which make the calibration of the whole succeed). -/
theorem C72_calibrated {W : Type} [Field W] (expj : ℚ → W) (cal : Option (List String)) (get : String → Option CalData) (d out : SpecData W)
    (hs : d.CalShaped) (hnd : d.md.chans.Nodup) (hcal : ∀ l, cal = some l → l.Nodup)
    (ht : ∀ ch ∈ d.md.chans, (∀ l, cal = some l → ch ∈ l) → ∀ c, get ch = some c → c.Table)
    (hone : ∀ k < d.md.nLevels, ∀ lm arr, d.md.levels[k]? = some lm → (k, arr) ∈ d.data → lm.freqs.length = 1 → arr.length = 1)
    (hall : ∀ q ∈ d.data, q.1 < d.md.nLevels)
    (sel : List ℕ) (hsel : Choice sel d.md.chans.length 1) (h : sensorCalibrate expj cal get d = .ok out) :
    sensorCalibrate expj cal get (d.only sel) = .ok (out.only sel) := by
  have hmemD : ∀ k arr', (k, arr') ∈ (d.only sel).data → ∃ arr, (k, arr) ∈ d.data ∧ arr' = arr.map (chosen sel) := by
    intro k arr' hk
    obtain ⟨q, hq, e⟩ := List.mem_map.1 hk
    cases e
    exact ⟨q.2, hq, rfl⟩
  have hkeys : ∀ e : SpecData W, (e.only sel).data.map (·.1) = e.data.map (·.1) := by
    intro e
    simp only [SpecData.only, List.map_map]
    rfl
  have hs' : (d.only sel).CalShaped := by
    refine ⟨by rw [hkeys]; exact hs.keys, ?_, ?_⟩
    · have := lookup_image (fun arr : SpecArr W => arr.map (chosen sel)) d.data 0
      show (List.lookup 0 (d.data.map fun q => (q.1, q.2.map (chosen sel)))).isSome = true
      rw [this, Option.isSome_map]
      exact hs.zero
    · intro k hk
      obtain ⟨lm, arr, e1, e2, e3⟩ := hs.level k hk
      refine ⟨lm, arr.map (chosen sel), e1, List.mem_map.2 ⟨(k, arr), e2, rfl⟩, ?_⟩
      intro win hwin
      obtain ⟨w0, hw0, rfl⟩ := List.mem_map.1 hwin
      obtain ⟨f1, f2⟩ := e3 w0 hw0
      refine ⟨?_, fun row hr => f2 row (chosen_mem hr)⟩
      show (chosen sel w0).length = (chosen sel d.md.chans).length
      rw [chosen_length (by rw [f1]; exact hsel.valid), chosen_length hsel.valid]
  obtain ⟨o1, r1, m1, k1, b1⟩ := C41_calibrates_exactly_the_selected expj cal get d hs hnd hcal ht hone
  rw [h, Except.ok.injEq] at r1
  subst r1
  obtain ⟨o2, r2, m2, k2, b2⟩ := C41_calibrates_exactly_the_selected expj cal get (d.only sel) hs' (chosen_nodup hsel.nodup hnd) hcal
    (fun ch hch => ht ch (chosen_mem hch)) (by
      intro k hk lm arr' hlm harr' hf
      obtain ⟨arr, harr, rfl⟩ := hmemD k arr' harr'
      rw [List.length_map]
      exact hone k hk lm arr hlm harr hf)
  rw [r2]
  congr 1
  have hmd : o2.md = (out.only sel).md := by
    rw [m2]
    simp only [SpecData.only, m1]
  have hkk : o2.data.map Prod.fst = (out.only sel).data.map Prod.fst := by
    have e1 := hkeys out
    have e2 := hkeys d
    simp only at k1 k2 e1 e2
    rw [k2, e1, e2, k1]
  have hdata : (out.only sel).data = o2.data := by
    refine assoc_ext _ _ hkk.symm (by rw [← hkk, k2, hkeys]; exact hs.keys) ?_
    intro q hq
    obtain ⟨q0, hq0, rfl⟩ := List.mem_map.1 hq
    obtain ⟨k, arrO⟩ := q0
    have hkmem : k ∈ d.data.map (·.1) := by rw [← k1]; exact List.mem_map.2 ⟨_, hq0, rfl⟩
    obtain ⟨q1, hq1, e⟩ := List.mem_map.1 hkmem
    obtain ⟨k', arr⟩ := q1
    simp only at e
    subst e
    have hkn := hall _ hq1
    obtain ⟨lm, arr0, l1, l2, l3⟩ := hs.level k' hkn
    have : arr0 = arr := nodup_keys_unique hs.keys l2 hq1
    subst this
    obtain ⟨arr1, p1, p2, p3⟩ := (b1 k' arr0 hq1).2 lm hkn l1
    have : arr1 = arrO := nodup_keys_unique (by rw [k1]; exact hs.keys) p1 hq0
    subst this
    obtain ⟨arr2, q1, q2, q3⟩ := (b2 k' (arr0.map (chosen sel)) (List.mem_map.2 ⟨_, hq1, rfl⟩)).2 lm hkn l1
    have harr : arr1.map (chosen sel) = arr2 := by
      apply List.ext_getElem?
      intro w
      by_cases hw : w < arr0.length
      · have hw0 : arr0[w]? = some arr0[w] := List.getElem?_eq_getElem hw
        obtain ⟨win1, s1, s2, s3⟩ := p3 w _ hw0
        obtain ⟨win2, t1, t2, t3⟩ := q3 w (chosen sel arr0[w]) (by rw [List.getElem?_map, hw0]; rfl)
        rw [List.getElem?_map, s1, t1, Option.map_some]
        congr 1
        obtain ⟨u1, u2⟩ := l3 arr0[w] (List.getElem_mem hw)
        have hv1 : ∀ i ∈ sel, i < win1.length := by rw [s2, u1]; exact hsel.valid
        have hv0 : ∀ i ∈ sel, i < arr0[w].length := by rw [u1]; exact hsel.valid
        apply List.ext_getElem?
        intro j
        by_cases hj : j < sel.length
        · have hi := hsel.valid sel[j] (List.getElem_mem hj)
          have hjj : sel[j]? = some sel[j] := List.getElem?_eq_getElem hj
          rw [chosen_get hv1, hjj, Option.bind_some]
          have hch : d.md.chans[sel[j]]? = some (d.md.chans[sel[j]]'hi) := List.getElem?_eq_getElem hi
          have hrow : arr0[w][sel[j]]? = some (arr0[w][sel[j]]'(hv0 _ (List.getElem_mem hj))) := List.getElem?_eq_getElem _
          obtain ⟨row1, x1, x2, x3, x4⟩ := s3 sel[j] _ _ hch hrow
          obtain ⟨row2, y1, y2, y3, y4⟩ := t3 j (d.md.chans[sel[j]]'hi) (arr0[w][sel[j]]'(hv0 _ (List.getElem_mem hj)))
            (by show (chosen sel d.md.chans)[j]? = _; rw [chosen_get hsel.valid, hjj, Option.bind_some, hch])
            (by rw [chosen_get hv0, hjj, Option.bind_some, hrow])
          rw [x1, y1]
          congr 1
          by_cases hin : ∀ l, cal = some l → d.md.chans[sel[j]]'hi ∈ l
          · cases hg : get (d.md.chans[sel[j]]'hi) with
            | none => rw [x4 (Or.inr hg), y4 (Or.inr hg)]
            | some c =>
              have htab := ht _ (List.getElem_mem hi) hin c hg
              apply List.ext_getElem?
              intro n
              have hrl : (arr0[w][sel[j]]'(hv0 _ (List.getElem_mem hj))).length = lm.freqs.length := u2 _ (List.getElem_mem _)
              by_cases hn : n < lm.freqs.length
              · obtain ⟨z1, a1, a2⟩ := x3 c hin hg n _ _ (List.getElem?_eq_getElem (by omega)) (List.getElem?_eq_getElem hn)
                obtain ⟨z2, c1, c2⟩ := y3 c hin hg n _ _ (List.getElem?_eq_getElem (by omega)) (List.getElem?_eq_getElem hn)
                rw [a2, c2, C41_response_unique expj c htab _ _ _ a1 c1]
              · rw [List.getElem?_eq_none (by omega), List.getElem?_eq_none (by omega)]
          · push Not at hin
            rw [x4 (Or.inl hin), y4 (Or.inl hin)]
        · rw [List.getElem?_eq_none (by rw [chosen_length hv1]; omega), List.getElem?_eq_none (by
            rw [t2, chosen_length hv0]; omega)]
      · rw [List.getElem?_eq_none (by rw [List.length_map]; omega), List.getElem?_eq_none (by rw [q2, List.length_map]; omega)]
    show (k', arr1.map (chosen sel)) ∈ o2.data
    rw [harr]
    exact q1
  obtain ⟨md2, data2⟩ := o2
  simp only at hmd hdata
  rw [hmd, ← hdata]

end Resistics
