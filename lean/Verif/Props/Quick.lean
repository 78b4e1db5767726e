import Verif.Model.Quick
import Verif.Props.Evals
import Verif.Props.Process
import Verif.Props.EndToEndDemo
import Verif.Props.Timestamps
import Verif.Props.Calibrate

/-!
# Quick processing (C58)

`quick_read`, `quick_view` and `quick_tf` on a directory, and how they compare with processing in a project.
-/

namespace Resistics

/-! ## Specification -/

/-- Specification: a reader reads the directory, metadata and data. -/
def TReader.Reads (r : TReader ℂ) (fs : FS ℂ) (dir : Path) (td : TimeData ℚ) : Prop :=
  ∃ md, r.readMeta fs dir = .ok md ∧ r.readData fs dir md {} = .ok td

/-- Specification: data at the evaluation frequencies that fit their metadata, with the channels of the transfer function,
the right number of frequencies on each level, and at least one window. -/
structure Config.EvalsFit (c : Config) (perLevel : ℕ) (d : SpecData ℂ) : Prop where
  shaped : d.Shaped
  chans : d.md.chans.Nodup
  out : ∀ a ∈ c.tf.outChans, a ∈ d.md.chans
  inp : ∀ a ∈ c.tf.inChans, a ∈ d.md.chans
  cross : ∀ a ∈ c.tf.crossChans, a ∈ d.md.chans
  per : ∀ lm ∈ d.md.levels, lm.freqs.length = perLevel
  windows : ∃ lm ∈ d.md.levels, 0 < lm.nWins

/-- Specification: the measurement is the only one of the site at its sampling frequency. -/
def Project.OnlyAtRate {W : Type} (p : Project W) (site meas : String) (m : Meas W) : Prop :=
  ∃ s, p.getSite site = .ok s ∧ s.getMeasurements (some m.md.fs) = [(meas, m)]

/-! ## quick_read -/

theorem tryRead_some {fs : FS ℂ} {dir : Path} {r : TReader ℂ} {td : TimeData ℚ} :
    tryRead fs dir r = some td ↔ r.Reads fs dir td := by
  unfold tryRead TReader.Reads
  cases h : r.readMeta fs dir with
  | error e => simp [bind, Except.bind]
  | ok md =>
    simp only [bind, Except.bind]
    cases h' : r.readData fs dir md {} with
    | error e => simp [h']
    | ok td' => simp [h']

theorem tryRead_none {fs : FS ℂ} {dir : Path} {r : TReader ℂ} :
    tryRead fs dir r = none ↔ ∀ td, ¬ r.Reads fs dir td := by
  constructor
  · intro h td htd
    rw [tryRead_some.2 htd] at h
    cases h
  · intro h
    cases h' : tryRead fs dir r with
    | none => rfl
    | some td => exact absurd (tryRead_some.1 h') (h td)

/-- **C58**. `quick_read` gives what the first reader in the list that can read the directory reads, whatever the later ones
would read and whatever exceptions the earlier ones raise; it raises `TimeDataReadError` exactly when no reader can, and never
anything else. -/
theorem C58_quick_read (c : Config) (fs : FS ℂ) (dir : Path) :
    (∀ td, c.quickRead fs dir = .ok td ↔ ∃ pre r post, c.readers = pre ++ r :: post ∧ r.Reads fs dir td ∧
      ∀ r' ∈ pre, ∀ td', ¬ r'.Reads fs dir td') ∧
    ((∀ r ∈ c.readers, ∀ td, ¬ r.Reads fs dir td) ↔ c.quickRead fs dir = .error .timeRead) ∧
    (∀ e, c.quickRead fs dir = .error e → e = .timeRead) := by
  unfold Config.quickRead
  refine ⟨fun td => ?_, ?_, ?_⟩
  · cases h : c.readers.findSome? (tryRead fs dir) with
    | none =>
      simp only [reduceCtorEq, false_iff, not_exists, not_and]
      rw [List.findSome?_eq_none_iff] at h
      intro pre r post hr hrd
      exact absurd (h r (by rw [hr]; simp)) (by rw [tryRead_some.2 hrd]; simp)
    | some td' =>
      simp only [Except.ok.injEq]
      rw [List.findSome?_eq_some_iff] at h
      obtain ⟨pre, r, post, h1, h2, h3⟩ := h
      constructor
      · rintro rfl
        exact ⟨pre, r, post, h1, tryRead_some.1 h2, fun r' hr' => tryRead_none.1 (h3 r' hr')⟩
      · rintro ⟨pre', r', post', e1, e2, e3⟩
        have : c.readers.findSome? (tryRead fs dir) = some td := by
          rw [List.findSome?_eq_some_iff]
          exact ⟨pre', r', post', e1, tryRead_some.2 e2, fun x hx => tryRead_none.2 (e3 x hx)⟩
        have h' : c.readers.findSome? (tryRead fs dir) = some td' := by
          rw [List.findSome?_eq_some_iff]
          exact ⟨pre, r, post, h1, h2, h3⟩
        rw [this, Option.some.injEq] at h'
        exact h'.symm
  · cases h : c.readers.findSome? (tryRead fs dir) with
    | none =>
      rw [List.findSome?_eq_none_iff] at h
      exact ⟨fun _ => rfl, fun _ r hr => tryRead_none.1 (h r hr)⟩
    | some td =>
      simp only [reduceCtorEq, iff_false, not_forall]
      rw [List.findSome?_eq_some_iff] at h
      obtain ⟨pre, r, post, h1, h2, h3⟩ := h
      exact ⟨r, by rw [h1]; simp, td, fun hn => hn (tryRead_some.1 h2)⟩
  · intro e h
    split at h
    · cases h
    · exact (Except.error.inj h).symm

/-- **C58**. When a project is loaded with the readers of the configuration and the reader chosen for a measurement reads its
data, `quick_read` of the measurement's directory gives the same recording. -/
theorem C58_same_recording (c : Config) (ls : Path → List String) (now : Path → DateTime × DateTime) (fs : FS ℂ) (dir : Path)
    (hls : IsListing ls fs) (p : Project ℂ) (h : loadProject ls now c.readers fs dir = .ok p) (site meas : String) (m : Meas ℂ)
    (hm : p.getMeas site meas = .ok m) (td : TimeData ℚ) (hr : m.reader.readData fs m.dirPath m.md {} = .ok td) :
    c.quickRead fs m.dirPath = .ok td := by
  obtain ⟨h1, _, _, _, h5, _⟩ := C44_lists_exactly ls now c.readers fs dir hls p h
  unfold Project.getMeas at hm
  obtain ⟨s, hs, hm⟩ := except_bind_ok.1 hm
  unfold Project.getSite at hs
  unfold Site.getMeasurement at hm
  split at hs
  · rename_i s' hs'
    cases hs
    split at hm
    · rename_i m' hm'
      rw [Except.ok.injEq] at hm
      subst hm
      obtain ⟨e1, e2, e3, _⟩ := h5 site _ (lookup_some_mem hs')
      obtain ⟨_, _, e5, pre, post, e6, e7, e8⟩ := (e3.2 meas m').1 (lookup_some_mem hm')
      rw [← e5] at e7 e8
      refine ((C58_quick_read c fs m'.dirPath).1 td).2 ⟨pre, m'.reader, post, e6, ⟨m'.md, e7, hr⟩, ?_⟩
      rintro r' hr' td' ⟨md, h1, -⟩
      obtain ⟨e, he⟩ := e8 r' hr'
      rw [h1] at he
      cases he
    · cases hm
  · cases hs

/-! ## The solution depends on the gathered numbers only -/

theorem prepareGathered_relabel (tf : TransFunc) (g g' : Gathered ℂ) (ho : g.outData.data = g'.outData.data)
    (hi : g.inData.data = g'.inData.data) (hx : g.crossData.data = g'.crossData.data)
    (hf : g.outData.evalFreqs.length = g'.outData.evalFreqs.length) :
    prepareGathered tf g = (prepareGathered tf g').map fun r => { r with freqs := g.outData.evalFreqs } := by
  have he : prepareEval tf g = prepareEval tf g' := by
    funext idx
    unfold prepareEval siteRows
    rw [ho, hi, hx]
  unfold prepareGathered
  rw [he, hf]
  cases (List.range g'.outData.evalFreqs.length).mapM (prepareEval tf g') with
  | error e => rfl
  | ok rows => rfl

theorem solveWith_relabel (getCoef : List (List ℝ) → List ℝ → Except Err (List ℝ)) (r : RegInput) (freqs : List ℚ)
    (hf : freqs.length = r.freqs.length) :
    solveWith getCoef { r with freqs := freqs } = (solveWith getCoef r).map fun s => { s with freqs := freqs } := by
  have he : ∀ k, solveEval getCoef { r with freqs := freqs } k = solveEval getCoef r k := fun k => rfl
  unfold solveWith RegInput.nFreqs
  simp only [hf]
  by_cases hc : r.tf.nOut < 0 ∨ r.tf.nIn < 0
  · simp only [if_pos hc]; rfl
  · simp only [if_neg hc]
    have : (solveEval getCoef { r with freqs := freqs }) = solveEval getCoef r := funext he
    rw [this]
    cases (List.range r.freqs.length).mapM (solveEval getCoef r) with
    | error e => rfl
    | ok ts =>
      simp only [bind, Except.bind, pure, Except.pure]
      unfold getSolutionOf
      cases (chanPairs r.tf).foldlM (solutionStep ts) [] with
      | error e => rfl
      | ok comps => rfl

theorem solve_relabel (c : Config) (g g' : Gathered ℂ) (ho : g.outData.data = g'.outData.data)
    (hi : g.inData.data = g'.inData.data) (hx : g.crossData.data = g'.crossData.data)
    (hf : g.outData.evalFreqs.length = g'.outData.evalFreqs.length) :
    c.solve g = (c.solve g').map fun s => { s with freqs := g.outData.evalFreqs } := by
  unfold Config.solve
  rw [prepareGathered_relabel c.tf g g' ho hi hx hf]
  cases h : prepareGathered c.tf g' with
  | error e => rfl
  | ok r =>
    simp only [Except.map, bind, Except.bind]
    refine solveWith_relabel c.getCoef r _ ?_
    unfold prepareGathered at h
    obtain ⟨rows, -, h⟩ := except_bind_ok.1 h
    rw [except_pure_ok] at h
    rw [← h, hf]

/-! ## Gathering what is stored -/

theorem quickSite_same (name : String) (p p' : DecParams ℚ) (hp : p'.perLevel = p.perLevel) (d : SpecData ℂ) (hist : List String)
    (chans : List String) :
    (quickSite name p' { md := { d.md with history := hist }, data := d.data } chans).map
        (fun q => (q.data, q.evalFreqs)) =
      (quickSite name p d chans).map (fun q => (q.data, q.evalFreqs)) := by
  have h1 : quickEvalFreqs ({ md := { d.md with history := hist }, data := d.data } : SpecData ℂ) = quickEvalFreqs d := rfl
  have h2 : quickLevel p' { md := { d.md with history := hist }, data := d.data } chans = quickLevel p d chans := by
    funext data i
    unfold quickLevel
    rw [hp]
    rfl
  unfold quickSite
  rw [h1, h2]
  cases quickEvalFreqs d with
  | error e => rfl
  | ok fr =>
    simp only [bind, Except.bind]
    cases (List.range d.md.nLevels).foldlM (quickLevel p d chans) [] with
    | error e => rfl
    | ok data => rfl

theorem lookup_map_snd {α β γ : Type} [BEq α] [LawfulBEq α] (f : β → γ) (l : List (α × β)) (k : α) :
    (l.map fun q => (q.1, f q.2)).lookup k = (l.lookup k).map f := by
  induction l with
  | nil => rfl
  | cons q l ih =>
    obtain ⟨a, b⟩ := q
    simp only [List.map_cons, List.lookup_cons]
    cases k == a <;> simp [ih]

/-- The gathered data of one site for a project with one measurement at the rate. -/
theorem site_gathered (store : EvalStore ℂ) (proj : GProject) (p p' : DecParams ℚ) (hper : p'.perLevel = p.perLevel)
    (site meas : String) (hci : site ≠ "combined_index") (ms : List (String × ℚ))
    (hsite : proj.sites.lookup site = some ms) (hone : ∀ n, (n, p'.fs) ∈ ms ↔ n = meas) (d : SpecData ℂ) (hist hist' : List String)
    (hrd : store.readData site meas = .ok { md := { d.md with history := hist }, data := d.data })
    (hrm : store.readMeta site meas = .ok { d.md with history := hist' })
    (hsh : d.Shaped) (hnd : d.md.chans.Nodup) (chans : List String) (hch : ∀ c ∈ chans, c ∈ d.md.chans)
    (hfr : ∀ lm ∈ d.md.levels, lm.freqs.length = p.perLevel) (hlev : d.md.nLevels ≤ p'.nLevels)
    (hwin : ∃ lm ∈ d.md.levels, 0 < lm.nWins) (name : String) :
    ∃ sel s q labels, selectorRun store proj [site] p' = .ok sel ∧ getSiteData store proj sel site chans = .ok s ∧
      quickSite name p d chans = .ok q ∧ s.data = q.data ∧
      (List.range d.md.nLevels).mapM (fun (i : ℕ) => p'.getEvalFreqs (i : ℤ)) = .ok labels ∧ s.evalFreqs = labels.flatten ∧
      q.evalFreqs = (d.md.levels.map (·.freqs)).flatten := by
  -- a store without the other measurements
  let store1 : EvalStore ℂ :=
    ⟨fun s n => if s = site ∧ n = meas then store.readMeta s n else .error .read, store.readData⟩
  have hm1 : store1.readMeta site meas = .ok { d.md with history := hist' } := by
    show (if site = site ∧ meas = meas then _ else _) = _
    rw [if_pos ⟨rfl, rfl⟩, hrm]
  have hst : StoreWf store1 := by
    intro s n md h
    change (if s = site ∧ n = meas then store.readMeta s n else Except.error Err.read) = Except.ok md at h
    split at h
    · rename_i hc
      obtain ⟨rfl, rfl⟩ := hc
      rw [hrm, Except.ok.injEq] at h
      subst h
      exact hsh.n_levels
    · cases h
  have hsel : selectorRun store proj [site] p' = selectorRun store1 proj [site] p' := by
    have hw : getSiteWins store proj p'.fs site = getSiteWins store1 proj p'.fs site := by
      have : getSiteEvalsMetadata store proj site p'.fs = getSiteEvalsMetadata store1 proj site p'.fs := by
        unfold getSiteEvalsMetadata GProject.getSite
        rw [hsite]
        show Except.ok _ = Except.ok _
        congr 1
        apply List.filterMap_congr
        rintro ⟨n, r⟩ hn
        rw [List.mem_filter, decide_eq_true_eq] at hn
        obtain ⟨h1, h2⟩ := hn
        simp only at h2
        subst h2
        rw [(hone n).1 h1]
        unfold evalsMetaOf
        rw [hm1, hrm]
      unfold getSiteWins
      rw [this]
    unfold selectorRun
    have hs : sortedSet [site] = [site] := rfl
    rw [hs]
    simp only [List.mapM_cons, List.mapM_nil, hw]
  obtain ⟨sel, s, q, h1, h2, h3, h4, -, -, -, -, labels, h5, h6⟩ := C32_agrees store1 proj p' site meas hci ms hsite hone
    { md := { d.md with history := hist }, data := d.data } hst hrd _ hm1 ⟨rfl, rfl⟩ (hsh.history hist) hnd chans hch
    (by rw [hper]; exact hfr) hlev hwin name
  have hq := quickSite_same name p p' hper d hist chans
  rw [h3] at hq
  obtain ⟨q', e1, e2⟩ := except_map_ok.1 hq.symm
  simp only [Prod.mk.injEq] at e2
  refine ⟨sel, s, q', labels, by rw [hsel]; exact h1, h2, e1, by rw [h4, e2.1], h5, h6, ?_⟩
  obtain ⟨q2, f1, -, -, f2, -⟩ := C32_quick_site name p d hsh hnd chans hch hfr
  rw [f1, Except.ok.injEq] at e1
  rw [← e1, f2]

/-- The number of labels. -/
theorem labels_length (p : DecParams ℚ) (hlen : p.evalFreqs.length = p.nLevels * p.perLevel) (n : ℕ) (hn : n ≤ p.nLevels)
    (labels : List (List ℚ)) (h : (List.range n).mapM (fun (i : ℕ) => p.getEvalFreqs (i : ℤ)) = .ok labels) :
    labels.flatten.length = n * p.perLevel := by
  have hl := mapM_ok_length h
  rw [List.length_range] at hl
  have hall : ∀ row ∈ labels, row.length = p.perLevel := by
    intro row hrow
    obtain ⟨i, hi, rfl⟩ := List.mem_iff_getElem.1 hrow
    have := mapM_ok_getElem h i (by simpa [hl] using hi) hi
    rw [List.getElem_range] at this
    by_cases h0 : 0 < p.perLevel
    · obtain ⟨row', f, e1, e2, -⟩ := (C19_eval_freq_lookup p hlen i 0).1
        ⟨by omega, by have : i < p.nLevels := by omega
                      exact_mod_cast this, le_rfl, by exact_mod_cast h0⟩
      rw [this, Except.ok.injEq] at e1
      rw [e1, e2]
    · unfold DecParams.getEvalFreqs at this
      obtain ⟨-, -, g1⟩ := except_bind_ok.1 this
      rw [except_pure_ok] at g1
      have h0' : p.perLevel = 0 := by omega
      rw [← g1]
      simp [h0', pySlice]
  rw [List.length_flatten, List.map_congr_left hall, List.map_const', List.sum_replicate, hl]
  rfl

/-- **C58** (the core). The transfer function that a project gives for a site with one measurement at the rate whose stored data
are `d`, compared with solving quickly gathered `d`: the same components, with the frequencies of the decimation parameters of
the given sampling frequency. -/
theorem tfOf_stored (c : Config) (p : Project ℂ) (disk : FS ℂ) (site meas : String) (m : Meas ℂ)
    (hone : p.OnlyAtRate site meas m) (hci : site ≠ "combined_index") (d : SpecData ℂ)
    (hst : StoredAs disk p.dirPath c.name (site, meas) d) (dp dp' : DecParams ℚ)
    (hdp' : c.decSetup.run c.defaultFreqs m.md.fs = .ok dp') (hper : dp'.perLevel = dp.perLevel)
    (hfit : c.EvalsFit dp.perLevel d) (hlev : d.md.nLevels ≤ dp'.nLevels)
    (hlen : dp'.evalFreqs.length = dp'.nLevels * dp'.perLevel) (name : String) :
    ∃ g labels, quickGather name dp c.tf.gatherChans d = .ok g ∧
      (List.range d.md.nLevels).mapM (fun (i : ℕ) => dp'.getEvalFreqs (i : ℤ)) = .ok labels ∧
      g.outData.evalFreqs = (d.md.levels.map (·.freqs)).flatten ∧
      c.tfOf p disk m.md.fs site none none = (c.solve g).map fun sol => { sol with freqs := labels.flatten } := by
  obtain ⟨s, hs, hms⟩ := hone
  have hfs : dp'.fs = m.md.fs := (DecSetup.run_spec _ _ _ _ hdp').1
  have hsite : p.forGather.sites.lookup site = some (s.measurements.map fun m => (m.1, m.2.md.fs)) := by
    unfold Project.forGather
    rw [lookup_map_snd (fun s : Site ℂ => s.measurements.map fun m => (m.1, m.2.md.fs))]
    unfold Project.getSite at hs
    cases hl : p.sites.lookup site with
    | none => rw [hl] at hs; cases hs
    | some s' => rw [hl, Except.ok.injEq] at hs; rw [hs]; rfl
  have hone' : ∀ n, (n, dp'.fs) ∈ (s.measurements.map fun m => (m.1, m.2.md.fs)) ↔ n = meas := by
    intro n
    rw [hfs]
    have hf : ∀ x, x ∈ s.measurements ∧ x.2.md.fs = m.md.fs ↔ x = (meas, m) := by
      intro x
      have : x ∈ s.getMeasurements (some m.md.fs) ↔ x ∈ s.measurements ∧ x.2.md.fs = m.md.fs := by
        simp [Site.getMeasurements]
      rw [← this, hms, List.mem_singleton]
    constructor
    · intro h
      obtain ⟨x, hx, e⟩ := List.mem_map.1 h
      simp only [Prod.mk.injEq] at e
      have := (hf x).1 ⟨hx, e.2⟩
      rw [← e.1, this]
    · rintro rfl
      obtain ⟨h1, h2⟩ := (hf (n, m)).2 rfl
      exact List.mem_map.2 ⟨_, h1, rfl⟩
  obtain ⟨hrd, hrm⟩ := hst
  obtain ⟨sel, so, qo, labels, a1, a2, a3, a4, a5, a6, a7⟩ := site_gathered _ _ dp dp' hper site meas hci _ hsite hone' d _ _ hrd hrm
    hfit.shaped hfit.chans c.tf.outChans hfit.out hfit.per hlev hfit.windows name
  obtain ⟨sel', si, qi, _, b1, b2, b3, b4, -, -, -⟩ := site_gathered _ _ dp dp' hper site meas hci _ hsite hone' d _ _ hrd hrm
    hfit.shaped hfit.chans c.tf.inChans hfit.inp hfit.per hlev hfit.windows name
  obtain ⟨sel'', sx, qx, _, c1, c2, c3, c4, -, -, -⟩ := site_gathered _ _ dp dp' hper site meas hci _ hsite hone' d _ _ hrd hrm
    hfit.shaped hfit.chans c.tf.crossChans hfit.cross hfit.per hlev hfit.windows name
  rw [a1, Except.ok.injEq] at b1 c1
  subst b1 c1
  refine ⟨⟨qo, qi, qx⟩, labels, ?_, a5, a7, ?_⟩
  · unfold quickGather TransFunc.gatherChans
    simp only [a3, b3, c3, bind, Except.bind]
    rfl
  · have hsolve := solve_relabel c ⟨so, si, sx⟩ ⟨qo, qi, qx⟩ a4 b4 c4 (by
      show so.evalFreqs.length = qo.evalFreqs.length
      rw [a6, labels_length dp' hlen _ hlev labels a5, a7, flatten_freqs_length _ _ hfit.per, hfit.shaped.n_levels, hper])
    unfold Config.tfOf
    have hp : projectGather (evalStoreOf disk p.dirPath c.name) p.forGather sel c.tf.gatherChans site none none =
        .ok ⟨so, si, sx⟩ := by
      unfold projectGather TransFunc.gatherChans
      simp only [Option.getD_none, a2, b2, c2, bind, Except.bind]
      rfl
    simp only [hdp', bind, Except.bind, sitesOf, Option.toList_none, List.append_nil, a1, hp]
    rw [hsolve, a6]

/-! ## Quick processing and processing in a project -/

/-- Specification: calibration keeps the channels and the levels, and the shape of the data. -/
structure Config.CalKeeps (c : Config) : Prop where
  chans : ∀ fs dir d d', c.calibrate fs dir d = .ok d' → d'.md.chans = d.md.chans
  levels : ∀ fs dir d d', c.calibrate fs dir d = .ok d' → d'.md.levels = d.md.levels ∧ d'.md.nLevels = d.md.nLevels
  shaped : ∀ fs dir d d', c.calibrate fs dir d = .ok d' → d.Shaped → d'.Shaped

/-- evaluation data have the evaluation frequencies of the parameters -/
theorem evalFreqsRun_levels {p : DecParams ℚ} {spec ev : SpecData ℂ} (h : evalFreqsRun p spec = .ok ev) :
    ev.md.levels.length = ev.md.nLevels ∧
      ∀ (i : ℕ) (lm : SpecLevelMeta), ev.md.levels[i]? = some lm → p.getEvalFreqs (i : ℤ) = .ok lm.freqs := by
  unfold evalFreqsRun at h
  obtain ⟨out, h1, h⟩ := except_bind_ok.1 h
  unfold mkSpecData at h
  obtain ⟨_, -, h⟩ := except_bind_ok.1 h
  rw [except_pure_ok] at h
  subst h
  have hl := mapM_ok_length h1
  rw [List.length_range] at hl
  refine ⟨by simpa using hl, ?_⟩
  intro i lm hlm
  simp only [List.getElem?_map, Option.map_eq_some_iff] at hlm
  obtain ⟨x, hx, rfl⟩ := hlm
  obtain ⟨hi, rfl⟩ := List.getElem?_eq_some_iff.1 hx
  have := mapM_ok_getElem h1 i (by simpa [hl] using hi) hi
  rw [List.getElem_range] at this
  unfold evalLevel at this
  simp only [except_bind_ok, except_pure_ok] at this
  obtain ⟨lm0, -, fr, e1, arr, -, o, -, e2⟩ := this
  rw [e1, ← e2]
  rfl

theorem toEvals_levels {c : Config} {ref : DateTime} {td : TimeData ℚ} {dp : DecParams ℚ} {ev : SpecData ℂ}
    (h : c.toEvals ref td = .ok (dp, ev)) :
    (∃ tdp, runTimeProcessors c.sp c.timeProcs td = .ok tdp ∧ c.decSetup.run c.defaultFreqs tdp.md.fs = .ok dp) ∧
      ev.md.levels.length = ev.md.nLevels ∧
      ∀ (i : ℕ) (lm : SpecLevelMeta), ev.md.levels[i]? = some lm → dp.getEvalFreqs (i : ℤ) = .ok lm.freqs := by
  unfold Config.toEvals Config.toSpectra at h
  simp only [except_bind_ok, except_pure_ok, Prod.mk.injEq] at h
  obtain ⟨-, ⟨tdp, h1, p', h2, dec, -, win, -, spec0, -, rfl⟩, spec, -, ev', h8, rfl, rfl⟩ := h
  exact ⟨⟨tdp, h1, h2⟩, evalFreqsRun_levels h8⟩

theorem labels_eq {p : DecParams ℚ} {levels : List SpecLevelMeta}
    (h : ∀ (i : ℕ) (lm : SpecLevelMeta), levels[i]? = some lm → p.getEvalFreqs (i : ℤ) = .ok lm.freqs) :
    (List.range levels.length).mapM (fun (i : ℕ) => p.getEvalFreqs (i : ℤ)) = .ok (levels.map (·.freqs)) := by
  rw [mapM_ok_iff, List.forall₂_iff_get]
  refine ⟨by simp, fun i h1 h2 => ?_⟩
  have hi : i < levels.length := by simpa using h1
  have := h i _ (List.getElem?_eq_getElem hi)
  simpa using this

theorem getEvalFreqs_lt {p : DecParams ℚ} {i : ℕ} {l : List ℚ} (h : p.getEvalFreqs (i : ℤ) = .ok l) : i < p.nLevels := by
  unfold DecParams.getEvalFreqs DecParams.checkLevel at h
  split at h
  · cases h
  · omega

/-- processing one measurement -/
theorem process_one {c : Config} {p : Project ℂ} {site meas : String} {files : List (String × List String)} {s s' : FsState ℂ}
    (h : processTimeToEvals c p site meas files s = (.ok (), s')) :
    processMeasurements c p (fun _ => files) [(site, meas)] s = (.ok (), s') := by
  unfold processMeasurements
  rw [fs_bind, h]
  rfl

/-- the data that a project computes for a measurement are those of quick processing -/
theorem evalsOf_eq {c : Config} {p : Project ℂ} {fs : FS ℂ} {site meas : String} {m m' : Meas ℂ} {d : SpecData ℂ}
    (h : c.evalsOf p fs site meas = .ok (m', d)) (hm : p.getMeas site meas = .ok m) {td : TimeData ℚ}
    (hr : m.reader.readData fs m.dirPath m.md {} = .ok td) :
    m' = m ∧ ∃ dp ev, c.toEvals p.md.refTime td = .ok (dp, ev) ∧ c.calibrate fs (getCalibrationPath p.dirPath) ev = .ok d := by
  unfold Config.evalsOf at h
  simp only [hm, except_bind_ok, except_pure_ok, Prod.mk.injEq] at h
  obtain ⟨m2, h0, td2, h1, ⟨dp, ev⟩, h2, d2, h3, rfl, rfl⟩ := h
  rw [Except.ok.injEq] at h0
  subst h0
  rw [hr, Except.ok.injEq] at h1
  subst h1
  exact ⟨rfl, dp, ev, h2, h3⟩

/-- Specification: one measurement `m` of a project has been processed to evaluation data, from the files in `s` to those in
`s'`: the project is well placed and has proper names; the calibration works on its directory only and keeps the structure
of the data; the measurement is the only one of its site at its sampling frequency; it holds the recording `td`, which
`quick_read` finds as well; the reference time of the project is the first time of the recording; and the data computed fit
their metadata and the transfer function. -/
structure SingleRun (c : Config) (p : Project ℂ) (site meas : String) (m : Meas ℂ) (td : TimeData ℚ) (s s' : FsState ℂ) : Prop where
  placed : p.WellPlaced
  local_cal : c.LocalCal
  keeps : c.CalKeeps
  config_name : IsName c.name
  site_name : IsName site
  meas_name : IsName meas
  not_index : site ≠ "combined_index"
  freqs : ∀ f n, (c.defaultFreqs f n).length = n
  meas_ok : p.getMeas site meas = .ok m
  only : p.OnlyAtRate site meas m
  tree : s.fs.Tree
  processed : ∃ files, processTimeToEvals c p site meas files s = (.ok (), s')
  recording : m.reader.readData s.fs m.dirPath m.md {} = .ok td
  quick : c.quickRead s.fs m.dirPath = .ok td
  ref_time : p.md.refTime = td.md.firstTime
  fit : ∀ m' d, c.evalsOf p s.fs site meas = .ok (m', d) → c.EvalsFit c.decSetup.perLevel d

/-- Specification: the same transfer function at other frequencies. -/
def Solution.withFreqs (sol : Solution) (freqs : List ℚ) : Solution := { sol with freqs := freqs }

/-- **C58**. A measurement is processed to evaluation data in a project whose reference time is the first time of the recording,
and it is the only one of its site at its sampling frequency.  Then the transfer function of the site at that sampling frequency
is the one that `quick_tf` computes from the directory with the calibration files of the project, exceptions included, but
labelled with the evaluation frequencies that belong to the sampling frequency of the recording. -/
theorem C58_relabelled (c : Config) (p : Project ℂ) (site meas : String) (m : Meas ℂ) (td : TimeData ℚ) (s s' : FsState ℂ)
    (hrun : SingleRun c p site meas m td s s')
    (dp' : DecParams ℚ) (hdp' : c.decSetup.run c.defaultFreqs m.md.fs = .ok dp') :
    ∃ n labels, n ≤ dp'.nLevels ∧ (List.range n).mapM (fun (i : ℕ) => dp'.getEvalFreqs (i : ℤ)) = .ok labels ∧
      c.tfOf p s'.fs m.md.fs site none none =
        (c.quickTf s.fs m.dirPath (some (getCalibrationPath p.dirPath))).map (·.withFreqs labels.flatten) ∧
      ∃ dp ev tdp, runTimeProcessors c.sp c.timeProcs td = .ok tdp ∧ c.decSetup.run c.defaultFreqs tdp.md.fs = .ok dp ∧
        c.toEvals td.md.firstTime td = .ok (dp, ev) ∧ n = ev.md.nLevels ∧
        (List.range n).mapM (fun (i : ℕ) => dp.getEvalFreqs (i : ℤ)) = .ok (ev.md.levels.map (·.freqs)) ∧
        ∀ sol, c.quickTf s.fs m.dirPath (some (getCalibrationPath p.dirPath)) = .ok sol →
          sol.freqs = (ev.md.levels.map (·.freqs)).flatten := by
  obtain ⟨hp, hc, hk, hn, h1, h2, hci, hdef, hm, hone, ht, ⟨files, h⟩, hr, hq, href, hfit⟩ := hrun
  obtain ⟨hst, -, -⟩ := C55_stored c p hp hc hn _ _ (by simp [h1, h2]) s s' ht (process_one h)
  obtain ⟨m', d, hd, hst⟩ := hst (site, meas) (by simp)
  have hf := hfit m' d hd
  obtain ⟨rfl, dp, ev, e1, e2⟩ := evalsOf_eq hd hm hr
  obtain ⟨⟨tdp, t1, t2⟩, l1, l2⟩ := toEvals_levels e1
  obtain ⟨k1, k2⟩ := hk.levels _ _ _ _ e2
  obtain ⟨-, a1, a2, -⟩ := DecSetup.run_spec _ _ _ _ t2
  obtain ⟨-, b1, b2, -⟩ := DecSetup.run_spec _ _ _ _ hdp'
  have hnl : ev.md.nLevels ≤ dp.nLevels := by
    by_contra hcon
    have hlt : dp.nLevels < ev.md.levels.length := by omega
    have := getEvalFreqs_lt (l2 _ _ (List.getElem?_eq_getElem hlt))
    omega
  have h0 : (d.data.lookup 0).isSome = true := by
    have hs := hf.shaped
    obtain ⟨arr, e, -⟩ := hs.array 0 _ (List.getElem?_eq_getElem (by rw [hs.n_levels]; exact hs.some_level))
    rw [e]
    rfl
  obtain ⟨g, labels, g1, g2, g3, g4⟩ := tfOf_stored c p s'.fs site meas m' hone hci d (hst h0) dp dp' hdp' (by rw [a2, b2])
    (by rw [a2]; exact hf) (by rw [k2, b1, ← a1]; exact hnl) (C19_setup_length _ _ hdef _ _ hdp') (pathName m'.dirPath)
  have hquick : c.quickTf s.fs m'.dirPath (some (getCalibrationPath p.dirPath)) = c.solve g := by
    unfold Config.quickTf Config.calibrateOpt
    simp only [hq, bind, Except.bind, ← href, e1, e2, g1]
  refine ⟨d.md.nLevels, labels, by rw [k2, b1, ← a1]; exact hnl, g2, by rw [hquick]; exact g4, dp, ev, tdp, t1, t2,
    by rw [← href]; exact e1, k2, ?_, ?_⟩
  · rw [k2, ← l1]
    exact labels_eq l2
  · intro sol hsol
    rw [hquick] at hsol
    unfold Config.solve at hsol
    obtain ⟨r, r1, r2⟩ := except_bind_ok.1 hsol
    unfold prepareGathered at r1
    obtain ⟨rows, -, r1⟩ := except_bind_ok.1 r1
    rw [except_pure_ok] at r1
    unfold solveWith at r2
    simp only [bind, Except.bind, pure, Except.pure, throw, throwThe, MonadExceptOf.throw] at r2
    split at r2
    · cases r2
    · split at r2
      · cases r2
      · unfold getSolutionOf at r2
        obtain ⟨comps, -, r2⟩ := except_bind_ok.1 r2
        rw [except_pure_ok] at r2
        rw [← r2, ← r1, g3, k1]

/-- **C58**. When the time data processors do not change the sampling frequency, the transfer function of the project is exactly the
one of `quick_tf`. -/
theorem C58_agrees (c : Config) (p : Project ℂ) (site meas : String) (m : Meas ℂ) (td : TimeData ℚ) (s s' : FsState ℂ)
    (hrun : SingleRun c p site meas m td s s')
    (hrate : ∀ tdp, runTimeProcessors c.sp c.timeProcs td = .ok tdp → tdp.md.fs = m.md.fs) :
    c.tfOf p s'.fs m.md.fs site none none = c.quickTf s.fs m.dirPath (some (getCalibrationPath p.dirPath)) := by
  have hdp' : ∃ dp', c.decSetup.run c.defaultFreqs m.md.fs = .ok dp' := by
    obtain ⟨hp, hc, hk, hn, h1, h2, hci, hdef, hm, hone, ht, ⟨files, h⟩, hr, hq, href, hfit⟩ := hrun
    obtain ⟨hst, -, -⟩ := C55_stored c p hp hc hn _ _ (by simp [h1, h2]) s s' ht (process_one h)
    obtain ⟨m', d, hd, -⟩ := hst (site, meas) (by simp)
    obtain ⟨-, dp, ev, e1, -⟩ := evalsOf_eq hd hm hr
    obtain ⟨⟨tdp, t1, t2⟩, -, -⟩ := toEvals_levels e1
    rw [hrate tdp t1] at t2
    exact ⟨dp, t2⟩
  obtain ⟨dp', hdp'⟩ := hdp'
  obtain ⟨n, labels, -, g1, g2, dp, ev, tdp, t1, t2, -, -, t3, t4⟩ := C58_relabelled c p site meas m td s s' hrun dp' hdp'
  rw [hrate tdp t1, hdp', Except.ok.injEq] at t2
  subst t2
  rw [g1, Except.ok.injEq] at t3
  subst t3
  rw [g2]
  cases hs : c.quickTf s.fs m.dirPath (some (getCalibrationPath p.dirPath)) with
  | error e => rfl
  | ok sol =>
    have := t4 sol hs
    simp only [Except.map, Except.ok.injEq, Solution.withFreqs]
    rw [← this]

/-- **C58** (finding). When the time data processors change the sampling frequency and the evaluation frequencies are the default
ones (proportional to the sampling frequency), the transfer function of the project has the right components at the wrong
frequencies: all are too large by the ratio of the sampling frequencies before and after. -/
theorem C58_wrong_frequencies (c : Config) (p : Project ℂ) (site meas : String) (m : Meas ℂ) (td : TimeData ℚ) (s s' : FsState ℂ)
    (hrun : SingleRun c p site meas m td s s')
    (dp' : DecParams ℚ) (hdp' : c.decSetup.run c.defaultFreqs m.md.fs = .ok dp')
    (hdeflt : c.decSetup.evalFreqs = none)
    (hscale : ∀ (a f : ℚ) n, c.defaultFreqs (a * f) n = (c.defaultFreqs f n).map fun x => a * x) (k : ℚ)
    (hrate : ∀ tdp, runTimeProcessors c.sp c.timeProcs td = .ok tdp → m.md.fs = k * tdp.md.fs) :
    c.tfOf p s'.fs m.md.fs site none none =
      (c.quickTf s.fs m.dirPath (some (getCalibrationPath p.dirPath))).map fun sol =>
        sol.withFreqs (sol.freqs.map fun f => k * f) := by
  obtain ⟨n, labels, hn', g1, g2, dp, ev, tdp, t1, t2, -, -, t3, t4⟩ := C58_relabelled c p site meas m td s s' hrun dp' hdp'
  obtain ⟨-, a1, a2, -, -, a3, -⟩ := DecSetup.run_spec _ _ _ _ t2
  obtain ⟨-, b1, b2, -, -, b3, -⟩ := DecSetup.run_spec _ _ _ _ hdp'
  have hev : dp'.evalFreqs = dp.evalFreqs.map fun x => k * x := by
    unfold DecSetup.getEvalFreqs at a3 b3
    simp only [hdeflt, Except.ok.injEq] at a3 b3
    rw [← a3, ← b3, hrate tdp t1, hscale]
  have hsl : ∀ (l : List ℚ) (a b : ℤ), pySlice (l.map fun x => k * x) a b = (pySlice l a b).map fun x => k * x := by
    intro l a b
    unfold pySlice
    simp [List.map_take, List.map_drop]
  have hget : ∀ i : ℕ, dp'.getEvalFreqs (i : ℤ) = (dp.getEvalFreqs (i : ℤ)).map fun l => l.map fun x => k * x := by
    intro i
    unfold DecParams.getEvalFreqs DecParams.checkLevel
    rw [b1, b2, a1, a2, hev]
    by_cases hcond : (i : ℤ) < 0 ∨ (c.decSetup.nLevels : ℤ) ≤ i
    · rw [if_pos hcond]; rfl
    · rw [if_neg hcond]
      simp only [bind, Except.bind, pure, Except.pure, Except.map, hsl]
  have hlab : labels = (ev.md.levels.map (·.freqs)).map fun l => l.map fun x => k * x := by
    have : (List.range n).mapM (fun (i : ℕ) => dp'.getEvalFreqs (i : ℤ)) =
        .ok ((ev.md.levels.map (·.freqs)).map fun l => l.map fun x => k * x) := by
      rw [mapM_ok_iff] at t3 ⊢
      rw [List.forall₂_map_right_iff]
      refine t3.imp ?_
      intro i l hl
      rw [hget i, hl]
      rfl
    rw [this, Except.ok.injEq] at g1
    exact g1.symm
  rw [g2]
  cases hs : c.quickTf s.fs m.dirPath (some (getCalibrationPath p.dirPath)) with
  | error e => rfl
  | ok sol =>
    simp only [Except.map, Except.ok.injEq]
    rw [t4 sol hs, hlab, List.map_flatten]

/-! ## The parts of the package meet the hypotheses -/

/-- Each level of windowed data has at least as many windows as asked for. -/
theorem windower_min {w : DateTime → WinParams → DecData ℚ → Except Err (WinData ℚ)} (hw : StandardWindower w)
    {ref : DateTime} {p : WinParams} {dec : DecData ℚ} {win : WinData ℚ} (h : w ref p dec = .ok win) :
    1 ≤ win.md.nLevels ∧ win.md.levels.length = win.md.nLevels ∧ ∀ wlm ∈ win.md.levels, p.minNWins ≤ wlm.nWins := by
  obtain ⟨checked, sizes, name, stored, acc, h1, h2⟩ := windower_levels hw h
  obtain ⟨a1, a2, a3, -, -, -, a7, -⟩ := windower_result checked sizes name ref stored p.minNWins dec acc win h1 h2
  refine ⟨a1, a3, fun wlm hwlm => ?_⟩
  obtain ⟨i, hi, rfl⟩ := List.mem_iff_getElem.1 hwlm
  obtain ⟨w, o, table, arr, raw, lm, wlm, -, -, b0, -, -, b4, b5, -⟩ := a7 i (by omega)
  rw [List.getElem?_eq_getElem hi, Option.some.injEq] at b5
  rw [b5]
  have : wlm.nWins = table.length := by
    unfold getLevelMetadata at b4
    split at b4
    · split at b4
      · cases b4
      · rw [Except.ok.injEq] at b4
        subst b4
        rfl
    · cases b4
  rw [this]
  exact b0

/-- The data at the evaluation frequencies of a linear chain have windows on every level. -/
theorem toEvals_windows {c : Config} (hc : c.LinearChain) {ref : DateTime} {td : TimeData ℚ} (htd : td.Consistent)
    (hch : 2 ≤ td.md.chans.length)
    (hfs : ∀ tdp, runTimeProcessors c.sp c.timeProcs td = .ok tdp → tdp.md.fs ≤ 10 ^ 13)
    {p : DecParams ℚ} {evals : SpecData ℂ} (h : c.toEvals ref td = .ok (p, evals)) :
    ∃ lm ∈ evals.md.levels, 0 < lm.nWins := by
  unfold Config.toEvals Config.toSpectra Config.processSpectra Config.window Config.decimate at h
  simp only [except_bind_ok, except_pure_ok, Prod.mk.injEq] at h
  obtain ⟨-, ⟨tdp, h1, p', h2, dec, h3, win, ⟨wp, h4, h5⟩, spec0, h6, rfl⟩, spec, h7, ev, h8, rfl, rfl⟩ := h
  change evalFreqsRun p' spec = .ok ev at h8
  obtain ⟨a1, a2, -⟩ := C23_chain_consistent c.sp hc.lawful c.timeProcs (fun q hq => (hc.procs q hq).1) td tdp htd h1
  obtain ⟨-, -, -, hpos, -⟩ := DecSetup.run_spec _ _ _ _ h2
  obtain ⟨b1, b2, b3, b4, b5⟩ := exact_decimator hc.lawful hc.scipy hc.maxSingle (by omega) a1 (by rw [a2]; omega)
    (hfs tdp h1) h3
  have hw := (C14_one_size_per_level _ _ _ _ h4).2.1
  obtain ⟨c1, c2, c3, c4, c5⟩ := windower_windows hc.windower b1 (by rw [b2, a2]; exact hch) (by rw [hw]; exact hc.minNWins) h5
  obtain ⟨m1, m2, m3⟩ := windower_min hc.windower h5
  obtain ⟨d1, d2, d3, d4, d5⟩ := exact_fourier hc.ft_length hc.ft_linear c1 (by
    intro wlm hwlm
    obtain ⟨i, hi, rfl⟩ := List.mem_iff_getElem.1 hwlm
    obtain ⟨lm, e1, e2⟩ := c4 i _ (List.getElem?_eq_getElem hi)
    rw [e2]
    exact b4 lm (List.mem_of_getElem? e1)) h6
  obtain ⟨spec1, s1, -, -, -, -, s2⟩ := C51_fourier_run c.nfl c.ft hc.ft_length win c1
  rw [h6, Except.ok.injEq] at s1
  subst s1
  have hwl : win.md.levels[0]? = some (win.md.levels[0]'(by omega)) := List.getElem?_eq_getElem _
  obtain ⟨wins, slm, -, -, f1, -, -, f2, -⟩ := s2 0 _ hwl
  obtain ⟨⟨e1, e2, e3, e4⟩, -⟩ := keeps_chain hc.specProcs spec0 spec d1 h7
  obtain ⟨ev', k1, -, -, -, -, k2⟩ := C27_evaluation p' spec e1 (by rw [e4]; exact d4) (by omega)
  rw [h8, Except.ok.injEq] at k1
  subst k1
  obtain ⟨-, -, -, elm, -, -, -, g1, -, g2, -⟩ := k2 0 slm (by rw [e4]; exact f1)
  refine ⟨elm, List.mem_of_getElem? g1, ?_⟩
  rw [g2, f2]
  have h2' := m3 _ (List.getElem_mem (by omega : 0 < win.md.levels.length))
  have := hc.minNWins
  rw [hw] at h2'
  omega

/-- With a linear chain the data at the evaluation frequencies of a recording that suits the configuration fit, calibrated or not. -/
theorem C58_fit {c : Config} (hc : c.LinearChain) (hk : c.CalKeeps) {td : TimeData ℚ} (hs : c.Suits td) {ref : DateTime}
    {fs : FS ℂ} {dir : Path} {dp : DecParams ℚ} {ev d : SpecData ℂ} (h : c.toEvals ref td = .ok (dp, ev))
    (hcal : c.calibrate fs dir ev = .ok d) : c.EvalsFit c.decSetup.perLevel d := by
  obtain ⟨a1, a2, a3, -⟩ := exact_toEvals hc hs.consistent hs.two hs.rate h
  have a4 := toEvals_windows hc hs.consistent hs.two hs.rate h
  obtain ⟨⟨tdp, t1, t2⟩, -⟩ := toEvals_levels h
  obtain ⟨-, -, b2, -⟩ := DecSetup.run_spec _ _ _ _ t2
  have k1 := hk.chans _ _ _ _ hcal
  have k2 := (hk.levels _ _ _ _ hcal).1
  have hch : d.md.chans = td.md.chans := k1.trans a2
  exact {
    shaped := hk.shaped _ _ _ _ hcal a1
    chans := by rw [hch]; exact hs.chans
    out := by rw [hch]; exact hs.out
    inp := by rw [hch]; exact hs.inp
    cross := by rw [hch]; exact hs.cross
    per := by rw [k2, ← b2]; exact a3
    windows := by rw [k2]; exact a4 }

theorem pyIndex_mem {α : Type} {l : List α} {i : ℤ} {a : α} (h : pyIndex l i = .ok a) : a ∈ l := by
  unfold pyIndex at h
  simp only at h
  generalize (if i < 0 then i + (l.length : ℤ) else i) = j at h
  split at h
  · cases h
  · split at h
    · rename_i x hx
      rw [Except.ok.injEq] at h
      exact h ▸ List.mem_of_getElem? hx
    · cases h

theorem lookup_replace {V : Type} (data : List (ℕ × V)) (i : ℕ) (v : V) (k : ℕ) :
    (data.map fun q => if q.1 = i then (q.1, v) else q).lookup k =
      if k = i then (data.lookup k).map fun _ => v else data.lookup k := by
  induction data with
  | nil => simp
  | cons q l ih =>
    obtain ⟨a, x⟩ := q
    by_cases hai : a = i
    · by_cases hk : k = a
      · subst hk; simp [hai]
      · have : (k == a) = false := by simpa using hk
        simp only [List.map_cons, hai, if_true, List.lookup_cons, this]
        rw [hai] at this
        simp only [this]
        exact ih
    · by_cases hk : k = a
      · subst hk; simp [hai]
      · have : (k == a) = false := by simpa using hk
        simp only [List.map_cons, if_neg hai, List.lookup_cons, this]
        exact ih

theorem calibrateLevel_shaped {expj : ℚ → ℂ} {cd : CalData} {md : SpecMeta} {idx : ℤ} {data data' : List (ℕ × SpecArr ℂ)} {i : ℕ}
    (h : calibrateLevel expj cd md.levels idx data i = .ok data')
    (hs : ({ md := md, data := data } : SpecData ℂ).Shaped) : ({ md := md, data := data' } : SpecData ℂ).Shaped := by
  unfold calibrateLevel at h
  obtain ⟨lm, h1, h⟩ := except_bind_ok.1 h
  obtain ⟨arr, h2, h⟩ := except_bind_ok.1 h
  obtain ⟨tf, h3, h⟩ := except_bind_ok.1 h
  obtain ⟨arr', h4, h⟩ := except_bind_ok.1 h
  rw [except_pure_ok] at h
  subst h
  have hlk := lookup_replace data i arr'
  refine ⟨hs.n_levels, hs.some_level, hs.n_freqs, ?_, ?_⟩
  · have := hs.keys
    simp only [List.map_map] at this ⊢
    rw [← this]
    apply List.map_congr_left
    intro q _
    simp only [Function.comp]
    split <;> rfl
  · intro k klm hk
    obtain ⟨arr0, e1, e2, e3⟩ := hs.array k klm hk
    change data.lookup k = some arr0 at e1
    by_cases hki : k = i
    · subst hki
      unfold dictGet at h2
      rw [e1] at h2
      cases h2
      refine ⟨arr', by rw [hlk, if_pos rfl, e1]; rfl, by rw [mapM_ok_length h4]; exact e2, ?_⟩
      intro win' hwin'
      obtain ⟨w, hw, rfl⟩ := List.mem_iff_getElem.1 hwin'
      have hwl : w < arr.length := by rw [← mapM_ok_length h4]; exact hw
      have hstep := mapM_ok_getElem h4 w hwl hw
      have hmem := List.getElem_mem hwl
      obtain ⟨f1, f2⟩ := e3 _ hmem
      unfold calibrateWin at hstep
      obtain ⟨row, r1, hstep⟩ := except_bind_ok.1 hstep
      simp only [bind, Except.bind, pure, Except.pure, throw, throwThe, MonadExceptOf.throw] at hstep
      split at hstep
      · cases hstep
      · split at hstep
        · cases hstep
        · rw [Except.ok.injEq] at hstep
          change (arr'[w]).length = _ ∧ ∀ row ∈ arr'[w], _
          rw [← hstep]
          refine ⟨by simpa using f1, ?_⟩
          intro r hr
          have hrow : row.length = klm.freqs.length := f2 row (pyIndex_mem r1)
          rcases List.mem_or_eq_of_mem_set hr with hr | rfl
          · exact f2 r hr
          · split
            · rename_i hl
              rw [List.length_zipWith, hl, min_self]; exact hrow
            · rw [List.length_map]; exact hrow
    · exact ⟨arr0, by rw [hlk, if_neg hki]; exact e1, e2, e3⟩

/-- `SensorCalibrator` keeps channels, levels and shape, whatever the calibration files hold. -/
theorem C58_calibrator_keeps (expj : ℚ → ℂ) (sel : Option (List String)) (get : String → Option CalData) (d d' : SpecData ℂ)
    (h : sensorCalibrate expj sel get d = .ok d') :
    d'.md = { d.md with history := d.md.history ++ ["SensorCalibrator"] } ∧ (d.Shaped → d'.Shaped) := by
  unfold sensorCalibrate at h
  obtain ⟨data, h1, h⟩ := except_bind_ok.1 h
  unfold mkSpecData at h
  obtain ⟨-, -, h⟩ := except_bind_ok.1 h
  rw [except_pure_ok] at h
  subst h
  refine ⟨rfl, fun hs => ?_⟩
  have : ({ md := d.md, data := data } : SpecData ℂ).Shaped := by
    refine foldlM_inv (fun dat => ({ md := d.md, data := dat } : SpecData ℂ).Shaped) h1 hs ?_
    intro s a s' _ hs h
    unfold calibrateChan at h
    split at h
    · cases h; exact hs
    · obtain ⟨idx, -, h⟩ := except_bind_ok.1 h
      refine foldlM_inv (fun dat => ({ md := d.md, data := dat } : SpecData ℂ).Shaped) h hs ?_
      intro s a s' _ hs h
      exact calibrateLevel_shaped h hs
  exact SpecData.Shaped.history this _

/-- **C58**. What `process_evals_to_tf` returns and saves is that transfer function. -/
theorem C58_saved (c : Config) (p : Project ℂ) (site meas : String) (m : Meas ℂ) (td : TimeData ℚ) (s s' : FsState ℂ)
    (hrun : SingleRun c p site meas m td s s')
    (hrate : ∀ tdp, runTimeProcessors c.sp c.timeProcs td = .ok tdp → tdp.md.fs = m.md.fs) (postfix? : Option String)
    (sol : Solution) (t : FsState ℂ) (h : processEvalsToTf c p m.md.fs site none none postfix? s' = (.ok sol, t)) :
    c.quickTf s.fs m.dirPath (some (getCalibrationPath p.dirPath)) = .ok sol ∧
      t.fs (pathJoin (getResultsPath p.dirPath site c.name) (getSolutionName m.md.fs c.tf.name c.tf.variation postfix?)) =
        some (.file (.solJson sol)) := by
  rcases processEvalsToTf_run c p m.md.fs site none none postfix? s' with ⟨e, he, -⟩ | ⟨sol', steps, h1, -, h2 | ⟨path, rfl, h2⟩⟩
  · rw [he] at h; cases h
  · rw [h2] at h; cases h
  · rw [h2, Prod.mk.injEq, Except.ok.injEq] at h
    obtain ⟨rfl, rfl⟩ := h
    refine ⟨by rw [← C58_agrees c p site meas m td s s' hrun hrate]; exact h1, ?_⟩
    rw [FsState.after, List.getLast?_append]
    simp [FS.set]

/-- **C58**. At a sampling frequency that no measurement of the site has, a transfer function is refused with `ValueError`; in
particular at the sampling frequency after time data processors that change it, which is the one the stored data have. -/
theorem C58_no_measurement_at_rate (c : Config) (p : Project ℂ) (disk : FS ℂ) (fs : ℚ) (site : String) (st : Site ℂ)
    (hst : p.getSite site = .ok st) (hno : ∀ x ∈ st.measurements, x.2.md.fs ≠ fs) (dp : DecParams ℚ)
    (hdp : c.decSetup.run c.defaultFreqs fs = .ok dp) :
    c.tfOf p disk fs site none none = .error .value := by
  have hfs : dp.fs = fs := (DecSetup.run_spec _ _ _ _ hdp).1
  have hsite : p.forGather.sites.lookup site = some (st.measurements.map fun m => (m.1, m.2.md.fs)) := by
    unfold Project.forGather
    rw [lookup_map_snd (fun x : Site ℂ => x.measurements.map fun m => (m.1, m.2.md.fs))]
    unfold Project.getSite at hst
    cases hl : p.sites.lookup site with
    | none => rw [hl] at hst; cases hst
    | some s' => rw [hl, Except.ok.injEq] at hst; rw [hst]; rfl
  have hw : getSiteWins (evalStoreOf disk p.dirPath c.name) p.forGather dp.fs site = .error .value := by
    have : getSiteEvalsMetadata (evalStoreOf disk p.dirPath c.name) p.forGather site dp.fs = .ok [] := by
      unfold getSiteEvalsMetadata GProject.getSite
      rw [hsite]
      show Except.ok _ = Except.ok _
      congr 1
      rw [hfs, List.filter_eq_nil_iff.2]
      · rfl
      · intro x hx
        obtain ⟨y, hy, rfl⟩ := List.mem_map.1 hx
        simpa using hno y hy
    unfold getSiteWins
    rw [this]
    rfl
  unfold Config.tfOf sitesOf
  rw [hdp]
  have : selectorRun (evalStoreOf disk p.dirPath c.name) p.forGather (site :: (([] : List String) ++ [])) dp = .error .value := by
    unfold selectorRun
    simp only [show sortedSet (site :: (([] : List String) ++ [])) = [site] from rfl, List.mapM_cons, hw, bind, Except.bind]
  simp only [Option.toList_none, this, bind, Except.bind]

/-! ## quick_view -/

/-- **C58**. `quick_view` without decimation shows the processed recording: one row for each channel, each showing the samples of
that channel; the titles are the channels of the recording. -/
theorem C58_quick_view (c : Config) (hl : c.sp.Lawful) (hv : ∀ p ∈ c.timeProcs, p.Valid) (fs : FS ℂ) (dir : Path) (d : DType)
    (maxPts : Option ℤ) (hm : ∀ m, maxPts = some m → 2 ≤ m) (td tdp : TimeData ℚ) (hr : c.quickRead fs dir = .ok td)
    (hp : runTimeProcessors c.sp c.timeProcs td = .ok tdp) (hc : td.Consistent) (hnd : td.md.chans.Nodup)
    (h1 : 1 ≤ tdp.md.nSamples) (h24 : tdp.md.nSamples ≤ 2 ^ 24) :
    ∃ traces, c.quickView fs dir d false maxPts = .ok (.time td.md.chans traces) ∧ traces.length = td.md.chans.length ∧
      ∀ (i : ℕ) (hi : i < traces.length) (hd : i < tdp.data.length),
        traces[i].row = i + 1 ∧ Shows tdp d tdp.data[i] traces[i] := by
  obtain ⟨a1, a2, -⟩ := C23_chain_consistent c.sp hl c.timeProcs hv td tdp hc hp
  obtain ⟨traces, b1, b2, b3⟩ := C57_plot tdp a1 (by rw [a2]; exact hnd) h1 h24 d maxPts hm
  rw [a2] at b1 b2
  refine ⟨traces, ?_, b2, b3⟩
  unfold Config.quickView
  simp only [hr, hp, bind, Except.bind, if_true, b1]
  rfl

/-- **C58**. `quick_view` with decimation shows what decimation of the processed recording gives. -/
theorem C58_quick_view_decimated (c : Config) (fs : FS ℂ) (dir : Path) (d : DType)
    (maxPts : Option ℤ) (td tdp : TimeData ℚ) (dp : DecParams ℚ) (dec : DecData ℚ) (hr : c.quickRead fs dir = .ok td)
    (hp : runTimeProcessors c.sp c.timeProcs td = .ok tdp) (hdp : c.decSetup.run c.defaultFreqs tdp.md.fs = .ok dp)
    (hdec : c.decimate dp tdp = .ok dec) :
    c.quickView fs dir d true maxPts = (dec.plot d maxPts).map fun r => .decimated r.1 r.2 := by
  unfold Config.quickView
  simp [hr, hp, hdp, hdec, bind, Except.bind]

/-- **C58**. When no reader can read the directory there is nothing to view or process. -/
theorem C58_nothing_to_read (c : Config) (fs : FS ℂ) (dir : Path) (h : ∀ r ∈ c.readers, ∀ td, ¬ r.Reads fs dir td) (d : DType)
    (dec : Bool) (maxPts : Option ℤ) (cal? : Option Path) :
    c.quickView fs dir d dec maxPts = .error .timeRead ∧ c.quickSpectra fs dir = .error .timeRead ∧
      c.quickTf fs dir cal? = .error .timeRead := by
  have := (C58_quick_read c fs dir).2.1.1 h
  unfold Config.quickView Config.quickSpectra Config.quickTf
  rw [this]
  exact ⟨rfl, rfl, rfl⟩

/-- **C58**. `quick_spectra`: its exceptions are those of reading and processing; its result is referenced to the first time of the
recording that `quick_read` returns, with the standard windower; and `quick_tf` of the same directory continues from these spectra: they
are processed, evaluated at the evaluation frequencies, calibrated, gathered and solved. -/
theorem C58_quick_spectra (c : Config) (fs : FS ℂ) (dir : Path) :
    (∀ e, c.quickRead fs dir = .error e → c.quickSpectra fs dir = .error e) ∧
    (∀ spec, c.windower = windowerRun → c.quickSpectra fs dir = .ok spec →
      ∃ td, c.quickRead fs dir = .ok td ∧ spec.md.refTime = td.md.firstTime) ∧
    (∀ cal? sol, c.quickTf fs dir cal? = .ok sol →
      ∃ td tdp dp spec spec' evals evals' g, c.quickRead fs dir = .ok td ∧
        runTimeProcessors c.sp c.timeProcs td = .ok tdp ∧ c.decSetup.run c.defaultFreqs tdp.md.fs = .ok dp ∧
        c.quickSpectra fs dir = .ok spec ∧ c.processSpectra spec = .ok spec' ∧ evalFreqsRun dp spec' = .ok evals ∧
        c.calibrateOpt fs cal? evals = .ok evals' ∧ quickGather (pathName dir) dp c.tf.gatherChans evals' = .ok g ∧
        c.solve g = .ok sol) := by
  refine ⟨?_, ?_, ?_⟩
  · intro e he
    unfold Config.quickSpectra
    rw [he]
    rfl
  · intro spec hw h
    unfold Config.quickSpectra Config.toSpectra Config.window at h
    simp only [except_bind_ok, except_pure_ok] at h
    obtain ⟨td, h1, -, ⟨tdp, -, dp, -, dec, -, win, ⟨wp, -, h5⟩, sp0, h6, rfl⟩, rfl⟩ := h
    refine ⟨td, h1, ?_⟩
    rw [hw] at h5
    unfold windowerRun at h5
    obtain ⟨acc, -, h5⟩ := except_bind_ok.1 h5
    have hwin : win.md.refTime = td.md.firstTime := by
      unfold windowedResult at h5
      simp only [except_bind_ok, except_pure_ok] at h5
      obtain ⟨-, -, rfl⟩ := h5
      rfl
    unfold fourierRun mkSpecData at h6
    simp only [except_bind_ok, except_pure_ok] at h6
    obtain ⟨out, -, -, -, rfl⟩ := h6
    exact hwin
  · intro cal? sol h
    unfold Config.quickTf Config.toEvals at h
    simp only [except_bind_ok, except_pure_ok] at h
    obtain ⟨td, h1, -, ⟨⟨dp, spec⟩, h2, spec', h3, evals, h4, rfl⟩, evals', h5, g, h6, h7⟩ := h
    have h2' := h2
    unfold Config.toSpectra at h2
    simp only [except_bind_ok, except_pure_ok, Prod.mk.injEq] at h2
    obtain ⟨tdp, t1, dp', t2, dec, -, win, -, sp0, -, rfl, -⟩ := h2
    refine ⟨td, tdp, dp', spec, spec', evals, evals', g, h1, t1, t2, ?_, h3, h4, h5, h6, h7⟩
    unfold Config.quickSpectra
    simp only [h1, h2', bind, Except.bind]
    rfl

/-! ## A concrete run -/

/-- a reader that finds a given recording in every directory -/
def fixedReader (td : TimeData ℚ) : TReader ℂ where
  name := "Demo"
  readMeta := fun _ _ => .ok td.md
  readData := fun _ _ _ _ => .ok td

/-- a measurement with a given recording -/
def demoQuickMeas (td : TimeData ℚ) : Meas ℂ where
  siteName := "A"
  dirPath := ["proj", "time", "A", "m"]
  md := td.md
  reader := fixedReader td

/-- a project with one measurement -/
def demoQuickProject (td : TimeData ℚ) : Project ℂ where
  dirPath := ["proj"]
  beginTime := td.md.firstTime
  endTime := td.md.lastTime
  md := { refTime := td.md.firstTime }
  sites := [("A", {
    dirPath := ["proj", "time", "A"]
    measurements := [("m", demoQuickMeas td)]
    beginTime := td.md.firstTime
    endTime := td.md.lastTime })]

/-- an empty file system -/
def demoEmptyFs : FS ℂ := fun p => if p = [] then some .dir else none

theorem demoEmptyFs_tree : demoEmptyFs.Tree := by
  refine ⟨rfl, ?_⟩
  intro p n h
  unfold demoEmptyFs at h
  rw [if_neg (by simp)] at h
  cases h

theorem keeps_of_none {c : Config} (h : c.calibrate = fun _ _ d => .ok d) : c.CalKeeps where
  chans := by intro fs dir d d' h'; rw [h] at h'; cases h'; rfl
  levels := by intro fs dir d d' h'; rw [h] at h'; cases h'; exact ⟨rfl, rfl⟩
  shaped := by intro fs dir d d' h' hs; rw [h] at h'; cases h'; exact hs

theorem demoQuick_placed (td : TimeData ℚ) : (demoQuickProject td).WellPlaced := by
  intro site meas m h
  unfold Project.getMeas Project.getSite at h
  obtain ⟨st, h1, h2⟩ := except_bind_ok.1 h
  by_cases hs : site = "A"
  · subst hs
    simp only [demoQuickProject, List.lookup_cons, BEq.rfl, Except.ok.injEq] at h1
    subst h1
    unfold Site.getMeasurement at h2
    by_cases hm : meas = "m"
    · subst hm
      simp only [List.lookup_cons, BEq.rfl, Except.ok.injEq] at h2
      subst h2
      exact ⟨rfl, rfl, fun _ _ _ _ => ⟨rfl, fun _ _ => rfl⟩⟩
    · have : (meas == "m") = false := by simpa using hm
      simp only [List.lookup_cons, this, List.lookup_nil] at h2
      cases h2
  · have : (site == "A") = false := by simpa using hs
    simp only [demoQuickProject, List.lookup_cons, this, List.lookup_nil] at h1
    cases h1

/-- the hypotheses of `C58_agrees` hold of a run on the empty file system -/
theorem demo_single_run (c : Config) (hname : c.name = "demo") (td : TimeData ℚ) (hread : c.readers = [fixedReader td])
    (hcal : c.calibrate = fun _ _ d => .ok d) (hlin : c.LinearChain) (hs : c.Suits td) (dp : DecParams ℚ) (evals : SpecData ℂ)
    (h : c.toEvals td.md.firstTime td = .ok (dp, evals)) :
    ∃ s' : FsState ℂ, SingleRun c (demoQuickProject td) "A" "m" (demoQuickMeas td) td { fs := demoEmptyFs } s' := by
  have hev : c.evalsOf (demoQuickProject td) demoEmptyFs "A" "m" = .ok (demoQuickMeas td, evals) := by
    unfold Config.evalsOf
    rw [show (demoQuickProject td).getMeas "A" "m" = .ok (demoQuickMeas td) from rfl, hcal]
    show (do
      let ps ← c.toEvals td.md.firstTime td
      let evals ← (Except.ok ps.2 : Except Err (SpecData ℂ))
      return (demoQuickMeas td, evals) : Except Err (Meas ℂ × SpecData ℂ)) = _
    rw [h]
    rfl
  have heq := processTimeToEvals_eq (c := c) (x := ("A", "m")) (files := fun _ => []) (d := fun _ => evals)
    (s := { fs := demoEmptyFs }) (demoQuick_placed td) hev
  have hdir : ∀ q : Path, q ≠ [] → demoEmptyFs q = none := fun q hq => if_neg hq
  have hdemo : IsName c.name := by rw [hname]; unfold IsName; decide
  have hpath : getMeasEvalsPath (demoQuickProject td).dirPath "A" "m" c.name = ["proj", "evals", "A", c.name, "m"] :=
    evalsPath _ (by unfold IsName; decide) (by unfold IsName; decide) hdemo
  obtain ⟨steps, hw, -⟩ := writeOut_ok (x := evalOut c (demoQuickProject td) (fun _ => []) (fun _ => evals) ("A", "m"))
    (s := { fs := demoEmptyFs }) demoEmptyFs_tree (by
      show CanWrite demoEmptyFs _
      refine ⟨Or.inr ⟨?_, fun q _ => ?_⟩, ?_, ?_⟩
      · refine hdir _ ?_
        show getMeasEvalsPath (demoQuickProject td).dirPath "A" "m" c.name ≠ []
        rw [hpath]; simp
      · unfold FS.isFile demoEmptyFs
        by_cases hq : q = []
        · simp [hq]
        · simp [hq]
      · rw [hdir _ (by simp)]; simp
      · rw [hdir _ (by simp)]; simp)
  refine ⟨_, {
    placed := demoQuick_placed td
    local_cal := by intro _ _ _ _ _; rw [hcal]
    keeps := keeps_of_none hcal
    config_name := hdemo
    site_name := by unfold IsName; decide
    meas_name := by unfold IsName; decide
    not_index := by decide
    freqs := hlin.freqs
    meas_ok := rfl
    only := ⟨_, rfl, by simp [Site.getMeasurements, demoQuickMeas]⟩
    tree := demoEmptyFs_tree
    processed := ⟨[], heq.trans hw⟩
    recording := rfl
    quick := by unfold Config.quickRead; rw [hread]; rfl
    ref_time := rfl
    fit := ?_ }⟩
  intro m' d hd
  rw [hev, Except.ok.injEq, Prod.mk.injEq] at hd
  obtain ⟨-, rfl⟩ := hd
  exact C58_fit hlin (keeps_of_none hcal) hs h (fs := demoEmptyFs) (dir := []) (by rw [hcal])

/-- **C58** on the demonstration: the transfer function of the project and that of `quick_tf` are the same. -/
example : ∃ s' : FsState ℂ,
    (∃ files, processTimeToEvals demoConfig (demoQuickProject demoLin) "A" "m" files { fs := demoEmptyFs } = (.ok (), s')) ∧
    demoConfig.tfOf (demoQuickProject demoLin) s'.fs 2 "A" none none =
      demoConfig.quickTf demoEmptyFs ["proj", "time", "A", "m"] (some ["proj", "calibrate"]) := by
  obtain ⟨evals, lm, h, -⟩ := demo_evals
  obtain ⟨s', hs⟩ := demo_single_run demoConfig rfl demoLin rfl rfl demoConfig_linear demoConfig_suits _ evals h
  refine ⟨s', hs.processed, C58_agrees _ _ _ _ _ _ _ _ hs ?_⟩
  intro tdp h
  simp only [demoConfig, runTimeProcessors, List.foldlM_cons, List.foldlM_nil, Proc.run, bind, Except.bind, except_pure_ok] at h
  subst h
  rfl

/-- a recording at 4 Hz -/
def demoFast : TimeData ℚ where
  md := { fs := 4, chans := ["Hx", "Ex"], nSamples := 16, firstTime := 10, lastTime := 55 / 4 }
  data := [[1, 2, 3, 4, 5, 6, 7, 8, 9, 8, 7, 6, 5, 4, 3, 2], [3, 6, 9, 12, 15, 18, 21, 24, 27, 24, 21, 18, 15, 12, 9, 6]]

/-- a configuration that halves the sampling frequency and evaluates at a quarter of it -/
noncomputable def demoHalving : Config :=
  { demoConfig with
    readers := [fixedReader demoFast]
    timeProcs := [.decimate 3 2]
    decSetup := { nLevels := 1, perLevel := 1, minSamples := 1 }
    defaultFreqs := fun f n => List.replicate n (f / 4) }

theorem demoHalving_linear : demoHalving.LinearChain where
  lawful := demoSciPy_lawful
  scipy := demoSciPy_linear
  procs := by
    intro p hp
    simp only [demoHalving, List.mem_singleton] at hp
    subst hp
    exact ⟨by simp [Proc.Valid], trivial⟩
  maxSingle := by decide
  freqs := fun _ n => by simp [demoHalving]
  windower := Or.inl rfl
  minNWins := by decide
  ft_length := fun n row => by simp [demoHalving, demoConfig, sumTransform]
  ft_linear := sumTransform_linear
  specProcs := by simp [demoHalving, demoConfig]

/-- the processed recording -/
def demoHalved : TimeData ℚ where
  md := { fs := 2, chans := ["Hx", "Ex"], nSamples := 8, firstTime := 10, lastTime := 27 / 2, history := ["Decimate"] }
  data := [[1, 3, 5, 7, 9, 7, 5, 3], [3, 9, 15, 21, 27, 21, 15, 9]]

theorem demoHalved_eq : runTimeProcessors demoSciPy [.decimate 3 2] demoFast = .ok demoHalved := by decide +kernel

theorem demoHalving_suits : demoHalving.Suits demoFast where
  consistent := ⟨by decide, by decide, by decide, by decide +kernel⟩
  chans := by decide
  two := by decide
  out := by decide
  inp := by decide
  cross := by decide
  nodup := by decide
  counts := ⟨rfl, rfl⟩
  n_cross := rfl
  rate := by
    intro tdp h
    have : tdp = demoHalved := Except.ok.inj (h.symm.trans demoHalved_eq)
    rw [this]
    show (2 : ℚ) ≤ 10 ^ 13
    norm_num

/-- decimation and windowing of the processed recording succeed -/
def demoHalvedToWindows : Except Err (WinData ℚ) := do
  let p ← DecSetup.run (K := ℚ) { nLevels := 1, perLevel := 1, minSamples := 1 } (fun f n => List.replicate n (f / 4)) 2
  let dec ← Decimator.run demoSciPy false 3 p demoHalved
  let wp ← WindowSetup.run { minNWins := 2, winSizes := some [4], olapSizes := some [2] } dec.md.nLevels dec.md.fs
  windowerRun 10 wp dec

theorem demoHalvedToWindows_eq : (demoHalvedToWindows.map fun w => w.md.nLevels) = .ok 1 := by decide +kernel

theorem demoHalving_evals : ∃ dp evals, demoHalving.toEvals 10 demoFast = .ok (dp, evals) ∧ dp.nLevels = 1 := by
  have hw := demoHalvedToWindows_eq
  unfold demoHalvedToWindows at hw
  simp only [except_map_ok, except_bind_ok] at hw
  obtain ⟨win, ⟨p, h2, dec, h3, wp, h4, h5⟩, hn⟩ := hw
  have hc := demoHalving_linear
  obtain ⟨a1, a2, -⟩ := C23_chain_consistent demoSciPy demoSciPy_lawful [.decimate 3 2] (fun q hq => (hc.procs q hq).1) demoFast
    demoHalved demoHalving_suits.consistent demoHalved_eq
  obtain ⟨-, hp1, -, hpos, -⟩ := DecSetup.run_spec _ _ _ _ h2
  obtain ⟨b1, b2, b3, b4, b5⟩ := exact_decimator demoSciPy_lawful demoSciPy_linear (by decide : 2 ≤ 3) (by omega) a1 (by decide)
    (by show (2 : ℚ) ≤ 10 ^ 13; norm_num) h3
  have hwp := (C14_one_size_per_level _ _ _ _ h4).2.1
  obtain ⟨c1, c2, c3, c4, c5⟩ := windower_windows (Or.inl rfl) b1 (by rw [b2]; decide) (by rw [hwp]) h5
  obtain ⟨spec, f1, -⟩ := C51_fourier_run id sumTransform (fun n row => by simp [sumTransform]) win c1
  obtain ⟨d1, d2, d3, d4, d5⟩ := exact_fourier (nfl := id) (fun n row => by simp [sumTransform]) sumTransform_linear c1 (by
    intro wlm hwlm
    obtain ⟨i, hi, rfl⟩ := List.mem_iff_getElem.1 hwlm
    obtain ⟨lm, e1, e2⟩ := c4 i _ (List.getElem?_eq_getElem hi)
    rw [e2]
    exact b4 lm (List.mem_of_getElem? e1)) f1
  obtain ⟨ev, g1, -⟩ := C27_evaluation p spec d1 d4 (le_of_eq (by rw [d3, hn, hp1]))
  refine ⟨p, ev, ?_, hp1⟩
  unfold Config.toEvals Config.toSpectra Config.processSpectra Config.window Config.decimate
  simp only [except_bind_ok, except_pure_ok]
  exact ⟨(p, spec), ⟨demoHalved, demoHalved_eq, p, h2, dec, h3, win, ⟨wp, h4, h5⟩, spec, f1, rfl⟩, spec, rfl, ev, g1, rfl⟩

/-- **C58** (finding) on the demonstration: the frequencies of the transfer function in the project are twice the true ones. -/
example : ∃ s' : FsState ℂ,
    (∃ files, processTimeToEvals demoHalving (demoQuickProject demoFast) "A" "m" files { fs := demoEmptyFs } = (.ok (), s')) ∧
    demoHalving.tfOf (demoQuickProject demoFast) s'.fs 4 "A" none none =
      (demoHalving.quickTf demoEmptyFs ["proj", "time", "A", "m"] (some ["proj", "calibrate"])).map fun sol =>
        sol.withFreqs (sol.freqs.map fun f => 2 * f) := by
  obtain ⟨dp, evals, h, -⟩ := demoHalving_evals
  obtain ⟨s', hs⟩ := demo_single_run demoHalving rfl demoFast rfl rfl demoHalving_linear demoHalving_suits dp evals h
  obtain ⟨dp', hdp'⟩ : ∃ dp', demoHalving.decSetup.run demoHalving.defaultFreqs 4 = .ok dp' := by
    cases hr : demoHalving.decSetup.run demoHalving.defaultFreqs 4 with
    | ok x => exact ⟨x, rfl⟩
    | error e =>
      have : ((DecSetup.run (K := ℚ) { nLevels := 1, perLevel := 1, minSamples := 1 }
        (fun f n => List.replicate n (f / 4)) 4).map fun _ => ()) = .ok () := by decide +kernel
      change (DecSetup.run (K := ℚ) { nLevels := 1, perLevel := 1, minSamples := 1 }
        (fun f n => List.replicate n (f / 4)) 4) = .error e at hr
      rw [hr] at this
      cases this
  refine ⟨s', hs.processed, C58_wrong_frequencies _ _ _ _ _ _ _ _ hs dp' hdp' rfl ?_ 2 ?_⟩
  · intro a f n
    simp [demoHalving, mul_div_assoc]
  · intro tdp h
    have : tdp = demoHalved := Except.ok.inj (h.symm.trans demoHalved_eq)
    rw [this]
    show (4 : ℚ) = 2 * 2
    norm_num

end Resistics
